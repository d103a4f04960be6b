import Verif.Props.Guard
/-!
# C127: exactly what becomes of a receipt

A receipt is counted, escrowed, refused without a trace, or it crashes the processor.  For both kinds of receipt the conditions are stated in terms of
the stored logs and the receipt alone and shown to be necessary and sufficient.
-/
namespace Keriox

/-! ## Specification -/

/-- the two ways a receipt of a validator crashes the processor: a log it needs cannot be read, or an index in it names no key or weight
of the keys that the validator's event, the one it names, has established -/
def ReceiptCrashes (env : Env) (kel : IdentifierPrefix → List SignedEvent) (r : TReceipt) : Prop :=
  ¬ Readable (kel r.body.prefix) ∨ ∃ e, (kel r.body.prefix)[r.body.sn]? = some e ∧
    (¬ Readable (kel r.validatorSeal.prefix) ∨ ∃ v kc bytes, (kel r.validatorSeal.prefix)[r.validatorSeal.sn]? = some v ∧
      NamesEvent env v.msg r.validatorSeal.eventDigest ∧ v.data.keyConfig? = some kc ∧ e.msg.serialize env = .ok bytes ∧ CrashesOn kc r.sigs)

/-- nothing is stored anywhere -/
def NoTrace (db db' : Db) : Prop := ∀ t x, db'.vec t x = db.vec t x

/-! ## Proof -/

theorem getKeysAtEvent_fst (env : Env) (id : IdentifierPrefix) (n : Nat) (d : SelfAddressingPrefix) (a : MapDb) :
    (getKeysAtEvent mapOps env id n d a).1 = match (getEventAtSn mapOps id n a).1 with
      | .panic => .panic
      | .ok (some e) => (match e.msg.checkDigest env d with
        | .panic => .panic
        | .err er => .err er
        | .ok true => (match e.data.keyConfig? with
          | some kc => .ok (some kc)
          | none => .err (.semantic "Receipt binding incorrect"))
        | .ok false => .err (.semantic "Event digests doesn't match"))
      | _ => .err .eventOutOfOrder := by
  unfold getKeysAtEvent
  rw [StM.bind_run]
  rcases hx : getEventAtSn mapOps id n a with ⟨x, a1⟩
  cases x with
  | panic => rw [StM.result_panic hx]
  | err er => rw [StM.result_err hx]; rfl
  | ok o =>
    rw [StM.result_ok hx]
    cases o with
    | none => rfl
    | some e =>
      dsimp only
      rw [StM.bind_run]
      unfold StM.lift
      cases e.msg.checkDigest env d with
      | panic => rfl
      | err er => rfl
      | ok b =>
        cases b with
        | false => rfl
        | true =>
          dsimp only
          rw [if_pos rfl]
          cases e.data.keyConfig? <;> rfl

theorem validatorStep_fst (env : Env) (r : TReceipt) (a : MapDb) :
    (validatorReceiptStep mapOps env r a).1 = match (getEventAtSn mapOps r.body.prefix r.body.sn a).1 with
      | .panic => .panic
      | .ok (some e) => (match (getKeysAtEvent mapOps env r.validatorSeal.prefix r.validatorSeal.sn r.validatorSeal.eventDigest a).1 with
        | .panic => .panic
        | .err er => .err er
        | .ok none => .err (.semantic "Incorrect receipt signatures")
        | .ok (some kc) => (match e.msg.serialize env with
          | .panic => .panic
          | .err er => .err er
          | .ok bytes => (match kc.verify env bytes r.sigs with
            | .panic => .panic
            | .err er => .err er
            | .ok true => .ok ()
            | .ok false => .err (.semantic "Incorrect receipt signatures"))))
      | _ => .err (.semantic "Receipt escrowed") := by
  unfold validatorReceiptStep
  have hro := getEventAtSn_ro r.body.prefix r.body.sn a
  rw [StM.bind_run]
  rcases hx : getEventAtSn mapOps r.body.prefix r.body.sn a with ⟨x, a1⟩
  rw [hx] at hro
  dsimp only at hro
  cases x with
  | panic => rw [StM.result_panic hx]
  | err er => rw [StM.result_err hx]; rfl
  | ok o =>
    rw [StM.result_ok hx]
    cases o with
    | none => rfl
    | some e =>
      dsimp only
      have hk : (getKeysAtEvent mapOps env r.validatorSeal.prefix r.validatorSeal.sn r.validatorSeal.eventDigest a).1 =
          (getKeysAtEvent mapOps env r.validatorSeal.prefix r.validatorSeal.sn r.validatorSeal.eventDigest a1).1 := by
        rw [getKeysAtEvent_fst, getKeysAtEvent_fst, getEventAtSn_congr hro.symm]
      rw [hk, StM.bind_run]
      rcases getKeysAtEvent mapOps env r.validatorSeal.prefix r.validatorSeal.sn r.validatorSeal.eventDigest a1 with ⟨y, a2⟩
      cases y with
      | panic => rfl
      | err er => rfl
      | ok o =>
        cases o with
        | none => rfl
        | some kc =>
          dsimp only
          rw [StM.bind_run, show (StM.lift (e.msg.serialize env) : StM MapDb Bytes) a2 = (e.msg.serialize env, a2) from rfl]
          cases e.msg.serialize env with
          | panic => rfl
          | err er => rfl
          | ok bytes =>
            dsimp only
            rw [StM.bind_run, show (StM.lift (kc.verify env bytes r.sigs) : StM MapDb Bool) a2 = (kc.verify env bytes r.sigs, a2) from rfl]
            cases kc.verify env bytes r.sigs with
            | panic => rfl
            | err er => rfl
            | ok b => cases b <;> rfl

theorem getEvent_after (env : Env) (as : List Action) (id : IdentifierPrefix) (hid : id.toStr ≠ []) (n : Nat) :
    (Readable ((after env as).kel id) → (getEventAtSn mapOps id n (after env as).abs).1 = .ok (((after env as).kel id)[n]?)) ∧
    (¬ Readable ((after env as).kel id) → (getEventAtSn mapOps id n (after env as).abs).1 = .panic) := by
  rw [← (getEventAtSn_sim sled_sim _ _ _ (after_inv env as)).1]
  rcases getEventAtSn_spec env as id hid n with ⟨h, h'⟩ | ⟨h, h'⟩
  · exact ⟨fun _ => h, fun g => absurd h' g⟩
  · exact ⟨fun g => absurd g h', fun _ => h⟩

/-- `compute_state` on a database that holds the same logs: it succeeds exactly on readable logs -/
theorem state_after (env : Env) (as : List Action) (id : IdentifierPrefix) (hid : id.toStr ≠ []) (a : MapDb)
    (ht : a.tables .kels id.toStr = (after env as).abs.tables .kels id.toStr) (hr : Readable ((after env as).kel id)) :
    ∃ st, (computeState mapOps env id a).1 = .ok st := by
  obtain ⟨s, hl⟩ := after_log env as id hid
  have hg : (after env as).kel id = ((after env as).abs.tables .kels id.toStr).getD [] := by
    show _ = ((after env as).vec .kels id.toStr).getD []
    unfold Db.kel
    cases (after env as).vec .kels id.toStr <;> rfl
  rw [computeState_run, ht]
  cases h : (after env as).abs.tables .kels id.toStr with
  | none => exact ⟨_, rfl⟩
  | some l =>
    rw [h] at hg
    simp only [Option.getD_some] at hg
    rw [hg] at hr hl
    dsimp only
    rw [if_pos ((readable_iff _).2 hr), hl.foldState hid]
    exact ⟨_, rfl⟩

theorem validator_fst (env : Env) (as : List Action) (r : TReceipt) (hb : r.body.prefix.toStr ≠ [])
    (hr : Readable ((after env as).kel r.body.prefix)) :
    ((process sled env (.rctT r) (after env as)).1.isOk = true ↔ (validatorReceiptStep mapOps env r (after env as).abs).1 = .ok ()) ∧
    ((process sled env (.rctT r) (after env as)).1 = .panic ↔ (validatorReceiptStep mapOps env r (after env as).abs).1 = .panic) ∧
    ∀ er, (process sled env (.rctT r) (after env as)).1 = .err er ↔ (validatorReceiptStep mapOps env r (after env as).abs).1 = .err er := by
  rw [(process_abs env _ (after_inv env as) _).1]
  show ((processValidatorReceipt mapOps env r (after env as).abs).1.isOk = true ↔ _) ∧ ((processValidatorReceipt mapOps env r (after env as).abs).1 = _ ↔ _) ∧
    ∀ er, (processValidatorReceipt mapOps env r (after env as).abs).1 = _ ↔ _
  have hk : (validatorReceiptStep mapOps env r (after env as).abs).2.tables .kels r.body.prefix.toStr =
      (after env as).abs.tables .kels r.body.prefix.toStr := by
    rw [← validatorReceipt_tables]
    exact validatorReceipt_writes env r _ .kels _ (.inr (by simp))
  unfold processValidatorReceipt
  rw [StM.bind_run]
  rcases hx : validatorReceiptStep mapOps env r (after env as).abs with ⟨x, a1⟩
  rw [hx] at hk
  cases x with
  | ok u =>
    obtain ⟨st, hst⟩ := state_after env as r.body.prefix hb a1 hk hr
    dsimp only
    rw [hst]
    refine ⟨iff_of_true rfl rfl, ?_, ?_⟩
    · simp
    · intro er; simp
  | err e => refine ⟨?_, ?_, ?_⟩ <;> simp [Res.isOk]
  | panic => refine ⟨?_, ?_, ?_⟩ <;> simp [Res.isOk]

theorem validator_unreadable (env : Env) (as : List Action) (r : TReceipt) (hb : r.body.prefix.toStr ≠ [])
    (hr : ¬ Readable ((after env as).kel r.body.prefix)) : (process sled env (.rctT r) (after env as)).1 = .panic := by
  rw [(process_abs env _ (after_inv env as) _).1]
  show (processValidatorReceipt mapOps env r (after env as).abs).1 = _
  have h := validatorStep_fst env r (after env as).abs
  rw [(getEvent_after env as _ hb _).2 hr] at h
  unfold processValidatorReceipt
  rw [StM.bind_run]
  rcases hx : validatorReceiptStep mapOps env r (after env as).abs with ⟨x, a1⟩
  rw [hx] at h
  dsimp only at h
  subst h
  rfl

/-! ## C127 -/

/-- C127: `process` crashes on a receipt of a validator if and only if one of the two conditions holds. -/
theorem C127_crash_exact (env : Env) (as : List Action) (r : TReceipt) (hb : r.body.prefix.toStr ≠ []) (hv : r.validatorSeal.prefix.toStr ≠ []) :
    (process sled env (.rctT r) (after env as)).1 = .panic ↔ ReceiptCrashes env (after env as).kel r := by
  unfold ReceiptCrashes
  by_cases hr : Readable ((after env as).kel r.body.prefix)
  case neg =>
    exact iff_of_true (validator_unreadable env as r hb hr) (.inl hr)
  rw [(validator_fst env as r hb hr).2.1, validatorStep_fst, (getEvent_after env as _ hb _).1 hr]
  simp only [hr, not_true_eq_false, false_or]
  cases he : ((after env as).kel r.body.prefix)[r.body.sn]? with
  | none => simp
  | some e =>
    dsimp only
    simp only [Option.some.injEq, exists_eq_left']
    rw [getKeysAtEvent_fst]
    by_cases hrv : Readable ((after env as).kel r.validatorSeal.prefix)
    case neg =>
      rw [(getEvent_after env as _ hv _).2 hrv]
      exact iff_of_true rfl (.inl hrv)
    rw [(getEvent_after env as _ hv _).1 hrv]
    simp only [hrv, not_true_eq_false, false_or]
    cases hg : ((after env as).kel r.validatorSeal.prefix)[r.validatorSeal.sn]? with
    | none => simp
    | some g =>
      dsimp only
      simp only [Option.some.injEq]
      have hn := checkDigest_iff (env := env) (m := g.msg) (d := r.validatorSeal.eventDigest)
      cases hc : g.msg.checkDigest env r.validatorSeal.eventDigest with
      | panic => exact absurd hc (checkDigest_np _ _ _)
      | err er =>
        refine iff_of_false (by simp) ?_
        rintro ⟨v, kc, bytes, rfl, h, _⟩
        rw [hn.2 h] at hc; cases hc
      | ok b =>
        cases b with
        | false =>
          refine iff_of_false (by simp) ?_
          rintro ⟨v, kc, bytes, rfl, h, _⟩
          rw [hn.2 h] at hc; cases hc
        | true =>
          dsimp only
          cases hkc : g.data.keyConfig? with
          | none =>
            refine iff_of_false (by simp) ?_
            rintro ⟨v, kc, bytes, rfl, _, h, _⟩
            rw [h] at hkc; cases hkc
          | some kc =>
            dsimp only
            cases hs : e.msg.serialize env with
            | panic => exact absurd hs (Clean.encode _ _ _)
            | err er =>
              refine iff_of_false (by simp) ?_
              rintro ⟨v, kc, bytes, rfl, _, _, h, _⟩
              cases h
            | ok bytes =>
              dsimp only
              have hp := C23_panic_exact env kc bytes r.sigs
              constructor
              · intro h
                refine ⟨g, kc, bytes, rfl, hn.1 hc, hkc, rfl, hp.1 ?_⟩
                cases hvv : kc.verify env bytes r.sigs with
                | panic => rfl
                | err er => rw [hvv] at h; cases h
                | ok b => rw [hvv] at h; cases b <;> cases h
              · rintro ⟨v, kc', bytes', rfl, _, h1, h2, h3⟩
                rw [hkc] at h1
                obtain rfl := Option.some.inj h1
                rw [hp.2 h3]

/-- C127: a receipt of a validator is accepted if and only if the two logs can be read and it verifies: the event it receipts is logged,
the validator's event it names is logged, and the keys that event established have signed the receipted event. -/
theorem C127_counted_exact (env : Env) (as : List Action) (r : TReceipt) (hb : r.body.prefix.toStr ≠ []) (hv : r.validatorSeal.prefix.toStr ≠ []) :
    (process sled env (.rctT r) (after env as)).1.isOk = true ↔
      Readable ((after env as).kel r.body.prefix) ∧ Readable ((after env as).kel r.validatorSeal.prefix) ∧ (after env as).Verified env r := by
  by_cases hr : Readable ((after env as).kel r.body.prefix)
  case neg =>
    rw [validator_unreadable env as r hb hr]
    exact iff_of_false (by simp [Res.isOk]) fun h => hr h.1
  rw [(validator_fst env as r hb hr).1, validatorStep_fst, (getEvent_after env as _ hb _).1 hr]
  unfold Db.Verified
  constructor
  · intro h
    refine ⟨hr, ?_⟩
    cases he : ((after env as).kel r.body.prefix)[r.body.sn]? with
    | none => rw [he] at h; cases h
    | some e =>
      rw [he] at h
      dsimp only at h
      rw [getKeysAtEvent_fst] at h
      by_cases hrv : Readable ((after env as).kel r.validatorSeal.prefix)
      case neg =>
        rw [(getEvent_after env as _ hv _).2 hrv] at h; cases h
      refine ⟨hrv, ?_⟩
      rw [(getEvent_after env as _ hv _).1 hrv] at h
      cases hg : ((after env as).kel r.validatorSeal.prefix)[r.validatorSeal.sn]? with
      | none => rw [hg] at h; cases h
      | some g =>
        rw [hg] at h
        dsimp only at h
        cases hc : g.msg.checkDigest env r.validatorSeal.eventDigest with
        | panic => rw [hc] at h; cases h
        | err er => rw [hc] at h; cases h
        | ok b =>
          rw [hc] at h
          cases b with
          | false => cases h
          | true =>
            dsimp only at h
            cases hkc : g.data.keyConfig? with
            | none => rw [hkc] at h; cases h
            | some kc =>
              rw [hkc] at h
              dsimp only at h
              cases hs : e.msg.serialize env with
              | panic => rw [hs] at h; cases h
              | err er => rw [hs] at h; cases h
              | ok bytes =>
                rw [hs] at h
                dsimp only at h
                refine ⟨e, g, kc, bytes, rfl, rfl, checkDigest_iff.1 hc, hkc, hs, validSigs_of_verify ?_⟩
                cases hvv : kc.verify env bytes r.sigs with
                | panic => rw [hvv] at h; cases h
                | err er => rw [hvv] at h; cases h
                | ok b => cases b with
                  | true => rfl
                  | false => rw [hvv] at h; cases h
  · rintro ⟨_, hrv, e, g, kc, bytes, h1, h2, h3, h4, h5, h6⟩
    rw [h1]
    dsimp only
    rw [getKeysAtEvent_fst, (getEvent_after env as _ hv _).1 hrv, h2]
    dsimp only
    rw [checkDigest_iff.2 h3]
    dsimp only
    rw [h4]
    dsimp only
    rw [h5]
    dsimp only
    rw [verify_of_validSigs h6]

theorem unlogged_iff (env : Env) (as : List Action) (id : IdentifierPrefix) (hb : id.toStr ≠ []) (n : Nat) :
    (getEventAtSn sled id n (after env as)).1 = .ok none ↔
      Readable ((after env as).kel id) ∧ ((after env as).kel id).length ≤ n := by
  rcases getEventAtSn_spec env as id hb n with ⟨h, h'⟩ | ⟨h, h'⟩
  · rw [h]
    simp [h']
  · rw [h]
    exact iff_of_false (by simp) fun g => h' g.1

/-- C127: a receipt of a validator that is accepted is appended to the receipts of its identifier, and nothing else is written. -/
theorem C127_counted_stored (env : Env) (as : List Action) (r : TReceipt) (hb : r.body.prefix.toStr ≠ [])
    (h : (process sled env (.rctT r) (after env as)).1.isOk = true) :
    (after env as).PushedOnly (after env (as ++ [.submit (.rctT r)])) .vrcs r.body.prefix.toStr r := by
  have hp := process_abs env _ (after_inv env as) (.rctT r)
  have hR : Readable ((after env as).kel r.body.prefix) := Classical.byContradiction fun hR => by
    rw [validator_unreadable env as r hb hR] at h; cases h
  have hst := (validator_fst env as r hb hR).1.1 h
  rcases validatorStep_cases env r (after env as).abs with ⟨_, h2, _⟩ | ⟨_, _, _, _, a1, g1, _, _, _, _, _, g7, g8⟩ | ⟨y, a1, g1, g2, _, g8⟩
  · exact absurd hst (h2 ())
  · refine pushedOnly_of (a1 := a1) g7 ?_
    rw [after_snoc, hp.2.1]
    show (processValidatorReceipt mapOps env r _).2.tables = _
    rw [validatorReceipt_tables, g8]
  · rw [g8] at hst; cases hst

/-- C127: a receipt of a validator for a number beyond the end of a readable log is refused and put aside, and nothing else is written. -/
theorem C127_escrowed (env : Env) (as : List Action) (r : TReceipt) (hb : r.body.prefix.toStr ≠ [])
    (hR : Readable ((after env as).kel r.body.prefix)) (hn : ((after env as).kel r.body.prefix).length ≤ r.body.sn) :
    (process sled env (.rctT r) (after env as)).1 = .err (.semantic "Receipt escrowed") ∧
    (after env as).PushedOnly (after env (as ++ [.submit (.rctT r)])) .vres r.body.prefix.toStr r :=
  C30_unknown_escrowed_t env as r ((unlogged_iff env as _ hb _).2 ⟨hR, hn⟩)

/-- C127: a receipt of a validator that is neither accepted nor put aside leaves no trace, whatever the answer (an error or a crash). -/
theorem C127_refused (env : Env) (as : List Action) (r : TReceipt) (hb : r.body.prefix.toStr ≠ []) (hv : r.validatorSeal.prefix.toStr ≠ [])
    (h1 : ¬ (Readable ((after env as).kel r.body.prefix) ∧ Readable ((after env as).kel r.validatorSeal.prefix) ∧ (after env as).Verified env r))
    (h2 : ¬ (Readable ((after env as).kel r.body.prefix) ∧ ((after env as).kel r.body.prefix).length ≤ r.body.sn)) :
    (process sled env (.rctT r) (after env as)).1.isOk = false ∧ NoTrace (after env as) (after env (as ++ [.submit (.rctT r)])) := by
  have hno : (process sled env (.rctT r) (after env as)).1.isOk ≠ true := fun h => h1 ((C127_counted_exact env as r hb hv).1 h)
  refine ⟨by simpa using hno, ?_⟩
  intro t x
  rw [after_snoc]
  show (process sled env (.rctT r) (after env as)).2.abs.tables t x = (after env as).abs.tables t x
  rw [(process_abs env _ (after_inv env as) _).2.1]
  show (processValidatorReceipt mapOps env r (after env as).abs).2.tables t x = _
  rw [validatorReceipt_tables]
  have hne := fun h => h2 ((unlogged_iff env as _ hb _).1 h)
  rw [(getEventAtSn_sim sled_sim _ _ _ (after_inv env as)).1] at hne
  rcases validatorStep_cases env r (after env as).abs with ⟨h, _⟩ | ⟨_, _, _, _, a1, g1, _, _, _, _, _, _, g8⟩ | ⟨y, a1, g1, g2, _⟩
  · rw [h]
  · exfalso
    have hr : Readable ((after env as).kel r.body.prefix) := Classical.byContradiction fun hR => by
      rw [(getEvent_after env as _ hb _).2 hR] at g1; cases g1
    exact hno ((validator_fst env as r hb hr).1.2 (by rw [g8]; rfl))
  · exfalso
    by_cases hR : Readable ((after env as).kel r.body.prefix)
    · rcases g2 with rfl | ⟨er, rfl⟩
      · exact hne g1
      · rw [(getEvent_after env as _ hb _).1 hR] at g1; cases g1
    · rw [(getEvent_after env as _ hb _).2 hR] at g1
      subst g1
      rcases g2 with h | ⟨er, h⟩ <;> cases h

/-! ### Witness receipts -/

theorem signedEvent_serializes (e : SignedEvent) : ∃ b, e.serialize = .ok b := by
  unfold SignedEvent.serialize sigsToCesr adjustWithNum
  simp only [Res.ok_bind]
  exact ⟨_, rfl⟩

theorem witnessStep_fst (env : Env) (as : List Action) (r : NtReceipt) (hb : r.body.prefix.toStr ≠ [])
    (hR : Readable ((after env as).kel r.body.prefix)) :
    ((process sled env (.rctNt r) (after env as)).1.isOk = true ↔ (witnessReceiptStep mapOps env r (after env as).abs).1 = .ok ()) ∧
    ((process sled env (.rctNt r) (after env as)).1 = .panic ↔ (witnessReceiptStep mapOps env r (after env as).abs).1 = .panic) := by
  rw [(process_abs env _ (after_inv env as) _).1]
  show ((processWitnessReceipt mapOps env r (after env as).abs).1.isOk = true ↔ _) ∧ ((processWitnessReceipt mapOps env r (after env as).abs).1 = _ ↔ _)
  have hk : (witnessReceiptStep mapOps env r (after env as).abs).2.tables .kels r.body.prefix.toStr =
      (after env as).abs.tables .kels r.body.prefix.toStr := by
    rw [← witnessReceipt_tables]
    exact witnessReceipt_writes env r _ .kels _ (.inr (by simp))
  unfold processWitnessReceipt
  rw [StM.bind_run]
  rcases hx : witnessReceiptStep mapOps env r (after env as).abs with ⟨x, a1⟩
  rw [hx] at hk
  cases x with
  | ok u =>
    obtain ⟨st, hst⟩ := state_after env as r.body.prefix hb a1 hk hR
    dsimp only
    rw [hst]
    exact ⟨iff_of_true rfl rfl, by simp⟩
  | err e => constructor <;> simp [Res.isOk]
  | panic => constructor <;> simp [Res.isOk]

/-- the outcome of the first part, on a readable log -/
theorem witnessStep_outcome (env : Env) (as : List Action) (r : NtReceipt) (hb : r.body.prefix.toStr ≠ [])
    (hR : Readable ((after env as).kel r.body.prefix)) :
    (((after env as).kel r.body.prefix).length ≤ r.body.sn → (witnessReceiptStep mapOps env r (after env as).abs).1 = .ok ()) ∧
    (r.body.sn < ((after env as).kel r.body.prefix).length →
      (witnessReceiptStep mapOps env r (after env as).abs).1 ≠ .panic ∧
      ((witnessReceiptStep mapOps env r (after env as).abs).1 = .ok () ↔ ∀ c ∈ r.couplets, coupletKindsMatch c)) := by
  have ge := (getEvent_after env as _ hb r.body.sn).1 hR
  unfold witnessReceiptStep
  rw [StM.bind_run]
  rcases hx : getEventAtSn mapOps r.body.prefix r.body.sn (after env as).abs with ⟨x, a1⟩
  rw [hx] at ge
  dsimp only at ge
  subst ge
  rw [StM.result_ok hx]
  constructor
  · intro h
    rw [List.getElem?_eq_none h]
    rfl
  · intro h
    rw [List.getElem?_eq_getElem h]
    generalize ((after env as).kel r.body.prefix)[r.body.sn] = e
    obtain ⟨ser, hs⟩ := signedEvent_serializes e
    dsimp only
    rw [StM.bind_run, show (StM.lift e.serialize : StM MapDb Bytes) a1 = (e.serialize, a1) from rfl, hs]
    dsimp only
    have key := lastErr_none (r.couplets.map fun c => c.1.verify env ser c.2)
    cases hl : lastErr (r.couplets.map fun c => c.1.verify env ser c.2) with
    | none =>
      refine ⟨by (intro h; cases h), iff_of_true rfl fun c hc => ?_⟩
      rw [verify_kinds env c ser]
      exact key.1 hl _ (List.mem_map_of_mem hc)
    | some er =>
      refine ⟨by (intro h; cases h), iff_of_false (by (intro h; cases h)) fun hk => ?_⟩
      rw [key.2] at hl
      · cases hl
      · intro y hy er
        obtain ⟨c, hc, rfl⟩ := List.mem_map.1 hy
        exact (verify_kinds env c ser).1 (hk c hc) er

/-- C127: `process` crashes on a witness receipt if and only if the log of the identifier cannot be read. -/
theorem C127_witness_crash_exact (env : Env) (as : List Action) (r : NtReceipt) (hb : r.body.prefix.toStr ≠ []) :
    (process sled env (.rctNt r) (after env as)).1 = .panic ↔ ¬ Readable ((after env as).kel r.body.prefix) := by
  by_cases hR : Readable ((after env as).kel r.body.prefix)
  · refine iff_of_false ?_ (not_not_intro hR)
    rw [(witnessStep_fst env as r hb hR).2]
    obtain ⟨h1, h2⟩ := witnessStep_outcome env as r hb hR
    rcases Nat.lt_or_ge r.body.sn ((after env as).kel r.body.prefix).length with h | h
    · exact (h2 h).1
    · rw [h1 h]; intro h; cases h
  · refine iff_of_true ?_ hR
    rw [(process_abs env _ (after_inv env as) _).1]
    show (processWitnessReceipt mapOps env r (after env as).abs).1 = _
    have ge := (getEvent_after env as _ hb r.body.sn).2 hR
    unfold processWitnessReceipt witnessReceiptStep
    rw [StM.bind_run, StM.bind_run]
    rcases hx : getEventAtSn mapOps r.body.prefix r.body.sn (after env as).abs with ⟨x, a1⟩
    rw [hx] at ge
    dsimp only at ge
    subst ge
    rw [StM.result_panic hx]

/-- C127: a witness receipt is accepted if and only if the log of the identifier can be read and either has no event under that number or
every key in the receipt is of the algorithm of its signature.  What the signatures are, and whose keys, plays no part. -/
theorem C127_witness_accepted_exact (env : Env) (as : List Action) (r : NtReceipt) (hb : r.body.prefix.toStr ≠ []) :
    (process sled env (.rctNt r) (after env as)).1.isOk = true ↔ Readable ((after env as).kel r.body.prefix) ∧
      (((after env as).kel r.body.prefix).length ≤ r.body.sn ∨ ∀ c ∈ r.couplets, coupletKindsMatch c) := by
  by_cases hR : Readable ((after env as).kel r.body.prefix)
  · rw [(witnessStep_fst env as r hb hR).1]
    obtain ⟨h1, h2⟩ := witnessStep_outcome env as r hb hR
    rcases Nat.lt_or_ge r.body.sn ((after env as).kel r.body.prefix).length with h | h
    · rw [(h2 h).2]
      exact ⟨fun g => ⟨hR, .inr g⟩, fun g => g.2.resolve_left (by omega)⟩
    · exact iff_of_true (h1 h) ⟨hR, .inl h⟩
  · rw [(C127_witness_crash_exact env as r hb).2 hR]
    exact iff_of_false (by simp [Res.isOk]) fun h => hR h.1

/-- C127: where a witness receipt goes: beyond the end of a readable log to the escrow; for a logged event, if accepted, to the receipts; and
otherwise nowhere. -/
theorem C127_witness_stored (env : Env) (as : List Action) (r : NtReceipt) (hb : r.body.prefix.toStr ≠ []) :
    (Readable ((after env as).kel r.body.prefix) → ((after env as).kel r.body.prefix).length ≤ r.body.sn →
      (after env as).PushedOnly (after env (as ++ [.submit (.rctNt r)])) .ures r.body.prefix.toStr r) ∧
    ((process sled env (.rctNt r) (after env as)).1.isOk = true → r.body.sn < ((after env as).kel r.body.prefix).length →
      (after env as).PushedOnly (after env (as ++ [.submit (.rctNt r)])) .rcts r.body.prefix.toStr r) ∧
    ((process sled env (.rctNt r) (after env as)).1.isOk = false → NoTrace (after env as) (after env (as ++ [.submit (.rctNt r)]))) := by
  have hp := process_abs env _ (after_inv env as) (.rctNt r)
  refine ⟨fun h1 h2 => (C30_unknown_escrowed_nt env as r ((unlogged_iff env as _ hb _).2 ⟨h1, h2⟩)).2, fun h h1 => ?_, fun h t x => ?_⟩
  · have hR := ((C127_witness_accepted_exact env as r hb).1 h).1
    have hst := (witnessStep_fst env as r hb hR).1.1 h
    have ge := (getEvent_after env as _ hb r.body.sn).1 hR
    rw [List.getElem?_eq_getElem h1] at ge
    rcases witnessStep_cases env r (after env as).abs with ⟨_, h2, _⟩ | ⟨_, _, a1, _, _, _, g7, g8⟩ | ⟨y, a1, g1, g2, _⟩
    · exact absurd hst (h2 ())
    · refine pushedOnly_of (a1 := a1) g7 ?_
      rw [after_snoc, hp.2.1]
      show (processWitnessReceipt mapOps env r _).2.tables = _
      rw [witnessReceipt_tables, g8]
    · rw [ge] at g1
      rcases g2 with h | ⟨er, h⟩ <;> rw [h] at g1 <;> cases g1
  · rw [after_snoc]
    show (process sled env (.rctNt r) (after env as)).2.abs.tables t x = (after env as).abs.tables t x
    rw [hp.2.1]
    show (processWitnessReceipt mapOps env r (after env as).abs).2.tables t x = _
    rw [witnessReceipt_tables]
    by_cases hR : Readable ((after env as).kel r.body.prefix)
    · have hst := fun g => (witnessStep_fst env as r hb hR).1.2 g
      rw [h] at hst
      rcases witnessStep_cases env r (after env as).abs with ⟨h2, _⟩ | ⟨_, _, a1, _, _, _, g7, g8⟩ | ⟨y, a1, g1, g2, _, g8⟩
      · rw [h2]
      · exact absurd (hst (by rw [g8]; rfl)) (by simp)
      · exact absurd (hst (by rw [g8]; rfl)) (by simp)
    · have ge := (getEvent_after env as _ hb r.body.sn).2 hR
      rcases witnessStep_cases env r (after env as).abs with ⟨h2, _⟩ | ⟨_, _, a1, g1, _⟩ | ⟨y, a1, g1, g2, _⟩
      · rw [h2]
      · rw [ge] at g1; cases g1
      · rw [ge] at g1
        subst g1
        rcases g2 with h | ⟨er, h⟩ <;> cases h

/-! ## Examples -/

/-- the validator's index 1 names none of its keys -/
def Ex.rctCrash : TReceipt := { Ex.rct with sigs := [Ex.sig 9 1 (jsonText Ex.rot.msg.sval)] }
/-- signed by a stranger -/
def Ex.rctForged : TReceipt := { Ex.rct with sigs := [Ex.sig 7 0 (jsonText Ex.rot.msg.sval)] }
/-- an Ed25519 key with an ECDSA signature -/
def Ex.mixedNt : NtReceipt := { Ex.badNt with couplets := [(Ex.key 31, ⟨.ecdsaSha256, List.replicate 64 0⟩)] }

/-- all outcomes occur: a counted receipt, one that crashes, one that is refused, one that is put aside; a witness receipt with any signature,
and one with mixed algorithms, which is taken if the event is not there and refused if it is -/
example : (process sled Ex.env (.rctT Ex.rct) (after Ex.env Ex.rctHist)).1.isOk = true ∧
    (process sled Ex.env (.rctT Ex.rctCrash) (after Ex.env Ex.rctHist)).1 = .panic ∧
    (process sled Ex.env (.rctT Ex.rctForged) (after Ex.env Ex.rctHist)).1.isOk = false ∧
    (process sled Ex.env (.rctT Ex.rct) (after Ex.env [.submit (.event Ex.icp)])).1 = .err (.semantic "Receipt escrowed") ∧
    (process sled Ex.env (.rctNt Ex.badNt) (after Ex.env Ex.rctHist)).1.isOk = true ∧
    (process sled Ex.env (.rctNt Ex.mixedNt) (after Ex.env Ex.rctHist)).1.isOk = false ∧
    (process sled Ex.env (.rctNt Ex.mixedNt) (after Ex.env [.submit (.event Ex.icp)])).1.isOk = true := by
  decide +kernel
example : ReceiptCrashes Ex.env (after Ex.env Ex.rctHist).kel Ex.rctCrash := by
  rw [← C127_crash_exact _ _ _ (by decide +kernel) (by decide +kernel)]
  decide +kernel

end Keriox
