import Verif.Props.Replay
/-!
# C28–C30, C56: receipts
-/
namespace Keriox

/-- `r` verifies in the database: the logged event at the receipted identifier and sequence number is signed by the key
configuration that the validator's logged event, the one named by the receipt's seal, has established -/
def Db.Verified (env : Env) (db : Db) (r : TReceipt) : Prop :=
  ∃ (e v : SignedEvent) (kc : KeyConfig) (bytes : Bytes), (db.kel r.body.prefix)[r.body.sn]? = some e ∧
    (db.kel r.validatorSeal.prefix)[r.validatorSeal.sn]? = some v ∧ NamesEvent env v.msg r.validatorSeal.eventDigest ∧
    v.data.keyConfig? = some kc ∧ e.msg.serialize env = .ok bytes ∧ ValidSigs env kc bytes r.sigs

/-- an empty text is not an identifier -/
theorem rt_text {id : IdentifierPrefix} (h : id.rt = true) : id.toStr ≠ [] := by
  intro h0
  have h1 := of_decide_eq_true h
  rw [h0] at h1
  cases h1

theorem getKeysAtEvent_ok {env : Env} {id : IdentifierPrefix} {n : Nat} {d : SelfAddressingPrefix} {a a' : MapDb} {o : Option KeyConfig}
    (h : getKeysAtEvent mapOps env id n d a = (.ok o, a')) :
    ∃ v kc, (getEventAtSn mapOps id n a).1 = .ok (some v) ∧ v.msg.checkDigest env d = .ok true ∧ v.data.keyConfig? = some kc ∧ o = some kc := by
  unfold getKeysAtEvent at h
  have h' := congrArg Prod.fst h
  dsimp only at h'
  obtain ⟨r, a1, h1, h2⟩ := bind_ok_inv h'
  rcases result_inv h1 with ⟨w, rfl, h3⟩ | ⟨e, rfl, h3⟩
  · cases w with
    | none => cases h2
    | some v =>
      dsimp only at h2
      obtain ⟨b, a2, h4, h5⟩ := bind_ok_inv h2
      have hb : v.msg.checkDigest env d = .ok b := congrArg Prod.fst h4
      cases b with
      | false => cases h5
      | true =>
        rw [if_pos rfl] at h5
        cases hk : v.data.keyConfig? with
        | none => rw [hk] at h5; cases h5
        | some kc =>
          rw [hk] at h5
          exact ⟨v, kc, by rw [h3], hb, hk, (Res.ok.inj h5).symm⟩
  · cases h2

theorem getEventAtSn_congr {a b : MapDb} (h : a.tables = b.tables) (id : IdentifierPrefix) (n : Nat) :
    (getEventAtSn mapOps id n a).1 = (getEventAtSn mapOps id n b).1 := by
  rw [getEventAtSn_run, getEventAtSn_run, h]

/-- what a transferable receipt does: store it after verification, escrow it when the event is not known, or nothing -/
theorem validatorStep_cases (env : Env) (r : TReceipt) (a : MapDb) :
    ((validatorReceiptStep mapOps env r a).2.tables = a.tables ∧ (∀ u, (validatorReceiptStep mapOps env r a).1 ≠ .ok u) ∧
      (getEventAtSn mapOps r.body.prefix r.body.sn a).1 ≠ .ok none) ∨
    (∃ e v kc bytes a1, (getEventAtSn mapOps r.body.prefix r.body.sn a).1 = .ok (some e) ∧
      (getEventAtSn mapOps r.validatorSeal.prefix r.validatorSeal.sn a).1 = .ok (some v) ∧
      v.msg.checkDigest env r.validatorSeal.eventDigest = .ok true ∧ v.data.keyConfig? = some kc ∧
      e.msg.serialize env = .ok bytes ∧ kc.verify env bytes r.sigs = .ok true ∧ a1.tables = a.tables ∧
      validatorReceiptStep mapOps env r a = mapOps.push .vrcs r.body.prefix r a1) ∨
    (∃ x a1, (getEventAtSn mapOps r.body.prefix r.body.sn a).1 = x ∧ (x = .ok none ∨ ∃ er, x = .err er) ∧ a1.tables = a.tables ∧
      validatorReceiptStep mapOps env r a = (.err (.semantic "Receipt escrowed"), (mapOps.push .vres r.body.prefix r a1).2)) := by
  unfold validatorReceiptStep
  have hro := getEventAtSn_ro r.body.prefix r.body.sn a
  rw [StM.bind_run]
  rcases hx : getEventAtSn mapOps r.body.prefix r.body.sn a with ⟨x, a1⟩
  rw [hx] at hro
  dsimp only at hro
  have esc : ∀ w : Except Error (Option SignedEvent), (w = .ok none ∨ ∃ er, w = .error er) →
      (match w with
        | .ok (some e) => do
          let kp ← getKeysAtEvent mapOps env r.validatorSeal.prefix r.validatorSeal.sn r.validatorSeal.eventDigest
          match kp with
          | some kc => do
            let bytes ← StM.lift (e.msg.serialize env)
            let b ← StM.lift (kc.verify env bytes r.sigs)
            if b then addReceiptT mapOps r r.body.prefix else StM.fail (.semantic "Incorrect receipt signatures")
          | none => StM.fail (.semantic "Incorrect receipt signatures")
        | _ => (do
          addEscrowT mapOps r r.body.prefix
          StM.fail (.semantic "Receipt escrowed") : StM MapDb Unit)) a1 =
      (.err (.semantic "Receipt escrowed"), (mapOps.push .vres r.body.prefix r a1).2) := by
    rintro w (rfl | ⟨er, rfl⟩) <;> rfl
  cases x with
  | panic => rw [StM.result_panic hx]; exact .inl ⟨hro, by simp, by simp⟩
  | err er =>
    rw [StM.result_err hx]
    exact .inr (.inr ⟨_, a1, rfl, .inr ⟨er, rfl⟩, hro, esc _ (.inr ⟨er, rfl⟩)⟩)
  | ok o =>
    rw [StM.result_ok hx]
    cases o with
    | none => exact .inr (.inr ⟨_, a1, rfl, .inl rfl, hro, esc _ (.inl rfl)⟩)
    | some e =>
      dsimp only
      rw [StM.bind_run]
      have hro2 := getKeysAtEvent_ro env r.validatorSeal.prefix r.validatorSeal.sn r.validatorSeal.eventDigest a1
      rcases hk : getKeysAtEvent mapOps env r.validatorSeal.prefix r.validatorSeal.sn r.validatorSeal.eventDigest a1 with ⟨y, a2⟩
      rw [hk] at hro2
      dsimp only at hro2
      cases y with
      | panic => exact .inl ⟨hro2.trans hro, by simp, by simp⟩
      | err er => exact .inl ⟨hro2.trans hro, by simp, by simp⟩
      | ok o =>
        obtain ⟨v, kc, g1, g2, g3, rfl⟩ := getKeysAtEvent_ok hk
        dsimp only
        rw [StM.bind_run]
        cases hs : e.msg.serialize env with
        | panic => exact .inl ⟨hro2.trans hro, by simp [StM.lift], by simp⟩
        | err er => exact .inl ⟨hro2.trans hro, by simp [StM.lift], by simp⟩
        | ok bytes =>
          simp only [StM.lift]
          rw [StM.bind_run, show (StM.lift (kc.verify env bytes r.sigs) : StM MapDb Bool) a2 = (kc.verify env bytes r.sigs, a2) from rfl]
          cases hv : kc.verify env bytes r.sigs with
          | panic => exact .inl ⟨hro2.trans hro, by simp, by simp⟩
          | err er => exact .inl ⟨hro2.trans hro, by simp, by simp⟩
          | ok b =>
            cases b with
            | false => exact .inl ⟨hro2.trans hro, by simp [StM.fail, StM.lift], by simp⟩
            | true =>
              refine .inr (.inl ⟨e, v, kc, bytes, a2, rfl, ?_, g2, g3, hs, hv, hro2.trans hro, rfl⟩)
              rw [← g1]; exact getEventAtSn_congr hro.symm _ _

/-- storing the receipt is followed by a query of the state only -/
theorem validatorReceipt_tables (env : Env) (r : TReceipt) (a : MapDb) :
    (processValidatorReceipt mapOps env r a).2.tables = (validatorReceiptStep mapOps env r a).2.tables := by
  unfold processValidatorReceipt
  rw [StM.bind_run]
  rcases validatorReceiptStep mapOps env r a with ⟨x, a1⟩
  cases x with
  | ok u => exact computeState_ro env _ a1
  | err e => rfl
  | panic => rfl

theorem decAll_guard {t : Tbl} {p : t.Val → Bool} (h : t.dec = guardRt p) (l : List t.Val) :
    t.decAll l = if l.all p then some l else none := by
  induction l with
  | nil => rfl
  | cons v vs ih =>
    rw [Tbl.decAll, h, ih]
    unfold guardRt
    cases hp : p v <;> cases hq : vs.all p <;> simp [hp, hq]

theorem mem_pushed_guard {t : Tbl} {p : t.Val → Bool} (h : t.dec = guardRt p) (o : Option (List t.Val)) (v w : t.Val)
    (hw : w ∈ t.pushed o v) : w = v ∨ ∃ l, o = some l ∧ w ∈ l := by
  unfold Tbl.pushed Tbl.entry at hw
  cases o with
  | none => exact .inl (by simpa using hw)
  | some l =>
    dsimp only at hw
    rw [decAll_guard h] at hw
    by_cases hr : l.all p = true
    · rw [if_pos hr] at hw
      dsimp only at hw
      rcases List.mem_append.1 hw with hw | hw
      · exact .inr ⟨l, rfl, hw⟩
      · exact .inl (by simpa using hw)
    · rw [if_neg hr] at hw
      exact .inl (by simpa using hw)

/-- the invariant behind C28, on the map database -/
def MapDb.ReceiptsOk (env : Env) (a : MapDb) : Prop :=
  ∀ (x : Bytes) (l : List TReceipt) (r : TReceipt), a.tables .vrcs x = some l → r ∈ l → r.body.prefix.toStr = x ∧
    (x ≠ [] → r.validatorSeal.prefix.toStr ≠ [] →
    ∃ (e v : SignedEvent) (kc : KeyConfig) (bytes : Bytes), (a.log x)[r.body.sn]? = some e ∧
      (a.log r.validatorSeal.prefix.toStr)[r.validatorSeal.sn]? = some v ∧ NamesEvent env v.msg r.validatorSeal.eventDigest ∧
      v.data.keyConfig? = some kc ∧ e.msg.serialize env = .ok bytes ∧ ValidSigs env kc bytes r.sigs)

theorem log_grows (env : Env) (act : Action) (a : MapDb) (hg : a.Good env) (x : Bytes) (hx : x ≠ []) :
    a.log x <+: (act.run mapOps env a).log x := by
  rcases action_log env act a hg x hx with h | ⟨e, _, _, _, _, _, _, h⟩
  · rw [h]; exact List.prefix_refl _
  · rw [h]; exact List.prefix_append _ _

theorem prefix_get {α : Type} {l m : List α} (h : l <+: m) {i : Nat} {a : α} (ha : l[i]? = some a) : m[i]? = some a := by
  obtain ⟨k, rfl⟩ := h
  rw [List.getElem?_append_left (List.getElem?_eq_some_iff.1 ha).1]; exact ha

theorem ReceiptsOk.step (env : Env) (act : Action) (a : MapDb) (hg : a.Good env) (h : a.ReceiptsOk env) :
    (act.run mapOps env a).ReceiptsOk env := by
  have carry : (act.run mapOps env a).tables .vrcs = a.tables .vrcs → (act.run mapOps env a).ReceiptsOk env := by
    intro ht x l r hl hr
    rw [ht] at hl
    refine ⟨(h x l r hl hr).1, fun hx hv => ?_⟩
    obtain ⟨e, v, kc, bytes, h1, h2, h3⟩ := (h x l r hl hr).2 hx hv
    exact ⟨e, v, kc, bytes, prefix_get (log_grows env act a hg x hx) h1, prefix_get (log_grows env act a hg _ hv) h2, h3⟩
  cases act with
  | reprocess => exact carry (escrow_writes env a .vrcs (by simp))
  | lookup t id => exact carry (by rw [Action.run, ReadOnly.read t id a])
  | submit m =>
    cases m with
    | event e => exact carry (WritesTbl.of (processEvent_kels env e) a .vrcs (by simp))
    | rctNt r => exact carry (WritesTbl.of (witnessReceipt_writes env r) a .vrcs (by simp))
    | reply r => exact carry (WritesTbl.of (signedReply_writes env r) a .vrcs (by simp))
    | query q => exact carry rfl
    | rctT r =>
      have ht := validatorReceipt_tables env r a
      rcases validatorStep_cases env r a with ⟨h1, _⟩ | ⟨e, v, kc, bytes, a1, g1, g2, g3, g4, g5, g6, g7, g8⟩ | ⟨x, a1, _, _, g7, g8⟩
      · exact carry (by show (processValidatorReceipt mapOps env r a).2.tables _ = _; rw [ht, h1])
      · intro x l w hl hw
        have hlog : ∀ y, ((Action.submit (.rctT r)).run mapOps env a).log y = a.log y := by
          intro y
          unfold MapDb.log
          rw [show ((Action.submit (.rctT r)).run mapOps env a).tables .kels y = a.tables .kels y from
            validatorReceipt_writes env r a .kels y (.inr (by simp))]
        have old : ∀ l', a.tables .vrcs x = some l' → w ∈ l' → _ := fun l' hl' hw' => h x l' w hl' hw'
        have hl2 : ((processValidatorReceipt mapOps env r a).2.tables .vrcs x) = some l := hl
        rw [ht, g8] at hl2
        by_cases hx : x = r.body.prefix.toStr
        · subst hx
          simp only [mapOps, MapDb.set_same, Option.some.injEq] at hl2
          subst hl2
          rw [g7] at hw
          rcases mem_pushed_guard (t := .vrcs) (p := TReceipt.rt) rfl _ _ _ hw with rfl | ⟨l', hl', hw'⟩
          · refine ⟨rfl, fun hx hv => ⟨e, v, kc, bytes, ?_, ?_, checkDigest_names g3, g4, g5, validSigs_of_verify g6⟩⟩
            · rw [hlog]; exact getEventAtSn_log env a hg _ hx _ _ g1
            · rw [hlog]; exact getEventAtSn_log env a hg _ hv _ _ g2
          · refine ⟨(old l' hl' hw').1, fun hx hv => ?_⟩
            rw [hlog, hlog]; exact (old l' hl' hw').2 hx hv
        · simp only [mapOps] at hl2
          rw [MapDb.set_other_id _ _ _ hx, MapDb.touch_tables, g7] at hl2
          refine ⟨(old l hl2 hw).1, fun hx hv => ?_⟩
          rw [hlog, hlog]; exact (old l hl2 hw).2 hx hv
      · refine carry ?_
        show (processValidatorReceipt mapOps env r a).2.tables _ = _
        rw [ht, g8]
        funext y
        simp only [mapOps]
        rw [MapDb.set_other_tbl _ (by simp), MapDb.touch_tables, g7]

theorem after_receipts (env : Env) (as : List Action) : (after env as).abs.ReceiptsOk env := by
  rw [after_abs]
  refine snoc_induction (P := fun as => (runHistory mapOps env MapDb.empty as).ReceiptsOk env) as ?_ ?_
  · intro x l r hl; cases hl
  · intro l a ih
    rw [runHistory_append]
    exact ReceiptsOk.step env a _ (history_good env l _ (MapDb.empty_good env)) ih

/-- C28: every receipt that `get_receipts_t` returns is about that identifier and verifies: the event logged at its sequence
number carries, in the receipt, a valid signature set of the key configuration established by the logged validator event that
the receipt's seal names by digest. -/
theorem C28_receipts_verified (env : Env) (as : List Action) (id : IdentifierPrefix) (rs : List TReceipt) (r : TReceipt)
    (h : (getReceiptsT sled id (after env as)).1 = .ok (some rs)) (hr : r ∈ rs) :
    r.body.prefix.toStr = id.toStr ∧ (after env as).Verified env r := by
  rw [show (getReceiptsT sled id (after env as)).1 = _ from read_run .vrcs id _ (after_inv env as)] at h
  unfold Tbl.iterValues Tbl.entry at h
  cases hv : (after env as).vec .vrcs id.toStr with
  | none => rw [hv] at h; cases h
  | some l =>
    rw [hv] at h
    dsimp only at h
    rw [decAll_guard (t := .vrcs) (p := TReceipt.rt) rfl] at h
    by_cases hrt : l.all TReceipt.rt = true
    · rw [if_pos hrt] at h
      simp only [Res.ok.injEq, Option.some.injEq] at h
      subst h
      have hrr := List.all_eq_true.1 hrt r hr
      simp only [TReceipt.rt, ReceiptMsg.rt, Bool.and_eq_true] at hrr
      have hb := rt_text hrr.1.1.1.1.1.2
      have hvd := rt_text hrr.1.1.1.2
      obtain ⟨h1, h2⟩ := after_receipts env as id.toStr l r hv hr
      refine ⟨h1, ?_⟩
      obtain ⟨e, v, kc, bytes, g1, g2⟩ := h2 (h1 ▸ hb) hvd
      exact ⟨e, v, kc, bytes, by rw [kel_text _ h1]; exact g1, g2⟩
    · rw [if_neg hrt] at h; cases h

/-- C28, `has_receipt`: it answers true only if a stored receipt of that validator for that event verifies. -/
theorem C28_has_receipt (env : Env) (as : List Action) (id : IdentifierPrefix) (sn : Nat) (validator : IdentifierPrefix)
    (h : (hasReceipt sled id sn validator (after env as)).1 = .ok true) :
    ∃ r : TReceipt, r.body.prefix.toStr = id.toStr ∧ r.body.sn = sn ∧ r.validatorSeal.prefix = validator ∧ (after env as).Verified env r := by
  unfold hasReceipt at h
  obtain ⟨o, db, h1, h2⟩ := bind_ok_inv h
  cases o with
  | none => cases h2
  | some rs =>
    have h3 : rs.any (fun r => r.body.sn = sn && r.validatorSeal.prefix = validator) = true := Res.ok.inj h2
    obtain ⟨r, hr, h4⟩ := List.any_eq_true.1 h3
    simp only [Bool.and_eq_true, decide_eq_true_eq] at h4
    obtain ⟨g1, g2⟩ := C28_receipts_verified env as id rs r (by rw [h1]) hr
    exact ⟨r, g1, h4.1, h4.2, g2⟩

theorem mem_pushed (t : Tbl) (o : Option (List t.Val)) (v : t.Val) : v ∈ t.pushed o v := by
  unfold Tbl.pushed; split <;> simp

/-- a receipt that verifies against readable logs is accepted and pushed onto the list -/
theorem verified_receipt (env : Env) (as : List Action) (r : TReceipt) (hb : r.body.prefix.toStr ≠ [])
    (hv : r.validatorSeal.prefix.toStr ≠ []) (hr : Readable ((after env as).kel r.body.prefix))
    (hrv : Readable ((after env as).kel r.validatorSeal.prefix)) (e v : SignedEvent) (kc : KeyConfig) (bytes : Bytes)
    (h1 : ((after env as).kel r.body.prefix)[r.body.sn]? = some e)
    (h2 : ((after env as).kel r.validatorSeal.prefix)[r.validatorSeal.sn]? = some v)
    (h3 : v.msg.event.digest = r.validatorSeal.eventDigest) (h4 : v.data.keyConfig? = some kc)
    (h5 : e.msg.serialize env = .ok bytes) (h6 : ValidSigs env kc bytes r.sigs) :
    (∃ st, (process sled env (.rctT r) (after env as)).1 = .ok (some st) ∧
      stateAfter env ((after env as).kel r.body.prefix) = .ok st) ∧
    (after env (as ++ [.submit (.rctT r)])).vec .vrcs r.body.prefix.toStr =
      some (Tbl.vrcs.pushed ((after env as).vec .vrcs r.body.prefix.toStr) r) := by
  have ge : (getEventAtSn mapOps r.body.prefix r.body.sn (after env as).abs).1 = .ok (some e) := by
    rw [← (getEventAtSn_sim sled_sim _ _ _ (after_inv env as)).1]
    rcases getEventAtSn_spec env as r.body.prefix hb r.body.sn with ⟨h, _⟩ | ⟨_, h⟩
    · rw [h, h1]
    · exact absurd hr h
  have gv : (getEventAtSn mapOps r.validatorSeal.prefix r.validatorSeal.sn (after env as).abs).1 = .ok (some v) := by
    rw [← (getEventAtSn_sim sled_sim _ _ _ (after_inv env as)).1]
    rcases getEventAtSn_spec env as r.validatorSeal.prefix hv r.validatorSeal.sn with ⟨h, _⟩ | ⟨_, h⟩
    · rw [h, h2]
    · exact absurd hrv h
  have hcd : v.msg.checkDigest env r.validatorSeal.eventDigest = .ok true := by rw [← h3]; exact checkDigest_self env _
  have hstep : ∃ a1, a1.tables = (after env as).abs.tables ∧
      validatorReceiptStep mapOps env r (after env as).abs = mapOps.push .vrcs r.body.prefix r a1 := by
    rcases validatorStep_cases env r (after env as).abs with ⟨_, h, _⟩ | ⟨_, _, _, _, a1, _, _, _, _, _, _, g7, g8⟩ | ⟨x, a1, g1, g2, _⟩
    · exfalso
      have hro := getEventAtSn_ro r.body.prefix r.body.sn (after env as).abs
      rcases hx : getEventAtSn mapOps r.body.prefix r.body.sn (after env as).abs with ⟨x, a1⟩
      rw [hx] at ge hro
      dsimp only at ge hro
      subst ge
      have gv1 : (getEventAtSn mapOps r.validatorSeal.prefix r.validatorSeal.sn a1).1 = .ok (some v) := by
        rw [← gv]; exact getEventAtSn_congr hro _ _
      rcases hy : getEventAtSn mapOps r.validatorSeal.prefix r.validatorSeal.sn a1 with ⟨y, a2⟩
      rw [hy] at gv1
      dsimp only at gv1
      subst gv1
      have hk : getKeysAtEvent mapOps env r.validatorSeal.prefix r.validatorSeal.sn r.validatorSeal.eventDigest a1 = (.ok (some kc), a2) := by
        unfold getKeysAtEvent
        refine StM.bind_ok (StM.result_ok hy) (StM.bind_ok (a := true) (s' := a2) (by rw [hcd]; rfl) ?_)
        rw [if_pos rfl, h4]; rfl
      have hrun : validatorReceiptStep mapOps env r (after env as).abs = mapOps.push .vrcs r.body.prefix r a2 := by
        unfold validatorReceiptStep
        refine StM.bind_ok (StM.result_ok hx) (StM.bind_ok hk (StM.bind_ok (a := bytes) (s' := a2) (by rw [h5]; rfl)
          (StM.bind_ok (a := true) (s' := a2) (by rw [verify_of_validSigs h6]; rfl) ?_)))
        rw [if_pos rfl]; rfl
      exact h () (by rw [hrun]; rfl)
    · exact ⟨a1, g7, g8⟩
    · rw [ge] at g1
      rcases g2 with h | ⟨er, h⟩ <;> rw [h] at g1 <;> cases g1
  obtain ⟨a1, ha1, hrun⟩ := hstep
  have hpsim := (process_sim sled_sim env (.rctT r)) (after env as) (after_inv env as)
  obtain ⟨s, hl⟩ := after_log env as r.body.prefix hb
  have hne : (after env as).kel r.body.prefix ≠ [] := by intro h; rw [h] at h1; simp at h1
  constructor
  · refine ⟨s, ?_, hl.stateAfter⟩
    rw [hpsim.1]
    show (processValidatorReceipt mapOps env r (after env as).abs).1 = _
    unfold processValidatorReceipt
    rw [StM.bind_ok (a := ()) (s' := (mapOps.push .vrcs r.body.prefix r a1).2) (by rw [hrun]; rfl) rfl]
    rw [computeState_run]
    have ht : (mapOps.push .vrcs r.body.prefix r a1).2.tables .kels r.body.prefix.toStr = (after env as).abs.tables .kels r.body.prefix.toStr := by
      simp only [mapOps]
      rw [MapDb.set_other_tbl _ (by simp), MapDb.touch_tables, ha1]
    rw [ht, show (after env as).abs.tables .kels r.body.prefix.toStr = some ((after env as).kel r.body.prefix) from vec_of_kel hne]
    dsimp only
    rw [if_pos ((readable_iff _).2 hr), hl.foldState hb]
  · rw [after_snoc]
    show (process sled env (.rctT r) (after env as)).2.abs.tables .vrcs _ = _
    rw [hpsim.2.1]
    show (processValidatorReceipt mapOps env r (after env as).abs).2.tables .vrcs _ = _
    rw [validatorReceipt_tables, hrun]
    simp only [mapOps, MapDb.set_same]
    rw [ha1]
    rfl

/-- C28, the other direction: a receipt that verifies against readable logs is accepted and stored. -/
theorem C28_verified_is_stored (env : Env) (as : List Action) (r : TReceipt) (hb : r.body.prefix.toStr ≠ [])
    (hv : r.validatorSeal.prefix.toStr ≠ []) (hr : Readable ((after env as).kel r.body.prefix))
    (hrv : Readable ((after env as).kel r.validatorSeal.prefix)) (e v : SignedEvent) (kc : KeyConfig) (bytes : Bytes)
    (h1 : ((after env as).kel r.body.prefix)[r.body.sn]? = some e)
    (h2 : ((after env as).kel r.validatorSeal.prefix)[r.validatorSeal.sn]? = some v)
    (h3 : v.msg.event.digest = r.validatorSeal.eventDigest) (h4 : v.data.keyConfig? = some kc)
    (h5 : e.msg.serialize env = .ok bytes) (h6 : ValidSigs env kc bytes r.sigs) :
    (∃ st, (process sled env (.rctT r) (after env as)).1 = .ok (some st) ∧
      stateAfter env ((after env as).kel r.body.prefix) = .ok st) ∧
    ∃ l, (after env (as ++ [.submit (.rctT r)])).vec .vrcs r.body.prefix.toStr = some l ∧ r ∈ l := by
  obtain ⟨a, b⟩ := verified_receipt env as r hb hv hr hrv e v kc bytes h1 h2 h3 h4 h5 h6
  exact ⟨a, _, b, mem_pushed _ _ _⟩

namespace Ex
/-- a receipt of the rotation by the validator with basic identifier `key 9` -/
def rct : TReceipt := ⟨⟨SerInfo.new .json 0, rot.dig, id, 1⟩, ⟨.basic (key 9), 0, icpFinal.dig⟩, [sig 9 0 (jsonText rot.msg.sval)]⟩
/-- both logs -/
def rctHist : List Action := hist ++ [.submit (.event icpFinal)]
/-- a witness receipt whose signature is garbage -/
def badNt : NtReceipt := ⟨⟨SerInfo.new .json 0, rot.dig, id, 1⟩, [(key 31, ⟨.ed25519Sha512, List.replicate 64 0⟩)]⟩
end Ex

/-- hypotheses of the C28 theorems met: the receipt is stored and found -/
example : (getReceiptsT sled Ex.id (after Ex.env (Ex.rctHist ++ [.submit (.rctT Ex.rct)]))).1 = .ok (some [Ex.rct]) ∧
    (hasReceipt sled Ex.id 1 (.basic (Ex.key 9)) (after Ex.env (Ex.rctHist ++ [.submit (.rctT Ex.rct)]))).1 = .ok true ∧
    (hasReceipt sled Ex.id 2 (.basic (Ex.key 9)) (after Ex.env (Ex.rctHist ++ [.submit (.rctT Ex.rct)]))).1 = .ok false := by
  decide +kernel
example : ((after Ex.env Ex.rctHist).kel Ex.rct.body.prefix)[1]? = some Ex.rot ∧
    ((after Ex.env Ex.rctHist).kel (.basic (Ex.key 9)))[0]? = some Ex.icpFinal ∧
    Ex.rot.msg.serialize Ex.env = .ok (jsonText Ex.rot.msg.sval) ∧
    Ex.icpFinal.data.keyConfig? = some ⟨.simple 1, [Ex.key 9], none⟩ ∧
    (KeyConfig.mk (.simple 1) [Ex.key 9] none).verify Ex.env (jsonText Ex.rot.msg.sval) Ex.rct.sigs = .ok true := by decide +kernel

/-! ## C29: witness receipts -/

/-- the couplet's key and signature use one algorithm -/
def coupletKindsMatch (c : BasicPrefix × SelfSigningPrefix) : Prop :=
  ((c.1.derivation = .ed25519 ∨ c.1.derivation = .ed25519NT) ∧ c.2.derivation = .ed25519Sha512) ∨
  ((c.1.derivation = .ecdsa ∨ c.1.derivation = .ecdsaNT) ∧ c.2.derivation = .ecdsaSha256)

theorem verify_kinds (env : Env) (c : BasicPrefix × SelfSigningPrefix) (b : Bytes) :
    coupletKindsMatch c ↔ ∀ e, c.1.verify env b c.2 ≠ .err e := by
  obtain ⟨⟨kd, k⟩, ⟨sd, s⟩⟩ := c
  cases kd <;> cases sd <;> simp [coupletKindsMatch, BasicPrefix.verify]

theorem lastErr_none (l : List (Res Bool)) : lastErr l = none ↔ ∀ r ∈ l, ∀ e, r ≠ .err e := by
  induction l with
  | nil => simp [lastErr]
  | cons r rs ih =>
    unfold lastErr
    cases h : lastErr rs with
    | some e =>
      simp only [reduceCtorEq, false_iff]
      intro hall
      rw [h] at ih
      exact absurd (ih.2 fun r hr => hall r (List.mem_cons_of_mem _ hr)) (by simp)
    | none =>
      have := ih.1 h
      cases r with
      | err e => simp only [reduceCtorEq, false_iff]; intro hall; exact hall _ (List.mem_cons_self ..) e rfl
      | ok b => simp only [true_iff]; intro r hr; rcases List.mem_cons.1 hr with rfl | hr; simp; exact this r hr
      | panic => simp only [true_iff]; intro r hr; rcases List.mem_cons.1 hr with rfl | hr; simp; exact this r hr

/-- what a witness receipt does -/
theorem witnessStep_cases (env : Env) (r : NtReceipt) (a : MapDb) :
    ((witnessReceiptStep mapOps env r a).2.tables = a.tables ∧ (∀ u, (witnessReceiptStep mapOps env r a).1 ≠ .ok u) ∧
      (getEventAtSn mapOps r.body.prefix r.body.sn a).1 ≠ .ok none) ∨
    (∃ e ser a1, (getEventAtSn mapOps r.body.prefix r.body.sn a).1 = .ok (some e) ∧ e.serialize = .ok ser ∧
      (∀ c ∈ r.couplets, coupletKindsMatch c) ∧ a1.tables = a.tables ∧
      witnessReceiptStep mapOps env r a = mapOps.push .rcts r.body.prefix r a1) ∨
    (∃ x a1, (getEventAtSn mapOps r.body.prefix r.body.sn a).1 = x ∧ (x = .ok none ∨ ∃ er, x = .err er) ∧ a1.tables = a.tables ∧
      witnessReceiptStep mapOps env r a = mapOps.push .ures r.body.prefix r a1) := by
  unfold witnessReceiptStep
  have hro := getEventAtSn_ro r.body.prefix r.body.sn a
  rw [StM.bind_run]
  rcases hx : getEventAtSn mapOps r.body.prefix r.body.sn a with ⟨x, a1⟩
  rw [hx] at hro
  dsimp only at hro
  cases x with
  | panic => rw [StM.result_panic hx]; exact .inl ⟨hro, by simp, by simp⟩
  | err er =>
    rw [StM.result_err hx]
    exact .inr (.inr ⟨_, a1, rfl, .inr ⟨er, rfl⟩, hro, rfl⟩)
  | ok o =>
    rw [StM.result_ok hx]
    cases o with
    | none => exact .inr (.inr ⟨_, a1, rfl, .inl rfl, hro, rfl⟩)
    | some e =>
      dsimp only
      rw [StM.bind_run, show (StM.lift e.serialize : StM MapDb Bytes) a1 = (e.serialize, a1) from rfl]
      cases hs : e.serialize with
      | panic => exact .inl ⟨hro, by simp, by simp⟩
      | err er => exact .inl ⟨hro, by simp, by simp⟩
      | ok ser =>
        dsimp only
        cases hl : lastErr (r.couplets.map fun c => c.1.verify env ser c.2) with
        | some er => exact .inl ⟨hro, by simp [StM.fail, StM.lift], by simp⟩
        | none =>
          refine .inr (.inl ⟨e, ser, a1, rfl, hs, fun c hc => ?_, hro, rfl⟩)
          rw [verify_kinds env c ser]
          exact (lastErr_none _).1 hl _ (List.mem_map_of_mem hc)

theorem witnessReceipt_tables (env : Env) (r : NtReceipt) (a : MapDb) :
    (processWitnessReceipt mapOps env r a).2.tables = (witnessReceiptStep mapOps env r a).2.tables := by
  unfold processWitnessReceipt
  rw [StM.bind_run]
  rcases witnessReceiptStep mapOps env r a with ⟨x, a1⟩
  cases x with
  | ok u => exact computeState_ro env _ a1
  | err e => rfl
  | panic => rfl

/-- stored witness receipts: about that identifier, a logged event, and key and signature algorithms that match -/
def MapDb.NtOk (a : MapDb) : Prop :=
  ∀ (x : Bytes) (l : List NtReceipt) (r : NtReceipt), a.tables .rcts x = some l → r ∈ l → r.body.prefix.toStr = x ∧
    (∀ c ∈ r.couplets, coupletKindsMatch c) ∧ (x ≠ [] → ∃ e : SignedEvent, (a.log x)[r.body.sn]? = some e)

theorem NtOk.step (env : Env) (act : Action) (a : MapDb) (hg : a.Good env) (h : a.NtOk) : (act.run mapOps env a).NtOk := by
  have carry : (act.run mapOps env a).tables .rcts = a.tables .rcts → (act.run mapOps env a).NtOk := by
    intro ht x l r hl hr
    rw [ht] at hl
    refine ⟨(h x l r hl hr).1, (h x l r hl hr).2.1, fun hx => ?_⟩
    obtain ⟨e, h1⟩ := (h x l r hl hr).2.2 hx
    exact ⟨e, prefix_get (log_grows env act a hg x hx) h1⟩
  cases act with
  | reprocess => exact carry (escrow_writes env a .rcts (by simp))
  | lookup t id => exact carry (by rw [Action.run, ReadOnly.read t id a])
  | submit m =>
    cases m with
    | event e => exact carry (WritesTbl.of (processEvent_kels env e) a .rcts (by simp))
    | rctT r => exact carry (WritesTbl.of (validatorReceipt_writes env r) a .rcts (by simp))
    | reply r => exact carry (WritesTbl.of (signedReply_writes env r) a .rcts (by simp))
    | query q => exact carry rfl
    | rctNt r =>
      have ht := witnessReceipt_tables env r a
      rcases witnessStep_cases env r a with ⟨h1, _⟩ | ⟨e, ser, a1, g1, g2, g3, g7, g8⟩ | ⟨x, a1, _, _, g7, g8⟩
      · exact carry (by show (processWitnessReceipt mapOps env r a).2.tables _ = _; rw [ht, h1])
      · intro x l w hl hw
        have hlog : ∀ y, ((Action.submit (.rctNt r)).run mapOps env a).log y = a.log y := by
          intro y
          unfold MapDb.log
          rw [show ((Action.submit (.rctNt r)).run mapOps env a).tables .kels y = a.tables .kels y from
            witnessReceipt_writes env r a .kels y (.inr (by simp))]
        have hl2 : ((processWitnessReceipt mapOps env r a).2.tables .rcts x) = some l := hl
        rw [ht, g8] at hl2
        by_cases hx : x = r.body.prefix.toStr
        · subst hx
          simp only [mapOps, MapDb.set_same, Option.some.injEq] at hl2
          subst hl2
          rw [g7] at hw
          rcases mem_pushed_guard (t := .rcts) (p := NtReceipt.rt) rfl _ _ _ hw with rfl | ⟨l', hl', hw'⟩
          · exact ⟨rfl, g3, fun hx => ⟨e, by rw [hlog]; exact getEventAtSn_log env a hg _ hx _ _ g1⟩⟩
          · obtain ⟨h1, h2, h3⟩ := h _ l' w hl' hw'
            exact ⟨h1, h2, by rw [hlog]; exact h3⟩
        · simp only [mapOps] at hl2
          rw [MapDb.set_other_id _ _ _ hx, MapDb.touch_tables, g7] at hl2
          obtain ⟨h1, h2, h3⟩ := h _ l w hl2 hw
          exact ⟨h1, h2, by rw [hlog]; exact h3⟩
      · refine carry ?_
        show (processWitnessReceipt mapOps env r a).2.tables _ = _
        rw [ht, g8]
        funext y
        simp only [mapOps]
        rw [MapDb.set_other_tbl _ (by simp), MapDb.touch_tables, g7]

theorem after_nt (env : Env) (as : List Action) : (after env as).abs.NtOk := by
  rw [after_abs]
  refine snoc_induction (P := fun as => (runHistory mapOps env MapDb.empty as).NtOk) as ?_ ?_
  · intro x l r hl; cases hl
  · intro l a ih
    rw [runHistory_append]
    exact NtOk.step env a _ (history_good env l _ (MapDb.empty_good env)) ih

theorem nt_read {env : Env} {as : List Action} {id : IdentifierPrefix} {rs : List NtReceipt}
    (h : (getReceiptsNt sled id (after env as)).1 = .ok (some rs)) :
    (after env as).vec .rcts id.toStr = some rs ∧ rs.all NtReceipt.rt = true := by
  rw [show (getReceiptsNt sled id (after env as)).1 = _ from read_run .rcts id _ (after_inv env as)] at h
  unfold Tbl.iterValues Tbl.entry at h
  cases hv : (after env as).vec .rcts id.toStr with
  | none => rw [hv] at h; cases h
  | some l =>
    rw [hv] at h
    dsimp only at h
    rw [decAll_guard (t := .rcts) (p := NtReceipt.rt) rfl] at h
    by_cases hrt : l.all NtReceipt.rt = true
    · rw [if_pos hrt] at h
      simp only [Res.ok.injEq, Option.some.injEq] at h
      subst h
      exact ⟨rfl, hrt⟩
    · rw [if_neg hrt] at h; cases h

/-- C29: a returned witness receipt is about that identifier and a logged event, and the algorithms of its keys and
signatures match.  Not, because it is false: that the signatures verify. -/
theorem C29_kinds_checked (env : Env) (as : List Action) (id : IdentifierPrefix) (rs : List NtReceipt) (r : NtReceipt)
    (h : (getReceiptsNt sled id (after env as)).1 = .ok (some rs)) (hr : r ∈ rs) :
    r.body.prefix.toStr = id.toStr ∧ (∃ e : SignedEvent, ((after env as).kel id)[r.body.sn]? = some e) ∧
      ∀ c ∈ r.couplets, coupletKindsMatch c := by
  obtain ⟨hv, hrt⟩ := nt_read h
  have hrr := List.all_eq_true.1 hrt r hr
  simp only [NtReceipt.rt, ReceiptMsg.rt, Bool.and_eq_true] at hrr
  obtain ⟨h1, h2, h3⟩ := after_nt env as id.toStr rs r hv hr
  exact ⟨h1, h3 (h1 ▸ rt_text hrr.1.1.2), h2⟩

/-- C29 is false for every receipt: whatever the signatures are, a receipt of a logged event (readable log, fewer than 4096 × 16
signatures so that the event can be written) whose key and signature algorithms match is accepted and stored. -/
theorem C29_fails_for_all (env : Env) (as : List Action) (r : NtReceipt) (hb : r.body.prefix.toStr ≠ [])
    (hr : Readable ((after env as).kel r.body.prefix)) (e : SignedEvent) (ser : Bytes)
    (he : ((after env as).kel r.body.prefix)[r.body.sn]? = some e) (hs : e.serialize = .ok ser)
    (hk : ∀ c ∈ r.couplets, coupletKindsMatch c) :
    (∃ st, (process sled env (.rctNt r) (after env as)).1 = .ok st) ∧
    ∃ l, (after env (as ++ [.submit (.rctNt r)])).vec .rcts r.body.prefix.toStr = some l ∧ r ∈ l := by
  have ge : (getEventAtSn mapOps r.body.prefix r.body.sn (after env as).abs).1 = .ok (some e) := by
    rw [← (getEventAtSn_sim sled_sim _ _ _ (after_inv env as)).1]
    rcases getEventAtSn_spec env as r.body.prefix hb r.body.sn with ⟨h, _⟩ | ⟨_, h⟩
    · rw [h, he]
    · exact absurd hr h
  rcases hx : getEventAtSn mapOps r.body.prefix r.body.sn (after env as).abs with ⟨x, a1⟩
  have hro := getEventAtSn_ro r.body.prefix r.body.sn (after env as).abs
  rw [hx] at ge hro
  dsimp only at ge hro
  subst ge
  have hrun : witnessReceiptStep mapOps env r (after env as).abs = mapOps.push .rcts r.body.prefix r a1 := by
    unfold witnessReceiptStep
    refine StM.bind_ok (StM.result_ok hx) (StM.bind_ok (a := ser) (s' := a1) (by rw [hs]; rfl) ?_)
    rw [(lastErr_none _).2]
    · rfl
    · intro y hy er
      obtain ⟨c, hc, rfl⟩ := List.mem_map.1 hy
      exact (verify_kinds env c ser).1 (hk c hc) er
  have hpsim := (process_sim sled_sim env (.rctNt r)) (after env as) (after_inv env as)
  obtain ⟨s, hl⟩ := after_log env as r.body.prefix hb
  have hne : (after env as).kel r.body.prefix ≠ [] := by intro h; rw [h] at he; simp at he
  constructor
  · refine ⟨some s, ?_⟩
    rw [hpsim.1]
    show (processWitnessReceipt mapOps env r (after env as).abs).1 = _
    unfold processWitnessReceipt
    rw [StM.bind_ok (a := ()) (s' := (mapOps.push .rcts r.body.prefix r a1).2) (by rw [hrun]; rfl) rfl, computeState_run]
    have ht : (mapOps.push .rcts r.body.prefix r a1).2.tables .kels r.body.prefix.toStr = (after env as).abs.tables .kels r.body.prefix.toStr := by
      simp only [mapOps]
      rw [MapDb.set_other_tbl _ (by simp), MapDb.touch_tables, hro]
    rw [ht, show (after env as).abs.tables .kels r.body.prefix.toStr = some ((after env as).kel r.body.prefix) from vec_of_kel hne]
    dsimp only
    rw [if_pos ((readable_iff _).2 hr), hl.foldState hb]
  · refine ⟨Tbl.rcts.pushed ((after env as).abs.tables .rcts r.body.prefix.toStr) r, ?_, mem_pushed _ _ _⟩
    rw [after_snoc]
    show (process sled env (.rctNt r) (after env as)).2.abs.tables .rcts _ = _
    rw [hpsim.2.1]
    show (processWitnessReceipt mapOps env r (after env as).abs).2.tables .rcts _ = _
    rw [witnessReceipt_tables, hrun]
    simp only [mapOps, MapDb.set_same]
    rw [hro]

/-- C29 is false: a receipt with an all-zero signature is accepted, stored and returned, although it does not verify over either
serialization of the event. -/
theorem C29_fails :
    (getReceiptsNt sled Ex.id (after Ex.env (Ex.hist ++ [.submit (.rctNt Ex.badNt)]))).1 = .ok (some [Ex.badNt]) ∧
    (∃ c ∈ Ex.badNt.couplets, c.1.verify Ex.env (jsonText Ex.rot.msg.sval) c.2 = .ok false ∧
      ∃ ser, Ex.rot.serialize = .ok ser ∧ c.1.verify Ex.env ser c.2 = .ok false) := by
  refine ⟨by decide +kernel, _, List.mem_singleton.2 rfl, by decide +kernel, ?_⟩
  have h2 : (match Ex.rot.serialize with | .ok s => decide ((Ex.key 31).verify Ex.env s ⟨.ed25519Sha512, List.replicate 64 0⟩ = .ok false) | _ => false) = true := by
    decide +kernel
  cases h : Ex.rot.serialize with
  | ok ser => rw [h] at h2; exact ⟨ser, rfl, of_decide_eq_true h2⟩
  | err e => rw [h] at h2; cases h2
  | panic => rw [h] at h2; cases h2

/-! ## C30 -/

/-- C30: no receipt, whatever its contents and outcome, changes the log or the computed state of any identifier. -/
theorem C30_receipts_no_effect (env : Env) (as : List Action) (m : Message) (hm : (∃ r, m = .rctT r) ∨ ∃ r, m = .rctNt r)
    (id : IdentifierPrefix) :
    (after env (as ++ [.submit m])).kel id = (after env as).kel id ∧
    (computeState sled env id (after env (as ++ [.submit m]))).1 = (computeState sled env id (after env as)).1 := by
  have hk : (after env (as ++ [.submit m])).vec .kels id.toStr = (after env as).vec .kels id.toStr := by
    rw [after_snoc]
    show (process sled env m (after env as)).2.abs.tables .kels id.toStr = (after env as).abs.tables .kels id.toStr
    rw [(process_sim sled_sim env m (after env as) (after_inv env as)).2.1]
    rcases hm with ⟨r, rfl⟩ | ⟨r, rfl⟩
    · exact validatorReceipt_writes env r _ .kels _ (.inr (by simp))
    · exact witnessReceipt_writes env r _ .kels _ (.inr (by simp))
  constructor
  · unfold Db.kel; rw [hk]
  · rw [computeState_spec env _ (after_inv env _), computeState_spec env _ (after_inv env _), hk]

/-- the database differs only in one entry of one table, which got one more element at its end (or, if what was stored cannot be
read back, only that element) -/
def Db.PushedOnly (before after : Db) (t : Tbl) (x : Bytes) (v : t.Val) : Prop :=
  (∀ (t' : Tbl) (y : Bytes), t' ≠ t ∨ y ≠ x → after.vec t' y = before.vec t' y) ∧
  after.vec t x = some (((before.vec t x).bind t.decAll).getD [] ++ [v])

theorem pushed_eq (t : Tbl) (o : Option (List t.Val)) (v : t.Val) : t.pushed o v = (o.bind t.decAll).getD [] ++ [v] := by
  unfold Tbl.pushed Tbl.entry
  cases o with
  | none => rfl
  | some l =>
    dsimp only [Option.bind_some]
    cases t.decAll l <;> rfl

theorem pushedOnly_of {db db' : Db} {t : Tbl} {id : IdentifierPrefix} {v : t.Val} {a1 : MapDb} (h1 : a1.tables = db.abs.tables)
    (h2 : db'.abs.tables = (mapOps.push t id v a1).2.tables) : db.PushedOnly db' t id.toStr v := by
  constructor
  · intro t' y hy
    show db'.abs.tables t' y = db.abs.tables t' y
    rw [h2]
    simp only [mapOps]
    rw [Writes.set_frame _ _ _ _ _ _ hy.symm, MapDb.touch_tables, h1]
  · show db'.abs.tables t _ = _
    rw [h2]
    simp only [mapOps, MapDb.set_same]
    rw [pushed_eq, h1]; rfl

/-- C30: a transferable receipt for an event that is not logged is refused with the escrow error and only added to the escrow of
its identifier. -/
theorem C30_unknown_escrowed_t (env : Env) (as : List Action) (r : TReceipt)
    (h : (getEventAtSn sled r.body.prefix r.body.sn (after env as)).1 = .ok none) :
    (process sled env (.rctT r) (after env as)).1 = .err (.semantic "Receipt escrowed") ∧
    (after env as).PushedOnly (after env (as ++ [.submit (.rctT r)])) .vres r.body.prefix.toStr r := by
  rw [(getEventAtSn_sim sled_sim _ _ _ (after_inv env as)).1] at h
  have hp := process_sim sled_sim env (.rctT r) (after env as) (after_inv env as)
  rcases validatorStep_cases env r (after env as).abs with ⟨_, _, h2⟩ | ⟨_, _, _, _, _, g1, _⟩ | ⟨x, a1, _, _, g7, g8⟩
  · exact absurd h h2
  · rw [h] at g1; cases g1
  · constructor
    · rw [hp.1]
      show (processValidatorReceipt mapOps env r _).1 = _
      unfold processValidatorReceipt
      rw [StM.bind_err g8]
    · refine pushedOnly_of (a1 := a1) g7 ?_
      rw [after_snoc, hp.2.1]
      show (processValidatorReceipt mapOps env r _).2.tables = _
      rw [validatorReceipt_tables, g8]

/-- C30: a witness receipt for an event that is not logged is only added to the escrow of its identifier. -/
theorem C30_unknown_escrowed_nt (env : Env) (as : List Action) (r : NtReceipt)
    (h : (getEventAtSn sled r.body.prefix r.body.sn (after env as)).1 = .ok none) :
    (process sled env (.rctNt r) (after env as)).1 = (computeState sled env r.body.prefix (after env as)).1 ∧
    (after env as).PushedOnly (after env (as ++ [.submit (.rctNt r)])) .ures r.body.prefix.toStr r := by
  rw [(getEventAtSn_sim sled_sim _ _ _ (after_inv env as)).1] at h
  have hp := process_sim sled_sim env (.rctNt r) (after env as) (after_inv env as)
  rcases witnessStep_cases env r (after env as).abs with ⟨_, _, h2⟩ | ⟨_, _, _, g1, _⟩ | ⟨x, a1, _, _, g7, g8⟩
  · exact absurd h h2
  · rw [h] at g1; cases g1
  · constructor
    · rw [hp.1, (computeState_sim sled_sim env _ _ (after_inv env as)).1]
      show (processWitnessReceipt mapOps env r _).1 = _
      unfold processWitnessReceipt
      rw [StM.bind_ok (a := ()) (s' := (mapOps.push .ures r.body.prefix r a1).2) (by rw [g8]; rfl) rfl, computeState_run, computeState_run]
      have ht : (mapOps.push .ures r.body.prefix r a1).2.tables .kels r.body.prefix.toStr = (after env as).abs.tables .kels r.body.prefix.toStr := by
        simp only [mapOps]
        rw [MapDb.set_other_tbl _ (by simp), MapDb.touch_tables, g7]
      rw [ht]
    · refine pushedOnly_of (a1 := a1) g7 ?_
      rw [after_snoc, hp.2.1]
      show (processWitnessReceipt mapOps env r _).2.tables = _
      rw [witnessReceipt_tables, g8]

/-- hypotheses met: receipts for sequence number 1 arriving before the rotation -/
example : (getEventAtSn sled Ex.id 1 (after Ex.env [.submit (.event Ex.icp)])).1 = .ok none ∧
    (process sled Ex.env (.rctT Ex.rct) (after Ex.env [.submit (.event Ex.icp)])).1 = .err (.semantic "Receipt escrowed") ∧
    (getEscrowT sled Ex.id (after Ex.env [.submit (.event Ex.icp), .submit (.rctT Ex.rct)])).1 = .ok (some [Ex.rct]) ∧
    (getReceiptsT sled Ex.id (after Ex.env [.submit (.event Ex.icp), .submit (.rctT Ex.rct)])).1 = .ok none ∧
    (getEscrowNt sled Ex.id (after Ex.env [.submit (.event Ex.icp), .submit (.rctNt Ex.badNt)])).1 = .ok (some [Ex.badNt]) := by
  decide +kernel

/-! ## C56, C57: what becomes of stored and escrowed receipts -/

/-- a table of receipts or escrowed receipts -/
def Tbl.isReceipts : Tbl → Prop
  | .vrcs | .vres | .rcts | .ures => True
  | _ => False

theorem receipt_tables_step (env : Env) (act : Action) (a : MapDb) (t : Tbl) (ht : t.isReceipts) (x : Bytes) :
    (act.run mapOps env a).tables t x = a.tables t x ∨
    (∃ m, act = .submit m ∧ ((∃ r, m = .rctT r) ∨ ∃ r, m = .rctNt r)) ∧
      ∃ v, (act.run mapOps env a).tables t x = some (t.pushed (a.tables t x) v) := by
  have h1 : ¬ (t = .knas ∨ t = .knes) := by cases t <;> simp [Tbl.isReceipts] at ht ⊢
  have h2 : t ≠ .kels := by cases t <;> simp [Tbl.isReceipts] at ht ⊢
  have pushed : ∀ (t' : Tbl) (id : IdentifierPrefix) (v : t'.Val) (a1 : MapDb), a1.tables = a.tables →
      (mapOps.push t' id v a1).2.tables t x = a.tables t x ∨
      ∃ w, (mapOps.push t' id v a1).2.tables t x = some (t.pushed (a.tables t x) w) := by
    intro t' id v a1 h
    simp only [mapOps]
    by_cases htt : t = t'
    · subst htt
      by_cases hx : x = id.toStr
      · subst hx; right; exact ⟨v, by rw [MapDb.set_same, h]⟩
      · left; rw [MapDb.set_other_id _ _ _ hx, MapDb.touch_tables, h]
    · left; rw [MapDb.set_other_tbl _ htt, MapDb.touch_tables, h]
  cases act with
  | reprocess => exact .inl (congrFun (escrow_writes env a t h1) x)
  | lookup t' id => exact .inl (by rw [Action.run, ReadOnly.read t' id a])
  | submit m =>
    cases m with
    | event e => exact .inl (congrFun (WritesTbl.of (processEvent_kels env e) a t h2) x)
    | reply r => exact .inl (congrFun (WritesTbl.of (signedReply_writes env r) a t h1) x)
    | query q => exact .inl rfl
    | rctT r =>
      have e1 : ((Action.submit (.rctT r)).run mapOps env a).tables = (validatorReceiptStep mapOps env r a).2.tables :=
        validatorReceipt_tables env r a
      rw [e1]
      rcases validatorStep_cases env r a with ⟨h1, _⟩ | ⟨_, _, _, _, a1, _, _, _, _, _, _, g7, g8⟩ | ⟨_, a1, _, _, g7, g8⟩
      · left; rw [h1]
      · rw [g8]; exact (pushed .vrcs _ r a1 g7).imp_right fun h => ⟨⟨_, rfl, .inl ⟨r, rfl⟩⟩, h⟩
      · rw [g8]; exact (pushed .vres _ r a1 g7).imp_right fun h => ⟨⟨_, rfl, .inl ⟨r, rfl⟩⟩, h⟩
    | rctNt r =>
      have e1 : ((Action.submit (.rctNt r)).run mapOps env a).tables = (witnessReceiptStep mapOps env r a).2.tables :=
        witnessReceipt_tables env r a
      rw [e1]
      rcases witnessStep_cases env r a with ⟨h1, _⟩ | ⟨_, _, a1, _, _, _, g7, g8⟩ | ⟨_, a1, _, _, g7, g8⟩
      · left; rw [h1]
      · rw [g8]; exact (pushed .rcts _ r a1 g7).imp_right fun h => ⟨⟨_, rfl, .inr ⟨r, rfl⟩⟩, h⟩
      · rw [g8]; exact (pushed .ures _ r a1 g7).imp_right fun h => ⟨⟨_, rfl, .inr ⟨r, rfl⟩⟩, h⟩

theorem receipt_tables_after (env : Env) (as : List Action) (act : Action) (t : Tbl) (ht : t.isReceipts) (x : Bytes) :
    (after env (as ++ [act])).vec t x = (after env as).vec t x ∨
    (∃ m, act = .submit m ∧ ((∃ r, m = .rctT r) ∨ ∃ r, m = .rctNt r)) ∧
      ∃ v, (after env (as ++ [act])).vec t x = some (t.pushed ((after env as).vec t x) v) := by
  show (after env (as ++ [act])).abs.tables t x = (after env as).abs.tables t x ∨ _ ∧
    ∃ v, (after env (as ++ [act])).abs.tables t x = some (t.pushed ((after env as).abs.tables t x) v)
  rw [after_abs, after_abs, runHistory_append]
  exact receipt_tables_step env act _ t ht x

/-- C56 is false for every history: a receipt escrowed because its event was not known stays in the escrow and is never
counted.  Whatever events arrive and however often the escrow is reprocessed, without submitting a receipt again the
receipts and the escrowed receipts of every identifier stay exactly as they are. -/
theorem C56_fails_for_all (env : Env) (as bs : List Action) (hbs : ∀ r, .submit (.rctT r) ∉ bs)
    (hbs' : ∀ r, .submit (.rctNt r) ∉ bs) (id : IdentifierPrefix) :
    (getReceiptsT sled id (after env (as ++ bs))).1 = (getReceiptsT sled id (after env as)).1 ∧
    (getEscrowT sled id (after env (as ++ bs))).1 = (getEscrowT sled id (after env as)).1 ∧
    (getReceiptsNt sled id (after env (as ++ bs))).1 = (getReceiptsNt sled id (after env as)).1 ∧
    (getEscrowNt sled id (after env (as ++ bs))).1 = (getEscrowNt sled id (after env as)).1 := by
  have key : ∀ t : Tbl, t.isReceipts → (after env (as ++ bs)).vec t id.toStr = (after env as).vec t id.toStr := by
    intro t ht
    refine snoc_induction (P := fun bs => (∀ r, .submit (.rctT r) ∉ bs) → (∀ r, .submit (.rctNt r) ∉ bs) →
      (after env (as ++ bs)).vec t id.toStr = (after env as).vec t id.toStr) bs (fun _ _ => by rw [List.append_nil]) ?_ hbs hbs'
    intro l a ih h1 h2
    rw [← List.append_assoc]
    rcases receipt_tables_after env (as ++ l) a t ht id.toStr with h | ⟨⟨m, rfl, ⟨r, rfl⟩ | ⟨r, rfl⟩⟩, _⟩
    · rw [h]; exact ih (fun r hr => h1 r (List.mem_append_left _ hr)) (fun r hr => h2 r (List.mem_append_left _ hr))
    · exact absurd (List.mem_append_right l (List.mem_singleton.2 rfl)) (h1 r)
    · exact absurd (List.mem_append_right l (List.mem_singleton.2 rfl)) (h2 r)
  refine ⟨?_, ?_, ?_, ?_⟩
  · exact ((read_run .vrcs id _ (after_inv env _)).trans (by rw [key .vrcs trivial])).trans (read_run .vrcs id _ (after_inv env _)).symm
  · exact ((read_run .vres id _ (after_inv env _)).trans (by rw [key .vres trivial])).trans (read_run .vres id _ (after_inv env _)).symm
  · exact ((read_run .rcts id _ (after_inv env _)).trans (by rw [key .rcts trivial])).trans (read_run .rcts id _ (after_inv env _)).symm
  · exact ((read_run .ures id _ (after_inv env _)).trans (by rw [key .ures trivial])).trans (read_run .ures id _ (after_inv env _)).symm

/-- C56 is false: the receipt of the rotation arrives first, then the rotation; the receipt is still not found -/
theorem C56_fails :
    (hasReceipt sled Ex.id 1 (.basic (Ex.key 9))
      (after Ex.env [.submit (.event Ex.icpFinal), .submit (.event Ex.icp), .submit (.rctT Ex.rct), .submit (.event Ex.rot), .reprocess])).1 = .ok false ∧
    (getEscrowT sled Ex.id
      (after Ex.env [.submit (.event Ex.icpFinal), .submit (.event Ex.icp), .submit (.rctT Ex.rct), .submit (.event Ex.rot), .reprocess])).1
      = .ok (some [Ex.rct]) ∧
    (hasReceipt sled Ex.id 1 (.basic (Ex.key 9))
      (after Ex.env [.submit (.event Ex.icpFinal), .submit (.event Ex.icp), .submit (.event Ex.rot), .submit (.rctT Ex.rct)])).1 = .ok true := by
  decide +kernel

/-- C57, one call: the receipts (escrowed receipts) stored for an identifier stay as they are, or a receipt was submitted and one receipt is
added: to the list if the list can be read, otherwise *instead of* the list. -/
theorem C57_step (env : Env) (as : List Action) (act : Action) (t : Tbl) (ht : t.isReceipts) (x : Bytes) :
    (after env (as ++ [act])).vec t x = (after env as).vec t x ∨
    (∃ m, act = .submit m ∧ ((∃ r, m = .rctT r) ∨ ∃ r, m = .rctNt r)) ∧ ∃ v,
      (∀ l, (after env as).vec t x = some l → t.decAll l = some l → (after env (as ++ [act])).vec t x = some (l ++ [v])) ∧
      (∀ l, (after env as).vec t x = some l → t.decAll l = none → (after env (as ++ [act])).vec t x = some [v]) ∧
      ((after env as).vec t x = none → (after env (as ++ [act])).vec t x = some [v]) := by
  refine (receipt_tables_after env as act t ht x).imp_right fun ⟨h1, v, h2⟩ => ⟨h1, v, ?_⟩
  rw [pushed_eq] at h2
  refine ⟨fun l hl hd => ?_, fun l hl hd => ?_, fun hn => ?_⟩
  · rw [hl] at h2; simpa [hd] using h2
  · rw [hl] at h2; simpa [hd] using h2
  · rw [hn] at h2; simpa using h2

/-- C57: as long as what is stored can be read back, receipts and escrowed receipts are only appended. -/
theorem C57_append_only (env : Env) (as bs : List Action) (t : Tbl) (ht : t.isReceipts) (x : Bytes)
    (hr : ∀ n l, (after env (as ++ bs.take n)).vec t x = some l → t.decAll l = some l) (l : List t.Val)
    (h : (after env as).vec t x = some l) : ∃ l', (after env (as ++ bs)).vec t x = some l' ∧ l <+: l' := by
  have : ∀ n, ∃ l', (after env (as ++ bs.take n)).vec t x = some l' ∧ l <+: l' := by
    intro n
    induction n with
    | zero => exact ⟨l, by rw [List.take_zero, List.append_nil]; exact h, List.prefix_refl _⟩
    | succ n ih =>
      obtain ⟨l1, h1, h2⟩ := ih
      by_cases hn : n < bs.length
      · rw [List.take_succ_eq_append_getElem hn, ← List.append_assoc]
        rcases receipt_tables_after env (as ++ bs.take n) bs[n] t ht x with h3 | ⟨_, v, h3⟩
        · exact ⟨l1, by rw [h3, h1], h2⟩
        · refine ⟨_, h3, ?_⟩
          rw [pushed_eq, h1, Option.bind_some, hr n l1 h1]
          exact h2.trans (List.prefix_append _ _)
      · rw [List.take_of_length_le (by omega)]
        rw [List.take_of_length_le (by omega)] at h1
        exact ⟨l1, h1, h2⟩
  have h2 := this bs.length
  rwa [List.take_length] at h2

/-- the receipt with another digest: one whose text does not parse back -/
def Ex.poisonRct : TReceipt := { Ex.rct with body := { Ex.rct.body with digest := ⟨.blake3_256, [1]⟩ } }

/-- C57 is false: after a receipt whose digest text does not parse back, reading the receipts crashes, and the next receipt
replaces all earlier ones. -/
theorem C57_fails :
    (getReceiptsT sled Ex.id (after Ex.env (Ex.rctHist ++ [.submit (.rctT Ex.rct)]))).1 = .ok (some [Ex.rct]) ∧
    (getReceiptsT sled Ex.id (after Ex.env (Ex.rctHist ++ [.submit (.rctT Ex.rct), .submit (.rctT Ex.poisonRct)]))).1 = .panic ∧
    (after Ex.env (Ex.rctHist ++ [.submit (.rctT Ex.rct), .submit (.rctT Ex.rct), .submit (.rctT Ex.poisonRct), .submit (.rctT Ex.rct)])).vec
      .vrcs Ex.id.toStr = some [Ex.rct] := by
  decide +kernel

/-- hypotheses met -/
example : (after Ex.env Ex.rctHist).vec .vrcs Ex.id.toStr = none ∧
    (after Ex.env (Ex.rctHist ++ [.submit (.rctT Ex.rct)])).vec .vrcs Ex.id.toStr = some [Ex.rct] ∧
    (after Ex.env (Ex.rctHist ++ [.submit (.rctT Ex.rct), .submit (.rctT Ex.rct)])).vec .vrcs Ex.id.toStr = some [Ex.rct, Ex.rct] ∧
    Tbl.vrcs.decAll [Ex.rct, Ex.rct] = some [Ex.rct, Ex.rct] := by decide +kernel

/-! ## C58: the digest in a receipt -/

/-- C58 is false for every receipt: the digest a receipt names is never looked at; with any other digest the receipt has the same
outcome. -/
theorem C58_fails_for_all (env : Env) (as : List Action) (r : TReceipt) (d : SelfAddressingPrefix) :
    (process sled env (.rctT { r with body := { r.body with digest := d } }) (after env as)).1 =
      (process sled env (.rctT r) (after env as)).1 := by
  rw [(process_sim sled_sim env _ (after env as) (after_inv env as)).1, (process_sim sled_sim env _ (after env as) (after_inv env as)).1]
  generalize (after env as).abs = a
  show (processValidatorReceipt mapOps env _ a).1 = (processValidatorReceipt mapOps env r a).1
  unfold processValidatorReceipt
  rw [StM.bind_run, StM.bind_run]
  have key : (validatorReceiptStep mapOps env { r with body := { r.body with digest := d } } a).1 = (validatorReceiptStep mapOps env r a).1 := by
    unfold validatorReceiptStep
    rw [StM.bind_run, StM.bind_run]
    dsimp only
    rcases StM.result (getEventAtSn mapOps r.body.prefix r.body.sn) a with ⟨x, a1⟩
    cases x with
    | err e => rfl
    | panic => rfl
    | ok o =>
      dsimp only
      rcases o with er | (_ | e)
      · rfl
      · rfl
      · dsimp only
        rw [StM.bind_run, StM.bind_run]
        rcases getKeysAtEvent mapOps env r.validatorSeal.prefix r.validatorSeal.sn r.validatorSeal.eventDigest a1 with ⟨y, a2⟩
        cases y with
        | err e => rfl
        | panic => rfl
        | ok o =>
          cases o with
          | none => rfl
          | some kc =>
            dsimp only
            rw [StM.bind_run, StM.bind_run]
            simp only [StM.lift]
            cases e.msg.serialize env with
            | err e => rfl
            | panic => rfl
            | ok bytes =>
              dsimp only
              rw [StM.bind_run, StM.bind_run, show (StM.lift (kc.verify env bytes r.sigs) : StM MapDb Bool) a2 = (kc.verify env bytes r.sigs, a2) from rfl]
              cases kc.verify env bytes r.sigs with
              | err e => rfl
              | panic => rfl
              | ok b => cases b <;> rfl
  have tab : ∀ q : TReceipt, (validatorReceiptStep mapOps env q a).2.tables .kels = a.tables .kels := fun q =>
    (congrFun (validatorReceipt_tables env q a) .kels).symm.trans (WritesTbl.of (validatorReceipt_writes env q) a .kels (by simp))
  have t1 := tab { r with body := { r.body with digest := d } }
  have t2 := tab r
  rcases hx : validatorReceiptStep mapOps env { r with body := { r.body with digest := d } } a with ⟨x, a1⟩
  rcases hy : validatorReceiptStep mapOps env r a with ⟨y, a2⟩
  rw [hx, hy] at key
  rw [hx] at t1
  rw [hy] at t2
  dsimp only at key t1 t2
  subst key
  cases x with
  | err e => rfl
  | panic => rfl
  | ok u => dsimp only; rw [computeState_run, computeState_run, t1, t2]

/-- C58 is false: a stored and returned receipt that names a digest no logged event has -/
theorem C58_fails :
    let bad : TReceipt := { Ex.rct with body := { Ex.rct.body with digest := ⟨.blake3_256, Ex.dig b!"nothing"⟩ } }
    (getReceiptsT sled Ex.id (after Ex.env (Ex.rctHist ++ [.submit (.rctT bad)]))).1 = .ok (some [bad]) ∧
    ((after Ex.env Ex.rctHist).kel Ex.id).all (fun e => e.dig ≠ bad.body.digest) = true := by
  decide +kernel

end Keriox
