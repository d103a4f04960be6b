import Verif.Props.Kel
/-!
# C02, C24: are logged events signed?
-/
namespace Keriox

theorem foldStrict_eq (env : Env) (s : IdState) (l : List SignedEvent) :
    foldStrict env s l = l.foldlM (fun s e => e.msg.applyTo env s) s := by
  induction l generalizing s with
  | nil => rfl
  | cons a t ih =>
    simp only [foldStrict, List.foldlM]
    cases h : a.msg.applyTo env s with
    | ok s' => simpa using ih s'
    | err e => rfl
    | panic => rfl

theorem Log.stateAfter {env : Env} {x : Bytes} {l : List SignedEvent} {s : IdState} (h : Log env x l s) :
    stateAfter env l = .ok s := by
  unfold Keriox.stateAfter; rw [← foldStrict_eq]; exact h.fold

theorem snoc_induction {α : Type} {P : List α → Prop} (l : List α) (h0 : P []) (h1 : ∀ l a, P l → P (l ++ [a])) : P l := by
  have : ∀ n (l : List α), l.length = n → P l := by
    intro n
    induction n with
    | zero => intro l hl; rw [List.length_eq_zero_iff.1 hl]; exact h0
    | succ n ih =>
      intro l hl
      have hne : l ≠ [] := by intro h; rw [h] at hl; simp at hl
      rw [← List.dropLast_concat_getLast hne]
      exact h1 _ _ (ih _ (by simp [hl]))
  exact this _ l rfl

/-- the event was left in the log by a call that did not return `Ok`; `i` is its position -/
def LeftByFailedCall (env : Env) (as : List Action) (e : SignedEvent) (i : Nat) : Prop :=
  ∃ before sub rest, as = before ++ .submit (.event sub) :: rest ∧ e = sub.stored ∧
    ((after env before).kel sub.pre).length = i ∧
    ((process sled env (.event sub) (after env before)).1 = .panic ∨
     (∃ er, (process sled env (.event sub) (after env before)).1 = .err er ∧
        (sub.rt = false ∨ ∃ er', sub.msg.serialize env = .err er')))

theorem signedInForce_prefix {env : Env} {l m : List SignedEvent} {i : Nat} (h : SignedInForce env l i) (hp : l <+: m) :
    SignedInForce env m i := by
  obtain ⟨e, kc, b, h1, h2, h3, h4⟩ := h
  obtain ⟨t, rfl⟩ := hp
  have hi : i < l.length := by rw [List.getElem?_eq_some_iff] at h1; exact h1.1
  refine ⟨e, kc, b, by rw [List.getElem?_append_left hi]; exact h1, ?_, h3, h4⟩
  rw [List.take_append_of_le_length (by omega)]
  exact h2

theorem validSigs_of_verify {env : Env} {kc : KeyConfig} {b : Bytes} {sigs} (h : kc.verify env b sigs = .ok true) :
    ValidSigs env kc b sigs := by
  rw [C20_verify_exact] at h
  exact ⟨h.2.1, h.2.2.2, h.1⟩

theorem verify_of_validSigs {env : Env} {kc : KeyConfig} {b : Bytes} {sigs : List AttachedSignaturePrefix} (h : ValidSigs env kc b sigs) :
    kc.verify env b sigs = .ok true := by
  rw [KeyConfig.verify_true_iff, enough_iff]
  simp only [verify_iff_sigValid]
  exact ⟨h.threshold, h.distinct, h.valid⟩

/-- C02: in every reachable log every event is signed with the keys in force once it is applied, or was left
behind by a call that did not succeed: it crashed, could not encode the event, or the event contains a text that does not parse
back (so that the clean-up did nothing).  The full claim has no second alternative; it is false, see below. -/
theorem C02_signed (env : Env) (as : List Action) (id : IdentifierPrefix) (hid : id.toStr ≠ []) (i : Nat) (e : SignedEvent)
    (he : ((after env as).kel id)[i]? = some e) :
    SignedInForce env ((after env as).kel id) i ∨ LeftByFailedCall env as e i := by
  revert i e
  refine snoc_induction (P := fun as => ∀ (i : Nat) (e : SignedEvent), ((after env as).kel id)[i]? = some e →
    SignedInForce env ((after env as).kel id) i ∨ LeftByFailedCall env as e i) as ?_ ?_
  · intro i e he
    have : (after env []).kel id = [] := rfl
    rw [this] at he; simp at he
  · intro as act ih i e he
    have old : ∀ i e, ((after env as).kel id)[i]? = some e →
        SignedInForce env ((after env (as ++ [act])).kel id) i ∨ LeftByFailedCall env (as ++ [act]) e i := by
      intro i e he
      rcases ih i e he with h | ⟨b, sub, r, h1, h2, h3, h4⟩
      · exact .inl (signedInForce_prefix h (C01_append_only env as [act] id hid))
      · exact .inr ⟨b, sub, r ++ [act], by simp [h1], h2, h3, h4⟩
    rcases C01_one_step env as act id hid with h | ⟨sub, rfl, hp, h⟩
    · rw [h] at he ⊢
      have := old i e he
      rwa [h] at this
    · by_cases hi : i < ((after env as).kel id).length
      · rw [h, List.getElem?_append_left hi] at he
        exact old i e he
      · have hi' : i = ((after env as).kel id).length := by
          rw [h] at he
          have := (List.getElem?_eq_some_iff.1 he).1
          simp at this; omega
        subst hi'
        rw [h, List.getElem?_concat_length] at he
        have he : e = sub.stored := (Option.some.inj he).symm
        subst he
        have hkel : (after env as).kel sub.pre = (after env as).kel id := by rw [kel_eq, kel_eq, hp]
        have hkel' : (after env (as ++ [.submit (.event sub)])).kel sub.pre = (after env (as ++ [.submit (.event sub)])).kel id := by
          rw [kel_eq, kel_eq, hp]
        have hsub : sub.pre.toStr ≠ [] := by rw [hp]; exact hid
        obtain ⟨s, hl, ho⟩ := event_outcome env as sub hsub
        generalize hr : (process sled env (.event sub) (after env as)).1 = r at ho
        generalize ha : (after env (as ++ [.submit (.event sub)])).abs = a' at ho
        have hlog : a'.log sub.pre.toStr = (after env as).kel id ++ [sub.stored] := by
          rw [← ha, ← kel_eq, hkel', h]
        cases ho with
        | refused _ ht _ =>
          have := MapDb.log_congr ht sub.pre.toStr
          rw [hlog, ← kel_eq, hkel] at this
          simp at this
        | @stored new _ _ hap hst _ =>
          have key : ∀ bytes, sub.msg.serialize env = .ok bytes → new.current.verify env bytes sub.sigs = .ok true →
              SignedInForce env ((after env (as ++ [.submit (.event sub)])).kel id) ((after env as).kel id).length := by
            intro bytes hs hv
            refine ⟨sub.stored, new.current, bytes, by rw [h]; simp, ?_, hs, validSigs_of_verify hv⟩
            rw [h, List.take_of_length_le (by simp)]
            have L := Log.snoc (e := sub.stored) hl rfl rfl hap
            rw [← hkel]
            exact L.keys hsub (by simp)
          have fail : (r = .panic ∨ (∃ er, r = .err er ∧ (sub.rt = false ∨ ∃ er', sub.msg.serialize env = .err er'))) →
              LeftByFailedCall env (as ++ [.submit (.event sub)]) sub.stored ((after env as).kel id).length := by
            intro hf
            exact ⟨as, sub, [], by simp, rfl, by rw [hkel], by rw [hr]; exact hf⟩
          rw [hlog] at hst
          generalize hl' : (after env as).kel id ++ [sub.stored] = l' at hst
          cases hst with
          | accepted bytes hs hv => exact .inl (key bytes hs hv)
          | undone bytes er _ _ _ hrt _ =>
            rw [← kel_eq, hkel] at hl'
            simp at hl'
          | unreadable bytes er _ _ _ hrt _ => exact .inr (fail (.inr ⟨er, rfl, .inl hrt⟩))
          | noBytesErr er hs => exact .inr (fail (.inr ⟨er, rfl, .inr ⟨er, hs⟩⟩))
          | noBytesPanic hs => exact .inr (fail (.inl rfl))
          | panicked bytes hs hv => exact .inr (fail (.inl rfl))

/-- C02 for well-behaved runs: if no call crashed, every submitted event could be encoded (always true of JSON) and the
log can be read back, then every event of the log is signed with the keys in force. -/
theorem C02_readable_log_is_signed (env : Env) (as : List Action) (id : IdentifierPrefix) (hid : id.toStr ≠ [])
    (hpanic : ∀ before sub rest, as = before ++ .submit (.event sub) :: rest →
      (process sled env (.event sub) (after env before)).1 ≠ .panic)
    (hser : ∀ sub, .submit (.event sub) ∈ as → ∀ er, sub.msg.serialize env ≠ .err er)
    (hread : Readable ((after env as).kel id)) (i : Nat) (hi : i < ((after env as).kel id).length) :
    SignedInForce env ((after env as).kel id) i := by
  rcases C02_signed env as id hid i _ (List.getElem?_eq_getElem hi) with h | ⟨b, sub, r, h1, h2, h3, h4⟩
  · exact h
  · exfalso
    rcases h4 with h4 | ⟨er, _, h4 | ⟨er', h4⟩⟩
    · exact hpanic b sub r h1 h4
    · have := hread _ (List.getElem_mem hi)
      rw [h2, rt_stored, h4] at this
      cases this
    · exact hser sub (by rw [h1]; simp) er' h4

/-- JSON events can always be encoded -/
theorem C02_json_encodes (env : Env) (m : EventMessage) (h : m.info.kind = .json) (er : Error) : m.serialize env ≠ .err er := by
  unfold EventMessage.serialize
  rw [h]
  simp [Fmt.encode]

/-- C02, accepting direction: an event for which `process` returned `Ok` is signed, for every history. -/
theorem C02_accepted_is_signed (env : Env) (as : List Action) (e : SignedEvent) (hid : e.pre.toStr ≠ []) (st : Option IdState)
    (hacc : (process sled env (.event e) (after env as)).1 = .ok st) :
    ∃ new bytes, st = some new ∧ e.msg.serialize env = .ok bytes ∧ ValidSigs env new.current bytes e.sigs ∧
      keysInForce ((after env as).kel e.pre ++ [e]) = some new.current := by
  obtain ⟨s, hl, ho⟩ := event_outcome env as e hid
  rw [hacc] at ho
  cases ho with
  | refused h _ _ => exact absurd rfl (h st)
  | @stored new _ _ hap hs _ =>
    generalize hr : (Res.ok st : Res (Option IdState)) = r at hs
    generalize ((after env (as ++ [.submit (.event e)])).abs.log e.pre.toStr) = l at hs
    cases hs <;> try (cases hr; done)
    rename_i bytes hs hv
    cases hr
    refine ⟨new, bytes, rfl, hs, validSigs_of_verify hv, ?_⟩
    have L := Log.snoc (e := e.stored) hl rfl rfl hap
    have hk := L.keys hid (by simp)
    rw [keysInForce_append] at hk ⊢
    exact hk

/-! ### Counterexamples -/

/-- an interaction nobody signed: its only signature has an index outside the key list -/
def Ex.forgedIxn : SignedEvent :=
  { Ex.ixn with sigs := [sig 99 7 [], sig 98 8 []] }

/-- C24 is false, and with it C02: submitting an unsigned interaction whose signature indices are out of range crashes
the call, and the event stays in the victim's log; once the program is restarted it counts (`compute_state` includes it). -/
theorem C24_fails :
    let before := after Ex.env [.submit (.event Ex.icp), .submit (.event Ex.rot)]
    let db := (process sled Ex.env (.event Ex.forgedIxn) before).2
    (process sled Ex.env (.event Ex.forgedIxn) before).1 = .panic ∧
    db.kel Ex.id = [Ex.icp, Ex.rot, Ex.forgedIxn] ∧
    ((computeState sled Ex.env Ex.id db).1 = .ok (some { Ex.rotState with sn := 2, lastDigest := Ex.ixn.dig })) := by
  decide +kernel

/-- C24: after a crash the log of the identifier is the log before, or the log before plus the submitted event; the latter exactly when the event got
past every check but that of its signatures: the delegation is in order, the log can be read, and the event applies to the state of the log. -/
theorem C24_crash (env : Env) (as : List Action) (e : SignedEvent) (hid : e.pre.toStr ≠ [])
    (h : (process sled env (.event e) (after env as)).1 = .panic) :
    let passed := (checkDelegation sled env e (after env as)).1 = .ok () ∧ Readable ((after env as).kel e.pre) ∧
      ∃ s new, stateAfter env ((after env as).kel e.pre) = .ok s ∧ e.msg.applyTo env s = .ok new
    (passed ∧ (after env (as ++ [.submit (.event e)])).kel e.pre = (after env as).kel e.pre ++ [e.stored]) ∨
    (¬ passed ∧ (after env (as ++ [.submit (.event e)])).kel e.pre = (after env as).kel e.pre) := by
  intro passed
  obtain ⟨s, hl, ho⟩ := event_outcome env as e hid
  have hst := hl.stateAfter
  have hcd := (checkDelegation_sim sled_sim env e _ (after_inv env as)).1
  rw [h] at ho
  simp only [passed, kel_eq] at hst ⊢
  rw [hcd, hst]
  generalize (after env (as ++ [.submit (.event e)])).abs = a' at ho
  generalize hr : (Res.panic : Res (Option IdState)) = r at ho
  cases ho with
  | refused _ ht hx =>
    refine .inr ⟨?_, MapDb.log_congr ht _⟩
    rintro ⟨h1, h2, s', new, h3, h4⟩
    cases h3
    rcases hx with ⟨er, h, _⟩ | ⟨h, _⟩ | ⟨_, ⟨h, _⟩ | ⟨_, er, h, _⟩ | ⟨_, h, _⟩⟩
    · rw [h1] at h; cases h
    · rw [h1] at h; cases h
    · exact h h2
    · rw [h4] at h; cases h
    · rw [h4] at h; cases h
  | @stored new h1 h2 h3 h4 _ =>
    refine .inl ⟨⟨h1, h2, s, new, rfl, h3⟩, ?_⟩
    generalize a'.log e.pre.toStr = l' at h4
    subst hr
    cases h4 <;> rfl

/-- C24 fails systematically: on any readable log, any event that applies to it but whose signature list crashes the
signature check is left in the log. -/
theorem C24_fails_for_all (env : Env) (as : List Action) (e : SignedEvent) (hid : e.pre.toStr ≠ []) (s new : IdState)
    (hd : (checkDelegation sled env e (after env as)).1 = .ok ())
    (hs : (computeState sled env e.pre (after env as)).1 = .ok (some s)) (hap : e.msg.applyTo env s = .ok new) (bytes : Bytes)
    (hb : e.msg.serialize env = .ok bytes) (hv : new.current.verify env bytes e.sigs = .panic) :
    (process sled env (.event e) (after env as)).1 = .panic ∧
    (after env (as ++ [.submit (.event e)])).kel e.pre = (after env as).kel e.pre ++ [e.stored] := by
  obtain ⟨s', hl, ho⟩ := event_outcome env as e hid
  rw [(checkDelegation_sim sled_sim env e _ (after_inv env as)).1] at hd
  rw [(computeState_sim sled_sim env e.pre _ (after_inv env as)).1, computeState_run] at hs
  have hl2 := hl
  rw [kel_eq] at hl2
  have hss : s' = s ∧ Readable ((after env as).abs.log e.pre.toStr) := by
    rw [← readable_iff]
    unfold MapDb.log at hl2 ⊢
    cases hk : (after env as).abs.tables .kels e.pre.toStr with
    | none => rw [hk] at hs; simp at hs
    | some l =>
      rw [hk] at hs hl2
      dsimp only [Option.getD_some] at hs hl2 ⊢
      split at hs
      · rename_i hr
        rw [hl2.foldState hid] at hs
        simp only [Res.ok.injEq, Option.some.injEq] at hs
        exact ⟨hs, hr⟩
      · cases hs
  obtain ⟨rfl, hrd⟩ := hss
  rw [kel_eq, kel_eq]
  generalize (process sled env (.event e) (after env as)).1 = r at ho
  generalize (after env (as ++ [.submit (.event e)])).abs = a' at ho
  cases ho with
  | refused _ _ h =>
    exfalso
    rcases h with ⟨er, h, _⟩ | ⟨h, _⟩ | ⟨_, ⟨h, _⟩ | ⟨_, er, h, _⟩ | ⟨_, h, _⟩⟩
    · rw [hd] at h; cases h
    · rw [hd] at h; cases h
    · exact h hrd
    · rw [hap] at h; cases h
    · rw [hap] at h; cases h
  | @stored new' _ _ hap' hst _ =>
    rw [hap] at hap'
    cases hap'
    generalize a'.log e.pre.toStr = l' at hst
    cases hst with
    | accepted b hs' hv' => rw [hb] at hs'; cases hs'; rw [hv] at hv'; cases hv'
    | undone b er hs' h1 h2 _ _ => rw [hb] at hs'; cases hs'; exact absurd hv h2
    | unreadable b er hs' h1 h2 _ _ => rw [hb] at hs'; cases hs'; exact absurd hv h2
    | noBytesErr er hs' => rw [hb] at hs'; cases hs'
    | noBytesPanic hs' => rw [hb] at hs'; cases hs'
    | panicked _ _ _ => exact ⟨rfl, rfl⟩

/-- an unsigned interaction carrying a seal whose digest has 31 bytes (its 43-character text parses when written with
padding, but is not read back by the database) -/
def Ex.poison : SignedEvent :=
  signAll (msgOr ((Event.mk id 2 (.ixn ⟨rot.dig, [.digest ⟨.blake3_256, List.replicate 31 5⟩]⟩)).toMessage env .json .blake3_256)) [99, 98]

/-- C02 is false also for calls that merely return an error: the unsigned event stays in the log because the clean-up
cannot decode the stored vector any more, and from then on every query and every call about the victim crashes. -/
theorem C02_fails :
    let before := after Ex.env [.submit (.event Ex.icp), .submit (.event Ex.rot)]
    let db := (process sled Ex.env (.event Ex.poison) before).2
    (process sled Ex.env (.event Ex.poison) before).1 = .err .signatureVerification ∧
    db.kel Ex.id = [Ex.icp, Ex.rot, Ex.poison] ∧
    (computeState sled Ex.env Ex.id db).1 = .panic ∧
    (process sled Ex.env (.event Ex.ixn) db).1 = .panic := by
  decide +kernel

/-- the hypotheses of the positive theorems hold for an ordinary run -/
example : (∀ e ∈ [Ex.icp, Ex.rot, Ex.ixn], e.msg.info.kind = .json) ∧ (after Ex.env Ex.hist).kel Ex.id = [Ex.icp, Ex.rot, Ex.ixn] ∧
    (([Ex.icp, Ex.rot, Ex.ixn] : List SignedEvent).all SignedEvent.rt) = true := by decide +kernel

end Keriox
