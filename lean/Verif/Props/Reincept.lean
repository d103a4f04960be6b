import Verif.Props.Manager

/-! C85: calling `incept` or `incept_with_extra_keys` a second time. -/

namespace Keriox

/-- the inception event a controller makes that already has an identifier -/
def againMsg (env : Env) (c : Controller) (extra ws : List BasicPrefix) : EventMessage :=
  match c.pre with
  | .basic k => saidJson env ⟨.basic k, 0, .icp ⟨c.km.config env extra, 0, ws, [], []⟩⟩
  | _ => selfAddressedJson env (.icp ⟨c.km.config env extra, 0, ws, [], []⟩)

theorem again_cases {env : Env} {sg : SignFn} {c : Controller} {l : List SignedEvent} {s : IdState} (R : c.Ready env sg l s) :
    (∃ k, c.pre = .basic k) ∨ ∃ d, c.pre = .selfAddressing d := by
  cases h : c.pre with
  | basic k => exact .inl ⟨k, rfl⟩
  | selfAddressing d => exact .inr ⟨d, rfl⟩
  | selfSigning q => exact absurd h (R.preOk.2 q)

theorem makeAgain_eq {env : Env} {sg : SignFn} {c : Controller} {l : List SignedEvent} {s : IdState} (R : c.Ready env sg l s)
    (extra ws : List BasicPrefix) : c.makeInception env extra ws = .ok (againMsg env c extra ws) := by
  have hd := R.notDefault
  unfold Controller.makeInception Builder.build Builder.pre Controller.builder
  simp only [if_neg hd, Res.ok_bind]
  unfold againMsg
  rcases again_cases R with ⟨k, hk⟩ | ⟨d, hk⟩ <;> simp only [hk] <;> rfl

theorem againMsg_facts (env : Env) (c : Controller) (extra ws : List BasicPrefix) :
    (againMsg env c extra ws).info.kind = .json ∧
    (againMsg env c extra ws).event.content.data = .icp ⟨c.km.config env extra, 0, ws, [], []⟩ ∧
    (againMsg env c extra ws).event.content.sn = 0 := by
  unfold againMsg
  cases c.pre <;> exact ⟨rfl, rfl, rfl⟩

/-- an inception does not apply to a state that has a prefix -/
theorem again_inapplicable (env : Env) (m : EventMessage) (i : InceptionEvent) (hd : m.event.content.data = .icp i) (s : IdState)
    (hs : s.prefix ≠ IdentifierPrefix.default) (new : IdState) : m.applyTo env s ≠ .ok new :=
  fun h => hs ((applyTo_ok (e := ⟨m, [], none⟩) h).incPre (by show m.event.content.data.isInception = true; rw [hd]; rfl))

/-- the state of an identifier is determined by its log -/
theorem computeState_congr (env : Env) (as bs : List Action) (id : IdentifierPrefix) (hid : id.toStr ≠ [])
    (hne : (after env as).kel id ≠ []) (hr : Readable ((after env as).kel id)) (h : (after env bs).kel id = (after env as).kel id) :
    (computeState sled env id (after env bs)).1 = (computeState sled env id (after env as)).1 := by
  obtain ⟨s, h1, h2⟩ := computeState_log env as id hid hne hr
  obtain ⟨t, h3, h4⟩ := computeState_log env bs id hid (by rw [h]; exact hne) (by rw [h]; exact hr)
  rw [h] at h3
  have := h3.unique h1
  subst this
  rw [h2, h4]

/-- the run of a second inception -/
theorem again_run {env : Env} {sg : SignFn} {c : Controller} {as : List Action} {s : IdState}
    (R : c.Ready env sg ((after env as).kel c.pre) s) (extra ws : List BasicPrefix) :
    ∃ e, e.msg = againMsg env c extra ws ∧
      (((∃ o, (process sled env (.event e) (after env as)).1 = .ok o) ∧ (againMsg env c extra ws).event.content.prefix.toStr ≠ c.pre.toStr ∧
          c.inceptWith env sg extra ws (after env as) = (.ok e, { c with pre := e.pre }, after env (as ++ [.submit (.event e)]))) ∨
        ((∀ e', (c.inceptWith env sg extra ws (after env as)).1 ≠ .ok e') ∧ (c.inceptWith env sg extra ws (after env as)).2.1 = c ∧
          (c.inceptWith env sg extra ws (after env as)).2.2 = after env (as ++ [.submit (.event e)]))) ∧
      (after env (as ++ [.submit (.event e)])).kel c.pre = (after env as).kel c.pre := by
  obtain ⟨hj, hdat, hsn⟩ := againMsg_facts env c extra ws
  obtain ⟨sig, g1, g2, g3⟩ := signEvent_eq (c := c) R.works.signer hj
  let e : SignedEvent := ⟨againMsg env c extra ws, [⟨0, ⟨.ed25519Sha512, sig⟩⟩], none⟩
  have hspre : s.prefix ≠ IdentifierPrefix.default := by rw [R.pre]; exact R.notDefault
  refine ⟨e, rfl, ?_⟩
  have hrun : c.inceptWith env sg extra ws (after env as) =
      ((submitOwn sled env (.ok e) (after env as)).1, c.adopt (submitOwn sled env (.ok e) (after env as)).1, (submitOwn sled env (.ok e) (after env as)).2) := by
    unfold Controller.inceptWith
    rw [makeAgain_eq R]
    simp only [Res.ok_bind, g3]
    rfl
  by_cases ht : e.pre.toStr = c.pre.toStr
  · have hk0 : (after env as).kel e.pre = (after env as).kel c.pre := by rw [kel_eq, kel_eq, ht]
    obtain ⟨h1, h2⟩ := refused_inapplicable env as e e.pre rfl (by rw [ht]; exact R.preNe) s (by rw [hk0, ht]; exact R.log)
      (fun new => again_inapplicable env _ _ hdat s hspre new)
    have hk1 : (after env (as ++ [.submit (.event e)])).kel e.pre = (after env (as ++ [.submit (.event e)])).kel c.pre := by rw [kel_eq, kel_eq, ht]
    obtain ⟨h3, h4⟩ := submitOwn_refused env as e h1
    refine ⟨.inr ⟨?_, ?_, ?_⟩, by rw [← hk1, h2, hk0]⟩
    · rw [hrun]; exact h3
    · rw [hrun]
      show c.adopt _ = c
      cases hr : (submitOwn sled env (.ok e) (after env as)).1 with
      | ok x => exact absurd hr (h3 x)
      | err x => rfl
      | panic => rfl
    · rw [hrun]; exact h4
  · refine ⟨?_, other_kel env as _ c.pre R.preNe ht⟩
    by_cases hacc : ∃ o, (process sled env (.event e) (after env as)).1 = .ok o
    · left
      refine ⟨hacc, ht, ?_⟩
      obtain ⟨o, ho⟩ := hacc
      rw [hrun, submitOwn_run]
      rcases hp : process sled env (.event e) (after env as) with ⟨r, d⟩
      rw [hp] at ho
      cases ho
      rw [after_snoc, hp]
      rfl
    · right
      obtain ⟨h3, h4⟩ := submitOwn_refused env as e (fun o ho => hacc ⟨o, ho⟩)
      refine ⟨by rw [hrun]; exact h3, ?_, by rw [hrun]; exact h4⟩
      rw [hrun]
      show c.adopt _ = c
      cases hr : (submitOwn sled env (.ok e) (after env as)).1 with
      | ok x => exact absurd hr (h3 x)
      | err x => rfl
      | panic => rfl

/-- C85: a second inception never touches the log of the identifier the controller has, with whatever keys and witnesses; if it succeeds, it is for
another identifier. -/
theorem C85_log_untouched (env : Env) (hb : env.Blake3Size) (sg : SignFn) (c : Controller) (db : Db) (h : Started env sg c db)
    (extra ws : List BasicPrefix) :
    (computeState sled env c.pre (c.inceptWith env sg extra ws db).2.2).1 = (computeState sled env c.pre db).1 ∧
    (∀ e, (c.inceptWith env sg extra ws db).1 = .ok e → e.pre ≠ c.pre ∧ (c.inceptWith env sg extra ws db).2.1 = { c with pre := e.pre }) ∧
    ((∀ e, (c.inceptWith env sg extra ws db).1 ≠ .ok e) → (c.inceptWith env sg extra ws db).2.1 = c) := by
  obtain ⟨as, s, rfl, R⟩ := started_ready hb h
  obtain ⟨e, h1, h2, h3⟩ := again_run R extra ws
  have hc := computeState_congr env as _ c.pre R.preNe R.nonempty R.readable h3
  rcases h2 with ⟨_, hne, h2⟩ | ⟨h2, h4, h5⟩
  · rw [h2]
    refine ⟨hc, ?_, fun h => absurd rfl (h e)⟩
    rintro _ ⟨⟩
    refine ⟨fun hp => hne ?_, rfl⟩
    have : e.pre = (againMsg env c extra ws).event.content.prefix := by rw [← h1]
    rw [← this, hp]
  · exact ⟨by rw [h5]; exact hc, fun e he => absurd he (h2 e), fun _ => h4⟩

/-- C85: for an identifier that is a public key, a second inception is always refused and the controller is what it was. -/
theorem C85_basic_refused (env : Env) (hb : env.Blake3Size) (sg : SignFn) (c : Controller) (db : Db) (h : Started env sg c db)
    (k : BasicPrefix) (hk : c.pre = .basic k) (extra ws : List BasicPrefix) :
    (∀ e, (c.inceptWith env sg extra ws db).1 ≠ .ok e) ∧ (c.inceptWith env sg extra ws db).2.1 = c := by
  obtain ⟨as, s, rfl, R⟩ := started_ready hb h
  obtain ⟨e, h1, h2, h3⟩ := again_run R extra ws
  rcases h2 with ⟨_, hne, _⟩ | ⟨h2, h4, _⟩
  · refine absurd ?_ hne
    unfold againMsg
    rw [hk]
    rfl
  · exact ⟨h2, h4⟩

theorem again_rt {env : Env} (hb : env.Blake3Size) {sg : SignFn} {km : CryptoBox} (hw : km.Works env sg) (extra ws : List BasicPrefix)
    (he : ∀ k ∈ extra, k.Sized ∧ ¬ k.IsSecp) (hws : ∀ k ∈ ws, k.Sized ∧ ¬ k.IsSecp) (hl : extra.length + ws.length ≤ 60) :
    (selfAddressedJson env (.icp ⟨km.config env extra, 0, ws, [], []⟩)).rt = true := by
  have hdrt : (EventData.icp ⟨km.config env extra, 0, ws, [], []⟩).rt = true := by
    have h1 : km.key.rt = true := ed_key_rt hw.signer.size
    have h2 := sa_rt (commitment_sized hb km)
    have h3 := keys_rt extra he
    have h4 := keys_rt ws hws
    simp only [EventData.rt, InceptionEvent.rt, KeyConfig.rt, CryptoBox.config, List.all_cons, h1, h2, h3, h4, Threshold.default, Threshold.rt]
    rfl
  have hfw := icp_fields_weight env hb sg km hw extra ws (fun k hk => (he k hk).1) (fun k hk => (hws k hk).1)
  have hi : (SerInfo.new .json 0).toStr.length = 17 := by decide +kernel
  have hir : (selfAddressedJson env (.icp ⟨km.config env extra, 0, ws, [], []⟩)).info.rt = true := by
    unfold SerInfo.rt
    refine decide_eq_true ((C41_exact _ (show (1:Nat) ≤ 15 by omega) (show (0:Nat) ≤ 15 by omega)).2 ?_)
    refine Nat.le_trans (jsonText_le _) ?_
    simp only [dummyInceptionSval, SVal.weight, SVal.weightFields, List.cons_append, List.nil_append,
      EventData.type, EventTypeTag.toStr, hi, dummy_blake3_len, List.length_cons, List.length_nil]
    omega
  have hprt : (selfAddressedJson env (.icp ⟨km.config env extra, 0, ws, [], []⟩)).event.content.prefix.rt = true := by
    unfold IdentifierPrefix.rt
    exact decide_eq_true (C35_identifier_roundtrip _ (derive_sized hb _) (by simp [IdentifierPrefix.IsSecp, selfAddressedJson]))
  unfold EventMessage.rt
  simp only [Bool.and_eq_true, decide_eq_true_eq]
  exact ⟨⟨⟨⟨hir, sa_rt (derive_sized hb _)⟩, hprt⟩, by show 0 ≤ _; omega⟩, hdrt⟩

/-- C85, the defect: if the identifier is self-addressing, a second inception succeeds and the controller silently takes another identifier, unless
somebody already uses that one: the old identifier stays as it is, and the controller, which has no other way to name it, no longer speaks for it. -/
theorem C85_fails_switch (env : Env) (hb : env.Blake3Size) (sg : SignFn) (c : Controller) (db : Db) (h : Started env sg c db)
    (d : SelfAddressingPrefix) (hd : c.pre = .selfAddressing d) (extra ws : List BasicPrefix)
    (he : ∀ k ∈ extra, k.Sized ∧ ¬ k.IsSecp) (hws : ∀ k ∈ ws, k.Sized ∧ ¬ k.IsSecp) (hl : extra.length + ws.length ≤ 60)
    (hun : ∀ m, c.makeInception env extra ws = .ok m → db.kel m.event.content.prefix = []) :
    ∃ e, (c.inceptWith env sg extra ws db).1 = .ok e ∧ e.pre ≠ c.pre ∧ (c.inceptWith env sg extra ws db).2.1.pre = e.pre ∧
      (computeState sled env c.pre (c.inceptWith env sg extra ws db).2.2).1 = (computeState sled env c.pre db).1 := by
  have hu := C85_log_untouched env hb sg c db h extra ws
  suffices hs : ∃ e, (c.inceptWith env sg extra ws db).1 = .ok e by
    obtain ⟨e, hs⟩ := hs
    exact ⟨e, hs, (hu.2.1 e hs).1, by rw [(hu.2.1 e hs).2], hu.1⟩
  obtain ⟨as, s, rfl, R⟩ := started_ready hb h
  have hun := hun _ (makeAgain_eq R extra ws)
  have hm : againMsg env c extra ws = selfAddressedJson env (.icp ⟨c.km.config env extra, 0, ws, [], []⟩) := by unfold againMsg; rw [hd]
  have hmk := makeAgain_eq R extra ws
  rw [hm] at hun hmk
  have hrt := again_rt hb R.works extra ws he hws hl
  have hne : (selfAddressedJson env (.icp ⟨c.km.config env extra, 0, ws, [], []⟩)).event.content.prefix.toStr ≠ [] := by
    intro h0
    have := sa_len (derive_sized hb (jsonText (dummyInceptionSval (SerInfo.new .json (jsonText (dummyInceptionSval (SerInfo.new .json 0) .blake3_256
      (.icp ⟨c.km.config env extra, 0, ws, [], []⟩))).length) .blake3_256 (.icp ⟨c.km.config env extra, 0, ws, [], []⟩)))) rfl
    change (selfAddressedJson env (.icp ⟨c.km.config env extra, 0, ws, [], []⟩)).event.content.prefix.toStr.length = 44 at this
    rw [h0] at this
    cases this
  have hbind : verifyIdentifierBinding env (selfAddressedJson env (.icp ⟨c.km.config env extra, 0, ws, [], []⟩)) = .ok true := by
    simp [verifyIdentifierBinding, selfAddressedJson, EventMessage.checkDigest]
  generalize hM : selfAddressedJson env (.icp ⟨c.km.config env extra, 0, ws, [], []⟩) = M at *
  have hdat : M.event.content.data = .icp ⟨c.km.config env extra, 0, ws, [], []⟩ := by rw [← hM]; rfl
  have hsn : M.event.content.sn = 0 := by rw [← hM]; rfl
  have hj : M.info.kind = .json := by rw [← hM]; rfl
  obtain ⟨new, hap, hcur⟩ : ∃ new, M.applyTo env IdState.default = .ok new ∧ new.current = c.km.config env extra := by
    unfold EventMessage.applyTo
    rw [hdat, hbind]
    simp only [Res.ok_bind, if_true]
    unfold Event.applyTo
    rw [hdat]
    simp only [EventData.applyTo, hsn]
    exact ⟨_, rfl, rfl⟩
  obtain ⟨e, _, g2, g3, _, _, _, _⟩ := own_event (sg := sg) (c := { c with pre := M.event.content.prefix }) (as := as) (s := IdState.default)
    (new := new) (m := M) hne
    (by show Log _ _ (Db.kel _ M.event.content.prefix) _; rw [hun]; exact Log.nil)
    (by show Readable (Db.kel _ M.event.content.prefix); rw [hun]; exact fun x hx => by cases hx)
    R.works.signer hj rfl (.inl ⟨_, hdat⟩) hap (by rw [hcur]; rfl) (by rw [hcur]; rfl) hrt
  refine ⟨e, ?_⟩
  unfold Controller.inceptWith
  rw [hmk]
  have : submitOwn sled env (Res.ok M >>= c.signEvent env sg) (after env as) = (.ok e, after env (as ++ [.submit (.event e)])) := g3
  rw [this]

open Ex in
/-- the hypotheses are met: the identifier of `cath` is a public key -/
example : ∃ k, cath.1.pre = .basic k := by
  have : (match cath.1.pre with | .basic _ => true | _ => false) = true := by decide +kernel
  cases h : cath.1.pre with
  | basic k => exact ⟨k, rfl⟩
  | selfAddressing d => rw [h] at this; cases this
  | selfSigning q => rw [h] at this; cases this

open Ex in
/-- the hypotheses are met: the identifier of `dave`, incepted with an extra key, is self-addressing, and a second inception with one witness succeeds -/
example : ∃ e, (dave.1.inceptWith env sg [] [key 60] dave.2).1 = .ok e ∧ e.pre ≠ dave.1.pre ∧
    (dave.1.inceptWith env sg [] [key 60] dave.2).2.1.pre = e.pre ∧
    (computeState sled env dave.1.pre (dave.1.inceptWith env sg [] [key 60] dave.2).2.2).1 = (computeState sled env dave.1.pre dave.2).1 := by
  have hp : (match dave.1.pre with | .selfAddressing _ => true | _ => false) = true := by decide +kernel
  have hu : (match dave.1.makeInception env [] [key 60] with | .ok m => (dave.2.kel m.event.content.prefix).isEmpty | _ => true) = true := by decide +kernel
  cases h : dave.1.pre with
  | basic k => rw [h] at hp; cases hp
  | selfSigning q => rw [h] at hp; cases hp
  | selfAddressing d =>
    rw [← h]
    refine C85_fails_switch env blake3Size sg dave.1 dave.2 dave_started d h [] [key 60] (by simp) (by intro k hk; rw [List.mem_singleton] at hk; subst hk; exact ⟨by unfold BasicPrefix.Sized; decide +kernel, by simp [BasicPrefix.IsSecp, key]⟩) (by decide) ?_
    intro m hm
    rw [hm] at hu
    exact List.isEmpty_iff.1 hu

end Keriox
