import Verif.Props.Handshake

/-!
# C84: the key manager and the log out of step; C85: a second inception

`Keri::rotate` rotates the key manager before it makes the rotation event, and a key manager may be shared by several controllers.
-/

namespace Keriox

/-! ## Specification -/

/-- the key pairs that the key manager has not used for signing yet: the next one and the ones it will generate -/
def CryptoBox.Unused (km : CryptoBox) (kp : KeyPair) : Prop := kp = km.next ∨ ∃ n, kp = km.fresh n

/-- The keys are really different: signatures made with a later key do not verify under the current one, and the commitment to the next
key is not a commitment to one of the keys after it. -/
structure CryptoBox.KeysDiffer (env : Env) (sg : SignFn) (km : CryptoBox) : Prop where
  signatures : ∀ kp, km.Unused kp → ∀ m s, sg kp.priv m = .ok s → env.ed km.signer.pub m s = false
  commitments : ∀ n, KeyConfig.nxtCommitment env Threshold.default [⟨.ed25519, (km.fresh n).pub⟩] .blake3_256 ≠
    KeyConfig.nxtCommitment env Threshold.default [⟨.ed25519, km.next.pub⟩] .blake3_256

/-! ## Locked out -/

/-- the keys of the key manager are neither the key in force nor committed to -/
structure Controller.Locked (env : Env) (sg : SignFn) (c : Controller) (l : List SignedEvent) (s : IdState) : Prop where
  log : Log env c.pre.toStr l s
  readable : Readable l
  nonempty : l ≠ []
  pre : s.prefix = c.pre
  preRt : c.pre.rt = true
  preLen : c.pre.toStr.length = 44
  dig : s.lastDigest.Sized
  digBlake : s.lastDigest.derivation = .blake3_256
  thr : s.current.threshold = .simple 1
  notDefault : c.pre ≠ IdentifierPrefix.default
  works : c.km.Works env sg
  key : ∃ k, s.current.publicKeys[0]? = some ⟨.ed25519, k⟩ ∧
    ∀ kp, kp = c.km.signer ∨ c.km.Unused kp → ∀ m x, sg kp.priv m = .ok x → env.ed k m x = false
  next : ∀ kp, c.km.Unused kp → ∀ n, s.current.verifyNext env ⟨Threshold.default, [⟨.ed25519, kp.pub⟩], n⟩ = false

namespace Controller.Locked
variable {env : Env} {sg : SignFn} {c : Controller} {l : List SignedEvent} {s : IdState}

theorem preNe (h : c.Locked env sg l s) : c.pre.toStr ≠ [] := by
  intro h0; have := h.preLen; rw [h0] at this; cases this

theorem rotated (h : c.Locked env sg l s) : ({ c with km := c.km.rotate } : Controller).Locked env sg l s :=
  { h with
    works := h.works.rotate
    key := by
      obtain ⟨k, h1, h2⟩ := h.key
      refine ⟨k, h1, fun kp hk => h2 kp ?_⟩
      rcases hk with rfl | rfl | ⟨n, rfl⟩
      · exact .inr (.inl rfl)
      · exact .inr (.inr ⟨0, rfl⟩)
      · exact .inr (.inr ⟨n + 1, rfl⟩)
    next := by
      intro kp hk
      refine h.next kp ?_
      rcases hk with rfl | ⟨n, rfl⟩
      · exact .inr ⟨0, rfl⟩
      · exact .inr ⟨n + 1, rfl⟩ }

end Controller.Locked

theorem ready_locked {env : Env} {sg : SignFn} {c : Controller} {l : List SignedEvent} {s : IdState} (h : c.Ready env sg l s)
    (hd : c.km.KeysDiffer env sg) : ({ c with km := c.km.rotate } : Controller).Locked env sg l s :=
  { log := h.log, readable := h.readable, nonempty := h.nonempty, pre := h.pre, preRt := h.preRt, preLen := h.preLen, dig := h.dig
    digBlake := h.digBlake, thr := h.thr, notDefault := h.notDefault, works := h.works.rotate
    key := by
      refine ⟨_, h.key, fun kp hk => hd.signatures kp ?_⟩
      rcases hk with rfl | rfl | ⟨n, rfl⟩
      · exact .inl rfl
      · exact .inr ⟨0, rfl⟩
      · exact .inr ⟨n + 1, rfl⟩
    next := by
      intro kp hk n
      obtain ⟨j, rfl⟩ : ∃ j, kp = c.km.fresh j := by
        rcases hk with rfl | ⟨j, rfl⟩
        · exact ⟨0, rfl⟩
        · exact ⟨j + 1, rfl⟩
      unfold KeyConfig.verifyNext
      rw [h.next]
      exact decide_eq_false (fun he => hd.commitments j (by first | exact he | exact he.symm)) }

/-- an event that does not verify is refused and leaves no trace in the log -/
theorem refused_unverified (env : Env) (as : List Action) (e : SignedEvent) (p : IdentifierPrefix) (hid : e.pre = p) (hne : p.toStr ≠ [])
    (s new : IdState) (bytes : Bytes) (hl : Log env p.toStr ((after env as).kel p) s) (hap : e.msg.applyTo env s = .ok new)
    (hs : e.msg.serialize env = .ok bytes) (hv : new.current.verify env bytes e.sigs ≠ .ok true)
    (hp : new.current.verify env bytes e.sigs ≠ .panic) (hrt : e.rt = true) :
    (∀ o, (process sled env (.event e) (after env as)).1 ≠ .ok o) ∧
    (after env (as ++ [.submit (.event e)])).kel p = (after env as).kel p := by
  subst hid
  obtain ⟨s', hl', ho⟩ := event_outcome env as e hne
  have := hl'.unique hl
  subst this
  have hk : ∀ xs, (after env xs).kel e.pre = (after env xs).abs.log e.pre.toStr := fun _ => rfl
  rw [hk, hk]
  generalize (process sled env (.event e) (after env as)).1 = r at ho
  generalize (after env (as ++ [.submit (.event e)])).abs = a' at ho
  cases ho with
  | refused h ht _ => exact ⟨h, MapDb.log_congr ht _⟩
  | stored _ _ hap' hst _ =>
    rw [hap] at hap'
    cases hap'
    generalize a'.log e.pre.toStr = l' at hst
    cases hst with
    | accepted b h1 h2 => rw [hs] at h1; cases h1; exact absurd h2 hv
    | undone => exact ⟨by simp, rfl⟩
    | unreadable b er _ _ _ h4 => rw [hrt] at h4; cases h4
    | noBytesErr er h1 => rw [hs] at h1; cases h1
    | noBytesPanic h1 => rw [hs] at h1; cases h1
    | panicked b h1 h2 => rw [hs] at h1; cases h1; exact absurd h2 hp

/-- an event that does not follow from the state is refused and leaves no trace in the log -/
theorem refused_inapplicable (env : Env) (as : List Action) (e : SignedEvent) (p : IdentifierPrefix) (hid : e.pre = p) (hne : p.toStr ≠ [])
    (s : IdState) (hl : Log env p.toStr ((after env as).kel p) s) (hap : ∀ new, e.msg.applyTo env s ≠ .ok new) :
    (∀ o, (process sled env (.event e) (after env as)).1 ≠ .ok o) ∧
    (after env (as ++ [.submit (.event e)])).kel p = (after env as).kel p := by
  subst hid
  obtain ⟨s', hl', ho⟩ := event_outcome env as e hne
  have := hl'.unique hl
  subst this
  have hk : ∀ xs, (after env xs).kel e.pre = (after env xs).abs.log e.pre.toStr := fun _ => rfl
  rw [hk, hk]
  generalize (process sled env (.event e) (after env as)).1 = r at ho
  generalize (after env (as ++ [.submit (.event e)])).abs = a' at ho
  cases ho with
  | refused h ht _ => exact ⟨h, MapDb.log_congr ht _⟩
  | stored _ _ hap' _ _ => exact absurd hap' (hap _)

theorem submitOwn_refused (env : Env) (as : List Action) (e : SignedEvent) (h : ∀ o, (process sled env (.event e) (after env as)).1 ≠ .ok o) :
    (∀ e', (submitOwn sled env (.ok e) (after env as)).1 ≠ .ok e') ∧
    (submitOwn sled env (.ok e) (after env as)).2 = after env (as ++ [.submit (.event e)]) := by
  rw [submitOwn_run, after_snoc]
  rcases hp : process sled env (.event e) (after env as) with ⟨r, d⟩
  rw [hp] at h
  cases r with
  | ok o => exact absurd rfl (h o)
  | err x => exact ⟨by simp, rfl⟩
  | panic => exact ⟨by simp, rfl⟩

/-- a signature by a foreign key is refused without a panic -/
theorem foreign_verify {env : Env} {kc : KeyConfig} {b x : Bytes} {k : Bytes} (ht : kc.threshold = .simple 1)
    (hk : kc.publicKeys[0]? = some ⟨.ed25519, k⟩) (h : env.ed k b x = false) :
    kc.verify env b [⟨0, ⟨.ed25519Sha512, x⟩⟩] ≠ .ok true ∧ kc.verify env b [⟨0, ⟨.ed25519Sha512, x⟩⟩] ≠ .panic := by
  constructor
  · intro hv
    obtain ⟨k', h1, h2⟩ := (validSigs_of_verify hv).valid _ (List.mem_singleton.2 rfl)
    rw [hk] at h1
    cases h1
    simp only [SigValid] at h2
    simp_all
  · intro hp
    rcases (C23_panic_exact env kc b _).1 hp with ⟨c, hc, _⟩ | ⟨_, _, s, hs, hi⟩
    · rw [ht] at hc; cases hc
    · rw [List.mem_singleton] at hs
      subst hs
      have : 0 < kc.publicKeys.length := by
        rcases Nat.eq_zero_or_pos kc.publicKeys.length with h0 | h0
        · rw [List.length_eq_zero_iff.1 h0] at hk; cases hk
        · exact h0
      simp at hi
      simp [hi] at this

theorem own_rt {m : EventMessage} {sig : Bytes} (hrt : m.rt = true) (h : sig.length = 64) :
    (SignedEvent.mk m [⟨0, ⟨.ed25519Sha512, sig⟩⟩] none).rt = true := by
  unfold SignedEvent.rt
  simp only [hrt, List.all_cons, List.all_nil, own_sig_rt h .ed25519Sha512 rfl, Bool.and_true]

theorem Controller.Locked.ixn {env : Env} (hb : env.Blake3Size) {sg : SignFn} {c : Controller} {as : List Action} {s : IdState}
    (R : c.Locked env sg ((after env as).kel c.pre) s) (hn : s.sn + 1 ≤ u64max) (payload : Option Bytes) :
    ∃ as', (∀ e, (c.makeIxn sled env sg payload (after env as)).1 ≠ .ok e) ∧ (c.makeIxn sled env sg payload (after env as)).2 = after env as' ∧
      (after env as').kel c.pre = (after env as).kel c.pre := by
  have hk := after_lookup_kel env as .kels c.pre c.pre
  obtain ⟨new, ha, hc, _⟩ := ixn_applies (env := env) (s := s)
    (e := ⟨c.pre, s.sn + 1, .ixn ⟨s.lastDigest, ixnSeals env payload⟩⟩) rfl R.pre.symm rfl rfl (saidJson env _) rfl
  have hrt : (saidJson env ⟨c.pre, s.sn + 1, .ixn ⟨s.lastDigest, ixnSeals env payload⟩⟩).rt = true := by
    refine said_rt hb R.preRt hn ?_ ?_
    · have h3 := sa_rt R.dig
      cases payload with
      | none => simp [EventData.rt, h3, ixnSeals]
      | some p => simp [EventData.rt, h3, ixnSeals, Seal.rt, sa_rt (derive_sized hb p)]
    · exact ixn_weight hb payload R.preLen hn (sa_len R.dig R.digBlake)
  obtain ⟨sig, h1, h2, h3⟩ := signEvent_eq (c := c) R.works.signer (m := saidJson env ⟨c.pre, s.sn + 1, .ixn ⟨s.lastDigest, ixnSeals env payload⟩⟩) rfl
  obtain ⟨k, hk0, hbad⟩ := R.key
  have hsig : sg c.km.signer.priv (jsonText (saidJson env ⟨c.pre, s.sn + 1, .ixn ⟨s.lastDigest, ixnSeals env payload⟩⟩).sval) = .ok sig := by
    unfold Controller.signEvent CryptoBox.sign at h3
    rw [json_serialize env _ rfl, Res.ok_bind] at h3
    obtain ⟨x, hx, h3⟩ := Res.bind_eq_ok.1 h3
    cases h3
    exact hx
  obtain ⟨v1, v2⟩ := foreign_verify (env := env) (kc := new.current) (by rw [hc]; exact R.thr) (by rw [hc]; exact hk0) (hbad _ (.inl rfl) _ _ hsig)
  have hr := refused_unverified env (as ++ [.lookup .kels c.pre]) ⟨_, [⟨0, ⟨.ed25519Sha512, sig⟩⟩], none⟩ c.pre rfl R.preNe s new _
    (by rw [hk]; exact R.log) ha (json_serialize env _ rfl) v1 v2 (own_rt hrt h1)
  rw [hk] at hr
  have hsub := submitOwn_refused env (as ++ [.lookup .kels c.pre]) _ hr.1
  have hrun : c.makeIxn sled env sg payload (after env as) =
      submitOwn sled env (.ok ⟨saidJson env ⟨c.pre, s.sn + 1, .ixn ⟨s.lastDigest, ixnSeals env payload⟩⟩, [⟨0, ⟨.ed25519Sha512, sig⟩⟩], none⟩)
        (after env (as ++ [.lookup .kels c.pre])) := by
    unfold Controller.makeIxn
    rw [StM.bind_run, ownState_ready R.preNe R.log R.readable R.nonempty]
    simp only
    rw [ixnMsg_eq env c R.notDefault, Res.ok_bind, h3]
  rw [hrun]
  exact ⟨_, hsub.1, hsub.2, hr.2⟩

theorem Controller.Locked.rotate {env : Env} {sg : SignFn} {c : Controller} {as : List Action} {s : IdState}
    (R : c.Locked env sg ((after env as).kel c.pre) s) :
    ∃ as', (∀ e, (c.rotate env sg (after env as)).1 ≠ .ok e) ∧
      (c.rotate env sg (after env as)).2 = ({ c with km := c.km.rotate }, after env as') ∧
      (after env as').kel c.pre = (after env as).kel c.pre := by
  have hk := after_lookup_kel env as .kels c.pre c.pre
  have R' := R.rotated
  obtain ⟨sig, h1, h2, h3⟩ := signEvent_eq (c := { c with km := c.km.rotate }) R'.works.signer
    (m := saidJson env ⟨c.pre, s.sn + 1, .rot ⟨s.lastDigest, c.km.rotate.config env [], 0, [], [], []⟩⟩) rfl
  have hna : ∀ new, (saidJson env ⟨c.pre, s.sn + 1, .rot ⟨s.lastDigest, c.km.rotate.config env [], 0, [], [], []⟩⟩).applyTo env s ≠ .ok new := by
    intro new ha
    have A := applyTo_ok (e := ⟨_, [], none⟩) ha
    have hv := R.next c.km.next (.inl rfl) (some (c.km.rotate.commitment env))
    have : s.current.verifyNext env (c.km.rotate.config env []) = true := by
      exact A.rot ⟨s.lastDigest, c.km.rotate.config env [], 0, [], [], []⟩ rfl
    rw [show c.km.rotate.config env [] = ⟨Threshold.default, [⟨.ed25519, c.km.next.pub⟩], some (c.km.rotate.commitment env)⟩ from rfl, hv] at this
    cases this
  have hr := refused_inapplicable env (as ++ [.lookup .kels c.pre]) ⟨_, [⟨0, ⟨.ed25519Sha512, sig⟩⟩], none⟩ c.pre rfl R.preNe s
    (by rw [hk]; exact R.log) hna
  rw [hk] at hr
  have hsub := submitOwn_refused env (as ++ [.lookup .kels c.pre]) _ hr.1
  have hrun : ({ c with km := c.km.rotate } : Controller).submitRotation sled env sg (after env as) =
      submitOwn sled env (.ok ⟨saidJson env ⟨c.pre, s.sn + 1, .rot ⟨s.lastDigest, c.km.rotate.config env [], 0, [], [], []⟩⟩,
        [⟨0, ⟨.ed25519Sha512, sig⟩⟩], none⟩) (after env (as ++ [.lookup .kels c.pre])) := by
    unfold Controller.submitRotation
    rw [StM.bind_run, ownState_ready R'.preNe R'.log R'.readable R'.nonempty]
    simp only
    rw [rotationMsg_eq env _ R'.notDefault, Res.ok_bind, h3]
  unfold Controller.rotate
  simp only [hrun]
  exact ⟨_, hsub.1, Prod.ext rfl hsub.2, hr.2⟩

theorem locked_calls {env : Env} (hb : env.Blake3Size) {sg : SignFn} {c : Controller} {as : List Action} {s : IdState}
    (R : c.Locked env sg ((after env as).kel c.pre) s) (hn : s.sn + 1 ≤ u64max) (cs : List Call)
    (hi : ∀ p, .interact p ∉ cs) (ho : ∀ a, .other a ∈ cs → ¬ a.submitsFor c.pre) :
    (∀ before call rest, cs = before ++ call :: rest → call.own = true →
      ∀ e, (call.run env sg (runCalls env sg (c, after env as) before)).1 ≠ some (.ok e)) ∧
    ∃ c' as', runCalls env sg (c, after env as) cs = (c', after env as') ∧ c'.pre = c.pre ∧
      c'.Locked env sg ((after env as').kel c'.pre) s ∧ (after env as').kel c.pre = (after env as).kel c.pre := by
  induction cs using snoc_induction with
  | h0 =>
    refine ⟨fun before call rest h => ?_, c, as, rfl, rfl, R, rfl⟩
    cases before <;> cases h
  | h1 cs call ih =>
    obtain ⟨hall, c', as', h1, h2, h3, h4⟩ := ih (fun p hp => hi p (by simp [hp])) (fun a ha => ho a (by simp [ha]))
    have fin : ∀ (hcall : call.own = true → ∀ e, (call.run env sg (c', after env as')).1 ≠ some (.ok e)),
        ∀ before call' rest, cs ++ [call] = before ++ call' :: rest → call'.own = true →
          ∀ e, (call'.run env sg (runCalls env sg (c, after env as) before)).1 ≠ some (.ok e) := by
      intro hcall before call' rest heq hown
      rcases List.eq_nil_or_concat rest with hr | ⟨r', z, hr⟩
      · subst hr
        rw [List.append_inj_left' heq rfl] at h1
        have e2 : call = call' := by simpa using List.append_inj_right' heq rfl
        subst e2
        rw [h1]
        exact hcall hown
      · subst hr
        have : cs ++ [call] = (before ++ call' :: r') ++ [z] := by simpa using heq
        exact hall before call' r' (List.append_inj_left' this rfl) hown
    cases call with
    | rotate =>
      obtain ⟨as2, g1, g2, g3⟩ := h3.rotate
      refine ⟨fin fun _ e => by simpa [Call.run] using g1 e, { c' with km := c'.km.rotate }, as2, ?_, h2, ?_, ?_⟩
      · rw [runCalls_snoc, h1]; exact g2
      · show Controller.Locked _ _ _ ((after env as2).kel c'.pre) _; rw [g3]; exact h3.rotated
      · rw [← h2, g3, h2, h4]
    | ixn p =>
      obtain ⟨as2, g1, g2, g3⟩ := h3.ixn hb hn p
      refine ⟨fin fun _ e => by simpa [Call.run] using g1 e, c', as2, ?_, h2, ?_, ?_⟩
      · rw [runCalls_snoc, h1]; simp only [Call.run, g2]
      · rw [g3]; exact h3
      · rw [← h2, g3, h2, h4]
    | interact p => exact absurd (by simp) (hi p)
    | other a =>
      have hk := other_kel env as' a c'.pre h3.preNe (by rw [h2]; exact ho a (by simp))
      refine ⟨fin (fun h => by cases h), c', as' ++ [a], ?_, h2, ?_, ?_⟩
      · rw [runCalls_snoc, h1]; simp only [Call.run, after_other]
      · rw [hk]; exact h3
      · rw [← h2, hk, h2, h4]

/-- C84: `rotate` rotates the key manager even if it fails, whatever the state of the database. -/
theorem C84_rotated_anyway (env : Env) (sg : SignFn) (c : Controller) (db : Db) :
    (c.rotate env sg db).2.1 = { c with km := c.km.rotate } := rfl

/-- C84: if the key manager of an honest controller is rotated outside its log (a rotation that failed or was interrupted before the event was
stored, or another controller that shares the key manager), the identifier is lost: no later `rotate` or `make_ixn` succeeds, in any number
and whatever else happens, and the state stays what it was for ever. -/
theorem C84_fails_locked_out (env : Env) (hb : env.Blake3Size) (sg : SignFn) (c : Controller) (db : Db) (h : Started env sg c db)
    (hd : c.km.KeysDiffer env sg) (s : IdState) (hs : (computeState sled env c.pre db).1 = .ok (some s)) (hn : s.sn + 1 ≤ u64max)
    (cs : List Call) (hi : ∀ p, .interact p ∉ cs) (ho : ∀ a, .other a ∈ cs → ¬ a.submitsFor c.pre) :
    (∀ before call rest, cs = before ++ call :: rest → call.own = true →
      ∀ e, (call.run env sg (runCalls env sg ({ c with km := c.km.rotate }, db) before)).1 ≠ some (.ok e)) ∧
    (computeState sled env c.pre (runCalls env sg ({ c with km := c.km.rotate }, db) cs).2).1 = .ok (some s) := by
  obtain ⟨as, s1, rfl, R⟩ := started_ready hb h
  obtain ⟨s2, hl2, hc2⟩ := computeState_log env as c.pre R.preNe R.nonempty R.readable
  have := hl2.unique R.log
  subst this
  rw [hc2] at hs
  cases hs
  obtain ⟨h1, c', as', h2, h3, h4, h5⟩ := locked_calls hb (ready_locked R hd) hn cs hi ho
  refine ⟨h1, ?_⟩
  rw [h2]
  obtain ⟨s3, hl3, hc3⟩ := computeState_log env as' c.pre R.preNe (by rw [h5]; exact R.nonempty) (by rw [h5]; exact R.readable)
  rw [h5] at hl3
  have := hl3.unique R.log
  subst this
  exact hc3

/-- C84: two identifiers kept with the same key manager (the constructor takes a shared one): as soon as one of them rotates, which succeeds, the
other is lost. -/
theorem C84_fails_shared (env : Env) (hb : env.Blake3Size) (sg : SignFn) (c d : Controller) (db : Db) (h : Started env sg c db)
    (h' : Started env sg d db) (hne : c.pre ≠ d.pre) (hkm : d.km = c.km) (hd : c.km.KeysDiffer env sg)
    (s t : IdState) (hs : (computeState sled env c.pre db).1 = .ok (some s)) (hn : s.sn + 1 ≤ u64max)
    (ht : (computeState sled env d.pre db).1 = .ok (some t)) (hn' : t.sn + 1 ≤ u64max)
    (cs : List Call) (hi : ∀ p, .interact p ∉ cs) (ho : ∀ a, .other a ∈ cs → ¬ a.submitsFor c.pre) :
    ∃ e d' db', d.rotate env sg db = (.ok e, d', db') ∧
    (∀ before call rest, cs = before ++ call :: rest → call.own = true →
      ∀ e, (call.run env sg (runCalls env sg ({ c with km := d'.km }, db') before)).1 ≠ some (.ok e)) ∧
    (computeState sled env c.pre (runCalls env sg ({ c with km := d'.km }, db') cs).2).1 = .ok (some s) := by
  obtain ⟨as, s1, hdb, R⟩ := started_ready hb h
  obtain ⟨as2, t1, hdb2, T⟩ := started_ready hb h'
  subst hdb
  rw [← hdb2] at T
  obtain ⟨s2, hl2, hc2⟩ := computeState_log env as c.pre R.preNe R.nonempty R.readable
  have := hl2.unique R.log
  subst this
  rw [hc2] at hs
  cases hs
  obtain ⟨t2, hm2, hd2⟩ := computeState_log env as d.pre T.preNe T.nonempty T.readable
  have := hm2.unique T.log
  subst this
  rw [hd2] at ht
  cases ht
  obtain ⟨e, new, r1, r2, _⟩ := T.rotate hb hn'
  have hpe : e.pre = d.pre := by
    have hsub := r1
    unfold Controller.rotate Controller.submitRotation at hsub
    simp only [Prod.mk.injEq] at hsub
    have h0 := hsub.1
    rw [StM.bind_run, ownState_ready (c := { d with km := d.km.rotate }) T.preNe T.log T.readable T.nonempty] at h0
    simp only at h0
    rw [rotationMsg_eq env { d with km := d.km.rotate } T.notDefault, Res.ok_bind] at h0
    obtain ⟨sig, _, _, g3⟩ := signEvent_eq (c := { d with km := d.km.rotate }) T.works.rotate.signer
      (m := saidJson env ⟨d.pre, t.sn + 1, .rot ⟨t.lastDigest, d.km.rotate.config env [], 0, [], [], []⟩⟩) rfl
    rw [show ({ d with km := d.km.rotate } : Controller).km = d.km.rotate from rfl, g3, submitOwn_run] at h0
    split at h0 <;> cases h0
    rfl
  have hkel : (after env (as ++ [.lookup .kels d.pre, .submit (.event e)])).kel c.pre = (after env as).kel c.pre := by
    have hx : as ++ [.lookup .kels d.pre, .submit (.event e)] = (as ++ [.lookup .kels d.pre]) ++ [.submit (.event e)] := by simp
    rw [hx, other_kel env _ _ c.pre R.preNe (by
      intro hsf
      have hsf : e.pre.toStr = c.pre.toStr := hsf
      rw [hpe] at hsf
      have h1 := of_decide_eq_true R.preRt
      rw [← hsf, of_decide_eq_true T.preRt] at h1
      exact hne (Res.ok.inj h1).symm), after_lookup_kel]
  refine ⟨e, _, _, r1, ?_⟩
  have L : ({ c with km := d.km.rotate } : Controller).Locked env sg ((after env (as ++ [.lookup .kels d.pre, .submit (.event e)])).kel c.pre) s := by
    rw [hkel, hkm]
    exact ready_locked R hd
  obtain ⟨h1, c', as', h2, h3, h4, h5⟩ := locked_calls hb L hn cs hi ho
  refine ⟨h1, ?_⟩
  show (computeState sled env c.pre (runCalls env sg ({ c with km := d.km.rotate }, _) cs).2).1 = _
  rw [h2]
  have h5 : (after env as').kel c.pre = _ := h5
  rw [hkel] at h5
  obtain ⟨s3, hl3, hc3⟩ := computeState_log env as' c.pre R.preNe (by rw [h5]; exact R.nonempty) (by rw [h5]; exact R.readable)
  rw [h5] at hl3
  have := hl3.unique R.log
  subst this
  exact hc3

namespace Ex

/-- a key manager whose keys differ -/
def km3 : CryptoBox := ⟨kp 40, kp 41, fun _ => kp 42⟩
theorem km3_works : km3.Works env sg := ⟨kp_works _, kp_works _, fun _ => kp_works _⟩
theorem km3_differ : km3.KeysDiffer env sg where
  signatures := by
    have key : ∀ i : UInt8, i ≠ 40 → ∀ m s, sg (kp i).priv m = .ok s → env.ed km3.signer.pub m s = false := by
      intro i hi m s h
      cases h
      refine decide_eq_false fun he => hi ?_
      have he : List.replicate 32 i ++ dig m = List.replicate 32 40 ++ dig m := he
      have := congrArg List.head? he
      simpa [List.replicate_succ] using this
    rintro kp (rfl | ⟨n, rfl⟩)
    · exact key 41 (by decide)
    · exact key 42 (by decide)
  commitments := fun _ => by
    show KeyConfig.nxtCommitment env Threshold.default [⟨.ed25519, (kp 42).pub⟩] .blake3_256 ≠
      KeyConfig.nxtCommitment env Threshold.default [⟨.ed25519, (kp 41).pub⟩] .blake3_256
    decide +kernel

theorem adopt_km (c : Controller) (r : Res SignedEvent) : (c.adopt r).km = c.km := by cases r <;> rfl

theorem eta3 {α β γ : Type} {x : α × β × γ} {a : α} (h : x.1 = a) : x = (a, x.2.1, x.2.2) := by subst h; rfl

/-- one controller -/
def cath0 : Controller := Controller.new km3 (key 90, key 91)
def cathIcp : Res SignedEvent × Controller × Db := cath0.inceptWith env sg [] [] (after env hist)
/-- one controller after its inception -/
def cath : Controller × Db := cathIcp.2
/-- the inception event -/
def cathEv : SignedEvent := match cathIcp.1 with | .ok e => e | _ => icp
/-- a second controller with the same key manager in the same database -/
def dave0 : Controller := Controller.new km3 (key 92, key 93)
def daveIcp : Res SignedEvent × Controller × Db := dave0.inceptWith env sg [key 50] [] cath.2
/-- the inception event of the second controller -/
def daveEv : SignedEvent := match daveIcp.1 with | .ok e => e | _ => icp
/-- the second controller after its inception -/
def dave : Controller × Db := daveIcp.2

theorem cath_eq : cath0.inceptWith env sg [] [] (after env hist) = cathIcp := rfl
theorem dave_eq : dave0.inceptWith env sg [key 50] [] cath.2 = daveIcp := rfl
theorem cath_km : cath.1.km = km3 := adopt_km cath0 (submitOwn sled env (cath0.makeInception env [] [] >>= cath0.signEvent env sg) (after env hist)).1
theorem dave_km : dave.1.km = km3 := adopt_km dave0 (submitOwn sled env (dave0.makeInception env [key 50] [] >>= dave0.signEvent env sg) cath.2).1

theorem cath_icp : cathIcp.1 = .ok cathEv ∧ cathEv.rt = true ∧ cathEv.pre = cath.1.pre := by decide +kernel
theorem dave_icp : daveIcp.1 = .ok daveEv ∧ daveEv.rt = true ∧ daveEv.pre = dave.1.pre ∧ daveEv.pre ≠ cath.1.pre ∧ daveEv.pre.toStr ≠ cath.1.pre.toStr := by
  decide +kernel

theorem cath_eq' : cath0.inceptWith env sg [] [] (after env hist) = (.ok cathEv, cath.1, cath.2) := by rw [cath_eq]; exact eta3 cath_icp.1
theorem cath_db : cath.2 = after env (hist ++ [.submit (.event cathEv)]) := (incept_ready blake3Size km3_works cath_eq' cath_icp.2.1).1
theorem dave_eq' : dave0.inceptWith env sg [key 50] [] (after env (hist ++ [.submit (.event cathEv)])) = (.ok daveEv, dave.1, dave.2) := by
  rw [← cath_db, dave_eq]; exact eta3 dave_icp.1
theorem dave_db : dave.2 = after env (hist ++ [.submit (.event cathEv)] ++ [.submit (.event daveEv)]) :=
  (incept_ready blake3Size km3_works dave_eq' dave_icp.2.1).1

theorem runCalls_nil (x : Controller × Db) : runCalls env sg x [] = x := rfl

theorem cath_started : Started env sg cath.1 cath.2 :=
  ⟨km3, (key 90, key 91), hist, [], [], cathEv, cath.1, cath.2, [], km3_works, cath_eq', cath_icp.2.1, by simp, by simp, Nat.zero_le _, runCalls_nil _⟩

theorem dave_started : Started env sg dave.1 dave.2 :=
  ⟨km3, (key 92, key 93), hist ++ [Action.submit (Message.event cathEv)], [key 50], [], daveEv, dave.1, dave.2, [], km3_works, dave_eq', dave_icp.2.1,
    by simp, by simp, Nat.zero_le _, runCalls_nil _⟩

theorem cath_started2 : Started env sg cath.1 dave.2 := by
  refine ⟨km3, (key 90, key 91), hist, [], [], cathEv, cath.1, cath.2, [.other (.submit (.event daveEv))], km3_works, cath_eq', cath_icp.2.1,
    by simp, ?_, Nat.zero_le _, ?_⟩
  · intro a ha
    simp only [List.mem_singleton, Call.other.injEq] at ha
    subst ha
    exact dave_icp.2.2.2.2
  · rw [dave_db, ← after_other, ← cath_db]
    rfl

end Ex

open Ex in
/-- the hypotheses are met: three calls after the key manager was rotated behind the controller's back, and nothing works -/
example : ∃ s, (computeState sled env cath.1.pre cath.2).1 = .ok (some s) ∧ s.sn = 0 ∧
    (∀ e, (Call.rotate.run env sg (runCalls env sg ({ cath.1 with km := cath.1.km.rotate }, cath.2) [.ixn none, .rotate])).1 ≠ some (.ok e)) := by
  have hs : ∃ s, (computeState sled env cath.1.pre cath.2).1 = .ok (some s) ∧ s.sn = 0 := by
    refine ⟨match (computeState sled env cath.1.pre cath.2).1 with | .ok (some s) => s | _ => IdState.default, ?_, ?_⟩ <;> decide +kernel
  obtain ⟨s, h1, h2⟩ := hs
  refine ⟨s, h1, h2, ?_⟩
  have := (C84_fails_locked_out env blake3Size sg cath.1 cath.2 cath_started (by rw [cath_km]; exact km3_differ) s h1 (by rw [h2]; decide) [.ixn none, .rotate, .rotate]
    (by simp) (by simp)).1 [.ixn none, .rotate] .rotate [] rfl rfl
  exact this

open Ex in
/-- the hypotheses of the theorem about shared key managers are met -/
example : Started env sg cath.1 dave.2 ∧ Started env sg dave.1 dave.2 ∧ cath.1.pre ≠ dave.1.pre ∧ dave.1.km = cath.1.km ∧ cath.1.km.KeysDiffer env sg ∧
    (∃ s, (computeState sled env cath.1.pre dave.2).1 = .ok (some s) ∧ s.sn = 0) ∧ ∃ s, (computeState sled env dave.1.pre dave.2).1 = .ok (some s) ∧ s.sn = 0 := by
  refine ⟨cath_started2, dave_started, ?_, by rw [cath_km, dave_km], by rw [cath_km]; exact km3_differ, ?_, ?_⟩
  · rw [← dave_icp.2.2.1]; exact fun h => dave_icp.2.2.2.1 h.symm
  · refine ⟨match (computeState sled env cath.1.pre dave.2).1 with | .ok (some s) => s | _ => IdState.default, ?_, ?_⟩ <;> decide +kernel
  · refine ⟨match (computeState sled env dave.1.pre dave.2).1 with | .ok (some s) => s | _ => IdState.default, ?_, ?_⟩ <;> decide +kernel

end Keriox
