import Verif.Frozen
import Verif.KeriExample
import Verif.Props.Kerl
/-!
# C51, C52: the controller
-/
namespace Keriox

theorem said_rt {env : Env} (hb : env.Blake3Size) {e : Event} (hp : e.prefix.rt = true) (hsn : e.sn ≤ u64max)
    (hd : e.data.rt = true) (hw : (dummyEventSval (SerInfo.new .json 0) .blake3_256 e).weight ≤ 65535) : (saidJson env e).rt = true := by
  have hi : (saidJson env e).info.rt = true := by
    unfold SerInfo.rt
    refine decide_eq_true ((C41_exact _ (show (1:Nat) ≤ 15 by omega) (show (0:Nat) ≤ 15 by omega)).2 ?_)
    exact Nat.le_trans (jsonText_le _) hw
  unfold EventMessage.rt
  simp only [Bool.and_eq_true, decide_eq_true_eq]
  exact ⟨⟨⟨⟨hi, sa_rt (derive_sized hb _)⟩, hp⟩, hsn⟩, hd⟩

theorem dummy_blake3_len : (dummyPrefix .blake3_256).length = 44 := by decide

theorem rot_weight {pre : IdentifierPrefix} {sn : Nat} {d n : SelfAddressingPrefix} {k : BasicPrefix} (hp : pre.toStr.length = 44)
    (hsn : sn ≤ u64max) (hd : d.toStr.length = 44) (hn : n.toStr.length = 44) (hk : k.toStr.length = 44) :
    (dummyEventSval (SerInfo.new .json 0) .blake3_256 ⟨pre, sn, .rot ⟨d, ⟨Threshold.default, [k], some n⟩, 0, [], [], []⟩⟩).weight ≤ 65535 := by
  have h1 := hexStr_u64 hsn
  have h2 : (hexStr 0).length = 1 := by decide +kernel
  have h3 : (SerInfo.new .json 0).toStr.length = 17 := by decide +kernel
  have h4 : (hexStr 1).length = 1 := by decide +kernel
  simp only [dummyEventSval, SVal.weight, SVal.weightFields, SVal.weights, Event.fields, EventData.fields, RotationEvent.fields,
    KeyConfig.fields, keysSval, List.cons_append, List.nil_append, List.map_cons, List.map_nil, EventData.type, EventTypeTag.toStr,
    Threshold.default, Threshold.sval, hp, hd, hn, hk, h2, h3, h4, dummy_blake3_len, List.length_cons, List.length_nil]
  omega

theorem ixn_weight {env : Env} (hb : env.Blake3Size) {pre : IdentifierPrefix} {sn : Nat} {d : SelfAddressingPrefix}
    (payload : Option Bytes) (hp : pre.toStr.length = 44) (hsn : sn ≤ u64max) (hd : d.toStr.length = 44) :
    (dummyEventSval (SerInfo.new .json 0) .blake3_256 ⟨pre, sn, .ixn ⟨d, ixnSeals env payload⟩⟩).weight ≤ 65535 := by
  have h1 := hexStr_u64 hsn
  have h3 : (SerInfo.new .json 0).toStr.length = 17 := by decide +kernel
  cases payload with
  | none =>
    simp only [dummyEventSval, SVal.weight, SVal.weightFields, SVal.weights, Event.fields, EventData.fields, InteractionEvent.fields, ixnSeals,
      List.cons_append, List.nil_append, List.map_nil, EventData.type, EventTypeTag.toStr,
      hp, hd, h3, dummy_blake3_len, List.length_cons, List.length_nil]
    omega
  | some p =>
    have h5 := sa_len (derive_sized hb p) rfl
    simp only [dummyEventSval, SVal.weight, SVal.weightFields, SVal.weights, Event.fields, EventData.fields, InteractionEvent.fields, ixnSeals,
      List.cons_append, List.nil_append, List.map_cons, List.map_nil, EventData.type, EventTypeTag.toStr, Seal.sval,
      hp, hd, h3, h5, dummy_blake3_len, List.length_cons, List.length_nil]
    omega

/-- a controller in good order: its log is readable, its state is that of the log, its key manager holds the current key and the key
committed to next -/
structure Controller.Ready (env : Env) (sg : SignFn) (c : Controller) (l : List SignedEvent) (s : IdState) : Prop where
  log : Log env c.pre.toStr l s
  readable : Readable l
  nonempty : l ≠ []
  pre : s.prefix = c.pre
  preRt : c.pre.rt = true
  preLen : c.pre.toStr.length = 44
  deleg : s.delegator = none
  thr : s.current.threshold = .simple 1
  key : s.current.publicKeys[0]? = some c.km.key
  next : s.current.nextDigest = some (c.km.commitment env)
  dig : s.lastDigest.Sized
  digBlake : s.lastDigest.derivation = .blake3_256
  works : c.km.Works env sg
  signed : ∀ i, i < l.length → SignedInForce env l i
  plain : ∀ e ∈ l, e.data.isDelegated = false
  json : ∀ e ∈ l, e.msg.info.kind = .json
  digs : ∀ e ∈ l, e.dig.Sized
  later : ∀ e ∈ l, e.data.isInception = false → e.Exportable
  preOk : c.pre.Representable ∧ ∀ q, c.pre ≠ .selfSigning q

namespace Controller.Ready
variable {env : Env} {sg : SignFn} {c : Controller} {l : List SignedEvent} {s : IdState}

theorem preNe (h : c.Ready env sg l s) : c.pre.toStr ≠ [] := by
  intro h0; have := h.preLen; rw [h0] at this; cases this

theorem notDefault (h : c.Ready env sg l s) : c.pre ≠ IdentifierPrefix.default := by
  rw [← h.pre]; exact ((h.log.facts h.preNe).2.1 h.nonempty).1

end Controller.Ready

/-- signing with the current key -/
theorem signEvent_eq {env : Env} {sg : SignFn} {c : Controller} (hw : c.km.signer.Works env sg) {m : EventMessage} (hj : m.info.kind = .json) :
    ∃ sig : Bytes, sig.length = 64 ∧ env.ed c.km.signer.pub (jsonText m.sval) sig = true ∧
      c.signEvent env sg m = .ok ⟨m, [⟨0, ⟨.ed25519Sha512, sig⟩⟩], none⟩ := by
  obtain ⟨sig, h1, h2, h3⟩ := hw.signs (jsonText m.sval)
  refine ⟨sig, h2, h3, ?_⟩
  unfold Controller.signEvent CryptoBox.sign
  rw [json_serialize env m hj]
  simp only [Res.ok_bind, h1]

theorem own_verify {env : Env} {km : CryptoBox} {kc : KeyConfig} {b sig : Bytes} (ht : kc.threshold = .simple 1)
    (hk : kc.publicKeys[0]? = some km.key) (hs : env.ed km.signer.pub b sig = true) :
    kc.verify env b [⟨0, ⟨.ed25519Sha512, sig⟩⟩] = .ok true := by
  refine verify_of_validSigs ⟨by simp, ?_, ?_⟩
  · intro x hx
    rw [List.mem_singleton] at hx
    subst hx
    exact ⟨_, hk, .inl ⟨.inl rfl, rfl, hs⟩⟩
  · rw [ht]; show 1 ≤ 1; omega

theorem own_sigsOk {sig : Bytes} (h : sig.length = 64) : SigsOk [⟨0, ⟨.ed25519Sha512, sig⟩⟩] := by
  refine ⟨by simp, fun p hp => ?_⟩
  rw [List.mem_singleton] at hp
  subst hp
  exact ⟨h, by simp⟩

/-- the last event of a log is signed with the keys in force -/
theorem signed_snoc {env : Env} {x : Bytes} (hx : x ≠ []) {l : List SignedEvent} {e : SignedEvent} {new : IdState} (hl : Log env x (l ++ [e]) new)
    (h : ∀ i, i < l.length → SignedInForce env l i) {bytes : Bytes} (hs : e.msg.serialize env = .ok bytes)
    (hv : ValidSigs env new.current bytes e.sigs) : ∀ i, i < (l ++ [e]).length → SignedInForce env (l ++ [e]) i := by
  intro i hi
  by_cases h1 : i < l.length
  · exact signedInForce_prefix (h i h1) (List.prefix_append _ _)
  · have h2 : i = l.length := by simp at hi; omega
    subst h2
    refine ⟨e, new.current, bytes, by simp, ?_, hs, hv⟩
    rw [List.take_of_length_le (by simp)]
    exact hl.keys hx (by simp)

theorem own_traits {e : SignedEvent} {m : EventMessage} (h : e.msg = m) (hm : m.event.content.data.traits = []) :
    ∀ c ∈ e.data.traits, PlainTrait c := by
  show ∀ c ∈ e.msg.event.content.data.traits, PlainTrait c
  rw [h, hm]
  simp

theorem mem_snoc {α : Type} {P : α → Prop} {l : List α} {e : α} (h : ∀ x ∈ l, P x) (he : P e) : ∀ x ∈ l ++ [e], P x := by
  intro x hx
  rcases List.mem_append.1 hx with h1 | h1
  · exact h x h1
  · rw [List.mem_singleton] at h1; subst h1; exact he

theorem said_representable {env : Env} (hb : env.Blake3Size) {e : Event} (hr : (saidJson env e).rt = true) (hp : e.prefix.Representable)
    (hsn : e.sn ≤ u64max) (hd : e.data.Representable) : (saidJson env e).Representable := by
  refine ⟨show (1:Nat) ≤ 15 by omega, show (0:Nat) ≤ 15 by omega, ?_, derive_sized hb _, hp, hsn, hd⟩
  unfold EventMessage.rt SerInfo.rt at hr
  simp only [Bool.and_eq_true, decide_eq_true_eq] at hr
  exact (C41_exact _ (show (1:Nat) ≤ 15 by omega) (show (0:Nat) ≤ 15 by omega)).1 hr.1.1.1.1

theorem ed_representable {k : Bytes} (h : k.length = 32) : (BasicPrefix.mk .ed25519 k).Representable :=
  ⟨h, by simp [BasicPrefix.IsSecp]⟩

theorem rot_applies {env : Env} {s : IdState} {e : Event} {r : RotationEvent} (hd : e.data = .rot r) (hp : e.prefix = s.prefix)
    (hs : e.sn = s.sn + 1) (hprev : r.previous = s.lastDigest) (hdel : s.delegator = none) (hv : s.current.verifyNext env r.keyConfig = true)
    (m : EventMessage) (hm : m.event.content = e) : ∃ new, m.applyTo env s = .ok new ∧ new.current = r.keyConfig ∧ new.delegator = none := by
  subst hm
  unfold EventMessage.applyTo
  rw [hd]
  simp only [checkEventDigest_self, Res.ok_bind, hdel, Option.isSome_none]
  unfold Event.applyTo EventData.applyTo RotationEvent.applyTo chain
  rw [hd]
  simp only [hp, hs, hv, hprev, ne_eq, not_true, if_true, if_false, Nat.lt_irrefl]
  exact ⟨_, rfl, rfl, hdel⟩

theorem ixn_applies {env : Env} {s : IdState} {e : Event} {r : InteractionEvent} (hd : e.data = .ixn r) (hp : e.prefix = s.prefix)
    (hs : e.sn = s.sn + 1) (hprev : r.previous = s.lastDigest)
    (m : EventMessage) (hm : m.event.content = e) : ∃ new, m.applyTo env s = .ok new ∧ new.current = s.current ∧ new.delegator = s.delegator := by
  subst hm
  unfold EventMessage.applyTo
  rw [hd]
  simp only [checkEventDigest_self, Res.ok_bind]
  unfold Event.applyTo EventData.applyTo chain
  rw [hd]
  simp only [hp, hs, hprev, ne_eq, not_true, if_true, if_false, Nat.lt_irrefl]
  exact ⟨_, rfl, rfl, rfl⟩

theorem after_lookup_kel (env : Env) (as : List Action) (t : Tbl) (id id' : IdentifierPrefix) :
    (after env (as ++ [.lookup t id])).kel id' = (after env as).kel id' := by
  rw [kel_eq, kel_eq, after_abs, after_abs, runHistory_append]
  exact MapDb.log_congr (MapDb.touch_tables _ _) _

theorem computeState_db (env : Env) (id : IdentifierPrefix) (db : Db) : (computeState sled env id db).2 = (sled.read .kels id db).2 := by
  unfold computeState getKel
  rw [StM.bind_run]
  rcases sled.read .kels id db with ⟨r, db'⟩
  cases r with
  | ok o =>
    cases o with
    | none => rfl
    | some l =>
      dsimp only
      rw [StM.bind_run]
      unfold StM.lift
      cases foldState env IdState.default (sortBySn l) <;> rfl
  | err e => rfl
  | panic => rfl

theorem ownState_ready {env : Env} {c : Controller} {as : List Action} {s : IdState} (hne : c.pre.toStr ≠ [])
    (hl : Log env c.pre.toStr ((after env as).kel c.pre) s) (hr : Readable ((after env as).kel c.pre)) (hn : (after env as).kel c.pre ≠ []) :
    c.ownState sled env (after env as) = (.ok s, after env (as ++ [.lookup .kels c.pre])) := by
  obtain ⟨s', hl', h⟩ := computeState_log env as c.pre hne hn hr
  have := hl'.unique hl
  subst this
  have h2 := computeState_db env c.pre (after env as)
  unfold Controller.ownState
  have h3 : computeState sled env c.pre (after env as) = (.ok (some s'), after env (as ++ [.lookup .kels c.pre])) := by
    refine Prod.ext h (h2.trans ?_)
    rw [after, after, runHistory_append]; rfl
  rw [StM.bind_run, h3]
  rfl

theorem submitOwn_run {σ : Type} (o : Ops σ) (env : Env) (e : SignedEvent) (s : σ) :
    submitOwn o env (.ok e) s = match process o env (.event e) s with
      | (.ok _, s') => (.ok e, s')
      | (.err x, s') => (.err x, s')
      | (.panic, s') => (.panic, s') := by
  unfold submitOwn
  rw [StM.bind_run]
  show ((process o env (.event e)) >>= fun _ => pure e) s = _
  rw [StM.bind_run]
  rcases process o env (.event e) s with ⟨r, s'⟩
  cases r <;> rfl

/-- submitting an own event -/
theorem own_event {env : Env} {sg : SignFn} {c : Controller} {as : List Action} {s new : IdState} {m : EventMessage} (hne : c.pre.toStr ≠ [])
    (hl : Log env c.pre.toStr ((after env as).kel c.pre) s) (hr : Readable ((after env as).kel c.pre)) (hw : c.km.signer.Works env sg)
    (hj : m.info.kind = .json) (hp : m.event.content.prefix = c.pre)
    (hpl : (∃ x, m.event.content.data = .icp x) ∨ (∃ x, m.event.content.data = .rot x) ∨ ∃ x, m.event.content.data = .ixn x)
    (hap : m.applyTo env s = .ok new) (ht : new.current.threshold = .simple 1) (hk : new.current.publicKeys[0]? = some c.km.key)
    (hrt : m.rt = true) :
    ∃ e, e.msg = m ∧ e.rt = true ∧
      submitOwn sled env (c.signEvent env sg m) (after env as) = (.ok e, after env (as ++ [.submit (.event e)])) ∧
      (after env (as ++ [.submit (.event e)])).kel c.pre = (after env as).kel c.pre ++ [e] ∧
      Log env c.pre.toStr ((after env as).kel c.pre ++ [e]) new ∧
      SigsOk e.sigs ∧ ValidSigs env new.current (jsonText m.sval) e.sigs := by
  obtain ⟨sig, h1, h2, h3⟩ := signEvent_eq hw hj
  rw [h3]
  refine ⟨⟨m, [⟨0, ⟨.ed25519Sha512, sig⟩⟩], none⟩, rfl, ?_, ?_, ?_, ?_, own_sigsOk h1, validSigs_of_verify (own_verify ht hk h2)⟩
  · unfold SignedEvent.rt
    simp only [hrt, List.all_cons, List.all_nil, own_sig_rt h1 .ed25519Sha512 rfl, Bool.and_true]
  · have acc := accepts env as ⟨m, [⟨0, ⟨.ed25519Sha512, sig⟩⟩], none⟩ (by show m.event.content.prefix.toStr ≠ []; rw [hp]; exact hne) s new
      (jsonText m.sval) (by show Log env m.event.content.prefix.toStr (Db.kel _ m.event.content.prefix) s; rw [hp]; exact hl)
      (by show Readable (Db.kel _ m.event.content.prefix); rw [hp]; exact hr) (plain_checkDelegation env _ _ hpl) hap
      (json_serialize env m hj) (own_verify ht hk h2)
    have hpr : process sled env (.event ⟨m, [⟨0, ⟨.ed25519Sha512, sig⟩⟩], none⟩) (after env as) =
        (.ok (some new), after env (as ++ [.submit (.event ⟨m, [⟨0, ⟨.ed25519Sha512, sig⟩⟩], none⟩)])) := by
      refine Prod.ext acc.1 ?_
      rw [after_snoc]
    unfold submitOwn
    refine StM.bind_ok (s' := after env as) rfl ?_
    refine StM.bind_ok hpr rfl
  · have acc := accepts env as ⟨m, [⟨0, ⟨.ed25519Sha512, sig⟩⟩], none⟩ (by show m.event.content.prefix.toStr ≠ []; rw [hp]; exact hne) s new
      (jsonText m.sval) (by show Log env m.event.content.prefix.toStr (Db.kel _ m.event.content.prefix) s; rw [hp]; exact hl)
      (by show Readable (Db.kel _ m.event.content.prefix); rw [hp]; exact hr) (plain_checkDelegation env _ _ hpl) hap
      (json_serialize env m hj) (own_verify ht hk h2)
    have := acc.2
    change (after env _).kel m.event.content.prefix = (after env as).kel m.event.content.prefix ++ _ at this
    rw [hp] at this
    exact this
  · exact Log.snoc hl (by show m.event.content.prefix.toStr = _; rw [hp]) rfl hap

theorem Readable.snoc {l : List SignedEvent} {e : SignedEvent} (h : Readable l) (he : e.rt = true) : Readable (l ++ [e]) := by
  intro x hx
  rcases List.mem_append.1 hx with h1 | h1
  · exact h x h1
  · rw [List.mem_singleton] at h1; subst h1; exact he

/-- one `rotate` of a controller in good order -/
theorem Controller.Ready.rotate {env : Env} {sg : SignFn} {c : Controller} {as : List Action} {s : IdState} (hb : env.Blake3Size)
    (R : c.Ready env sg ((after env as).kel c.pre) s) (hn : s.sn + 1 ≤ u64max) :
    ∃ e new, c.rotate env sg (after env as) =
        (.ok e, { c with km := c.km.rotate }, after env (as ++ [.lookup .kels c.pre, .submit (.event e)])) ∧
      ({ c with km := c.km.rotate } : Controller).Ready env sg ((after env (as ++ [.lookup .kels c.pre, .submit (.event e)])).kel c.pre) new ∧
      new.sn = s.sn + 1 := by
  have hk := after_lookup_kel env as .kels c.pre c.pre
  obtain ⟨new, ha, hc, hd⟩ := rot_applies (env := env) (s := s)
    (e := ⟨c.pre, s.sn + 1, .rot ⟨s.lastDigest, c.km.rotate.config env [], 0, [], [], []⟩⟩) rfl R.pre.symm rfl rfl R.deleg (by
      unfold KeyConfig.verifyNext; rw [R.next]; exact decide_eq_true rfl) (saidJson env _) rfl
  have A := applyTo_ok (e := ⟨_, [], none⟩) ha
  have hrt : (saidJson env ⟨c.pre, s.sn + 1, .rot ⟨s.lastDigest, c.km.rotate.config env [], 0, [], [], []⟩⟩).rt = true := by
    refine said_rt hb R.preRt hn ?_ ?_
    · have h1 : c.km.rotate.key.rt = true := ed_key_rt R.works.next.size
      have h2 := sa_rt (commitment_sized hb c.km.rotate)
      have h3 := sa_rt R.dig
      simp [EventData.rt, RotationEvent.rt, KeyConfig.rt, CryptoBox.config, h1, h2, h3, Threshold.default, Threshold.rt]
      decide
    · exact rot_weight R.preLen hn (sa_len R.dig R.digBlake) (sa_len (commitment_sized hb _) rfl) (ed_len R.works.next.size)
  have hrep : (saidJson env ⟨c.pre, s.sn + 1, .rot ⟨s.lastDigest, c.km.rotate.config env [], 0, [], [], []⟩⟩).Representable := by
    refine said_representable hb hrt R.preOk.1 hn ⟨R.dig, ⟨show (1:Nat) ≤ u64max by decide, ?_, ?_⟩, Nat.zero_le _, by simp, by simp, by simp⟩
    · intro k hk
      have hk : k = c.km.rotate.key := by simpa [CryptoBox.config] using hk
      subst hk
      exact ed_representable R.works.next.size
    · intro n hn
      have hn : c.km.rotate.commitment env = n := by simpa [CryptoBox.config] using hn
      subst hn
      exact commitment_sized hb _
  obtain ⟨e, h1, h2, h3, h4, h5, h6, h7⟩ := own_event (c := { c with km := c.km.rotate }) (as := as ++ [.lookup .kels c.pre]) (s := s) (new := new)
    (m := saidJson env ⟨c.pre, s.sn + 1, .rot ⟨s.lastDigest, c.km.rotate.config env [], 0, [], [], []⟩⟩) R.preNe
    (by show Log _ _ (Db.kel _ c.pre) _; rw [hk]; exact R.log) (by show Readable (Db.kel _ c.pre); rw [hk]; exact R.readable) R.works.next rfl rfl
    (.inr (.inl ⟨_, rfl⟩)) ha (by rw [hc]; rfl) (by rw [hc]; rfl) hrt
  have hlist : as ++ [.lookup .kels c.pre] ++ [.submit (.event e)] = as ++ [.lookup .kels c.pre, .submit (.event e)] := by simp
  rw [hlist] at h3 h4
  refine ⟨e, new, ?_, ?_, A.sn⟩
  · unfold Controller.rotate Controller.submitRotation
    have ho := ownState_ready (c := { c with km := c.km.rotate }) R.preNe R.log R.readable R.nonempty
    have : (do
        let s ← ({ c with km := c.km.rotate } : Controller).ownState sled env
        submitOwn sled env (({ c with km := c.km.rotate } : Controller).rotationMsg env s >>=
          ({ c with km := c.km.rotate } : Controller).signEvent env sg) : StM Db SignedEvent) (after env as) =
        (.ok e, after env (as ++ [.lookup .kels c.pre, .submit (.event e)])) := by
      refine StM.bind_ok ho ?_
      rw [rotationMsg_eq env { c with km := c.km.rotate } R.notDefault]
      exact h3
    simp only [this]
  · rw [h4, hk] at *
    exact {
      log := h5
      readable := R.readable.snoc h2
      nonempty := by simp
      pre := A.pre
      preRt := R.preRt
      preLen := R.preLen
      deleg := hd
      thr := by rw [hc]; rfl
      key := by rw [hc]; rfl
      next := by rw [hc]; rfl
      dig := by rw [A.dig]; exact derive_sized hb _
      digBlake := by rw [A.dig]; rfl
      works := R.works.rotate
      signed := signed_snoc R.preNe h5 R.signed (by rw [h1]; exact json_serialize env _ rfl) h7
      plain := mem_snoc R.plain (by show e.msg.event.content.data.isDelegated = false; rw [h1]; rfl)
      json := mem_snoc R.json (by rw [h1]; rfl)
      digs := mem_snoc R.digs (by show e.msg.event.digest.Sized; rw [h1]; exact derive_sized hb _)
      later := mem_snoc R.later fun _ => ⟨by rw [h1]; exact hrep, h6, own_traits h1 rfl⟩
      preOk := R.preOk }

/-- one `make_ixn` of a controller in good order -/
theorem Controller.Ready.ixn {env : Env} {sg : SignFn} {c : Controller} {as : List Action} {s : IdState} (hb : env.Blake3Size)
    (R : c.Ready env sg ((after env as).kel c.pre) s) (hn : s.sn + 1 ≤ u64max) (payload : Option Bytes) :
    ∃ e new, c.makeIxn sled env sg payload (after env as) =
        (.ok e, after env (as ++ [.lookup .kels c.pre, .submit (.event e)])) ∧
      c.Ready env sg ((after env (as ++ [.lookup .kels c.pre, .submit (.event e)])).kel c.pre) new ∧
      new.sn = s.sn + 1 := by
  have hk := after_lookup_kel env as .kels c.pre c.pre
  obtain ⟨new, ha, hc, hd⟩ := ixn_applies (env := env) (s := s)
    (e := ⟨c.pre, s.sn + 1, .ixn ⟨s.lastDigest, ixnSeals env payload⟩⟩) rfl R.pre.symm rfl rfl (saidJson env _) rfl
  have A := applyTo_ok (e := ⟨_, [], none⟩) ha
  have hrt : (saidJson env ⟨c.pre, s.sn + 1, .ixn ⟨s.lastDigest, ixnSeals env payload⟩⟩).rt = true := by
    refine said_rt hb R.preRt hn ?_ ?_
    · have h3 := sa_rt R.dig
      cases payload with
      | none => simp [EventData.rt, h3, ixnSeals]
      | some p => simp [EventData.rt, h3, ixnSeals, Seal.rt, sa_rt (derive_sized hb p)]
    · exact ixn_weight hb payload R.preLen hn (sa_len R.dig R.digBlake)
  have hrep : (saidJson env ⟨c.pre, s.sn + 1, .ixn ⟨s.lastDigest, ixnSeals env payload⟩⟩).Representable := by
    refine said_representable hb hrt R.preOk.1 hn ⟨R.dig, fun x hx => ?_⟩
    cases payload with
    | none => simp [ixnSeals] at hx
    | some p =>
      have hx : x = .digest (env.derive .blake3_256 p) := by simpa [ixnSeals] using hx
      subst hx
      exact derive_sized hb _
  obtain ⟨e, h1, h2, h3, h4, h5, h6, h7⟩ := own_event (c := c) (as := as ++ [.lookup .kels c.pre]) (s := s) (new := new)
    (m := saidJson env ⟨c.pre, s.sn + 1, .ixn ⟨s.lastDigest, ixnSeals env payload⟩⟩) R.preNe
    (by rw [hk]; exact R.log) (by rw [hk]; exact R.readable) R.works.signer rfl rfl
    (.inr (.inr ⟨_, rfl⟩)) ha (by rw [hc]; exact R.thr) (by rw [hc]; exact R.key) hrt
  have hlist : as ++ [.lookup .kels c.pre] ++ [.submit (.event e)] = as ++ [.lookup .kels c.pre, .submit (.event e)] := by simp
  rw [hlist] at h3 h4
  refine ⟨e, new, ?_, ?_, A.sn⟩
  · unfold Controller.makeIxn
    refine StM.bind_ok (ownState_ready R.preNe R.log R.readable R.nonempty) ?_
    rw [ixnMsg_eq env c R.notDefault]
    exact h3
  · rw [h4, hk] at *
    exact {
      log := h5
      readable := R.readable.snoc h2
      nonempty := by simp
      pre := A.pre
      preRt := R.preRt
      preLen := R.preLen
      deleg := hd.trans R.deleg
      thr := by rw [hc]; exact R.thr
      key := by rw [hc]; exact R.key
      next := by rw [hc]; exact R.next
      dig := by rw [A.dig]; exact derive_sized hb _
      digBlake := by rw [A.dig]; rfl
      works := R.works
      signed := signed_snoc R.preNe h5 R.signed (by rw [h1]; exact json_serialize env _ rfl) h7
      plain := mem_snoc R.plain (by show e.msg.event.content.data.isDelegated = false; rw [h1]; rfl)
      json := mem_snoc R.json (by rw [h1]; rfl)
      digs := mem_snoc R.digs (by show e.msg.event.digest.Sized; rw [h1]; exact derive_sized hb _)
      later := mem_snoc R.later fun _ => ⟨by rw [h1]; exact hrep, h6, own_traits h1 rfl⟩
      preOk := R.preOk }


/-! ## Inception -/

/-- what `incept_self_addressing` gives for JSON -/
def selfAddressedJson (env : Env) (d : EventData) : EventMessage :=
  let info := SerInfo.new .json (jsonText (dummyInceptionSval (SerInfo.new .json 0) .blake3_256 d)).length
  let dig := env.derive .blake3_256 (jsonText (dummyInceptionSval info .blake3_256 d))
  ⟨info, ⟨dig, ⟨.selfAddressing dig, 0, d⟩⟩⟩

theorem inceptSelf_json (env : Env) (d : EventData) : inceptSelfAddressing env d .blake3_256 .json = .ok (selfAddressedJson env d) := rfl

/-- the inception event of a new controller -/
def inceptionMsg (env : Env) (km : CryptoBox) (extra ws : List BasicPrefix) : EventMessage :=
  match extra with
  | [] => saidJson env ⟨.basic km.key, 0, .icp ⟨km.config env [], 0, ws, [], []⟩⟩
  | _ :: _ => selfAddressedJson env (.icp ⟨km.config env extra, 0, ws, [], []⟩)

theorem makeInception_eq (env : Env) (km : CryptoBox) (rnd : BasicPrefix × BasicPrefix) (extra ws : List BasicPrefix) :
    (Controller.new km rnd).makeInception env extra ws = .ok (inceptionMsg env km extra ws) := by
  unfold Controller.makeInception Builder.build Builder.pre Controller.builder Controller.new
  simp only [if_true]
  cases extra with
  | nil => rfl
  | cons a t => rfl

theorem inceptionMsg_facts (env : Env) (hb : env.Blake3Size) (sg : SignFn) (km : CryptoBox) (hw : km.Works env sg) (extra ws : List BasicPrefix) :
    (inceptionMsg env km extra ws).info.kind = .json ∧
    (inceptionMsg env km extra ws).event.content.prefix.toStr.length = 44 ∧
    (inceptionMsg env km extra ws).event.content.prefix.rt = true ∧
    (inceptionMsg env km extra ws).event.content.data = .icp ⟨km.config env extra, 0, ws, [], []⟩ ∧
    (inceptionMsg env km extra ws).event.content.sn = 0 ∧
    (∃ b, (inceptionMsg env km extra ws).event.digest = env.derive .blake3_256 b) ∧
    verifyIdentifierBinding env (inceptionMsg env km extra ws) = .ok true ∧
    (inceptionMsg env km extra ws).event.content.prefix.Representable ∧
    ∀ q, (inceptionMsg env km extra ws).event.content.prefix ≠ .selfSigning q := by
  cases extra with
  | nil =>
    refine ⟨rfl, ed_len hw.signer.size, ?_, rfl, rfl, ⟨_, rfl⟩, ?_, ed_representable hw.signer.size, by simp [inceptionMsg, saidJson]⟩
    · unfold IdentifierPrefix.rt
      exact decide_eq_true (C35_identifier_roundtrip _ hw.signer.size (by simp [IdentifierPrefix.IsSecp, BasicPrefix.IsSecp, inceptionMsg, saidJson, CryptoBox.key]))
    · simp [verifyIdentifierBinding, inceptionMsg, saidJson, CryptoBox.config]
  | cons a t =>
    refine ⟨rfl, sa_len (derive_sized hb _) rfl, ?_, rfl, rfl, ⟨_, rfl⟩, ?_⟩
    · unfold IdentifierPrefix.rt
      exact decide_eq_true (C35_identifier_roundtrip _ (derive_sized hb _) (by simp [IdentifierPrefix.IsSecp, inceptionMsg, selfAddressedJson]))
    · refine ⟨by simp [verifyIdentifierBinding, inceptionMsg, selfAddressedJson, EventMessage.checkDigest], ⟨derive_sized hb _, ?_⟩, ?_⟩
      · simp [inceptionMsg, selfAddressedJson, IdentifierPrefix.IsSecp]
      · simp [inceptionMsg, selfAddressedJson]

/-- after a successful inception whose event can be read back, the controller is in good order -/
theorem incept_ready {env : Env} {sg : SignFn} {km : CryptoBox} {rnd : BasicPrefix × BasicPrefix} {extra ws : List BasicPrefix}
    {as : List Action} {e : SignedEvent} {c : Controller} {db : Db} (hb : env.Blake3Size) (hw : km.Works env sg)
    (h : (Controller.new km rnd).inceptWith env sg extra ws (after env as) = (.ok e, c, db)) (hrt : e.rt = true) :
    db = after env (as ++ [.submit (.event e)]) ∧ c.pre = e.pre ∧ c.km = km ∧
    ∃ s, c.Ready env sg ((after env (as ++ [.submit (.event e)])).kel c.pre) s ∧ s.sn = 0 := by
  obtain ⟨hj, hlen, hprt, hdat, hsn, ⟨b, hdig⟩, hbind, hpok⟩ := inceptionMsg_facts env hb sg km hw extra ws
  unfold Controller.inceptWith at h
  simp only [Prod.mk.injEq] at h
  obtain ⟨h1, h2, h3⟩ := h
  rw [h1] at h2
  rw [makeInception_eq] at h1 h3
  obtain ⟨sig, g1, g2, g3⟩ := signEvent_eq (c := Controller.new km rnd) hw.signer hj
  simp only [Res.ok_bind, g3] at h1 h3
  rw [submitOwn_run] at h1 h3
  rcases hp : process sled env (.event ⟨inceptionMsg env km extra ws, [⟨0, ⟨.ed25519Sha512, sig⟩⟩], none⟩) (after env as) with ⟨r, db'⟩
  rw [hp] at h1 h3
  cases r with
  | err x => cases h1
  | panic => cases h1
  | ok o =>
    simp only [Res.ok.injEq] at h1 h3
    subst h3
    have hpre : e.pre = (inceptionMsg env km extra ws).event.content.prefix := by rw [← h1]
    have hdb : db' = after env (as ++ [.submit (.event e)]) := by
      rw [after_snoc, ← h1, hp]
    have hc : c = ⟨e.pre, km, rnd⟩ := by rw [← h2]; rfl
    subst hc
    refine ⟨hdb, rfl, rfl, ?_⟩
    have hne : e.pre.toStr ≠ [] := by
      intro h0; rw [hpre] at h0; rw [h0] at hlen; cases hlen
    have hacc : (process sled env (.event e) (after env as)).1 = .ok o := by rw [← h1, hp]
    obtain ⟨s0, new, bytes, _, hl, hrd, _, hap, hserz, hver, hkel⟩ := accepted_inv env as e hne o hacc
    have A := applyTo_ok hap
    have hst : e.stored = e := by rw [← h1]; rfl
    have hdat' : e.data = .icp ⟨km.config env extra, 0, ws, [], []⟩ := by rw [← h1]; exact hdat
    have hs0 : (after env as).kel e.pre = [] := by
      by_cases hnil : (after env as).kel e.pre = []
      · exact hnil
      · exact absurd (A.incPre (by rw [hdat']; rfl)) (((hl.facts hne).2.1 hnil).1)
    have hcur : new.current = km.config env extra := by rw [A.keys, hdat']; rfl
    rw [hst] at hkel
    refine ⟨new, ?_, A.sn.trans (by show e.msg.event.content.sn = 0; rw [← h1]; exact hsn)⟩
    have hs : s0 = IdState.default := (hl.facts hne).1 hs0
    show Controller.Ready env sg ⟨e.pre, km, rnd⟩ (Db.kel _ e.pre) new
    rw [hkel]
    exact {
      log := Log.snoc hl rfl (by rw [← h1]) hap
      readable := hrd.snoc hrt
      nonempty := by simp
      pre := A.pre
      preRt := by show e.pre.rt = true; rw [hpre]; exact hprt
      preLen := by show e.pre.toStr.length = 44; rw [hpre]; exact hlen
      deleg := by rw [A.delegator, hdat', hs]; rfl
      thr := by rw [hcur]; rfl
      key := by rw [hcur]; rfl
      next := by rw [hcur]; rfl
      dig := by rw [A.dig, ← h1]; show (inceptionMsg env km extra ws).event.digest.Sized; rw [hdig]; exact derive_sized hb _
      digBlake := by rw [A.dig, ← h1]; show (inceptionMsg env km extra ws).event.digest.derivation = _; rw [hdig]; rfl
      works := hw
      signed := by
        have hlog := Log.snoc hl rfl (show e.delegatorSeal = none by rw [← h1]) hap
        rw [hs0] at hlog ⊢
        exact signed_snoc hne hlog (by simp) hserz (validSigs_of_verify hver)
      plain := by rw [hs0]; exact mem_snoc (by simp) (by rw [hdat']; rfl)
      json := by rw [hs0]; exact mem_snoc (by simp) (by rw [← h1]; exact hj)
      digs := by rw [hs0]; exact mem_snoc (by simp) (by rw [← h1]; show (inceptionMsg env km extra ws).event.digest.Sized; rw [hdig]; exact derive_sized hb _)
      later := by rw [hs0]; exact mem_snoc (by simp) (fun h => by rw [hdat'] at h; cases h)
      preOk := by show e.pre.Representable ∧ ∀ q, e.pre ≠ .selfSigning q; rw [hpre]; exact hpok }


/-! ## C51 -/

/-- what can happen after the inception: a call of the controller, or anything else done with the processor it shares -/
inductive Call where
  | rotate
  | ixn (payload : Option Bytes)
  | interact (peer : IdentifierPrefix)
  | other (a : Action)

/-- `rotate` and `make_ixn` -/
def Call.own : Call → Bool
  | .rotate => true
  | .ixn _ => true
  | _ => false

/-- the result of the controller's call, the controller and the database afterwards -/
def Call.run (env : Env) (sg : SignFn) (x : Controller × Db) : Call → Option (Res SignedEvent) × Controller × Db
  | .rotate => (some (x.1.rotate env sg x.2).1, (x.1.rotate env sg x.2).2)
  | .ixn p => (some (x.1.makeIxn sled env sg p x.2).1, x.1, (x.1.makeIxn sled env sg p x.2).2)
  | .interact peer => (some (x.1.interact sled env sg peer x.2).1, x.1, (x.1.interact sled env sg peer x.2).2)
  | .other a => (none, x.1, a.run sled env x.2)

/-- the controller and the database after a sequence of calls -/
def runCalls (env : Env) (sg : SignFn) (x : Controller × Db) (cs : List Call) : Controller × Db :=
  cs.foldl (fun x c => (c.run env sg x).2) x

/-- the action submits an event of this identifier -/
def Action.submitsFor (id : IdentifierPrefix) : Action → Prop
  | .submit (.event e) => e.pre.toStr = id.toStr
  | _ => False

theorem runCalls_snoc (env : Env) (sg : SignFn) (x : Controller × Db) (cs : List Call) (c : Call) :
    runCalls env sg x (cs ++ [c]) = (c.run env sg (runCalls env sg x cs)).2 := by
  simp [runCalls, List.foldl_append]

theorem after_other (env : Env) (as : List Action) (a : Action) : a.run sled env (after env as) = after env (as ++ [a]) := by
  rw [after, after, runHistory_append]; rfl

theorem other_kel (env : Env) (as : List Action) (a : Action) (id : IdentifierPrefix) (hid : id.toStr ≠ []) (h : ¬ a.submitsFor id) :
    (after env (as ++ [a])).kel id = (after env as).kel id := by
  rw [kel_eq, kel_eq, after_abs, after_abs, runHistory_append]
  rcases action_log env a (runHistory mapOps env MapDb.empty as) (by rw [← after_abs]; exact after_good env as) id.toStr hid with h1 | ⟨e, _, _, rfl, h2, _⟩
  · exact h1
  · exact absurd h2 h

theorem calls_invariant {env : Env} {sg : SignFn} {c : Controller} {as : List Action} {s : IdState} (hb : env.Blake3Size)
    (R : c.Ready env sg ((after env as).kel c.pre) s) (hs : s.sn = 0) (cs : List Call)
    (hi : ∀ p, .interact p ∉ cs) (ho : ∀ a, .other a ∈ cs → ¬ a.submitsFor c.pre) (hn : cs.countP Call.own ≤ u64max) :
    (∀ before call rest, cs = before ++ call :: rest → call.own = true →
      ∃ e, (call.run env sg (runCalls env sg (c, after env as) before)).1 = some (.ok e)) ∧
    ∃ c' as' s', runCalls env sg (c, after env as) cs = (c', after env as') ∧ c'.pre = c.pre ∧
      c'.Ready env sg ((after env as').kel c'.pre) s' ∧ s'.sn = cs.countP Call.own := by
  induction cs using snoc_induction with
  | h0 =>
    refine ⟨fun before call rest h => ?_, c, as, s, rfl, rfl, R, by simpa using hs⟩
    cases before <;> cases h
  | h1 cs call ih =>
    rw [List.countP_append] at hn
    obtain ⟨hall, c', as', s', h1, h2, h3, h4⟩ := ih (fun p hp => hi p (by simp [hp])) (fun a ha => ho a (by simp [ha])) (by omega)
    have fin : ∀ (hcall : call.own = true → ∃ e, (call.run env sg (c', after env as')).1 = some (.ok e)),
        ∀ before call' rest, cs ++ [call] = before ++ call' :: rest → call'.own = true →
          ∃ e, (call'.run env sg (runCalls env sg (c, after env as) before)).1 = some (.ok e) := by
      intro hcall before call' rest heq hown
      rcases List.eq_nil_or_concat rest with hr | ⟨r', z, hr⟩
      · subst hr
        obtain ⟨e1, e2⟩ := List.append_inj_left' heq rfl, List.append_inj_right' heq rfl
        rw [List.append_inj_left' heq rfl] at h1 
        have e2 : call = call' := by simpa using List.append_inj_right' heq rfl
        subst e2
        rw [h1]
        exact hcall hown
      · subst hr
        have : cs ++ [call] = (before ++ call' :: r') ++ [z] := by simpa using heq
        exact hall before call' r' (List.append_inj_left' this rfl) hown
    cases call with
    | rotate =>
      have hc1 : [Call.rotate].countP Call.own = 1 := rfl
      obtain ⟨e, new, g1, g2, g3⟩ := h3.rotate hb (by rw [h4]; omega)
      refine ⟨fin fun _ => ⟨e, by simp [Call.run, g1]⟩, { c' with km := c'.km.rotate }, _, new, ?_, h2, g2, ?_⟩
      · rw [runCalls_snoc, h1]; simp only [Call.run, g1]
      · rw [g3, h4, List.countP_append]; rfl
    | ixn p =>
      have hc1 : [Call.ixn p].countP Call.own = 1 := rfl
      obtain ⟨e, new, g1, g2, g3⟩ := h3.ixn hb (by rw [h4]; omega) p
      refine ⟨fin fun _ => ⟨e, by simp [Call.run, g1]⟩, c', _, new, ?_, h2, g2, ?_⟩
      · rw [runCalls_snoc, h1]; simp only [Call.run, g1]
      · rw [g3, h4, List.countP_append]; rfl
    | interact p => exact absurd (by simp) (hi p)
    | other a =>
      refine ⟨fin (fun h => by cases h), c', as' ++ [a], s', ?_, h2, ?_, ?_⟩
      · rw [runCalls_snoc, h1]; simp only [Call.run, after_other]
      · rw [other_kel env as' a c'.pre h3.preNe (by rw [h2]; exact ho a (by simp))]; exact h3
      · rw [h4, List.countP_append]; rfl

/-- C51: with a working key manager, after a successful inception whose event can be read back, every call of `rotate` and `make_ixn`
succeeds, in any order and number, whatever else is processed in between (except events of this identifier made by others, and `interact`, C52); and the state of
the identifier then has as its sequence number the number of those calls, and the key manager's key as its only or first key. -/
theorem C51_progress (env : Env) (hb : env.Blake3Size) (sg : SignFn) (km : CryptoBox) (hw : km.Works env sg)
    (rnd : BasicPrefix × BasicPrefix) (as : List Action) (extra ws : List BasicPrefix) (e : SignedEvent) (c : Controller) (db : Db)
    (h : (Controller.new km rnd).inceptWith env sg extra ws (after env as) = (.ok e, c, db)) (hrt : e.rt = true) (cs : List Call)
    (hi : ∀ p, .interact p ∉ cs) (ho : ∀ a, .other a ∈ cs → ¬ a.submitsFor c.pre) (hn : cs.countP Call.own ≤ u64max) :
    (∀ before call rest, cs = before ++ call :: rest → call.own = true →
      ∃ e, (call.run env sg (runCalls env sg (c, db) before)).1 = some (.ok e)) ∧
    ∃ s, (computeState sled env c.pre (runCalls env sg (c, db) cs).2).1 = .ok (some s) ∧ s.prefix = c.pre ∧ s.sn = cs.countP Call.own ∧
      s.current.publicKeys[0]? = some (runCalls env sg (c, db) cs).1.km.key := by
  obtain ⟨hdb, _, _, s, R, hs⟩ := incept_ready hb hw h hrt
  subst hdb
  obtain ⟨h1, c', as', s', h2, h3, h4, h5⟩ := calls_invariant hb R hs cs hi ho hn
  refine ⟨h1, s', ?_, ?_, h5, ?_⟩
  · rw [h2]
    obtain ⟨s2, hl, hc⟩ := computeState_log env as' c'.pre h4.preNe h4.nonempty h4.readable
    have := hl.unique h4.log
    subst this
    rw [← h3]; exact hc
  · rw [h4.pre, h3]
  · rw [h2]; exact h4.key

/-- C51, as the node itself reports it: `get_state` answers with the state of the identifier it incepted, whose sequence number is the number of
its calls. -/
theorem C51_own_state (env : Env) (hb : env.Blake3Size) (sg : SignFn) (km : CryptoBox) (hw : km.Works env sg)
    (rnd : BasicPrefix × BasicPrefix) (as : List Action) (extra ws : List BasicPrefix) (e : SignedEvent) (c : Controller) (db : Db)
    (h : (Controller.new km rnd).inceptWith env sg extra ws (after env as) = (.ok e, c, db)) (hrt : e.rt = true) (cs : List Call)
    (hi : ∀ p, .interact p ∉ cs) (ho : ∀ a, .other a ∈ cs → ¬ a.submitsFor c.pre) (hn : cs.countP Call.own ≤ u64max) :
    ∃ s, ((runCalls env sg (c, db) cs).1.getState sled env (runCalls env sg (c, db) cs).2).1 = .ok (some s) ∧ s.prefix = e.pre ∧
      s.sn = cs.countP Call.own ∧ s.current.publicKeys[0]? = some (runCalls env sg (c, db) cs).1.km.key := by
  obtain ⟨-, s, h1, h2, h3, h4⟩ := C51_progress env hb sg km hw rnd as extra ws e c db h hrt cs hi ho hn
  obtain ⟨hdb, hpre, _, s0, R, hs⟩ := incept_ready hb hw h hrt
  obtain ⟨_, c', as', s', g2, g3, _⟩ := calls_invariant hb R hs cs hi ho hn
  refine ⟨s, ?_, by rw [h2]; exact hpre, h3, h4⟩
  unfold Controller.getState
  subst hdb
  rw [show (runCalls env sg (c, _) cs).1.pre = c.pre by rw [g2]; exact g3]
  exact h1

/-- an unreadable log stops every call of its controller with a panic -/
theorem unreadable_panics (env : Env) (sg : SignFn) (as : List Action) (c : Controller) (h : ¬ Readable ((after env as).kel c.pre)) :
    (c.rotate env sg (after env as)).1 = .panic ∧ ∀ p, (c.makeIxn sled env sg p (after env as)).1 = .panic := by
  have hne : (after env as).kel c.pre ≠ [] := by
    intro h0; rw [h0] at h; exact h (fun x hx => by cases hx)
  have hall : ((after env as).kel c.pre).all SignedEvent.rt = false := by
    rw [← Bool.not_eq_true, readable_iff]; exact h
  have hcs : (computeState sled env c.pre (after env as)).1 = .panic := by
    rw [computeState_spec env _ (after_inv env as), vec_of_kel hne]
    simp [hall]
  have ho : ∀ c' : Controller, c'.pre = c.pre → (c'.ownState sled env (after env as)).1 = .panic := by
    intro c' hc'
    unfold Controller.ownState
    rw [StM.bind_run, hc']
    rcases hx : computeState sled env c.pre (after env as) with ⟨r, d⟩
    rw [hx] at hcs
    simp only at hcs
    rw [hcs]
  have fin : ∀ (c' : Controller) (f : IdState → StM Db SignedEvent), c'.pre = c.pre → ((c'.ownState sled env >>= f) (after env as)).1 = .panic := by
    intro c' f hc'
    have := ho c' hc'
    rw [StM.bind_run]
    rcases hx : c'.ownState sled env (after env as) with ⟨r, d⟩
    rw [hx] at this
    simp only at this
    rw [this]
  exact ⟨fin { c with km := c.km.rotate } _ rfl, fun p => fin c _ rfl⟩

/-- C51, the other case: if the inception event cannot be read back (a witness key of the secp256k1 kind, say, C35), the inception still succeeds
and every later call panics, whatever happens in between. -/
theorem C51_unreadable_inception (env : Env) (sg : SignFn) (km : CryptoBox) (rnd : BasicPrefix × BasicPrefix) (as bs : List Action)
    (extra ws : List BasicPrefix) (e : SignedEvent) (c : Controller) (db : Db) (hne : c.pre.toStr ≠ [])
    (h : (Controller.new km rnd).inceptWith env sg extra ws (after env as) = (.ok e, c, db)) (hrt : e.rt = false) :
    (c.rotate env sg (runHistory sled env db bs)).1 = .panic ∧ ∀ p, (c.makeIxn sled env sg p (runHistory sled env db bs)).1 = .panic := by
  unfold Controller.inceptWith at h
  simp only [Prod.mk.injEq] at h
  obtain ⟨h1, h2, h3⟩ := h
  rw [h1] at h2
  have hpre : c.pre = e.pre := by rw [← h2]; rfl
  have hdb : db = after env (as ++ [.submit (.event e)]) ∧ (process sled env (.event e) (after env as)).1.isOk = true := by
    cases hx : ((Controller.new km rnd).makeInception env extra ws >>= (Controller.new km rnd).signEvent env sg) with
    | err x => rw [hx] at h1; cases h1
    | panic => rw [hx] at h1; cases h1
    | ok e' =>
      rw [hx, submitOwn_run] at h1 h3
      rcases hp : process sled env (.event e') (after env as) with ⟨r, d⟩
      rw [hp] at h1 h3
      cases r with
      | err x => cases h1
      | panic => cases h1
      | ok o =>
        simp only [Res.ok.injEq] at h1 h3
        subst h1
        rw [after_snoc, hp]
        exact ⟨h3.symm, rfl⟩
  obtain ⟨hdb, hok⟩ := hdb
  cases hp : (process sled env (.event e) (after env as)).1 with
  | err x => rw [hp] at hok; cases hok
  | panic => rw [hp] at hok; cases hok
  | ok o =>
    rw [hpre] at hne
    obtain ⟨s0, new, bytes, _, hl, hrd, _, hap, _, _, hkel⟩ := accepted_inv env as e hne o hp
    have hrun : runHistory sled env db bs = after env (as ++ [.submit (.event e)] ++ bs) := by
      rw [after, runHistory_append, hdb, after]
    rw [hrun]
    refine unreadable_panics env sg _ c ?_
    intro hr
    rw [hpre] at hr
    have hpf := C01_append_only env (as ++ [.submit (.event e)]) bs e.pre hne
    have := hr e.stored (hpf.subset (by rw [hkel]; simp))
    rw [rt_stored, hrt] at this
    cases this


theorem key_len {p : BasicPrefix} (h : p.Sized) : p.toStr.length ≤ 160 := by
  obtain ⟨d, k⟩ := p
  have h' : k.length = d.rawBytes := h
  rw [BasicPrefix.toStr_sized _ h, List.length_append, b64Encode_length]
  show d.toStr.length + ((k.length * 4 + 2) / 3) ≤ _
  rw [h']
  have : ∀ d : Basic, d.toStr.length + (d.rawBytes * 4 + 2) / 3 ≤ 160 := by intro d; cases d <;> decide
  exact this d

theorem keys_weight (ks : List BasicPrefix) (h : ∀ k ∈ ks, k.Sized) : SVal.weights (ks.map fun k => .str k.toStr) ≤ 963 * ks.length := by
  induction ks with
  | nil => simp [SVal.weights]
  | cons k ks ih =>
    have h1 := key_len (h k (by simp))
    have h2 := ih (fun x hx => h x (by simp [hx]))
    simp only [List.map_cons, SVal.weights, SVal.weight, List.length_cons]
    omega

theorem keys_rt (ks : List BasicPrefix) (h : ∀ k ∈ ks, k.Sized ∧ ¬ k.IsSecp) : ks.all BasicPrefix.rt = true := by
  rw [List.all_eq_true]
  intro k hk
  unfold BasicPrefix.rt
  exact decide_eq_true (C35_basic_roundtrip k (h k hk).1 (h k hk).2)

theorem icp_fields_weight (env : Env) (hb : env.Blake3Size) (sg : SignFn) (km : CryptoBox) (hw : km.Works env sg) (extra ws : List BasicPrefix)
    (he : ∀ k ∈ extra, k.Sized) (hws : ∀ k ∈ ws, k.Sized) :
    SVal.weightFields (EventData.icp ⟨km.config env extra, 0, ws, [], []⟩).fields ≤ 2000 + 963 * (extra.length + ws.length) := by
  have h1 := keys_weight (km.key :: extra) (by
    intro k hk
    rcases List.mem_cons.1 hk with rfl | hk
    · exact hw.signer.size
    · exact he k hk)
  have h2 := keys_weight ws hws
  have h3 : (hexStr 0).length = 1 := by decide +kernel
  have h4 : (hexStr 1).length = 1 := by decide +kernel
  have h5 := sa_len (commitment_sized hb km) rfl
  simp only [List.length_cons] at h1
  simp only [SVal.weight, SVal.weightFields, SVal.weights, EventData.fields, InceptionEvent.fields, CryptoBox.config,
    KeyConfig.fields, keysSval, List.cons_append, List.nil_append, List.map_nil,
    Threshold.default, Threshold.sval, h3, h4, h5, List.length_cons, List.length_nil]
  omega

theorem inceptionMsg_rt (env : Env) (hb : env.Blake3Size) (sg : SignFn) (km : CryptoBox) (hw : km.Works env sg) (extra ws : List BasicPrefix)
    (he : ∀ k ∈ extra, k.Sized ∧ ¬ k.IsSecp) (hws : ∀ k ∈ ws, k.Sized ∧ ¬ k.IsSecp) (hl : extra.length + ws.length ≤ 60) :
    (inceptionMsg env km extra ws).rt = true := by
  have hdrt : (EventData.icp ⟨km.config env extra, 0, ws, [], []⟩).rt = true := by
    have h1 : km.key.rt = true := ed_key_rt hw.signer.size
    have h2 := sa_rt (commitment_sized hb km)
    have h3 := keys_rt extra he
    have h4 := keys_rt ws hws
    simp only [EventData.rt, InceptionEvent.rt, KeyConfig.rt, CryptoBox.config, List.all_cons, h1, h2, h3, h4, Threshold.default, Threshold.rt]
    rfl
  have hfw := icp_fields_weight env hb sg km hw extra ws (fun k hk => (he k hk).1) (fun k hk => (hws k hk).1)
  have hi : (SerInfo.new .json 0).toStr.length = 17 := by decide +kernel
  have h0 : (hexStr 0).length = 1 := by decide +kernel
  have hf := inceptionMsg_facts env hb sg km hw extra ws
  cases extra with
  | nil =>
    refine said_rt hb hf.2.2.1 (by show 0 ≤ _; omega) hdrt ?_
    have hkl := ed_len hw.signer.size
    change (km.key).toStr.length = 44 at hkl
    simp only [dummyEventSval, SVal.weight, SVal.weightFields, Event.fields, List.cons_append, List.nil_append,
      EventData.type, EventTypeTag.toStr, hi, h0, dummy_blake3_len, List.length_cons, List.length_nil, IdentifierPrefix.toStr, hkl]
    simp only [List.length_nil] at hfw hl
    omega
  | cons a t =>
    have hir : (selfAddressedJson env (.icp ⟨km.config env (a :: t), 0, ws, [], []⟩)).info.rt = true := by
      unfold SerInfo.rt
      refine decide_eq_true ((C41_exact _ (show (1:Nat) ≤ 15 by omega) (show (0:Nat) ≤ 15 by omega)).2 ?_)
      refine Nat.le_trans (jsonText_le _) ?_
      simp only [dummyInceptionSval, SVal.weight, SVal.weightFields, List.cons_append, List.nil_append,
        EventData.type, EventTypeTag.toStr, hi, dummy_blake3_len, List.length_cons, List.length_nil]
      simp only [List.length_cons] at hfw hl
      omega
    unfold EventMessage.rt
    simp only [Bool.and_eq_true, decide_eq_true_eq]
    exact ⟨⟨⟨⟨hir, sa_rt (derive_sized hb _)⟩, hf.2.2.1⟩, by show 0 ≤ _; omega⟩, hdrt⟩

/-- C51, the hypotheses are met: with a working key manager, well-formed witnesses and extra keys of kinds that parse back, at most 60 of them, and
an identifier nobody used before, the inception succeeds and its event can be read back. -/
theorem C51_incept_succeeds (env : Env) (hb : env.Blake3Size) (sg : SignFn) (km : CryptoBox) (hw : km.Works env sg)
    (rnd : BasicPrefix × BasicPrefix) (as : List Action) (extra ws : List BasicPrefix)
    (he : ∀ k ∈ extra, k.Sized ∧ ¬ k.IsSecp) (hws : ∀ k ∈ ws, k.Sized ∧ ¬ k.IsSecp) (hl : extra.length + ws.length ≤ 60)
    (hun : ∀ m, (Controller.new km rnd).makeInception env extra ws = .ok m → (after env as).kel m.event.content.prefix = []) :
    ∃ e c db, (Controller.new km rnd).inceptWith env sg extra ws (after env as) = (.ok e, c, db) ∧ e.rt = true := by
  have hmk := makeInception_eq env km rnd extra ws
  have hun := hun _ hmk
  have hrt := inceptionMsg_rt env hb sg km hw extra ws he hws hl
  obtain ⟨hj, hlen, hprt, hdat, hsn, ⟨b, hdig⟩, hbind, hpok⟩ := inceptionMsg_facts env hb sg km hw extra ws
  have hne : (inceptionMsg env km extra ws).event.content.prefix.toStr ≠ [] := by
    intro h0; rw [h0] at hlen; cases hlen
  obtain ⟨new, hap, hcur⟩ : ∃ new, (inceptionMsg env km extra ws).applyTo env IdState.default = .ok new ∧ new.current = km.config env extra := by
    unfold EventMessage.applyTo
    rw [hdat, hbind]
    simp only [Res.ok_bind, if_true]
    unfold Event.applyTo
    rw [hdat]
    simp only [EventData.applyTo, hsn]
    exact ⟨_, rfl, rfl⟩
  let c0 : Controller := ⟨(inceptionMsg env km extra ws).event.content.prefix, km, rnd⟩
  obtain ⟨e, _, g2, g3, _, _, _, _⟩ := own_event (sg := sg) (c := c0) (as := as) (s := IdState.default) (new := new) (m := inceptionMsg env km extra ws) hne
    (by show Log _ _ (Db.kel _ (inceptionMsg env km extra ws).event.content.prefix) _; rw [hun]; exact Log.nil)
    (by show Readable (Db.kel _ (inceptionMsg env km extra ws).event.content.prefix); rw [hun]; exact fun x hx => by cases hx)
    hw.signer hj rfl (.inl ⟨_, hdat⟩) hap (by rw [hcur]; rfl) (by rw [hcur]; rfl) hrt
  refine ⟨e, (Controller.new km rnd).adopt (.ok e), after env (as ++ [.submit (.event e)]), ?_, g2⟩
  unfold Controller.inceptWith
  rw [hmk]
  have : submitOwn sled env (Res.ok (inceptionMsg env km extra ws) >>= (Controller.new km rnd).signEvent env sg) (after env as) =
      (.ok e, after env (as ++ [.submit (.event e)])) := g3
  rw [this]

namespace Ex
/-- a mixed run of calls; in between, somebody else's event is submitted and the escrows are processed -/
def ctlCalls : List Call := [.rotate, .ixn (some b!"hello"), .other (.submit (.event icpFinal)), .rotate, .other .reprocess, .ixn none]

end Ex

/-- C51_progress, C51_incept_succeeds: the hypotheses are met by a controller incepted on a database with other logs. -/
example : Env.Blake3Size Ex.env ∧ Ex.km.Works Ex.env Ex.sg ∧ (∃ e, Ex.ctlIcp.1 = .ok e ∧ e.rt = true) ∧
    (∀ p, .interact p ∉ Ex.ctlCalls) ∧ (∀ a, .other a ∈ Ex.ctlCalls → ¬ a.submitsFor Ex.ctlIcp.2.1.pre) ∧
    Ex.ctlCalls.countP Call.own = 4 := by
  refine ⟨Ex.blake3Size, Ex.km_works, ?_, ?_, ?_, rfl⟩
  · obtain ⟨e, c, db, h, hr⟩ := C51_incept_succeeds Ex.env Ex.blake3Size Ex.sg Ex.km Ex.km_works (Ex.key 90, Ex.key 91) Ex.hist [Ex.key 50] [Ex.key 51]
      (by intro k hk; rw [List.mem_singleton] at hk; subst hk; exact ⟨rfl, by intro h; rcases h with h | h <;> cases h⟩)
      (by intro k hk; rw [List.mem_singleton] at hk; subst hk; exact ⟨rfl, by intro h; rcases h with h | h <;> cases h⟩) (by decide) (by
        intro m hm
        have : (match (Controller.new Ex.km (Ex.key 90, Ex.key 91)).makeInception Ex.env [Ex.key 50] [Ex.key 51] with
          | .ok m => decide ((after Ex.env Ex.hist).kel m.event.content.prefix = [])
          | _ => true) = true := by decide +kernel
        rw [hm] at this
        exact of_decide_eq_true this)
    exact ⟨e, congrArg Prod.fst h, hr⟩
  · intro p hp; simp [Ex.ctlCalls] at hp
  · intro a ha
    simp only [Ex.ctlCalls, List.mem_cons, Call.other.injEq, reduceCtorEq, false_or, or_false, List.not_mem_nil] at ha
    rcases ha with rfl | rfl
    · show ¬ (Ex.icpFinal.pre.toStr = Ex.ctlIcp.2.1.pre.toStr); decide +kernel
    · exact id

example : (match Ex.ctlIcp with
    | (.ok _, c, db) => (computeState sled Ex.env c.pre (runCalls Ex.env Ex.sg (c, db) Ex.ctlCalls).2).1.isOk
    | _ => false) = true := by decide +kernel

/-- C51_unreadable_inception: such an inception. -/
example : (match Ex.secpIcp with
    | (.ok e, c, db) => !e.rt && decide ((c.rotate Ex.env Ex.sg db).1 = .panic)
    | _ => false) = true := by decide +kernel

end Keriox
