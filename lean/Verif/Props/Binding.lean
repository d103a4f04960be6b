import Verif.Props.Deleg
/-!
# C16, C17, C18: what ties identifiers and digests to content
-/
namespace Keriox

/-- everything an accepting call has established -/
theorem accepted_inv (env : Env) (as : List Action) (e : SignedEvent) (hid : e.pre.toStr ≠ []) (st : Option IdState)
    (hacc : (process sled env (.event e) (after env as)).1 = .ok st) :
    ∃ s new bytes, st = some new ∧ Log env e.pre.toStr ((after env as).kel e.pre) s ∧ Readable ((after env as).kel e.pre) ∧
      (checkDelegation mapOps env e (after env as).abs).1 = .ok () ∧ e.msg.applyTo env s = .ok new ∧
      e.msg.serialize env = .ok bytes ∧ new.current.verify env bytes e.sigs = .ok true ∧
      (after env (as ++ [.submit (.event e)])).kel e.pre = (after env as).kel e.pre ++ [e.stored] := by
  obtain ⟨s, hl, ho⟩ := event_outcome env as e hid
  rw [hacc] at ho
  have hk : (after env (as ++ [.submit (.event e)])).kel e.pre = (after env (as ++ [.submit (.event e)])).abs.log e.pre.toStr := rfl
  rw [hk]
  generalize (after env (as ++ [.submit (.event e)])).abs = a' at ho
  cases ho with
  | refused h _ _ => exact absurd rfl (h st)
  | @stored new hcd hrd hap hs _ =>
    generalize hr : (Res.ok st : Res (Option IdState)) = r at hs
    generalize a'.log e.pre.toStr = l at hs
    cases hs <;> try (cases hr; done)
    rename_i bytes hser hv
    cases hr
    exact ⟨s, new, bytes, rfl, hl, hrd, hcd, hap, hser, hv, rfl⟩

/-- sufficient conditions for acceptance -/
theorem accepts (env : Env) (as : List Action) (e : SignedEvent) (hid : e.pre.toStr ≠ []) (s new : IdState) (bytes : Bytes)
    (hl : Log env e.pre.toStr ((after env as).kel e.pre) s) (hr : Readable ((after env as).kel e.pre))
    (hcd : (checkDelegation mapOps env e (after env as).abs).1 = .ok ()) (hap : e.msg.applyTo env s = .ok new)
    (hser : e.msg.serialize env = .ok bytes) (hv : new.current.verify env bytes e.sigs = .ok true) :
    (process sled env (.event e) (after env as)).1 = .ok (some new) ∧
    (after env (as ++ [.submit (.event e)])).kel e.pre = (after env as).kel e.pre ++ [e.stored] := by
  obtain ⟨s', hl', ho⟩ := event_outcome env as e hid
  have := hl'.unique hl
  subst this
  have hk : (after env (as ++ [.submit (.event e)])).kel e.pre = (after env (as ++ [.submit (.event e)])).abs.log e.pre.toStr := rfl
  rw [hk]
  generalize (process sled env (.event e) (after env as)).1 = r at ho
  generalize (after env (as ++ [.submit (.event e)])).abs = a' at ho
  cases ho with
  | refused _ _ h =>
    exfalso
    rcases h with ⟨er, h, _⟩ | ⟨h, _⟩ | ⟨_, ⟨h, _⟩ | ⟨_, er, h, _⟩ | ⟨_, h, _⟩⟩
    · rw [hcd] at h; cases h
    · rw [hcd] at h; cases h
    · exact h hr
    · rw [hap] at h; cases h
    · rw [hap] at h; cases h
  | @stored new' _ _ hap' hst _ =>
    rw [hap] at hap'
    cases hap'
    generalize a'.log e.pre.toStr = l' at hst
    cases hst with
    | accepted b hs' hv' => exact ⟨rfl, rfl⟩
    | undone b er hs' h1 h2 _ _ => rw [hser] at hs'; cases hs'; exact absurd hv h1
    | unreadable b er hs' h1 h2 _ _ => rw [hser] at hs'; cases hs'; exact absurd hv h1
    | noBytesErr er hs' => rw [hser] at hs'; cases hs'
    | noBytesPanic hs' => rw [hser] at hs'; cases hs'
    | panicked b hs' hv' => rw [hser] at hs'; cases hs'; rw [hv] at hv'; cases hv'

theorem logged_binding (env : Env) (as : List Action) (id : IdentifierPrefix) (hid : id.toStr ≠ []) (e : SignedEvent)
    (he : e ∈ (after env as).kel id) (hi : e.data.isInception = true) : verifyIdentifierBinding env e.msg = .ok true := by
  obtain ⟨s, hl⟩ := after_log env as id hid
  obtain ⟨i, hi', rfl⟩ := List.mem_iff_getElem.1 he
  obtain ⟨s0, s1, _, _, ha⟩ := hl.step (List.getElem?_eq_getElem hi')
  exact (applyTo_ok ha).incBind hi

/-! ## C16 -/

/-- C16: the digest field of a logged inception of a self-addressing identifier is the identifier; for a delegated
inception the identifier names the event.  Beyond this: that the digest field is the digest of the content — it is not checked. -/
theorem C16_identifier_is_digest_field (env : Env) (as : List Action) (id : IdentifierPrefix) (hid : id.toStr ≠ [])
    (e : SignedEvent) (sap : SelfAddressingPrefix) (he : e ∈ (after env as).kel id) (hp : e.pre = .selfAddressing sap) :
    (∀ i, e.data = .icp i → e.dig = sap) ∧ (∀ d, e.data = .dip d → NamesEvent env e.msg sap) := by
  have hp' : e.msg.event.content.prefix = .selfAddressing sap := hp
  constructor
  · intro i hd
    have hb := logged_binding env as id hid e he (by rw [hd]; rfl)
    have hd' : e.msg.event.content.data = .icp i := hd
    unfold verifyIdentifierBinding at hb
    rw [hd', hp'] at hb
    simp only [Res.bind_eq_ok] at hb
    obtain ⟨b, _, hb⟩ := hb
    simp only [Res.ok.injEq, Bool.and_eq_true, decide_eq_true_eq] at hb
    exact hb.2
  · intro d hd
    have hb := logged_binding env as id hid e he (by rw [hd]; rfl)
    have hd' : e.msg.event.content.data = .dip d := hd
    unfold verifyIdentifierBinding at hb
    rw [hd', hp'] at hb
    exact checkDigest_names hb

/-- C16 is false for every digest function, every self-addressing identifier and every inception content: whoever signs with
the keys listed in an inception can claim any self-addressing identifier that has no log yet. -/
theorem C16_fails_for_all (env : Env) (as : List Action) (sap : SelfAddressingPrefix) (i : InceptionEvent) (info : SerInfo)
    (sigs : List AttachedSignaturePrefix) (bytes : Bytes) (hne : (IdentifierPrefix.selfAddressing sap).toStr ≠ [])
    (hfree : (after env as).kel (.selfAddressing sap) = [])
    (hser : (EventMessage.mk info ⟨sap, ⟨.selfAddressing sap, 0, .icp i⟩⟩).serialize env = .ok bytes)
    (hsig : i.keyConfig.verify env bytes sigs = .ok true) :
    ∃ new, (process sled env (.event ⟨⟨info, ⟨sap, ⟨.selfAddressing sap, 0, .icp i⟩⟩⟩, sigs, none⟩) (after env as)).1 = .ok (some new) ∧
      new.prefix = .selfAddressing sap ∧ new.current = i.keyConfig := by
  let e : SignedEvent := ⟨⟨info, ⟨sap, ⟨.selfAddressing sap, 0, .icp i⟩⟩⟩, sigs, none⟩
  have hap : ∃ new, e.msg.applyTo env IdState.default = .ok new := by
    simp [e, EventMessage.applyTo, verifyIdentifierBinding, EventMessage.checkDigest, Event.applyTo, IdState.default, EventData.applyTo]
  obtain ⟨new, hap⟩ := hap
  have A := applyTo_ok (e := e) hap
  have hcur : new.current = i.keyConfig := A.keys
  refine ⟨new, (accepts env as e hne IdState.default new bytes ?_ ?_ (plain_checkDelegation env e _ (.inl ⟨i, rfl⟩)) hap hser ?_).1, A.pre, hcur⟩
  · show Log env _ ((after env as).kel (.selfAddressing sap)) _
    rw [hfree]; exact Log.nil
  · show Readable ((after env as).kel (.selfAddressing sap))
    rw [hfree]; intro x hx; simp at hx
  · rw [hcur]; exact hsig

/-- the victim's identifier claimed with the attacker's keys 50, 51 -/
def Ex.thief : SignedEvent :=
  signAll ⟨SerInfo.new .json 0, ⟨icp.dig, ⟨id, 0, .icp ⟨kc [50, 51] [52] (.simple 2), 0, [], [], []⟩⟩⟩⟩ [50, 51]

/-- C16 fails concretely: the attacker's inception of the victim's identifier is accepted, and the victim's own is then
refused as a duplicate. -/
theorem C16_fails :
    (process sled Ex.env (.event Ex.thief) Db.empty).1.isOk = true ∧ Ex.thief.pre = Ex.icp.pre ∧
    Ex.thief.data ≠ Ex.icp.data ∧
    (process sled Ex.env (.event Ex.icp) (after Ex.env [.submit (.event Ex.thief)])).1 = .err .eventDuplicate := by decide +kernel

example : Ex.icp ∈ (after Ex.env Ex.hist).kel Ex.id ∧ Ex.icp.pre = .selfAddressing Ex.icp.dig := by decide +kernel

/-! ## C17 -/

/-- C17: a logged inception of a basic identifier is a plain inception whose key list is exactly that key. -/
theorem C17_basic_key (env : Env) (as : List Action) (id : IdentifierPrefix) (hid : id.toStr ≠ []) (e : SignedEvent) (bp : BasicPrefix)
    (he : e ∈ (after env as).kel id) (hi : e.data.isInception = true) (hp : e.pre = .basic bp) :
    ∃ i, e.data = .icp i ∧ i.keyConfig.publicKeys = [bp] := by
  have hb := logged_binding env as id hid e he hi
  have hp' : e.msg.event.content.prefix = .basic bp := hp
  unfold verifyIdentifierBinding at hb
  rw [hp'] at hb
  cases hd : e.data with
  | icp i =>
    have hd' : e.msg.event.content.data = .icp i := hd
    rw [hd'] at hb
    exact ⟨i, rfl, of_decide_eq_true (Res.ok.inj hb)⟩
  | dip d =>
    have hd' : e.msg.event.content.data = .dip d := hd
    rw [hd'] at hb
    cases hb
  | _ => rw [hd] at hi; cases hi

/-- C17, signatures: an accepted inception of a basic identifier whose threshold needs at least one signature carries a
valid signature by the key that is the identifier, and no other signatures. -/
theorem C17_signed_by_key (env : Env) (as : List Action) (e : SignedEvent) (hid : e.pre.toStr ≠ []) (bp : BasicPrefix)
    (hp : e.pre = .basic bp) (hi : e.data.isInception = true) (st : Option IdState)
    (hacc : (process sled env (.event e) (after env as)).1 = .ok st)
    (hth : ∀ kc, e.data.keyConfig? = some kc → kc.threshold ≠ .simple 0 ∧ kc.threshold ≠ .multi []) :
    ∃ bytes sig, e.msg.serialize env = .ok bytes ∧ e.sigs = [⟨0, sig⟩] ∧ SigValid env bp bytes sig := by
  obtain ⟨s, new, bytes, _, hl, _, _, hap, hser, hv, hkel⟩ := accepted_inv env as e hid st hacc
  have hmem : e.stored ∈ (after env (as ++ [.submit (.event e)])).kel e.pre := by rw [hkel]; simp
  obtain ⟨i, hd, hk⟩ := C17_basic_key env _ e.pre hid e.stored bp hmem hi hp
  have hd' : e.data = .icp i := hd
  have hcur : new.current = i.keyConfig := by
    have := (applyTo_ok hap).keys
    rw [hd'] at this; exact this
  have V := validSigs_of_verify hv
  have hidx : ∀ x ∈ e.sigs, x.index = 0 ∧ SigValid env bp bytes x.signature := by
    intro x hx
    obtain ⟨k, hk1, hk2⟩ := V.valid x hx
    rw [hcur, hk] at hk1
    have h0 : x.index = 0 := by
      cases hxi : x.index with
      | zero => rfl
      | succ n => rw [hxi] at hk1; simp at hk1
    rw [h0] at hk1
    simp at hk1
    exact ⟨h0, hk1 ▸ hk2⟩
  cases hs : e.sigs with
  | nil =>
    exfalso
    have := V.threshold
    rw [hs, hcur] at this
    have hx := hth i.keyConfig (by rw [hd']; rfl)
    exact ((metBy_nil _).1 this).elim hx.1 hx.2
  | cons a t =>
    have ha := hidx a (by rw [hs]; simp)
    have ht : t = [] := by
      cases t with
      | nil => rfl
      | cons b t =>
        have hb := hidx b (by rw [hs]; simp)
        have := V.distinct
        rw [hs] at this
        simp [ha.1, hb.1] at this
    subst ht
    refine ⟨bytes, a.signature, hser, ?_, ha.2⟩
    obtain ⟨i, sg⟩ := a
    simp only at ha ⊢
    rw [ha.1]

example : (process sled Ex.env (.event Ex.icpFinal) (after Ex.env [])).1.isOk = true ∧ Ex.icpFinal.data.isInception = true ∧
    Ex.icpFinal.pre = .basic (Ex.key 9) ∧ Ex.icpFinal.pre.toStr ≠ [] ∧
    (Ex.icpFinal.data.keyConfig?.map fun k => k.threshold) = some (.simple 1) ∧
    Ex.icpFinal.stored ∈ (after Ex.env [.submit (.event Ex.icpFinal)]).kel Ex.icpFinal.pre := by decide +kernel

/-- self-signing identifiers cannot be incepted at all: the call crashes -/
theorem C17_self_signing_panics (env : Env) (as : List Action) (e : SignedEvent) (ssp : SelfSigningPrefix) (i : InceptionEvent)
    (hp : e.pre = .selfSigning ssp) (hd : e.data = .icp i) (hid : e.pre.toStr ≠ []) :
    (process sled env (.event e) (after env as)).1 = .panic := by
  have hb : ∀ s, e.msg.applyTo env s = .panic := by
    intro s
    have hp' : e.msg.event.content.prefix = .selfSigning ssp := hp
    have hd' : e.msg.event.content.data = .icp i := hd
    simp [EventMessage.applyTo, hd', verifyIdentifierBinding, hp']
  obtain ⟨s, hl, ho⟩ := event_outcome env as e hid
  generalize (process sled env (.event e) (after env as)).1 = r at ho
  generalize (after env (as ++ [.submit (.event e)])).abs = a' at ho
  cases ho with
  | refused _ _ h =>
    rcases h with ⟨er, h, _⟩ | ⟨h, _⟩ | ⟨_, ⟨_, h⟩ | ⟨_, er, h, _⟩ | ⟨_, _, h⟩⟩
    · rw [plain_checkDelegation env e _ (.inl ⟨i, hd⟩)] at h; cases h
    · rw [plain_checkDelegation env e _ (.inl ⟨i, hd⟩)] at h; cases h
    · exact h
    · rw [hb s] at h; cases h
    · exact h
  | stored _ _ hap _ _ => rw [hb s] at hap; cases hap

/-! ## C54 -/

/-- an unsigned inception of a basic identifier with signing threshold 0 -/
def Ex.unsigned : SignedEvent :=
  signAll (msgOr ((Event.mk (.basic (key 9)) 0 (.icp ⟨⟨.simple 0, [key 9], none⟩, 0, [], [], []⟩)).toMessage env .json .blake3_256)) []

/-- C54 is false: with a threshold of zero an inception without any signature is accepted for a basic identifier its sender
has no key for. -/
theorem C54_fails :
    (process sled Ex.env (.event Ex.unsigned) Db.empty).1.isOk = true ∧ Ex.unsigned.sigs = [] ∧
    Ex.unsigned.pre = .basic (Ex.key 9) := by decide +kernel

/-- C54: an accepted event whose key configuration's threshold is neither zero nor an empty list of clauses carries at least one valid
signature by a key in force. -/
theorem C54_signature_needed (env : Env) (as : List Action) (e : SignedEvent) (hid : e.pre.toStr ≠ []) (new : IdState)
    (hacc : (process sled env (.event e) (after env as)).1 = .ok (some new)) (hth : new.current.threshold ≠ .simple 0 ∧ new.current.threshold ≠ .multi []) :
    ∃ bytes sig k, e.msg.serialize env = .ok bytes ∧ sig ∈ e.sigs ∧ k ∈ new.current.publicKeys ∧
      SigValid env k bytes sig.signature := by
  obtain ⟨s, new', bytes, h1, hl, _, _, hap, hser, hv, hkel⟩ := accepted_inv env as e hid _ hacc
  cases h1
  have V := validSigs_of_verify hv
  cases hs : e.sigs with
  | nil => exfalso; have := V.threshold; rw [hs] at this; exact ((metBy_nil _).1 this).elim hth.1 hth.2
  | cons a t =>
    obtain ⟨k, hk1, hk2⟩ := V.valid a (by rw [hs]; simp)
    exact ⟨bytes, a, k, hser, by simp, List.mem_of_getElem? hk1, hk2⟩

/-! ## C18 -/

/-- C18 is false for every event that is not an inception: replacing the digest field by anything changes neither whether the
event applies nor the resulting state, except for the recorded digest. -/
theorem C18_fails_for_all (env : Env) (m : EventMessage) (d : SelfAddressingPrefix) (s s' : IdState)
    (hi : m.event.content.data.isInception = false) (h : m.applyTo env s = .ok s') :
    EventMessage.applyTo env { m with event := { m.event with digest := d } } s = .ok { s' with lastDigest := d } := by
  obtain ⟨info, dig, pre, sn, data⟩ := m
  cases data with
  | icp _ => cases hi
  | dip _ => cases hi
  | rot r =>
    simp only [EventMessage.applyTo, checkEventDigest_self, Res.ok_bind] at h ⊢
    split at h
    · cases h
    · rename_i hd
      rw [if_neg hd]
      simp only [Res.bind_eq_ok] at h ⊢
      obtain ⟨next, h1, h2⟩ := h
      refine ⟨next, h1, ?_⟩
      unfold chain at h2 ⊢
      split at h2
      · rename_i hc; rw [if_pos hc]; cases h2; rfl
      · cases h2
  | ixn r =>
    simp only [EventMessage.applyTo, checkEventDigest_self, Res.ok_bind] at h ⊢
    simp only [Res.bind_eq_ok] at h ⊢
    obtain ⟨next, h1, h2⟩ := h
    refine ⟨next, h1, ?_⟩
    unfold chain at h2 ⊢
    split at h2
    · rename_i hc; rw [if_pos hc]; cases h2; rfl
    · cases h2
  | drt r =>
    simp only [EventMessage.applyTo, checkEventDigest_self, Res.bind_eq_ok] at h ⊢
    obtain ⟨next, h1, u, _, h2⟩ := h
    refine ⟨next, h1, (), trivial, ?_⟩
    split at h2
    · cases h2
    · rename_i hd
      rw [if_neg hd]
      unfold chain at h2 ⊢
      split at h2
      · rename_i hc; rw [if_pos hc]; cases h2; rfl
      · cases h2

/-- C18 for `process`: if a plain rotation or interaction is accepted, so is, signed by the same keys, the event with any other digest in its
digest field; the only difference in the resulting state is the recorded digest. -/
theorem C18_process_fails_for_all (env : Env) (as : List Action) (e : SignedEvent) (hid : e.pre.toStr ≠ [])
    (hk : (∃ x, e.data = .rot x) ∨ ∃ x, e.data = .ixn x) (new : IdState)
    (hacc : (process sled env (.event e) (after env as)).1 = .ok (some new)) (d : SelfAddressingPrefix)
    (sigs : List AttachedSignaturePrefix) (bytes : Bytes) (hser : EventMessage.serialize env { e.msg with event := { e.msg.event with digest := d } } = .ok bytes)
    (hsig : ValidSigs env new.current bytes sigs) :
    (process sled env (.event ⟨{ e.msg with event := { e.msg.event with digest := d } }, sigs, none⟩) (after env as)).1 =
      .ok (some { new with lastDigest := d }) := by
  obtain ⟨s, new', _, hn, hl, hr, _, hap, _⟩ := accepted_inv env as e hid _ hacc
  obtain rfl := Option.some.inj hn
  refine (accepts env as ⟨{ e.msg with event := { e.msg.event with digest := d } }, sigs, none⟩ hid s { new with lastDigest := d } bytes hl hr
    (plain_checkDelegation env _ _ (.inr hk)) (C18_fails_for_all env e.msg d s new ?_ hap) hser (verify_of_validSigs hsig)).1
  rcases hk with ⟨x, hx⟩ | ⟨x, hx⟩
  · show e.data.isInception = false; rw [hx]; rfl
  · show e.data.isInception = false; rw [hx]; rfl

/-- an interaction with a made-up digest, signed by the controller -/
def Ex.badDigest : SignedEvent :=
  signAll ⟨SerInfo.new .json 0, ⟨⟨.blake3_256, List.replicate 32 0⟩, ⟨id, 2, .ixn ⟨rot.dig, []⟩⟩⟩⟩ [4, 5]

/-- C18 fails concretely: an interaction whose digest field is all zeros is accepted. -/
theorem C18_fails :
    (process sled Ex.env (.event Ex.badDigest) (after Ex.env [.submit (.event Ex.icp), .submit (.event Ex.rot)])).1.isOk = true ∧
    (Ex.badDigest.msg.toDerivationData Ex.env).isOk = true ∧
    (∀ data, Ex.badDigest.msg.toDerivationData Ex.env = .ok data → Ex.badDigest.dig.verifyBinding Ex.env data = false) := by
  refine ⟨by decide +kernel, by decide +kernel, ?_⟩
  intro data h
  have : (match Ex.badDigest.msg.toDerivationData Ex.env with | .ok d => Ex.badDigest.dig.verifyBinding Ex.env d | _ => false) = false := by
    decide +kernel
  rw [h] at this
  exact this

example : Ex.ixn.data.isInception = false ∧ (Ex.ixn.msg.applyTo Ex.env Ex.rotState).isOk = true := by decide +kernel

/-- hypotheses of `C18_process_fails_for_all`: the honest interaction is accepted, and `Ex.badDigest` is the same event with another
digest, validly signed -/
example : (process sled Ex.env (.event Ex.ixn) (after Ex.env [.submit (.event Ex.icp), .submit (.event Ex.rot)])).1.isOk = true ∧
    Ex.ixn.pre = Ex.badDigest.pre ∧ Ex.ixn.sn = Ex.badDigest.sn ∧
    (match Ex.badDigest.msg.serialize Ex.env with
      | .ok b => decide (Ex.rotState.current.verify Ex.env b Ex.badDigest.sigs = .ok true)
      | _ => false) = true := by decide +kernel

end Keriox
