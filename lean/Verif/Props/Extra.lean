import Verif.Props.Exact
import Verif.Props.Incept
import Verif.Props.Forge
/-!
# C119 — what the extra keys of `incept_with_extra_keys` may do

The inception made by `incept_with_extra_keys` asks for one signature.  So each holder of an extra key can write to the log alone, until the first rotation.
-/
namespace Keriox

/-! ## Specification -/

/-- the event, an interaction with the given anchors, is accepted in the name of `id` and becomes the last of its log; after that no other event with its number
is accepted -/
structure WritesTo (env : Env) (as : List Action) (id : IdentifierPrefix) (e : SignedEvent) (anchors : List Seal) : Prop where
  kind : ∃ p, e.data = .ixn ⟨p, anchors⟩
  accepted : ∃ st, (process sled env (.event e) (after env as)).1 = .ok (some st)
  stored : (after env (as ++ [.submit (.event e)])).kel id = (after env as).kel id ++ [e]
  shutOut : ∀ f : SignedEvent, f.pre.toStr = id.toStr → f.sn = e.sn →
    ∀ st, (process sled env (.event f) (after env (as ++ [.submit (.event e)]))).1 ≠ .ok st

/-! ## Lemmas -/

theorem keysInForce_none {l : List SignedEvent} (h : ∀ x ∈ l, x.data.isEstablishment = false) : keysInForce l = none := by
  induction l with
  | nil => rfl
  | cons a l ih =>
    have ha := h a List.mem_cons_self
    unfold EventData.isEstablishment at ha
    unfold keysInForce
    rw [ih fun x hx => h x (List.mem_cons_of_mem _ hx)]
    cases hk : a.data.keyConfig? with
    | none => rfl
    | some k => rw [hk] at ha; cases ha

/-- no second event with the number of the last one -/
theorem shut_out {env : Env} {as : List Action} {e : SignedEvent} {id : IdentifierPrefix} (hid : id.toStr ≠ []) (hsn : e.sn = ((after env as).kel id).length)
    (hk : (after env (as ++ [.submit (.event e)])).kel id = (after env as).kel id ++ [e]) (f : SignedEvent) (hf : f.pre.toStr = id.toStr) (hfs : f.sn = e.sn)
    (st : Option IdState) : (process sled env (.event f) (after env (as ++ [.submit (.event e)]))).1 ≠ .ok st := by
  intro h
  have A := (C115_accepted_iff env _ f (by rw [hf]; exact hid)).1 ⟨_, h⟩
  have := A.number
  rw [kel_text _ hf, hk, hfs, hsn] at this
  simp at this

theorem one_key_writes {env : Env} {as : List Action} {id : IdentifierPrefix} (hid : id.toStr ≠ []) (hne : (after env as).kel id ≠ [])
    (hr : Readable ((after env as).kel id)) {kc : KeyConfig} (hkc : keysInForce ((after env as).kel id) = some kc) (ht : kc.threshold = .simple 1)
    {i : Nat} {k : BasicPrefix} (hi : kc.publicKeys[i]? = some k) (sign : Bytes → SelfSigningPrefix) (hs : ∀ b, SigValid env k b (sign b)) (anchors : List Seal) :
    ∃ e b, e.msg.serialize env = .ok b ∧ e.sigs = [⟨i, sign b⟩] ∧ WritesTo env as id e anchors := by
  obtain ⟨s, hl, -⟩ := computeState_log env as id hid hne hr
  have F := (hl.facts hid).2.1 hne
  have hcur : s.current = kc := by
    have := hl.keys hid hne
    rw [hkc] at this
    exact (Option.some.inj this).symm
  obtain ⟨new, ha, hn, -⟩ := ixn_applies (env := env) (s := s) (e := ⟨s.prefix, s.sn + 1, .ixn ⟨s.lastDigest, anchors⟩⟩) rfl rfl rfl rfl (saidJson env _) rfl
  have hb := json_serialize env (saidJson env ⟨s.prefix, s.sn + 1, .ixn ⟨s.lastDigest, anchors⟩⟩) rfl
  generalize hm : saidJson env ⟨s.prefix, s.sn + 1, .ixn ⟨s.lastDigest, anchors⟩⟩ = m at *
  have hcon : m.event.content = ⟨s.prefix, s.sn + 1, .ixn ⟨s.lastDigest, anchors⟩⟩ := by rw [← hm]; rfl
  generalize jsonText m.sval = b at hb
  let e : SignedEvent := ⟨m, [⟨i, sign b⟩], none⟩
  have hp : e.pre.toStr = id.toStr := by show m.event.content.prefix.toStr = _; rw [hcon]; exact F.2.1
  have hsn : e.sn = ((after env as).kel id).length := by
    show m.event.content.sn = _
    rw [hcon]; exact F.2.2.1
  have hv : ValidSigs env kc b [⟨i, sign b⟩] := by
    refine ⟨by simp, ?_, by rw [ht]; show 1 ≤ 1; omega⟩
    intro x hx
    rw [List.mem_singleton] at hx
    subst hx
    exact ⟨k, hi, hs b⟩
  have acc := accepts env as e (by rw [hp]; exact hid) s new b (by rw [kel_text _ hp, hp]; exact hl) (by rw [kel_text _ hp]; exact hr)
    (plain_checkDelegation env e _ (.inr (.inr ⟨_, by show m.event.content.data = _; rw [hcon]⟩))) ha hb
    (by rw [hn, hcur]; exact verify_of_validSigs hv)
  have hst : (after env (as ++ [.submit (.event e)])).kel id = (after env as).kel id ++ [e] := by
    have := acc.2
    rw [kel_text _ hp, kel_text _ hp] at this
    exact this
  exact ⟨e, b, hb, rfl, ⟨s.lastDigest, by show m.event.content.data = _; rw [hcon]⟩, ⟨new, acc.1⟩, hst, shut_out hid hsn hst⟩

theorem stm_bind_inv {σ α β : Type} {x : StM σ α} {f : α → StM σ β} {s s' : σ} {b : β} (h : (x >>= f) s = (.ok b, s')) :
    ∃ a t, x s = (.ok a, t) ∧ f a t = (.ok b, s') := by
  rw [StM.bind_run] at h
  cases hx : x s with
  | mk r t =>
    rw [hx] at h
    cases r with
    | ok a => exact ⟨a, t, rfl, h⟩
    | err e => cases h
    | panic => cases h

theorem submitOwn_inv {env : Env} {r : Res SignedEvent} {db db' : Db} {e : SignedEvent} (h : submitOwn sled env r db = (.ok e, db')) :
    r = .ok e ∧ ∃ st, process sled env (.event e) db = (.ok st, db') := by
  cases r with
  | err x => unfold submitOwn at h; rw [StM.bind_run] at h; cases h
  | panic => unfold submitOwn at h; rw [StM.bind_run] at h; cases h
  | ok e' =>
    rw [submitOwn_run] at h
    cases hp : process sled env (.event e') db with
    | mk x d =>
      rw [hp] at h
      cases x with
      | ok st => cases h; exact ⟨rfl, st, hp⟩
      | err x => cases h
      | panic => cases h

theorem after_process (env : Env) (as : List Action) (m : Message) : (process sled env m (after env as)).2 = after env (as ++ [.submit m]) := by
  rw [after, after, runHistory_append]; rfl

/-! ## C119 -/

/-- Let `incept_with_extra_keys` have succeeded.  Whatever happens afterwards, as long as the log has no rotation and can be read: whoever can sign with one of the
extra keys can write an interaction with any anchors into the log, with no other signature, and shut out the event the controller would have put there. -/
theorem C119_extra_key_writes (env : Env) (sg : SignFn) (km : CryptoBox) (rnd : BasicPrefix × BasicPrefix) (as : List Action) (extra : List BasicPrefix)
    (e : SignedEvent) (c : Controller) (db : Db) (h : (Controller.new km rnd).inceptExtra env sg extra (after env as) = (.ok e, c, db)) (hid : e.pre.toStr ≠ []) :
    db = after env (as ++ [.submit (.event e)]) ∧
    ∀ (bs : List Action), (∀ x ∈ ((after env (as ++ .submit (.event e) :: bs)).kel e.pre).tail, x.data.isEstablishment = false) →
      Readable ((after env (as ++ .submit (.event e) :: bs)).kel e.pre) →
      ∀ (i : Nat) (k : BasicPrefix) (sign : Bytes → SelfSigningPrefix), extra[i]? = some k → (∀ b, SigValid env k b (sign b)) → ∀ anchors : List Seal,
        ∃ x b, x.msg.serialize env = .ok b ∧ x.sigs = [⟨i + 1, sign b⟩] ∧ WritesTo env (as ++ .submit (.event e) :: bs) e.pre x anchors := by
  obtain ⟨-, -, hd, -, -, -, -⟩ := C51_incept_extra_creates env sg km rnd as extra e c db h
  unfold Controller.inceptExtra Controller.inceptWith at h
  simp only [Prod.mk.injEq] at h
  obtain ⟨h1, -, h3⟩ := h
  obtain ⟨-, st, hp⟩ := submitOwn_inv (Prod.ext h1 rfl)
  have hacc : (process sled env (.event e) (after env as)).1 = .ok st := by rw [hp]
  have hdb : db = after env (as ++ [.submit (.event e)]) := by
    rw [← after_process, hp]; exact h3.symm
  refine ⟨hdb, fun bs hno hr i k sign hk hs anchors => ?_⟩
  have A := (C115_accepted_iff env as e hid).1 ⟨_, hacc⟩
  have hnil : (after env as).kel e.pre = [] := A.first.1 (by rw [hd]; rfl)
  have hlog := C01_accepted_is_logged env as bs e st hid hacc
  rw [hnil, List.nil_append, List.singleton_append] at hlog
  have hforce : keysInForce ((after env (as ++ .submit (.event e) :: bs)).kel e.pre) = some ⟨.simple 1, km.key :: extra, some (km.commitment env)⟩ := by
    rw [hlog] at hno ⊢
    unfold keysInForce
    rw [List.tail_cons] at hno
    rw [keysInForce_none hno]
    show (none : Option KeyConfig).or e.data.keyConfig? = _
    rw [hd]; rfl
  exact one_key_writes hid (by rw [hlog]; simp) hr hforce rfl (i := i + 1) (by simpa using hk) sign hs anchors

/-- The controller's `rotate` ends this: once it has succeeded, and until the next rotation, every other event accepted for the identifier carries exactly one
signature, a valid one of the controller's new key. -/
theorem C119_rotation_ends (env : Env) (sg : SignFn) (c : Controller) (as : List Action) (e : SignedEvent) (c' : Controller) (db : Db)
    (hid : c.pre.toStr ≠ []) (hdef : c.pre ≠ IdentifierPrefix.default) (h : c.rotate env sg (after env as) = (.ok e, c', db)) :
    e.pre = c.pre ∧ c'.km = c.km.rotate ∧
    ∃ as', db = after env as' ∧ (after env as').kel c.pre = (after env as).kel c.pre ++ [e] ∧
    ∀ (bs : List Action) (f : SignedEvent) (st : Option IdState),
      (∀ x ∈ ((after env (as' ++ bs)).kel c.pre).drop (((after env as).kel c.pre).length + 1), x.data.isEstablishment = false) →
      f.pre.toStr = c.pre.toStr → f.data.isEstablishment = false → (process sled env (.event f) (after env (as' ++ bs))).1 = .ok st →
      ∃ b sig, f.msg.serialize env = .ok b ∧ f.sigs = [⟨0, sig⟩] ∧ SigValid env c'.km.key b sig := by
  unfold Controller.rotate at h
  simp only [Prod.mk.injEq] at h
  obtain ⟨h1, rfl, h3⟩ := h
  have hrun : Controller.submitRotation sled env sg { c with km := c.km.rotate } (after env as) = (.ok e, db) := Prod.ext h1 h3
  unfold Controller.submitRotation at hrun
  obtain ⟨s, d, ho, hrun⟩ := stm_bind_inv hrun
  have hd : d = after env (as ++ [.lookup .kels c.pre]) := by
    have h0 : (Controller.ownState sled env { c with km := c.km.rotate } (after env as)).2 = d := by rw [ho]
    rw [← h0]
    have h2 := computeState_db env c.pre (after env as)
    rw [after, after, runHistory_append]
    show _ = (sled.read .kels c.pre (after env as)).2
    rw [← h2]
    unfold Controller.ownState
    rw [StM.bind_run]
    rcases computeState sled env c.pre (after env as) with ⟨r, d'⟩
    cases r with
    | ok o => cases o <;> rfl
    | err x => rfl
    | panic => rfl
  subst hd
  obtain ⟨hmk, st0, hp⟩ := submitOwn_inv hrun
  rw [rotationMsg_eq env { c with km := c.km.rotate } hdef, Res.ok_bind] at hmk
  unfold Controller.signEvent at hmk
  obtain ⟨b0, -, hmk⟩ := Res.bind_eq_ok.1 hmk
  obtain ⟨s0, -, hmk⟩ := Res.bind_eq_ok.1 hmk
  cases hmk
  generalize hm : saidJson env ⟨c.pre, s.sn + 1, .rot ⟨s.lastDigest, c.km.rotate.config env [], 0, [], [], []⟩⟩ = m at *
  have hcon : m.event.content = ⟨c.pre, s.sn + 1, .rot ⟨s.lastDigest, c.km.rotate.config env [], 0, [], [], []⟩⟩ := by rw [← hm]; rfl
  dsimp only at hp ⊢
  generalize he : (⟨m, [⟨0, ⟨.ed25519Sha512, s0⟩⟩], none⟩ : SignedEvent) = e at *
  have hpre : e.pre = c.pre := by rw [← he]; show m.event.content.prefix = _; rw [hcon]
  have hdata : e.data.keyConfig? = some (c.km.rotate.config env []) := by rw [← he]; show m.event.content.data.keyConfig? = _; rw [hcon]; rfl
  have hstored : e.stored = e := by rw [← he]; rfl
  have hacc : (process sled env (.event e) (after env (as ++ [.lookup .kels c.pre]))).1 = .ok st0 := by rw [hp]
  have hdb : db = after env (as ++ [.lookup .kels c.pre] ++ [.submit (.event e)]) := by
    rw [← after_process, hp]
  have hk0 := after_lookup_kel env as .kels c.pre c.pre
  have hlog : ∀ bs, (after env (as ++ [.lookup .kels c.pre] ++ .submit (.event e) :: bs)).kel c.pre = (after env as).kel c.pre ++ [e] ++
      ((after env (as ++ [.lookup .kels c.pre] ++ .submit (.event e) :: bs)).kel c.pre).drop (((after env as).kel c.pre).length + 1) := by
    intro bs
    have := C01_accepted_is_logged env _ bs e st0 (by rw [hpre]; exact hid) hacc
    rw [hpre, hk0, hstored] at this
    exact this
  refine ⟨hpre, rfl, _, hdb, ?_, ?_⟩
  · obtain ⟨_, _, _, _, _, _, _, _, _, _, hk⟩ := accepted_inv env _ e (by rw [hpre]; exact hid) _ hacc
    rw [hpre, hk0, hstored] at hk
    exact hk
  · intro bs f st hno hf hfe hfa
    rw [show as ++ [.lookup .kels c.pre] ++ [.submit (.event e)] ++ bs = as ++ [.lookup .kels c.pre] ++ .submit (.event e) :: bs by simp] at hno hfa
    have A := (C115_accepted_iff env _ f (by rw [hf]; exact hid)).1 ⟨_, hfa⟩
    obtain ⟨kc, b, h1, h2, h3⟩ := A.signed
    rw [kel_text _ hf, hlog bs, keysInForce_snoc] at h1
    have hfn : f.data.keyConfig? = none := by
      unfold EventData.isEstablishment at hfe
      cases hx : f.data.keyConfig? with
      | none => rfl
      | some y => rw [hx] at hfe; cases hfe
    have happ : ∀ (l r : List SignedEvent), keysInForce r = none → keysInForce (l ++ r) = keysInForce l := by
      intro l r hr
      induction l with
      | nil => exact hr
      | cons a l ih => rw [List.cons_append]; unfold keysInForce; rw [ih]
    rw [hfn, happ _ _ (keysInForce_none hno), keysInForce_snoc, hdata] at h1
    simp only [Option.or, Option.some.injEq] at h1
    subst h1
    have hidx : ∀ x ∈ f.sigs, x.index = 0 ∧ SigValid env c.km.rotate.key b x.signature := by
      intro x hx
      obtain ⟨k, hk, hv⟩ := h3.valid x hx
      have hk' : [c.km.rotate.key][x.index]? = some k := hk
      cases hi : x.index with
      | zero => rw [hi] at hk'; cases hk'; exact ⟨rfl, hv⟩
      | succ n => rw [hi] at hk'; cases hk'
    have hlen : 1 ≤ f.sigs.length := h3.threshold
    cases hs : f.sigs with
    | nil => rw [hs] at hlen; cases hlen
    | cons x l =>
      cases l with
      | cons y l =>
        have hnd := h3.distinct
        rw [hs] at hidx hnd
        simp [(hidx x (by simp)).1, (hidx y (by simp)).1] at hnd
      | nil =>
        rw [hs] at hidx
        obtain ⟨i0, hv⟩ := hidx x (by simp)
        refine ⟨b, x.signature, h2, ?_, hv⟩
        rw [← i0]

namespace Ex
/-- a controller with two extra keys -/
def withExtra : Res SignedEvent × Controller × Db := ctl.inceptExtra env sg [key 50, key 52] (after env hist)
/-- signing with the second extra key -/
def extraSign : Bytes → SelfSigningPrefix := fun b => ⟨.ed25519Sha512, List.replicate 32 52 ++ dig b⟩
theorem extraSign_valid (b : Bytes) : SigValid env (key 52) b (extraSign b) := .inl ⟨.inl rfl, rfl, decide_eq_true rfl⟩
end Ex

/-- the holder of the second extra key writes an interaction, signed with index 2, directly after the inception -/
example : ∃ e c db x b, Ex.withExtra = (.ok e, c, db) ∧ x.msg.serialize Ex.env = .ok b ∧ x.sigs = [⟨2, Ex.extraSign b⟩] ∧
    WritesTo Ex.env (Ex.hist ++ [.submit (.event e)]) e.pre x [.digest Ex.peer] := by
  have hk : Ex.withExtra.1.isOk = true := by decide +kernel
  obtain ⟨e, he⟩ := Res.ok_of_isOk hk
  have hid : (match Ex.withExtra.1 with | .ok e => e.pre.toStr.length | _ => 0) = 44 := by decide +kernel
  have hread : (match Ex.withExtra.1 with
    | .ok e => decide (((after Ex.env (Ex.hist ++ [.submit (.event e)])).kel e.pre).length = 1) && ((after Ex.env (Ex.hist ++ [.submit (.event e)])).kel e.pre).all (·.rt)
    | _ => false) = true := by decide +kernel
  rw [he] at hid hread
  dsimp only at hid
  simp only [Bool.and_eq_true, decide_eq_true_eq, List.all_eq_true] at hread
  obtain ⟨-, H⟩ := C119_extra_key_writes Ex.env Ex.sg Ex.km (Ex.key 90, Ex.key 91) Ex.hist [Ex.key 50, Ex.key 52] e Ex.withExtra.2.1 Ex.withExtra.2.2
    (Prod.ext he rfl) (by intro h; rw [h] at hid; cases hid)
  obtain ⟨x, b, h1, h2, h3⟩ := H [] (by
      intro x hx
      obtain ⟨y, hy⟩ : ∃ y, (after Ex.env (Ex.hist ++ [.submit (.event e)])).kel e.pre = [y] := List.length_eq_one_iff.1 hread.1
      rw [hy] at hx; cases hx) (fun x hx => hread.2 x hx) 1 (Ex.key 52) Ex.extraSign rfl Ex.extraSign_valid [.digest Ex.peer]
  exact ⟨e, _, _, x, b, Prod.ext he rfl, h1, h2, h3⟩

/-- `rotate` succeeds after that inception, and the controller can go on: the next interaction is accepted -/
example : (match Ex.withExtra with
    | (.ok _, c, db) => match c.rotate Ex.env Ex.sg db with
      | (.ok e, c', db') => decide (c.pre.toStr.length = 44) && decide (c.pre ≠ IdentifierPrefix.default) && decide (e.sn = 1) &&
        (c'.makeIxn sled Ex.env Ex.sg none db').1.isOk
      | _ => false
    | _ => false) = true := by decide +kernel

end Keriox
