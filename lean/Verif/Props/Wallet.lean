import Verif.Wallet
import Verif.Props.Reincept
import Verif.Props.WitnessQuery

/-! C88: the wallet as key manager. -/

namespace Keriox

/-! ## A filled wallet is a key manager -/

/-- the wallet offers what the crate's own key manager `km` offers: same current and next key, same signatures, same random keys to come -/
structure Wallet.Like (w : Wallet) (km : CryptoBox) : Prop where
  current : w.getKey tagCurrent = some (.keyPair [tagCurrent] km.signer)
  next : w.getKey tagNext = some (.keyPair [tagNext] km.next)
  fresh : w.fresh = km.fresh
  /-- only one content carries the tag `next` -/
  only : ∀ x ∈ w.contents, tagNext ∈ x.2.tags → x = (tagNext, .keyPair [tagNext] km.next)

theorem Wallet.getKey_set (w : Wallet) (id id' : String) (c : WContent) :
    (w.setContent id c).getKey id' = if id' = id then some c else w.getKey id' := by
  unfold Wallet.getKey Wallet.setContent
  by_cases h : id' = id
  · subst h; simp
  · have h' : ¬ id = id' := fun e => h e.symm
    simp only [List.find?_cons, h', decide_false, if_neg h]
    congr 1
    induction w.contents with
    | nil => rfl
    | cons x l ih =>
      by_cases hx : x.1 = id
      · have : ¬ x.1 = id' := fun e => h' (hx.symm.trans e)
        simp only [List.filter_cons, hx, ne_eq, not_true_eq_false, decide_false, Bool.false_eq_true, if_false, List.find?_cons, h', ih]
      · simp only [List.filter_cons, ne_eq, hx, not_false_eq_true, decide_true, if_true, List.find?_cons, ih]

theorem Wallet.mem_set {w : Wallet} {id : String} {c : WContent} {x : String × WContent} (h : x ∈ (w.setContent id c).contents) :
    x = (id, c) ∨ (x ∈ w.contents ∧ x.1 ≠ id) := by
  unfold Wallet.setContent at h
  rcases List.mem_cons.1 h with h | h
  · exact .inl h
  · have := List.mem_filter.1 h
    exact .inr ⟨this.1, by simpa using this.2⟩

theorem Wallet.Like.promote {w : Wallet} {km : CryptoBox} (h : w.Like km) : (w.promote km.next).Like km.rotate := by
  unfold Wallet.promote
  have hcn : ¬ tagCurrent = tagNext := by decide
  refine ⟨?_, ?_, ?_, ?_⟩
  · rw [Wallet.getKey_set, if_neg hcn]
    show (w.setContent tagCurrent _).getKey tagCurrent = _
    rw [Wallet.getKey_set, if_pos rfl]; rfl
  · rw [Wallet.getKey_set, if_pos rfl]
    show some (WContent.keyPair [tagNext] (w.fresh 0)) = _
    rw [h.fresh]; rfl
  · show (fun n => w.fresh (n + 1)) = _
    rw [h.fresh]; rfl
  · intro x hx ht
    rcases Wallet.mem_set hx with rfl | ⟨hx, hne⟩
    · show (tagNext, WContent.keyPair [tagNext] (w.fresh 0)) = _
      rw [h.fresh]; rfl
    · have hx : x ∈ (w.setContent tagCurrent (.keyPair [tagCurrent] km.next)).contents := hx
      rcases Wallet.mem_set hx with rfl | ⟨hx, _⟩
      · exact absurd (List.mem_singleton.1 ht) (by decide)
      · exact absurd (by rw [h.only x hx ht]) hne

/-- rotating a wallet that is like a key manager succeeds, whichever content with the tag is found -/
theorem Wallet.Like.rotate {w : Wallet} {km : CryptoBox} (h : w.Like km) (hn : km.next.pub ≠ []) {pick : Pick} (hp : pick.Ok) :
    (w.rotate pick).1 = .ok () ∧ (w.rotate pick).2.Like km.rotate := by
  have hk : w.nextPublicKey = .ok km.next.pub := by
    unfold Wallet.nextPublicKey Wallet.getPublicKey
    rw [h.next]
    exact if_neg hn
  have hc : pick w.contents tagNext = some (.keyPair [tagNext] km.next) := by
    have hmem : (tagNext, WContent.keyPair [tagNext] km.next) ∈ w.contents := by
      have := h.next
      unfold Wallet.getKey at this
      cases hf : w.contents.find? (fun x => x.1 = tagNext) with
      | none => rw [hf] at this; cases this
      | some x =>
        rw [hf] at this
        have h1 := List.mem_of_find?_eq_some hf
        have h2 := List.find?_some hf
        simp only [Option.map_some, Option.some.injEq] at this
        have h3 : x = (tagNext, WContent.keyPair [tagNext] km.next) := Prod.ext (by simpa using h2) this
        rw [← h3]; exact h1
    cases hq : pick w.contents tagNext with
    | none => exact absurd hq (hp.complete _ _ ⟨_, hmem, List.mem_singleton.2 rfl⟩)
    | some c =>
      obtain ⟨id, h1, h2⟩ := hp.sound _ _ _ hq
      have := h.only _ h1 h2
      simp only [Prod.mk.injEq] at this
      rw [this.2]
  unfold Wallet.rotate
  rw [hk]
  dsimp only
  rw [if_neg hn, hc]
  exact ⟨rfl, h.promote⟩

/-- the key manager the crate would have made from the same random keys, `/repo/src/signer/mod.rs:50-60`; the third key drawn by `incept_keys` is
the key-agreement key, which is not used for signing -/
def boxOf (fresh : Nat → KeyPair) : CryptoBox := ⟨fresh 0, fresh 1, fun n => fresh (n + 3)⟩

/-- a key manager after `n` rotations -/
def CryptoBox.rotations (km : CryptoBox) : Nat → CryptoBox
  | 0 => km
  | n + 1 => (km.rotations n).rotate

/-- the wallet held no content tagged `next` under another name -/
def Wallet.Untagged (w : Wallet) : Prop := ∀ x ∈ w.contents, tagNext ∈ x.2.tags → x.1 = tagNext

theorem Wallet.like_incept (w : Wallet) (h : w.Untagged) : w.inceptKeys.Like (boxOf w.fresh) := by
  unfold Wallet.inceptKeys
  have a1 : ¬ tagCurrent = tagCrypto := by decide
  have a2 : ¬ tagCurrent = tagNext := by decide
  have a3 : ¬ tagNext = tagCrypto := by decide
  refine ⟨?_, ?_, rfl, ?_⟩
  · rw [Wallet.getKey_set, if_neg a1]
    show (Wallet.setContent _ tagNext _).getKey tagCurrent = _
    rw [Wallet.getKey_set, if_neg a2]
    show (Wallet.setContent _ tagCurrent _).getKey tagCurrent = _
    rw [Wallet.getKey_set, if_pos rfl]; rfl
  · rw [Wallet.getKey_set, if_neg a3]
    show (Wallet.setContent _ tagNext _).getKey tagNext = _
    rw [Wallet.getKey_set, if_pos rfl]; rfl
  · intro x hx ht
    rcases Wallet.mem_set hx with rfl | ⟨hx, _⟩
    · exact absurd (List.mem_singleton.1 ht) (by decide)
    · have hx : x ∈ (Wallet.setContent _ tagNext _).contents := hx
      rcases Wallet.mem_set hx with rfl | ⟨hx, hne⟩
      · rfl
      · have hx : x ∈ (Wallet.setContent _ tagCurrent _).contents := hx
        rcases Wallet.mem_set hx with rfl | ⟨hx, _⟩
        · exact absurd (List.mem_singleton.1 ht) (by decide)
        · exact absurd (h x hx ht) hne

theorem CryptoBox.rotations_next (km : CryptoBox) (h0 : km.next.pub ≠ []) (h : ∀ n, (km.fresh n).pub ≠ []) :
    ∀ n, (km.rotations n).next.pub ≠ [] ∧ ∀ m, ((km.rotations n).fresh m).pub ≠ []
  | 0 => ⟨h0, h⟩
  | n + 1 => by
    have ih := CryptoBox.rotations_next km h0 h n
    exact ⟨ih.2 0, fun m => ih.2 (m + 1)⟩

/-- C88: a wallet filled by `incept_keys`, after any number of rotations, all of which succeed, offers the keys and makes the signatures of the
crate's own key manager with the same random keys after as many rotations. -/
theorem C88_like_own (w : Wallet) (hw : w.Untagged) (hf : ∀ n, (w.fresh n).pub ≠ []) (pick : Pick) (hp : pick.Ok) (sg : SignFn) (n : Nat) :
    (w.inceptKeys.rotations pick n).publicKey = .ok ((boxOf w.fresh).rotations n).signer.pub ∧
    (w.inceptKeys.rotations pick n).nextPublicKey = .ok ((boxOf w.fresh).rotations n).next.pub ∧
    (∀ msg, (w.inceptKeys.rotations pick n).sign sg msg = ((boxOf w.fresh).rotations n).sign sg msg) ∧
    ((w.inceptKeys.rotations pick n).rotate pick).1 = .ok () := by
  have hb := (boxOf w.fresh).rotations_next (hf 1) (fun n => hf (n + 3))
  have hl : ∀ n, (w.inceptKeys.rotations pick n).Like ((boxOf w.fresh).rotations n) := by
    intro n
    induction n with
    | zero => exact w.like_incept hw
    | succ n ih => exact (ih.rotate (hb n).1 hp).2
  have h := hl n
  refine ⟨?_, ?_, ?_, (h.rotate (hb n).1 hp).1⟩
  · have h0 : ((boxOf w.fresh).rotations n).signer.pub ≠ [] := by
      cases n with
      | zero => exact hf 0
      | succ n => exact (hb n).1
    unfold Wallet.publicKey Wallet.getPublicKey
    rw [h.current]
    exact if_neg h0
  · unfold Wallet.nextPublicKey Wallet.getPublicKey
    rw [h.next]
    exact if_neg (hb n).1
  · intro msg
    unfold Wallet.sign
    rw [h.current]
    rfl

/-! ## A controller made with a fresh wallet -/

/-- an own event that the processor refuses is not returned -/
theorem submitOwn_none {env : Env} {as : List Action} {p : IdentifierPrefix} (r : Res SignedEvent)
    (h : ∀ e, r = .ok e → (∀ o, (process sled env (.event e) (after env as)).1 ≠ .ok o) ∧
      (after env (as ++ [.submit (.event e)])).kel p = (after env as).kel p) :
    (∀ e, (submitOwn sled env r (after env as)).1 ≠ .ok e) ∧
    ∃ bs, (submitOwn sled env r (after env as)).2 = after env (as ++ bs) ∧ (after env (as ++ bs)).kel p = (after env as).kel p := by
  cases r with
  | ok e =>
    obtain ⟨h1, h2⟩ := h e rfl
    obtain ⟨h3, h4⟩ := submitOwn_refused env as e h1
    exact ⟨h3, _, h4, h2⟩
  | err x => exact ⟨fun e he => (by cases he), [], by rw [List.append_nil]; rfl, by rw [List.append_nil]⟩
  | panic => exact ⟨fun e he => (by cases he), [], by rw [List.append_nil]; rfl, by rw [List.append_nil]⟩

/-- the signed event is the one given -/
theorem signEvent_msg {env : Env} {sg : SignFn} {c : Controller} {r : Res EventMessage} {e : SignedEvent}
    (h : (r >>= c.signEvent env sg) = .ok e) : r = .ok e.msg := by
  obtain ⟨m, h1, h2⟩ := Res.bind_eq_ok.1 h
  unfold Controller.signEvent at h2
  simp only [Res.bind_eq_ok] at h2
  obtain ⟨b, _, s, _, h3⟩ := h2
  cases h3
  exact h1

/-- the inception event of a controller whose identifier is a public key -/
theorem makeBasic_eq {env : Env} {c : Controller} {k : BasicPrefix} (hk : c.pre = .basic k) (hd : c.pre ≠ IdentifierPrefix.default)
    (extra ws : List BasicPrefix) :
    c.makeInception env extra ws = .ok (saidJson env ⟨.basic k, 0, .icp ⟨c.km.config env extra, 0, ws, [], []⟩⟩) := by
  unfold Controller.makeInception Builder.build Builder.pre Controller.builder
  simp only [if_neg hd, Res.ok_bind]
  simp only [hk]
  rfl

/-- the identifier is a public key that is not labelled Ed25519 -/
def IdentifierPrefix.OtherKey (p : IdentifierPrefix) : Prop := ∃ k, p = .basic k ∧ k.derivation ≠ .ed25519 ∧ p ≠ IdentifierPrefix.default ∧ p.toStr ≠ []

theorem otherKey_incept {env : Env} {sg : SignFn} {c : Controller} (hp : c.pre.OtherKey) (as : List Action) (extra ws : List BasicPrefix) :
    (∀ e, (c.inceptWith env sg extra ws (after env as)).1 ≠ .ok e) ∧ (c.inceptWith env sg extra ws (after env as)).2.1 = c ∧
    ∃ bs, (c.inceptWith env sg extra ws (after env as)).2.2 = after env (as ++ bs) ∧ (after env (as ++ bs)).kel c.pre = (after env as).kel c.pre := by
  obtain ⟨k, hk, hne, hd, ht⟩ := hp
  obtain ⟨s, hl⟩ := after_log env as c.pre ht
  obtain ⟨h1, h2⟩ := submitOwn_none (env := env) (as := as) (p := c.pre) (c.makeInception env extra ws >>= c.signEvent env sg) (fun e he => by
    have hm := signEvent_msg he
    rw [makeBasic_eq hk hd] at hm
    simp only [Res.ok.injEq] at hm
    have hpre : e.pre = c.pre := by
      show e.msg.event.content.prefix = _
      rw [← hm, hk]; rfl
    refine refused_inapplicable env as e c.pre hpre ht s hl (fun new hap => ?_)
    have := (applyTo_ok hap).incBind (by show e.msg.event.content.data.isInception = true; rw [← hm]; rfl)
    rw [← hm] at this
    simp only [verifyIdentifierBinding, saidJson, CryptoBox.config, Res.ok.injEq, decide_eq_true_eq] at this
    have h2 : c.km.key = k := by
      injection this
    exact hne (by rw [← h2]; rfl))
  refine ⟨h1, ?_, h2⟩
  show c.adopt _ = c
  unfold Controller.adopt
  split
  · rename_i e he; exact absurd he (h1 e)
  · rfl

/-- an event of a controller whose identifier has no log, unless it is an inception, is refused -/
theorem unborn_refused {env : Env} {c : Controller} {as : List Action} (hd : c.pre ≠ IdentifierPrefix.default) (ht : c.pre.toStr ≠ [])
    (hk : (after env as).kel c.pre = []) (f : IdState → Res SignedEvent)
    (hf : ∀ s e, f s = .ok e → e.pre = c.pre ∧ e.data.isInception = false) :
    (∀ e, ((c.ownState sled env >>= fun s => submitOwn sled env (f s)) (after env as)).1 ≠ .ok e) ∧
    ∃ bs, ((c.ownState sled env >>= fun s => submitOwn sled env (f s)) (after env as)).2 = after env (as ++ bs) ∧ (after env (as ++ bs)).kel c.pre = [] := by
  have hdb := computeState_after_db env as c.pre
  have hl := after_lookup_kel env as .kels c.pre c.pre
  rw [hk] at hl
  rw [StM.bind_run]
  unfold Controller.ownState
  rw [StM.bind_run]
  rcases hc : computeState sled env c.pre (after env as) with ⟨r, d⟩
  rw [hc] at hdb
  simp only at hdb
  subst hdb
  cases r with
  | err x => exact ⟨fun e he => (by cases he), _, rfl, hl⟩
  | panic => exact ⟨fun e he => (by cases he), _, rfl, hl⟩
  | ok o =>
    cases o with
    | none => exact ⟨fun e he => (by cases he), _, rfl, hl⟩
    | some s =>
      obtain ⟨h1, bs, h2, h3⟩ := submitOwn_none (env := env) (as := as ++ [.lookup .kels c.pre]) (p := c.pre) (f s) (fun e he => by
        obtain ⟨h1, h2⟩ := hf s e he
        refine refused_inapplicable env _ e c.pre h1 ht IdState.default (by rw [hl]; exact Log.nil) (fun new hap => ?_)
        have := (applyTo_ok hap).nextPre h2
        rw [h1] at this
        exact hd this)
      rw [List.append_assoc] at h2 h3
      exact ⟨h1, _, h2, h3.trans hl⟩

/-- what can be done with a controller: one of the two inceptions, or anything that can be done later -/
inductive Doing where
  | incept (ws : List BasicPrefix)
  | inceptExtra (extra : List BasicPrefix)
  | call (c : Call)

/-- the result, if it is a method of the controller, and the controller and the database afterwards -/
def Doing.run (env : Env) (sg : SignFn) (x : Controller × Db) : Doing → Option (Res SignedEvent) × Controller × Db
  | .incept ws => (some (x.1.incept env sg ws x.2).1, (x.1.incept env sg ws x.2).2)
  | .inceptExtra extra => (some (x.1.inceptExtra env sg extra x.2).1, (x.1.inceptExtra env sg extra x.2).2)
  | .call c => c.run env sg x

/-- the controller and the database after a sequence of such -/
def runDoings (env : Env) (sg : SignFn) (x : Controller × Db) (ds : List Doing) : Controller × Db :=
  ds.foldl (fun x d => (d.run env sg x).2) x

theorem otherKey_doing {env : Env} {sg : SignFn} {c : Controller} (hp : c.pre.OtherKey) (as : List Action)
    (hk : (after env as).kel c.pre = []) (d : Doing) (ho : ∀ a, d = .call (.other a) → ¬ a.submitsFor c.pre) :
    (∀ e, (d.run env sg (c, after env as)).1 ≠ some (.ok e)) ∧ (d.run env sg (c, after env as)).2.1.pre = c.pre ∧
    ∃ bs, (d.run env sg (c, after env as)).2.2 = after env bs ∧ (after env bs).kel c.pre = [] := by
  have hd : c.pre ≠ IdentifierPrefix.default := by obtain ⟨_, _, _, h, _⟩ := hp; exact h
  have ht : c.pre.toStr ≠ [] := by obtain ⟨_, _, _, _, h⟩ := hp; exact h
  have inc : ∀ extra ws, (∀ e, some (c.inceptWith env sg extra ws (after env as)).1 ≠ some (.ok e)) ∧
      (c.inceptWith env sg extra ws (after env as)).2.1.pre = c.pre ∧
      ∃ bs, (c.inceptWith env sg extra ws (after env as)).2.2 = after env bs ∧ (after env bs).kel c.pre = [] := by
    intro extra ws
    obtain ⟨h1, h2, bs, h3, h4⟩ := otherKey_incept (env := env) (sg := sg) hp as extra ws
    exact ⟨fun e he => h1 e (Option.some.inj he), by rw [h2], _, h3, h4.trans hk⟩
  cases d with
  | incept ws => exact inc [] ws
  | inceptExtra extra => exact inc extra []
  | call call =>
    cases call with
    | rotate =>
      obtain ⟨h1, bs, h2, h3⟩ := unborn_refused (env := env) (c := { c with km := c.km.rotate }) (as := as) hd ht hk
        (fun s => Controller.rotationMsg env { c with km := c.km.rotate } s >>= Controller.signEvent env sg { c with km := c.km.rotate })
        (fun s e he => by
          have hm := signEvent_msg he
          unfold Controller.rotationMsg Builder.build Builder.pre Controller.builder at hm
          simp only [if_neg hd, Res.ok_bind, Event.toMessage, Builder.new] at hm
          change Event.saidMessage _ _ _ _ = _ at hm
          rw [show (⟨c.pre, _, _⟩ : Event).saidMessage env .json .blake3_256 = .ok (saidJson env _) from rfl, Res.ok.injEq] at hm
          exact ⟨by show e.msg.event.content.prefix = _; rw [← hm]; rfl, by show e.msg.event.content.data.isInception = _; rw [← hm]; rfl⟩)
      exact ⟨fun e he => h1 e (Option.some.inj he), rfl, _, h2, h3⟩
    | ixn p =>
      obtain ⟨h1, bs, h2, h3⟩ := unborn_refused (env := env) (c := c) (as := as) hd ht hk
        (fun s => c.ixnMsg env p s >>= c.signEvent env sg)
        (fun s e he => by
          have hm := signEvent_msg he
          unfold Controller.ixnMsg Builder.build Builder.pre Controller.builder at hm
          simp only [if_neg hd, Res.ok_bind, Event.toMessage, Builder.new] at hm
          change Event.saidMessage _ _ _ _ = _ at hm
          rw [show (⟨c.pre, _, _⟩ : Event).saidMessage env .json .blake3_256 = .ok (saidJson env _) from rfl, Res.ok.injEq] at hm
          exact ⟨by show e.msg.event.content.prefix = _; rw [← hm]; rfl, by show e.msg.event.content.data.isInception = _; rw [← hm]; rfl⟩)
      exact ⟨fun e he => h1 e (Option.some.inj he), rfl, _, h2, h3⟩
    | interact peer =>
      have hl := after_lookup_kel env as .kels c.pre c.pre
      rw [hk] at hl
      have hrun : ∃ x, c.interact sled env sg peer (after env as) = (.err x, after env (as ++ [.lookup .kels c.pre])) := by
        have h1 := read_run .kels c.pre _ (after_inv env as)
        have h2 := read_after env as .kels c.pre
        unfold Controller.interact Controller.nextSn getKel
        rw [StM.bind_run, StM.bind_run]
        rcases hr : sled.read .kels c.pre (after env as) with ⟨r, d⟩
        rw [hr] at h1 h2
        simp only at h1 h2
        subst h1 h2
        unfold Db.kel at hk
        cases hv : (after env as).vec .kels c.pre.toStr with
        | none => exact ⟨_, rfl⟩
        | some l =>
          rw [hv] at hk
          simp only [Option.getD_some] at hk
          subst hk
          exact ⟨_, rfl⟩
      obtain ⟨x, hx⟩ := hrun
      refine ⟨fun e he => ?_, rfl, _, ?_, hl⟩
      · have := Option.some.inj he
        change (c.interact sled env sg peer (after env as)).1 = _ at this
        rw [hx] at this
        cases this
      · show (c.interact sled env sg peer (after env as)).2 = _
        rw [hx]
    | other a => exact ⟨fun e he => (by cases he), rfl, _, after_other env as a, by rw [other_kel env as a c.pre ht (ho a rfl), hk]⟩

/-- C88, the defect: a controller made by `new_with_fresh_wallet` never does anything. Its identifier is the current key of the wallet labelled as
a secp256k1 key, while `incept` and `incept_with_extra_keys` announce the same key as an Ed25519 key, so the inception does not match the identifier:
whatever extra keys or witnesses are given, whatever was submitted before, and whatever else is called or submitted in between (other than somebody
else's events for this identifier), every call of the controller is refused, and the identifier has no log. -/
theorem C88_fails_fresh_wallet (env : Env) (sg : SignFn) (w : Wallet) (hf : (w.fresh 0).pub ≠ []) (p : IdentifierPrefix)
    (hp : w.inceptKeys.freshPrefix = .ok p) (c : Controller) (hc : c.pre = p) (as : List Action) (hk : (after env as).kel p = [])
    (ds : List Doing) (ho : ∀ a, Doing.call (.other a) ∈ ds → ¬ a.submitsFor p) :
    (∀ before d rest, ds = before ++ d :: rest → ∀ e, (d.run env sg (runDoings env sg (c, after env as) before)).1 ≠ some (.ok e)) ∧
    (runDoings env sg (c, after env as) ds).1.pre = p ∧ (runDoings env sg (c, after env as) ds).2.kel p = [] := by
  have hO : p.OtherKey := by
    have h0 : w.inceptKeys.getKey tagCurrent = some (.keyPair [tagCurrent] (w.fresh 0)) := by
      unfold Wallet.inceptKeys
      rw [Wallet.getKey_set, if_neg (by decide)]
      show (Wallet.setContent _ tagNext _).getKey tagCurrent = _
      rw [Wallet.getKey_set, if_neg (by decide)]
      show (Wallet.setContent _ tagCurrent _).getKey tagCurrent = _
      rw [Wallet.getKey_set, if_pos rfl]
    unfold Wallet.freshPrefix at hp
    rw [h0] at hp
    simp only [Res.ok.injEq] at hp
    subst hp
    refine ⟨_, rfl, (by intro h; cases h), (by intro h; cases h), ?_⟩
    unfold IdentifierPrefix.toStr BasicPrefix.toStr prefixText
    dsimp only
    rw [if_neg (fun h => hf (List.eq_nil_of_length_eq_zero h))]
    intro h
    exact absurd (List.append_eq_nil_iff.1 h).1 (by decide)
  have key : ∀ ds : List Doing, (∀ a, Doing.call (.other a) ∈ ds → ¬ a.submitsFor p) →
      (∀ before d rest, ds = before ++ d :: rest → ∀ e, (d.run env sg (runDoings env sg (c, after env as) before)).1 ≠ some (.ok e)) ∧
      (runDoings env sg (c, after env as) ds).1.pre = p ∧
      ∃ bs, (runDoings env sg (c, after env as) ds).2 = after env bs ∧ (after env bs).kel p = [] := by
    intro ds
    induction ds using snoc_induction with
    | h0 =>
      intro _
      exact ⟨fun before d rest h => (by cases before <;> cases h), hc, as, rfl, hk⟩
    | h1 ds d ih =>
      intro ho
      obtain ⟨i1, i2, bs, i3, i4⟩ := ih (fun a ha => ho a (List.mem_append_left _ ha))
      rcases hr : runDoings env sg (c, after env as) ds with ⟨c', db'⟩
      rw [hr] at i2 i3
      simp only at i2 i3
      subst i2 i3
      obtain ⟨j1, j2, j3⟩ := otherKey_doing (env := env) (sg := sg) hO bs i4 d (fun a h => ho a (by rw [h]; simp))
      have hs : runDoings env sg (c, after env as) (ds ++ [d]) = (d.run env sg (c', after env bs)).2 := by
        unfold runDoings at hr ⊢
        rw [List.foldl_append, hr]; rfl
      refine ⟨?_, by rw [hs]; exact j2, by rw [hs]; exact j3⟩
      intro before d' rest h
      rcases List.eq_nil_or_concat rest with rfl | ⟨r, x, rfl⟩
      · have := List.append_inj' h rfl
        obtain ⟨rfl, h2⟩ := this
        cases h2
        rw [hr]; exact j1
      · have h2 : ds ++ [d] = (before ++ d' :: r) ++ [x] := by rw [h]; simp
        have := List.append_inj' h2 rfl
        exact i1 before d' r this.1
  obtain ⟨h1, h2, bs, h3, h4⟩ := key ds ho
  exact ⟨h1, h2, by rw [h3]; exact h4⟩

open Ex in
/-- the hypotheses are met: a new wallet with the keys of the example; its identifier has the key of `km` with the other label -/
example : let w := Wallet.new km.fresh
    w.Untagged ∧ (w.fresh 0).pub ≠ [] ∧ w.inceptKeys.freshPrefix = .ok (.basic ⟨.ecdsa, (km.fresh 0).pub⟩) ∧
    (after env hist).kel (.basic ⟨.ecdsa, (km.fresh 0).pub⟩) = [] := by
  refine ⟨fun x hx => (by cases hx), ?_, rfl, ?_⟩
  · decide +kernel
  · decide +kernel

open Ex in
/-- the way of finding a content that takes the first -/
example : Pick.Ok (fun cs tag => (cs.find? (fun x => tag ∈ x.2.tags)).map (·.2)) := by
  refine ⟨fun cs tag c h => ?_, fun cs tag ⟨x, h1, h2⟩ h => ?_⟩
  · cases hf : cs.find? (fun x => decide (tag ∈ x.2.tags)) with
    | none => rw [hf] at h; cases h
    | some x =>
      rw [hf] at h
      cases h
      exact ⟨x.1, List.mem_of_find?_eq_some hf, by simpa using List.find?_some hf⟩
  · cases hf : cs.find? (fun x => decide (tag ∈ x.2.tags)) with
    | none => exact absurd h2 (by simpa using List.find?_eq_none.1 hf x h1)
    | some x => rw [hf] at h; cases h

open Ex in
/-- two rotations of the filled wallet against two of the key manager -/
example : let w := Wallet.new km.fresh
    let pick : Pick := fun cs tag => (cs.find? (fun x => tag ∈ x.2.tags)).map (·.2)
    (w.inceptKeys.rotations pick 2).publicKey = .ok (km.fresh 3).pub ∧ (w.inceptKeys.rotations pick 2).nextPublicKey = .ok (km.fresh 4).pub := by
  decide +kernel

end Keriox
