import Verif.Poison
import Verif.Props.Node
/-!
# C109: the lock of the key manager
-/
namespace Keriox

/-! ## Specification -/

/-- a node with the lock of its key manager: `Controller × poisoned × database` -/
abbrev Locked := Controller × Bool × Db

/-- the node afterwards, whatever the call returned (or after a panic); the calls of `NodeCall`, with the lock -/
def NodeCall.runG (w : Around) (x : Locked) : NodeCall → Locked
  | .incept ws => (x.1.inceptWithG w.env w.sg [] ws x.2).2
  | .inceptExtra ks => (x.1.inceptWithG w.env w.sg ks [] x.2).2
  | .rotate => (x.1.rotateG w.env w.sg x.2).2
  | .makeIxn p => (x.1, (x.1.makeIxnG w.env w.sg p x.2).2)
  | .makeRct m => (x.1, (x.1.makeRctG w.env w.sg m x.2).2)
  | .makeNtr m => (x.1, (x.1.makeNtrG w.env w.sg m x.2).2)
  | .respond b => (x.1, (x.1.respondG w.rd.toBinary w.env w.sg b x.2).2)
  | .respondQ b => (x.1, (x.1.respondQG w.rd w.env w.sg b x.2).2)
  | .respondSingle b => (x.1, (onStore (Keriox.respondSingle w.rd.toBinary sled w.env b) x.2).2)
  | .stream b => (x.1, (x.1.streamG w.rd.toBinary w.env w.sg b x.2).2)
  | .pass a => (x.1, (x.2.1, a.run sled w.env x.2.2))

/-- the node after a sequence of calls -/
def Around.afterG (w : Around) (x : Locked) (cs : List NodeCall) : Locked := cs.foldl (fun x c => c.runG w x) x

/-- the call is an inception and panics -/
def NodeCall.inceptionPanics (w : Around) (x : Controller × Db) : NodeCall → Prop
  | .incept ws => (x.1.incept w.env w.sg ws x.2).1 = .panic
  | .inceptExtra ks => (x.1.inceptExtra w.env w.sg ks x.2).1 = .panic
  | _ => False

/-- the call brings something from outside -/
def NodeCall.brings : NodeCall → Bool
  | .respond _ | .respondQ _ | .respondSingle _ | .stream _ | .pass _ => true
  | _ => false

/-! ## Proof -/

theorem onStore_run {σ α : Type} (x : StM σ α) (s : Bool × σ) : onStore x s = ((x s.2).1, (s.1, (x s.2).2)) := rfl

theorem locked_poisoned {σ α : Type} (x : StM (Bool × σ) α) (db : σ) : locked x (true, db) = (.err .mutexPoisoned, (true, db)) := rfl

/-- with a lock that is not poisoned the computation does what its counterpart without locks does, and poisons the lock only if it panics -/
def Agrees {α : Type} (x : StM (Bool × Db) α) (y : StM Db α) : Prop :=
  ∀ db, (x (false, db)).1 = (y db).1 ∧ (x (false, db)).2.2 = (y db).2 ∧ ((x (false, db)).2.1 = true → (y db).1 = .panic)

namespace Agrees
variable {α β : Type}
theorem onStore (y : StM Db α) : Agrees (Keriox.onStore y) y := fun _ => ⟨rfl, rfl, fun h => by cases h⟩
theorem lift (r : Res α) : Agrees (StM.lift r) (StM.lift r) := fun _ => ⟨rfl, rfl, fun h => by cases h⟩
theorem pure (a : α) : Agrees (Pure.pure a) (Pure.pure a) := lift (.ok a)
theorem fail (e : Error) : Agrees (StM.fail e : StM (Bool × Db) α) (StM.fail e) := lift (.err e)
theorem bind {x : StM (Bool × Db) α} {y : StM Db α} {f : α → StM (Bool × Db) β} {g : α → StM Db β} (h : Agrees x y) (hf : ∀ a, Agrees (f a) (g a)) :
    Agrees (x >>= f) (y >>= g) := by
  intro db
  obtain ⟨h1, h2, h3⟩ := h db
  rw [StM.bind_run, StM.bind_run]
  rcases hx : x (false, db) with ⟨r, p, d⟩
  rcases hy : y db with ⟨r', d'⟩
  rw [hx, hy] at h1 h2 h3
  dsimp only at h1 h2 h3
  subst h1; subst h2
  cases r with
  | ok a =>
    cases p with
    | false => exact hf a d
    | true => cases h3 rfl
  | err e => exact ⟨rfl, rfl, fun h => by cases h3 h⟩
  | panic => exact ⟨rfl, rfl, fun _ => rfl⟩
theorem result {x : StM (Bool × Db) α} {y : StM Db α} (h : Agrees x y) : Agrees x.result y.result := by
  intro db
  obtain ⟨h1, h2, h3⟩ := h db
  unfold StM.result
  rcases hx : x (false, db) with ⟨r, p, d⟩
  rcases hy : y db with ⟨r', d'⟩
  rw [hx, hy] at h1 h2 h3
  dsimp only at h1 h2 h3
  subst h1; subst h2
  cases r with
  | ok a => exact ⟨rfl, rfl, fun h => by cases h3 h⟩
  | err e => exact ⟨rfl, rfl, fun h => by cases h3 h⟩
  | panic => exact ⟨rfl, rfl, fun _ => rfl⟩
theorem locked {x : StM (Bool × Db) α} {y : StM Db α} (h : Agrees x y) : Agrees (Keriox.locked x) y := by
  intro db
  obtain ⟨h1, h2, h3⟩ := h db
  unfold Keriox.locked
  rw [if_neg (by simp)]
  rcases hx : x (false, db) with ⟨r, p, d⟩
  rw [hx] at h1 h2 h3
  dsimp only at h1 h2 h3
  cases r with
  | ok a => exact ⟨h1, h2, fun h => h3 h⟩
  | err e => exact ⟨h1, h2, fun h => h3 h⟩
  | panic => exact ⟨h1, h2, fun _ => h1.symm⟩
/-- regrouping `lift` -/
theorem lift2 {r : Res α} {f : α → Res β} {x : StM (Bool × Db) β} (h : Agrees x (StM.lift r >>= fun a => StM.lift (f a))) : Agrees x (StM.lift (r >>= f)) := by
  intro db
  have := h db
  rw [StM.bind_run] at this
  cases r <;> exact this
theorem submitRotation (env : Env) (sg : SignFn) (c : Controller) : Agrees (c.submitRotationG env sg) (c.submitRotation sled env sg) := by
  refine .bind (.onStore _) fun s => ?_
  unfold submitOwn
  intro db
  have h : Agrees (do
      let m ← Keriox.locked (StM.lift (c.rotationMsg env s))
      let e ← Keriox.locked (StM.lift (c.signEvent env sg m))
      let _ ← Keriox.onStore (process sled env (.event e))
      Pure.pure e) (do
      let m ← StM.lift (c.rotationMsg env s)
      let e ← StM.lift (c.signEvent env sg m)
      let _ ← process sled env (.event e)
      Pure.pure e) :=
    .bind (.locked (.lift _)) fun m => .bind (.locked (.lift _)) fun e => .bind (.onStore _) fun _ => .pure _
  have := h db
  rw [StM.bind_run (x := StM.lift (c.rotationMsg env s))] at this
  cases hm : c.rotationMsg env s with
  | ok m => rw [hm] at this; exact this
  | err e => rw [hm] at this; exact this
  | panic => rw [hm] at this; exact this
theorem makeIxn (env : Env) (sg : SignFn) (c : Controller) (p : Option Bytes) : Agrees (c.makeIxnG env sg p) (c.makeIxn sled env sg p) := by
  refine .bind (.onStore _) fun s => ?_
  unfold submitOwn
  intro db
  have h : Agrees (do
      let m ← StM.lift (c.ixnMsg env p s)
      let e ← Keriox.locked (StM.lift (c.signEvent env sg m))
      let _ ← Keriox.onStore (process sled env (.event e))
      Pure.pure e) (do
      let m ← StM.lift (c.ixnMsg env p s)
      let e ← StM.lift (c.signEvent env sg m)
      let _ ← process sled env (.event e)
      Pure.pure e) :=
    .bind (.lift _) fun m => .bind (.locked (.lift _)) fun e => .bind (.onStore _) fun _ => .pure _
  have := h db
  rw [StM.bind_run (x := StM.lift (c.ixnMsg env p s)) (σ := Db)] at this
  cases hm : c.ixnMsg env p s with
  | ok m => rw [hm] at this; exact this
  | err e => rw [hm] at this; exact this
  | panic => rw [hm] at this; exact this
theorem makeRct (env : Env) (sg : SignFn) (c : Controller) (m : EventMessage) : Agrees (c.makeRctG env sg m) (c.makeRct sled env sg m) := by
  refine .bind (.lift _) fun _ => .bind (.locked (.lift _)) fun _ => .bind (.onStore _) fun o => ?_
  cases o with
  | none => exact .fail _
  | some sl => exact .bind (.lift _) fun r => .bind (.onStore _) fun _ => .pure _
theorem generateNtr (env : Env) (sg : SignFn) (c : Controller) (m : EventMessage) : Agrees (c.generateNtrG env sg m) (c.generateNtr sled env sg m) := by
  have h : Agrees (c.generateNtrG env sg m) (do
      let sig ← StM.lift (m.serialize env >>= c.km.sign sg)
      let ser ← StM.lift (m.serialize env)
      let body ← StM.lift (ReceiptMsg.toMessage env (env.derive .blake3_256 ser) m.event.content.prefix m.event.content.sn .json)
      let r : NtReceipt := ⟨body, [(c.km.key, ⟨.ed25519Sha512, sig⟩)]⟩
      addReceiptNt sled r m.event.content.prefix
      Pure.pure r) :=
    .bind (.locked (.lift _)) fun _ => .bind (.lift _) fun _ => .bind (.lift _) fun _ => .bind (.onStore _) fun _ => .pure _
  intro db
  have := h db
  unfold Controller.generateNtr Controller.ntrFor
  cases hs : m.serialize env with
  | err e => rw [hs] at this; exact this
  | panic => rw [hs] at this; exact this
  | ok ser =>
    rw [hs] at this
    cases hk : c.km.sign sg ser with
    | err e => simp only [Res.ok_bind, hk] at this ⊢; exact this
    | panic => simp only [Res.ok_bind, hk] at this ⊢; exact this
    | ok sig =>
      rw [Res.ok_bind, hk, StM.bind_run] at this
      simp only [Res.ok_bind, hk, StM.lift, StM.bind_run] at this ⊢
      cases hb : ReceiptMsg.toMessage env (env.derive .blake3_256 ser) m.event.content.prefix m.event.content.sn .json with
      | err e => rw [hb] at this; exact this
      | panic => rw [hb] at this; exact this
      | ok body => rw [hb] at this; exact this
theorem makeNtr (env : Env) (sg : SignFn) (c : Controller) (m : EventMessage) : Agrees (c.makeNtrG env sg m) (c.makeNtr sled env sg m) := by
  unfold Controller.makeNtrG Controller.makeNtr
  cases hp : c.pre with
  | basic bp =>
    dsimp only
    cases hd : m.event.content.data with
    | icp e =>
      dsimp only
      by_cases h : bp ∈ e.initialWitnesses
      · rw [if_pos h, if_pos h]; exact .generateNtr env sg c m
      · rw [if_neg h, if_neg h]; exact .fail _
    | rot e =>
      dsimp only
      by_cases h : bp ∈ e.prune
      · rw [if_pos h, if_pos h]; exact .bind (.onStore _) fun _ => .fail _
      · rw [if_neg h, if_neg h]
        by_cases h : bp ∈ e.graft
        · rw [if_pos h, if_pos h]; exact .generateNtr env sg c m
        · rw [if_neg h, if_neg h]; exact .fail _
    | ixn e => exact .fail _
    | dip e => exact .fail _
    | drt e => exact .fail _
  | selfAddressing _ => exact .fail _
  | selfSigning _ => exact .fail _
theorem answer (env : Env) (sg : SignFn) (c : Controller) (m : Message) : Agrees (c.answerG env sg m) (c.answer sled env sg m) := by
  cases m with
  | event e => exact .bind (.onStore _) fun _ => .bind (.makeRct env sg c _) fun _ => .bind (.lift _) fun _ => .pure _
  | rctT r => exact .pure _
  | rctNt r => exact .lift _
  | reply r => exact .lift _
  | query q => exact .lift _
theorem answers (env : Env) (sg : SignFn) (c : Controller) (ms : List Message) : Agrees (c.answersG env sg ms) (c.answers sled env sg ms) := by
  induction ms with
  | nil => exact .pure _
  | cons m ms ih =>
    refine .bind (Agrees.answer env sg c m).result fun r => .bind ih fun b => ?_
    cases r <;> exact .pure _
theorem respond (bin : Binary) (env : Env) (sg : SignFn) (c : Controller) (b : Bytes) : Agrees (c.respondG bin env sg b) (c.respond bin sled env sg b) :=
  .bind (.lift _) fun _ => .bind (.onStore _) fun _ => .answers _ _ _ _
theorem respondQ (rd : Readers) (env : Env) (sg : SignFn) (c : Controller) (b : Bytes) : Agrees (c.respondQG rd env sg b) (c.respondQ rd sled env sg b) :=
  .bind (.lift _) fun _ => .bind (.onStore _) fun _ => .answers _ _ _ _
theorem stream (bin : Binary) (env : Env) (sg : SignFn) (c : Controller) (v : Bytes → Res (Option SerInfo)) (f : UInt8) (b : Bytes) :
    Agrees (c.streamG bin env sg b) (Async.answer ⟨sled, env, sg, c, bin, v, f⟩ b) := by
  refine .bind (.onStore _) fun r => ?_
  dsimp only
  cases hp : altP (jsonMessage desKeyEvent) bin.event b with
  | ok rest e =>
    refine .bind (.result (.makeNtr _ _ _ _)) fun o => ?_
    cases o
    · exact .pure _
    · exact .bind (.lift _) fun _ => .pure _
  | error => exact .lift _
  | failure => exact .lift _
  | incomplete => exact .lift _
  | panic => exact .lift _
end Agrees

theorem inceptWithG_false (env : Env) (sg : SignFn) (c : Controller) (extra ws : List BasicPrefix) (db : Db) :
    (c.inceptWithG env sg extra ws (false, db)).1 = (c.inceptWith env sg extra ws db).1 ∧
    (c.inceptWithG env sg extra ws (false, db)).2.1 = (c.inceptWith env sg extra ws db).2.1 ∧
    (c.inceptWithG env sg extra ws (false, db)).2.2.2 = (c.inceptWith env sg extra ws db).2.2 ∧
    ((c.inceptWithG env sg extra ws (false, db)).2.2.1 = true ↔ (c.inceptWith env sg extra ws db).1 = .panic) := by
  have h := Agrees.locked (Agrees.onStore (submitOwn sled env (c.makeInception env extra ws >>= c.signEvent env sg))) db
  refine ⟨h.1, ?_, h.2.1, h.2.2, fun hp => ?_⟩
  · show c.adopt _ = c.adopt _
    rw [h.1]
  · have hp : (submitOwn sled env (c.makeInception env extra ws >>= c.signEvent env sg) db).1 = .panic := hp
    unfold Controller.inceptWithG locked onStore
    simp only [Bool.false_eq_true, if_false, hp]

theorem rotateG_false (env : Env) (sg : SignFn) (c : Controller) (db : Db) :
    (c.rotateG env sg (false, db)).1 = (c.rotate env sg db).1 ∧
    (c.rotateG env sg (false, db)).2.1 = (c.rotate env sg db).2.1 ∧
    (c.rotateG env sg (false, db)).2.2.2 = (c.rotate env sg db).2.2 := by
  have h := Agrees.submitRotation env sg { c with km := c.km.rotate } db
  exact ⟨h.1, rfl, h.2.1⟩

/-- the computation does not poison the lock -/
def Clean {α : Type} (x : StM (Bool × Db) α) : Prop := ∀ db, (x (false, db)).2.1 = false

namespace Clean
variable {α β : Type}
theorem onStore (y : StM Db α) : Clean (Keriox.onStore y) := fun _ => rfl
theorem lift (r : Res α) : Clean (StM.lift r) := fun _ => rfl
theorem pure (a : α) : Clean (Pure.pure a) := fun _ => rfl
theorem fail (e : Error) : Clean (StM.fail e : StM (Bool × Db) α) := fun _ => rfl
theorem bind {x : StM (Bool × Db) α} {f : α → StM (Bool × Db) β} (h : Clean x) (hf : ∀ a, Clean (f a)) : Clean (x >>= f) := by
  intro db
  have h1 := h db
  rw [StM.bind_run]
  rcases hx : x (false, db) with ⟨r, p, d⟩
  rw [hx] at h1
  dsimp only at h1
  subst h1
  cases r with
  | ok a => exact hf a d
  | err e => rfl
  | panic => rfl
theorem result {x : StM (Bool × Db) α} (h : Clean x) : Clean x.result := by
  intro db
  have h1 := h db
  unfold StM.result
  rcases hx : x (false, db) with ⟨r, p, d⟩
  rw [hx] at h1
  cases r <;> exact h1
theorem locked {r : Res α} (h : r ≠ .panic) : Clean (Keriox.locked (StM.lift r)) := by
  intro db
  cases r with
  | ok a => rfl
  | err e => rfl
  | panic => exact absurd rfl h
theorem encode (env : Env) (f : Fmt) (v : SVal) : f.encode env v ≠ .panic := by
  cases f with
  | json => intro h; cases h
  | cbor => unfold Fmt.encode Res.ofOption; cases env.cbor v <;> intro h <;> cases h
  | mgpk => unfold Fmt.encode Res.ofOption; cases env.mgpk v <;> intro h <;> cases h
theorem bindRes {r : Res α} {f : α → Res β} (h : r ≠ .panic) (hf : ∀ a, f a ≠ .panic) : (r >>= f) ≠ .panic := by
  cases r with
  | ok a => exact hf a
  | err e => intro h; cases h
  | panic => exact absurd rfl h
theorem rotationMsg (env : Env) (c : Controller) (s : IdState) : c.rotationMsg env s ≠ .panic := by
  by_cases hp : c.pre = IdentifierPrefix.default
  · unfold Controller.rotationMsg Builder.build Builder.pre Controller.builder
    simp only [hp, if_true]
    intro h
    cases h
  · rw [rotationMsg_eq env c hp]
    intro h
    cases h
variable {sg : SignFn} (hs : ∀ k m, sg k m ≠ .panic)
include hs
theorem signEvent (env : Env) (c : Controller) (m : EventMessage) : c.signEvent env sg m ≠ .panic :=
  bindRes (encode _ _ _) fun _ => bindRes (hs _ _) fun _ => by intro h; cases h
theorem submitRotation (env : Env) (c : Controller) : Clean (c.submitRotationG env sg) :=
  .bind (.onStore _) fun s => .bind (.locked (rotationMsg env c s)) fun m => .bind (.locked (signEvent hs env c m)) fun e =>
    .bind (.onStore _) fun _ => .pure _
theorem makeIxn (env : Env) (c : Controller) (p : Option Bytes) : Clean (c.makeIxnG env sg p) :=
  .bind (.onStore _) fun s => .bind (.lift _) fun m => .bind (.locked (signEvent hs env c m)) fun e => .bind (.onStore _) fun _ => .pure _
theorem interact (env : Env) (c : Controller) (p : IdentifierPrefix) : Clean (c.interactG env sg p) := by
  refine .bind (.onStore _) fun n => ?_
  cases p with
  | selfAddressing d =>
    exact .bind (.lift _) fun m => .bind (.lift _) fun b => .bind (.locked (hs _ _)) fun s => .bind (.onStore _) fun _ => .pure _
  | basic _ => exact .fail _
  | selfSigning _ => exact .fail _
theorem makeRct (env : Env) (c : Controller) (m : EventMessage) : Clean (c.makeRctG env sg m) := by
  refine .bind (.lift _) fun _ => .bind (.locked (hs _ _)) fun _ => .bind (.onStore _) fun o => ?_
  cases o with
  | none => exact .fail _
  | some sl => exact .bind (.lift _) fun r => .bind (.onStore _) fun _ => .pure _
theorem generateNtr (env : Env) (c : Controller) (m : EventMessage) : Clean (c.generateNtrG env sg m) :=
  .bind (.locked (bindRes (encode _ _ _) fun _ => hs _ _)) fun _ => .bind (.lift _) fun _ => .bind (.lift _) fun _ => .bind (.onStore _) fun _ => .pure _
theorem makeNtr (env : Env) (c : Controller) (m : EventMessage) : Clean (c.makeNtrG env sg m) := by
  have hg := generateNtr hs env c m
  unfold Controller.makeNtrG
  split
  · split
    · split
      · exact hg
      · exact .fail _
    · split
      · exact .bind (.onStore _) fun _ => .fail _
      · split
        · exact hg
        · exact .fail _
    · exact .fail _
  · exact .fail _
theorem answer (env : Env) (c : Controller) (m : Message) : Clean (c.answerG env sg m) := by
  cases m with
  | event e => exact .bind (.onStore _) fun _ => .bind (makeRct hs env c _) fun _ => .bind (.lift _) fun _ => .pure _
  | rctT r => exact .pure _
  | rctNt r => exact .lift _
  | reply r => exact .lift _
  | query q => exact .lift _
theorem answers (env : Env) (c : Controller) (ms : List Message) : Clean (c.answersG env sg ms) := by
  induction ms with
  | nil => exact .pure _
  | cons m ms ih =>
    refine .bind (answer hs env c m).result fun r => .bind ih fun b => ?_
    cases r <;> exact .pure _
theorem respond (bin : Binary) (env : Env) (c : Controller) (b : Bytes) : Clean (c.respondG bin env sg b) :=
  .bind (.lift _) fun _ => .bind (.onStore _) fun _ => answers hs _ _ _
theorem respondQ (rd : Readers) (env : Env) (c : Controller) (b : Bytes) : Clean (c.respondQG rd env sg b) :=
  .bind (.lift _) fun _ => .bind (.onStore _) fun _ => answers hs _ _ _
theorem stream (bin : Binary) (env : Env) (c : Controller) (b : Bytes) : Clean (c.streamG bin env sg b) := by
  refine .bind (.onStore _) fun r => ?_
  cases hp : altP (jsonMessage desKeyEvent) bin.event b with
  | ok rest e =>
    refine .bind (.result (makeNtr hs _ _ _)) fun o => ?_
    cases o
    · exact .pure _
    · exact .bind (.lift _) fun _ => .pure _
  | error => exact .lift _
  | failure => exact .lift _
  | incomplete => exact .lift _
  | panic => exact .lift _
end Clean

/-- from a poisoned lock: it stays poisoned; the logs left are those of a history; the events submitted meanwhile satisfy `Q`; and what is returned satisfies
`R` -/
def Mute {α : Type} (env : Env) (Q : SignedEvent → Prop) (R : α → Prop) (x : StM (Bool × Db) α) : Prop :=
  ∀ db, (x (true, db)).2.1 = true ∧ (∀ a, (x (true, db)).1 = .ok a → R a) ∧
    ∀ as, Tracks env db as → ∃ bs, Tracks env (x (true, db)).2.2 (as ++ bs) ∧ ∀ e, Action.submit (.event e) ∈ bs → Q e

namespace Mute
variable {α β : Type} {env : Env} {Q : SignedEvent → Prop} {R : α → Prop} {S : β → Prop}
theorem onStore {y : StM Db α} (h : Keeps env Q y) : Mute env Q (fun _ => True) (Keriox.onStore y) :=
  fun db => ⟨rfl, fun _ _ => trivial, fun as ht => h db as ht⟩
theorem lift {r : Res α} (h : ∀ a, r = .ok a → R a) : Mute env Q R (StM.lift r) := fun _ => ⟨rfl, h, fun _ ht => Keeps.still ht⟩
theorem any (r : Res α) : Mute env Q (fun _ => True) (StM.lift r) := lift fun _ _ => trivial
theorem pure {a : α} (h : R a) : Mute env Q R (Pure.pure a) := lift (r := .ok a) fun b hb => by cases hb; exact h
theorem fail (e : Error) : Mute env Q R (StM.fail e) := lift (r := .err e) fun b hb => by cases hb
theorem locked (x : StM (Bool × Db) α) : Mute env Q R (Keriox.locked x) := by
  intro db
  rw [locked_poisoned]
  exact ⟨rfl, (fun _ h => by cases h), fun _ ht => Keeps.still ht⟩
theorem bind {x : StM (Bool × Db) α} {f : α → StM (Bool × Db) β} (h : Mute env Q R x) (hf : ∀ a, R a → Mute env Q S (f a)) : Mute env Q S (x >>= f) := by
  intro db
  obtain ⟨h1, h2, h3⟩ := h db
  rw [StM.bind_run]
  rcases hx : x (true, db) with ⟨r, p, d⟩
  rw [hx] at h1 h2 h3
  dsimp only at h1 h2 h3
  subst h1
  cases r with
  | ok a =>
    obtain ⟨g1, g2, g3⟩ := hf a (h2 a rfl) d
    refine ⟨g1, g2, fun as ht => ?_⟩
    obtain ⟨bs, k1, k2⟩ := h3 as ht
    obtain ⟨cs, k3, k4⟩ := g3 _ k1
    refine ⟨bs ++ cs, by rw [← List.append_assoc]; exact k3, fun e he => ?_⟩
    rcases List.mem_append.1 he with he | he
    · exact k2 e he
    · exact k4 e he
  | err e => exact ⟨rfl, (fun a h => by cases h), h3⟩
  | panic => exact ⟨rfl, (fun a h => by cases h), h3⟩
/-- the value of a part that cannot return -/
theorem bindLocked {x : StM (Bool × Db) α} {f : α → StM (Bool × Db) β} : Mute env Q S (Keriox.locked x >>= f) :=
  .bind (R := fun _ => False) (.locked x) fun _ h => h.elim
theorem weaken {x : StM (Bool × Db) α} (h : Mute env Q R x) : Mute env Q (fun _ => True) x := fun db => ⟨(h db).1, fun _ _ => trivial, (h db).2.2⟩
theorem result {x : StM (Bool × Db) α} (h : Mute env Q R x) : Mute env Q (fun o => ∀ a, o = .ok a → R a) x.result := by
  intro db
  obtain ⟨h1, h2, h3⟩ := h db
  unfold StM.result
  rcases hx : x (true, db) with ⟨r, p, d⟩
  rw [hx] at h1 h2 h3
  dsimp only at h1 h2 h3
  cases r with
  | ok a => exact ⟨h1, (fun o ho a' ha => by cases ho; cases ha; exact h2 a rfl), h3⟩
  | err e => exact ⟨h1, (fun o ho a' ha => by cases ho; cases ha), h3⟩
  | panic => exact ⟨h1, (fun o ho => by cases ho), h3⟩
variable (sg : SignFn) (c : Controller)
theorem makeIxn (p : Option Bytes) : Mute env Q (fun _ => False) (c.makeIxnG env sg p) :=
  .bind (.onStore (.ownState c)) fun s _ => .bind (.any _) fun m _ => .bindLocked
theorem interact (p : IdentifierPrefix) : Mute env Q (fun _ => False) (c.interactG env sg p) := by
  have hn : Keeps env Q (c.nextSn sled) := by
    refine .bind (.read _ _) fun o => ?_
    cases o with
    | none => exact .fail _
    | some l =>
      dsimp only
      cases l.getLast? with
      | none => exact .fail _
      | some e => exact .pure _
  refine .bind (.onStore hn) fun n _ => ?_
  cases p with
  | selfAddressing d => exact .bind (.any _) fun m _ => .bind (.any _) fun b _ => .bindLocked
  | basic _ => exact .fail _
  | selfSigning _ => exact .fail _
theorem makeRct (m : EventMessage) : Mute env Q (fun _ => False) (c.makeRctG env sg m) := .bind (.any _) fun _ _ => .bindLocked
theorem makeNtr (m : EventMessage) : Mute env Q (fun _ => False) (c.makeNtrG env sg m) := by
  have hg : Mute env Q (fun _ => False) (c.generateNtrG env sg m) := .bindLocked
  unfold Controller.makeNtrG
  split
  · split
    · split
      · exact hg
      · exact .fail _
    · split
      · refine .bind (.onStore ?_) fun _ _ => .fail _
        refine .bind (.read _ _) fun o => ?_
        cases o with
        | none => exact .pure _
        | some l => exact .removeNts _ _
      · split
        · exact hg
        · exact .fail _
    · exact .fail _
  · exact .fail _
theorem answer (m : Message) : Mute env Q (fun b => b = []) (c.answerG env sg m) := by
  cases m with
  | event e =>
    refine .bind (.onStore ?_) fun _ _ => .bind (.makeRct sg c _) fun _ h => h.elim
    unfold Controller.ownKerl
    split
    · refine .bind ?_ fun b => ?_
      · refine .bind (.read _ _) fun o => ?_
        cases o <;> exact .pure _
      · cases b
        · refine .bind (.kerl _) fun o => ?_
          cases o
          · exact .fail _
          · exact .pure _
        · exact .pure _
    · exact .pure _
  | rctT r => exact .pure rfl
  | rctNt r => exact .lift fun _ h => by cases h
  | reply r => exact .lift fun _ h => by cases h
  | query q => exact .lift fun _ h => by cases h
theorem answers (ms : List Message) : Mute env Q (fun b => b = []) (c.answersG env sg ms) := by
  induction ms with
  | nil => exact .pure rfl
  | cons m ms ih =>
    refine .bind (Mute.answer sg c m).result fun r hr => .bind ih fun b hb => ?_
    cases r with
    | ok a => exact .pure (by rw [hr a rfl, hb]; rfl)
    | error e => exact .pure hb
end Mute


/-- one call with the lock poisoned -/
theorem NodeCall.keepsG (w : Around) (c : NodeCall) (ctl : Controller) (db : Db) :
    (c.runG w (ctl, true, db)).1 = ctl ∧ (c.runG w (ctl, true, db)).2.1 = true ∧
    ∀ as, Tracks w.env db as → ∃ bs, Tracks w.env (c.runG w (ctl, true, db)).2.2 (as ++ bs) ∧ ∀ e, Action.submit (.event e) ∈ bs → c.Received w (.event e) := by
  cases c with
  | incept ws => exact ⟨rfl, rfl, fun _ h => Keeps.still h⟩
  | inceptExtra ks => exact ⟨rfl, rfl, fun _ h => Keeps.still h⟩
  | rotate => exact ⟨rfl, rfl, fun _ h => Keeps.still h⟩
  | makeIxn p => obtain ⟨h1, _, h2⟩ := Mute.makeIxn w.sg ctl p db; exact ⟨rfl, h1, h2⟩
  | makeRct m => obtain ⟨h1, _, h2⟩ := Mute.makeRct w.sg ctl m db; exact ⟨rfl, h1, h2⟩
  | makeNtr m => obtain ⟨h1, _, h2⟩ := Mute.makeNtr w.sg ctl m db; exact ⟨rfl, h1, h2⟩
  | respond b =>
    have hm : Mute w.env (fun e => (NodeCall.respond b).Received w (.event e)) (fun b => b = []) (ctl.respondG w.rd.toBinary w.env w.sg b) := by
      refine .bind (R := fun ds => parsed (signedEventStreamP w.rd.toBinary b) = .ok ds) (.lift fun _ h => h) fun ds hd => ?_
      obtain ⟨rest, hp⟩ := parsed_ok hd
      exact .bind (.onStore (.respondAll fun d hd e he => ⟨rest, ds, d, hp, hd, he⟩)) fun ms _ => .answers _ _ ms
    obtain ⟨h1, _, h2⟩ := hm db
    exact ⟨rfl, h1, h2⟩
  | respondQ b =>
    have hm : Mute w.env (fun e => (NodeCall.respondQ b).Received w (.event e)) (fun b => b = []) (ctl.respondQG w.rd w.env w.sg b) := by
      refine .bind (R := fun ds => parsed (signedStreamQ w.rd b) = .ok ds) (.lift fun _ h => h) fun ds hd => ?_
      obtain ⟨rest, hp⟩ := parsed_ok hd
      exact .bind (.onStore (.respondAllQ fun d hd e he => ⟨rest, ds, d, hp, hd, he⟩)) fun ms _ => .answers _ _ ms
    obtain ⟨h1, _, h2⟩ := hm db
    exact ⟨rfl, h1, h2⟩
  | respondSingle b =>
    exact ⟨rfl, rfl, Keeps.respondSingle (Q := fun e => (NodeCall.respondSingle b).Received w (.event e)) (fun rest d e hp hd => ⟨rest, d, hp, hd⟩) db⟩
  | stream b =>
    have hm : Mute w.env (fun e => (NodeCall.stream b).Received w (.event e)) (fun _ => True) (ctl.streamG w.rd.toBinary w.env w.sg b) := by
      refine .bind (.onStore (.respondSingle fun rest d e hp hd => ⟨rest, d, hp, hd⟩)) fun r _ => ?_
      cases hp : altP (jsonMessage desKeyEvent) w.rd.toBinary.event b with
      | ok rest e =>
        refine .bind (.result (.makeNtr _ _ _)) fun o _ => ?_
        cases o
        · exact .pure trivial
        · exact .bind (.any _) fun _ _ => .pure trivial
      | error => exact .any _
      | failure => exact .any _
      | incomplete => exact .any _
      | panic => exact .any _
    obtain ⟨h1, _, h2⟩ := hm db
    exact ⟨rfl, h1, h2⟩
  | pass a => exact ⟨rfl, rfl, fun as h => ⟨[a], h.action a, fun e he => (List.mem_singleton.1 he).symm⟩⟩

/-! ## C109 -/

/-- C109: as long as the lock is not poisoned, locking makes no difference: a call leaves the controller and the database that it would leave without. -/
theorem C109_agree (w : Around) (c : NodeCall) (x : Controller × Db) :
    (c.runG w (x.1, false, x.2)).1 = (c.run w x).1 ∧ (c.runG w (x.1, false, x.2)).2.2 = (c.run w x).2 := by
  obtain ⟨ctl, db⟩ := x
  cases c with
  | incept ws => exact ⟨(inceptWithG_false w.env w.sg ctl [] ws db).2.1, (inceptWithG_false w.env w.sg ctl [] ws db).2.2.1⟩
  | inceptExtra ks => exact ⟨(inceptWithG_false w.env w.sg ctl ks [] db).2.1, (inceptWithG_false w.env w.sg ctl ks [] db).2.2.1⟩
  | rotate => exact ⟨(rotateG_false w.env w.sg ctl db).2.1, (rotateG_false w.env w.sg ctl db).2.2⟩
  | makeIxn p => exact ⟨rfl, (Agrees.makeIxn w.env w.sg ctl p db).2.1⟩
  | makeRct m => exact ⟨rfl, (Agrees.makeRct w.env w.sg ctl m db).2.1⟩
  | makeNtr m => exact ⟨rfl, (Agrees.makeNtr w.env w.sg ctl m db).2.1⟩
  | respond b => exact ⟨rfl, (Agrees.respond w.rd.toBinary w.env w.sg ctl b db).2.1⟩
  | respondQ b => exact ⟨rfl, (Agrees.respondQ w.rd w.env w.sg ctl b db).2.1⟩
  | respondSingle b => exact ⟨rfl, rfl⟩
  | stream b => exact ⟨rfl, (Agrees.stream w.rd.toBinary w.env w.sg ctl w.binVer w.firstByte b db).2.1⟩
  | pass a => exact ⟨rfl, rfl⟩

/-- C109: … and gives the answer that it would give without. -/
theorem C109_same_answers (w : Around) (c : Controller) (db : Db) :
    (∀ extra ws, (c.inceptWithG w.env w.sg extra ws (false, db)).1 = (c.inceptWith w.env w.sg extra ws db).1) ∧
    (c.rotateG w.env w.sg (false, db)).1 = (c.rotate w.env w.sg db).1 ∧
    (∀ p, (c.makeIxnG w.env w.sg p (false, db)).1 = (c.makeIxn sled w.env w.sg p db).1) ∧
    (∀ m, (c.makeRctG w.env w.sg m (false, db)).1 = (c.makeRct sled w.env w.sg m db).1) ∧
    (∀ m, (c.makeNtrG w.env w.sg m (false, db)).1 = (c.makeNtr sled w.env w.sg m db).1) ∧
    (∀ b, (c.respondG w.rd.toBinary w.env w.sg b (false, db)).1 = (c.respond w.rd.toBinary sled w.env w.sg b db).1) ∧
    (∀ b, (c.respondQG w.rd w.env w.sg b (false, db)).1 = (c.respondQ w.rd sled w.env w.sg b db).1) ∧
    (∀ b, (c.streamG w.rd.toBinary w.env w.sg b (false, db)).1 =
      (Async.answer ⟨sled, w.env, w.sg, c, w.rd.toBinary, w.binVer, w.firstByte⟩ b db).1) :=
  ⟨fun extra ws => (inceptWithG_false w.env w.sg c extra ws db).1, (rotateG_false w.env w.sg c db).1, fun p => (Agrees.makeIxn w.env w.sg c p db).1,
    fun m => (Agrees.makeRct w.env w.sg c m db).1, fun m => (Agrees.makeNtr w.env w.sg c m db).1, fun b => (Agrees.respond w.rd.toBinary w.env w.sg c b db).1,
    fun b => (Agrees.respondQ w.rd w.env w.sg c b db).1, fun b => (Agrees.stream w.rd.toBinary w.env w.sg c w.binVer w.firstByte b db).1⟩

/-- C109: if signing itself does not panic, an inception that panics, and nothing else, poisons the lock: in particular nothing that a stranger sends does,
even if the method that reads it panics. -/
theorem C109_when (w : Around) (hs : ∀ k m, w.sg k m ≠ .panic) (c : NodeCall) (x : Controller × Db) :
    (c.runG w (x.1, false, x.2)).2.1 = true ↔ c.inceptionPanics w x := by
  obtain ⟨ctl, db⟩ := x
  have no : ∀ {p : Bool}, p = false → (p = true ↔ False) := fun h => by rw [h]; exact ⟨(fun h => by cases h), False.elim⟩
  cases c with
  | incept ws => exact (inceptWithG_false w.env w.sg ctl [] ws db).2.2.2
  | inceptExtra ks => exact (inceptWithG_false w.env w.sg ctl ks [] db).2.2.2
  | rotate => exact no (Clean.submitRotation hs w.env _ db)
  | makeIxn p => exact no (Clean.makeIxn hs w.env ctl p db)
  | makeRct m => exact no (Clean.makeRct hs w.env ctl m db)
  | makeNtr m => exact no (Clean.makeNtr hs w.env ctl m db)
  | respond b => exact no (Clean.respond hs w.rd.toBinary w.env ctl b db)
  | respondQ b => exact no (Clean.respondQ hs w.rd w.env ctl b db)
  | respondSingle b => exact no rfl
  | stream b => exact no (Clean.stream hs w.rd.toBinary w.env ctl b db)
  | pass a => exact no rfl

/-- C109: with the lock poisoned, an inception and a rotation say so and change nothing, neither the keys nor the database. -/
theorem C109_refused (env : Env) (sg : SignFn) (c : Controller) (db : Db) :
    (∀ extra ws, c.inceptWithG env sg extra ws (true, db) = (.err .mutexPoisoned, c, true, db)) ∧
    c.rotateG env sg (true, db) = (.err .mutexPoisoned, c, true, db) := ⟨fun _ _ => rfl, rfl⟩

/-- C109: with the lock poisoned, no event, no receipt and no answer is made: every method that would sign returns an error or panics, `respond` answers with
nothing, and the stream processor sends no receipt. -/
theorem C109_silent (w : Around) (c : Controller) (db : Db) :
    (∀ p e, (c.makeIxnG w.env w.sg p (true, db)).1 ≠ .ok e) ∧
    (∀ p e, (c.interactG w.env w.sg p (true, db)).1 ≠ .ok e) ∧
    (∀ m r, (c.makeRctG w.env w.sg m (true, db)).1 ≠ .ok r) ∧
    (∀ m r, (c.makeNtrG w.env w.sg m (true, db)).1 ≠ .ok r) ∧
    (∀ b a, (c.respondG w.rd.toBinary w.env w.sg b (true, db)).1 = .ok a → a = []) ∧
    (∀ b a, (c.respondQG w.rd w.env w.sg b (true, db)).1 = .ok a → a = []) ∧
    (∀ b a, (c.streamG w.rd.toBinary w.env w.sg b (true, db)).1 = .ok a → ∃ s, a.2 = .state s) := by
  refine ⟨fun p e => (Mute.makeIxn (env := w.env) (Q := fun _ => True) w.sg c p db).2.1 e, fun p e => (Mute.interact (env := w.env) (Q := fun _ => True) w.sg c p db).2.1 e,
    fun m e => (Mute.makeRct (env := w.env) (Q := fun _ => True) w.sg c m db).2.1 e, fun m e => (Mute.makeNtr (env := w.env) (Q := fun _ => True) w.sg c m db).2.1 e, ?_, ?_, ?_⟩
  · intro b
    have hm : Mute w.env (fun _ => True) (fun b => b = []) (c.respondG w.rd.toBinary w.env w.sg b) :=
      .bind (.any _) fun ds _ => .bind (.onStore (.respondAll fun _ _ _ _ => trivial)) fun ms _ => .answers _ _ ms
    exact (hm db).2.1
  · intro b
    have hm : Mute w.env (fun _ => True) (fun b => b = []) (c.respondQG w.rd w.env w.sg b) :=
      .bind (.any _) fun ds _ => .bind (.onStore (.respondAllQ fun _ _ _ _ => trivial)) fun ms _ => .answers _ _ ms
    exact (hm db).2.1
  · intro b
    have hm : Mute w.env (fun _ => True) (fun a => ∃ s, a.2 = .state s) (c.streamG w.rd.toBinary w.env w.sg b) := by
      refine .bind (.onStore (.respondSingle fun _ _ _ _ _ => trivial)) fun r _ => ?_
      cases hp : altP (jsonMessage desKeyEvent) w.rd.toBinary.event b with
      | ok rest e =>
        refine .bind (.result (.makeNtr _ _ _)) fun o ho => ?_
        cases o with
        | ok a => exact (ho a rfl).elim
        | error e => exact .pure ⟨_, rfl⟩
      | error => exact .lift fun _ h => by cases h
      | failure => exact .lift fun _ h => by cases h
      | incomplete => exact .lift fun _ h => by cases h
      | panic => exact .lift fun _ h => by cases h
    exact (hm db).2.1

/-- C109: it stays so: no sequence of calls cures a poisoned lock, and the controller keeps the identifier and the keys that it had. -/
theorem C109_for_ever (w : Around) (c : Controller) (db : Db) (cs : List NodeCall) :
    (w.afterG (c, true, db) cs).1 = c ∧ (w.afterG (c, true, db) cs).2.1 = true := by
  induction cs generalizing db with
  | nil => exact ⟨rfl, rfl⟩
  | cons d cs ih =>
    obtain ⟨h1, h2, _⟩ := d.keepsG w c db
    have h : d.runG w (c, true, db) = (c, true, (d.runG w (c, true, db)).2.2) := Prod.ext h1 (Prod.ext h2 rfl)
    show (w.afterG (d.runG w (c, true, db)) cs).1 = c ∧ (w.afterG (d.runG w (c, true, db)) cs).2.1 = true
    rw [h]
    exact ih _

theorem lockedNode_keeps (w : Around) (x : Locked) (cs : List NodeCall) (as : List Action) (h : Tracks w.env x.2.2 as) :
    ∃ bs, Tracks w.env (w.afterG x cs).2.2 (as ++ bs) ∧
      ∀ e, Action.submit (.event e) ∈ bs → ∃ before c rest, cs = before ++ c :: rest ∧
        (c.Received w (.event e) ∨ ((w.afterG x before).2.1 = false ∧ c.Made w (w.afterG x before).1 e)) := by
  induction cs generalizing x as with
  | nil => exact Keeps.still h
  | cons c cs ih =>
    have step : ∃ bs, Tracks w.env (c.runG w x).2.2 (as ++ bs) ∧
        ∀ e, Action.submit (.event e) ∈ bs → c.Received w (.event e) ∨ (x.2.1 = false ∧ c.Made w x.1 e) := by
      obtain ⟨ctl, p, db⟩ := x
      cases p with
      | false =>
        obtain ⟨bs, h1, h2⟩ := c.keeps w (ctl, db) as h
        refine ⟨bs, ?_, fun e he => (h2 e he).imp_right fun h => ⟨rfl, h⟩⟩
        rw [(C109_agree w c (ctl, db)).2]
        exact h1
      | true =>
        obtain ⟨bs, h1, h2⟩ := (c.keepsG w ctl db).2.2 as h
        exact ⟨bs, h1, fun e he => .inl (h2 e he)⟩
    obtain ⟨bs, h1, h2⟩ := step
    obtain ⟨ds, h3, h4⟩ := ih (c.runG w x) (as ++ bs) h1
    refine ⟨bs ++ ds, by rw [← List.append_assoc]; exact h3, fun e he => ?_⟩
    rcases List.mem_append.1 he with he | he
    · exact ⟨[], c, cs, rfl, h2 e he⟩
    · obtain ⟨before, c', rest, hc, hq⟩ := h4 e he
      exact ⟨c :: before, c', rest, by rw [hc]; rfl, hq⟩

/-- C109: poisoned or not, the logs of the node are those of a history of submissions, append-only. -/
theorem C109_histories (w : Around) (c : Controller) (cs ds : List NodeCall) :
    ∃ as bs, (∀ id : IdentifierPrefix, (w.afterG (c, false, Db.empty) cs).2.2.kel id = (after w.env as).kel id) ∧
      ∀ id : IdentifierPrefix, (w.afterG (c, false, Db.empty) (cs ++ ds)).2.2.kel id = (after w.env (as ++ bs)).kel id := by
  obtain ⟨as, h1, _⟩ := lockedNode_keeps w (c, false, Db.empty) cs [] (.empty _)
  obtain ⟨bs, h2, _⟩ := lockedNode_keeps w (w.afterG (c, false, Db.empty) cs) ds _ h1
  refine ⟨[] ++ as, bs, h1.kel, fun id => ?_⟩
  rw [show w.afterG (c, false, Db.empty) (cs ++ ds) = w.afterG (w.afterG (c, false, Db.empty) cs) ds from List.foldl_append]
  exact h2.kel id

/-- C109: every event in a log came from outside, or the node made it while the lock was not poisoned. -/
theorem C109_provenance (w : Around) (c : Controller) (cs : List NodeCall) (id : IdentifierPrefix) (hid : id.toStr ≠ []) (e : SignedEvent)
    (he : e ∈ (w.afterG (c, false, Db.empty) cs).2.2.kel id) :
    ∃ sub before call rest, sub.stored = e ∧ cs = before ++ call :: rest ∧
      (call.Received w (.event sub) ∨
        ((w.afterG (c, false, Db.empty) before).2.1 = false ∧ call.Made w (w.afterG (c, false, Db.empty) before).1 sub)) := by
  obtain ⟨as, h1, h2⟩ := lockedNode_keeps w (c, false, Db.empty) cs [] (.empty _)
  rw [h1.kel id] at he
  obtain ⟨sub, hs, hq⟩ := logged_submitted w.env _ id hid e he
  obtain ⟨before, call, rest, h3, h4⟩ := h2 sub hs
  exact ⟨sub, before, call, rest, hq, h3, h4⟩

/-- a computation that submits no event leaves the logs -/
theorem logs_stay {env : Env} {db db' : Db} {as bs : List Action} (h : Tracks env db as) (h' : Tracks env db' (as ++ bs))
    (hb : ∀ e, Action.submit (.event e) ∈ bs → False) (id : IdentifierPrefix) (hid : id.toStr ≠ []) : db'.kel id = db.kel id := by
  rw [h.kel, h'.kel]
  clear h h'
  induction bs using snoc_induction with
  | h0 => rw [List.append_nil]
  | h1 bs a ih =>
    rw [← ih fun e he => hb e (List.mem_append_left _ he), ← List.append_assoc]
    rcases C01_one_step env (as ++ bs) a id hid with h | ⟨sub, h1, _, _⟩
    · exact h
    · exact (hb sub (by rw [h1]; exact List.mem_append_right _ List.mem_cons_self)).elim

/-- C109: the node still listens: what comes from outside does to the logs what it would do with the lock in order. -/
theorem C109_listens (w : Around) (c : Controller) (cs : List NodeCall) (d : NodeCall) (hd : d.brings = true) (id : IdentifierPrefix) (hid : id.toStr ≠ []) :
    (d.runG w (w.afterG (c, false, Db.empty) cs)).2.2.kel id =
    (d.run w ((w.afterG (c, false, Db.empty) cs).1, (w.afterG (c, false, Db.empty) cs).2.2)).2.kel id := by
  obtain ⟨as, ht, _⟩ := lockedNode_keeps w (c, false, Db.empty) cs [] (.empty _)
  revert ht
  generalize w.afterG (c, false, Db.empty) cs = x
  generalize ([] : List Action) ++ as = as
  obtain ⟨ctl, p, db⟩ := x
  intro ht
  dsimp only at ht ⊢
  cases p with
  | false => rw [(C109_agree w d (ctl, db)).2]
  | true =>
    have key : ∀ {α β : Type} (y : StM Db α) (f : α → StM (Bool × Db) β) (g : α → StM Db β),
        Keeps w.env (fun _ => True) y → (∀ a, Mute w.env (fun _ => False) (fun _ => True) (f a)) → (∀ a, Keeps w.env (fun _ => False) (g a)) →
        ((onStore y >>= f) (true, db)).2.2.kel id = ((y >>= g) db).2.kel id := by
      intro α β y f g hy hf hg
      rw [StM.bind_run, StM.bind_run, onStore_run]
      obtain ⟨bs, h1, _⟩ := hy db as ht
      dsimp only
      rcases hr : y db with ⟨r, db1⟩
      rw [hr] at h1
      cases r with
      | ok a =>
        obtain ⟨b1, k1, k2⟩ := (hf a db1).2.2 _ h1
        obtain ⟨b2, k3, k4⟩ := hg a db1 _ h1
        exact (logs_stay h1 k1 k2 id hid).trans (logs_stay h1 k3 k4 id hid).symm
      | err e => rfl
      | panic => rfl
    cases d with
    | incept ws => cases hd
    | inceptExtra ks => cases hd
    | rotate => cases hd
    | makeIxn p => cases hd
    | makeRct m => cases hd
    | makeNtr m => cases hd
    | respondSingle b => rfl
    | pass a => rfl
    | respond b =>
      show ((ctl.respondG w.rd.toBinary w.env w.sg b) (true, db)).2.2.kel id = ((ctl.respond w.rd.toBinary sled w.env w.sg b) db).2.kel id
      unfold Controller.respondG Controller.respond
      cases hp : parsed (signedEventStreamP w.rd.toBinary b) with
      | ok ds =>
        exact key _ _ _ (.respondAll fun _ _ _ _ => trivial) (fun ms => .weaken (.answers _ _ ms)) fun ms => .answers _ _ ms
      | err e => rfl
      | panic => rfl
    | respondQ b =>
      show ((ctl.respondQG w.rd w.env w.sg b) (true, db)).2.2.kel id = ((ctl.respondQ w.rd sled w.env w.sg b) db).2.kel id
      unfold Controller.respondQG Controller.respondQ
      cases hp : parsed (signedStreamQ w.rd b) with
      | ok ds =>
        exact key _ _ _ (.respondAllQ fun _ _ _ _ => trivial) (fun ms => .weaken (.answers _ _ ms)) fun ms => .answers _ _ ms
      | err e => rfl
      | panic => rfl
    | stream b =>
      refine key _ _ _ (.respondSingle fun _ _ _ _ _ => trivial) (fun r => ?_) fun r => ?_
      · cases hp : altP (jsonMessage desKeyEvent) w.rd.toBinary.event b with
        | ok rest e =>
          refine .bind (.result (.makeNtr _ _ _)) fun o _ => ?_
          cases o
          · exact .pure trivial
          · exact .bind (.any _) fun _ _ => .pure trivial
        | error => exact .any _
        | failure => exact .any _
        | incomplete => exact .any _
        | panic => exact .any _
      · split
        · refine .bind (.result (.makeNtr _ _ _)) fun o => ?_
          cases o
          · exact .pure _
          · exact .bind (.lift _) fun _ => .pure _
        · exact .lift _

/-! ## Example -/

namespace Ex
/-- a key of the secp256k1 kind, for a witness -/
def oddKey : BasicPrefix := ⟨.ecdsa, List.replicate 33 3⟩
/-- an inception that names the odd witness succeeds but cannot be read back (C51); incepting once more panics, with the lock held -/
def poisoning : List NodeCall := [.incept [oddKey], .incept []]
/-- afterwards: attempts to rotate and to make an interaction, a stranger's stream and its first event once more -/
def later : List NodeCall := [.rotate, .makeIxn none, .respondQ earlyText, .incept [], .respondSingle earlyText]
end Ex

example : ∀ k m, Ex.around.sg k m ≠ .panic := by intro k m h; cases h

set_option maxRecDepth 20000 in
/-- the lock is in order after the first inception and poisoned after the second, which is an inception that panics -/
example : (Ex.around.afterG (Ex.ctl, false, Db.empty) [.incept [Ex.oddKey]]).2.1 = false ∧
    (Ex.around.afterG (Ex.ctl, false, Db.empty) Ex.poisoning).2.1 = true := by decide +kernel

set_option maxRecDepth 20000 in
/-- … and still the stranger's log arrives, and a message of the stranger poisons nothing at another node -/
example : (Ex.around.afterG (Ex.ctl, false, Db.empty) (Ex.poisoning ++ Ex.later)).2.1 = true ∧
    (Ex.around.afterG (Ex.ctl, false, Db.empty) (Ex.poisoning ++ Ex.later)).2.2.kel Ex.bob.1.pre = Ex.bob.2.kel Ex.bob.1.pre ∧
    (Ex.bob.2.kel Ex.bob.1.pre).length = 2 ∧
    (Ex.around.afterG (Ex.ctl, false, Db.empty) (.incept [] :: Ex.later)).2.1 = false := by decide +kernel

end Keriox
