import Verif.Rel
import Verif.Props.Concur
/-!
# C107: any number of threads on one database

Step.lean has one thread and lets the others do anything between its accesses.  Here all threads are explicit: each processes a message, an
execution picks one of them again and again and lets it make its next access to a sled tree.
-/
namespace Keriox

/-! ## Specification -/

/-- a thread: the message it processes and the database it found at each of its accesses so far (oldest first) -/
structure Thread where
  msg : Message
  seen : List Db

/-- the thread, run with the databases it found (`db0`, the database it started with, only matters to a thread that has not found any);
after those it is left alone -/
def Thread.run (env : Env) (db0 : Db) (t : Thread) : Res (Option IdState) × World :=
  process stepped env t.msg ⟨db0, t.seen.map fun d _ => d, []⟩

/-- the databases after each of its accesses, oldest first -/
def Thread.left (env : Env) (db0 : Db) (t : Thread) : List Db := (t.run env db0).2.trail.reverse

/-- the thread has returned, with result `r` -/
def Thread.Returned (env : Env) (db0 : Db) (t : Thread) (r : Res (Option IdState)) : Prop :=
  (t.left env db0).length = t.seen.length ∧ (t.run env db0).1 = r

/-- the thread finds the database `db` -/
def Thread.find (t : Thread) (db : Db) : Thread := ⟨t.msg, t.seen ++ [db]⟩

/-- executions of threads that start with database `db0`: one thread after the other makes one access -/
inductive Execution (env : Env) (db0 : Db) (ms : List Message) : Db → List Thread → Prop
  | start : Execution env db0 ms db0 (ms.map fun m => ⟨m, []⟩)
  | step {db db' : Db} {ts : List Thread} (i : Nat) (t : Thread) : Execution env db0 ms db ts → ts[i]? = some t →
      ((t.find db).left env db0)[t.seen.length]? = some db' → Execution env db0 ms db' (ts.set i (t.find db))

/-- the storage calls, with a note of the identifiers they are made for -/
def noting : Ops (Db × List IdentifierPrefix) where
  read t id := fun s => ((sled.read t id s.1).1, (sled.read t id s.1).2, id :: s.2)
  push t id v := fun s => ((sled.push t id v s.1).1, (sled.push t id v s.1).2, id :: s.2)
  remove t id v := fun s => ((sled.remove t id v s.1).1, (sled.remove t id v s.1).2, id :: s.2)
  put t id vs := fun s => ((sled.put t id vs s.1).1, (sled.put t id vs s.1).2, id :: s.2)
  all t := fun s => ((sled.all t s.1).1, (sled.all t s.1).2, s.2)

/-- the identifiers whose entries the processing of `m` looks at or writes, when it is alone with database `db` -/
def usedIds (env : Env) (m : Message) (db : Db) : List IdentifierPrefix := (process noting env m (db, [])).2.2

/-! ## Noting changes nothing -/

theorem noting_ops : GOps (fun (s : Db × List IdentifierPrefix) d => s.1 = d) (fun _ => True) noting sled where
  read t id := by rintro ⟨d, l⟩ _ rfl; exact ⟨rfl, rfl⟩
  push t _ id v := by rintro ⟨d, l⟩ _ rfl; exact ⟨rfl, rfl⟩
  remove t _ id v := by rintro ⟨d, l⟩ _ rfl; exact ⟨rfl, rfl⟩
  put t _ id vs := by rintro ⟨d, l⟩ _ rfl; exact ⟨rfl, rfl⟩
  all t := by rintro ⟨d, l⟩ _ rfl; exact ⟨rfl, rfl⟩

theorem noting_run (env : Env) (m : Message) (db : Db) :
    (process noting env m (db, [])).1 = (process sled env m db).1 ∧ (process noting env m (db, [])).2.1 = (process sled env m db).2 :=
  process_par noting_ops (fun _ => trivial) env m (db, []) db rfl

/-! ## Trails grow -/

/-- the computation only adds to the trail -/
def Extends {α : Type} (x : StM World α) : Prop := ∀ w, w.trail <:+ (x w).2.trail

namespace Extends
variable {α β : Type}
theorem lift (r : Res α) : Extends (StM.lift r) := fun _ => List.suffix_refl _
theorem bind {x : StM World α} {f : α → StM World β} (h1 : Extends x) (h2 : ∀ a, Extends (f a)) : Extends (x >>= f) := by
  intro w
  rw [StM.bind_run]
  have := h1 w
  rcases hx : x w with ⟨r, w'⟩
  rw [hx] at this
  cases r with
  | ok a => exact this.trans (h2 a w')
  | err e => exact this
  | panic => exact this
theorem bind_left {x : StM World α} {f : α → StM World β} (h2 : ∀ a, Extends (f a)) (w : World) : (x w).2.trail <:+ ((x >>= f) w).2.trail := by
  rw [StM.bind_run]
  rcases x w with ⟨r, w'⟩
  cases r with
  | ok a => exact h2 a w'
  | err e => exact List.suffix_refl _
  | panic => exact List.suffix_refl _
theorem result {x : StM World α} (h1 : Extends x) : Extends x.result := by
  intro w
  have := h1 w
  unfold StM.result
  rcases hx : x w with ⟨r, w'⟩
  rw [hx] at this
  cases r <;> exact this
theorem atom (f : StM Db α) : Extends (atom f) := fun _ => ⟨[_], rfl⟩
theorem desKey (id : IdentifierPrefix) : Extends (desKey id) := by
  refine .bind (.atom _) fun o => ?_
  cases o with
  | some k => exact .lift (.ok k)
  | none => exact .bind (.atom _) fun k => .bind (.atom _) fun _ => .lift (.ok k)
theorem read (t : Tbl) (id : IdentifierPrefix) : Extends (stepped.read t id) := .bind (.desKey id) fun _ => .bind (.atom _) fun _ => .lift _
theorem push (t : Tbl) (id : IdentifierPrefix) (v : t.Val) : Extends (stepped.push t id v) :=
  .bind (.desKey id) fun _ => .bind (.atom _) fun _ => .atom _
theorem remove (t : Tbl) (id : IdentifierPrefix) (v : t.Val) : Extends (stepped.remove t id v) := by
  refine .bind (.desKey id) fun k => .bind (.atom _) fun o => ?_
  unfold putIf
  split
  · exact .atom _
  · exact .lift (.ok ())
theorem put (t : Tbl) (id : IdentifierPrefix) (vs : List t.Val) : Extends (stepped.put t id vs) := .bind (.desKey id) fun _ => .atom _
end Extends

/-! ## What a thread does depends on what it has found only -/

/-- the two runs have not come to the point yet where what they find may differ -/
def Still (N : Nat) (w w' : World) : Prop :=
  w.trail = w'.trail ∧ w.db = w'.db ∧ ∃ p a b, w.sched = p ++ a ∧ w'.sched = p ++ b ∧ w.trail.length + p.length = N

/-- the two runs have passed that point -/
def Past (N : Nat) (w w' : World) : Prop :=
  ∃ c : List Db, c.length = N ∧ c <:+ w.trail ∧ c <:+ w'.trail ∧ N < w.trail.length ∧ N < w'.trail.length

/-- the same until then -/
def Causal (N : Nat) {α : Type} (x y : StM World α) : Prop :=
  Extends x ∧ Extends y ∧ ∀ w w', Still N w w' → ((x w).1 = (y w').1 ∧ Still N (x w).2 (y w').2) ∨ Past N (x w).2 (y w').2

theorem Past.grow {N : Nat} {w w' v v' : World} (h : Past N w w') (h1 : w.trail <:+ v.trail) (h2 : w'.trail <:+ v'.trail) : Past N v v' := by
  obtain ⟨c, hc, a, b, l, l'⟩ := h
  exact ⟨c, hc, a.trans h1, b.trans h2, Nat.lt_of_lt_of_le l h1.length_le, Nat.lt_of_lt_of_le l' h2.length_le⟩

/-- the logic of causality -/
def causal (N : Nat) : RelLogic World World where
  rel := Causal N
  lift r := ⟨.lift r, .lift r, fun _ _ h => .inl ⟨rfl, h⟩⟩
  bind := by
    rintro α β x y f g ⟨gx, gy, hx⟩ hf
    refine ⟨.bind gx fun a => (hf a).1, .bind gy fun a => (hf a).2.1, fun w w' hs => ?_⟩
    rw [StM.bind_run, StM.bind_run]
    have h := hx w w' hs
    rcases hx1 : x w with ⟨r, v⟩
    rcases hy1 : y w' with ⟨r', v'⟩
    rw [hx1, hy1] at h
    rcases h with ⟨hr, h⟩ | h
    · dsimp only at hr h
      subst hr
      cases r with
      | ok a => exact (hf a).2.2 v v' h
      | err e => exact .inl ⟨rfl, h⟩
      | panic => exact .inl ⟨rfl, h⟩
    · refine .inr (h.grow ?_ ?_)
      · cases r
        · exact (hf _).1 v
        all_goals exact List.suffix_refl _
      · cases r'
        · exact (hf _).2.1 v'
        all_goals exact List.suffix_refl _
  result := by
    rintro α x y ⟨gx, gy, hx⟩
    refine ⟨gx.result, gy.result, fun w w' hs => ?_⟩
    have h := hx w w' hs
    unfold StM.result
    rcases hx1 : x w with ⟨r, v⟩
    rcases hy1 : y w' with ⟨r', v'⟩
    rw [hx1, hy1] at h
    rcases h with ⟨hr, h⟩ | h
    · dsimp only at hr h
      subst hr
      cases r <;> exact .inl ⟨rfl, h⟩
    · refine .inr ?_
      cases r <;> cases r' <;> exact h

theorem causal_atom (N : Nat) {α : Type} (f : StM Db α) : Causal N (atom f) (atom f) := by
  refine ⟨.atom f, .atom f, ?_⟩
  rintro w w' ⟨ht, hd, p, a, b, ha, hb, hl⟩
  cases p with
  | nil =>
    have hl : w.trail.length = N := by simpa using hl
    refine .inr ⟨w.trail, hl, Extends.atom f w, by rw [ht]; exact Extends.atom f w', ?_, ?_⟩
    · show N < w.trail.length + 1; omega
    · show N < w'.trail.length + 1; rw [← ht]; omega
  | cons g p =>
    have hs : w.seen = w'.seen := by
      unfold World.seen
      rw [ha, hb, hd]
      rfl
    refine .inl ⟨by unfold atom; rw [hs], ?_, ?_, p, a, b, ?_, ?_, ?_⟩
    · simp only [atom]; rw [hs, ht]
    · simp only [atom]; rw [hs]
    · simp only [atom]; rw [ha]; rfl
    · simp only [atom]; rw [hb]; rfl
    · simp only [atom, List.length_cons] at hl ⊢; omega

theorem causal_desKey (N : Nat) (id : IdentifierPrefix) : Causal N (desKey id) (desKey id) := by
  refine (causal N).bind (causal_atom N _) fun o => ?_
  cases o with
  | some k => exact (causal N).lift (.ok k)
  | none => exact (causal N).bind (causal_atom N _) fun k => (causal N).bind (causal_atom N _) fun _ => (causal N).lift (.ok k)

theorem causal_ops (N : Nat) : ROps (causal N) stepped stepped where
  read t id := (causal N).bind (causal_desKey N id) fun _ => (causal N).bind (causal_atom N _) fun _ => (causal N).lift _
  push t id v := (causal N).bind (causal_desKey N id) fun _ => (causal N).bind (causal_atom N _) fun _ => causal_atom N _
  remove t id v := by
    refine (causal N).bind (causal_desKey N id) fun k => (causal N).bind (causal_atom N _) fun o => ?_
    unfold putIf
    split
    · exact causal_atom N _
    · exact (causal N).lift (.ok ())
  put t id vs := (causal N).bind (causal_desKey N id) fun _ => causal_atom N _

theorem Thread.find_run (env : Env) (db0 : Db) (t : Thread) (db : Db) :
    ((t.run env db0).1 = ((t.find db).run env db0).1 ∧ Still t.seen.length (t.run env db0).2 ((t.find db).run env db0).2) ∨
      Past t.seen.length (t.run env db0).2 ((t.find db).run env db0).2 := by
  refine (process_rel (causal_ops t.seen.length) env t.msg).2.2 _ _ ⟨rfl, rfl, t.seen.map fun d _ => d, [], [fun _ => db], ?_, ?_, ?_⟩
  · simp
  · simp [Thread.find]
  · simp

/-- what a thread did is settled: finding one database more changes nothing of what it left behind before -/
theorem Thread.left_find (env : Env) (db0 : Db) (t : Thread) (db : Db) (j : Nat) (hj : j < t.seen.length) :
    ((t.find db).left env db0)[j]? = (t.left env db0)[j]? := by
  unfold Thread.left
  rcases t.find_run env db0 db with ⟨_, h, _⟩ | ⟨c, hc, ⟨p, h1⟩, ⟨q, h2⟩, _⟩
  · rw [h]
  · rw [← h1, ← h2, List.reverse_append, List.reverse_append, List.getElem?_append_left (by simp; omega),
      List.getElem?_append_left (by simp; omega)]

/-! ## A thread whose entries the others leave alone does what it would alone -/

/-- the same entries under the keys in `K` -/
def Agree (I : Tree Bytes) (K : Nat → Prop) (a b : Db) : Prop :=
  a.iids = I ∧ b.iids = I ∧ ∀ t k, K k → (a.tables t).get k = (b.tables t).get k

/-- `b` is `a` with changes under the keys in `K` -/
def ChangedIn (K : Nat → Prop) (a b : Db) : Prop :=
  b.iids = a.iids ∧ ∀ t k, ¬ K k → (b.tables t).get k = (a.tables t).get k

theorem Agree.trans {I : Tree Bytes} {K : Nat → Prop} {a b c : Db} (h : Agree I K a b) (h' : Agree I K b c) : Agree I K a c :=
  ⟨h.1, h'.2.1, fun t k hk => (h.2.2 t k hk).trans (h'.2.2 t k hk)⟩

theorem ChangedIn.trans {K : Nat → Prop} {a b c : Db} (h : ChangedIn K a b) (h' : ChangedIn K b c) : ChangedIn K a c :=
  ⟨h'.1.trans h.1, fun t k hk => (h'.2 t k hk).trans (h.2 t k hk)⟩

theorem ChangedIn.mono {K K' : Nat → Prop} {a b : Db} (h : ChangedIn K a b) (hk : ∀ k, K k → K' k) : ChangedIn K' a b :=
  ⟨h.1, fun t k hn => h.2 t k fun hh => hn (hk k hh)⟩

theorem ChangedIn.agree {I : Tree Bytes} {K K' : Nat → Prop} {a b : Db} (h : ChangedIn K' a b) (ha : a.iids = I) (hd : ∀ k, K k → ¬ K' k) :
    Agree I K b a := ⟨h.1.trans ha, ha, fun t k hk => h.2 t k (hd k hk)⟩

/-- what the thread left behind before its access number `j` -/
def leftBefore (db0 : Db) (T : List Db) : Nat → Option Db
  | 0 => some db0
  | j + 1 => T.reverse[j]?

/-- the thread, in state `w`, has seen under its keys what it would have seen alone, when it would now be left with `d` -/
structure Synced (I : Tree Bytes) (K : Nat → Prop) (db0 : Db) (S : List Db) (w : World) (d : Db) : Prop where
  sched : w.sched = (S.drop w.trail.length).map fun d _ => d
  last : w.db = w.trail.headD db0
  agree : Agree I K w.db d
  loc : ∀ (j : Nat) (a b : Db), S[j]? = some a → w.trail.reverse[j]? = some b → ChangedIn K a b

section
variable {I : Tree Bytes} {K : Nat → Prop} {db0 : Db} {S T : List Db}

/-- as long as the trail is part of `T`: the same result, and in step -/
def Follows (I : Tree Bytes) (K : Nat → Prop) (db0 : Db) (S T : List Db) {α : Type} (x : StM World α) (y : StM Db α) : Prop :=
  Extends x ∧ ∀ w d, Synced I K db0 S w d → (x w).2.trail <:+ T → (x w).1 = (y d).1 ∧ Synced I K db0 S (x w).2 (y d).2

namespace Follows
variable {α β : Type}

theorem lift (r : Res α) : Follows I K db0 S T (StM.lift r) (StM.lift r) := ⟨.lift r, fun _ _ h _ => ⟨rfl, h⟩⟩

theorem bind {x : StM World α} {y : StM Db α} {f : α → StM World β} {g : α → StM Db β} (h1 : Follows I K db0 S T x y)
    (h2 : ∀ a, Follows I K db0 S T (f a) (g a)) : Follows I K db0 S T (x >>= f) (y >>= g) := by
  refine ⟨.bind h1.1 fun a => (h2 a).1, fun w d hs hT => ?_⟩
  rw [StM.bind_run] at hT ⊢
  rw [StM.bind_run]
  have h := h1.2 w d hs
  rcases hx : x w with ⟨r, v⟩
  rcases hy : y d with ⟨r', e⟩
  rw [hx, hy] at h
  rw [hx] at hT
  have hv : v.trail <:+ T := by
    cases r with
    | ok a => exact ((h2 a).1 v).trans hT
    | err e => exact hT
    | panic => exact hT
  replace h := h hv
  obtain ⟨hr, h⟩ := h
  dsimp only at hr h
  subst hr
  cases r with
  | ok a => exact (h2 a).2 v e h hT
  | err e => exact ⟨rfl, h⟩
  | panic => exact ⟨rfl, h⟩

theorem atom (hS : ∀ j a p, S[j]? = some a → leftBefore db0 T j = some p → Agree I K a p) {f f' : StM Db α}
    (h : ∀ a b : Db, Agree I K a b → (f a).1 = (f' b).1 ∧ Agree I K (f a).2 (f' b).2 ∧ ChangedIn K a (f a).2) :
    Follows I K db0 S T (atom f) f' := by
  refine ⟨.atom f, fun w d hs hT => ?_⟩
  have hT' : w.trail <:+ T := (Extends.atom f w).trans hT
  have hag : Agree I K w.seen d ∧ ∀ a, S[w.trail.length]? = some a → w.seen = a := by
    unfold World.seen
    rw [hs.sched]
    cases hd : S.drop w.trail.length with
    | nil =>
      refine ⟨hs.agree, fun a ha => ?_⟩
      have := List.drop_eq_nil_iff.1 hd
      rw [List.getElem?_eq_none this] at ha
      cases ha
    | cons a r =>
      have hget : S[w.trail.length]? = some a := by
        have : (S.drop w.trail.length)[0]? = some a := by rw [hd]; rfl
        rwa [List.getElem?_drop, Nat.add_zero] at this
      refine ⟨?_, fun b hb => ?_⟩
      · refine (hS _ a w.db hget ?_).trans hs.agree
        rw [hs.last]
        cases ht : w.trail with
        | nil => rfl
        | cons c t =>
          obtain ⟨q, hq⟩ := hT'
          rw [ht] at hq
          show T.reverse[t.length]? = some c
          rw [← hq]
          simp
      · rw [hget] at hb; exact Option.some.inj hb
  obtain ⟨h1, h2, h3⟩ := h w.seen d hag.1
  refine ⟨h1, ?_, rfl, h2, ?_⟩
  · show w.sched.tail = (S.drop (w.trail.length + 1)).map fun d _ => d
    rw [hs.sched, ← List.map_tail, List.tail_drop]
  · intro j a b ha hb
    replace hb : ((f w.seen).2 :: w.trail).reverse[j]? = some b := hb
    rw [List.reverse_cons] at hb
    by_cases hj : j < w.trail.length
    · rw [List.getElem?_append_left (by simpa using hj)] at hb
      exact hs.loc j a b ha hb
    · rw [List.getElem?_append_right (by simpa using hj), List.getElem?_singleton] at hb
      split at hb
      · rename_i h0
        simp only [List.length_reverse] at h0
        have : j = w.trail.length := by omega
        subst this
        cases hb
        rw [← hag.2 a ha]
        exact h3
      · cases hb

theorem key (hS : ∀ j a p, S[j]? = some a → leftBefore db0 T j = some p → Agree I K a p) {id : IdentifierPrefix} {k : Nat}
    (hk : keyByValue I id.toStr = some k) {f : Nat → StM World β} {g : Nat → StM Db β} (h : Follows I K db0 S T (f k) (g k))
    (he : ∀ k, Extends (f k)) : Follows I K db0 S T (desKey id >>= f) (designatedKey id >>= g) := by
  have h1 : Follows I K db0 S T (Keriox.atom (getKeyByValue id)) (getKeyByValue id) := atom hS fun a b hab =>
    ⟨by simp only [getKeyByValue]; rw [hab.1, hab.2.1], hab, rfl, fun _ _ _ => rfl⟩
  refine ⟨.bind (.desKey id) he, fun w d hs hT => ?_⟩
  have hd : designatedKey id d = (.ok k, d) := by unfold designatedKey; rw [hs.agree.2.1, hk]
  rw [bind_okW hd]
  have hT1 : (Keriox.atom (getKeyByValue id) w).2.trail <:+ T := by
    refine List.IsSuffix.trans ?_ ((Extends.bind_left (x := desKey id) he w).trans hT)
    refine Extends.bind_left (fun o => ?_) w
    cases o with
    | some k => exact .lift (.ok k)
    | none => exact .bind (.atom _) fun k => .bind (.atom _) fun _ => .lift (.ok k)
  obtain ⟨hr, hs1⟩ := h1.2 w d hs hT1
  have hr : (Keriox.atom (getKeyByValue id) w).1 = .ok (some k) := by
    rw [hr]; simp only [getKeyByValue]; rw [hs.agree.2.1, hk]
  have hw : desKey id w = (.ok k, (Keriox.atom (getKeyByValue id) w).2) := StM.bind_ok (a := some k) (Prod.ext hr rfl) rfl
  rw [bind_okW hw] at hT ⊢
  exact h.2 _ d hs1 hT

end Follows

theorem Agree.put {a b : Db} (h : Agree I K a b) (t : Tbl) (k : Nat) (l : List t.Val) :
    Agree I K (a.setEntry t k (some l)) (b.setEntry t k (some l)) := by
  refine ⟨h.1, h.2.1, fun t' k' hk' => ?_⟩
  simp only [Db.setEntry, Db.setTable]
  by_cases ht : t' = t
  · subst ht
    simp only [dite_true, Tree.get_ins, h.2.2 t' k' hk']
  · simp only [ht, dite_false]
    exact h.2.2 t' k' hk'

theorem ChangedIn.put {a : Db} (t : Tbl) {k : Nat} (hk : K k) (l : List t.Val) : ChangedIn K a (a.setEntry t k (some l)) := by
  refine ⟨rfl, fun t' k' hk' => ?_⟩
  simp only [Db.setEntry, Db.setTable]
  have hne : k' ≠ k := fun h => hk' (h ▸ hk)
  by_cases ht : t' = t
  · subst ht
    simp only [dite_true, Tree.get_ins, hne, if_false]
  · simp only [ht, dite_false]

section
variable (hS : ∀ j a p, S[j]? = some a → leftBefore db0 T j = some p → Agree I K a p) {id : IdentifierPrefix} {k : Nat}
  (hk : keyByValue I id.toStr = some k) (hK : K k)
include hS hK

theorem follows_get (t : Tbl) : Follows I K db0 S T (atom (treeGet t k)) (treeGet t k) :=
  .atom hS fun a b h => ⟨by simp only [treeGet]; rw [h.2.2 t k hK], h, rfl, fun _ _ _ => rfl⟩

theorem follows_set (t : Tbl) (l : List t.Val) : Follows I K db0 S T (atom (treePut t k l)) (treePut t k l) :=
  .atom hS fun _ _ h => ⟨rfl, h.put t k l, .put t hK l⟩

include hk

theorem follows_read (t : Tbl) : Follows I K db0 S T (stepped.read t id) (sled.read t id) :=
  Follows.key hS hk (g := fun k => treeGet t k >>= fun o => StM.lift (t.iterValues o)) (.bind (follows_get hS hK t) fun _ => .lift _)
    fun _ => .bind (.atom _) fun _ => .lift _

theorem follows_push (t : Tbl) (v : t.Val) : Follows I K db0 S T (stepped.push t id v) (sled.push t id v) :=
  Follows.key hS hk (g := fun k => treeGet t k >>= fun o => treePut t k (t.pushed o v))
    (.bind (follows_get hS hK t) fun o => follows_set hS hK t _) fun _ => .bind (.atom _) fun _ => .atom _

theorem follows_put (t : Tbl) (vs : List t.Val) : Follows I K db0 S T (stepped.put t id vs) (sled.put t id vs) :=
  Follows.key hS hk (g := fun k => treePut t k vs) (follows_set hS hK t vs) fun _ => .atom _

theorem follows_remove (t : Tbl) (v : t.Val) : Follows I K db0 S T (stepped.remove t id v) (sled.remove t id v) := by
  refine Follows.key hS hk (f := fun k => atom (treeGet t k) >>= fun o => putIf t k (t.removal o v))
    (g := fun k db => (.ok (), db.setEntry t k (t.removed ((db.tables t).get k) v))) ?_ ?_
  · have he : Extends (atom (treeGet t k) >>= fun o => putIf t k (t.removal o v)) := by
      refine .bind (.atom _) fun o => ?_
      unfold putIf
      split
      · exact .atom _
      · exact .lift (.ok ())
    refine ⟨he, fun w d hs hT => ?_⟩
    have hT1 : (atom (treeGet t k) w).2.trail <:+ T := by
      refine (Extends.bind_left (fun o => ?_) w).trans hT
      unfold putIf
      split
      · exact .atom _
      · exact .lift (.ok ())
    obtain ⟨hr, hs1⟩ := (follows_get hS hK t).2 w d hs hT1
    have hr : atom (treeGet t k) w = (.ok ((d.tables t).get k), (atom (treeGet t k) w).2) := Prod.ext hr rfl
    rw [bind_okW hr] at hT ⊢
    dsimp only
    rw [removed_removal]
    cases hrem : t.removal ((d.tables t).get k) v with
    | none =>
      refine ⟨rfl, hs1.sched, hs1.last, ?_, hs1.loc⟩
      have hself : Agree I K d (d.setEntry t k ((d.tables t).get k)) := by
        refine ⟨hs.agree.2.1, by rw [setEntry_iids]; exact hs.agree.2.1, fun t' k' hk' => ?_⟩
        cases hg : (d.tables t).get k with
        | none => rfl
        | some l =>
          simp only [Db.setEntry, Db.setTable]
          by_cases ht : t' = t
          · subst ht
            simp only [dite_true, Tree.get_ins]
            split
            · rename_i h; rw [h, hg]
            · rfl
          · simp only [ht, dite_false]
      exact hs1.agree.trans hself
    | some l =>
      rw [hrem] at hT
      exact (follows_set hS hK t l).2 _ d hs1 hT
  · intro k
    refine .bind (.atom _) fun o => ?_
    unfold putIf
    split
    · exact .atom _
    · exact .lift (.ok ())
end

/-- the thread on the left, the call alone with a note of the identifiers on the right; in step as long as the trail is part of `T` and
the identifiers are among `A` -/
def follow (I : Tree Bytes) (K : Nat → Prop) (db0 : Db) (S T : List Db) (A : IdentifierPrefix → Prop) :
    RelLogic World (Db × List IdentifierPrefix) where
  rel x y := Extends x ∧ (∀ s : Db × List IdentifierPrefix, s.2 <:+ (y s).2.2) ∧ ∀ (w : World) (s : Db × List IdentifierPrefix), Synced I K db0 S w s.1 → (x w).2.trail <:+ T → (∀ id ∈ (y s).2.2, A id) →
    (x w).1 = (y s).1 ∧ Synced I K db0 S (x w).2 (y s).2.1
  lift r := ⟨.lift r, fun _ => List.suffix_refl _, fun w s h _ _ => ⟨rfl, (h : Synced I K db0 S w s.1)⟩⟩
  bind := by
    rintro α β x y f g ⟨ex, ey, h1⟩ h2
    refine ⟨.bind ex fun a => (h2 a).1, fun s => ?_, fun w s hs hT hA => ?_⟩
    · rw [StM.bind_run]
      have := ey s
      rcases hy : y s with ⟨r, s'⟩
      rw [hy] at this
      cases r with
      | ok a => exact this.trans ((h2 a).2.1 s')
      | err e => exact this
      | panic => exact this
    rw [StM.bind_run] at hT hA ⊢
    rw [StM.bind_run]
    have h := h1 w s hs
    rcases hx : x w with ⟨r, v⟩
    rcases hy : y s with ⟨r', e⟩
    rw [hx, hy] at h
    rw [hx] at hT
    rw [hy] at hA
    have hv : v.trail <:+ T := by
      cases r with
      | ok a => exact ((h2 a).1 v).trans hT
      | err e => exact hT
      | panic => exact hT
    have hA' : ∀ id ∈ e.2, A id := by
      intro id hid
      apply hA
      cases r' with
      | ok a => exact ((h2 a).2.1 e).mem hid
      | err _ => exact hid
      | panic => exact hid
    replace h := h hv hA'
    obtain ⟨hr, h⟩ := h
    dsimp only at hr h
    subst hr
    cases r with
    | ok a => exact (h2 a).2.2 v e h hT hA
    | err e => exact ⟨rfl, h⟩
    | panic => exact ⟨rfl, h⟩
  result := by
    rintro α x y ⟨ex, ey, h1⟩
    refine ⟨ex.result, fun s => ?_, fun w s hs hT hA => ?_⟩
    · have := ey s
      unfold StM.result
      rcases hy : y s with ⟨r, s'⟩
      rw [hy] at this
      cases r <;> exact this
    · have h := h1 w s hs
      unfold StM.result at hT hA ⊢
      rcases hx : x w with ⟨r, v⟩
      rcases hy : y s with ⟨r', e⟩
      rw [hx, hy] at h
      rw [hx] at hT
      rw [hy] at hA
      have hv : v.trail <:+ T := by cases r <;> exact hT
      have hA' : ∀ id ∈ e.2, A id := by cases r' <;> exact hA
      replace h := h hv hA'
      obtain ⟨hr, h⟩ := h
      dsimp only at hr h
      subst hr
      cases r <;> exact ⟨rfl, h⟩

theorem follow_ops {A : IdentifierPrefix → Prop} (hS : ∀ j a p, S[j]? = some a → leftBefore db0 T j = some p → Agree I K a p)
    (hA : ∀ id, A id → ∃ k, keyByValue I id.toStr = some k ∧ K k) : ROps (follow I K db0 S T A) stepped noting where
  read t id := ⟨.read t id, fun s => ⟨[id], rfl⟩, fun w s hs hT hAl => by
    obtain ⟨k, hk, hK⟩ := hA id (hAl id List.mem_cons_self)
    exact (follows_read hS hk hK t).2 w s.1 hs hT⟩
  push t id v := ⟨.push t id v, fun s => ⟨[id], rfl⟩, fun w s hs hT hAl => by
    obtain ⟨k, hk, hK⟩ := hA id (hAl id List.mem_cons_self)
    exact (follows_push hS hk hK t v).2 w s.1 hs hT⟩
  remove t id v := ⟨.remove t id v, fun s => ⟨[id], rfl⟩, fun w s hs hT hAl => by
    obtain ⟨k, hk, hK⟩ := hA id (hAl id List.mem_cons_self)
    exact (follows_remove hS hk hK t v).2 w s.1 hs hT⟩
  put t id vs := ⟨.put t id vs, fun s => ⟨[id], rfl⟩, fun w s hs hT hAl => by
    obtain ⟨k, hk, hK⟩ := hA id (hAl id List.mem_cons_self)
    exact (follows_put hS hk hK t vs).2 w s.1 hs hT⟩
end

/-! ## Executions -/

/-- the table keys a call uses -/
def UsedKey (env : Env) (db0 : Db) (m : Message) (k : Nat) : Prop := ∃ id ∈ usedIds env m db0, keyByValue db0.iids id.toStr = some k

/-- a thread, found by the others as it would be alone -/
theorem Thread.follows (env : Env) (db0 : Db) (t : Thread) (hkeys : ∀ id ∈ usedIds env t.msg db0, ∃ k, keyByValue db0.iids id.toStr = some k)
    (hS : ∀ j a p, t.seen[j]? = some a → leftBefore db0 (t.run env db0).2.trail j = some p → Agree db0.iids (UsedKey env db0 t.msg) a p) :
    (t.run env db0).1 = (process sled env t.msg db0).1 ∧
    Synced db0.iids (UsedKey env db0 t.msg) db0 t.seen (t.run env db0).2 (process sled env t.msg db0).2 := by
  have h := (process_rel (follow_ops (A := fun id => id ∈ usedIds env t.msg db0) hS fun id hid => by
    obtain ⟨k, hk⟩ := hkeys id hid
    exact ⟨k, hk, id, hid, hk⟩) env t.msg).2.2 ⟨db0, t.seen.map fun d _ => d, []⟩ (db0, [])
    ⟨by simp, rfl, ⟨rfl, rfl, fun _ _ _ => rfl⟩, fun j a b _ hb => by simp at hb⟩ (List.suffix_refl _) (fun _ h => h)
  rw [(noting_run env t.msg db0).1, (noting_run env t.msg db0).2] at h
  exact h

theorem Thread.leftBefore_find (env : Env) (db0 : Db) (t : Thread) (db : Db) (j : Nat) (hj : j ≤ t.seen.length) :
    leftBefore db0 ((t.find db).run env db0).2.trail j = leftBefore db0 (t.run env db0).2.trail j := by
  cases j with
  | zero => rfl
  | succ j => exact t.left_find env db0 db j hj

/-- what holds during an execution of threads with disjoint identifiers -/
structure Lockstep (env : Env) (db0 : Db) (ms : List Message) (db : Db) (ts : List Thread) : Prop where
  msg : ∀ (i : Nat) (t : Thread), ts[i]? = some t → ms[i]? = some t.msg
  len : ts.length = ms.length
  settled : ∀ (i : Nat) (t : Thread), ts[i]? = some t → t.seen.length ≤ (t.left env db0).length
  chain : ∀ (i : Nat) (t : Thread), ts[i]? = some t → ∀ (j : Nat) (a p : Db), t.seen[j]? = some a → leftBefore db0 (t.run env db0).2.trail j = some p →
    Agree db0.iids (UsedKey env db0 t.msg) a p
  now : ∀ (i : Nat) (t : Thread), ts[i]? = some t → ∀ p, leftBefore db0 (t.run env db0).2.trail t.seen.length = some p →
    Agree db0.iids (UsedKey env db0 t.msg) db p
  off : ChangedIn (fun k => ∃ m ∈ ms, UsedKey env db0 m k) db0 db

theorem Execution.lockstep {env : Env} {db0 : Db} {ms : List Message}
    (hkeys : ∀ m ∈ ms, ∀ id ∈ usedIds env m db0, ∃ k, keyByValue db0.iids id.toStr = some k)
    (hdis : ∀ (i j : Nat) m m', i ≠ j → ms[i]? = some m → ms[j]? = some m' → ∀ k, UsedKey env db0 m k → ¬ UsedKey env db0 m' k)
    {db : Db} {ts : List Thread} (h : Execution env db0 ms db ts) : Lockstep env db0 ms db ts := by
  induction h with
  | start =>
    have hget : ∀ (i : Nat) t, (ms.map fun m => (⟨m, []⟩ : Thread))[i]? = some t → ms[i]? = some t.msg ∧ t.seen = [] := by
      intro i t h
      rw [List.getElem?_map] at h
      cases hm : ms[i]? with
      | none => rw [hm] at h; cases h
      | some m => rw [hm] at h; cases h; exact ⟨rfl, rfl⟩
    refine ⟨fun i t h => (hget i t h).1, by simp, fun i t h => by simp [(hget i t h).2], fun i t h j a p ha _ => ?_, fun i t h p hp => ?_, rfl, fun _ _ _ => rfl⟩
    · rw [(hget i t h).2] at ha; simp at ha
    · rw [(hget i t h).2] at hp
      cases hp
      exact ⟨rfl, rfl, fun _ _ _ => rfl⟩
  | @step db db' ts i t _ hi hacc ih =>
    have hm := ih.msg i t hi
    have hmem : t.msg ∈ ms := List.mem_of_getElem? hm
    have hiids : db.iids = db0.iids := ih.off.1
    have hchain : ∀ j a p, (t.find db).seen[j]? = some a → leftBefore db0 ((t.find db).run env db0).2.trail j = some p →
        Agree db0.iids (UsedKey env db0 t.msg) a p := by
      intro j a p ha hp
      replace ha : (t.seen ++ [db])[j]? = some a := ha
      by_cases hj : j < t.seen.length
      · rw [List.getElem?_append_left hj] at ha
        rw [t.leftBefore_find env db0 db j (Nat.le_of_lt hj)] at hp
        exact ih.chain i t hi j a p ha hp
      · rw [List.getElem?_append_right (by omega), List.getElem?_singleton] at ha
        split at ha
        · have hje : j = t.seen.length := by omega
          subst hje
          cases ha
          rw [t.leftBefore_find env db0 db _ (Nat.le_refl _)] at hp
          exact ih.now i t hi p hp
        · cases ha
    obtain ⟨_, hsync⟩ := (t.find db).follows env db0 (hkeys t.msg hmem) hchain
    have hloc : ChangedIn (UsedKey env db0 t.msg) db db' := by
      refine hsync.loc t.seen.length db db' ?_ hacc
      show (t.seen ++ [db])[t.seen.length]? = some db
      simp
    have hset : ∀ (j : Nat) u, (ts.set i (t.find db))[j]? = some u → (j = i ∧ u = t.find db) ∨ (j ≠ i ∧ ts[j]? = some u) := by
      intro j u hu
      rw [List.getElem?_set] at hu
      split at hu
      · rename_i hij
        split at hu
        · cases hu; exact .inl ⟨hij.symm, rfl⟩
        · cases hu
      · rename_i hij
        exact .inr ⟨fun h => hij h.symm, hu⟩
    refine ⟨?_, by rw [List.length_set]; exact ih.len, ?_, ?_, ?_, ih.off.trans (hloc.mono fun k hk => ⟨t.msg, hmem, hk⟩)⟩
    · intro j u hu
      rcases hset j u hu with ⟨rfl, rfl⟩ | ⟨_, hu⟩
      · exact hm
      · exact ih.msg j u hu
    · intro j u hu
      rcases hset j u hu with ⟨rfl, rfl⟩ | ⟨_, hu⟩
      · have := (List.getElem?_eq_some_iff.1 hacc).1
        show (t.seen ++ [db]).length ≤ _
        simp only [List.length_append, List.length_singleton]
        omega
      · exact ih.settled j u hu
    · intro j u hu
      rcases hset j u hu with ⟨rfl, rfl⟩ | ⟨_, hu⟩
      · exact hchain
      · exact ih.chain j u hu
    · intro j u hu p hp
      rcases hset j u hu with ⟨rfl, rfl⟩ | ⟨hji, hu⟩
      · have hp : ((t.find db).left env db0)[t.seen.length]? = some p := by
          have : (t.find db).seen.length = t.seen.length + 1 := by simp [Thread.find]
          rw [this] at hp
          exact hp
        rw [hacc] at hp
        cases hp
        have : db'.iids = db0.iids := hloc.1.trans hiids
        exact ⟨this, this, fun _ _ _ => rfl⟩
      · refine Agree.trans ?_ (ih.now j u hu p hp)
        exact hloc.agree hiids (hdis j i u.msg t.msg hji (ih.msg j u hu) hm)

/-- C107: any number of threads, each processing a message, on a reachable database.  If the identifiers the calls use have table keys and no
two calls use the same identifier, then in every execution a call that has returned has returned what it would have returned alone, and
has left behind, for every identifier it uses, what it would have left alone; and what no call uses is untouched. -/
theorem C107_disjoint (env : Env) (as : List Action) (ms : List Message)
    (hkeys : ∀ m ∈ ms, ∀ id ∈ usedIds env m (after env as), ∃ k, keyByValue (after env as).iids id.toStr = some k)
    (hdis : ∀ (i j : Nat) m m', i ≠ j → ms[i]? = some m → ms[j]? = some m' → ∀ id ∈ usedIds env m (after env as),
      ∀ id' ∈ usedIds env m' (after env as), id.toStr ≠ id'.toStr)
    (db : Db) (ts : List Thread) (h : Execution env (after env as) ms db ts) :
    (∀ (i : Nat) m t r, ms[i]? = some m → ts[i]? = some t → t.Returned env (after env as) r →
      r = (process sled env m (after env as)).1 ∧
      ∀ tb, ∀ id ∈ usedIds env m (after env as), db.vec tb id.toStr = (process sled env m (after env as)).2.vec tb id.toStr) ∧
    (∀ tb x, (∀ m ∈ ms, ∀ id ∈ usedIds env m (after env as), id.toStr ≠ x) → db.vec tb x = (after env as).vec tb x) := by
  have hinv := after_inv env as
  generalize after env as = db0 at *
  have hin : Lockstep env db0 ms db ts := h.lockstep hkeys fun i j m m' hij hi hj k ⟨id, hid, hk⟩ ⟨id', hid', hk'⟩ =>
    hdis i j m m' hij hi hj id hid id' hid' (hinv.key_inj hk hk')
  refine ⟨fun i m t r hm ht hret => ?_, fun tb x hx => ?_⟩
  · have hmt : t.msg = m := Option.some.inj ((hin.msg i t ht).symm.trans hm)
    have hk : ∀ id ∈ usedIds env t.msg db0, ∃ k, keyByValue db0.iids id.toStr = some k := hkeys _ (hmt ▸ List.mem_of_getElem? hm)
    obtain ⟨h1, h2⟩ := t.follows env db0 hk (hin.chain i t ht)
    refine ⟨by rw [← hret.2, h1, hmt], fun tb id hid => ?_⟩
    rw [hmt] at h2 hk
    have hlast : leftBefore db0 (t.run env db0).2.trail t.seen.length = some (t.run env db0).2.db := by
      rw [h2.last, ← hret.1]
      unfold Thread.left
      cases ht : (t.run env db0).2.trail with
      | nil => rfl
      | cons c l => simp [leftBefore]
    have hag := (hin.now i t ht _ hlast)
    rw [hmt] at hag
    have hag := hag.trans h2.agree
    obtain ⟨k, hkk⟩ := hk id hid
    unfold Db.vec
    rw [hag.1, hag.2.1, hkk]
    exact hag.2.2 tb k ⟨id, hid, hkk⟩
  · unfold Db.vec
    rw [hin.off.1]
    cases hk : keyByValue db0.iids x with
    | none => rfl
    | some k =>
      refine hin.off.2 tb k ?_
      rintro ⟨m, hm, id, hid, hid'⟩
      exact hx m hm id hid (hinv.key_inj hid' hk)

/-- every access of an execution was one of the thread -/
theorem Execution.settled {env : Env} {db0 : Db} {ms : List Message} {db : Db} {ts : List Thread} (h : Execution env db0 ms db ts) (i : Nat)
    (t : Thread) (ht : ts[i]? = some t) : t.seen.length ≤ (t.left env db0).length := by
  induction h generalizing i t with
  | start =>
    rw [List.getElem?_map] at ht
    cases hm : ms[i]? with
    | none => rw [hm] at ht; cases ht
    | some m => rw [hm] at ht; cases ht; exact Nat.zero_le _
  | @step db db' ts k u _ hu hacc ih =>
    rw [List.getElem?_set] at ht
    split at ht
    · split at ht
      · cases ht
        have := (List.getElem?_eq_some_iff.1 hacc).1
        show (u.seen ++ [db]).length ≤ _
        simp only [List.length_append, List.length_singleton]
        omega
      · cases ht
    · exact ih i t ht

/-- C107: no thread blocks another.  At any moment of any execution (of any calls, whatever they use) a thread that has not returned can make its
next access. -/
theorem C107_no_blocking (env : Env) (db0 : Db) (ms : List Message) (db : Db) (ts : List Thread) (h : Execution env db0 ms db ts) (i : Nat)
    (t : Thread) (ht : ts[i]? = some t) :
    (∃ r, t.Returned env db0 r) ∨ ∃ db', Execution env db0 ms db' (ts.set i (t.find db)) := by
  by_cases hl : (t.left env db0).length = t.seen.length
  · exact .inl ⟨_, hl, rfl⟩
  · have hl' : t.seen.length < (t.left env db0).length := Nat.lt_of_le_of_ne (h.settled i t ht) fun h => hl h.symm
    have hn : t.seen.length < ((t.find db).left env db0).length := by
      unfold Thread.left at *
      rcases t.find_run env db0 db with ⟨_, htr, _⟩ | ⟨_, _, _, _, _, hp⟩
      · rw [← htr]; exact hl'
      · rw [List.length_reverse]; exact hp
    exact .inr ⟨_, .step i t h ht (List.getElem?_eq_getElem hn)⟩

/-! ## One call after the other -/

/-- the calls made one after the other: their results and the database at the end -/
def serially (env : Env) : List Message → Db → List (Res (Option IdState)) × Db
  | [], db => ([], db)
  | m :: ms, db => ((process sled env m db).1 :: (serially env ms (process sled env m db).2).1, (serially env ms (process sled env m db).2).2)

/-- a call on a database that agrees with the one on the right on the entries it uses -/
def framed (I : Tree Bytes) (K : Nat → Prop) (A : IdentifierPrefix → Prop) : RelLogic Db (Db × List IdentifierPrefix) where
  rel x y := (∀ s : Db × List IdentifierPrefix, s.2 <:+ (y s).2.2) ∧ ∀ (d : Db) (s : Db × List IdentifierPrefix), Agree I K d s.1 →
    (∀ id ∈ (y s).2.2, A id) → (x d).1 = (y s).1 ∧ Agree I K (x d).2 (y s).2.1 ∧ ChangedIn K d (x d).2
  lift r := ⟨fun _ => List.suffix_refl _, fun d s h _ => ⟨rfl, (h : Agree I K d s.1), rfl, fun _ _ _ => rfl⟩⟩
  bind := by
    rintro α β x y f g ⟨ey, h1⟩ h2
    refine ⟨fun s => ?_, fun d s hs hA => ?_⟩
    · rw [StM.bind_run]
      have := ey s
      rcases hy : y s with ⟨r, s'⟩
      rw [hy] at this
      cases r with
      | ok a => exact this.trans ((h2 a).1 s')
      | err e => exact this
      | panic => exact this
    rw [StM.bind_run] at hA ⊢
    rw [StM.bind_run]
    have h := h1 d s hs
    rcases hx : x d with ⟨r, v⟩
    rcases hy : y s with ⟨r', e⟩
    rw [hx, hy] at h
    rw [hy] at hA
    have hA' : ∀ id ∈ e.2, A id := by
      intro id hid
      apply hA
      cases r' with
      | ok a => exact ((h2 a).1 e).mem hid
      | err _ => exact hid
      | panic => exact hid
    replace h := h hA'
    obtain ⟨hr, h, hc⟩ := h
    dsimp only at hr h hc
    subst hr
    cases r with
    | ok a =>
      obtain ⟨h3, h4, h5⟩ := (h2 a).2 v e h hA
      exact ⟨h3, h4, hc.trans h5⟩
    | err e => exact ⟨rfl, h, hc⟩
    | panic => exact ⟨rfl, h, hc⟩
  result := by
    rintro α x y ⟨ey, h1⟩
    refine ⟨fun s => ?_, fun d s hs hA => ?_⟩
    · have := ey s
      unfold StM.result
      rcases hy : y s with ⟨r, s'⟩
      rw [hy] at this
      cases r <;> exact this
    · have h := h1 d s hs
      unfold StM.result at hA ⊢
      rcases hx : x d with ⟨r, v⟩
      rcases hy : y s with ⟨r', e⟩
      rw [hx, hy] at h
      rw [hy] at hA
      have hA' : ∀ id ∈ e.2, A id := by cases r' <;> exact hA
      replace h := h hA'
      obtain ⟨hr, h, hc⟩ := h
      dsimp only at hr h hc
      subst hr
      cases r <;> exact ⟨rfl, h, hc⟩

theorem Agree.set {I : Tree Bytes} {K : Nat → Prop} {a b : Db} (h : Agree I K a b) (t : Tbl) (k : Nat) (o : Option (List t.Val)) :
    Agree I K (a.setEntry t k o) (b.setEntry t k o) := by
  cases o with
  | none => exact h
  | some l => exact h.put t k l

theorem ChangedIn.set {K : Nat → Prop} {a : Db} (t : Tbl) {k : Nat} (hk : K k) (o : Option (List t.Val)) : ChangedIn K a (a.setEntry t k o) := by
  cases o with
  | none => exact ⟨rfl, fun _ _ _ => rfl⟩
  | some l => exact .put t hk l

theorem framed_ops {I : Tree Bytes} {K : Nat → Prop} {A : IdentifierPrefix → Prop} (hA : ∀ id, A id → ∃ k, keyByValue I id.toStr = some k ∧ K k) :
    ROps (framed I K A) sled noting := by
  have hkey : ∀ id k, keyByValue I id.toStr = some k → ∀ d : Db, d.iids = I → designatedKey id d = (.ok k, d) := by
    intro id k hk d hd
    unfold designatedKey; rw [hd, hk]
  have hset : ∀ (t : Tbl) (id : IdentifierPrefix) (F : Option (List t.Val) → Option (List t.Val)) (d : Db) (s : Db × List IdentifierPrefix),
      Agree I K d s.1 → A id →
      let op : StM Db Unit := designatedKey id >>= fun k => (fun db => (.ok (), db.setEntry t k (F ((db.tables t).get k))) : StM Db Unit)
      (op d).1 = (op s.1).1 ∧ Agree I K (op d).2 (op s.1).2 ∧ ChangedIn K d (op d).2 := by
    intro t id F d s h ha
    obtain ⟨k, hk, hK⟩ := hA id ha
    intro op
    have e1 : op d = (.ok (), d.setEntry t k (F ((d.tables t).get k))) := bind_okW (hkey id k hk d h.1)
    have e2 : op s.1 = (.ok (), s.1.setEntry t k (F ((s.1.tables t).get k))) := bind_okW (hkey id k hk s.1 h.2.1)
    rw [e1, e2]
    dsimp only
    rw [← h.2.2 t k hK]
    exact ⟨rfl, h.set t k _, .set t hK _⟩
  refine ⟨fun t id => ⟨fun s => ⟨[id], rfl⟩, fun d s h hAl => ?_⟩, fun t id v => ⟨fun s => ⟨[id], rfl⟩, fun d s h hAl => ?_⟩,
    fun t id v => ⟨fun s => ⟨[id], rfl⟩, fun d s h hAl => ?_⟩, fun t id vs => ⟨fun s => ⟨[id], rfl⟩, fun d s h hAl => ?_⟩⟩
  · obtain ⟨k, hk, hK⟩ := hA id (hAl id List.mem_cons_self)
    have e1 : sled.read t id d = (t.iterValues ((d.tables t).get k), d) := bind_okW (hkey id k hk d h.1)
    have e2 : sled.read t id s.1 = (t.iterValues ((s.1.tables t).get k), s.1) := bind_okW (hkey id k hk s.1 h.2.1)
    show (sled.read t id d).1 = (sled.read t id s.1).1 ∧ Agree I K (sled.read t id d).2 (sled.read t id s.1).2 ∧ ChangedIn K d (sled.read t id d).2
    rw [e1, e2]
    exact ⟨by dsimp only; rw [h.2.2 t k hK], h, rfl, fun _ _ _ => rfl⟩
  · exact hset t id (fun o => some (t.pushed o v)) d s h (hAl id List.mem_cons_self)
  · exact hset t id (fun o => t.removed o v) d s h (hAl id List.mem_cons_self)
  · exact hset t id (fun _ => some vs) d s h (hAl id List.mem_cons_self)

theorem process_framed (env : Env) (db0 db : Db) (m : Message) (hkeys : ∀ id ∈ usedIds env m db0, ∃ k, keyByValue db0.iids id.toStr = some k)
    (h : Agree db0.iids (UsedKey env db0 m) db db0) :
    (process sled env m db).1 = (process sled env m db0).1 ∧ Agree db0.iids (UsedKey env db0 m) (process sled env m db).2 (process sled env m db0).2 ∧
      ChangedIn (UsedKey env db0 m) db (process sled env m db).2 := by
  have h := (process_rel (framed_ops (I := db0.iids) (K := UsedKey env db0 m) (A := fun id => id ∈ usedIds env m db0) fun id hid => by
    obtain ⟨k, hk⟩ := hkeys id hid
    exact ⟨k, hk, id, hid, hk⟩) env m).2 db (db0, []) h (fun _ h => h)
  rw [(noting_run env m db0).1, (noting_run env m db0).2] at h
  exact h

theorem serially_alone (env : Env) (db0 : Db) (ms : List Message) (db : Db) (hids : db.iids = db0.iids)
    (hkeys : ∀ m ∈ ms, ∀ id ∈ usedIds env m db0, ∃ k, keyByValue db0.iids id.toStr = some k)
    (hdis : ∀ (i j : Nat) m m', i ≠ j → ms[i]? = some m → ms[j]? = some m' → ∀ k, UsedKey env db0 m k → ¬ UsedKey env db0 m' k)
    (hag : ∀ m ∈ ms, Agree db0.iids (UsedKey env db0 m) db db0) :
    (serially env ms db).1 = ms.map (fun m => (process sled env m db0).1) ∧
    (∀ m ∈ ms, Agree db0.iids (UsedKey env db0 m) (serially env ms db).2 (process sled env m db0).2) ∧
    ChangedIn (fun k => ∃ m ∈ ms, UsedKey env db0 m k) db (serially env ms db).2 := by
  induction ms generalizing db with
  | nil => exact ⟨rfl, (fun _ h => absurd h List.not_mem_nil), rfl, fun _ _ _ => rfl⟩
  | cons m ms ih =>
    obtain ⟨h1, h2, h3⟩ := process_framed env db0 db m (hkeys m List.mem_cons_self) (hag m List.mem_cons_self)
    have hd0 : ∀ m' ∈ ms, ∀ k, UsedKey env db0 m' k → ¬ UsedKey env db0 m k := by
      intro m' hm' k hk
      obtain ⟨j, hj, rfl⟩ := List.mem_iff_getElem.1 hm'
      exact hdis (j + 1) 0 _ _ (by omega) (by rw [List.getElem?_cons_succ]; exact List.getElem?_eq_getElem hj) rfl k hk
    have hids' : (process sled env m db).2.iids = db0.iids := h3.1.trans hids
    obtain ⟨i1, i2, i3⟩ := ih (process sled env m db).2 hids' (fun m' h => hkeys m' (List.mem_cons_of_mem _ h))
      (fun i j a b hij ha hb => hdis (i + 1) (j + 1) a b (by omega) ha hb)
      (fun m' hm' => (h3.agree hids (hd0 m' hm')).trans (hag m' (List.mem_cons_of_mem _ hm')))
    refine ⟨by simp only [serially, List.map_cons]; rw [h1, i1], fun m' hm' => ?_, ?_⟩
    · rcases List.mem_cons.1 hm' with rfl | hm'
      · refine (i3.agree hids' ?_).trans h2
        rintro k hk ⟨m'', hm'', hk''⟩
        exact hd0 m'' hm'' k hk'' hk
      · exact i2 m' hm'
    · exact (h3.mono fun k hk => ⟨m, List.mem_cons_self, hk⟩).trans (i3.mono fun k ⟨m', hm', hk⟩ => ⟨m', List.mem_cons_of_mem _ hm', hk⟩)

/-- C107: calls that use different identifiers are as good as made one after the other.  In every execution in which all have returned, they have
returned what they return when made one after the other in the given order (so, in any order), and the tables are the same. -/
theorem C107_serializable (env : Env) (as : List Action) (ms : List Message)
    (hkeys : ∀ m ∈ ms, ∀ id ∈ usedIds env m (after env as), ∃ k, keyByValue (after env as).iids id.toStr = some k)
    (hdis : ∀ (i j : Nat) m m', i ≠ j → ms[i]? = some m → ms[j]? = some m' → ∀ id ∈ usedIds env m (after env as),
      ∀ id' ∈ usedIds env m' (after env as), id.toStr ≠ id'.toStr)
    (db : Db) (ts : List Thread) (h : Execution env (after env as) ms db ts)
    (rs : List (Res (Option IdState))) (hlen : rs.length = ms.length)
    (hret : ∀ (i : Nat) t r, ts[i]? = some t → rs[i]? = some r → t.Returned env (after env as) r) :
    (serially env ms (after env as)).1 = rs ∧ (serially env ms (after env as)).2.vec = db.vec := by
  obtain ⟨h1, h2⟩ := C107_disjoint env as ms hkeys hdis db ts h
  have hinv := after_inv env as
  generalize after env as = db0 at *
  have hdk : ∀ (i j : Nat) m m', i ≠ j → ms[i]? = some m → ms[j]? = some m' → ∀ k, UsedKey env db0 m k → ¬ UsedKey env db0 m' k :=
    fun i j m m' hij hi hj k ⟨id, hid, hk⟩ ⟨id', hid', hk'⟩ => hdis i j m m' hij hi hj id hid id' hid' (hinv.key_inj hk hk')
  have hin := h.lockstep hkeys hdk
  obtain ⟨s1, s2, s3⟩ := serially_alone env db0 ms db0 rfl hkeys hdk fun m _ => ⟨rfl, rfl, fun _ _ _ => rfl⟩
  have hthread : ∀ (i : Nat) m, ms[i]? = some m → ∃ t r, ts[i]? = some t ∧ rs[i]? = some r := by
    intro i m hm
    have hi := (List.getElem?_eq_some_iff.1 hm).1
    exact ⟨_, _, List.getElem?_eq_getElem (by rw [hin.len]; exact hi), List.getElem?_eq_getElem (by rw [hlen]; exact hi)⟩
  refine ⟨?_, ?_⟩
  · rw [s1]
    apply List.ext_getElem?
    intro i
    rw [List.getElem?_map]
    cases hm : ms[i]? with
    | none =>
      have := List.getElem?_eq_none_iff.1 hm
      rw [List.getElem?_eq_none (by omega)]; rfl
    | some m =>
      obtain ⟨t, r, ht, hr⟩ := hthread i m hm
      rw [hr, (h1 i m t r hm ht (hret i t r ht hr)).1]; rfl
  · funext tb x
    by_cases hx : ∃ m ∈ ms, ∃ id ∈ usedIds env m db0, id.toStr = x
    · obtain ⟨m, hm, id, hid, rfl⟩ := hx
      obtain ⟨i, hi, rfl⟩ := List.mem_iff_getElem.1 hm
      have hmi := List.getElem?_eq_getElem hi
      obtain ⟨t, r, ht, hr⟩ := hthread i _ hmi
      rw [(h1 i _ t r hmi ht (hret i t r ht hr)).2 tb id hid]
      obtain ⟨k, hk⟩ := hkeys _ hm id hid
      have hag := s2 _ hm
      unfold Db.vec
      rw [hag.1, hag.2.1, hk]
      exact hag.2.2 tb k ⟨id, hid, hk⟩
    · have hx' : ∀ m ∈ ms, ∀ id ∈ usedIds env m db0, id.toStr ≠ x := fun m hm id hid h => hx ⟨m, hm, id, hid, h⟩
      rw [h2 tb x hx']
      unfold Db.vec
      rw [s3.1]
      cases hk : keyByValue db0.iids x with
      | none => rfl
      | some k =>
        refine s3.2 tb k ?_
        rintro ⟨m, hm, id, hid, hid'⟩
        exact hx' m hm id hid (hinv.key_inj hid' hk)

/-! ## What a call uses -/

/-- the computation notes identifiers in `A` only -/
def NotesIn (A : IdentifierPrefix → Prop) {α : Type} (x : StM (Db × List IdentifierPrefix) α) : Prop :=
  ∀ s, (∀ id ∈ s.2, A id) → ∀ id ∈ (x s).2.2, A id

namespace NotesIn
variable {A : IdentifierPrefix → Prop} {α β : Type}
theorem lift (r : Res α) : NotesIn A (StM.lift r) := fun _ h => h
theorem bind {x : StM (Db × List IdentifierPrefix) α} {f : α → StM (Db × List IdentifierPrefix) β} (h1 : NotesIn A x) (h2 : ∀ a, NotesIn A (f a)) :
    NotesIn A (x >>= f) := by
  intro s h
  rw [StM.bind_run]
  have := h1 s h
  rcases hx : x s with ⟨r, s'⟩
  rw [hx] at this
  cases r with
  | ok a => exact h2 a s' this
  | err e => exact this
  | panic => exact this
theorem result {x : StM (Db × List IdentifierPrefix) α} (h1 : NotesIn A x) : NotesIn A x.result := by
  intro s h
  have := h1 s h
  unfold StM.result
  rcases hx : x s with ⟨r, s'⟩
  rw [hx] at this
  cases r <;> exact this
theorem noted {id : IdentifierPrefix} (hid : A id) {s : Db × List IdentifierPrefix} (h : ∀ i ∈ s.2, A i) : ∀ i ∈ id :: s.2, A i := by
  intro i hi
  rcases List.mem_cons.1 hi with rfl | hi
  · exact hid
  · exact h i hi
theorem read (t : Tbl) {id : IdentifierPrefix} (hid : A id) : NotesIn A (noting.read t id) := fun _ h => noted hid h
theorem push (t : Tbl) {id : IdentifierPrefix} (hid : A id) (v : t.Val) : NotesIn A (noting.push t id v) := fun _ h => noted hid h
theorem remove (t : Tbl) {id : IdentifierPrefix} (hid : A id) (v : t.Val) : NotesIn A (noting.remove t id v) := fun _ h => noted hid h
theorem pure (a : α) : NotesIn A (Pure.pure a) := .lift (.ok a)
theorem fail (e : Error) : NotesIn A (StM.fail e : StM _ α) := .lift (.err e)
theorem computeState {id : IdentifierPrefix} (hid : A id) (env : Env) : NotesIn A (computeState noting env id) := by
  unfold Keriox.computeState getKel
  refine .bind (.read _ hid) fun r => ?_
  cases r with
  | none => exact .pure _
  | some l => exact .bind (.lift _) fun _ => .pure _
theorem getEventAtSn {id : IdentifierPrefix} (hid : A id) (sn : Nat) : NotesIn A (getEventAtSn noting id sn) := by
  unfold Keriox.getEventAtSn getKel
  refine .bind (.read _ hid) fun r => ?_
  cases r with
  | none => exact .pure _
  | some l => exact .pure _
theorem storeAndVerify {e : SignedEvent} (hid : A e.pre) (env : Env) (new : IdState) : NotesIn A (storeAndVerify noting env e new) := by
  unfold Keriox.storeAndVerify addKel removeKel
  refine .bind (.push _ hid _) fun _ => .bind (.lift _) fun b => .bind (.result (.lift _)) fun r => ?_
  split
  · exact .pure _
  · refine .bind ?_ fun _ => .bind (.remove _ hid _) fun _ => .fail _
    unfold noteDup addDup
    split
    · exact .push _ hid _
    · exact .pure _
end NotesIn

/-- C107: what a call uses.  An event that is not delegated uses its own identifier only; so does a receipt of witnesses. -/
theorem C107_plain (env : Env) (db : Db) :
    (∀ e : SignedEvent, (∀ d, e.data ≠ .dip d) → (∀ d, e.data ≠ .drt d) → ∀ id ∈ usedIds env (.event e) db, id = e.pre) ∧
    (∀ r : NtReceipt, ∀ id ∈ usedIds env (.rctNt r) db, id = r.body.prefix) := by
  refine ⟨fun e h1 h2 => ?_, fun r => ?_⟩
  · obtain ⟨A, hA, hid⟩ : ∃ A : IdentifierPrefix → Prop, (∀ i, A i → i = e.pre) ∧ A e.pre := ⟨fun i => i = e.pre, fun _ h => h, rfl⟩
    have hc : checkDelegation noting env e = Pure.pure () := by
      unfold checkDelegation
      split
      · rename_i d hd; exact absurd hd (h1 d)
      · rename_i d hd; exact absurd hd (h2 d)
      · rfl
    have h : NotesIn A (process noting env (.event e)) := by
      show NotesIn _ (processEvent noting env e)
      unfold processEvent
      rw [hc]
      refine .bind (.pure _) fun _ => .bind ?_ fun _ => .storeAndVerify hid env _
      exact .bind (.computeState hid env) fun _ => .lift _
    exact fun i hi => hA i (h _ (fun _ h => absurd h List.not_mem_nil) i hi)
  · obtain ⟨A, hA, hid⟩ : ∃ A : IdentifierPrefix → Prop, (∀ i, A i → i = r.body.prefix) ∧ A r.body.prefix := ⟨fun i => i = r.body.prefix, fun _ h => h, rfl⟩
    have h : NotesIn A (process noting env (.rctNt r)) := by
      show NotesIn _ (processWitnessReceipt noting env r)
      refine .bind ?_ fun _ => .computeState hid env
      unfold witnessReceiptStep addReceiptNt addEscrowNt
      refine .bind (.result (.getEventAtSn hid _)) fun x => ?_
      split
      · refine .bind (.lift _) fun kp => ?_
        split
        · exact .push _ hid _
        · exact .fail _
      · exact .push _ hid _
    exact fun i hi => hA i (h _ (fun _ h => absurd h List.not_mem_nil) i hi)

/-- C107: so plain events of different identifiers that have a table key can be processed by as many threads at once as one likes. -/
theorem C107_events (env : Env) (as : List Action) (es : List SignedEvent)
    (hplain : ∀ e ∈ es, (∀ d, e.data ≠ .dip d) ∧ (∀ d, e.data ≠ .drt d))
    (hkeys : ∀ e ∈ es, ∃ k, keyByValue (after env as).iids e.pre.toStr = some k)
    (hdis : (es.map fun e => e.pre.toStr).Nodup)
    (db : Db) (ts : List Thread) (h : Execution env (after env as) (es.map .event) db ts)
    (rs : List (Res (Option IdState))) (hlen : rs.length = es.length)
    (hret : ∀ (i : Nat) t r, ts[i]? = some t → rs[i]? = some r → t.Returned env (after env as) r) :
    (serially env (es.map .event) (after env as)).1 = rs ∧ (serially env (es.map .event) (after env as)).2.vec = db.vec := by
  have hused : ∀ e ∈ es, ∀ id ∈ usedIds env (.event e) (after env as), id = e.pre := fun e he =>
    (C107_plain env (after env as)).1 e (hplain e he).1 (hplain e he).2
  refine C107_serializable env as (es.map .event) ?_ ?_ db ts h rs (by rw [hlen, List.length_map]) hret
  · intro m hm id hid
    obtain ⟨e, he, rfl⟩ := List.mem_map.1 hm
    rw [hused e he id hid]
    exact hkeys e he
  · intro i j m m' hij hi hj id hid id' hid'
    rw [List.getElem?_map, Option.map_eq_some_iff] at hi hj
    obtain ⟨e, he, rfl⟩ := hi
    obtain ⟨f, hf, rfl⟩ := hj
    rw [hused e (List.mem_of_getElem? he) id hid, hused f (List.mem_of_getElem? hf) id' hid']
    intro hpre
    have hn := List.nodup_iff_pairwise_ne.1 hdis
    obtain ⟨hli, hei⟩ := List.getElem?_eq_some_iff.1 he
    obtain ⟨hlj, hfj⟩ := List.getElem?_eq_some_iff.1 hf
    rw [List.pairwise_iff_getElem] at hn
    rcases Nat.lt_or_gt_of_ne hij with hlt | hlt
    · exact hn i j (by rw [List.length_map]; exact hli) (by rw [List.length_map]; exact hlj) hlt (by rw [List.getElem_map, List.getElem_map, hei, hfj]; exact hpre)
    · exact hn j i (by rw [List.length_map]; exact hlj) (by rw [List.length_map]; exact hli) hlt (by rw [List.getElem_map, List.getElem_map, hei, hfj]; exact hpre.symm)

/-! ## Two threads, turn by turn -/

/-- one more access, by thread `i` -/
def Thread.go (env : Env) (db0 : Db) (s : Db × List Thread) (i : Nat) : Db × List Thread :=
  match s.2[i]? with
  | none => s
  | some t => match ((t.find s.1).left env db0)[t.seen.length]? with
    | none => s
    | some db' => (db', s.2.set i (t.find s.1))
/-- the execution in which the threads of the list make their accesses in that order -/
def execute (env : Env) (db0 : Db) (ms : List Message) (who : List Nat) : Db × List Thread :=
  who.foldl (Thread.go env db0) (db0, ms.map fun m => ⟨m, []⟩)

theorem Execution.execute (env : Env) (db0 : Db) (ms : List Message) (who : List Nat) :
    Execution env db0 ms (execute env db0 ms who).1 (execute env db0 ms who).2 := by
  have h : ∀ (s : Db × List Thread), Execution env db0 ms s.1 s.2 → Execution env db0 ms (who.foldl (Thread.go env db0) s).1 (who.foldl (Thread.go env db0) s).2 := by
    induction who with
    | nil => exact fun s h => h
    | cons i who ih =>
      intro s h
      refine ih _ ?_
      unfold Thread.go
      cases ht : s.2[i]? with
      | none => exact h
      | some t =>
        dsimp only
        cases hd : ((t.find s.1).left env db0)[t.seen.length]? with
        | none => exact h
        | some db' => exact .step i t h ht hd
  exact h _ .start

namespace Ex
/-- a second identifier -/
def icpT : SignedEvent := signAll (msgOr (inceptSelfAddressing env (.icp ⟨kc [7] [8] (.simple 1), 0, [], [], []⟩) .blake3_256 .json)) [7]
/-- its next event -/
def ixnT : SignedEvent := signAll (msgOr ((Event.mk icpT.pre 1 (.ixn ⟨icpT.dig, [.digest ⟨.blake3_256, dig b!"data"⟩]⟩)).toMessage env .json .blake3_256)) [7]
/-- two logs -/
def twoLogs : List Action := [.submit (.event icp), .submit (.event icpT)]
/-- an event for each -/
def twoEvents : List SignedEvent := [rot, ixnT]
/-- turn by turn -/
def turns : List Nat := (List.range 12).map (· % 2)
end Ex

/-- both return, having made every other access, and the two logs have grown -/
example : let x := execute Ex.env (after Ex.env Ex.twoLogs) (Ex.twoEvents.map .event) Ex.turns
    Execution Ex.env (after Ex.env Ex.twoLogs) (Ex.twoEvents.map .event) x.1 x.2 ∧
    (∀ (i : Nat) t r, x.2[i]? = some t → (serially Ex.env (Ex.twoEvents.map .event) (after Ex.env Ex.twoLogs)).1[i]? = some r →
      t.Returned Ex.env (after Ex.env Ex.twoLogs) r) ∧
    (serially Ex.env (Ex.twoEvents.map .event) (after Ex.env Ex.twoLogs)).1.map Res.isOk = [true, true] ∧
    x.1.kel Ex.id = [Ex.icp, Ex.rot] ∧ x.1.kel Ex.icpT.pre = [Ex.icpT, Ex.ixnT] := by
  refine ⟨.execute _ _ _ _, ?_, by decide +kernel, by decide +kernel, by decide +kernel⟩
  have h : ∀ i < 2, ∀ t ∈ (execute Ex.env (after Ex.env Ex.twoLogs) (Ex.twoEvents.map .event) Ex.turns).2[i]?,
      ∀ r ∈ (serially Ex.env (Ex.twoEvents.map .event) (after Ex.env Ex.twoLogs)).1[i]?,
      (t.left Ex.env (after Ex.env Ex.twoLogs)).length = t.seen.length ∧ (t.run Ex.env (after Ex.env Ex.twoLogs)).1 = r := by decide +kernel
  intro i t r ht hr
  have hl : (serially Ex.env (Ex.twoEvents.map .event) (after Ex.env Ex.twoLogs)).1.length = 2 := by decide +kernel
  exact h i (by rw [← hl]; exact (List.getElem?_eq_some_iff.1 hr).1) t ht r hr

/-- the hypotheses of `C107_events` -/
example : (∀ e ∈ Ex.twoEvents, (∀ d, e.data ≠ .dip d) ∧ (∀ d, e.data ≠ .drt d)) ∧
    (∀ e ∈ Ex.twoEvents, ∃ k, keyByValue (after Ex.env Ex.twoLogs).iids e.pre.toStr = some k) ∧
    (Ex.twoEvents.map fun e => e.pre.toStr).Nodup := by
  refine ⟨?_, ?_, by decide +kernel⟩
  · intro e he
    rcases List.mem_cons.1 he with rfl | he
    · have h : Ex.rot.data.delegator? = none ∧ (match Ex.rot.data with | .drt _ => false | _ => true) = true := by decide +kernel
      exact ⟨fun d hd => by rw [hd] at h; exact absurd h.1 (by simp [EventData.delegator?]), fun d hd => by rw [hd] at h; exact absurd h.2 (by simp)⟩
    · obtain rfl := List.mem_singleton.1 he
      have h : Ex.ixnT.data.delegator? = none ∧ (match Ex.ixnT.data with | .drt _ => false | _ => true) = true := by decide +kernel
      exact ⟨fun d hd => by rw [hd] at h; exact absurd h.1 (by simp [EventData.delegator?]), fun d hd => by rw [hd] at h; exact absurd h.2 (by simp)⟩
  · have h : ∀ e ∈ Ex.twoEvents, (keyByValue (after Ex.env Ex.twoLogs).iids e.pre.toStr).isSome = true := by decide +kernel
    exact fun e he => Option.isSome_iff_exists.1 (h e he)

/-- the hypothesis that the calls use different identifiers is needed: two threads with different events at the same place of the same log both
return a success, and the log holds only one of them; one call after the other, the second fails -/
theorem C107_same_identifier :
    let x := execute Ex.env (after Ex.env (Ex.hist.take 2)) [.event Ex.ixn, .event Ex.ixnB] Ex.turns
    Execution Ex.env (after Ex.env (Ex.hist.take 2)) [.event Ex.ixn, .event Ex.ixnB] x.1 x.2 ∧
    x.2.map (fun t => decide ((t.left Ex.env (after Ex.env (Ex.hist.take 2))).length = t.seen.length) && (t.run Ex.env (after Ex.env (Ex.hist.take 2))).1.isOk) = [true, true] ∧
    Ex.ixn.sn = Ex.ixnB.sn ∧ x.1.kel Ex.id = [Ex.icp, Ex.rot, Ex.ixnB] ∧
    (serially Ex.env [.event Ex.ixn, .event Ex.ixnB] (after Ex.env (Ex.hist.take 2))).1.map Res.isOk = [true, false] := by
  refine ⟨.execute _ _ _ _, ?_⟩
  decide +kernel

end Keriox
