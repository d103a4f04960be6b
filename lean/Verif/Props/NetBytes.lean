import Verif.Props.Network
import Verif.Props.Node
/-!
# C120: a network that exchanges bytes

As C94, but nothing is handed over except byte strings: nodes are given bytes with `respond` and `respond_single`, they sign receipts, reprocess what waits,
and export logs, in any order.
-/
namespace Keriox

/-! ## Specification -/

variable {ι : Type} [DecidableEq ι]

/-- what can happen at a node -/
inductive Wired (ι : Type) where
  /-- its user rotates or interacts -/
  | call (n : ι) (c : Call)
  /-- bytes from anywhere, for `respond` -/
  | respond (n : ι) (bytes : Bytes)
  /-- bytes from anywhere, for `respond_single` -/
  | single (n : ι) (bytes : Bytes)
  /-- `make_rct` for a message -/
  | receipt (n : ι) (m : EventMessage)
  /-- `get_kerl` for an identifier -/
  | «export» (n : ι) (id : IdentifierPrefix)
  /-- `process_escrow` -/
  | reprocess (n : ι)

/-- node `n` becomes `v` -/
def Net.put (x : Net ι) (n : ι) (v : Controller × Db) : Net ι := fun k => if k = n then v else x k

/-- the network afterwards, whatever the call returned (or after a panic) -/
def Wired.run (bin : Binary) (env : Env) (sg : SignFn) (x : Net ι) : Wired ι → Net ι
  | .call n c => x.put n (c.run env sg (x n)).2
  | .respond n b => x.put n ((x n).1, ((x n).1.respond bin sled env sg b (x n).2).2)
  | .single n b => x.put n ((x n).1, (respondSingle bin sled env b (x n).2).2)
  | .receipt n m => x.put n ((x n).1, ((x n).1.makeRct sled env sg m (x n).2).2)
  | .export n id => x.put n ((x n).1, (getKerl sled id (x n).2).2)
  | .reprocess n => x.put n ((x n).1, (processEscrow sled env (x n).2).2)

/-- the messages the stream parser makes of the bytes -/
def streamOf (bin : Binary) (b : Bytes) (m : Message) : Prop :=
  ∃ rest ds d, signedEventStreamP bin b = .ok rest ds ∧ d ∈ ds ∧ d.toMessage = .ok m

/-- the message the parser makes of the first bytes -/
def firstOf (bin : Binary) (b : Bytes) : Option Message :=
  match signedMessageP bin b with
  | .ok _ d => match d.toMessage with | .ok m => some m | _ => none
  | _ => none

/-- users rotate and interact; the bytes may hold anything, but no event in the name of a node that its owner has not logged -/
def Wired.Honest (bin : Binary) (x : Net ι) : Wired ι → Prop
  | .call _ c => c.own = true
  | .respond _ b => ∀ i e, streamOf bin b (.event e) → e.pre.toStr = (x.pre i).toStr → e ∈ x.own i
  | .single _ b => ∀ i e, firstOf bin b = some (.event e) → e.pre.toStr = (x.pre i).toStr → e ∈ x.own i
  | _ => True

/-- the network after a schedule -/
def Net.wired (bin : Binary) (env : Env) (sg : SignFn) (x : Net ι) (hs : List (Wired ι)) : Net ι := hs.foldl (fun x h => h.run bin env sg x) x

/-- everything that happens is honest at the moment it happens -/
def Net.HonestBytes (bin : Binary) (env : Env) (sg : SignFn) (x : Net ι) : List (Wired ι) → Prop
  | [] => True
  | h :: hs => h.Honest bin x ∧ Net.HonestBytes bin env sg (h.run bin env sg x) hs

/-- the number of calls of the user of node `n` -/
def userCalls (n : ι) (hs : List (Wired ι)) : Nat := hs.countP fun | .call k _ => k = n | _ => false

/-- the byte strings given to `respond_single` at node `n`, in order -/
def handed (n : ι) (hs : List (Wired ι)) : List Bytes := hs.filterMap fun | .single k b => if k = n then some b else none | _ => none

/-! ## Proof -/

/-- a computation that does to a database what some actions do; the events submitted among them satisfy `Q` -/
def Traces {α : Type} (env : Env) (Q : SignedEvent → Prop) (x : StM Db α) : Prop :=
  ∀ db, ∃ bs, (x db).2 = runHistory sled env db bs ∧ ∀ e, Action.submit (.event e) ∈ bs → Q e

namespace Traces
variable {α β : Type} {env : Env} {Q : SignedEvent → Prop}
theorem still (db : Db) : ∃ bs, db = runHistory sled env db bs ∧ ∀ e, Action.submit (.event e) ∈ bs → Q e := ⟨[], rfl, fun _ h => absurd h List.not_mem_nil⟩
theorem lift (r : Res α) : Traces env Q (StM.lift r) := fun _ => still _
theorem pure (a : α) : Traces env Q (Pure.pure a : StM Db α) := .lift (.ok a)
theorem fail (e : Error) : Traces env Q (StM.fail e : StM Db α) := .lift (.err e)
theorem bind {x : StM Db α} {f : α → StM Db β} (hx : Traces env Q x) (hf : ∀ a, Traces env Q (f a)) : Traces env Q (x >>= f) := by
  intro db
  obtain ⟨bs, h1, h2⟩ := hx db
  rw [StM.bind_run]
  rcases hr : x db with ⟨r, db'⟩
  rw [hr] at h1
  cases r with
  | ok a =>
    obtain ⟨cs, h3, h4⟩ := hf a db'
    refine ⟨bs ++ cs, ?_, fun e he => ?_⟩
    · rw [runHistory_append, ← h1]; exact h3
    · rcases List.mem_append.1 he with he | he
      · exact h2 e he
      · exact h4 e he
  | err e => exact ⟨bs, h1, h2⟩
  | panic => exact ⟨bs, h1, h2⟩
theorem bindLift {r : Res α} {f : α → StM Db β} (hf : ∀ a, r = .ok a → Traces env Q (f a)) : Traces env Q (StM.lift r >>= f) := by
  intro db
  rw [StM.bind_run]
  cases r with
  | ok a => exact hf a rfl db
  | err e => exact still _
  | panic => exact still _
theorem result {x : StM Db α} (hx : Traces env Q x) : Traces env Q x.result := by
  intro db
  obtain ⟨bs, h1, h2⟩ := hx db
  refine ⟨bs, ?_, h2⟩
  unfold StM.result
  rcases hr : x db with ⟨r, db'⟩
  rw [hr] at h1
  cases r <;> exact h1
theorem read (t : Tbl) (id : IdentifierPrefix) : Traces env Q (sled.read t id) := fun _ =>
  ⟨[.lookup t id], rfl, fun e he => by cases List.mem_singleton.1 he⟩
theorem process (m : Message) (hq : ∀ e, m = .event e → Q e) : Traces env Q (Keriox.process sled env m) := fun _ =>
  ⟨[.submit m], rfl, fun e he => hq e (Action.submit.inj (List.mem_singleton.1 he)).symm⟩
theorem lastEstSeal (id : IdentifierPrefix) : Traces env Q (getLastEstSeal sled env id) := by
  refine .bind (.read _ _) fun o => ?_
  cases o with
  | none => exact .pure _
  | some l => exact .bind (.lift _) fun _ => .pure _
theorem kerl (id : IdentifierPrefix) : Traces env Q (getKerl sled id) := by
  refine .bind (.read _ _) fun o => ?_
  cases o with
  | none => exact .pure _
  | some l => exact .bind (.lift _) fun _ => .pure _
theorem makeRct (sg : SignFn) (c : Controller) (m : EventMessage) : Traces env Q (c.makeRct sled env sg m) := by
  refine .bind (.lift _) fun _ => .bind (.lift _) fun _ => .bind (.lastEstSeal _) fun o => ?_
  cases o with
  | none => exact .fail _
  | some sl => exact .bind (.lift _) fun r => .bind (.process _ fun e h => by cases h) fun _ => .pure _
theorem answer (sg : SignFn) (c : Controller) (m : Message) : Traces env Q (c.answer sled env sg m) := by
  cases m with
  | event e =>
    refine .bind ?_ fun _ => .bind (.makeRct _ _ _) fun _ => .bind (.lift _) fun _ => .pure _
    unfold Controller.ownKerl
    split
    · refine .bind ?_ fun b => ?_
      · refine .bind (.read _ _) fun o => ?_
        cases o <;> exact .pure _
      · cases b
        · refine .bind (.kerl _) fun o => ?_
          cases o
          · exact .fail _
          · exact .pure _
        · exact .pure _
    · exact .pure _
  | rctT r => exact .pure _
  | rctNt r => exact .lift _
  | reply r => exact .lift _
  | query q => exact .lift _
theorem answers (sg : SignFn) (c : Controller) (ms : List Message) : Traces env Q (c.answers sled env sg ms) := by
  induction ms with
  | nil => exact .pure _
  | cons m ms ih =>
    refine .bind (Traces.answer sg c m).result fun r => .bind ih fun b => ?_
    cases r <;> exact .pure _
theorem respondAll {ds : List SignedEventData} (h : ∀ d ∈ ds, ∀ e, d.toMessage = .ok (.event e) → Q e) : Traces env Q (respondAll sled env ds) := by
  induction ds with
  | nil => exact .pure _
  | cons d ds ih =>
    refine .bind (.result (.bindLift fun m hm => .bind (.process m fun e he => h d List.mem_cons_self e (he ▸ hm)) fun _ => .pure _)) fun r =>
      .bind (ih fun d hd => h d (List.mem_cons_of_mem _ hd)) fun ms => ?_
    cases r <;> exact .pure _
theorem respond (bin : Binary) (sg : SignFn) (c : Controller) (b : Bytes) :
    Traces env (fun e => streamOf bin b (.event e)) (c.respond bin sled env sg b) := by
  refine .bindLift fun ds hd => ?_
  obtain ⟨rest, hp⟩ := parsed_ok hd
  exact .bind (.respondAll fun d hd e he => ⟨rest, ds, d, hp, hd, he⟩) fun ms => .answers _ _ ms
end Traces

/-- `respond_single` submits the message it has read, if it has read one, and does nothing else -/
theorem single_runs (bin : Binary) (env : Env) (b : Bytes) (db : Db) :
    (respondSingle bin sled env b db).2 = runHistory sled env db ((firstOf bin b).toList.map .submit) := by
  unfold respondSingle firstOf
  rw [StM.bind_run]
  cases hp : signedMessageP bin b with
  | ok rest d =>
    simp only [parsed, StM.lift]
    rw [StM.bind_run]
    cases hm : d.toMessage with
    | ok m =>
      simp only [StM.result, StM.lift, Option.toList, List.map_cons, List.map_nil]
      rw [StM.bind_run]
      show _ = (Keriox.process sled env m db).2
      rcases hr : Keriox.process sled env m db with ⟨r, db'⟩
      cases r with
      | ok o => cases o <;> rfl
      | err e => rfl
      | panic => rfl
    | err e => rfl
    | panic => rfl
  | error => rfl
  | failure => rfl
  | incomplete => rfl
  | panic => rfl

theorem NetInv.weaken {env : Env} {sg : SignFn} {x : Net ι} {seen seen' : ι → List Action} {k : ι → Nat} (I : NetInv env sg x seen k)
    (h : ∀ n, (seen' n).Sublist (seen n)) : NetInv env sg x seen' k := by
  refine ⟨I.distinct, fun n => ?_⟩
  obtain ⟨as, s, h1, h2, h3, h4, h5⟩ := I.node n
  exact ⟨as, s, h1, h2, h3, (h n).trans h4, h5⟩

/-- actions at one node -/
theorem NetInv.actions {env : Env} {sg : SignFn} {x : Net ι} {seen : ι → List Action} {k : ι → Nat} (I : NetInv env sg x seen k) (n : ι) (bs : List Action)
    (hh : ∀ e, Action.submit (.event e) ∈ bs → ∀ i, e.pre.toStr = (x.pre i).toStr → e ∈ x.own i) :
    let y := x.put n ((x n).1, runHistory sled env (x n).2 bs)
    (∀ i, y.pre i = x.pre i) ∧ (∀ i, x.own i <+: y.own i) ∧ NetInv env sg y (fun i => if i = n then seen i ++ bs else seen i) k := by
  induction bs generalizing x seen with
  | nil =>
    have hy : x.put n ((x n).1, runHistory sled env (x n).2 []) = x := by
      funext i
      unfold Net.put
      split
      · rename_i h; subst h; rfl
      · rfl
    have hs : (fun i => if i = n then seen i ++ [] else seen i) = seen := by funext i; simp
    rw [hy, hs]
    exact ⟨fun _ => rfl, fun _ => List.prefix_refl _, I⟩
  | cons a bs ih =>
    obtain ⟨g1, g2, g3⟩ := I.arrives n a (by
      intro i hs
      cases a with
      | submit m =>
        cases m with
        | event e => exact ⟨e, hh e List.mem_cons_self i hs, rfl⟩
        | rctNt r => cases hs
        | rctT r => cases hs
        | reply r => cases hs
        | query q => cases hs
      | reprocess => cases hs
      | lookup t i => cases hs)
    obtain ⟨k1, k2, k3⟩ := ih g3 (fun e he i hp => (g2 i).subset (hh e (List.mem_cons_of_mem _ he) i (by rw [← g1]; exact hp)))
    have hy : (Net.put ((Happening.arrives n a).run env sg x) n
        (((Happening.arrives n a).run env sg x n).1, runHistory sled env ((Happening.arrives n a).run env sg x n).2 bs)) =
        x.put n ((x n).1, runHistory sled env (x n).2 (a :: bs)) := by
      funext i
      unfold Net.put Happening.run
      by_cases h : i = n
      · subst h; simp [runHistory]
      · simp [h]
    have hs : (fun i => if i = n then (if i = n then seen i ++ [a] else seen i) ++ bs else (if i = n then seen i ++ [a] else seen i)) =
        (fun i => if i = n then seen i ++ (a :: bs) else seen i) := by
      funext i
      by_cases h : i = n <;> simp [h]
    dsimp only at k1 k2 k3 ⊢
    rw [hy] at k1 k2 k3
    rw [hs] at k3
    exact ⟨fun i => (k1 i).trans (g1 i), fun i => (g2 i).trans (k2 i), k3⟩

theorem wired_run {bin : Binary} {env : Env} {sg : SignFn} (hb : env.Blake3Size) (hs : List (Wired ι)) :
    ∀ {x : Net ι} {seen : ι → List Action} {k : ι → Nat},
    NetInv env sg x seen k → x.HonestBytes bin env sg hs → (∀ n, k n + userCalls n hs ≤ u64max) →
    (∀ i, (x.wired bin env sg hs).pre i = x.pre i) ∧ (∀ i, x.own i <+: (x.wired bin env sg hs).own i) ∧
    NetInv env sg (x.wired bin env sg hs) (fun i => seen i ++ (handed i hs).filterMap fun b => (firstOf bin b).map .submit)
      (fun i => k i + userCalls i hs) := by
  induction hs with
  | nil =>
    intro x seen k I _ _
    refine ⟨fun _ => rfl, fun _ => List.prefix_refl _, ?_⟩
    have h1 : (fun i => seen i ++ (handed i ([] : List (Wired ι))).filterMap fun b => (firstOf bin b).map .submit) = seen := by funext i; simp [handed]
    have h2 : (fun i => k i + userCalls i []) = k := by funext i; simp [userCalls]
    rw [h1, h2]
    exact I
  | cons h hs ih =>
    intro x seen k I hon hk
    -- everything but a call of the user
    have acts : ∀ (n : ι) (bs : List Action), h.run bin env sg x = x.put n ((x n).1, runHistory sled env (x n).2 bs) →
        (∀ e, Action.submit (.event e) ∈ bs → ∀ i, e.pre.toStr = (x.pre i).toStr → e ∈ x.own i) → (∀ m c, h ≠ .call m c) →
        (∀ i, ((handed i (h :: hs)).filterMap fun b => (firstOf bin b).map Action.submit).Sublist
          ((if i = n then bs else []) ++ (handed i hs).filterMap fun b => (firstOf bin b).map .submit)) →
        (∀ i, (x.wired bin env sg (h :: hs)).pre i = x.pre i) ∧ (∀ i, x.own i <+: (x.wired bin env sg (h :: hs)).own i) ∧
        NetInv env sg (x.wired bin env sg (h :: hs)) (fun i => seen i ++ (handed i (h :: hs)).filterMap fun b => (firstOf bin b).map .submit)
          (fun i => k i + userCalls i (h :: hs)) := by
      intro n bs hrun hq hnc hsub
      obtain ⟨g1, g2, g3⟩ := I.actions n bs hq
      have hc : ∀ i, userCalls i (h :: hs) = userCalls i hs := by
        intro i
        unfold userCalls
        rw [List.countP_cons]
        cases h with
        | call m c => exact absurd rfl (hnc m c)
        | _ => rfl
      rw [← hrun] at g3
      obtain ⟨j1, j2, j3⟩ := ih g3 hon.2 (fun m => by rw [← hc m]; exact hk m)
      refine ⟨fun i => (j1 i).trans (by rw [hrun]; exact g1 i), fun i => (g2 i).trans (by rw [← hrun]; exact j2 i), ?_⟩
      have h2 : (fun i => k i + userCalls i (h :: hs)) = (fun i => k i + userCalls i hs) := by funext i; rw [hc]
      rw [h2]
      refine j3.weaken fun i => ?_
      have := hsub i
      by_cases hi : i = n
      · rw [if_pos hi] at this ⊢
        rw [List.append_assoc]
        exact (List.Sublist.refl _).append this
      · rw [if_neg hi] at this ⊢
        exact (List.Sublist.refl _).append (by simpa using this)
    have same : ∀ (n : ι) (bs : List Action), (∀ i, handed i (h :: hs) = handed i hs) →
        ∀ i, ((handed i (h :: hs)).filterMap fun b => (firstOf bin b).map Action.submit).Sublist
          ((if i = n then bs else []) ++ (handed i hs).filterMap fun b => (firstOf bin b).map .submit) := by
      intro n bs he i
      rw [he]
      exact List.sublist_append_right _ _
    cases h with
    | call n c =>
      have hc : ∀ i, userCalls i (.call n c :: hs) = userCalls i hs + if n = i then 1 else 0 := by
        intro i
        unfold userCalls
        rw [List.countP_cons]
        simp
      obtain ⟨_, hp, ho, I'⟩ := I.call hb n c hon.1 (by have := hk n; rw [hc, if_pos rfl] at this; omega)
      obtain ⟨j1, j2, j3⟩ := ih I' hon.2 (fun m => by
        have := hk m
        rw [hc] at this
        by_cases hm : m = n
        · subst hm; rw [if_pos rfl] at this ⊢; omega
        · rw [if_neg (fun h => hm h.symm)] at this; rw [if_neg hm]; omega)
      refine ⟨fun i => (j1 i).trans (hp i), fun i => (ho i).trans (j2 i), ?_⟩
      have h1 : (fun i => seen i ++ (handed i (.call n c :: hs)).filterMap fun b => (firstOf bin b).map Action.submit) =
          (fun i => seen i ++ (handed i hs).filterMap fun b => (firstOf bin b).map .submit) := by funext i; simp [handed]
      have h2 : (fun i => k i + userCalls i (.call n c :: hs)) = (fun i => (if i = n then k i + 1 else k i) + userCalls i hs) := by
        funext i
        rw [hc]
        by_cases hm : i = n
        · subst hm; rw [if_pos rfl, if_pos rfl]; omega
        · rw [if_neg (fun h => hm h.symm), if_neg hm]; omega
      rw [h1, h2]
      exact j3
    | respond n b =>
      obtain ⟨bs, h1, h2⟩ := Traces.respond (env := env) bin sg (x n).1 b (x n).2
      exact acts n bs (by show x.put n _ = _; rw [h1]) (fun e he i hp => hon.1 i e (h2 e he) hp) (fun _ _ h => by cases h)
        (same n bs fun i => by simp [handed])
    | single n b =>
      refine acts n _ (by show x.put n _ = _; rw [single_runs]) (fun e he i hp => hon.1 i e ?_ hp) (fun _ _ h => by cases h) fun i => ?_
      · cases hf : firstOf bin b with
        | none => rw [hf] at he; cases he
        | some m => rw [hf] at he; simp at he; rw [he]
      · by_cases hi : i = n
        · subst hi
          unfold handed
          rw [List.filterMap_cons]
          simp only [if_pos]
          rw [List.filterMap_cons]
          cases hf : firstOf bin b with
          | none => simp
          | some m => simp
        · unfold handed
          rw [List.filterMap_cons]
          simp only [if_neg (fun h => hi h.symm : ¬ n = i), if_neg hi]
          simp
    | receipt n m =>
      obtain ⟨bs, h1, h2⟩ := Traces.makeRct (env := env) (Q := fun _ => False) sg (x n).1 m (x n).2
      exact acts n bs (by show x.put n _ = _; rw [h1]) (fun e he => (h2 e he).elim) (fun _ _ h => by cases h) (same n bs fun i => by simp [handed])
    | «export» n id =>
      obtain ⟨bs, h1, h2⟩ := Traces.kerl (env := env) (Q := fun _ => False) id (x n).2
      exact acts n bs (by show x.put n _ = _; rw [h1]) (fun e he => (h2 e he).elim) (fun _ _ h => by cases h) (same n bs fun i => by simp [handed])
    | reprocess n =>
      exact acts n [.reprocess] rfl (fun e he => by cases List.mem_singleton.1 he) (fun _ _ h => by cases h) (same n _ fun i => by simp [handed])

/-! ## C120 -/

section
variable {bin : Binary} {env : Env} {sg : SignFn} {x : Net ι} {past : ι → List Action} {hs : List (Wired ι)}

theorem wired_after (hb : env.Blake3Size) (B : x.Begins env sg past) (hon : x.HonestBytes bin env sg hs) (hc : ∀ n, userCalls n hs ≤ u64max) :
    NetInv env sg (x.wired bin env sg hs) (fun i => (handed i hs).filterMap fun b => (firstOf bin b).map .submit) (fun i => userCalls i hs) := by
  have := (wired_run hb hs (net_begins hb B) hon (fun n => by have := hc n; omega)).2.2
  simpa using this

/-- C120: whatever bytes nodes exchange, in whatever order, and whatever the calls return, what any node has of the log of any node is an initial piece of
that log as its owner has it at that moment … -/
theorem C120_copies_are_prefixes (hb : env.Blake3Size) (B : x.Begins env sg past) (hon : x.HonestBytes bin env sg hs) (hc : ∀ n, userCalls n hs ≤ u64max)
    (n i : ι) : (x.wired bin env sg hs).copy n i <+: (x.wired bin env sg hs).own i := ((wired_after hb B hon hc).copy n i).1

/-- … so two nodes never have different events at the same place of the log of a third … -/
theorem C120_no_conflict (hb : env.Blake3Size) (B : x.Begins env sg past) (hon : x.HonestBytes bin env sg hs) (hc : ∀ n, userCalls n hs ≤ u64max)
    (n m i : ι) (j : Nat) (e e' : SignedEvent) (h1 : ((x.wired bin env sg hs).copy n i)[j]? = some e) (h2 : ((x.wired bin env sg hs).copy m i)[j]? = some e') :
    e = e' := by
  obtain ⟨t, ht⟩ := C120_copies_are_prefixes hb B hon hc n i
  obtain ⟨u, hu⟩ := C120_copies_are_prefixes hb B hon hc m i
  have g1 : ((x.wired bin env sg hs).own i)[j]? = some e := by
    rw [← ht, List.getElem?_append_left (List.getElem?_eq_some_iff.1 h1).1]; exact h1
  have g2 : ((x.wired bin env sg hs).own i)[j]? = some e' := by
    rw [← hu, List.getElem?_append_left (List.getElem?_eq_some_iff.1 h2).1]; exact h2
  rw [g1] at g2
  exact Option.some.inj g2

/-- … no bytes keep a node from rotating and interacting: its log is its inception and one event for each call of its user … -/
theorem C120_progress (hb : env.Blake3Size) (B : x.Begins env sg past) (hon : x.HonestBytes bin env sg hs) (hc : ∀ n, userCalls n hs ≤ u64max) (n : ι) :
    ((x.wired bin env sg hs).own n).length = 1 + userCalls n hs := by
  obtain ⟨as, s, h1, R, h3, _⟩ := (wired_after hb B hon hc).node n
  have := ((R.log.facts R.preNe).2.1 R.nonempty).2.2.1
  show ((x.wired bin env sg hs n).2.kel (x.wired bin env sg hs n).1.pre).length = _
  rw [h1]
  omega

/-- the events of a log in such a network can be written and read back -/
theorem wired_exportable (hb : env.Blake3Size) (B : x.Begins env sg past) (hon : x.HonestBytes bin env sg hs) (hc : ∀ n, userCalls n hs ≤ u64max) (i : ι)
    (hx : ∀ e ∈ x.own i, e.Exportable) : ∀ e ∈ (x.wired bin env sg hs).own i, e.Exportable ∧ e.data.isDelegated = false ∧ (Message.event e).Wireable := by
  intro e he
  obtain ⟨as, s, h1, R, _⟩ := (wired_after hb B hon hc).node i
  have hp := (wired_run hb hs (net_begins hb B) hon (fun n => by have := hc n; omega)).2.1 i
  have hne : x.own i ≠ [] := by
    obtain ⟨as0, s0, g1, R0, _⟩ := (net_begins hb B).node i
    show (x i).2.kel (x i).1.pre ≠ []
    rw [g1]
    exact R0.nonempty
  have hown : (x.wired bin env sg hs).own i = (after env as).kel (x.wired bin env sg hs i).1.pre := by
    show (x.wired bin env sg hs i).2.kel _ = _
    rw [h1]
    rfl
  have hexp : e.Exportable := by
    by_cases hi : e.data.isInception = true
    · obtain ⟨j, hj⟩ := List.getElem?_of_mem he
      have hj' := hj
      rw [hown] at hj'
      have h0 := (C03_contiguous env as _ R.preNe j e hj').2.1.1 hi
      subst h0
      obtain ⟨t, ht⟩ := hp
      cases hl : x.own i with
      | nil => exact absurd hl hne
      | cons a l =>
        rw [← ht, hl] at hj
        cases hj
        exact hx e (by rw [hl]; simp)
    · rw [hown] at he
      exact R.later e he (by simpa using hi)
  rw [hown] at he
  have hnd := R.plain e he
  refine ⟨hexp, hnd, hexp.1, R.json e he, hexp.2.1, ?_⟩
  rw [(R.log.noSeal e he).1]
  exact hnd

/-- … a node that has been given the wire texts of a log one by one, in order (with any repetitions, and anything else, before, in between and after), has the
whole log … -/
theorem C120_complete (hb : env.Blake3Size) (hbin : bin.RejectsJson) (B : x.Begins env sg past) (hon : x.HonestBytes bin env sg hs)
    (hc : ∀ n, userCalls n hs ≤ u64max) (n i : ι) (hx : ∀ e ∈ x.own i, e.Exportable) (ts : List Bytes)
    (hts : ((x.wired bin env sg hs).own i).map (fun e => e.toData.toCesr env) = ts.map .ok) (hall : ts.Sublist (handed n hs)) :
    (x.wired bin env sg hs).copy n i = (x.wired bin env sg hs).own i := by
  refine ((wired_after hb B hon hc).copy n i).2 ?_
  have hw := wired_exportable hb B hon hc i hx
  refine List.Sublist.trans (l₂ := ts.filterMap fun b => (firstOf bin b).map .submit) ?_ (hall.filterMap _)
  generalize (x.wired bin env sg hs).own i = l at *
  have : replay l = ts.filterMap fun b => (firstOf bin b).map .submit := by
    clear hall
    induction l generalizing ts with
    | nil =>
      cases ts with
      | nil => rfl
      | cons t ts => cases hts
    | cons e l ih =>
      cases ts with
      | nil => cases hts
      | cons t ts =>
        simp only [List.map_cons, List.cons.injEq] at hts
        obtain ⟨d, t', h1, h2, h3⟩ := reads_message env bin hbin (.event e) (hw e (by simp)).2.2
        cases h1
        rw [hts.1] at h2
        cases h2
        obtain ⟨d, h4, h5⟩ := h3.2 [] (Or.inl rfl)
        rw [List.append_nil] at h4
        have hf : firstOf bin t = some (.event e) := by
          unfold firstOf
          rw [h4]
          dsimp only
          rw [h5]
        rw [List.filterMap_cons, hf]
        simp only [Option.map_some]
        rw [← ih ts hts.2 fun e he => hw e (by simp [he])]
        rfl
  rw [this]
  exact List.Sublist.refl _

/-- … and at any moment a node can be brought up to date: the owner's own log, if it has no seals, is exported by `get_kerl`; handing these bytes to `respond`
at any node is honest, and afterwards that node has the whole log, whatever it had of it before. -/
theorem C120_synced (hb : env.Blake3Size) (hbin : bin.RejectsJson) (B : x.Begins env sg past) (hon : x.HonestBytes bin env sg hs)
    (hc : ∀ n, userCalls n hs ≤ u64max) (n i : ι) (hx : ∀ e ∈ x.own i, e.Exportable)
    (hns : ∀ e ∈ (x.wired bin env sg hs).own i, e.data.seals = []) :
    ∃ b, (getKerl sled ((x.wired bin env sg hs).pre i) (x.wired bin env sg hs i).2).1 = .ok (some b) ∧
      x.HonestBytes bin env sg (hs ++ [.respond n b]) ∧
      (x.wired bin env sg (hs ++ [.respond n b])).copy n i = (x.wired bin env sg hs).own i := by
  have I := wired_after hb B hon hc
  have hw := wired_exportable hb B hon hc i hx
  have hpre := C120_copies_are_prefixes hb B hon hc n i
  have hrun : ∀ b, x.wired bin env sg (hs ++ [.respond n b]) = (Wired.respond n b).run bin env sg (x.wired bin env sg hs) := by
    intro b; unfold Net.wired; rw [List.foldl_append]; rfl
  have hhon : ∀ b, (Wired.respond n b).Honest bin (x.wired bin env sg hs) → x.HonestBytes bin env sg (hs ++ [.respond n b]) := by
    intro b
    clear hns I hw hpre hrun hx hc B
    induction hs generalizing x with
    | nil => exact fun h => ⟨h, trivial⟩
    | cons h hs ih => exact fun hh => ⟨hon.1, ih hon.2 hh⟩
  generalize x.wired bin env sg hs = y at *
  obtain ⟨as, s, h1, R, _⟩ := I.node i
  obtain ⟨bs, _, g1, _⟩ := I.node n
  have hown : y.own i = (after env as).kel (y.pre i) := by
    show (y i).2.kel _ = _
    rw [h1]
  have hall : ∀ e ∈ (after env as).kel (y.pre i), e.Exportable ∧ e.data.seals = [] ∧ e.data.isDelegated = false := by
    intro e he
    rw [← hown] at he
    exact ⟨(hw e he).1, hns e he, (hw e he).2.1⟩
  obtain ⟨b, k1, k2⟩ := C102_plain env as bs (y.pre i) R.preNe bin hbin R.nonempty hall R.signed (by
    rw [← hown]
    have : y.copy n i = (after env bs).kel (y.pre i) := by
      show (y n).2.kel _ = _
      rw [g1]
    rw [← this]; exact hpre) sg (y n).1
  obtain ⟨b', ds, q1, q2, q3⟩ := C45_parseable env as (y.pre i) R.preNe bin hbin R.nonempty hall
  rw [k1] at q1
  cases q1
  refine ⟨b, by rw [h1]; exact k1, hhon b ?_, ?_⟩
  · intro j e ⟨rest, ds', d, m1, m2, m3⟩ hp
    rw [q2] at m1
    cases m1
    have : d.toMessage ∈ ((after env as).kel (y.pre i)).map fun e => Res.ok (.event e) := by rw [← q3]; exact List.mem_map_of_mem m2
    obtain ⟨e', he', hm⟩ := List.mem_map.1 this
    rw [m3] at hm
    cases hm
    have hej := (R.log.noSeal e he').2
    by_cases hj : j = i
    · subst hj; rw [hown]; exact he'
    · exact absurd (by rw [← hp, hej]; rfl) (I.distinct j i hj)
  · rw [hrun, hown, ← k2]
    have hp0 : ((Wired.respond n b).run bin env sg y).pre i = y.pre i := by
      unfold Net.pre Wired.run Net.put
      by_cases h : i = n
      · subst h; simp
      · simp [h]
    show ((Wired.respond n b).run bin env sg y n).2.kel (((Wired.respond n b).run bin env sg y).pre i) = _
    rw [hp0]
    show (y.put n _ n).2.kel _ = _
    unfold Net.put
    rw [if_pos rfl, ← g1]
end

namespace Ex
/-- an event in the name of a node that its owner has not logged -/
def unknownTo (x : Net Bool) (e : SignedEvent) : Bool := [true, false].any fun i => decide (e.pre.toStr = (x.pre i).toStr) && !(x.own i).contains e

/-- the events in a stream -/
def streamEvents (b : Bytes) : List SignedEvent := match signedEventStreamP noBin b with
  | .ok _ ds => ds.filterMap fun d => match d.toMessage with | .ok (.event e) => some e | _ => none
  | _ => []

/-- `Net.HonestBytes`, decided for two nodes -/
def honestBytes (x : Net Bool) : List (Wired Bool) → Bool
  | [] => true
  | h :: hs => (match h with
      | .call _ c => c.own
      | .respond _ b => (streamEvents b).all fun e => !unknownTo x e
      | .single _ b => match firstOf noBin b with | some (.event e) => !unknownTo x e | _ => true
      | _ => true) && honestBytes (h.run noBin env sg x) hs

theorem unknown_ok {x : Net Bool} {e : SignedEvent} (h : unknownTo x e = false) (i : Bool) (hp : e.pre.toStr = (x.pre i).toStr) : e ∈ x.own i := by
  have := List.any_eq_false.1 h i (by cases i <;> simp)
  rw [decide_eq_true hp, Bool.true_and, Bool.not_eq_true, Bool.not_eq_false', List.contains_iff_mem] at this
  exact this

theorem honestBytes_ok : ∀ (hs : List (Wired Bool)) (x : Net Bool), honestBytes x hs = true → x.HonestBytes noBin env sg hs
  | [], _, _ => trivial
  | h :: hs, x, hh => by
    unfold honestBytes at hh
    rw [Bool.and_eq_true] at hh
    refine ⟨?_, honestBytes_ok hs _ hh.2⟩
    have h1 := hh.1
    cases h with
    | call n c => exact h1
    | respond n b =>
      intro i e ⟨rest, ds, d, g1, g2, g3⟩ hp
      refine unknown_ok ?_ i hp
      have := List.all_eq_true.1 h1 e (by
        unfold streamEvents
        rw [g1]
        exact List.mem_filterMap.2 ⟨d, g2, by rw [g3]⟩)
      simpa using this
    | single n b =>
      intro i e hf hp
      dsimp only at h1
      rw [hf] at h1
      exact unknown_ok (by simpa using h1) i hp
    | receipt n m => trivial
    | «export» n id => trivial
    | reprocess n => trivial

/-- the wire text of an event -/
def wireOr (e : SignedEvent) : Bytes := match e.toData.toCesr env with | .ok b => b | _ => []
def aliceRot : SignedEvent := evOr (Controller.rotate env sg (net true).1 (net true).2).1
def bobLog : Bytes := match (getKerl sled (net.pre false) (net false).2).1 with | .ok (some b) => b | _ => []

/-- the first node rotates; its rotation reaches the second too early; then its inception, an event of a stranger, garbage, and the rotation again; the second
signs a receipt and interacts; its log, as it was, reaches the first as a stream, which the first answers -/
def wiredSchedule : List (Wired Bool) :=
  [.call true .rotate, .single false (wireOr aliceRot), .single false (wireOr (evOr aliceIcp.1)), .single false (wireOr icp), .single false [1, 2, 3],
   .respond true bobLog, .reprocess false, .single false (wireOr aliceRot), .receipt false aliceRot.msg, .call false (.ixn none),
   .export false (net.pre true)]
end Ex

section
private instance (p : BasicPrefix) : Decidable p.Sized := by unfold BasicPrefix.Sized; infer_instance
private instance (p : SelfSigningPrefix) : Decidable p.Sized := by unfold SelfSigningPrefix.Sized; infer_instance
private instance (p : SelfAddressingPrefix) : Decidable p.Sized := by unfold SelfAddressingPrefix.Sized; infer_instance
private instance (p : BasicPrefix) : Decidable p.Representable := by
  unfold BasicPrefix.Representable BasicPrefix.IsSecp; infer_instance
private instance (p : IdentifierPrefix) : Decidable p.Representable := by
  unfold IdentifierPrefix.Representable
  cases p <;> simp only [IdentifierPrefix.Sized, IdentifierPrefix.IsSecp] <;> first | infer_instance | (unfold BasicPrefix.IsSecp; infer_instance)
private instance (p : AttachedSignaturePrefix) : Decidable (SigOk p) := by unfold SigOk; infer_instance
private instance (l : List AttachedSignaturePrefix) : Decidable (SigsOk l) := by unfold SigsOk; infer_instance
private instance (s : Seal) : Decidable s.Representable := by cases s <;> simp only [Seal.Representable] <;> infer_instance
private noncomputable instance (f : Frac) : Decidable (IsWeight f) := Classical.propDecidable _
private noncomputable instance (t : Threshold) : Decidable t.Representable := by cases t <;> simp only [Threshold.Representable] <;> infer_instance
private noncomputable instance (k : KeyConfig) : Decidable k.Representable :=
  decidable_of_iff (k.threshold.Representable ∧ (∀ x ∈ k.publicKeys, x.Representable) ∧ ∀ n ∈ k.nextDigest.toList, n.Sized) (by
    unfold KeyConfig.Representable; simp only [Option.mem_toList, Option.mem_def])
private noncomputable instance (k : InceptionEvent) : Decidable k.Representable := by unfold InceptionEvent.Representable; infer_instance
private noncomputable instance (k : RotationEvent) : Decidable k.Representable := by unfold RotationEvent.Representable; infer_instance
private noncomputable instance (k : EventData) : Decidable k.Representable := by cases k <;> simp only [EventData.Representable] <;> infer_instance
private noncomputable instance (k : EventMessage) : Decidable k.Representable := by unfold EventMessage.Representable; infer_instance
private instance (k : Bytes) : Decidable (PlainTrait k) := by unfold PlainTrait; infer_instance
private noncomputable instance (k : SignedEvent) : Decidable k.Exportable := by unfold SignedEvent.Exportable; infer_instance


set_option maxRecDepth 20000 in
open Ex in
/-- the hypotheses of C120 are met by two controllers; at the end the second has the whole log of the first, from its wire texts, and the first the inception
of the second -/
example : net.Begins env sg netPast ∧ net.HonestBytes noBin env sg wiredSchedule ∧ (∀ n, userCalls n wiredSchedule ≤ u64max) ∧ noBin.RejectsJson ∧
    (∀ i, ∀ e ∈ net.own i, e.Exportable) ∧
    ((net.wired noBin env sg wiredSchedule).own true).map (fun e => e.toData.toCesr env) = [wireOr (evOr aliceIcp.1), wireOr aliceRot].map .ok ∧
    [wireOr (evOr aliceIcp.1), wireOr aliceRot].Sublist (handed false wiredSchedule) ∧
    ((net.wired noBin env sg wiredSchedule).copy false true).length = 2 ∧ ((net.wired noBin env sg wiredSchedule).copy true false).length = 1 ∧
    ((net.wired noBin env sg wiredSchedule).own false).length = 2 ∧ ∀ e ∈ (net.wired noBin env sg wiredSchedule).own false, e.data.seals = [] := by
  refine ⟨net_is, honestBytes_ok _ _ (by decide +kernel), by decide, fun _ _ => ⟨rfl, rfl⟩, ?_, by decide +kernel, ?_, by decide +kernel, by decide +kernel,
    by decide +kernel, by decide +kernel⟩
  · intro i
    cases i <;> decide +kernel
  · show List.Sublist _ [_, _, _, _, _]
    exact .cons _ (.cons_cons _ (.cons _ (.cons _ (.cons_cons _ .slnil))))
end

end Keriox
