import Verif.Props.Diary
/-!
# C94: a network of honest controllers

Every node is a controller with a processor and a database of its own.  Nodes rotate and interact as they like; anything may arrive anywhere, at any time,
in any order, any number of times, or never — events, receipts, replies, events of strangers — as long as the events of the identifiers of the nodes are
genuine, that is, stand in the log of their owner when they arrive.
-/
namespace Keriox

/-! ## Specification -/

/-- all nodes; `ι` has a name for each -/
abbrev Net (ι : Type) := ι → Controller × Db

variable {ι : Type} [DecidableEq ι]

/-- what can happen at a node -/
inductive Happening (ι : Type) where
  /-- its user calls a method -/
  | call (n : ι) (c : Call)
  /-- something arrives and is processed (or is looked up) -/
  | arrives (n : ι) (a : Action)

/-- the identifier of a node -/
def Net.pre (x : Net ι) (n : ι) : IdentifierPrefix := (x n).1.pre
/-- what node `n` has of the log of node `i` -/
def Net.copy (x : Net ι) (n i : ι) : List SignedEvent := (x n).2.kel (x.pre i)
/-- the log of node `i` in its own database -/
def Net.own (x : Net ι) (i : ι) : List SignedEvent := x.copy i i

/-- the network afterwards: only the node where it happens changes -/
def Happening.run (env : Env) (sg : SignFn) (x : Net ι) : Happening ι → Net ι
  | .call n c => fun k => if k = n then (c.run env sg (x n)).2 else x k
  | .arrives n a => fun k => if k = n then ((x n).1, a.run sled env (x n).2) else x k

/-- users rotate and interact (`make_ixn`); what arrives in the name of a node is an event its owner has logged -/
def Happening.Honest (x : Net ι) : Happening ι → Prop
  | .call _ c => c.own = true
  | .arrives _ a => ∀ i, a.submitsFor (x.pre i) → ∃ e ∈ x.own i, a = .submit (.event e)

/-- the network after a schedule -/
def Net.run (env : Env) (sg : SignFn) (x : Net ι) (hs : List (Happening ι)) : Net ι := hs.foldl (fun x h => h.run env sg x) x

/-- everything that happens is honest at the moment it happens -/
def Net.Honest (env : Env) (sg : SignFn) (x : Net ι) : List (Happening ι) → Prop
  | [] => True
  | h :: hs => h.Honest x ∧ Net.Honest env sg (h.run env sg x) hs

/-- the number of calls at node `n` -/
def calls (n : ι) (hs : List (Happening ι)) : Nat := hs.countP fun | .call k _ => k = n | _ => false

/-- what arrived at node `n`, in order -/
def arrivals (n : ι) (hs : List (Happening ι)) : List Action := hs.filterMap fun | .arrives k a => if k = n then some a else none | _ => none

/-- a network in the beginning: every node has just incepted, on a database with any earlier traffic `past n`; the identifiers are different texts; nothing but
inceptions of the nodes has been submitted in their name -/
structure Net.Begins (env : Env) (sg : SignFn) (x : Net ι) (past : ι → List Action) : Prop where
  born : ∀ n, ∃ (km : CryptoBox) (rnd : BasicPrefix × BasicPrefix) (extra ws : List BasicPrefix) (e : SignedEvent), km.Works env sg ∧
    (Controller.new km rnd).inceptWith env sg extra ws (after env (past n)) = (.ok e, (x n).1, (x n).2) ∧ e.rt = true
  distinct : ∀ i j, i ≠ j → (x.pre i).toStr ≠ (x.pre j).toStr
  clean : ∀ n i, OnlyFrom (x.own i) (x.pre i) (past n)

/-! ## Proof -/

structure NetInv (env : Env) (sg : SignFn) (x : Net ι) (seen : ι → List Action) (k : ι → Nat) : Prop where
  distinct : ∀ i j, i ≠ j → (x.pre i).toStr ≠ (x.pre j).toStr
  node : ∀ n, ∃ as s, (x n).2 = after env as ∧ (x n).1.Ready env sg ((after env as).kel (x n).1.pre) s ∧ s.sn = k n ∧ (seen n).Sublist as ∧
    ∀ i, OnlyFrom (x.own i) (x.pre i) as

theorem OnlyFrom.mono {l l' : List SignedEvent} {id : IdentifierPrefix} {as : List Action} (h : OnlyFrom l id as) (hl : l <+: l') : OnlyFrom l' id as := by
  intro a ha hs
  obtain ⟨e, he, hq⟩ := h a ha hs
  exact ⟨e, hl.subset he, hq⟩

theorem OnlyFrom.snoc {l : List SignedEvent} {id : IdentifierPrefix} {as bs : List Action} (h : OnlyFrom l id as) (h2 : OnlyFrom l id bs) :
    OnlyFrom l id (as ++ bs) := by
  intro a ha hs
  rcases List.mem_append.1 ha with ha | ha
  · exact h a ha hs
  · exact h2 a ha hs

/-- an event of the own log that comes back changes nothing -/
theorem echo_kel {env : Env} {sg : SignFn} {c : Controller} {as : List Action} {s : IdState} (R : c.Ready env sg ((after env as).kel c.pre) s)
    {e : SignedEvent} (he : e ∈ (after env as).kel c.pre) :
    (after env (as ++ [.submit (.event e)])).kel c.pre = (after env as).kel c.pre := by
  obtain ⟨j, hj, hje⟩ := List.getElem_of_mem he
  obtain ⟨_, h2⟩ := sync_step R.preNe R.portable as _ (Nat.le_refl _) (List.take_length).symm j e (List.getElem?_eq_some_iff.2 ⟨hj, hje⟩)
  have := (h2 (by omega)).2 .kels c.pre.toStr
  unfold Db.kel
  rw [this]

theorem SignedBy.stored {env : Env} {sg : SignFn} {kp : KeyPair} {e : SignedEvent} (h : SignedBy env sg kp e) : e.stored = e := by
  obtain ⟨b, sg', _, _, _, hs⟩ := h
  unfold SignedEvent.stored
  cases e
  simp only at hs
  subst hs
  rfl

theorem incept_one {env : Env} {sg : SignFn} {km : CryptoBox} {rnd : BasicPrefix × BasicPrefix} {extra ws : List BasicPrefix}
    {as : List Action} {e : SignedEvent} {c : Controller} {db : Db} (hb : env.Blake3Size) (hw : km.Works env sg)
    (h : (Controller.new km rnd).inceptWith env sg extra ws (after env as) = (.ok e, c, db)) (hrt : e.rt = true) : db.kel c.pre = [e] := by
  obtain ⟨hdb, hpre, hkm, s, R, hs⟩ := incept_ready hb hw h hrt
  have h1 : (submitOwn sled env ((Controller.new km rnd).makeInception env extra ws >>= (Controller.new km rnd).signEvent env sg) (after env as)).1 = .ok e := by
    have := congrArg Prod.fst h
    exact this
  rw [makeInception_eq] at h1
  obtain ⟨g1, st, g2⟩ := submitOwn_ok h1
  obtain ⟨_, g4⟩ := signEvent_by g1
  subst hdb
  have hne : e.pre.toStr ≠ [] := by rw [← hpre]; exact R.preNe
  obtain ⟨_, _, _, _, _, _, _, _, _, _, hk⟩ := accepted_inv env as e hne st g2
  have hl := ((R.log.facts R.preNe).2.1 R.nonempty).2.2.1
  rw [hpre, hk, g4.stored] at hl
  rw [hpre, hk, g4.stored]
  rw [hs, List.length_append] at hl
  have : ((after env as).kel e.pre) = [] := List.eq_nil_of_length_eq_zero (by simpa using hl)
  rw [this]; rfl

theorem ready_call {env : Env} {sg : SignFn} (hb : env.Blake3Size) {c : Controller} {as : List Action} {s : IdState}
    (R : c.Ready env sg ((after env as).kel c.pre) s) (hn : s.sn + 1 ≤ u64max) (call : Call) (ho : call.own = true) :
    ∃ e c' new, call.run env sg (c, after env as) = (some (.ok e), c', after env (as ++ [.lookup .kels c.pre, .submit (.event e)])) ∧ c'.pre = c.pre ∧
      c'.Ready env sg ((after env (as ++ [.lookup .kels c.pre, .submit (.event e)])).kel c'.pre) new ∧ new.sn = s.sn + 1 ∧ e.pre.toStr = c.pre.toStr ∧
      (after env (as ++ [.lookup .kels c.pre, .submit (.event e)])).kel c.pre = (after env as).kel c.pre ++ [e] := by
  cases call with
  | rotate =>
    obtain ⟨e, new, g1, g2, g3⟩ := R.rotate hb hn
    obtain ⟨e2, as2, k1, _, k3, k4, _⟩ := ready_rotate_says hb R hn
    rw [g1] at k1
    simp only [Prod.mk.injEq, Res.ok.injEq] at k1
    obtain ⟨rfl, _, k1⟩ := k1
    refine ⟨e, { c with km := c.km.rotate }, new, ?_, rfl, g2, g3, ?_, by rw [k1]; exact k3⟩
    · simp only [Call.run, g1]
    · show e.msg.event.content.prefix.toStr = _
      rw [k4]
  | ixn p =>
    obtain ⟨e, new, g1, g2, g3⟩ := R.ixn hb hn p
    obtain ⟨e2, as2, k1, _, k3, k4, _⟩ := ready_ixn_says hb R hn p
    rw [g1] at k1
    simp only [Prod.mk.injEq, Res.ok.injEq] at k1
    obtain ⟨rfl, k1⟩ := k1
    refine ⟨e, c, new, ?_, rfl, g2, g3, ?_, by rw [k1]; exact k3⟩
    · simp only [Call.run, g1]
    · show e.msg.event.content.prefix.toStr = _
      rw [k4]
  | interact p => cases ho
  | other a => cases ho

theorem NetInv.call {env : Env} {sg : SignFn} (hb : env.Blake3Size) {x : Net ι} {seen : ι → List Action} {k : ι → Nat} (I : NetInv env sg x seen k)
    (n : ι) (c : Call) (ho : c.own = true) (hk : k n + 1 ≤ u64max) :
    (∃ e, (c.run env sg (x n)).1 = some (.ok e)) ∧ (∀ i, ((Happening.call n c).run env sg x).pre i = x.pre i) ∧
    (∀ i, x.own i <+: ((Happening.call n c).run env sg x).own i) ∧
    NetInv env sg ((Happening.call n c).run env sg x) seen (fun i => if i = n then k i + 1 else k i) := by
  obtain ⟨as, s, h1, R, h3, h4, h5⟩ := I.node n
  have hx : x n = ((x n).1, after env as) := by rw [← h1]
  obtain ⟨e, c', new, g1, g2, g3, g4, g5, g6⟩ := ready_call hb R (by omega) c ho
  rw [← hx] at g1
  have hrun : ∀ i, (Happening.call n c).run env sg x i = if i = n then (c', after env (as ++ [.lookup .kels (x n).1.pre, .submit (.event e)])) else x i := by
    intro i
    show (if i = n then (c.run env sg (x n)).2 else x i) = _
    rw [g1]
  have hpre : ∀ i, ((Happening.call n c).run env sg x).pre i = x.pre i := by
    intro i
    unfold Net.pre
    rw [hrun]
    split
    · rename_i hi; subst hi; exact g2
    · rfl
  have hown : ∀ i, ((Happening.call n c).run env sg x).own i = if i = n then x.own n ++ [e] else x.own i := by
    intro i
    unfold Net.own Net.copy
    rw [hpre, hrun]
    split
    · rename_i hi; subst hi
      unfold Net.pre
      dsimp only
      rw [g6, h1]
    · rfl
  have hmono : ∀ i, x.own i <+: ((Happening.call n c).run env sg x).own i := by
    intro i
    rw [hown]
    split
    · rename_i hi; subst hi; exact List.prefix_append _ _
    · exact List.prefix_refl _
  refine ⟨⟨e, by rw [g1]⟩, hpre, hmono, ⟨fun i j hij => by rw [hpre, hpre]; exact I.distinct i j hij, fun m => ?_⟩⟩
  by_cases hm : m = n
  · subst hm
    refine ⟨as ++ [.lookup .kels (x m).1.pre, .submit (.event e)], new, by rw [hrun, if_pos rfl], ?_, by rw [g4, h3, if_pos rfl],
      h4.trans (List.sublist_append_left _ _), fun i => ?_⟩
    · rw [hrun, if_pos rfl]
      exact g3
    · rw [hpre]
      refine ((h5 i).mono (hmono i)).snoc ?_
      intro a ha hs
      simp only [List.mem_cons, List.not_mem_nil, or_false] at ha
      rcases ha with rfl | rfl
      · cases hs
      · by_cases hi : i = m
        · subst hi
          exact ⟨e, by rw [hown, if_pos rfl]; simp, rfl⟩
        · refine absurd ?_ (I.distinct i m hi)
          have : e.pre.toStr = (x.pre i).toStr := hs
          rw [← this, g5]
          rfl
  · obtain ⟨as', s', q1, q2, q3, q4, q5⟩ := I.node m
    refine ⟨as', s', by rw [hrun, if_neg hm]; exact q1, by rw [hrun, if_neg hm]; exact q2, by rw [if_neg hm]; exact q3, q4, fun i => ?_⟩
    rw [hpre]
    exact (q5 i).mono (hmono i)

theorem NetInv.arrives {env : Env} {sg : SignFn} {x : Net ι} {seen : ι → List Action} {k : ι → Nat} (I : NetInv env sg x seen k)
    (n : ι) (a : Action) (hh : (Happening.arrives n a).Honest x) :
    (∀ i, ((Happening.arrives n a).run env sg x).pre i = x.pre i) ∧
    (∀ i, x.own i <+: ((Happening.arrives n a).run env sg x).own i) ∧
    NetInv env sg ((Happening.arrives n a).run env sg x) (fun i => if i = n then seen i ++ [a] else seen i) k := by
  obtain ⟨as, s, h1, R, h3, h4, h5⟩ := I.node n
  have hrun : ∀ i, (Happening.arrives n a).run env sg x i = if i = n then ((x n).1, after env (as ++ [a])) else x i := by
    intro i
    show (if i = n then ((x n).1, a.run sled env (x n).2) else x i) = _
    rw [h1, after_other]
  have hpre : ∀ i, ((Happening.arrives n a).run env sg x).pre i = x.pre i := by
    intro i
    unfold Net.pre
    rw [hrun]
    split
    · rename_i hi; subst hi; rfl
    · rfl
  have hsame : (after env (as ++ [a])).kel (x n).1.pre = (after env as).kel (x n).1.pre := by
    by_cases hs : a.submitsFor (x n).1.pre
    · obtain ⟨e, he, rfl⟩ := hh n hs
      refine echo_kel R ?_
      have : e ∈ (x n).2.kel (x n).1.pre := he
      rwa [h1] at this
    · exact other_kel env as a _ R.preNe hs
  have hown : ∀ i, ((Happening.arrives n a).run env sg x).own i = x.own i := by
    intro i
    unfold Net.own Net.copy
    rw [hpre, hrun]
    split
    · rename_i hi; subst hi
      unfold Net.pre
      dsimp only
      rw [hsame, h1]
    · rfl
  refine ⟨hpre, fun i => by rw [hown]; exact List.prefix_refl _, ⟨fun i j hij => by rw [hpre, hpre]; exact I.distinct i j hij, fun m => ?_⟩⟩
  by_cases hm : m = n
  · subst hm
    refine ⟨as ++ [a], s, by rw [hrun, if_pos rfl], ?_, h3, by rw [if_pos rfl]; exact h4.append (List.Sublist.refl _), fun i => ?_⟩
    · rw [hrun, if_pos rfl]
      dsimp only
      rw [hsame]
      exact R
    · rw [hpre, hown]
      refine (h5 i).snoc ?_
      intro b hb hs
      rw [List.mem_singleton.1 hb] at hs ⊢
      exact hh i hs
  · obtain ⟨as', s', q1, q2, q3, q4, q5⟩ := I.node m
    refine ⟨as', s', by rw [hrun, if_neg hm]; exact q1, by rw [hrun, if_neg hm]; exact q2, q3, by rw [if_neg hm]; exact q4, fun i => ?_⟩
    rw [hpre, hown]
    exact q5 i

theorem net_run {env : Env} {sg : SignFn} (hb : env.Blake3Size) (hs : List (Happening ι)) : ∀ {x : Net ι} {seen : ι → List Action} {k : ι → Nat},
    NetInv env sg x seen k → x.Honest env sg hs → (∀ n, k n + calls n hs ≤ u64max) →
    (∀ i, (x.run env sg hs).pre i = x.pre i) ∧
    NetInv env sg (x.run env sg hs) (fun i => seen i ++ arrivals i hs) (fun i => k i + calls i hs) := by
  induction hs with
  | nil =>
    intro x seen k I _ _
    refine ⟨fun _ => rfl, ?_⟩
    have h1 : (fun i => seen i ++ arrivals i []) = seen := by funext i; simp [arrivals]
    have h2 : (fun i => k i + calls i []) = k := by funext i; simp [calls]
    rw [h1, h2]
    exact I
  | cons h hs ih =>
    intro x seen k I hon hk
    cases h with
    | call n c =>
      have hc : ∀ i, calls i (.call n c :: hs) = calls i hs + if n = i then 1 else 0 := by
        intro i
        unfold calls
        rw [List.countP_cons]
        simp
      obtain ⟨_, hp, _, I'⟩ := I.call hb n c hon.1 (by have := hk n; rw [hc, if_pos rfl] at this; omega)
      obtain ⟨j1, j2⟩ := ih I' hon.2 (fun m => by
        have := hk m
        rw [hc] at this
        by_cases hm : m = n
        · subst hm; rw [if_pos rfl] at this ⊢; omega
        · rw [if_neg (fun h => hm h.symm)] at this; rw [if_neg hm]; omega)
      refine ⟨fun i => (j1 i).trans (hp i), ?_⟩
      have h1 : (fun i => seen i ++ arrivals i (.call n c :: hs)) = (fun i => seen i ++ arrivals i hs) := by funext i; simp [arrivals]
      have h2 : (fun i => k i + calls i (.call n c :: hs)) = (fun i => (if i = n then k i + 1 else k i) + calls i hs) := by
        funext i
        rw [hc]
        by_cases hm : i = n
        · subst hm; rw [if_pos rfl, if_pos rfl]; omega
        · rw [if_neg (fun h => hm h.symm), if_neg hm]; omega
      rw [h1, h2]
      exact j2
    | arrives n a =>
      obtain ⟨hp, _, I'⟩ := I.arrives n a hon.1
      have hc : ∀ i, calls i (.arrives n a :: hs) = calls i hs := by
        intro i
        unfold calls
        rw [List.countP_cons]
        simp
      obtain ⟨j1, j2⟩ := ih I' hon.2 (fun m => by rw [← hc m]; exact hk m)
      refine ⟨fun i => (j1 i).trans (hp i), ?_⟩
      have h1 : (fun i => seen i ++ arrivals i (.arrives n a :: hs)) = (fun i => (if i = n then seen i ++ [a] else seen i) ++ arrivals i hs) := by
        funext i
        unfold arrivals
        by_cases hm : n = i
        · subst hm; simp
        · simp [hm, Ne.symm hm]
      have h2 : (fun i => k i + calls i (.arrives n a :: hs)) = (fun i => k i + calls i hs) := by funext i; rw [hc]
      rw [h1, h2]
      exact j2

theorem net_begins {env : Env} {sg : SignFn} (hb : env.Blake3Size) {x : Net ι} {past : ι → List Action} (B : x.Begins env sg past) :
    NetInv env sg x (fun _ => []) (fun _ => 0) := by
  refine ⟨B.distinct, fun n => ?_⟩
  obtain ⟨km, rnd, extra, ws, e, hw, hi, hrt⟩ := B.born n
  obtain ⟨hdb, hpre, _, s, R, hs⟩ := incept_ready hb hw hi hrt
  refine ⟨_, s, hdb, R, hs, List.nil_sublist _, fun i => (B.clean n i).snoc ?_⟩
  intro a ha hsub
  rw [List.mem_singleton.1 ha] at hsub ⊢
  have hp : e.pre.toStr = (x.pre i).toStr := hsub
  by_cases hin : i = n
  · subst hin
    refine ⟨e, ?_, rfl⟩
    have := incept_one hb hw hi hrt
    show e ∈ (x i).2.kel (x i).1.pre
    rw [this]
    simp
  · exact absurd (by rw [← hp, ← hpre]; rfl) (B.distinct i n hin)

/-! ## C94 -/

section
variable {env : Env} {sg : SignFn} {x : Net ι} {past : ι → List Action} {hs : List (Happening ι)}

theorem net_after (hb : env.Blake3Size) (B : x.Begins env sg past) (hon : x.Honest env sg hs) (hc : ∀ n, calls n hs ≤ u64max) :
    NetInv env sg (x.run env sg hs) (fun i => arrivals i hs) (fun i => calls i hs) := by
  have := (net_run hb hs (net_begins hb B) hon (fun n => by have := hc n; omega)).2
  simpa using this

omit [DecidableEq ι] in
theorem NetInv.copy {y : Net ι} {seen : ι → List Action} {k : ι → Nat} (I : NetInv env sg y seen k) (n i : ι) :
    y.copy n i <+: y.own i ∧ (replay (y.own i) |>.Sublist (seen n) → y.copy n i = y.own i) := by
  obtain ⟨as, s, h1, R, _⟩ := I.node i
  obtain ⟨bs, _, g1, _, _, g4, g5⟩ := I.node n
  have hown : y.own i = (after env as).kel (y i).1.pre := by
    show (y i).2.kel (y i).1.pre = _
    rw [h1]
  have P := R.portable
  rw [← hown] at P
  obtain ⟨m, m1, m2, m3⟩ := sync_history R.preNe P bs (g5 i)
  have hcopy : y.copy n i = (y.own i).take m := by
    show (y n).2.kel (y i).1.pre = _
    rw [g1, m2]
  refine ⟨by rw [hcopy]; exact List.take_prefix _ _, fun hsub => ?_⟩
  have := m3 (y.own i).length (Nat.le_refl _) (by rw [List.take_length]; exact hsub.trans g4)
  rw [hcopy, List.take_of_length_le this]

/-- C94: whatever happens in a network of honest controllers, in whatever order, what any node has of the log of any node is an initial piece of that log
as its owner has it at that moment. -/
theorem C94_copies_are_prefixes (hb : env.Blake3Size) (B : x.Begins env sg past) (hon : x.Honest env sg hs) (hc : ∀ n, calls n hs ≤ u64max) (n i : ι) :
    (x.run env sg hs).copy n i <+: (x.run env sg hs).own i := ((net_after hb B hon hc).copy n i).1

/-- … so two nodes never have different events at the same place of the log of a third … -/
theorem C94_no_conflict (hb : env.Blake3Size) (B : x.Begins env sg past) (hon : x.Honest env sg hs) (hc : ∀ n, calls n hs ≤ u64max) (n m i : ι)
    (j : Nat) (e e' : SignedEvent) (h1 : ((x.run env sg hs).copy n i)[j]? = some e) (h2 : ((x.run env sg hs).copy m i)[j]? = some e') : e = e' := by
  obtain ⟨t, ht⟩ := C94_copies_are_prefixes hb B hon hc n i
  obtain ⟨u, hu⟩ := C94_copies_are_prefixes hb B hon hc m i
  have g1 : ((x.run env sg hs).own i)[j]? = some e := by
    rw [← ht, List.getElem?_append_left (List.getElem?_eq_some_iff.1 h1).1]; exact h1
  have g2 : ((x.run env sg hs).own i)[j]? = some e' := by
    rw [← hu, List.getElem?_append_left (List.getElem?_eq_some_iff.1 h2).1]; exact h2
  rw [g1] at g2
  exact Option.some.inj g2

/-- … the state a node computes for another is the state that one had after some number of its events, and two nodes with equally many of them compute the
same state … -/
theorem C94_state (hb : env.Blake3Size) (B : x.Begins env sg past) (hon : x.Honest env sg hs) (hc : ∀ n, calls n hs ≤ u64max) (n i : ι)
    (hne : (x.run env sg hs).copy n i ≠ []) :
    ∃ s, (computeState sled env ((x.run env sg hs).pre i) (x.run env sg hs n).2).1 = .ok (some s) ∧
      stateAfter env (((x.run env sg hs).own i).take ((x.run env sg hs).copy n i).length) = .ok s := by
  have I := net_after hb B hon hc
  generalize x.run env sg hs = y at *
  obtain ⟨as, s, h1, R, _⟩ := I.node i
  obtain ⟨bs, _, g1, _⟩ := I.node n
  have hp := (I.copy n i).1
  have hcopy : y.copy n i = (after env bs).kel (y i).1.pre := by
    show (y n).2.kel (y i).1.pre = _
    rw [g1]
  have hown : y.own i = (after env as).kel (y i).1.pre := by
    show (y i).2.kel (y i).1.pre = _
    rw [h1]
  obtain ⟨s', k1, k2⟩ := computeState_log env bs (y i).1.pre R.preNe (by rw [← hcopy]; exact hne)
    (fun e he => R.readable e (by rw [← hown]; exact hp.subset (by rw [hcopy]; exact he)))
  refine ⟨s', by rw [g1]; exact k2, ?_⟩
  rw [List.prefix_iff_eq_take.1 hp |>.symm, hcopy]
  exact k1.stateAfter

/-- … a node at which the events of a log have arrived in order (with any repetitions, and anything else, before, in between and after) has the whole log … -/
theorem C94_complete (hb : env.Blake3Size) (B : x.Begins env sg past) (hon : x.Honest env sg hs) (hc : ∀ n, calls n hs ≤ u64max) (n i : ι)
    (hall : (replay ((x.run env sg hs).own i)).Sublist (arrivals n hs)) :
    (x.run env sg hs).copy n i = (x.run env sg hs).own i := ((net_after hb B hon hc).copy n i).2 hall

/-- … and nothing that arrives keeps a node from rotating and interacting: its log is its inception and one event for each of its calls. -/
theorem C94_progress (hb : env.Blake3Size) (B : x.Begins env sg past) (hon : x.Honest env sg hs) (hc : ∀ n, calls n hs ≤ u64max) (n : ι) :
    ((x.run env sg hs).own n).length = 1 + calls n hs := by
  obtain ⟨as, s, h1, R, h3, _⟩ := (net_after hb B hon hc).node n
  have := ((R.log.facts R.preNe).2.1 R.nonempty).2.2.1
  show ((x.run env sg hs n).2.kel (x.run env sg hs n).1.pre).length = _
  rw [h1]
  omega
end


namespace Ex
/-- the inception event of a controller -/
def evOr (r : Res SignedEvent) : SignedEvent := match r with | .ok e => e | _ => icp

/-- two nodes, each with its own database; the first one has processed events of a stranger before -/
def net : Net Bool := fun b => if b then aliceIcp.2 else bobIcp.2
def netPast : Bool → List Action := fun b => if b then hist else []

/-- the first rotates; its inception, an event of a stranger, a receipt and the rotation reach the second (the rotation first too early, then again); the
second interacts; its inception reaches the first twice -/
def netSchedule : List (Happening Bool) :=
  let rot := evOr (Controller.rotate env sg (net true).1 (net true).2).1
  [.call true .rotate, .arrives false (.submit (.event rot)), .arrives false (.submit (.event (evOr aliceIcp.1))), .arrives false (.submit (.event Ex.icp)),
   .arrives false (.submit (.rctT Ex.rct)), .arrives false (.submit (.event rot)), .call false (.ixn none), .arrives true (.submit (.event (evOr bobIcp.1))),
   .arrives true .reprocess, .arrives true (.submit (.event (evOr bobIcp.1)))]
/-- `OnlyFrom`, decided -/
def onlyFrom (l : List SignedEvent) (id : IdentifierPrefix) (as : List Action) : Bool :=
  as.all fun | .submit (.event e) => !decide (e.pre.toStr = id.toStr) || l.contains e | _ => true

theorem onlyFrom_ok {l : List SignedEvent} {id : IdentifierPrefix} {as : List Action} (h : onlyFrom l id as = true) : OnlyFrom l id as := by
  intro a ha hs
  have := List.all_eq_true.1 h a ha
  cases a with
  | submit m =>
    cases m with
    | event e =>
      have hs' : e.pre.toStr = id.toStr := hs
      simp only [hs', decide_true, Bool.not_true, Bool.false_or, List.contains_iff_mem] at this
      exact ⟨e, this, rfl⟩
    | rctNt r => cases hs
    | rctT r => cases hs
    | reply r => cases hs
    | query q => cases hs
  | reprocess => cases hs
  | lookup t i => cases hs

/-- `Net.Honest`, decided for two nodes -/
def honest (x : Net Bool) : List (Happening Bool) → Bool
  | [] => true
  | h :: hs => (match h with | .call _ c => c.own | .arrives _ a => onlyFrom (x.own true) (x.pre true) [a] && onlyFrom (x.own false) (x.pre false) [a]) &&
      honest (h.run env sg x) hs

theorem honest_ok : ∀ (hs : List (Happening Bool)) (x : Net Bool), honest x hs = true → x.Honest env sg hs
  | [], _, _ => trivial
  | h :: hs, x, hh => by
    unfold honest at hh
    rw [Bool.and_eq_true] at hh
    refine ⟨?_, honest_ok hs _ hh.2⟩
    cases h with
    | call n c => exact hh.1
    | arrives n a =>
      have h1 := (Bool.and_eq_true _ _ ▸ hh.1 : _ ∧ _)
      intro i hs
      cases i with
      | true => exact onlyFrom_ok h1.1 a (by simp) hs
      | false => exact onlyFrom_ok h1.2 a (by simp) hs

theorem net_is : Net.Begins env sg net netPast := by
  refine ⟨fun n => ?_, ?_, fun n i => onlyFrom_ok ?_⟩
  · cases n with
    | true =>
      refine ⟨km, ctl.rnd, [], [key 51], evOr aliceIcp.1, km_works, ?_, by decide +kernel⟩
      have h1 : aliceIcp.1 = .ok (evOr aliceIcp.1) := by decide +kernel
      show aliceIcp = _
      conv => lhs; rw [show aliceIcp = (aliceIcp.1, aliceIcp.2) from rfl, h1]
      rfl
    | false =>
      refine ⟨km2, (key 92, key 93), [key 50], [], evOr bobIcp.1, km2_works, ?_, by decide +kernel⟩
      have h1 : bobIcp.1 = .ok (evOr bobIcp.1) := by decide +kernel
      show bobIcp = _
      conv => lhs; rw [show bobIcp = (bobIcp.1, bobIcp.2) from rfl, h1]
      rfl
  · intro i j hij
    cases i <;> cases j
    · exact absurd rfl hij
    · decide +kernel
    · decide +kernel
    · exact absurd rfl hij
  · cases n <;> cases i <;> decide +kernel
end Ex

open Ex in
/-- the hypotheses of C94 are met by two controllers; at the end the second has the whole log of the first, and the first an initial piece of the log of the second -/
example : net.Begins env sg netPast ∧ net.Honest env sg netSchedule ∧ (∀ n, calls n netSchedule ≤ u64max) ∧
    (replay ((net.run env sg netSchedule).own true)).Sublist (arrivals false netSchedule) ∧
    ((net.run env sg netSchedule).copy false true).length = 2 ∧ ((net.run env sg netSchedule).own true).length = 2 ∧
    ((net.run env sg netSchedule).copy true false).length = 1 ∧ ((net.run env sg netSchedule).own false).length = 2 := by
  refine ⟨net_is, honest_ok _ _ (by decide +kernel), by decide, ?_, by decide +kernel, by decide +kernel, by decide +kernel, by decide +kernel⟩
  have : (net.run env sg netSchedule).own true = [evOr aliceIcp.1, evOr (Controller.rotate env sg (net true).1 (net true).2).1] := by decide +kernel
  rw [this]
  show List.Sublist _ [Action.submit _, Action.submit _, Action.submit _, Action.submit _, Action.submit _]
  exact .cons _ (.cons_cons _ (.cons _ (.cons _ (.cons_cons _ .slnil))))

end Keriox
