import Verif.Props.Crash
/-!
# C32, C60: several threads on one database

`interleaved env m sched db`: one thread processes `m`; `sched` lists what the other threads do to the database before each of
its accesses to a sled tree (Step.lean).
-/
namespace Keriox

/-! ## Calls one after the other -/

/-- C32, the safe use: calls that do not overlap (nothing happens between the steps of a call) behave as the sequential model, to
which all other theorems apply. -/
theorem C32_serial (env : Env) (as : List Action) (m : Message) :
    interleaved env m [] (after env as) = process sled env m (after env as) :=
  stepped_adequate env m _ (after_inv env as)

/-! ## Overlapping calls for different identifiers whose table keys exist -/

/-- `g`, done by another thread, allocates no table key and does not write under the key `k` (as long as the identifier tree is `I`) -/
def OtherKey (I : Tree Bytes) (k : Nat) (g : Db → Db) : Prop :=
  ∀ a : Db, a.iids = I → (g a).iids = I ∧ ∀ t, ((g a).tables t).get k = (a.tables t).get k

/-- the thread sees under its key what it would see alone -/
structure Alone (I : Tree Bytes) (k : Nat) (w : World) (d : Db) : Prop where
  others : ∀ g ∈ w.sched, OtherKey I k g
  ids : w.db.iids = I
  ids' : d.iids = I
  same : ∀ t, (w.db.tables t).get k = (d.tables t).get k

theorem alone_atom {α : Type} {I : Tree Bytes} {k : Nat} {f f' : StM Db α}
    (h : ∀ a b : Db, a.iids = I → b.iids = I → (∀ t, (a.tables t).get k = (b.tables t).get k) →
      (f a).1 = (f' b).1 ∧ (f a).2.iids = I ∧ (f' b).2.iids = I ∧ ∀ t, ((f a).2.tables t).get k = ((f' b).2.tables t).get k) :
    GSim (Alone I k) (atom f) f' := by
  intro w d ha
  have hseen : w.seen.iids = I ∧ ∀ t, (w.seen.tables t).get k = (d.tables t).get k := by
    unfold World.seen
    cases hs : w.sched with
    | nil => exact ⟨ha.ids, ha.same⟩
    | cons g gs =>
      obtain ⟨h1, h2⟩ := ha.others g (by rw [hs]; exact List.mem_cons_self) w.db ha.ids
      exact ⟨h1, fun t => (h2 t).trans (ha.same t)⟩
  obtain ⟨h1, h2, h3, h4⟩ := h w.seen d hseen.1 ha.ids' hseen.2
  exact ⟨h1, fun g hg => ha.others g (List.mem_of_mem_tail hg), h2, h3, h4⟩

theorem alone_desKey {I : Tree Bytes} {k : Nat} {id : IdentifierPrefix} (hk : keyByValue I id.toStr = some k) :
    GSim (Alone I k) (desKey id) (designatedKey id) := by
  intro w d ha
  have h1 := alone_atom (I := I) (k := k) (f := getKeyByValue id) (f' := getKeyByValue id)
    (fun a b h h' hs => ⟨by simp only [getKeyByValue]; rw [h, h'], h, h', hs⟩) w d ha
  have hd : designatedKey id d = (.ok k, d) := by unfold designatedKey; rw [ha.ids', hk]
  have hr : (atom (getKeyByValue id) w).1 = .ok (some k) := by
    rw [h1.1]; simp only [getKeyByValue]; rw [ha.ids', hk]
  have hw : desKey id w = (.ok k, (atom (getKeyByValue id) w).2) :=
    StM.bind_ok (a := some k) (Prod.ext hr rfl) rfl
  rw [hw, hd]
  exact ⟨rfl, h1.2⟩

theorem tree_get_ins {α : Type} (t : Tree α) (k : Nat) (v : α) : (t.ins k v).get k = some v := by
  induction t with
  | nil => simp [Tree.ins, Tree.get]
  | cons p r ih =>
    obtain ⟨k', v'⟩ := p
    unfold Tree.ins
    split
    · simp [Tree.get]
    · split
      · simp [Tree.get]
      · rename_i h1 h2
        simp only [Tree.get]
        rw [if_neg (fun h => h2 h.symm), ih]

theorem setEntry_get (d : Db) (t : Tbl) (k : Nat) (l : List t.Val) (t' : Tbl) :
    ((d.setEntry t k (some l)).tables t').get k = if h : t' = t then some (h ▸ l) else (d.tables t').get k := by
  unfold Db.setEntry Db.setTable
  dsimp only
  by_cases h : t' = t
  · subst h; simp [tree_get_ins]
  · simp [h]

theorem setEntry_iids (d : Db) (t : Tbl) (k : Nat) (o : Option (List t.Val)) : (d.setEntry t k o).iids = d.iids := by
  cases o <;> rfl

section
variable {I : Tree Bytes} {k : Nat} {id : IdentifierPrefix}

theorem alone_read (hk : keyByValue I id.toStr = some k) (t : Tbl) : GSim (Alone I k) (stepped.read t id) (sled.read t id) := by
  intro w d ha
  obtain ⟨h1, h2⟩ := alone_desKey hk w d ha
  have hd : designatedKey id d = (.ok k, d) := by unfold designatedKey; rw [ha.ids', hk]
  rw [hd] at h1 h2
  have h3 := alone_atom (I := I) (k := k) (f := treeGet t k) (f' := treeGet t k)
    (fun a b h h' hs => ⟨by simp only [treeGet]; rw [hs], h, h', hs⟩) _ d h2
  have hr : atom (treeGet t k) (desKey id w).2 = (.ok ((d.tables t).get k), (atom (treeGet t k) (desKey id w).2).2) := Prod.ext h3.1 rfl
  have e1 : stepped.read t id w = (t.iterValues ((d.tables t).get k), (atom (treeGet t k) (desKey id w).2).2) :=
    StM.bind_ok (Prod.ext h1 rfl : desKey id w = (.ok k, (desKey id w).2)) (StM.bind_ok hr rfl)
  have e2 : sled.read t id d = (t.iterValues ((d.tables t).get k), d) := StM.bind_ok hd rfl
  rw [e1, e2]
  exact ⟨rfl, h3.2⟩

theorem alone_push (hk : keyByValue I id.toStr = some k) (t : Tbl) (v : t.Val) :
    GSim (Alone I k) (stepped.push t id v) (sled.push t id v) := by
  intro w d ha
  obtain ⟨h1, h2⟩ := alone_desKey hk w d ha
  have hd : designatedKey id d = (.ok k, d) := by unfold designatedKey; rw [ha.ids', hk]
  rw [hd] at h1 h2
  have h3 := alone_atom (I := I) (k := k) (f := treeGet t k) (f' := treeGet t k)
    (fun a b h h' hs => ⟨by simp only [treeGet]; rw [hs], h, h', hs⟩) _ d h2
  have hr : atom (treeGet t k) (desKey id w).2 = (.ok ((d.tables t).get k), (atom (treeGet t k) (desKey id w).2).2) := Prod.ext h3.1 rfl
  have e1 : stepped.push t id v w = atom (treePut t k (t.pushed ((d.tables t).get k) v)) (atom (treeGet t k) (desKey id w).2).2 :=
    StM.bind_ok (Prod.ext h1 rfl : desKey id w = (.ok k, (desKey id w).2)) (StM.bind_ok hr rfl)
  have e2 : sled.push t id v d = treePut t k (t.pushed ((d.tables t).get k) v) d := StM.bind_ok hd rfl
  rw [e1, e2]
  exact alone_atom (f := treePut t k (t.pushed ((d.tables t).get k) v)) (f' := treePut t k (t.pushed ((d.tables t).get k) v))
    (fun a b h h' hs => ⟨rfl, h, h', fun t' => by
    simp only [treePut]; rw [setEntry_get, setEntry_get, hs]⟩) _ d h3.2

theorem alone_remove (hk : keyByValue I id.toStr = some k) (t : Tbl) (v : t.Val) :
    GSim (Alone I k) (stepped.remove t id v) (sled.remove t id v) := by
  intro w d ha
  obtain ⟨h1, h2⟩ := alone_desKey hk w d ha
  have hd : designatedKey id d = (.ok k, d) := by unfold designatedKey; rw [ha.ids', hk]
  rw [hd] at h1 h2
  have h3 := alone_atom (I := I) (k := k) (f := treeGet t k) (f' := treeGet t k)
    (fun a b h h' hs => ⟨by simp only [treeGet]; rw [hs], h, h', hs⟩) _ d h2
  have hr : atom (treeGet t k) (desKey id w).2 = (.ok ((d.tables t).get k), (atom (treeGet t k) (desKey id w).2).2) := Prod.ext h3.1 rfl
  have e1 : stepped.remove t id v w = putIf t k (t.removal ((d.tables t).get k) v) (atom (treeGet t k) (desKey id w).2).2 :=
    StM.bind_ok (Prod.ext h1 rfl : desKey id w = (.ok k, (desKey id w).2)) (StM.bind_ok hr rfl)
  have e2 : sled.remove t id v d = (.ok (), d.setEntry t k (t.removed ((d.tables t).get k) v)) := StM.bind_ok hd rfl
  rw [e1, e2, removed_removal]
  cases t.removal ((d.tables t).get k) v with
  | none =>
    refine ⟨rfl, h3.2.others, h3.2.ids, by rw [setEntry_iids]; exact ha.ids', fun t' => ?_⟩
    show ((atom (treeGet t k) (desKey id w).2).2.db.tables t').get k = _
    rw [h3.2.same]
    cases hg : (d.tables t).get k with
    | none => rfl
    | some l =>
      dsimp only
      rw [setEntry_get]
      split
      · rename_i h; subst h; exact hg
      · rfl
  | some l =>
    exact alone_atom (f := treePut t k l) (f' := treePut t k l) (fun a b h h' hs => ⟨rfl, h, h', fun t' => by
      simp only [treePut]; rw [setEntry_get, setEntry_get, hs]⟩) _ d h3.2

theorem alone_computeState (hk : keyByValue I id.toStr = some k) (env : Env) :
    GSim (Alone I k) (computeState stepped env id) (computeState sled env id) := by
  unfold computeState getKel
  refine GSim.bind (alone_read hk _) fun r => ?_
  cases r with
  | none => exact GSim.pure _
  | some l => exact GSim.bind (GSim.lift _) fun _ => GSim.pure _
end

theorem alone_processEvent {I : Tree Bytes} {k : Nat} (env : Env) (e : SignedEvent) (hk : keyByValue I e.pre.toStr = some k)
    (hplain : e.data.isDelegated = false) : GSim (Alone I k) (processEvent stepped env e) (processEvent sled env e) := by
  have hc : ∀ {σ : Type} (o : Ops σ), checkDelegation o env e = pure () := by
    intro σ o
    unfold checkDelegation
    revert hplain
    cases e.data <;> simp [EventData.isDelegated]
  unfold processEvent
  rw [hc, hc]
  refine GSim.bind (GSim.pure _) fun _ => GSim.bind (GSim.bind (alone_computeState hk env) fun _ => GSim.lift _) fun new => ?_
  refine GSim.bind (alone_push hk _ _) fun _ => GSim.bind (GSim.lift _) fun bytes => GSim.bind (GSim.result (GSim.lift _)) fun r => ?_
  cases r with
  | ok st => exact GSim.pure _
  | error er =>
    refine GSim.bind ?_ fun _ => GSim.bind (alone_remove hk _ _) fun _ => GSim.fail _
    unfold noteDup
    split
    · exact alone_push hk _ _
    · exact GSim.pure _

/-- C60: a thread submitting a (non-delegated) event of an identifier that already has a table key
gets the result, and leaves the log, it would alone, in every interleaving with threads that only write under
other, already allocated keys. -/
theorem C60_disjoint (env : Env) (db : Db) (e : SignedEvent) (hplain : e.data.isDelegated = false) (k : Nat)
    (hk : keyByValue db.iids e.pre.toStr = some k) (sched : List (Db → Db)) (hs : ∀ g ∈ sched, OtherKey db.iids k g) :
    (interleaved env (.event e) sched db).1 = (process sled env (.event e) db).1 ∧
    (interleaved env (.event e) sched db).2.kel e.pre = (process sled env (.event e) db).2.kel e.pre := by
  obtain ⟨h1, h2⟩ := alone_processEvent env e hk hplain ⟨db, sched, []⟩ db ⟨hs, rfl, rfl, fun _ => rfl⟩
  refine ⟨h1, ?_⟩
  have key : ∀ d : Db, d.iids = db.iids → d.kel e.pre = ((d.tables .kels).get k).getD [] := by
    intro d hd
    unfold Db.kel Db.vec
    rw [hd, hk]
  have := h2.same .kels
  show (processEvent stepped env e ⟨db, sched, []⟩).2.db.kel e.pre = (processEvent sled env e db).2.kel e.pre
  rw [key _ h2.ids, key _ h2.ids', this]

/-- every access of another thread under another key is such an interference -/
theorem otherKey_put (I : Tree Bytes) (k k' : Nat) (h : k' ≠ k) (t : Tbl) (l : List t.Val) : OtherKey I k (fun a => (treePut t k' l a).2) := by
  intro a ha
  refine ⟨ha, fun t' => ?_⟩
  simp only [treePut, Db.setEntry, Db.setTable]
  by_cases ht : t' = t
  · subst ht
    simp only [dite_true]
    generalize a.tables t' = tr
    induction tr with
    | nil => simp [Tree.ins, Tree.get, h]
    | cons p r ih =>
      obtain ⟨k2, v2⟩ := p
      unfold Tree.ins
      split
      · conv => lhs; unfold Tree.get
        rw [if_neg h]
      · split
        · rename_i _ h2
          subst h2
          unfold Tree.get
          rw [if_neg h, if_neg h]
        · unfold Tree.get
          split
          · rfl
          · exact ih
  · simp [ht]

theorem otherKey_comp {I : Tree Bytes} {k : Nat} {g g' : Db → Db} (h : OtherKey I k g) (h' : OtherKey I k g') :
    OtherKey I k (fun a => g' (g a)) := fun a ha =>
  ⟨(h' _ (h a ha).1).1, fun t => ((h' _ (h a ha).1).2 t).trans ((h a ha).2 t)⟩

/-- a computation that only touches other, allocated keys -/
def Frame {α : Type} (I : Tree Bytes) (k : Nat) (x : StM Db α) : Prop := OtherKey I k fun a => (x a).2

namespace Frame
variable {α β : Type} {I : Tree Bytes} {k : Nat}
theorem lift (r : Res α) : Frame I k (StM.lift r) := fun _ h => ⟨h, fun _ => rfl⟩
theorem pure (a : α) : Frame I k (Pure.pure a : StM Db α) := fun _ h => ⟨h, fun _ => rfl⟩
theorem bind {x : StM Db α} {f : α → StM Db β} (h1 : Frame I k x) (h2 : ∀ a, Frame I k (f a)) : Frame I k (x >>= f) := by
  intro d hd
  have := h1 d hd
  dsimp only at this ⊢
  rw [StM.bind_run]
  rcases hx : x d with ⟨r, d'⟩
  rw [hx] at this
  dsimp only at this
  cases r with
  | ok a => exact ⟨(h2 a d' this.1).1, fun t => ((h2 a d' this.1).2 t).trans (this.2 t)⟩
  | err e => exact this
  | panic => exact this
theorem result {x : StM Db α} (h1 : Frame I k x) : Frame I k x.result := by
  intro d hd
  have := h1 d hd
  dsimp only at this ⊢
  unfold StM.result
  rcases hx : x d with ⟨r, d'⟩
  rw [hx] at this
  cases r <;> exact this
theorem key {id : IdentifierPrefix} {k' : Nat} (hk : keyByValue I id.toStr = some k') {f : Nat → StM Db α} (hf : Frame I k (f k')) :
    Frame I k (designatedKey id >>= f) := by
  intro d hd
  have h1 : designatedKey id d = (.ok k', d) := by unfold designatedKey; rw [hd, hk]
  dsimp only
  rw [bind_okW h1]
  exact hf d hd
theorem entry {k' : Nat} (h : k' ≠ k) (t : Tbl) (f : Db → Option (List t.Val)) :
    Frame I k (fun db => ((.ok () : Res Unit), db.setEntry t k' (f db)) : StM Db Unit) := by
  intro d hd
  dsimp only
  cases f d with
  | none => exact ⟨hd, fun _ => rfl⟩
  | some l => exact otherKey_put I k k' h t l d hd
end Frame

/-- a complete call of another thread, submitting an event of another identifier with a table key, is such an interference -/
theorem otherKey_process (env : Env) (I : Tree Bytes) (k k' : Nat) (h : k' ≠ k) (e : SignedEvent) (hplain : e.data.isDelegated = false)
    (hk : keyByValue I e.pre.toStr = some k') : OtherKey I k fun a => (process sled env (.event e) a).2 := by
  have hc : checkDelegation sled env e = pure () := by
    unfold checkDelegation
    revert hplain
    cases e.data <;> simp [EventData.isDelegated]
  have hread : ∀ t, Frame I k (sled.read t e.pre) := fun t => Frame.key hk fun d hd => ⟨hd, fun _ => rfl⟩
  have hpush : ∀ t v, Frame I k (sled.push t e.pre v) := fun t v => Frame.key hk (Frame.entry h t _)
  have hrem : ∀ t v, Frame I k (sled.remove t e.pre v) := fun t v => Frame.key hk (Frame.entry h t _)
  have hcs : Frame I k (computeState sled env e.pre) := by
    refine Frame.bind (hread .kels) fun r => ?_
    cases r with
    | none => exact Frame.pure _
    | some l => exact Frame.bind (Frame.lift _) fun _ => Frame.pure _
  show Frame I k (processEvent sled env e)
  unfold processEvent
  rw [hc]
  refine Frame.bind (Frame.pure _) fun _ => Frame.bind (Frame.bind hcs fun _ => Frame.lift _) fun new => ?_
  refine Frame.bind (hpush _ _) fun _ => Frame.bind (Frame.lift _) fun bytes => Frame.bind (Frame.result (Frame.lift _)) fun r => ?_
  cases r with
  | ok st => exact Frame.pure _
  | error er =>
    refine Frame.bind ?_ fun _ => Frame.bind (hrem _ _) fun _ => Frame.lift _
    unfold noteDup
    split
    · exact hpush _ _
    · exact Frame.pure _

/-- the hypotheses are met: two identifiers with table keys 0 and 1, one thread rotating the first while another submits the
second event of the second, before any of its steps; the rotation is accepted -/
example (n : Nat) :
    let db := after Ex.env [.submit (.event Ex.icp), .submit (.event Ex.icpFinal)]
    keyByValue db.iids Ex.rot.pre.toStr = some 0 ∧ Ex.rot.data.isDelegated = false ∧
    (process sled Ex.env (.event Ex.rot) db).1.isOk = true ∧ (process sled Ex.env (.event Ex.ixnFinal) db).1.isOk = true ∧
    ∀ g ∈ List.replicate n (fun a => (process sled Ex.env (.event Ex.ixnFinal) a).2), OtherKey db.iids 0 g := by
  refine ⟨by decide +kernel, by decide +kernel, by decide +kernel, by decide +kernel, fun g hg => ?_⟩
  rw [List.eq_of_mem_replicate hg]
  exact otherKey_process Ex.env _ 0 1 (by decide) Ex.ixnFinal (by decide +kernel) (by decide +kernel)

/-! ## Counterexamples -/

/-- nothing happens before the next `n` steps, then `g` -/
def Ex.at (n : Nat) (g : Db → Db) : List (Db → Db) := List.replicate n (fun d => d) ++ [g]

/-- C32 is false, key allocation: two threads submit the inceptions of two new identifiers.  The second call runs between the choice
and the insertion of the first thread's table key.  It is accepted, but afterwards the identifier has no log (its key is taken
over), and the log of the first identifier holds the inception event of the second. -/
theorem C32_fails_keys :
    let other := fun d => (process sled Ex.env (.event Ex.icpFinal) d).2
    let r := interleaved Ex.env (.event Ex.icp) (Ex.at 2 other) Db.empty
    (process sled Ex.env (.event Ex.icpFinal) Db.empty).1.isOk = true ∧
    r.2.kel Ex.icpFinal.pre = [] ∧ r.2.kel Ex.icp.pre = [Ex.icpFinal] ∧ Ex.icp.pre ≠ Ex.icpFinal.pre := by decide +kernel

/-- another interaction with sequence number 2, correctly signed -/
def Ex.ixnB : SignedEvent := signAll (msgOr ((Event.mk Ex.id 2 (.ixn ⟨Ex.rot.dig, []⟩)).toMessage Ex.env .json .blake3_256)) [4, 5]

/-- C32 is false, one log: two threads submit two different events with sequence number 2.  Both calls succeed and the log
holds both. -/
theorem C32_fails_fork :
    let db := after Ex.env [.submit (.event Ex.icp), .submit (.event Ex.rot)]
    let other := fun d => (process sled Ex.env (.event Ex.ixnB) d).2
    let r := interleaved Ex.env (.event Ex.ixn) (Ex.at 2 other) db
    r.1.isOk = true ∧ (process sled Ex.env (.event Ex.ixnB) db).1.isOk = true ∧
    r.2.kel Ex.id = [Ex.icp, Ex.rot, Ex.ixnB, Ex.ixn] ∧ Ex.ixnB.sn = Ex.ixn.sn := by decide +kernel

/-- C32 is false, lost update: when the second call runs between the reading and the writing of the vector, its event was
accepted and is gone. -/
theorem C32_fails_lost_update :
    let db := after Ex.env [.submit (.event Ex.icp), .submit (.event Ex.rot)]
    let other := fun d => (process sled Ex.env (.event Ex.ixnB) d).2
    let r := interleaved Ex.env (.event Ex.ixn) (Ex.at 4 other) db
    r.1.isOk = true ∧ (process sled Ex.env (.event Ex.ixnB) db).1.isOk = true ∧
    r.2.kel Ex.id = [Ex.icp, Ex.rot, Ex.ixn] := by decide +kernel

end Keriox
