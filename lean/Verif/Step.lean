import Verif.Param
import Verif.Refine
/-!
# The storage layer as sequences of atomic sled calls — `/repo/src/database/sled/tables.rs`

`sled` (Db.lean) runs each storage call in one go.  Here every access to a sled tree is a separate atomic step: between two
steps the process can be killed, and other threads can run.
-/
namespace Keriox

/-- the running process: the database, what other threads do to the database before each of the coming atomic steps (nothing,
when the list has ended), and the database after every step so far (latest first) -/
structure World where
  db : Db
  sched : List (Db → Db)
  trail : List Db

/-- other threads' work before the next step -/
def World.seen (w : World) : Db :=
  match w.sched with
  | [] => w.db
  | g :: _ => g w.db

/-- one atomic access to a sled tree -/
def atom {α : Type} (f : StM Db α) : StM World α := fun w =>
  ((f w.seen).1, ⟨(f w.seen).2, w.sched.tail, (f w.seen).2 :: w.trail⟩)

/-- `get_key_by_value`, tables.rs:204-214 (one scan of the tree, taken as atomic) -/
def getKeyByValue (id : IdentifierPrefix) : StM Db (Option Nat) := fun db => (.ok (keyByValue db.iids id.toStr), db)
/-- `get_next_key`, tables.rs:193-199 -/
def getNextKey : StM Db Nat := fun db => (.ok (nextKey db.iids), db)
/-- the `insert` of `designated_key`, tables.rs:229 -/
def insertKey (k : Nat) (id : IdentifierPrefix) : StM Db Unit := fun db => (.ok (), { db with iids := db.iids.ins k id.toStr })
/-- `tree.get(key)`, tables.rs:35, 106 -/
def treeGet (t : Tbl) (k : Nat) : StM Db (Option (List t.Val)) := fun db => (.ok ((db.tables t).get k), db)
/-- `tree.insert(key, vec)`, tables.rs:46-50 -/
def treePut (t : Tbl) (k : Nat) (l : List t.Val) : StM Db Unit := fun db => (.ok (), db.setEntry t k (some l))

/-- allocate a key for an identifier, tables.rs:227-231 -/
def allocKey (id : IdentifierPrefix) : StM World Nat := do
  let k ← atom getNextKey
  atom (insertKey k id)
  pure k

/-- `designated_key`, tables.rs:220-233, step by step -/
def desKey (id : IdentifierPrefix) : StM World Nat := do
  match ← atom (getKeyByValue id) with
  | some k => pure k
  | none => allocKey id

/-- write the vector `remove` leaves, if it found one, tables.rs:70-75 -/
def putIf (t : Tbl) (k : Nat) (o : Option (List t.Val)) : StM World Unit :=
  match o with
  | some l => atom (treePut t k l)
  | none => pure ()

/-- what `remove` writes: nothing when the vector is absent or undecodable, tables.rs:66-76 -/
def Tbl.removal (t : Tbl) (o : Option (List t.Val)) (v : t.Val) : Option (List t.Val) :=
  match t.entry o with
  | .vals l => some (l.filter fun e => !t.same e v)
  | _ => none

/-- the storage calls step by step, tables.rs:34-125 -/
def stepped : Ops World where
  read t id := do
    let k ← desKey id
    let o ← atom (treeGet t k)
    StM.lift (t.iterValues o)
  push t id v := do
    let k ← desKey id
    let o ← atom (treeGet t k)
    atom (treePut t k (t.pushed o v))
  remove t id v := do
    let k ← desKey id
    let o ← atom (treeGet t k)
    putIf t k (t.removal o v)
  put t id vs := do
    let k ← desKey id
    atom (treePut t k vs)
  all t := atom fun db => (.ok ((db.tables t).map fun p => t.decAll p.2), db)

/-- the databases that can be found after a restart when the process is killed during a call: those after each atomic
step, and the one before the first -/
def crashStates (env : Env) (act : Action) (db : Db) : List Db := db :: (act.run stepped env ⟨db, [], []⟩).trail

/-- a thread processing `m` while other threads access the database: `sched` says what they do before each of its steps -/
def interleaved (env : Env) (m : Message) (sched : List (Db → Db)) (db : Db) : Res (Option IdState) × Db :=
  ((process stepped env m ⟨db, sched, []⟩).1, (process stepped env m ⟨db, sched, []⟩).2.db)

/-! ## Without other threads the steps add up to the sequential model -/

/-- `x` does step by step what `y` does in one go; on the way the tables are as before or as at the end -/
def Fine {α : Type} (x : StM World α) (y : StM Db α) : Prop :=
  ∀ w : World, w.sched = [] → w.db.Inv → (x w).1 = (y w.db).1 ∧ (x w).2.sched = [] ∧ (x w).2.db = (y w.db).2 ∧
    ∀ d ∈ (x w).2.trail, d ∈ w.trail ∨ (d.Inv ∧ d.vec = w.db.vec) ∨ d = (x w).2.db

theorem atom_run {α : Type} (f : StM Db α) (w : World) (h : w.sched = []) :
    atom f w = ((f w.db).1, ⟨(f w.db).2, [], (f w.db).2 :: w.trail⟩) := by
  unfold atom World.seen; rw [h]; rfl

theorem bind_okW {σ α β : Type} {x : StM σ α} {f : α → StM σ β} {a : α} {s s' : σ} (h : x s = (.ok a, s')) : (x >>= f) s = f a s' := by
  show StM.bind x f s = _
  unfold StM.bind; rw [h]

theorem desKey_run (id : IdentifierPrefix) (w : World) (h : w.sched = []) (hinv : w.db.Inv) :
    ∃ k w', desKey id w = (.ok k, w') ∧ w'.sched = [] ∧ designatedKey id w.db = (.ok k, w'.db) ∧
      (∀ d ∈ w'.trail, d ∈ w.trail ∨ d = w.db ∨ d = w'.db) ∧ w'.db.Inv ∧ w'.db.vec = w.db.vec := by
  have h1 : atom (getKeyByValue id) w = (.ok (keyByValue w.db.iids id.toStr), ⟨w.db, [], w.db :: w.trail⟩) := atom_run _ _ h
  obtain ⟨k, db', hd, hi, ha, _, _⟩ := designatedKey_spec id w.db hinv
  have hv : db'.vec = w.db.vec := by
    have := congrArg MapDb.tables ha
    rwa [MapDb.touch_tables] at this
  have hrun : desKey id w = (match keyByValue w.db.iids id.toStr with
      | some k => (Pure.pure k : StM World Nat)
      | none => allocKey id) ⟨w.db, [], w.db :: w.trail⟩ := bind_okW h1
  unfold designatedKey at hd
  cases hk : keyByValue w.db.iids id.toStr with
  | some j =>
    rw [hk] at hd hrun
    dsimp only at hd hrun
    refine ⟨j, _, hrun, rfl, by unfold designatedKey; rw [hk], ?_, hinv, rfl⟩
    intro d hd'
    rcases List.mem_cons.1 hd' with rfl | hd'
    · exact .inr (.inl rfl)
    · exact .inl hd'
  | none =>
    rw [hk] at hd hrun
    dsimp only at hd hrun
    have hdb : db' = { w.db with iids := w.db.iids.ins (nextKey w.db.iids) id.toStr } := (Prod.mk.inj hd).2.symm
    subst hdb
    have h2 : allocKey id ⟨w.db, [], w.db :: w.trail⟩ = (.ok (nextKey w.db.iids),
        ⟨{ w.db with iids := w.db.iids.ins (nextKey w.db.iids) id.toStr }, [],
          { w.db with iids := w.db.iids.ins (nextKey w.db.iids) id.toStr } :: w.db :: w.db :: w.trail⟩) := rfl
    refine ⟨_, _, hrun.trans h2, rfl, by unfold designatedKey; rw [hk], ?_, hi, hv⟩
    intro d hd'
    simp only [List.mem_cons] at hd'
    rcases hd' with rfl | rfl | rfl | hd'
    · exact .inr (.inr rfl)
    · exact .inr (.inl rfl)
    · exact .inr (.inl rfl)
    · exact .inl hd'

/-- operations that start with `designated_key` -/
theorem fine_keyed {α : Type} (id : IdentifierPrefix) (f : Nat → StM World α) (g : Nat → StM Db α)
    (h : ∀ k (w : World), w.sched = [] → w.db.Inv → (f k w).1 = (g k w.db).1 ∧ (f k w).2.sched = [] ∧ (f k w).2.db = (g k w.db).2 ∧
      ∀ d ∈ (f k w).2.trail, d ∈ w.trail ∨ d = w.db ∨ d = (f k w).2.db) :
    Fine (desKey id >>= f) (designatedKey id >>= g) := by
  intro w hw hinv
  obtain ⟨k, w', h1, h2, h3, h4, h5, h6⟩ := desKey_run id w hw hinv
  rw [bind_okW h1, bind_okW h3]
  obtain ⟨g1, g2, g3, g4⟩ := h k w' h2 h5
  refine ⟨g1, g2, g3, fun d hd => ?_⟩
  rcases g4 d hd with hd | rfl | hd
  · rcases h4 d hd with hd | rfl | rfl
    · exact .inl hd
    · exact .inr (.inl ⟨hinv, rfl⟩)
    · exact .inr (.inl ⟨h5, h6⟩)
  · exact .inr (.inl ⟨h5, h6⟩)
  · exact .inr (.inr hd)

theorem removed_removal (t : Tbl) (db : Db) (k : Nat) (v : t.Val) :
    db.setEntry t k (t.removed ((db.tables t).get k) v) =
      match t.removal ((db.tables t).get k) v with
      | some l => db.setEntry t k (some l)
      | none => db.setEntry t k ((db.tables t).get k) := by
  unfold Tbl.removed Tbl.removal
  cases t.entry ((db.tables t).get k) <;> rfl

theorem fine_read (t : Tbl) (id : IdentifierPrefix) : Fine (stepped.read t id) (sled.read t id) := by
  refine fine_keyed id _ _ fun k w hw hinv => ?_
  have h1 : atom (treeGet t k) w = (.ok ((w.db.tables t).get k), ⟨w.db, [], w.db :: w.trail⟩) := atom_run _ _ hw
  rw [bind_okW h1]
  refine ⟨rfl, rfl, rfl, fun d hd => ?_⟩
  rcases List.mem_cons.1 hd with rfl | hd
  · exact .inr (.inl rfl)
  · exact .inl hd

theorem fine_push (t : Tbl) (id : IdentifierPrefix) (v : t.Val) : Fine (stepped.push t id v) (sled.push t id v) := by
  refine fine_keyed id _ _ fun k w hw hinv => ?_
  have h1 : atom (treeGet t k) w = (.ok ((w.db.tables t).get k), ⟨w.db, [], w.db :: w.trail⟩) := atom_run _ _ hw
  rw [bind_okW h1, atom_run _ _ rfl]
  refine ⟨rfl, rfl, rfl, fun d hd => ?_⟩
  simp only [List.mem_cons] at hd
  rcases hd with rfl | rfl | hd
  · exact .inr (.inr rfl)
  · exact .inr (.inl rfl)
  · exact .inl hd

theorem fine_put (t : Tbl) (id : IdentifierPrefix) (vs : List t.Val) : Fine (stepped.put t id vs) (sled.put t id vs) := by
  refine fine_keyed id _ _ fun k w hw hinv => ?_
  rw [atom_run _ _ hw]
  refine ⟨rfl, rfl, rfl, fun d hd => ?_⟩
  simp only [List.mem_cons] at hd
  rcases hd with rfl | hd
  · exact .inr (.inr rfl)
  · exact .inl hd

theorem Tree.ins_self {α : Type} (t : Tree α) (k : Nat) (v : α) (hs : t.Sorted) (h : t.get k = some v) : t.ins k v = t := by
  induction t with
  | nil => cases h
  | cons p r ih =>
    obtain ⟨k', v'⟩ := p
    have hs' : ∀ x ∈ r.map Prod.fst, k' < x := by
      intro x hx
      exact (List.pairwise_cons.1 hs).1 x hx
    unfold Tree.get at h
    unfold Tree.ins
    by_cases hk : k' = k
    · rw [if_pos hk] at h
      subst hk
      rw [if_neg (by omega), if_pos rfl, Option.some.inj h]
    · rw [if_neg hk] at h
      have := hs' k ((Tree.get_isSome r k).1 (by rw [h]; rfl))
      rw [if_neg (by omega), if_neg (by omega), ih (List.pairwise_cons.1 hs).2 h]

theorem setEntry_self (db : Db) (h : db.Inv) (t : Tbl) (k : Nat) : db.setEntry t k ((db.tables t).get k) = db := by
  cases hg : (db.tables t).get k with
  | none => rfl
  | some l =>
    simp only [Db.setEntry]
    rw [Tree.ins_self _ _ _ (h.sorted t) hg]
    unfold Db.setTable
    have : (fun t' => if h : t' = t then h ▸ db.tables t else db.tables t') = db.tables := by
      funext t'
      by_cases ht : t' = t
      · subst ht; simp
      · simp [ht]
    rw [this]

theorem fine_remove (t : Tbl) (id : IdentifierPrefix) (v : t.Val) : Fine (stepped.remove t id v) (sled.remove t id v) := by
  refine fine_keyed id _ _ fun k w hw hinv => ?_
  have h1 : atom (treeGet t k) w = (.ok ((w.db.tables t).get k), ⟨w.db, [], w.db :: w.trail⟩) := atom_run _ _ hw
  rw [bind_okW h1]
  dsimp only
  rw [removed_removal]
  cases hr : t.removal ((w.db.tables t).get k) v with
  | none =>
    unfold putIf
    refine ⟨rfl, rfl, (setEntry_self _ hinv _ _).symm, fun d hd => ?_⟩
    simp only [Pure.pure, List.mem_cons] at hd
    rcases hd with rfl | hd
    · exact .inr (.inl rfl)
    · exact .inl hd
  | some l =>
    unfold putIf
    dsimp only
    rw [atom_run _ _ rfl]
    refine ⟨rfl, rfl, rfl, fun d hd => ?_⟩
    simp only [List.mem_cons] at hd
    rcases hd with rfl | rfl | hd
    · exact .inr (.inr rfl)
    · exact .inr (.inl rfl)
    · exact .inl hd

theorem fine_all (t : Tbl) : Fine (stepped.all t) (sled.all t) := by
  intro w hw hinv
  have h1 : stepped.all t w = ((sled.all t w.db).1, ⟨w.db, [], w.db :: w.trail⟩) := atom_run (sled.all t) w hw
  rw [h1]
  refine ⟨rfl, rfl, rfl, fun d hd => ?_⟩
  simp only [List.mem_cons] at hd
  rcases hd with rfl | hd
  · exact .inr (.inl ⟨hinv, rfl⟩)
  · exact .inl hd

/-- the step-by-step run has reached the database of the sequential run, which satisfies `Q`, and every database it has passed
through satisfies `P` -/
structure Along (P Q : Db → Prop) (w : World) (d : Db) : Prop where
  quiet : w.sched = []
  same : w.db = d
  inv : d.Inv
  now : Q d
  past : ∀ d' ∈ w.trail, d'.Inv ∧ P d'

/-- `P` depends on the table contents only -/
def TableProp (P : Db → Prop) : Prop := ∀ d d' : Db, d.Inv → d'.Inv → d'.vec = d.vec → P d → P d'

theorem Along.weaken {P P' Q Q' : Db → Prop} {w : World} {d : Db} (h : Along P Q w d) (hP : ∀ d, P d → P' d) (hQ : Q d → Q' d) :
    Along P' Q' w d := ⟨h.quiet, h.same, h.inv, hQ h.now, fun d' h' => ⟨(h.past d' h').1, hP d' (h.past d' h').2⟩⟩

/-- an operation that leads from `Q` to `Q'` -/
theorem Along.step {α : Type} {P Q Q' : Db → Prop} (hQ : TableProp Q) (hQP : ∀ d, Q d → P d) (hQP' : ∀ d, Q' d → P d)
    {x : StM World α} {y : StM Db α} (h : Fine x y) {w : World} {d : Db} (ha : Along P Q w d)
    (hinv : (y d).2.Inv) (hp : Q' (y d).2) : (x w).1 = (y d).1 ∧ Along P Q' (x w).2 (y d).2 := by
  obtain ⟨h1, h2, h3, h4, h5⟩ := ha
  subst h2
  obtain ⟨g1, g2, g3, g4⟩ := h w h1 h3
  refine ⟨g1, g2, g3, hinv, hp, fun d' hd' => ?_⟩
  rcases g4 d' hd' with h | ⟨h, hv⟩ | rfl
  · exact h5 d' h
  · exact ⟨h, hQP _ (hQ _ _ h3 h hv h4)⟩
  · rw [g3]; exact ⟨hinv, hQP' _ hp⟩

theorem Along.of_fine {α : Type} {P Q : Db → Prop} (hQ : TableProp Q) (hQP : ∀ d, Q d → P d) {x : StM World α} {y : StM Db α} (h : Fine x y)
    (hinv : ∀ d : Db, d.Inv → (y d).2.Inv) (hp : ∀ d : Db, d.Inv → Q d → Q (y d).2) : GSim (Along P Q) x y :=
  fun _ d ha => ha.step hQ hQP hQP h (hinv d ha.inv) (hp d ha.inv ha.now)

theorem read_vec (t : Tbl) (id : IdentifierPrefix) (db : Db) (h : db.Inv) : (sled.read t id db).2.vec = db.vec := by
  have := congrArg MapDb.tables (sled_sim.read t id db h).2.1
  simp only [mapOps, MapDb.touch_tables] at this
  exact this

/-- reads go along every property of the tables -/
theorem along_read {P Q : Db → Prop} (hQ : TableProp Q) (hQP : ∀ d, Q d → P d) : GRead (Along P Q) stepped sled where
  read t id := Along.of_fine hQ hQP (fine_read t id) (fun d h => (sled_sim.read t id d h).2.2) fun d h hp =>
    hQ d _ h (sled_sim.read t id d h).2.2 (read_vec t id d h) hp

/-- writes to the tables in `W` go along a property they keep -/
theorem along_ops {P Q : Db → Prop} (hQ : TableProp Q) (hQP : ∀ d, Q d → P d) {W : Tbl → Prop}
    (hpush : ∀ t, W t → ∀ id v d, d.Inv → Q d → Q (sled.push t id v d).2)
    (hremove : ∀ t, W t → ∀ id v d, d.Inv → Q d → Q (sled.remove t id v d).2)
    (hput : ∀ t, W t → ∀ id vs d, d.Inv → Q d → Q (sled.put t id vs d).2) : GOps (Along P Q) W stepped sled where
  read := (along_read hQ hQP).read
  push t ht id v := Along.of_fine hQ hQP (fine_push t id v) (fun d h => (sled_sim.push t id v d h).2.2) (hpush t ht id v)
  remove t ht id v := Along.of_fine hQ hQP (fine_remove t id v) (fun d h => (sled_sim.remove t id v d h).2.2) (hremove t ht id v)
  put t ht id vs := Along.of_fine hQ hQP (fine_put t id vs) (fun d h => (sled_sim.put t id vs d h).2.2) (hput t ht id vs)
  all t := Along.of_fine hQ hQP (fine_all t) (fun _ h => h) fun _ _ hp => hp

/-- all operations, without conditions -/
theorem along_true : GOps (Along (fun _ => True) fun _ => True) (fun _ => True) stepped sled :=
  along_ops (fun _ _ _ _ _ _ => trivial) (fun _ _ => trivial) (fun _ _ _ _ _ _ _ => trivial)
    (fun _ _ _ _ _ _ _ => trivial) (fun _ _ _ _ _ _ _ => trivial)

/-- the run starts along any property of its first database -/
theorem Along.start {P Q : Db → Prop} (db : Db) (h : db.Inv) (hq : Q db) : Along P Q ⟨db, [], []⟩ db :=
  ⟨rfl, rfl, h, hq, fun _ h => (List.not_mem_nil h).elim⟩

/-- without interference, processing a message step by step gives the result and the database of the sequential model -/
theorem stepped_adequate (env : Env) (m : Message) (db : Db) (h : db.Inv) :
    interleaved env m [] db = process sled env m db := by
  have := process_par along_true (fun _ => trivial) env m ⟨db, [], []⟩ db (Along.start db h trivial)
  unfold interleaved
  rw [this.1, this.2.same]

/-- without interference, an action step by step leads to the database of the sequential model -/
theorem action_adequate (env : Env) (act : Action) (db : Db) (h : db.Inv) :
    (act.run stepped env ⟨db, [], []⟩).db = act.run sled env db := by
  have h0 := Along.start (P := fun _ => True) (Q := fun _ => True) db h trivial
  cases act with
  | submit m => exact (process_par along_true (fun _ => trivial) env m _ db h0).2.same
  | reprocess => exact (processEscrow_par along_true trivial trivial env _ db h0).2.same
  | lookup t id => exact (along_true.read t id _ db h0).2.same

end Keriox
