import Verif.Props.Receipts
/-!
# C31: the database is a map from identifiers to lists
-/
namespace Keriox

/-- a call of the storage layer -/
inductive DbOp where
  | read (t : Tbl) (id : IdentifierPrefix)
  | push (t : Tbl) (id : IdentifierPrefix) (v : t.Val)
  | remove (t : Tbl) (id : IdentifierPrefix) (v : t.Val)
  | put (t : Tbl) (id : IdentifierPrefix) (vs : List t.Val)
  | all (t : Tbl)

/-- the storage after the call -/
def DbOp.run {σ : Type} (o : Ops σ) (db : σ) : DbOp → σ
  | .read t id => (o.read t id db).2
  | .push t id v => (o.push t id v db).2
  | .remove t id v => (o.remove t id v db).2
  | .put t id vs => (o.put t id vs db).2
  | .all t => (o.all t db).2

/-! ### Specification -/

/-- a cell of the specification map: nothing, or the list last written -/
abbrev Cell (t : Tbl) : Type := Option (List t.Val)

/-- the list that storage gives back, if it can be read back -/
def Cell.back {t : Tbl} (c : Cell t) : Option (List t.Val) :=
  match c with
  | none => none
  | some l => t.decAll l

/-- adding at the end of what can be read back, or starting afresh -/
def Cell.plus {t : Tbl} (c : Cell t) (v : t.Val) : Cell t :=
  match c.back with
  | some l => some (l ++ [v])
  | none => some [v]

/-- taking out everything equal to `v`, if the list can be read back -/
def Cell.minus {t : Tbl} (c : Cell t) (v : t.Val) : Cell t :=
  match c.back with
  | some l => some (l.filter fun e => !t.same e v)
  | none => c

/-- reading: nothing, the list, or a panic when it cannot be read back -/
def Cell.show {t : Tbl} (c : Cell t) : Res (Option (List t.Val)) :=
  match c with
  | none => .ok none
  | some _ =>
    match c.back with
    | some l => .ok (some l)
    | none => .panic

/-- specification: a function from (table, identifier text) to a cell; what one call makes of it -/
def DbOp.effect (f : (t : Tbl) → Bytes → Cell t) : DbOp → (t : Tbl) → Bytes → Cell t
  | .read _ _ => f
  | .push t id v => fun t' x => if h : t' = t then (if x = id.toStr then h ▸ (f t id.toStr).plus v else f t' x) else f t' x
  | .remove t id v => fun t' x => if h : t' = t then (if x = id.toStr then h ▸ (f t id.toStr).minus v else f t' x) else f t' x
  | .put t id vs => fun t' x => if h : t' = t then (if x = id.toStr then some (h ▸ vs) else f t' x) else f t' x
  | .all _ => f

theorem Cell.plus_eq {t : Tbl} (c : Cell t) (v : t.Val) : c.plus v = some (t.pushed c v) := by
  unfold Cell.plus Cell.back Tbl.pushed Tbl.entry
  cases c with
  | none => rfl
  | some l => simp only; cases h : t.decAll l <;> simp

theorem Cell.minus_eq {t : Tbl} (c : Cell t) (v : t.Val) : c.minus v = t.removed c v := by
  unfold Cell.minus Cell.back Tbl.removed Tbl.entry
  cases c with
  | none => rfl
  | some l => simp only; cases h : t.decAll l <;> simp

theorem Cell.show_eq {t : Tbl} (c : Cell t) : c.show = t.iterValues c := by
  unfold Cell.show Cell.back Tbl.iterValues Tbl.entry
  cases c with
  | none => rfl
  | some l => simp only; cases h : t.decAll l <;> simp

/-! ### Proof -/

theorem op_sim (op : DbOp) (db : Db) (h : db.Inv) :
    (op.run sled db).Inv ∧ (op.run sled db).abs = op.run mapOps db.abs := by
  cases op with
  | read t id => exact ⟨(sled_sim.read t id db h).2.2, (sled_sim.read t id db h).2.1⟩
  | push t id v => exact ⟨(sled_sim.push t id v db h).2.2, (sled_sim.push t id v db h).2.1⟩
  | remove t id v => exact ⟨(sled_sim.remove t id v db h).2.2, (sled_sim.remove t id v db h).2.1⟩
  | put t id vs => exact ⟨(sled_sim.put t id vs db h).2.2, (sled_sim.put t id vs db h).2.1⟩
  | all t => exact ⟨(sled_sim.all t db h).2.2, (sled_sim.all t db h).2.1⟩

theorem set_eq (a : MapDb) (t : Tbl) (x : Bytes) (o : Option (List t.Val)) (t' : Tbl) (y : Bytes) :
    (a.set t x o).tables t' y = if h : t' = t then (if y = x then h ▸ o else a.tables t' y) else a.tables t' y := by
  by_cases h : t' = t
  · subst h
    by_cases hy : y = x
    · subst hy; simp
    · rw [MapDb.set_other_id _ _ _ hy]; simp [hy]
  · rw [MapDb.set_other_tbl _ h]; simp [h]

theorem op_effect (op : DbOp) (a : MapDb) : (op.run mapOps a).tables = op.effect a.tables := by
  cases op with
  | read t id => simp [DbOp.run, mapOps, DbOp.effect]
  | all t => rfl
  | push t id v =>
    funext t' y
    simp only [DbOp.run, mapOps, DbOp.effect, set_eq, MapDb.touch_tables, Cell.plus_eq]
  | remove t id v =>
    funext t' y
    simp only [DbOp.run, mapOps, DbOp.effect, set_eq, MapDb.touch_tables, Cell.minus_eq]
  | put t id vs =>
    funext t' y
    simp only [DbOp.run, mapOps, DbOp.effect, set_eq, MapDb.touch_tables]
    by_cases h : t' = t
    · subst h; rfl
    · simp [h]

/-- the database after a sequence of calls -/
def runOps (ops : List DbOp) (db : Db) : Db := ops.foldl (fun d op => op.run sled d) db

theorem runOps_inv (ops : List DbOp) (db : Db) (h : db.Inv) : (runOps ops db).Inv := by
  induction ops generalizing db with
  | nil => exact h
  | cons op ops ih => exact ih _ (op_sim op db h).1

theorem runOps_vec (ops : List DbOp) (db : Db) (h : db.Inv) :
    (runOps ops db).vec = ops.foldl DbOp.effect db.vec := by
  induction ops generalizing db with
  | nil => rfl
  | cons op ops ih =>
    have h1 := op_sim op db h
    show (runOps ops (op.run sled db)).vec = ops.foldl DbOp.effect (op.effect db.vec)
    rw [ih _ h1.1]
    have : (op.run sled db).vec = op.effect db.vec := by
      show (op.run sled db).abs.tables = _
      rw [h1.2, op_effect]; rfl
    rw [this]

/-- C31: after any sequence of calls on a fresh database, reading a table for an identifier gives what the specification map
holds for it: each identifier has its own list, no call about one identifier or table shows in another. -/
theorem C31_map_semantics (ops : List DbOp) (t : Tbl) (id : IdentifierPrefix) :
    (sled.read t id (runOps ops Db.empty)).1 = (ops.foldl DbOp.effect (fun _ _ => none) t id.toStr).show := by
  rw [Cell.show_eq, read_run t id _ (runOps_inv ops _ Db.empty_inv), runOps_vec ops _ Db.empty_inv]
  rfl

theorem keyed_iids {α : Type} (id : IdentifierPrefix) (db : Db) (h : db.Inv) (f : Nat → StM Db α) (hf : ∀ k d, (f k d).2.iids = d.iids) :
    ((designatedKey id >>= f) db).2.iids = (designatedKey id db).2.iids := by
  obtain ⟨j, db', h1, _⟩ := designatedKey_spec id db h
  rw [StM.bind_run, h1]
  exact hf j db'

theorem key_stable (op : DbOp) (db : Db) (h : db.Inv) (x : Bytes) (k : Nat) (hk : keyByValue db.iids x = some k) :
    keyByValue (op.run sled db).iids x = some k := by
  have des : ∀ (id : IdentifierPrefix), keyByValue (designatedKey id db).2.iids x = some k := by
    intro id
    unfold designatedKey
    cases hi : keyByValue db.iids id.toStr with
    | some j => exact hk
    | none =>
      have hnk := nextKey_range db.iids h.keys
      have hins : db.iids.ins (nextKey db.iids) id.toStr = db.iids ++ [(db.iids.length, id.toStr)] := by
        rw [hnk]; exact Tree.ins_last _ _ _ (by rw [h.keys]; simp)
      show keyByValue (db.iids.ins (nextKey db.iids) id.toStr) x = some k
      rw [hins, keyByValue_append, hk]; rfl
  have ent : ∀ (d : Db) (t : Tbl) (j : Nat) (o : Option (List t.Val)), (d.setEntry t j o).iids = d.iids := by
    intro d t j o; cases o <;> rfl
  cases op with
  | all t => exact hk
  | read t id => exact (congrArg (keyByValue · x) (keyed_iids id db h _ fun _ _ => rfl)).trans (des id)
  | push t id v => exact (congrArg (keyByValue · x) (keyed_iids id db h _ fun _ _ => ent _ _ _ _)).trans (des id)
  | remove t id v => exact (congrArg (keyByValue · x) (keyed_iids id db h _ fun _ _ => ent _ _ _ _)).trans (des id)
  | put t id vs => exact (congrArg (keyByValue · x) (keyed_iids id db h _ fun _ _ => ent _ _ _ _)).trans (des id)

theorem designatedKey_of {id : IdentifierPrefix} {db : Db} {k : Nat} (h : keyByValue db.iids id.toStr = some k) :
    designatedKey id db = (.ok k, db) := by unfold designatedKey; rw [h]

/-- C31: once an identifier has got a table key, it keeps it through every further sequence of calls. -/
theorem C31_key_stable (ops ops' : List DbOp) (id : IdentifierPrefix) :
    ∃ k, (designatedKey id (runOps ops Db.empty)).1 = .ok k ∧
      (designatedKey id (runOps ops' (designatedKey id (runOps ops Db.empty)).2)).1 = .ok k := by
  obtain ⟨k, db', h1, h2, h3, h4, h5⟩ := designatedKey_spec id _ (runOps_inv ops _ Db.empty_inv)
  refine ⟨k, by rw [h1], ?_⟩
  rw [h1]
  dsimp only
  have : keyByValue (runOps ops' db').iids id.toStr = some k := by
    clear h1 h3 h5
    induction ops' generalizing db' with
    | nil => exact h4
    | cons op ops' ih => exact ih _ (op_sim op db' h2).1 (key_stable op db' h2 _ _ h4)
  rw [designatedKey_of this]

/-- C31: two identifiers get the same key exactly if they have the same text. -/
theorem C31_key_injective (ops : List DbOp) (id id' : IdentifierPrefix) :
    (designatedKey id' (designatedKey id (runOps ops Db.empty)).2).1 = (designatedKey id (runOps ops Db.empty)).1 ↔
      id'.toStr = id.toStr := by
  obtain ⟨k, db', h1, h2, _, h4, _⟩ := designatedKey_spec id _ (runOps_inv ops _ Db.empty_inv)
  obtain ⟨k', db'', g1, g2, _, g4, _⟩ := designatedKey_spec id' db' h2
  rw [h1]
  dsimp only
  rw [g1]
  simp only [Res.ok.injEq]
  constructor
  · rintro rfl
    have h5 : keyByValue db''.iids id.toStr = some k' := by
      have := key_stable (.read .kels id') db' h2 _ _ h4
      have e : ((DbOp.read .kels id').run sled db').iids = db''.iids := by
        refine (keyed_iids id' db' h2 _ fun _ _ => rfl).trans ?_
        rw [g1]
      rwa [e] at this
    exact g2.key_inj g4 h5
  · intro h
    unfold designatedKey at g1
    rw [h, h4] at g1
    cases g1; rfl

/-- the specification is not trivial: two identifiers with interleaved calls -/
example : (sled.read .kels Ex.id (runOps [.read .kels (.basic (Ex.key 9)), .push .kels Ex.id Ex.icp, .push .kels (.basic (Ex.key 9)) Ex.icpFinal,
      .push .kels Ex.id Ex.rot, .remove .kels Ex.id Ex.icp] Db.empty)).1 = .ok (some [Ex.rot]) ∧
    (designatedKey Ex.id (runOps [.read .kels (.basic (Ex.key 9)), .push .kels Ex.id Ex.icp] Db.empty)).1 = .ok 1 := by decide +kernel

end Keriox
