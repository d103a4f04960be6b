import Verif.Processor
/-!
# The two-level sled tables refine a map from identifier texts to lists

`mapOps` is the specification: one finite map per table, keyed by the identifier's text.  `abs` forgets the numeric
keys.  `process_sim` and friends: running the processor over the sled tables gives the same results as
running it over the maps, for every history.
-/
namespace Keriox

/-- specification database: identifier texts in order of first use, and per table a map from texts to stored vectors -/
structure MapDb where
  order : List Bytes
  tables : (t : Tbl) → Bytes → Option (List t.Val)

namespace MapDb

/-- first use of an identifier is recorded (it matters only for the order of `all`) -/
def touch (a : MapDb) (x : Bytes) : MapDb := if x ∈ a.order then a else { a with order := a.order ++ [x] }

/-- set the vector of one identifier in one table -/
def set (a : MapDb) (t : Tbl) (x : Bytes) (o : Option (List t.Val)) : MapDb :=
  { a with tables := fun t' y =>
      if h : t' = t then (if y = x then h ▸ o else a.tables t' y) else a.tables t' y }

def empty : MapDb := ⟨[], fun _ _ => none⟩

@[simp] theorem touch_tables (a : MapDb) (x : Bytes) : (a.touch x).tables = a.tables := by
  unfold touch; split <;> rfl

@[simp] theorem set_order (a : MapDb) (t : Tbl) (x : Bytes) (o) : (a.set t x o).order = a.order := rfl

@[simp] theorem set_same (a : MapDb) (t : Tbl) (x : Bytes) (o) : (a.set t x o).tables t x = o := by simp [set]

theorem set_other_tbl (a : MapDb) {t t' : Tbl} (h : t' ≠ t) (x y : Bytes) (o) :
    (a.set t x o).tables t' y = a.tables t' y := by simp [set, h]

theorem set_other_id (a : MapDb) (t t' : Tbl) {x y : Bytes} (h : y ≠ x) (o) :
    (a.set t x o).tables t' y = a.tables t' y := by
  unfold set; by_cases ht : t' = t <;> simp [ht, h]

end MapDb

/-- the specification operations -/
def mapOps : Ops MapDb where
  read t id := fun a => (t.iterValues (a.tables t id.toStr), a.touch id.toStr)
  push t id v := fun a =>
    (.ok (), (a.touch id.toStr).set t id.toStr (some (t.pushed (a.tables t id.toStr) v)))
  remove t id v := fun a =>
    (.ok (), (a.touch id.toStr).set t id.toStr (t.removed (a.tables t id.toStr) v))
  put t id vs := fun a => (.ok (), (a.touch id.toStr).set t id.toStr (some vs))
  all t := fun a => (.ok (a.order.filterMap fun x => (a.tables t x).map t.decAll), a)

/-! ## Trees -/

theorem Tree.get_ins {α} (t : Tree α) (k k' : Nat) (v : α) :
    (t.ins k v).get k' = if k' = k then some v else t.get k' := by
  induction t with
  | nil => simp [Tree.ins, Tree.get, eq_comm]
  | cons p r ih =>
    obtain ⟨q, w⟩ := p
    simp only [Tree.ins]
    split
    · simp only [Tree.get, eq_comm]
    · split
      · rename_i h1 h2
        subst h2
        simp only [Tree.get]
        by_cases h : k = k'
        · subst h; simp
        · simp [h, Ne.symm h]
      · rename_i h1 h2
        simp only [Tree.get, ih]
        by_cases h : q = k'
        · subst h; simp [Ne.symm h2]
        · simp [h]

/-- keys strictly increasing -/
def Tree.Sorted {α} (t : Tree α) : Prop := (t.map Prod.fst).Pairwise (· < ·)

theorem Tree.mem_keys_ins {α} (t : Tree α) (k : Nat) (v : α) (x : Nat) :
    x ∈ (t.ins k v).map Prod.fst ↔ x = k ∨ x ∈ t.map Prod.fst := by
  induction t with
  | nil => simp [Tree.ins]
  | cons p r ih =>
    obtain ⟨q, w⟩ := p
    simp only [Tree.ins]
    split
    · simp
    · split
      · rename_i h; subst h; simp
      · simp only [List.map_cons, List.mem_cons, ih]; grind

theorem Tree.sorted_ins {α} (t : Tree α) (k : Nat) (v : α) (h : t.Sorted) : (t.ins k v).Sorted := by
  induction t with
  | nil => simp [Tree.ins, Tree.Sorted]
  | cons p r ih =>
    obtain ⟨q, w⟩ := p
    simp only [Tree.Sorted, List.map_cons, List.pairwise_cons] at h
    simp only [Tree.ins]
    split
    · rename_i hk
      simp only [Tree.Sorted, List.map_cons, List.pairwise_cons, List.mem_cons]
      refine ⟨?_, h.1, h.2⟩
      rintro x (rfl | hx)
      · exact hk
      · exact Nat.lt_trans hk (h.1 x hx)
    · split
      · rename_i hk hk2
        subst hk2
        simpa only [Tree.Sorted, List.map_cons, List.pairwise_cons] using h
      · rename_i hk hk2
        simp only [Tree.Sorted, List.map_cons, List.pairwise_cons]
        refine ⟨fun x hx => ?_, ih h.2⟩
        rcases (Tree.mem_keys_ins r k v x).1 hx with rfl | hx
        · omega
        · exact h.1 x hx

theorem Tree.get_isSome {α} (t : Tree α) (k : Nat) : (t.get k).isSome ↔ k ∈ t.map Prod.fst := by
  induction t with
  | nil => simp [Tree.get]
  | cons p r ih =>
    obtain ⟨q, w⟩ := p
    simp only [Tree.get, List.map_cons, List.mem_cons]
    split
    · rename_i h; simp [h]
    · rename_i h; rw [ih]; simp [Ne.symm h]

theorem Tree.get_none {α} (t : Tree α) (k : Nat) (h : k ∉ t.map Prod.fst) : t.get k = none := by
  have := Tree.get_isSome t k
  cases hg : t.get k <;> simp_all

/-- appending beyond the last key -/
theorem Tree.ins_last {α} (t : Tree α) (k : Nat) (v : α) (h : ∀ x ∈ t.map Prod.fst, x < k) : t.ins k v = t ++ [(k, v)] := by
  induction t with
  | nil => rfl
  | cons p r ih =>
    obtain ⟨q, w⟩ := p
    have hq : q < k := h q (by simp)
    simp only [Tree.ins, List.cons_append]
    rw [if_neg (by omega), if_neg (by omega), ih (fun x hx => h x (by simp at hx ⊢; grind))]

/-! ## The invariant and the abstraction -/

/-- invariant of every reachable database: identifier keys are `0, 1, 2, …` in order, no identifier text occurs twice,
tables are sorted and use allocated keys only -/
structure Db.Inv (db : Db) : Prop where
  keys : db.iids.map Prod.fst = List.range db.iids.length
  texts : (db.iids.map Prod.snd).Nodup
  sorted : ∀ t, (db.tables t).Sorted
  alloc : ∀ t k, k ∈ (db.tables t).map Prod.fst → k < db.iids.length

/-- the vector stored for an identifier text -/
def Db.vec (db : Db) (t : Tbl) (x : Bytes) : Option (List t.Val) :=
  match keyByValue db.iids x with
  | some k => (db.tables t).get k
  | none => none

/-- abstraction function -/
def Db.abs (db : Db) : MapDb := ⟨db.iids.map Prod.snd, db.vec⟩

theorem Db.empty_inv : Db.empty.Inv :=
  ⟨rfl, by simp [Db.empty], by simp [Db.empty, Tree.Sorted], by simp [Db.empty]⟩

theorem Db.empty_abs : Db.empty.abs = MapDb.empty := rfl

theorem keyByValue_none (t : Tree Bytes) (x : Bytes) : keyByValue t x = none ↔ x ∉ t.map Prod.snd := by
  induction t with
  | nil => simp [keyByValue]
  | cons p r ih =>
    obtain ⟨k, v⟩ := p
    simp only [keyByValue, List.map_cons, List.mem_cons]
    split
    · rename_i h; simp [h]
    · rename_i h; rw [ih]; simp [Ne.symm h]

theorem keyByValue_mem {t : Tree Bytes} {x : Bytes} {k : Nat} (h : keyByValue t x = some k) : (k, x) ∈ t := by
  induction t with
  | nil => simp [keyByValue] at h
  | cons p r ih =>
    obtain ⟨k', v⟩ := p
    simp only [keyByValue] at h
    split at h
    · rename_i hv; simp_all
    · exact List.mem_cons_of_mem _ (ih h)

theorem keyByValue_append (t : Tree Bytes) (k : Nat) (x y : Bytes) :
    keyByValue (t ++ [(k, x)]) y = (keyByValue t y).or (if x = y then some k else none) := by
  induction t with
  | nil => simp [keyByValue]
  | cons p r ih =>
    obtain ⟨k', v⟩ := p
    simp only [List.cons_append, keyByValue]
    split
    · simp
    · exact ih

theorem nextKey_range (t : Tree Bytes) (h : t.map Prod.fst = List.range t.length) : nextKey t = t.length := by
  unfold nextKey
  cases hl : t.getLast? with
  | none => simp_all
  | some p =>
    have h1 : (t.map Prod.fst).getLast? = some p.1 := by rw [List.getLast?_map, hl]; rfl
    rw [h, List.getLast?_range] at h1
    split at h1
    · simp at h1
    · rename_i hn
      simp only [Option.some.injEq] at h1
      obtain ⟨k, v⟩ := p
      dsimp at h1 ⊢
      omega

theorem Db.Inv.keys_lt {db : Db} (h : db.Inv) {x : Bytes} {k : Nat} (hk : keyByValue db.iids x = some k) :
    k < db.iids.length := by
  have := keyByValue_mem hk
  have h2 : k ∈ db.iids.map Prod.fst := List.mem_map.2 ⟨_, this, rfl⟩
  rw [h.keys] at h2
  exact List.mem_range.1 h2

/-- keys determine texts and vice versa -/
theorem Db.Inv.key_inj {db : Db} (h : db.Inv) {x y : Bytes} {k : Nat} (hx : keyByValue db.iids x = some k)
    (hy : keyByValue db.iids y = some k) : x = y := by
  have hx := keyByValue_mem hx
  have hy := keyByValue_mem hy
  have hn : (db.iids.map Prod.fst).Nodup := by rw [h.keys]; exact List.nodup_range
  clear h
  generalize db.iids = l at hx hy hn
  induction l with
  | nil => cases hx
  | cons p r ih =>
    simp only [List.map_cons, List.nodup_cons] at hn
    rcases List.mem_cons.1 hx with hx | hx <;> rcases List.mem_cons.1 hy with hy | hy
    · rw [← hx] at hy; exact (Prod.ext_iff.1 hy).2.symm
    · exact absurd (List.mem_map.2 ⟨_, hy, rfl⟩) (by rw [← hx] at hn; exact hn.1)
    · exact absurd (List.mem_map.2 ⟨_, hx, rfl⟩) (by rw [← hy] at hn; exact hn.1)
    · exact ih hx hy hn.2

theorem MapDb.ext' {a b : MapDb} (h1 : a.order = b.order) (h2 : ∀ t x, a.tables t x = b.tables t x) : a = b := by
  cases a; cases b
  simp only at h1
  subst h1
  congr
  funext t x
  exact h2 t x

/-- `designated_key` returns the key of the identifier, allocating it if needed -/
theorem designatedKey_spec (id : IdentifierPrefix) (db : Db) (h : db.Inv) :
    ∃ k db', designatedKey id db = (.ok k, db') ∧ db'.Inv ∧ db'.abs = db.abs.touch id.toStr ∧
      keyByValue db'.iids id.toStr = some k ∧ db'.tables = db.tables := by
  unfold designatedKey
  cases hk : keyByValue db.iids id.toStr with
  | some k =>
    refine ⟨k, db, rfl, h, ?_, hk, rfl⟩
    have : id.toStr ∈ db.iids.map Prod.snd := List.mem_map.2 ⟨_, keyByValue_mem hk, rfl⟩
    exact (if_pos this).symm
  | none =>
    have hnk := nextKey_range db.iids h.keys
    have hins : db.iids.ins (nextKey db.iids) id.toStr = db.iids ++ [(db.iids.length, id.toStr)] := by
      rw [hnk]; exact Tree.ins_last _ _ _ (by rw [h.keys]; simp)
    have hnot := (keyByValue_none db.iids id.toStr).1 hk
    refine ⟨db.iids.length, { db with iids := db.iids ++ [(db.iids.length, id.toStr)] }, ?_, ?_, ?_, ?_, rfl⟩
    · show (Res.ok (nextKey db.iids), _) = _
      rw [hins, hnk]
    · refine ⟨?_, ?_, h.sorted, ?_⟩
      · simp [h.keys, List.range_succ]
      · simp only [List.map_append, List.map_cons, List.map_nil]
        refine List.nodup_append.2 ⟨h.texts, by simp, ?_⟩
        intro a ha b hb hab
        simp only [List.mem_singleton] at hb
        subst hb; subst hab; exact hnot ha
      · intro t k hk; have := h.alloc t k hk; simp; omega
    · apply MapDb.ext'
      · have : db.abs.touch id.toStr = { db.abs with order := db.abs.order ++ [id.toStr] } := if_neg hnot
        rw [this]; simp [Db.abs]
      · intro t x
        simp only [MapDb.touch_tables, Db.abs, Db.vec, keyByValue_append]
        cases hx : keyByValue db.iids x with
        | some k => simp
        | none =>
          simp only [Option.none_or]
          by_cases hxi : id.toStr = x
          · simp only [hxi, if_true]
            exact Tree.get_none _ _ (fun hm => by have := h.alloc t _ hm; omega)
          · simp [hxi]
    · simp [keyByValue_append, hk]

theorem Db.setTable_same (db : Db) (t : Tbl) (tr) : (db.setTable t tr).tables t = tr := by simp [Db.setTable]
theorem Db.setTable_other (db : Db) {t t' : Tbl} (h : t' ≠ t) (tr) : (db.setTable t tr).tables t' = db.tables t' := by
  simp [Db.setTable, h]
@[simp] theorem Db.setTable_iids (db : Db) (t : Tbl) (tr) : (db.setTable t tr).iids = db.iids := rfl

/-- writing an entry under an allocated key is a map update -/
theorem setEntry_spec (db : Db) (h : db.Inv) (t : Tbl) (x : Bytes) (k : Nat) (hk : keyByValue db.iids x = some k)
    (o : Option (List t.Val)) (ho : o = none → db.vec t x = none) :
    (db.setEntry t k o).Inv ∧ (db.setEntry t k o).abs = db.abs.set t x o := by
  cases o with
  | none =>
    refine ⟨h, ?_⟩
    refine MapDb.ext' (by rfl) ?_
    intro t' y
    by_cases ht : t' = t
    · subst ht
      by_cases hy : y = x
      · subst hy; rw [MapDb.set_same]; exact ho rfl
      · rw [MapDb.set_other_id _ _ _ hy]; rfl
    · rw [MapDb.set_other_tbl _ ht]; rfl
  | some l =>
    simp only [Db.setEntry]
    refine ⟨⟨h.keys, h.texts, ?_, ?_⟩, ?_⟩
    · intro t'
      by_cases ht : t' = t
      · subst ht; rw [Db.setTable_same]; exact Tree.sorted_ins _ _ _ (h.sorted _)
      · rw [Db.setTable_other _ ht]; exact h.sorted _
    · intro t' k' hk'
      by_cases ht : t' = t
      · subst ht; rw [Db.setTable_same, Tree.mem_keys_ins] at hk'
        rcases hk' with rfl | hk'
        · exact h.keys_lt hk
        · exact h.alloc _ _ hk'
      · rw [Db.setTable_other _ ht] at hk'; exact h.alloc _ _ hk'
    · refine MapDb.ext' (by rfl) ?_
      intro t' y
      simp only [Db.abs, Db.vec, Db.setTable_iids]
      by_cases ht : t' = t
      · subst ht
        rw [Db.setTable_same]
        by_cases hy : y = x
        · subst hy; rw [MapDb.set_same, hk]; simp [Tree.get_ins]
        · rw [MapDb.set_other_id _ _ _ hy]
          simp only [Db.vec]
          cases hky : keyByValue db.iids y with
          | none => rfl
          | some k' =>
            have : k' ≠ k := fun he => hy (h.key_inj (he ▸ hky) hk)
            simp [Tree.get_ins, this]
      · rw [MapDb.set_other_tbl _ ht, Db.setTable_other _ ht]; rfl

/-! ## Simulation -/

/-- `x` over the sled database does what `y` does over the maps: same result, related databases, invariant kept -/
def Sim {α : Type} (x : StM Db α) (y : StM MapDb α) : Prop :=
  ∀ db, db.Inv → (x db).1 = (y db.abs).1 ∧ (x db).2.abs = (y db.abs).2 ∧ (x db).2.Inv

namespace Sim
variable {α β : Type}

theorem pure (a : α) : Sim (Pure.pure a) (Pure.pure a) := fun _ h => ⟨rfl, rfl, h⟩

theorem lift (r : Res α) : Sim (StM.lift r) (StM.lift r) := fun _ h => ⟨rfl, rfl, h⟩

theorem fail (e : Error) : Sim (StM.fail e : StM Db α) (StM.fail e) := lift _

theorem bind {x : StM Db α} {y : StM MapDb α} {f : α → StM Db β} {g : α → StM MapDb β} (h1 : Sim x y)
    (h2 : ∀ a, Sim (f a) (g a)) : Sim (x >>= f) (y >>= g) := by
  intro db hdb
  obtain ⟨e1, e2, e3⟩ := h1 db hdb
  show (StM.bind x f db).1 = (StM.bind y g db.abs).1 ∧ _
  change _ ∧ (StM.bind x f db).2.abs = (StM.bind y g db.abs).2 ∧ (StM.bind x f db).2.Inv
  unfold StM.bind
  rcases hx : x db with ⟨r, d⟩
  rcases hy : y db.abs with ⟨r', d'⟩
  rw [hx, hy] at e1 e2
  rw [hx] at e3
  dsimp only at e1 e2 e3
  subst e1 e2
  cases r with
  | ok a => exact h2 a d e3
  | err e => exact ⟨rfl, rfl, e3⟩
  | panic => exact ⟨rfl, rfl, e3⟩

theorem result {x : StM Db α} {y : StM MapDb α} (h1 : Sim x y) : Sim x.result y.result := by
  intro db hdb
  obtain ⟨e1, e2, e3⟩ := h1 db hdb
  unfold StM.result
  rcases hx : x db with ⟨r, d⟩
  rcases hy : y db.abs with ⟨r', d'⟩
  rw [hx, hy] at e1 e2
  rw [hx] at e3
  dsimp only at e1 e2 e3
  subst e1 e2
  cases r <;> exact ⟨rfl, rfl, e3⟩

end Sim

theorem Db.vec_of_key {db : Db} {t : Tbl} {x : Bytes} {k : Nat} (h : keyByValue db.iids x = some k) :
    (db.tables t).get k = db.vec t x := by simp [Db.vec, h]

/-- common part: an operation that first looks up the designated key -/
theorem sim_keyed {α} (id : IdentifierPrefix) (f : Nat → StM Db α) (g : StM MapDb α)
    (h : ∀ db k, db.Inv → keyByValue db.iids id.toStr = some k → (f k db).1 = (g db.abs).1 ∧
      (f k db).2.abs = (g db.abs).2 ∧ (f k db).2.Inv) :
    Sim (designatedKey id >>= f) (fun a => g (a.touch id.toStr)) := by
  intro db hdb
  obtain ⟨k, db', h1, h2, h3, h4, _⟩ := designatedKey_spec id db hdb
  have : (designatedKey id >>= f) db = f k db' := by
    show StM.bind _ _ _ = _
    unfold StM.bind; rw [h1]
  rw [this]
  have := h db' k h2 h4
  rw [h3] at this
  exact this

theorem filterMap_congr' {α β} {f g : α → Option β} {l : List α} (h : ∀ x ∈ l, f x = g x) :
    l.filterMap f = l.filterMap g := by
  induction l with
  | nil => rfl
  | cons a l ih => simp only [List.filterMap_cons, h a (by simp), ih fun x hx => h x (by simp [hx])]

theorem Tree.filterMap_order {α β} (f : List α → β) (t : Tree (List α)) (hs : t.Sorted) (n : Nat)
    (ha : ∀ k ∈ t.map Prod.fst, k < n) :
    t.map (fun p => f p.2) = (List.range n).filterMap fun k => (t.get k).map f := by
  induction n generalizing t with
  | zero =>
    cases t with
    | nil => rfl
    | cons p r => exact absurd (ha p.1 (by simp)) (by omega)
  | succ n ih =>
    rw [List.range_succ, List.filterMap_append]
    by_cases hn : n ∈ t.map Prod.fst
    · -- n is the last key
      have hsplit : ∃ t' v, t = t' ++ [(n, v)] ∧ ∀ k ∈ t'.map Prod.fst, k < n := by
        clear ih
        induction t with
        | nil => simp at hn
        | cons p r ihr =>
          obtain ⟨k, v⟩ := p
          simp only [Tree.Sorted, List.map_cons, List.pairwise_cons] at hs
          by_cases hk : k = n
          · subst hk
            refine ⟨[], v, ?_, by simp⟩
            cases r with
            | nil => rfl
            | cons q r' =>
              have h1 := hs.1 q.1 (by simp)
              have h2 := ha q.1 (by simp)
              omega
          · have hn' : n ∈ r.map Prod.fst := by simp at hn ⊢; grind
            obtain ⟨t', v', rfl, ht'⟩ := ihr hs.2 (fun k hk => ha k (by simp at hk ⊢; grind)) hn'
            refine ⟨(k, v) :: t', v', rfl, ?_⟩
            intro x hx
            simp only [List.map_cons, List.mem_cons] at hx
            rcases hx with rfl | hx
            · exact hs.1 n hn'
            · exact ht' x hx
      obtain ⟨t', v, rfl, ht'⟩ := hsplit
      have hs' : Tree.Sorted t' := by
        simp only [Tree.Sorted, List.map_append, List.pairwise_append] at hs ⊢; exact hs.1
      have hget : ∀ k, (Tree.get (t' ++ [(n, v)]) k) = if k = n then some v else Tree.get t' k := by
        intro k
        rw [← Tree.ins_last t' n v ht', Tree.get_ins]
      rw [List.map_append, ih t' hs' ht']
      congr 1
      · apply filterMap_congr'
        intro k hk
        have : k ≠ n := by simp at hk; omega
        rw [hget, if_neg this]
      · simp [hget]
    · rw [ih t hs (fun k hk => by have := ha k hk; rcases Nat.lt_succ_iff_lt_or_eq.1 this with h | h; exact h; subst h; exact absurd hk hn)]
      simp [Tree.get_none t n hn]

/-- the sled operations refine the map operations -/
structure OpsSim (o : Ops Db) : Prop where
  read : ∀ t id, Sim (o.read t id) (mapOps.read t id)
  push : ∀ t id v, Sim (o.push t id v) (mapOps.push t id v)
  remove : ∀ t id v, Sim (o.remove t id v) (mapOps.remove t id v)
  put : ∀ t id vs, Sim (o.put t id vs) (mapOps.put t id vs)
  all : ∀ t, Sim (o.all t) (mapOps.all t)

theorem sled_sim : OpsSim sled where
  read t id := by
    have := sim_keyed id (fun k db => (t.iterValues ((db.tables t).get k), db))
      (fun a => (t.iterValues (a.tables t id.toStr), a))
      (fun db k hdb hk => ⟨by simp only [Db.vec_of_key hk]; rfl, rfl, hdb⟩)
    simpa [sled, mapOps] using this
  push t id v := by
    have := sim_keyed id (fun k db => (.ok (), db.setEntry t k (some (t.pushed ((db.tables t).get k) v))))
      (fun a => (.ok (), a.set t id.toStr (some (t.pushed (a.tables t id.toStr) v))))
      (fun db k hdb hk => by
        have h := setEntry_spec db hdb t id.toStr k hk (some (t.pushed ((db.tables t).get k) v)) (by simp)
        refine ⟨rfl, ?_, h.1⟩
        dsimp only
        rw [h.2, Db.vec_of_key hk]; rfl)
    simpa [sled, mapOps] using this
  remove t id v := by
    have := sim_keyed id (fun k db => (.ok (), db.setEntry t k (t.removed ((db.tables t).get k) v)))
      (fun a => (.ok (), a.set t id.toStr (t.removed (a.tables t id.toStr) v)))
      (fun db k hdb hk => by
        have h := setEntry_spec db hdb t id.toStr k hk (t.removed ((db.tables t).get k) v) (by
          rw [Db.vec_of_key hk]
          intro hn
          cases hv : db.vec t id.toStr with
          | none => rfl
          | some l =>
            rw [hv] at hn
            simp only [Tbl.removed] at hn
            split at hn <;> simp at hn)
        refine ⟨rfl, ?_, h.1⟩
        dsimp only
        rw [h.2, Db.vec_of_key hk]; rfl)
    simpa [sled, mapOps] using this
  put t id vs := by
    have := sim_keyed id (fun k db => (.ok (), db.setEntry t k (some vs)))
      (fun a => (.ok (), a.set t id.toStr (some vs)))
      (fun db k hdb hk => by
        have h := setEntry_spec db hdb t id.toStr k hk (some vs) (by simp)
        exact ⟨rfl, h.2, h.1⟩)
    simpa [sled, mapOps] using this
  all t := by
    intro db hdb
    refine ⟨?_, rfl, hdb⟩
    show Res.ok _ = Res.ok _
    congr 1
    rw [Tree.filterMap_order t.decAll (db.tables t) (hdb.sorted t) db.iids.length (hdb.alloc t)]
    simp only [Db.abs, ← hdb.keys, List.filterMap_map]
    apply filterMap_congr'
    intro p hp
    simp only [Function.comp]
    congr 1
    have hk : keyByValue db.iids p.2 = some p.1 := by
      cases hq : keyByValue db.iids p.2 with
      | none => exact absurd (List.mem_map.2 ⟨p, hp, rfl⟩) ((keyByValue_none _ _).1 hq)
      | some k =>
        have h1 := keyByValue_mem hq
        have hn := hdb.texts
        clear hq hdb
        generalize db.iids = l at hp h1 hn
        induction l with
        | nil => cases hp
        | cons q r ih =>
          simp only [List.map_cons, List.nodup_cons] at hn
          rcases List.mem_cons.1 hp with hp2 | hp2 <;> rcases List.mem_cons.1 h1 with h2 | h2
          · rw [hp2, ← h2]
          · exact absurd (List.mem_map.2 ⟨_, h2, by rw [hp2]⟩) hn.1
          · exact absurd (List.mem_map.2 ⟨_, hp2, by rw [← h2]⟩) hn.1
          · exact ih hp2 h2 hn.2
    rw [Db.vec_of_key hk]

/-! ## The processor over both databases -/

section
variable {o : Ops Db} (ho : OpsSim o) (env : Env)
include ho

theorem computeState_sim (id : IdentifierPrefix) : Sim (computeState o env id) (computeState mapOps env id) := by
  unfold computeState getKel
  refine Sim.bind (ho.read _ _) fun r => ?_
  cases r with
  | none => exact Sim.pure _
  | some l => exact Sim.bind (Sim.lift _) fun _ => Sim.pure _

theorem computeStateAtSn_sim (id : IdentifierPrefix) (sn : Nat) :
    Sim (computeStateAtSn o env id sn) (computeStateAtSn mapOps env id sn) := by
  unfold computeStateAtSn getKel
  refine Sim.bind (ho.read _ _) fun r => ?_
  cases r with
  | none => exact Sim.pure _
  | some l => exact Sim.bind (Sim.lift _) fun _ => Sim.pure _

theorem getLastEstSeal_sim (id : IdentifierPrefix) : Sim (getLastEstSeal o env id) (getLastEstSeal mapOps env id) := by
  unfold getLastEstSeal getKel
  refine Sim.bind (ho.read _ _) fun r => ?_
  cases r with
  | none => exact Sim.pure _
  | some l => exact Sim.bind (Sim.lift _) fun _ => Sim.pure _

omit env in
theorem getKerl_sim (id : IdentifierPrefix) : Sim (getKerl o id) (getKerl mapOps id) := by
  unfold getKerl getKel
  refine Sim.bind (ho.read _ _) fun r => ?_
  cases r with
  | none => exact Sim.pure _
  | some l => exact Sim.bind (Sim.lift _) fun _ => Sim.pure _

omit env in
theorem getEventAtSn_sim (id : IdentifierPrefix) (sn : Nat) : Sim (getEventAtSn o id sn) (getEventAtSn mapOps id sn) := by
  unfold getEventAtSn getKel
  refine Sim.bind (ho.read _ _) fun r => ?_
  cases r <;> exact Sim.pure _

omit env in
theorem hasReceipt_sim (id : IdentifierPrefix) (sn : Nat) (v : IdentifierPrefix) :
    Sim (hasReceipt o id sn v) (hasReceipt mapOps id sn v) := by
  unfold hasReceipt getReceiptsT
  refine Sim.bind (ho.read _ _) fun r => ?_
  cases r <;> exact Sim.pure _

theorem getKeysAtEvent_sim (id : IdentifierPrefix) (sn : Nat) (d : SelfAddressingPrefix) :
    Sim (getKeysAtEvent o env id sn d) (getKeysAtEvent mapOps env id sn d) := by
  unfold getKeysAtEvent
  refine Sim.bind (Sim.result (getEventAtSn_sim ho id sn)) fun r => ?_
  split
  · refine Sim.bind (Sim.lift _) fun b => ?_
    split
    · split
      · exact Sim.pure _
      · exact Sim.fail _
    · exact Sim.fail _
  · exact Sim.fail _

theorem validateSeal_sim (sl : EventSeal) (m : EventMessage) :
    Sim (validateSeal o env sl m) (validateSeal mapOps env sl m) := by
  unfold validateSeal
  refine Sim.bind (Sim.result (getEventAtSn_sim ho _ _)) fun r => ?_
  split
  · split
    · refine Sim.bind (Sim.lift _) fun b => ?_
      split
      · exact Sim.pure _
      · exact Sim.fail _
    · exact Sim.fail _
  · exact Sim.fail _

theorem checkDelegation_sim (e : SignedEvent) : Sim (checkDelegation o env e) (checkDelegation mapOps env e) := by
  unfold checkDelegation
  split
  · split
    · exact validateSeal_sim ho env _ _
    · exact Sim.fail _
  · refine Sim.bind (computeState_sim ho env _) fun r => ?_
    split
    · exact Sim.fail _
    · split
      · exact Sim.fail _
      · split
        · exact validateSeal_sim ho env _ _
        · exact Sim.fail _
  · exact Sim.pure _

theorem applyToState_sim (m : EventMessage) : Sim (applyToState o env m) (applyToState mapOps env m) :=
  Sim.bind (computeState_sim ho env _) fun _ => Sim.lift _

theorem storeAndVerify_sim (e : SignedEvent) (new : IdState) :
    Sim (storeAndVerify o env e new) (storeAndVerify mapOps env e new) := by
  unfold storeAndVerify addKel removeKel
  refine Sim.bind (ho.push _ _ _) fun _ => Sim.bind (Sim.lift _) fun b => Sim.bind (Sim.result (Sim.lift _)) fun r => ?_
  split
  · exact Sim.pure _
  · refine Sim.bind ?_ fun _ => Sim.bind (ho.remove _ _ _) fun _ => Sim.fail _
    unfold noteDup addDup
    split
    · exact ho.push _ _ _
    · exact Sim.pure _

theorem processEvent_sim (e : SignedEvent) : Sim (processEvent o env e) (processEvent mapOps env e) :=
  Sim.bind (checkDelegation_sim ho env e) fun _ => Sim.bind (applyToState_sim ho env _) fun _ => storeAndVerify_sim ho env e _

theorem processValidatorReceipt_sim (r : TReceipt) :
    Sim (processValidatorReceipt o env r) (processValidatorReceipt mapOps env r) := by
  refine Sim.bind ?_ fun _ => computeState_sim ho env _
  unfold validatorReceiptStep addReceiptT addEscrowT
  refine Sim.bind (Sim.result (getEventAtSn_sim ho _ _)) fun x => ?_
  split
  · refine Sim.bind (getKeysAtEvent_sim ho env _ _ _) fun kp => ?_
    split
    · refine Sim.bind (Sim.lift _) fun b => Sim.bind (Sim.lift _) fun b => ?_
      split
      · exact ho.push _ _ _
      · exact Sim.fail _
    · exact Sim.fail _
  · exact Sim.bind (ho.push _ _ _) fun _ => Sim.fail _

theorem processWitnessReceipt_sim (r : NtReceipt) :
    Sim (processWitnessReceipt o env r) (processWitnessReceipt mapOps env r) := by
  refine Sim.bind ?_ fun _ => computeState_sim ho env _
  unfold witnessReceiptStep addReceiptNt addEscrowNt
  refine Sim.bind (Sim.result (getEventAtSn_sim ho _ _)) fun x => ?_
  split
  · refine Sim.bind (Sim.lift _) fun kp => ?_
    split
    · exact ho.push _ _ _
    · exact Sim.fail _
  · exact ho.push _ _ _

theorem verifySignature_sim (d : Bytes) (s : Signature) :
    Sim (verifySignature o env d s) (verifySignature mapOps env d s) := by
  unfold verifySignature
  split
  · refine Sim.bind (getKeysAtEvent_sim ho env _ _ _) fun kp => ?_
    split
    · refine Sim.bind (Sim.lift _) fun b => ?_
      split
      · exact Sim.pure _
      · exact Sim.fail _
    · exact Sim.fail _
  · refine Sim.bind (Sim.lift _) fun b => ?_
    split
    · exact Sim.pure _
    · exact Sim.fail _

omit env in
theorem badaLogic_sim (r : SignedReply) : Sim (badaLogic o r) (badaLogic mapOps r) := by
  unfold badaLogic getAccepted
  refine Sim.bind (ho.read _ _) fun x => ?_
  split
  · exact Sim.lift _
  · exact Sim.fail _

omit env in
theorem checkTimestamp_sim (dt : Timestamp) (p a : IdentifierPrefix) :
    Sim (checkTimestamp o dt p a) (checkTimestamp mapOps dt p a) := by
  unfold checkTimestamp getAccepted
  refine Sim.bind (ho.read _ _) fun x => ?_
  split
  · exact Sim.fail _
  · split
    · split
      · exact Sim.fail _
      · exact Sim.pure _
    · exact Sim.fail _

omit ho env in
theorem ignoring_sim {x : StM Db Unit} {y : StM MapDb Unit} (h : Sim x y) (e : Error) :
    Sim (ignoring x e) (ignoring y e) := by
  unfold ignoring
  refine Sim.bind (Sim.result h) fun x => ?_
  split
  · exact Sim.pure _
  · split
    · exact Sim.pure _
    · exact Sim.fail _

theorem checkKsn_sim (k : Ksn) (a : IdentifierPrefix) : Sim (checkKsn o env k a) (checkKsn mapOps env k a) := by
  unfold checkKsn
  refine Sim.bind (getEventAtSn_sim ho _ _) fun x => ?_
  split
  · exact Sim.fail _
  · refine Sim.bind (Sim.lift _) fun b => ?_
    split
    · refine Sim.bind (ignoring_sim (checkTimestamp_sim ho _ _ _) _) fun _ => Sim.bind (computeState_sim ho env _) fun s => ?_
      split
      · exact Sim.fail _
      · split
        · exact Sim.fail _
        · split
          · exact Sim.pure _
          · exact Sim.fail _
    · exact Sim.fail _

omit env in
theorem updateAccepted_sim (r : SignedReply) (id : IdentifierPrefix) :
    Sim (updateAccepted o r id) (updateAccepted mapOps r id) := by
  unfold updateAccepted
  refine Sim.bind (ho.read _ _) fun x => ?_
  split
  · exact ho.put _ _ _
  · exact ho.push _ _ _

theorem processSignedReply_sim (r : SignedReply) :
    Sim (processSignedReply o env r) (processSignedReply mapOps env r) := by
  unfold processSignedReply
  split
  · split
    · exact Sim.fail _
    · refine Sim.bind ?_ fun _ => Sim.bind (Sim.lift _) fun _ => Sim.bind (ignoring_sim (badaLogic_sim ho _) _) fun _ =>
        Sim.bind ?_ fun _ => Sim.bind (updateAccepted_sim ho _ _) fun _ => Sim.pure _
      · unfold replySignature escrowReply addEscrowed
        refine Sim.bind (Sim.lift _) fun b => Sim.bind (Sim.result (verifySignature_sim ho env _ _)) fun x => ?_
        split
        · exact Sim.pure _
        · split
          · exact Sim.bind (ho.push _ _ _) fun _ => Sim.fail _
          · exact Sim.fail _
      · unfold replyNotice
        refine Sim.bind (Sim.result (checkKsn_sim ho env _ _)) fun x => ?_
        split
        · exact Sim.pure _
        · refine Sim.bind ?_ fun _ => Sim.fail _
          unfold escrowIf escrowReply addEscrowed
          split
          · exact ho.push _ _ _
          · exact Sim.pure _
  · exact Sim.fail _

theorem process_sim (m : Message) : Sim (process o env m) (process mapOps env m) := by
  unfold process
  split
  · exact processEvent_sim ho env _
  · exact processWitnessReceipt_sim ho env _
  · exact processValidatorReceipt_sim ho env _
  · exact processSignedReply_sim ho env _
  · exact Sim.lift _

theorem processEscrow_sim : Sim (processEscrow o env) (processEscrow mapOps env) := by
  unfold processEscrow
  refine Sim.bind (ho.all _) fun es => ?_
  induction es with
  | nil => exact Sim.pure _
  | cons x es ih =>
    cases x with
    | none => exact Sim.lift _
    | some rs =>
      refine Sim.bind ?_ fun _ => ih
      induction rs with
      | nil => exact Sim.pure _
      | cons r rs ih2 =>
        refine Sim.bind ?_ fun _ => ih2
        unfold escrowStep removeEscrowed
        refine Sim.bind (Sim.result (processSignedReply_sim ho env r)) fun x => ?_
        split
        · exact ho.remove _ _ _
        · split
          · exact ho.remove _ _ _
          · exact Sim.pure _

theorem action_sim (a : Action) (db : Db) (h : db.Inv) :
    (a.run o env db).Inv ∧ (a.run o env db).abs = a.run mapOps env db.abs := by
  cases a with
  | submit m => have := process_sim ho env m db h; exact ⟨this.2.2, this.2.1⟩
  | reprocess => have := processEscrow_sim ho env db h; exact ⟨this.2.2, this.2.1⟩
  | lookup t id => have := ho.read t id db h; exact ⟨this.2.2, this.2.1⟩

theorem history_sim (as : List Action) (db : Db) (h : db.Inv) :
    (runHistory o env db as).Inv ∧ (runHistory o env db as).abs = runHistory mapOps env db.abs as := by
  induction as generalizing db with
  | nil => exact ⟨h, rfl⟩
  | cons a as ih =>
    have h1 := action_sim ho env a db h
    have h2 := ih (a.run o env db) h1.1
    rw [h1.2] at h2
    exact h2

end

end Keriox
