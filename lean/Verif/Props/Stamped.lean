import Verif.Stamped
import Verif.Props.State
import Verif.Frozen
/-!
# C104: the order of stored events
-/
namespace Keriox

/-! ## Specification -/

/-- the list is in ascending order of the comparison -/
def Ascending (l : List StampedSigned) : Prop := l.Pairwise fun a b => a.cmp b ≠ .gt

/-- the events with a given number, in their order -/
def atNumber (n : Nat) (l : List StampedSigned) : List StampedSigned := l.filter fun e => e.event.sn = n

/-- the outcome of a stable sort: ascending, and events that compare as equal keep their order.  `Vec::sort` promises this. -/
structure StablySorted (l l' : List StampedSigned) : Prop where
  ascending : Ascending l'
  stable : ∀ n, atNumber n l' = atNumber n l

/-! ## Proof -/

theorem cmpSn_eq {a b : Nat} : cmpSn a b = .eq ↔ a = b := by unfold cmpSn; grind
theorem cmpSn_gt {a b : Nat} : cmpSn a b = .gt ↔ b < a := by unfold cmpSn; grind
theorem cmpSn_lt {a b : Nat} : cmpSn a b = .lt ↔ a < b := by unfold cmpSn; grind

theorem ascending_unique {l m : List StampedSigned} (hl : Ascending l) (hm : Ascending m) (h : ∀ n, atNumber n l = atNumber n m) : l = m := by
  induction l generalizing m with
  | nil =>
    cases m with
    | nil => rfl
    | cons y ys => have := h y.event.sn; simp [atNumber] at this
  | cons x xs ih =>
    cases m with
    | nil => have := h x.event.sn; simp [atNumber] at this
    | cons y ys =>
      have hl' := List.pairwise_cons.1 hl
      have hm' := List.pairwise_cons.1 hm
      have hx : x.event.sn ≤ y.event.sn := by
        have hy : y ∈ atNumber y.event.sn (x :: xs) := by rw [h]; simp [atNumber]
        rcases List.mem_cons.1 (List.mem_filter.1 hy).1 with e | e
        · rw [e]; exact Nat.le_refl _
        · have := hl'.1 y e
          simp only [StampedSigned.cmp, ne_eq, cmpSn_gt] at this; omega
      have hy : y.event.sn ≤ x.event.sn := by
        have hx : x ∈ atNumber x.event.sn (y :: ys) := by rw [← h]; simp [atNumber]
        rcases List.mem_cons.1 (List.mem_filter.1 hx).1 with e | e
        · rw [e]; exact Nat.le_refl _
        · have := hm'.1 x e
          simp only [StampedSigned.cmp, ne_eq, cmpSn_gt] at this; omega
      have hxy : x.event.sn = y.event.sn := Nat.le_antisymm hx hy
      have h0 := h x.event.sn
      simp only [atNumber, List.filter_cons, decide_true, if_true, hxy] at h0
      have hhead : x = y := (List.cons.inj h0).1
      subst hhead
      congr 1
      refine ih hl'.2 hm'.2 fun n => ?_
      have := h n
      simp only [atNumber, List.filter_cons] at this ⊢
      split at this
      · exact (List.cons.inj this).2
      · exact this

theorem insertBySn_ascending (e : SignedEvent) (l : List SignedEvent) (h : l.Pairwise fun a b => a.sn ≤ b.sn) :
    (insertBySn e l).Pairwise fun a b => a.sn ≤ b.sn := by
  induction l with
  | nil => exact List.pairwise_singleton _ _
  | cons x xs ih =>
    have hx := List.pairwise_cons.1 h
    unfold insertBySn
    split
    · rename_i hle
      refine List.pairwise_cons.2 ⟨fun y hy => ?_, h⟩
      rcases List.mem_cons.1 hy with rfl | hy
      · exact hle
      · exact Nat.le_trans hle (hx.1 y hy)
    · rename_i hle
      refine List.pairwise_cons.2 ⟨fun y hy => ?_, ih hx.2⟩
      rcases (mem_insertBySn e y xs).1 hy with rfl | hy
      · omega
      · exact hx.1 y hy

theorem insertBySn_stable (n : Nat) (e : SignedEvent) (l : List SignedEvent) (h : l.Pairwise fun a b => a.sn ≤ b.sn) :
    (insertBySn e l).filter (fun x => x.sn = n) = (e :: l).filter fun x => x.sn = n := by
  induction l with
  | nil => rfl
  | cons x xs ih =>
    have hx := List.pairwise_cons.1 h
    unfold insertBySn
    split
    · rfl
    · rename_i hle
      rw [List.filter_cons, ih hx.2]
      by_cases h1 : x.sn = n
      · have h2 : e.sn ≠ n := by omega
        simp [h1, h2]
      · simp [List.filter_cons, h1]

theorem sortBySn_ascending (l : List SignedEvent) : (sortBySn l).Pairwise fun a b => a.sn ≤ b.sn := by
  induction l with
  | nil => exact List.Pairwise.nil
  | cons x xs ih => exact insertBySn_ascending x _ ih

theorem sortBySn_stable (n : Nat) (l : List SignedEvent) : (sortBySn l).filter (fun x => x.sn = n) = l.filter fun x => x.sn = n := by
  induction l with
  | nil => rfl
  | cons x xs ih =>
    show (insertBySn x (sortBySn xs)).filter _ = _
    rw [insertBySn_stable n x _ (sortBySn_ascending xs), List.filter_cons, List.filter_cons, ih]

/-! ## C104 -/

/-- C104: the comparisons of stored events are total preorders, and the partial comparison is the total one -/
theorem C104_preorder (a b c : StampedSigned) :
    a.partialCmp b = some (a.cmp b) ∧ a.cmp a = .eq ∧ b.cmp a = (a.cmp b).swap ∧
    (a.cmp b ≠ .gt → b.cmp c ≠ .gt → a.cmp c ≠ .gt) ∧ (a.cmp b = .lt → b.cmp c ≠ .gt → a.cmp c = .lt) := by
  refine ⟨rfl, by simp [StampedSigned.cmp, cmpSn], ?_, ?_, ?_⟩
  · unfold StampedSigned.cmp cmpSn
    by_cases h : a.event.sn = b.event.sn
    · rw [if_pos h, if_pos h.symm]; rfl
    · rw [if_neg h, if_neg (Ne.symm h)]
      by_cases h2 : a.event.sn > b.event.sn
      · rw [if_pos h2, if_neg (by omega)]; rfl
      · rw [if_neg h2, if_pos (by omega)]; rfl
  · simp only [StampedSigned.cmp, ne_eq, cmpSn_gt]; omega
  · simp only [StampedSigned.cmp, ne_eq, cmpSn_gt, cmpSn_lt]; omega

/-- C104: the same for the events without signatures -/
theorem C104_preorder_unsigned (a b c : StampedEvent) :
    a.partialCmp b = some (a.cmp b) ∧ a.cmp a = .eq ∧ b.cmp a = (a.cmp b).swap ∧
    (a.cmp b ≠ .gt → b.cmp c ≠ .gt → a.cmp c ≠ .gt) := by
  have := C104_preorder ⟨a.timestamp, ⟨a.msg, [], none⟩⟩ ⟨b.timestamp, ⟨b.msg, [], none⟩⟩ ⟨c.timestamp, ⟨c.msg, [], none⟩⟩
  exact ⟨this.1, this.2.1, this.2.2.1, this.2.2.2.1⟩

/-- C104: equal events compare as equal, whenever they were stored -/
theorem C104_eq_cmp (a b : StampedSigned) (h : a.eq b = true) : a.cmp b = .eq := by
  simp only [StampedSigned.eq, SignedEvent.same, Bool.and_eq_true] at h
  simp only [StampedSigned.cmp, cmpSn_eq, SignedEvent.sn, of_decide_eq_true h.1]

/-- **C104 fails** the other way round: `Eq` and `Ord` disagree — events with the same number compare as equal, whatever they are; so `max`, `binary_search`,
`dedup_by` and ordered collections confuse the events of different identifiers -/
theorem C104_fails_eq_ord : ∃ a b : StampedSigned, a.cmp b = .eq ∧ a.eq b = false ∧ a.event.pre ≠ b.event.pre :=
  ⟨⟨0, Ex.icp⟩, ⟨0, Ex.icpFinal⟩, by decide +kernel, by decide +kernel, by decide +kernel⟩

/-- **C104 fails** for conversions: an unsigned event turned into a stored one twice is not equal to itself unless the clock stood still, a signed one is; and two
signed events that differ in their source seal are equal -/
theorem C104_fails_conversion (m : EventMessage) (e : SignedEvent) (t u : Int) (sl : Option SourceSeal) :
    (StampedEvent.ofMsg t m = StampedEvent.ofMsg u m ↔ t = u) ∧ (StampedSigned.ofEvent t e).eq (StampedSigned.ofEvent u { e with delegatorSeal := sl }) = true := by
  constructor
  · simp [StampedEvent.ofMsg]
  · simp [StampedSigned.ofEvent, StampedSigned.eq, SignedEvent.same]

/-- C104: a stored event carries the time it was stored at and the event itself: nothing of the two is lost or mixed up -/
theorem C104_nothing_lost (e e' : SignedEvent) (m m' : EventMessage) (t u : Int) :
    (StampedSigned.ofEvent t e = StampedSigned.ofEvent u e' ↔ t = u ∧ e = e') ∧ (StampedEvent.ofMsg t m = StampedEvent.ofMsg u m' ↔ t = u ∧ m = m') := by
  constructor
  · simp [StampedSigned.ofEvent]
  · simp [StampedEvent.ofMsg]

/-- C104: sorting has one outcome only: two stable sorts of the same events agree -/
theorem C104_sort_unique (l l₁ l₂ : List StampedSigned) (h₁ : StablySorted l l₁) (h₂ : StablySorted l l₂) : l₁ = l₂ :=
  ascending_unique h₁.ascending h₂.ascending fun n => (h₁.stable n).trans (h₂.stable n).symm

/-- C104: whatever times the events carry, a stable sort of the stored events is the order in which `compute_state` applies them -/
theorem C104_sort (l l' : List StampedSigned) (h : StablySorted l l') : l'.map (·.event) = sortBySn (l.map (·.event)) := by
  have key : ∀ n (m : List StampedSigned), atNumber n ((m.map (·.event)).map (StampedSigned.ofEvent 0)) = ((atNumber n m).map (·.event)).map (StampedSigned.ofEvent 0) := by
    intro n m
    unfold atNumber
    rw [List.filter_map, List.filter_map]
    rfl
  have hu : (l'.map (·.event)).map (StampedSigned.ofEvent 0) = (sortBySn (l.map (·.event))).map (StampedSigned.ofEvent 0) := by
    refine ascending_unique ?_ ?_ fun n => ?_
    · unfold Ascending
      rw [List.pairwise_map, List.pairwise_map]
      exact h.ascending
    · unfold Ascending
      rw [List.pairwise_map]
      refine (sortBySn_ascending _).imp fun {a b} hab => ?_
      simp only [StampedSigned.ofEvent, StampedSigned.cmp, ne_eq, cmpSn_gt]
      omega
    · rw [key, h.stable n, ← key]
      have hf : ∀ m : List SignedEvent, atNumber n (m.map (StampedSigned.ofEvent 0)) = (m.filter fun x => x.sn = n).map (StampedSigned.ofEvent 0) := by
        intro m; unfold atNumber; rw [List.filter_map]; rfl
      rw [hf, hf, sortBySn_stable]
  have := congrArg (List.map (·.event)) hu
  simpa [List.map_map, Function.comp_def, StampedSigned.ofEvent] using this

/-- such a sort exists: for events stored at the same time it is the model's sort itself -/
theorem stablySorted_exists (l : List SignedEvent) (t : Int) :
    StablySorted (l.map (StampedSigned.ofEvent t)) ((sortBySn l).map (StampedSigned.ofEvent t)) := by
  constructor
  · unfold Ascending
    rw [List.pairwise_map]
    refine (sortBySn_ascending _).imp fun {a b} hab => ?_
    simp only [StampedSigned.ofEvent, StampedSigned.cmp, ne_eq, cmpSn_gt]
    omega
  · intro n
    unfold atNumber
    rw [List.filter_map, List.filter_map]
    congr 1
    exact sortBySn_stable n _

/-- C104: a log is already sorted, so reading it back in order of storage or sorted is the same -/
theorem C104_log_sorted (env : Env) (as : List Action) (id : IdentifierPrefix) (hid : id.toStr ≠ []) :
    sortBySn ((after env as).kel id) = (after env as).kel id := by
  obtain ⟨s, hl⟩ := after_log env as id hid
  exact hl.sorted hid

example : (sortBySn [Ex.rot, Ex.icp, Ex.ixn, Ex.icpFinal]).map (·.sn) = [0, 0, 1, 2] ∧
    sortBySn [Ex.rot, Ex.icp, Ex.ixn, Ex.icpFinal] = [Ex.icp, Ex.icpFinal, Ex.rot, Ex.ixn] ∧ (after Ex.env Ex.hist).kel Ex.id ≠ [] := by decide +kernel

end Keriox
