import Verif.Props.Local
/-!
# C125: families of identifiers

C101 says that the log of an identifier that is not delegated is determined by the submissions in its name.  For delegated identifiers that is
false (`C101_delegated_order_matters`): the log of the delegator decides as well.  Here the claim is proved for the right unit, a family of identifiers that
holds the delegators of its members: their logs, and the answers to their events, are determined by the submissions in the name of members, in their order.
-/
namespace Keriox

/-! ## Specification -/

/-- a family, given by the texts of its members, holds the delegators that the events submitted for its members name -/
def ClosedFamily (F : Bytes → Prop) (as : List Action) : Prop :=
  ∀ e d, Action.submit (.event e) ∈ as → F e.pre.toStr → e.data.delegator? = some d → F d.toStr

open Classical in
/-- the action submits an event of a member -/
noncomputable def inFamily (F : Bytes → Prop) : Action → Bool
  | .submit (.event e) => decide (F e.pre.toStr)
  | _ => false

/-! ## Proof -/

theorem inFamily_event {F : Bytes → Prop} {e : SignedEvent} : inFamily F (.submit (.event e)) = true ↔ F e.pre.toStr := by
  unfold inFamily
  exact @decide_eq_true_iff _ (_)

theorem logged_submitted_for (env : Env) (as : List Action) (id : IdentifierPrefix) (hid : id.toStr ≠ []) (e : SignedEvent) (he : e ∈ (after env as).kel id) :
    ∃ sub, Action.submit (.event sub) ∈ as ∧ sub.stored = e ∧ sub.pre.toStr = id.toStr := by
  induction as using snoc_induction with
  | h0 => cases he
  | h1 as a ih =>
    rcases C01_one_step env as a id hid with h | ⟨sub, h1, h2, h3⟩
    · rw [h] at he
      obtain ⟨s, h1, h2⟩ := ih he
      exact ⟨s, List.mem_append_left _ h1, h2⟩
    · rw [h3] at he
      rcases List.mem_append.1 he with he | he
      · obtain ⟨s, h1, h2⟩ := ih he
        exact ⟨s, List.mem_append_left _ h1, h2⟩
      · exact ⟨sub, List.mem_append_right _ (by rw [h1]; simp), (List.mem_singleton.1 he).symm, h2⟩

theorem consults_member {env : Env} {F : Bytes → Prop} {as : List Action} {e : SignedEvent} (hF : ¬ F []) (hc : ClosedFamily F (as ++ [.submit (.event e)]))
    (he : F e.pre.toStr) {d : IdentifierPrefix} (h : consults ((after env as).kel e.pre) e d) : F d.toStr := by
  unfold consults at h
  cases hd : e.data with
  | dip x => rw [hd] at h; exact hc e d (by simp) he (by rw [hd, h]; rfl)
  | drt x =>
    rw [hd] at h
    obtain ⟨f, hf, hf'⟩ := h
    obtain ⟨sub, h1, h2, h3⟩ := logged_submitted_for env as e.pre (fun h0 => hF (h0 ▸ he)) f hf
    refine hc sub d (List.mem_append_left _ h1) (by rw [h3]; exact he) ?_
    rw [← h2] at hf'
    exact hf'
  | _ => rw [hd] at h; exact h.elim

/-! ## C125 -/

/-- C125: the logs of a family are determined by the submissions in the name of its members: dropping everything else from the history, other
identifiers' events, receipts, replies, queries, look-ups and reprocessing, does not change them. -/
theorem C125_family (env : Env) (F : Bytes → Prop) (hF : ¬ F []) (as : List Action) (hc : ClosedFamily F as) (id : IdentifierPrefix) (hid : F id.toStr) :
    (after env (as.filter (inFamily F))).kel id = (after env as).kel id := by
  induction as using snoc_induction generalizing id with
  | h0 => rfl
  | h1 as a ih =>
    have ih := ih fun e d he => hc e d (List.mem_append_left _ he)
    rw [List.filter_append]
    cases ha : inFamily F a with
    | false =>
      rw [List.filter_cons_of_neg (by rw [ha]; simp), List.filter_nil, List.append_nil, ih id hid]
      by_cases hev : a.isEvent = true
      · cases a with
        | submit m =>
          cases m with
          | event e =>
            refine (event_other_kel env as e id fun h => ?_).symm
            have : inFamily F (.submit (.event e)) = true := inFamily_event.2 (by rw [h]; exact hid)
            rw [ha] at this; cases this
          | _ => cases hev
        | _ => cases hev
      · exact (nonevent_kel env as a (by cases h : a.isEvent <;> simp_all) id).symm
    | true =>
      rw [List.filter_cons_of_pos ha, List.filter_nil]
      cases a with
      | submit m =>
        cases m with
        | event e =>
          have he : F e.pre.toStr := inFamily_event.1 ha
          by_cases hp : e.pre.toStr = id.toStr
          · have := (C101_local env (as.filter (inFamily F)) as e (ih _ he) fun d hd =>
              ih d (consults_member hF hc he (by rw [← ih _ he]; exact hd))).2
            rw [kel_text _ hp, kel_text _ hp] at this
            exact this
          · rw [event_other_kel env _ e id hp, event_other_kel env _ e id hp, ih id hid]
        | _ => cases ha
      | _ => cases ha

/-- C125: so nodes that receive the events of the members in the same order, with whatever else in between, have the same logs of the members. -/
theorem C125_interleaving (env : Env) (F : Bytes → Prop) (hF : ¬ F []) (as bs : List Action) (hc : ClosedFamily F as)
    (h : as.filter (inFamily F) = bs.filter (inFamily F)) (id : IdentifierPrefix) (hid : F id.toStr) :
    (after env as).kel id = (after env bs).kel id := by
  rw [← C125_family env F hF as hc id hid, h]
  refine C125_family env F hF bs (fun e d he hm hd => hc e d ?_ hm hd) id hid
  have hb : Action.submit (.event e) ∈ bs.filter (inFamily F) := List.mem_filter.2 ⟨he, inFamily_event.2 hm⟩
  rw [← h] at hb
  exact (List.mem_filter.1 hb).1

/-- C125: and they answer the next event of a member alike: both accept it with the same state, both refuse it, or both crash. -/
theorem C125_answers (env : Env) (F : Bytes → Prop) (hF : ¬ F []) (as bs : List Action) (e : SignedEvent) (hc : ClosedFamily F (as ++ [.submit (.event e)]))
    (h : as.filter (inFamily F) = bs.filter (inFamily F)) (he : F e.pre.toStr) :
    (process sled env (.event e) (after env as)).1.Alike (process sled env (.event e) (after env bs)).1 := by
  have hc' : ClosedFamily F as := fun e d he => hc e d (List.mem_append_left _ he)
  have eq := C125_interleaving env F hF as bs hc' h
  exact (C101_local env as bs e (eq _ he) fun d hd => eq d (consults_member hF hc he hd)).1

/-- C125: everyone's submissions, of any family disjoint from this one, may be added anywhere: the members do not notice. -/
theorem C125_strangers (env : Env) (F : Bytes → Prop) (hF : ¬ F []) (as bs cs : List Action) (hc : ClosedFamily F (as ++ cs))
    (hb : ∀ e, Action.submit (.event e) ∈ bs → ¬ F e.pre.toStr) (id : IdentifierPrefix) (hid : F id.toStr) :
    (after env (as ++ bs ++ cs)).kel id = (after env (as ++ cs)).kel id := by
  refine (C125_interleaving env F hF (as ++ cs) (as ++ bs ++ cs) hc ?_ id hid).symm
  have : bs.filter (inFamily F) = [] := by
    rw [List.filter_eq_nil_iff]
    intro a ha hh
    cases a with
    | submit m =>
      cases m with
      | event e => exact hb e ha (inFamily_event.1 hh)
      | _ => cases hh
    | _ => cases hh
  simp [List.filter_append, this]

/-! ## Examples -/

/-- a delegated identifier and its delegator are a family; both logs are non-empty, and neither member alone is enough: without the delegator's events
the delegated inception is refused -/
example :
    let as := Ex.delHist Ex.dipSeal ++ [.submit (.event Ex.icpFinal), .submit (.event Ex.dip)]
    let F : Bytes → Prop := fun t => t = Ex.id.toStr ∨ t = Ex.dip.pre.toStr
    ¬ F [] ∧ ClosedFamily F as ∧ ¬ F Ex.icpFinal.pre.toStr ∧ (after Ex.env as).kel Ex.dip.pre = [Ex.dip.stored] ∧ ((after Ex.env as).kel Ex.id).length = 3 ∧
    (after Ex.env [.submit (.event Ex.dip)]).kel Ex.dip.pre = [] := by
  refine ⟨by decide +kernel, ?_, by decide +kernel, by decide +kernel, by decide +kernel, by decide +kernel⟩
  have key : ∀ e ∈ [Ex.icp, Ex.rot, Ex.anchor Ex.dipSeal, Ex.icpFinal, Ex.dip], ∀ d, e.data.delegator? = some d → d.toStr = Ex.id.toStr := by
    intro e he d hd
    have : ([Ex.icp, Ex.rot, Ex.anchor Ex.dipSeal, Ex.icpFinal, Ex.dip].all fun e =>
      match e.data.delegator? with | some d => decide (d.toStr = Ex.id.toStr) | none => true) = true := by decide +kernel
    have := List.all_eq_true.1 this e he
    rw [hd] at this
    exact of_decide_eq_true this
  intro e d he _ hd
  refine .inl (key e ?_ d hd)
  simpa [Ex.delHist] using he

end Keriox
