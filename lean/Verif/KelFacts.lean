import Verif.Spec
import Verif.ThresholdFacts
/-!
# Facts about applying events and folding logs (helper lemmas)
-/
namespace Keriox

theorem checkDigest_self (env : Env) (m : EventMessage) : m.checkDigest env m.event.digest = .ok true := by
  simp [EventMessage.checkDigest]

theorem checkEventDigest_self (env : Env) (m : EventMessage) : checkEventDigest env m = .ok () := by
  simp [checkEventDigest, checkDigest_self]

/-- what a successful application of an event does to the state -/
structure Applied (env : Env) (s : IdState) (e : SignedEvent) (s' : IdState) : Prop where
  pre : s'.prefix = e.pre
  sn : s'.sn = e.sn
  dig : s'.lastDigest = e.dig
  keys : s'.current = e.data.keyConfig?.getD s.current
  incPre : e.data.isInception = true → s.prefix = IdentifierPrefix.default
  incSn : e.data.isInception = true → e.sn = 0
  incBind : e.data.isInception = true → verifyIdentifierBinding env e.msg = .ok true
  nextPre : e.data.isInception = false → e.pre = s.prefix
  nextSn : e.data.isInception = false → e.sn = s.sn + 1
  prev : e.data.isInception = false → e.data.previous? = some s.lastDigest
  rot : ∀ r, e.data.rotation? = some r → s.current.verifyNext env r.keyConfig = true
  delegator : s'.delegator = match e.data with | .dip d => some d.delegator | _ => s.delegator
  plain : ∀ r, e.data = .rot r → s.delegator = none
  delegated : ∀ r, e.data = .drt r → s.delegator.isSome = true
  tally : s'.tally = match e.data with
    | .icp i => i.tally | .dip d => d.inception.tally | .rot r => r.tally | .drt r => r.tally | .ixn _ => s.tally
  witnesses : s'.witnesses = match e.data with
    | .icp i => i.initialWitnesses | .dip d => d.inception.initialWitnesses
    | .rot r => rotateWitnesses s.witnesses r.prune r.graft
    | .drt r => rotateWitnesses s.witnesses r.prune r.graft | .ixn _ => s.witnesses
  lastEst : s'.lastEst = match e.data with
    | .icp _ => ⟨e.sn, e.dig, [], []⟩ | .dip _ => ⟨e.sn, e.dig, [], []⟩
    | .rot r => ⟨e.sn, s.lastDigest, r.graft, r.prune⟩
    | .drt r => ⟨e.sn, s.lastDigest, r.graft, r.prune⟩ | .ixn _ => s.lastEst
  lastPrev : s'.lastPrevious = s.lastPrevious
  lastType : s'.lastType = s.lastType

theorem RotationEvent.applyTo_ok {env : Env} {r : RotationEvent} {s s' : IdState} (h : r.applyTo env s = .ok s') :
    s.current.verifyNext env r.keyConfig = true ∧
    s' = { s with current := r.keyConfig, tally := r.tally, witnesses := rotateWitnesses s.witnesses r.prune r.graft,
                  lastEst := ⟨s.sn, s.lastDigest, r.graft, r.prune⟩ } := by
  unfold RotationEvent.applyTo at h
  split at h
  · rename_i hv; simp only [Res.ok.injEq] at h; exact ⟨hv, h.symm⟩
  · cases h

theorem applyTo_ok {env : Env} {e : SignedEvent} {s s' : IdState} (h : e.msg.applyTo env s = .ok s') :
    Applied env s e s' := by
  obtain ⟨⟨info, ⟨dig, ⟨pre, sn, data⟩⟩⟩, sigs, sl⟩ := e
  unfold EventMessage.applyTo at h
  cases data with
  | icp i =>
    simp only [Res.bind_eq_ok] at h
    obtain ⟨b, hb, h⟩ := h
    split at h
    · rename_i hbt
      subst hbt
      simp only [Event.applyTo] at h
      split at h
      · cases h
      · split at h
        · cases h
        · rename_i hp hs
          simp only [EventData.applyTo, InceptionEvent.applyTo, Res.ok.injEq] at h
          subst h
          simp only [ne_eq, Decidable.not_not] at hp hs
          subst hs
          constructor <;> simp_all [SignedEvent.data, SignedEvent.pre, SignedEvent.sn, SignedEvent.dig, EventData.isInception,
            EventData.keyConfig?, EventData.rotation?]
    · cases h
  | dip d =>
    simp only [Res.bind_eq_ok] at h
    obtain ⟨b, hb, h⟩ := h
    split at h
    · rename_i hbt
      subst hbt
      simp only [Event.applyTo] at h
      split at h
      · cases h
      · split at h
        · cases h
        · rename_i hp hs
          simp only [EventData.applyTo, InceptionEvent.applyTo, Res.ok.injEq] at h
          subst h
          simp only [ne_eq, Decidable.not_not] at hp hs
          subst hs
          constructor <;> simp_all [SignedEvent.data, SignedEvent.pre, SignedEvent.sn, SignedEvent.dig, EventData.isInception,
            EventData.keyConfig?, EventData.rotation?]
    · cases h
  | rot r =>
    simp only [checkEventDigest_self, Res.ok_bind] at h
    split at h
    · cases h
    · rename_i hdel
      simp only [Res.bind_eq_ok] at h
      obtain ⟨next, hn, h⟩ := h
      simp only [Event.applyTo] at hn
      split at hn
      · cases hn
      · split at hn
        · cases hn
        · split at hn
          · cases hn
          · rename_i hp h1 h2
            simp only [EventData.applyTo] at hn
            obtain ⟨hv, hn⟩ := RotationEvent.applyTo_ok hn
            unfold chain at h
            split at h
            · rename_i hc
              simp only [Res.ok.injEq] at h
              subst h hn
              have hsn : sn = s.sn + 1 := by omega
              constructor <;> simp_all [SignedEvent.data, SignedEvent.pre, SignedEvent.sn, SignedEvent.dig,
                EventData.isInception, EventData.keyConfig?, EventData.rotation?, EventData.previous?]
            · cases h
  | ixn i =>
    simp only [checkEventDigest_self, Res.ok_bind] at h
    simp only [Res.bind_eq_ok] at h
    obtain ⟨next, hn, h⟩ := h
    simp only [Event.applyTo] at hn
    split at hn
    · cases hn
    · split at hn
      · cases hn
      · split at hn
        · cases hn
        · rename_i hp h1 h2
          simp only [EventData.applyTo, Res.ok.injEq] at hn
          unfold chain at h
          split at h
          · rename_i hc
            simp only [Res.ok.injEq] at h
            subst h hn
            have hsn : sn = s.sn + 1 := by omega
            constructor <;> simp_all [SignedEvent.data, SignedEvent.pre, SignedEvent.sn, SignedEvent.dig,
              EventData.isInception, EventData.keyConfig?, EventData.rotation?, EventData.previous?]
          · cases h
  | drt r =>
    simp only [Res.bind_eq_ok] at h
    obtain ⟨next, hn, u, hd, h⟩ := h
    split at h
    · cases h
    · rename_i hdel
      simp only [Event.applyTo] at hn
      split at hn
      · cases hn
      · split at hn
        · cases hn
        · split at hn
          · cases hn
          · rename_i hp h1 h2
            simp only [EventData.applyTo] at hn
            obtain ⟨hv, hn⟩ := RotationEvent.applyTo_ok hn
            unfold chain at h
            split at h
            · rename_i hc
              simp only [Res.ok.injEq] at h
              subst h hn
              have hsn : sn = s.sn + 1 := by omega
              have hdel' : s.delegator.isSome = true := by cases hd : s.delegator <;> simp_all
              constructor <;> simp_all [SignedEvent.data, SignedEvent.pre, SignedEvent.sn, SignedEvent.dig,
                EventData.isInception, EventData.keyConfig?, EventData.rotation?, EventData.previous?]
            · cases h

/-! ## Logs that fold without error -/

theorem foldStrict_append (env : Env) (s : IdState) (l : List SignedEvent) (e : SignedEvent) :
    foldStrict env s (l ++ [e]) = (foldStrict env s l) >>= fun s' => e.msg.applyTo env s' := by
  induction l generalizing s with
  | nil => simp only [List.nil_append, foldStrict, Res.ok_bind]; split <;> simp_all
  | cons a l ih =>
    simp only [List.cons_append, foldStrict]
    split <;> simp_all

/-- `l` is a log built by successful applications from the empty state, ending in state `s`; all its events have prefix
text `x` -/
inductive Log (env : Env) (x : Bytes) : List SignedEvent → IdState → Prop
  | nil : Log env x [] IdState.default
  | snoc {l s e s'} : Log env x l s → e.pre.toStr = x → e.delegatorSeal = none → e.msg.applyTo env s = .ok s' →
      Log env x (l ++ [e]) s'

theorem Log.fold {env : Env} {x : Bytes} {l : List SignedEvent} {s : IdState} (h : Log env x l s) :
    foldStrict env IdState.default l = .ok s := by
  induction h with
  | nil => rfl
  | snoc _ _ _ ha ih => rw [foldStrict_append, ih]; exact ha

theorem default_text : IdentifierPrefix.default.toStr = [] := rfl

/-- contiguity facts of a log -/
theorem Log.facts {env : Env} {x : Bytes} (hx : x ≠ []) {l : List SignedEvent} {s : IdState} (h : Log env x l s) :
    (l = [] → s = IdState.default) ∧
    (l ≠ [] → s.prefix ≠ IdentifierPrefix.default ∧ s.prefix.toStr = x ∧ s.sn + 1 = l.length ∧
      (∀ e, l.getLast? = some e → s.lastDigest = e.dig ∧ s.prefix = e.pre)) ∧
    (∀ i e, l[i]? = some e → e.sn = i ∧ e.pre = s.prefix ∧ (e.data.isInception = true ↔ i = 0)) := by
  induction h with
  | nil => simp
  | @snoc l s e s' hl hp hd ha ih =>
    obtain ⟨i1, i2, i3⟩ := ih
    have A := applyTo_ok ha
    have hne : e.pre ≠ IdentifierPrefix.default := fun h => hx (by rw [← hp, h]; rfl)
    have key : e.sn = l.length ∧ (e.data.isInception = true ↔ l.length = 0) ∧ (l ≠ [] → e.pre = s.prefix) := by
      cases hi : e.data.isInception with
      | true =>
        have h1 := A.incPre hi
        have : l = [] := by
          cases l with
          | nil => rfl
          | cons a t => exact absurd h1 (i2 (by simp)).1
        subst this
        simp [A.incSn hi]
      | false =>
        have h1 := A.nextPre hi
        cases l with
        | nil =>
          have := i1 rfl
          rw [this] at h1
          exact absurd h1 hne
        | cons a t =>
          have h2 := (i2 (by simp)).2.2.1
          have h3 := A.nextSn hi
          refine ⟨by omega, by simp, fun _ => h1⟩
    refine ⟨by simp, fun _ => ⟨A.pre ▸ hne, A.pre ▸ hp, ?_, ?_⟩, ?_⟩
    · rw [A.sn, key.1]; simp
    · intro e' he'
      simp at he'
      subst he'
      exact ⟨A.dig, A.pre⟩
    · intro i e' he'
      rw [List.getElem?_append] at he'
      split at he'
      · rename_i hi
        have h3 := i3 i e' he'
        have hl' : l ≠ [] := by intro h; simp [h] at hi
        refine ⟨h3.1, ?_, h3.2.2⟩
        rw [A.pre, key.2.2 hl', h3.2.1]
      · rename_i hi
        have : i - l.length = 0 := by
          rcases Nat.eq_zero_or_pos (i - l.length) with h | h
          · exact h
          · rw [List.getElem?_singleton] at he'
            simp [Nat.ne_of_gt h] at he'
        rw [this] at he'
        simp at he'
        subst he'
        have hil : i = l.length := by omega
        refine ⟨by omega, A.pre.symm, by rw [key.2.1, hil]⟩

theorem Log.sn_eq {env : Env} {x : Bytes} (hx : x ≠ []) {l : List SignedEvent} {s : IdState} (h : Log env x l s)
    {i : Nat} {e : SignedEvent} (he : l[i]? = some e) : e.sn = i := ((h.facts hx).2.2 i e he).1

/-- initial segments of a log are logs -/
theorem Log.take {env : Env} {x : Bytes} {l : List SignedEvent} {s : IdState} (h : Log env x l s) (n : Nat) :
    ∃ s', Log env x (l.take n) s' := by
  induction h with
  | nil => exact ⟨_, by simpa using Log.nil⟩
  | @snoc l s e s' hl hp hd ha ih =>
    by_cases hn : n ≤ l.length
    · rw [List.take_append_of_le_length hn]; exact ih
    · rw [List.take_of_length_le (by simp; omega)]
      exact ⟨_, Log.snoc hl hp hd ha⟩

/-- the step that added event `i` -/
theorem Log.step {env : Env} {x : Bytes} {l : List SignedEvent} {s : IdState} (h : Log env x l s) {i : Nat}
    {e : SignedEvent} (he : l[i]? = some e) :
    ∃ s0 s1, Log env x (l.take i) s0 ∧ Log env x (l.take (i + 1)) s1 ∧ e.msg.applyTo env s0 = .ok s1 := by
  induction h with
  | nil => simp at he
  | @snoc l s e' s' hl hp hd ha ih =>
    rw [List.getElem?_append] at he
    split at he
    · rename_i hi
      rw [List.take_append_of_le_length (by omega), List.take_append_of_le_length (by omega)]
      exact ih he
    · rename_i hi
      have h0 : i = l.length := by
        rcases Nat.eq_zero_or_pos (i - l.length) with h | h
        · omega
        · rw [List.getElem?_singleton] at he; simp [Nat.ne_of_gt h] at he
      subst h0
      simp at he
      subst he
      refine ⟨s, s', ?_, ?_, ha⟩
      · simpa using hl
      · rw [List.take_of_length_le (by simp)]; exact Log.snoc hl hp hd ha

/-! ## Sorting -/

theorem insertBySn_of_le (e : SignedEvent) (l : List SignedEvent) (h : ∀ x ∈ l, e.sn ≤ x.sn) :
    insertBySn e l = e :: l := by
  cases l with
  | nil => rfl
  | cons a t => simp [insertBySn, h a (by simp)]

theorem sortBySn_sorted (l : List SignedEvent) (h : (l.map SignedEvent.sn).Pairwise (· ≤ ·)) : sortBySn l = l := by
  induction l with
  | nil => rfl
  | cons a t ih =>
    simp only [List.map_cons, List.pairwise_cons] at h
    rw [sortBySn, ih h.2]
    exact insertBySn_of_le a t fun x hx => h.1 _ (List.mem_map.2 ⟨x, hx, rfl⟩)

theorem pairwise_of_index (l : List SignedEvent) (h : ∀ (i : Nat) (e : SignedEvent), l[i]? = some e → e.sn = i) :
    (l.map SignedEvent.sn).Pairwise (· ≤ ·) := by
  rw [List.pairwise_iff_getElem]
  intro i j hi hj hij
  simp only [List.length_map] at hi hj
  simp only [List.getElem_map]
  have h1 := h i l[i] (List.getElem?_eq_getElem hi)
  have h2 := h j l[j] (List.getElem?_eq_getElem hj)
  omega

theorem Log.sorted {env : Env} {x : Bytes} (hx : x ≠ []) {l : List SignedEvent} {s : IdState} (h : Log env x l s) :
    sortBySn l = l := sortBySn_sorted l (pairwise_of_index l fun _ _ he => h.sn_eq hx he)

theorem foldState_of_strict (env : Env) (s s' : IdState) (l : List SignedEvent) (h : foldStrict env s l = .ok s') :
    foldState env s l = .ok s' := by
  induction l generalizing s with
  | nil => exact h
  | cons a t ih =>
    simp only [foldStrict] at h
    simp only [foldState, SignedEvent.applyTo]
    split at h
    · rename_i hs; rw [hs]; exact ih _ h
    · cases h
    · cases h

theorem Log.foldState {env : Env} {x : Bytes} (hx : x ≠ []) {l : List SignedEvent} {s : IdState} (h : Log env x l s) :
    foldState env IdState.default (sortBySn l) = .ok s := by
  rw [h.sorted hx]; exact foldState_of_strict env _ _ _ h.fold

end Keriox
