import Verif.Props.Binding
/-!
# C19, C25, C26, C27: evolution of the computed state
-/
namespace Keriox

/-- the old state of an accepting call on a known identifier is the computed one -/
theorem accepted_state (env : Env) (as : List Action) (e : SignedEvent) (hid : e.pre.toStr ≠ []) (s : IdState)
    (hs : (computeState sled env e.pre (after env as)).1 = .ok (some s)) (hne : (after env as).kel e.pre ≠ []) (new : IdState)
    (hacc : (process sled env (.event e) (after env as)).1 = .ok (some new)) : e.msg.applyTo env s = .ok new := by
  obtain ⟨s', new', bytes, h1, hl, _, _, hap, _⟩ := accepted_inv env as e hid _ hacc
  cases h1
  have := C08_compute_state_is_fold env as e.pre hid hne s hs
  rw [hl.stateAfter] at this
  cases this
  exact hap

/-! ## C19 -/

/-- C19: an accepted rotation replaces the witness list by the old one without the cut witnesses, followed by the added ones. -/
theorem C19_rotation (env : Env) (as : List Action) (e : SignedEvent) (r : RotationEvent) (hid : e.pre.toStr ≠ []) (s new : IdState)
    (hs : (computeState sled env e.pre (after env as)).1 = .ok (some s)) (hne : (after env as).kel e.pre ≠ [])
    (hr : e.data.rotation? = some r) (hacc : (process sled env (.event e) (after env as)).1 = .ok (some new)) :
    new.witnesses = (s.witnesses.filter fun w => !r.prune.contains w) ++ r.graft ∧ new.tally = r.tally := by
  have A := applyTo_ok (e := e) (accepted_state env as e hid s hs hne new hacc)
  have key : rotateWitnesses s.witnesses r.prune r.graft = (s.witnesses.filter fun w => !r.prune.contains w) ++ r.graft := by
    unfold rotateWitnesses
    split
    · rfl
    · rename_i h
      simp only [Bool.or_eq_true, Bool.not_eq_true', not_or, Bool.not_eq_false, List.isEmpty_iff] at h
      rw [h.1, h.2, List.append_nil]
      exact (List.filter_eq_self.2 (by simp)).symm
  have hw := A.witnesses
  have ht := A.tally
  cases hd : e.data <;> rw [hd] at hr hw ht <;> simp only [EventData.rotation?, Option.some.injEq, reduceCtorEq] at hr <;>
    subst hr <;> exact ⟨by rw [hw]; exact key, ht⟩

/-- C19: an accepted interaction changes the sequence number and the last digest, nothing else. -/
theorem C19_interaction (env : Env) (as : List Action) (e : SignedEvent) (x : InteractionEvent) (hid : e.pre.toStr ≠ [])
    (s new : IdState) (hs : (computeState sled env e.pre (after env as)).1 = .ok (some s)) (hne : (after env as).kel e.pre ≠ [])
    (hx : e.data = .ixn x) (hacc : (process sled env (.event e) (after env as)).1 = .ok (some new)) :
    new = { s with sn := s.sn + 1, lastDigest := e.dig } := by
  have A := applyTo_ok (e := e) (accepted_state env as e hid s hs hne new hacc)
  have h1 := A.pre
  have h2 := A.sn
  have h3 := A.dig
  have h4 := A.keys
  have h5 := A.nextPre (by rw [hx]; rfl)
  have h6 := A.nextSn (by rw [hx]; rfl)
  have h7 := A.tally
  have h8 := A.witnesses
  have h9 := A.lastEst
  have h10 := A.delegator
  have h11 := A.lastPrev
  have h12 := A.lastType
  rw [hx] at h4 h7 h8 h9 h10
  obtain ⟨a, b, c, d, e', f, g, h, i, j⟩ := new
  simp_all [EventData.keyConfig?]

theorem Log.witnesses {env : Env} {x : Bytes} (hx : x ≠ []) {l : List SignedEvent} {s : IdState} (h : Log env x l s) (w : BasicPrefix) :
    w ∈ s.witnesses ↔ ∃ (i : Nat) (e : SignedEvent), l[i]? = some e ∧ w ∈ e.data.added ∧
      ∀ (j : Nat) (e' : SignedEvent), i < j → l[j]? = some e' → w ∉ e'.data.cut := by
  induction h with
  | nil => simp [IdState.default]
  | @snoc l s e s' hl hp hd ha ih =>
    have A := applyTo_ok ha
    have hF := (Log.facts hx (Log.snoc hl hp hd ha)).2.2 l.length e (by simp)
    have split : (∃ (i : Nat) (e1 : SignedEvent), (l ++ [e])[i]? = some e1 ∧ w ∈ e1.data.added ∧ ∀ (j : Nat) (e' : SignedEvent), i < j → (l ++ [e])[j]? = some e' → w ∉ e'.data.cut) ↔
        (w ∈ e.data.added ∨ (w ∉ e.data.cut ∧ w ∈ s.witnesses)) := by
      constructor
      · rintro ⟨i, e1, h1, h2, h3⟩
        by_cases hi : i < l.length
        · right
          rw [List.getElem?_append_left hi] at h1
          refine ⟨h3 l.length e hi (by simp), ih.2 ⟨i, e1, h1, h2, fun j e' hij hj => ?_⟩⟩
          have hjl := (List.getElem?_eq_some_iff.1 hj).1
          exact h3 j e' hij (by rw [List.getElem?_append_left hjl]; exact hj)
        · left
          have := (List.getElem?_eq_some_iff.1 h1).1
          simp at this
          have : i = l.length := by omega
          subst this
          simp at h1
          subst h1
          exact h2
      · rintro (h | ⟨h1, h2⟩)
        · refine ⟨l.length, e, by simp, h, fun j e' hij hj => ?_⟩
          have := (List.getElem?_eq_some_iff.1 hj).1
          simp at this
          omega
        · obtain ⟨i, e1, g1, g2, g3⟩ := ih.1 h2
          have hil := (List.getElem?_eq_some_iff.1 g1).1
          refine ⟨i, e1, by rw [List.getElem?_append_left hil]; exact g1, g2, fun j e' hij hj => ?_⟩
          by_cases hjl : j < l.length
          · rw [List.getElem?_append_left hjl] at hj; exact g3 j e' hij hj
          · have := (List.getElem?_eq_some_iff.1 hj).1
            simp at this
            have : j = l.length := by omega
            subst this
            simp at hj
            subst hj
            exact h1
    rw [split]
    have hnil : e.data.isInception = true → s.witnesses = [] := by
      intro hi
      have hl0 := hF.2.2.1 hi
      have := (hl.facts hx).1 (List.length_eq_zero_iff.1 hl0)
      subst this
      rfl
    have rotw : ∀ r : RotationEvent, w ∈ rotateWitnesses s.witnesses r.prune r.graft ↔
        (w ∈ r.graft ∨ (w ∉ r.prune ∧ w ∈ s.witnesses)) := by
      intro r
      unfold rotateWitnesses
      by_cases h : (!r.prune.isEmpty || !r.graft.isEmpty) = true
      · rw [if_pos h]
        simp only [List.mem_append, List.mem_filter, Bool.not_eq_true', List.contains_eq_mem, decide_eq_false_iff_not]
        constructor
        · rintro (⟨h1, h2⟩ | h1)
          · exact .inr ⟨h2, h1⟩
          · exact .inl h1
        · rintro (h1 | ⟨h1, h2⟩)
          · exact .inr h1
          · exact .inl ⟨h2, h1⟩
      · rw [if_neg h]
        simp only [Bool.or_eq_true, Bool.not_eq_true', not_or, Bool.not_eq_false, List.isEmpty_iff] at h
        simp [h.1, h.2]
    rw [A.witnesses]
    cases hd : e.data with
    | icp i => simp [EventData.added, EventData.cut, hnil (by rw [hd]; rfl)]
    | dip i => simp [EventData.added, EventData.cut, hnil (by rw [hd]; rfl)]
    | rot r => simpa [EventData.added, EventData.cut] using rotw r
    | drt r => simpa [EventData.added, EventData.cut] using rotw r
    | ixn r => simp [EventData.added, EventData.cut]

/-- C19: after any history, a key is a witness of an identifier exactly if some event of its log added it and no later event
cut it. -/
theorem C19_witness_iff (env : Env) (as : List Action) (id : IdentifierPrefix) (hid : id.toStr ≠ []) (s : IdState)
    (hne : (after env as).kel id ≠ []) (hs : (computeState sled env id (after env as)).1 = .ok (some s)) (w : BasicPrefix) :
    w ∈ s.witnesses ↔ ∃ (i : Nat) (e : SignedEvent), ((after env as).kel id)[i]? = some e ∧ w ∈ e.data.added ∧
      ∀ (j : Nat) (e' : SignedEvent), i < j → ((after env as).kel id)[j]? = some e' → w ∉ e'.data.cut := by
  have := C08_compute_state_is_fold env as id hid hne s hs
  obtain ⟨s', hl⟩ := after_log env as id hid
  rw [hl.stateAfter] at this
  cases this
  exact hl.witnesses hid w

/-- hypotheses met: the rotation of the example cuts witness 30 and adds 32 -/
example : (computeState sled Ex.env Ex.id (after Ex.env [.submit (.event Ex.icp)])).1.isOk = true ∧
    (process sled Ex.env (.event Ex.rot) (after Ex.env [.submit (.event Ex.icp)])).1 = .ok (some Ex.rotState) ∧
    (after Ex.env [.submit (.event Ex.icp)]).kel Ex.id = [Ex.icp] ∧
    (Ex.rot.data.rotation?.map fun r => (r.prune, r.graft)) = some ([Ex.key 30], [Ex.key 32]) ∧
    Ex.rotState.witnesses = [Ex.key 31, Ex.key 32] ∧
    (process sled Ex.env (.event Ex.ixn) (after Ex.env [.submit (.event Ex.icp), .submit (.event Ex.rot)])).1
      = .ok (some { Ex.rotState with sn := 2, lastDigest := Ex.ixn.dig }) := by decide +kernel

/-! ## C55: witness lists -/

/-- an inception naming one witness twice with a tally of 7 -/
def Ex.icpWit : SignedEvent := signAll (msgOr (inceptSelfAddressing env (.icp ⟨kc [1] [4] (.simple 1), 7, [key 30, key 30], [], []⟩) .blake3_256 .json)) [1]
/-- a rotation that cuts nobody listed and adds the witness a third time -/
def Ex.rotWit : SignedEvent :=
  signAll (msgOr ((Event.mk icpWit.pre 1 (.rot ⟨icpWit.dig, kc [4] [7] (.simple 1), 0, [key 31], [key 30], []⟩)).toMessage env .json .blake3_256)) [4]

/-- C55: what keeps a witness list free of duplicates.  After an accepted rotation of an identifier whose list has none, the
list has none iff the rotation adds no key twice and adds only keys that are not witnesses or that it cuts at the same time.
Nothing of this is checked (`C55_fails`). -/
theorem C55_rotation (env : Env) (as : List Action) (e : SignedEvent) (r : RotationEvent) (hid : e.pre.toStr ≠ []) (s new : IdState)
    (hs : (computeState sled env e.pre (after env as)).1 = .ok (some s)) (hne : (after env as).kel e.pre ≠ [])
    (hr : e.data.rotation? = some r) (hacc : (process sled env (.event e) (after env as)).1 = .ok (some new))
    (hnd : s.witnesses.Nodup) :
    new.witnesses.Nodup ↔ r.graft.Nodup ∧ ∀ w ∈ r.graft, w ∉ s.witnesses ∨ w ∈ r.prune := by
  rw [(C19_rotation env as e r hid s new hs hne hr hacc).1, List.nodup_append]
  constructor
  · rintro ⟨-, h2, h3⟩
    refine ⟨h2, fun w hw => ?_⟩
    by_cases hp : w ∈ r.prune
    · exact .inr hp
    · refine .inl fun hm => ?_
      exact h3 w (List.mem_filter.2 ⟨hm, by simpa using hp⟩) w hw rfl
  · rintro ⟨h1, h2⟩
    refine ⟨hnd.filter _, h1, ?_⟩
    rintro a ha b hb rfl
    rw [List.mem_filter] at ha
    rcases h2 a hb with h | h
    · exact h ha.1
    · simp [h] at ha

/-- C55: a freshly incepted identifier has exactly the witnesses and the tally its inception lists, whatever they are. -/
theorem C55_inception (env : Env) (as : List Action) (e : SignedEvent) (i : InceptionEvent) (hid : e.pre.toStr ≠ []) (new : IdState)
    (hi : e.data = .icp i) (hacc : (process sled env (.event e) (after env as)).1 = .ok (some new)) :
    new.witnesses = i.initialWitnesses ∧ new.tally = i.tally := by
  obtain ⟨s, hl, ho⟩ := event_outcome env as e hid
  rw [hacc] at ho
  generalize (after env (as ++ [.submit (.event e)])).abs = a' at ho
  cases ho with
  | refused h _ _ => exact absurd rfl (h _)
  | @stored n _ hrd hap hs _ =>
    generalize hr : (Res.ok (some new) : Res (Option IdState)) = r at hs
    generalize hl' : a'.log e.pre.toStr = l at hs
    cases hs <;> try (cases hr; done)
    cases hr
    have A := applyTo_ok hap
    have hw := A.witnesses
    have ht := A.tally
    rw [hi] at hw ht
    exact ⟨hw, ht⟩

/-- an inception with two different witnesses -/
def Ex.icpTwo : SignedEvent := signAll (msgOr (inceptSelfAddressing env (.icp ⟨kc [1] [4] (.simple 1), 1, [key 30, key 31], [], []⟩) .blake3_256 .json)) [1]
/-- and a rotation that replaces the first one -/
def Ex.rotTwo : SignedEvent :=
  signAll (msgOr ((Event.mk icpTwo.pre 1 (.rot ⟨icpTwo.dig, kc [4] [7] (.simple 1), 2, [key 30], [key 32], []⟩)).toMessage env .json .blake3_256)) [4]

/-- hypotheses of `C55_inception` and `C55_rotation` met: a witness is exchanged, no duplicates arise -/
example : (process sled Ex.env (.event Ex.icpTwo) Db.empty).1.isOk = true ∧
    (match (computeState sled Ex.env Ex.icpTwo.pre (after Ex.env [.submit (.event Ex.icpTwo)])).1 with
      | .ok (some s) => s.witnesses
      | _ => []) = [Ex.key 30, Ex.key 31] ∧
    (match (process sled Ex.env (.event Ex.rotTwo) (after Ex.env [.submit (.event Ex.icpTwo)])).1 with
      | .ok (some s) => s.witnesses
      | _ => []) = [Ex.key 31, Ex.key 32] := by decide +kernel

/-- C55 is false: duplicate witnesses and a tally larger than the number of witnesses are accepted, as is cutting a key that
is no witness and adding one that is. -/
theorem C55_fails :
    (process sled Ex.env (.event Ex.icpWit) Db.empty).1.isOk = true ∧
    (match (process sled Ex.env (.event Ex.rotWit) (after Ex.env [.submit (.event Ex.icpWit)])).1 with
      | .ok (some s) => s.witnesses
      | _ => []) = [Ex.key 30, Ex.key 30, Ex.key 30] ∧
    (Ex.icpWit.data.added.length < 7) := by decide +kernel

/-! ## C25 -/

theorem filter_sn (l : List SignedEvent) (h : ∀ (i : Nat) (e : SignedEvent), l[i]? = some e → e.sn = i) (n : Nat) :
    l.filter (fun e => e.sn ≤ n) = l.take (n + 1) := by
  have gen : ∀ (l : List SignedEvent) (k : Nat), (∀ (i : Nat) (e : SignedEvent), l[i]? = some e → e.sn = i + k) →
      l.filter (fun e => e.sn ≤ n) = l.take (n + 1 - k) := by
    intro l
    induction l with
    | nil => intro k _; simp
    | cons a t ih =>
      intro k hk
      have h0 := hk 0 a rfl
      have ht := ih (k + 1) (fun i e he => by have := hk (i + 1) e (by simpa using he); omega)
      by_cases ha : a.sn ≤ n
      · rw [List.filter_cons_of_pos (by simpa using ha), ht]
        have : n + 1 - k = (n + 1 - (k + 1)) + 1 := by omega
        rw [this, List.take_succ_cons]
      · rw [List.filter_cons_of_neg (by simpa using ha), ht]
        have h1 : n + 1 - (k + 1) = 0 := by omega
        have h2 : n + 1 - k = 0 := by omega
        rw [h1, h2]; rfl
  exact gen l 0 (fun i e he => by have := h i e he; omega)

theorem computeStateAtSn_run (env : Env) (id : IdentifierPrefix) (n : Nat) (a : MapDb) :
    (computeStateAtSn mapOps env id n a).1 = match a.tables .kels id.toStr with
      | none => .ok none
      | some l => if l.all SignedEvent.rt then
          (match foldStrict env IdState.default ((sortBySn l).filter fun e => e.sn ≤ n) with
            | .ok s => .ok (some s)
            | .err e => .err e
            | .panic => .panic)
        else .panic := by
  unfold computeStateAtSn getKel
  rw [StM.bind_run]
  simp only [mapOps, iterValues_kels]
  cases h : a.tables .kels id.toStr with
  | none => rfl
  | some l =>
    dsimp only
    by_cases hr : l.all SignedEvent.rt = true
    · rw [if_pos hr, if_pos hr]
      dsimp only
      rw [StM.bind_run]
      simp only [StM.lift]
      cases foldStrict env IdState.default ((sortBySn l).filter fun e => e.sn ≤ n) <;> rfl
    · rw [if_neg hr, if_neg hr]

/-- C25: on a readable, non-empty log `compute_state_at_sn` is the state after the events numbered 0 to `n`; its sequence
number is `n` while `n` is logged, and beyond the end it is the current state. -/
theorem C25_state_at_sn (env : Env) (as : List Action) (id : IdentifierPrefix) (hid : id.toStr ≠ []) (n : Nat)
    (hne : (after env as).kel id ≠ []) (hr : Readable ((after env as).kel id)) :
    ∃ s, (computeStateAtSn sled env id n (after env as)).1 = .ok (some s) ∧
      stateAfter env (((after env as).kel id).take (n + 1)) = .ok s ∧
      (n < ((after env as).kel id).length → s.sn = n) ∧
      (((after env as).kel id).length ≤ n + 1 → (computeState sled env id (after env as)).1 = .ok (some s)) := by
  obtain ⟨s', hl⟩ := after_log env as id hid
  obtain ⟨s, hs⟩ := hl.take (n + 1)
  refine ⟨s, ?_, hs.stateAfter, ?_, ?_⟩
  · rw [(computeStateAtSn_sim sled_sim env id n _ (after_inv env as)).1, computeStateAtSn_run]
    have hv : (after env as).abs.tables .kels id.toStr = some ((after env as).kel id) := vec_of_kel hne
    rw [hv]
    dsimp only
    rw [if_pos ((readable_iff _).2 hr), hl.sorted hid, filter_sn _ (fun _ _ he => hl.sn_eq hid he), hs.fold]
  · intro hn
    have hne' : ((after env as).kel id).take (n + 1) ≠ [] := by
      rw [Ne, List.take_eq_nil_iff]; simpa using hne
    have := ((hs.facts hid).2.1 hne').2.2.1
    rw [List.length_take] at this
    omega
  · intro hn
    obtain ⟨s2, hl2, hc⟩ := computeState_log env as id hid hne hr
    rw [List.take_of_length_le hn] at hs
    rw [hs.unique hl2]
    exact hc

/-- C25 for an identifier nothing is stored about -/
theorem C25_unknown (env : Env) (as : List Action) (id : IdentifierPrefix) (n : Nat)
    (hn : (after env as).vec .kels id.toStr = none) : (computeStateAtSn sled env id n (after env as)).1 = .ok none := by
  rw [(computeStateAtSn_sim sled_sim env id n _ (after_inv env as)).1, computeStateAtSn_run]
  have : (after env as).abs.tables .kels id.toStr = none := hn
  rw [this]

example : (after Ex.env Ex.hist).kel Ex.id = [Ex.icp, Ex.rot, Ex.ixn] ∧
    ([Ex.icp, Ex.rot, Ex.ixn] : List SignedEvent).all SignedEvent.rt = true ∧
    (computeStateAtSn sled Ex.env Ex.id 1 (after Ex.env Ex.hist)).1 = .ok (some Ex.rotState) := by decide +kernel

/-! ## C26 -/

/-- two states that differ at most in the last digest and the last-establishment record -/
def SameBut (s t : IdState) : Prop :=
  s.prefix = t.prefix ∧ s.sn = t.sn ∧ s.current = t.current

theorem eventApply_same {env : Env} {e : SignedEvent} {s s' t : IdState} (h : e.msg.applyTo env s = .ok s') (hst : SameBut s t) :
    ∃ t', e.msg.event.content.applyTo env t = .ok t' ∧ SameBut s' t' := by
  have A := applyTo_ok h
  obtain ⟨h1, h2, h3⟩ := hst
  unfold Event.applyTo
  have rotok : ∀ r : RotationEvent, e.data.rotation? = some r → ∀ t0 : IdState, t0.current = t.current → t0.prefix = e.pre → t0.sn = e.sn →
      s'.current = r.keyConfig →
      ∃ t', r.applyTo env t0 = .ok t' ∧ SameBut s' t' := by
    intro r hr t0 hc hp hsn hk
    have hv := A.rot r hr
    unfold RotationEvent.applyTo
    rw [hc, ← h3, if_pos hv]
    exact ⟨_, rfl, by rw [A.pre, ← hp], by rw [A.sn, ← hsn], hk⟩
  cases hd : e.data with
  | icp i =>
    have hd' : e.msg.event.content.data = .icp i := hd
    rw [hd']
    have hp := A.incPre (by rw [hd]; rfl)
    have hs0 := A.incSn (by rw [hd]; rfl)
    have hs0' : e.msg.event.content.sn = 0 := hs0
    have hk := A.keys
    rw [hd] at hk
    dsimp only
    rw [← h1, hp, if_neg (by simp), hs0', if_neg (by simp)]
    exact ⟨_, rfl, A.pre, by rw [A.sn, hs0]; rfl, hk⟩
  | dip i =>
    have hd' : e.msg.event.content.data = .dip i := hd
    rw [hd']
    have hp := A.incPre (by rw [hd]; rfl)
    have hs0 := A.incSn (by rw [hd]; rfl)
    have hs0' : e.msg.event.content.sn = 0 := hs0
    have hk := A.keys
    rw [hd] at hk
    dsimp only
    rw [← h1, hp, if_neg (by simp), hs0', if_neg (by simp)]
    exact ⟨_, rfl, A.pre, by rw [A.sn, hs0]; rfl, hk⟩
  | rot r =>
    have hd' : e.msg.event.content.data = .rot r := hd
    rw [hd']
    have hp : e.msg.event.content.prefix = s.prefix := A.nextPre (by rw [hd]; rfl)
    have hs0 : e.msg.event.content.sn = s.sn + 1 := A.nextSn (by rw [hd]; rfl)
    have hk := A.keys
    rw [hd] at hk
    dsimp only
    rw [hp, hs0, h1, h2]
    simp only [ne_eq, not_true, if_false, Nat.lt_irrefl]
    exact rotok r (by rw [hd]; rfl) _ rfl (by rw [← h1, ← hp]) (by rw [← h2, ← hs0]) hk
  | drt r =>
    have hd' : e.msg.event.content.data = .drt r := hd
    rw [hd']
    have hp : e.msg.event.content.prefix = s.prefix := A.nextPre (by rw [hd]; rfl)
    have hs0 : e.msg.event.content.sn = s.sn + 1 := A.nextSn (by rw [hd]; rfl)
    have hk := A.keys
    rw [hd] at hk
    dsimp only
    rw [hp, hs0, h1, h2]
    simp only [ne_eq, not_true, if_false, Nat.lt_irrefl]
    exact rotok r (by rw [hd]; rfl) _ rfl (by rw [← h1, ← hp]) (by rw [← h2, ← hs0]) hk
  | ixn r =>
    have hd' : e.msg.event.content.data = .ixn r := hd
    rw [hd']
    have hp : e.msg.event.content.prefix = s.prefix := A.nextPre (by rw [hd]; rfl)
    have hs0 : e.msg.event.content.sn = s.sn + 1 := A.nextSn (by rw [hd]; rfl)
    have hk := A.keys
    rw [hd] at hk
    dsimp only
    rw [hp, hs0, h1, h2]
    simp only [ne_eq, not_true, if_false, Nat.lt_irrefl]
    exact ⟨_, rfl, by rw [A.pre, ← h1, ← hp], by rw [A.sn, ← h2, ← hs0], by rw [hk, ← h3]; rfl⟩

/-- the last plain establishment event of a list -/
def lastPlain (last : Option SignedEvent) : List SignedEvent → Option SignedEvent
  | [] => last
  | e :: es => lastPlain (match e.data with | .icp _ => some e | .rot _ => some e | _ => last) es

theorem lastEstLoop_ok (env : Env) (l : List SignedEvent) (s s' t : IdState) (last : Option SignedEvent)
    (h : foldStrict env s l = .ok s') (hst : SameBut s t) : lastEstLoop env t last l = .ok (lastPlain last l) := by
  induction l generalizing s t last with
  | nil => rfl
  | cons a l ih =>
    simp only [foldStrict] at h
    split at h
    · rename_i s1 hs
      obtain ⟨t1, h1, h2⟩ := eventApply_same hs hst
      simp only [lastEstLoop, h1]
      exact ih s1 t1 _ h h2
    · cases h
    · cases h

theorem getLastEstSeal_run (env : Env) (id : IdentifierPrefix) (a : MapDb) :
    (getLastEstSeal mapOps env id a).1 = match a.tables .kels id.toStr with
      | none => .ok none
      | some l => if l.all SignedEvent.rt then
          (match lastEstLoop env IdState.default none l with
            | .ok o => .ok (o.map fun e => ⟨e.pre, e.sn, e.dig⟩)
            | .err e => .err e
            | .panic => .panic)
        else .panic := by
  unfold getLastEstSeal getKel
  rw [StM.bind_run]
  simp only [mapOps, iterValues_kels]
  cases h : a.tables .kels id.toStr with
  | none => rfl
  | some l =>
    dsimp only
    by_cases hr : l.all SignedEvent.rt = true
    · rw [if_pos hr, if_pos hr]
      dsimp only
      rw [StM.bind_run]
      simp only [StM.lift]
      cases lastEstLoop env IdState.default none l <;> rfl
    · rw [if_neg hr, if_neg hr]

theorem lastPlain_eq (l : List SignedEvent) (last : Option SignedEvent) (h : ∀ e ∈ l, e.data.isDelegated = false) :
    lastPlain last l = (lastEstablishment l).or last := by
  induction l generalizing last with
  | nil => simp [lastPlain, lastEstablishment]
  | cons a t ih =>
    simp only [lastPlain, lastEstablishment]
    rw [ih _ (fun e he => h e (by simp [he]))]
    have ha := h a (by simp)
    cases hl : lastEstablishment t with
    | some x => simp
    | none =>
      cases hd : a.data <;> rw [hd] at ha <;>
        simp_all [EventData.isEstablishment, EventData.keyConfig?, EventData.isDelegated]

theorem lastPlain_none (l : List SignedEvent) (h : ∀ e ∈ l, (∀ x, e.data ≠ .icp x) ∧ (∀ x, e.data ≠ .rot x)) : lastPlain none l = none := by
  induction l with
  | nil => rfl
  | cons a t ih =>
    simp only [lastPlain]
    have ha := h a (by simp)
    cases hd : a.data with
    | icp x => exact absurd hd (ha.1 x)
    | rot x => exact absurd hd (ha.2 x)
    | _ => exact ih (fun e he => h e (by simp [he]))

theorem lastEstSeal_spec (env : Env) (as : List Action) (id : IdentifierPrefix) (hid : id.toStr ≠ [])
    (hne : (after env as).kel id ≠ []) (hr : Readable ((after env as).kel id)) :
    (getLastEstSeal sled env id (after env as)).1 =
      .ok ((lastPlain none ((after env as).kel id)).map fun e => ⟨e.pre, e.sn, e.dig⟩) := by
  obtain ⟨s, hl⟩ := after_log env as id hid
  rw [(getLastEstSeal_sim sled_sim env id _ (after_inv env as)).1, getLastEstSeal_run]
  have hv : (after env as).abs.tables .kels id.toStr = some ((after env as).kel id) := vec_of_kel hne
  rw [hv]
  dsimp only
  rw [if_pos ((readable_iff _).2 hr), lastEstLoop_ok env _ _ _ _ none hl.fold ⟨rfl, rfl, rfl⟩]

/-- C26: for an identifier whose log starts with a plain inception the answer is the identifier, number and digest of the
last establishment event.  Beyond this: delegated identifiers (`C26_fails_for_delegated`). -/
theorem C26_last_establishment (env : Env) (as : List Action) (id : IdentifierPrefix) (hid : id.toStr ≠ []) (e0 : SignedEvent)
    (h0 : ((after env as).kel id)[0]? = some e0) (hp : e0.data.delegator? = none) (hr : Readable ((after env as).kel id)) :
    ∃ e, lastEstablishment ((after env as).kel id) = some e ∧
      (getLastEstSeal sled env id (after env as)).1 = .ok (some ⟨e.pre, e.sn, e.dig⟩) := by
  have hne : (after env as).kel id ≠ [] := by intro h; rw [h] at h0; simp at h0
  have hnd : ∀ e ∈ (after env as).kel id, e.data.isDelegated = false := by
    intro e he
    have hm := C15_no_mixing env as id hid e0 e h0 he
    cases hd : e.data with
    | drt r => obtain ⟨d, hd'⟩ := hm.2 r hd; rw [hp] at hd'; cases hd'
    | dip d =>
      obtain ⟨i, hi, rfl⟩ := List.mem_iff_getElem.1 he
      have hc := (C03_contiguous env as id hid i _ (List.getElem?_eq_getElem hi)).2.1.1 (by rw [hd]; rfl)
      subst hc
      rw [List.getElem?_eq_getElem hi] at h0
      cases h0
      rw [hd] at hp; cases hp
    | _ => rfl
  have hs := lastEstSeal_spec env as id hid hne hr
  rw [lastPlain_eq _ _ hnd, Option.or_none] at hs
  have hsome : ∃ e, lastEstablishment ((after env as).kel id) = some e := by
    have hinc := (C03_contiguous env as id hid 0 e0 h0).2.1.2 rfl
    obtain ⟨kc, hkc⟩ := inception_has_keys hinc
    cases hk : (after env as).kel id with
    | nil => exact absurd hk hne
    | cons a t =>
      rw [hk] at h0
      simp only [List.getElem?_cons_zero, Option.some.injEq] at h0
      subst h0
      simp only [lastEstablishment]
      cases lastEstablishment t with
      | some x => exact ⟨x, by simp⟩
      | none => exact ⟨a, by simp [EventData.isEstablishment, hkc]⟩
  obtain ⟨e, he⟩ := hsome
  rw [he] at hs
  exact ⟨e, he, hs⟩

/-- C26 is false for every delegated identifier: the answer is `None`, whatever its log contains. -/
theorem C26_fails_for_delegated (env : Env) (as : List Action) (id : IdentifierPrefix) (hid : id.toStr ≠ []) (e0 : SignedEvent)
    (del : IdentifierPrefix) (h0 : ((after env as).kel id)[0]? = some e0) (hp : e0.data.delegator? = some del)
    (hr : Readable ((after env as).kel id)) :
    (getLastEstSeal sled env id (after env as)).1 = .ok none := by
  have hne : (after env as).kel id ≠ [] := by intro h; rw [h] at h0; simp at h0
  rw [lastEstSeal_spec env as id hid hne hr, lastPlain_none]
  · rfl
  · intro e he
    refine ⟨fun x hx => ?_, fun x hx => ?_⟩
    · obtain ⟨i, hi, rfl⟩ := List.mem_iff_getElem.1 he
      have hc := (C03_contiguous env as id hid i _ (List.getElem?_eq_getElem hi)).2.1.1 (by rw [hx]; rfl)
      subst hc
      rw [List.getElem?_eq_getElem hi] at h0
      cases h0
      rw [hx] at hp; cases hp
    · have := (C15_no_mixing env as id hid e0 e h0 he).1 x hx
      rw [hp] at this; cases this

example : (getLastEstSeal sled Ex.env Ex.id (after Ex.env Ex.hist)).1 = .ok (some ⟨Ex.id, 1, Ex.rot.dig⟩) ∧
    Ex.icp.data.delegator? = none ∧
    (getLastEstSeal sled Ex.env Ex.dip.pre (after Ex.env (Ex.delHist Ex.dipSeal ++ [.submit (.event Ex.dip)]))).1 = .ok none ∧
    Ex.dip.data.delegator? = some Ex.id ∧ Ex.dip.rt = true := by decide +kernel

/-! ## C27 -/

/-- C27: the last-establishment record of the computed state always has the sequence number of the last establishment event.
If that event is an inception the record is right; if it is a rotation the record holds the digest of the event *before* the
rotation, the witnesses it added under `br` (cuts) and the witnesses it cut under `ba` (adds). -/
theorem C27_last_est (env : Env) (as : List Action) (id : IdentifierPrefix) (hid : id.toStr ≠ []) (s : IdState)
    (hne : (after env as).kel id ≠ []) (hs : (computeState sled env id (after env as)).1 = .ok (some s)) :
    ∃ e, lastEstablishment ((after env as).kel id) = some e ∧ s.lastEst.sn = e.sn ∧
      (e.data.isInception = true → s.lastEst = ⟨e.sn, e.dig, [], []⟩) ∧
      (∀ r, e.data.rotation? = some r → s.lastEst = { sn := e.sn, digest := r.previous, br := r.graft, ba := r.prune }) := by
  have hst := C08_compute_state_is_fold env as id hid hne s hs
  obtain ⟨s', hl⟩ := after_log env as id hid
  rw [hl.stateAfter] at hst
  cases hst
  generalize (after env as).kel id = l at hl hne
  clear hs
  induction hl with
  | nil => exact absurd rfl hne
  | @snoc l s e s' hl hp hd ha ih =>
    have A := applyTo_ok ha
    have happ : lastEstablishment (l ++ [e]) = if e.data.isEstablishment then some e else lastEstablishment l := by
      clear ih A ha hl hne
      induction l with
      | nil => simp [lastEstablishment]
      | cons a t ih2 =>
        simp only [List.cons_append, lastEstablishment, ih2]
        cases e.data.isEstablishment <;> simp
    rw [happ]
    have hle := A.lastEst
    have hinc := ((Log.facts hid (Log.snoc hl hp hd ha)).2.2 l.length e (by simp)).2.2
    cases hdat : e.data with
    | ixn x =>
      rw [hdat] at hle
      have hl0 : l ≠ [] := by
        intro h0; subst h0
        have := hinc.2 rfl
        rw [hdat] at this; cases this
      rw [if_neg (by simp [EventData.isEstablishment, EventData.keyConfig?])]
      rw [hle]
      exact ih hl0
    | _ =>
      rw [hdat] at hle
      rw [if_pos (by simp [EventData.isEstablishment, EventData.keyConfig?])]
      have hpv := A.prev
      rw [hdat] at hpv
      refine ⟨e, rfl, by rw [hle], ?_⟩
      rw [hdat]
      first
        | exact ⟨fun _ => hle, fun r hr => by cases hr⟩
        | (refine ⟨fun hc => ?_, fun r hr => ?_⟩
           · cases hc
           · cases hr
             have hp2 := hpv rfl
             simp only [EventData.previous?, Option.some.injEq] at hp2
             rw [hp2]; exact hle)

/-- C27 is false after every rotation: the recorded digest is that of the event before the rotation, the witnesses cut are
recorded as added (`ba`) and the added ones as cut (`br`). -/
theorem C27_fails_for_all (env : Env) (as : List Action) (e : SignedEvent) (r : RotationEvent) (hid : e.pre.toStr ≠ []) (s new : IdState)
    (hs : (computeState sled env e.pre (after env as)).1 = .ok (some s)) (hne : (after env as).kel e.pre ≠ [])
    (hr : e.data.rotation? = some r) (hacc : (process sled env (.event e) (after env as)).1 = .ok (some new)) :
    new.lastEst.digest = r.previous ∧ new.lastEst.br = r.graft ∧ new.lastEst.ba = r.prune := by
  have A := applyTo_ok (e := e) (accepted_state env as e hid s hs hne new hacc)
  have hle := A.lastEst
  have hpr : e.data.previous? = some s.lastDigest := A.prev (by
    revert hr; cases e.data <;> simp [EventData.rotation?, EventData.isInception])
  cases hd : e.data <;> rw [hd] at hr hle hpr <;> simp only [EventData.rotation?, Option.some.injEq, reduceCtorEq] at hr <;>
    subst hr <;> simp only [EventData.previous?, Option.some.injEq] at hpr <;> rw [hle, hpr] <;> exact ⟨rfl, rfl, rfl⟩

/-- concretely -/
theorem C27_fails :
    (process sled Ex.env (.event Ex.rot) (after Ex.env [.submit (.event Ex.icp)])).1 = .ok (some Ex.rotState) ∧
    Ex.rotState.lastEst.digest ≠ Ex.rot.dig ∧ Ex.rotState.lastEst.br = Ex.rot.data.added ∧ Ex.rotState.lastEst.ba = Ex.rot.data.cut ∧
    Ex.rot.data.added ≠ Ex.rot.data.cut := by decide +kernel

end Keriox
