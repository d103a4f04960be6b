import Verif.Props.Controller
/-!
# C71: copies of a log
-/
namespace Keriox

/-! ## Specification -/

/-- the only events of `id` submitted in the history `bs` are events of the log `l` -/
def OnlyFrom (l : List SignedEvent) (id : IdentifierPrefix) (bs : List Action) : Prop :=
  ∀ a ∈ bs, a.submitsFor id → ∃ e ∈ l, a = .submit (.event e)

/-! ## Lemmas -/

theorem checkEventDigest_or (env : Env) (m : EventMessage) (h : checkEventDigest env m ≠ .panic) :
    checkEventDigest env m = .ok () ∨ ∃ er, checkEventDigest env m = .err er := by
  cases hc : checkEventDigest env m with
  | ok u => exact .inl rfl
  | err e => exact .inr ⟨e, rfl⟩
  | panic => exact absurd hc h

theorem eventApply_no_panic (env : Env) (e : Event) (s : IdState) : e.applyTo env s ≠ .panic := by
  unfold Event.applyTo
  cases hd : e.data with
  | icp x => simp only [EventData.applyTo]; split <;> (try split) <;> simp
  | dip x => simp only [EventData.applyTo]; split <;> (try split) <;> simp
  | ixn x => simp only [EventData.applyTo]; split <;> (try split) <;> (try split) <;> simp
  | rot x => simp only [EventData.applyTo, RotationEvent.applyTo]; split <;> (try split) <;> (try split) <;> (try split) <;> simp
  | drt x => simp only [EventData.applyTo, RotationEvent.applyTo]; split <;> (try split) <;> (try split) <;> (try split) <;> simp

theorem chain_no_panic (m : EventMessage) (p : SelfAddressingPrefix) (s n : IdState) : chain m p s n ≠ .panic := by
  unfold chain; split <;> simp

/-- an event that can be applied somewhere crashes nowhere -/
theorem applyTo_no_panic {env : Env} {m : EventMessage} {s0 s1 : IdState} (h : m.applyTo env s0 = .ok s1) (s : IdState) :
    m.applyTo env s ≠ .panic := by
  unfold EventMessage.applyTo at h ⊢
  have fin : ∀ {p : SelfAddressingPrefix}, (m.event.content.applyTo env s >>= fun n => chain m p s n) ≠ .panic := by
    intro p
    cases hx : m.event.content.applyTo env s with
    | ok n => rw [Res.ok_bind]; exact chain_no_panic _ _ _ _
    | err e => simp [bind, Res.bind]
    | panic => exact absurd hx (eventApply_no_panic _ _ _)
  cases hd : m.event.content.data with
  | icp x =>
    simp only [hd] at h ⊢
    obtain ⟨b, hb, _⟩ := Res.bind_eq_ok.1 h
    rw [hb, Res.ok_bind]
    cases b
    · simp
    · exact eventApply_no_panic _ _ _
  | dip x =>
    simp only [hd] at h ⊢
    obtain ⟨b, hb, _⟩ := Res.bind_eq_ok.1 h
    rw [hb, Res.ok_bind]
    cases b
    · simp
    · exact eventApply_no_panic _ _ _
  | rot x =>
    simp only [hd] at h ⊢
    obtain ⟨b, hb, _⟩ := Res.bind_eq_ok.1 h
    rw [hb, Res.ok_bind]
    split
    · simp
    · exact fin
  | ixn x =>
    simp only [hd] at h ⊢
    obtain ⟨b, hb, _⟩ := Res.bind_eq_ok.1 h
    rw [hb, Res.ok_bind]
    exact fin
  | drt x =>
    simp only [hd] at h ⊢
    obtain ⟨n, hn, h2⟩ := Res.bind_eq_ok.1 h
    obtain ⟨b, hb, _⟩ := Res.bind_eq_ok.1 h2
    cases hx : m.event.content.applyTo env s with
    | ok n =>
      rw [Res.ok_bind, hb, Res.ok_bind]
      split
      · simp
      · exact chain_no_panic _ _ _ _
    | err e => simp [bind, Res.bind]
    | panic => exact absurd hx (eventApply_no_panic _ _ _)

theorem plain_of {e : SignedEvent} (h : e.data.isDelegated = false) :
    (∃ x, e.data = .icp x) ∨ (∃ x, e.data = .rot x) ∨ ∃ x, e.data = .ixn x := by
  cases hd : e.data with
  | icp x => exact .inl ⟨x, rfl⟩
  | rot x => exact .inr (.inl ⟨x, rfl⟩)
  | ixn x => exact .inr (.inr ⟨x, rfl⟩)
  | dip x => rw [hd] at h; cases h
  | drt x => rw [hd] at h; cases h

/-- a log that other processors can take over: readable, not delegated, signed -/
structure Portable (env : Env) (id : IdentifierPrefix) (l : List SignedEvent) : Prop where
  log : ∃ s, Log env id.toStr l s
  readable : Readable l
  plain : ∀ e ∈ l, e.data.isDelegated = false
  signed : ∀ i, i < l.length → SignedInForce env l i

/-- one plain event of a readable, signed log arrives at a processor that has the first `k` of them -/
theorem sync_plain {env : Env} {id : IdentifierPrefix} (hid : id.toStr ≠ []) {l : List SignedEvent} (hlog : ∃ s, Log env id.toStr l s)
    (hread : Readable l) (hsigned : ∀ i, i < l.length → SignedInForce env l i)
    (bs : List Action) (k : Nat) (hk : k ≤ l.length) (hb : (after env bs).kel id = l.take k) (j : Nat) (e : SignedEvent)
    (he : l[j]? = some e) (hplain : e.data.isDelegated = false) :
    (j = k → ∃ st, (process sled env (.event e) (after env bs)).1 = .ok (some st) ∧ stateAfter env (l.take (k + 1)) = .ok st ∧
      (after env (bs ++ [.submit (.event e)])).kel id = l.take (k + 1)) ∧
    (j ≠ k → (∃ er, (process sled env (.event e) (after env bs)).1 = .err er) ∧
      ∀ t x, (after env (bs ++ [.submit (.event e)])).vec t x = (after env bs).vec t x) := by
  obtain ⟨s, hl⟩ := hlog
  have hmem := List.mem_of_getElem? he
  obtain ⟨hseal, hpre⟩ := hl.noSeal e hmem
  have hje : j < l.length := (List.getElem?_eq_some_iff.1 he).1
  have hb' : (after env bs).kel e.pre = l.take k := (kel_text _ hpre).trans hb
  have hrd : Readable ((after env bs).kel e.pre) := by rw [hb']; exact fun x hx => hread x (List.mem_of_mem_take hx)
  have hpl := plain_of hplain
  have hst : e.stored = e := by
    obtain ⟨m, sg, ds⟩ := e
    simp only at hseal
    subst hseal
    rfl
  obtain ⟨s0, s1, hl0, hl1, hap⟩ := hl.step he
  refine ⟨?_, ?_⟩
  · rintro rfl
    obtain ⟨e', kc, bytes, g1, g2, g3, g4⟩ := hsigned j hje
    rw [he] at g1
    cases g1
    have hkc : s1.current = kc := by
      have := hl1.keys hid (by rw [Ne, List.take_eq_nil_iff]; rintro (h | h); omega; rw [h] at he; simp at he)
      rw [g2] at this
      exact (Option.some.inj this).symm
    have acc := accepts env bs e (by rw [hpre]; exact hid) s0 s1 bytes (by rw [hb', hpre]; exact hl0) hrd
      (plain_checkDelegation env e _ hpl) hap g3 (by rw [hkc]; exact verify_of_validSigs g4)
    refine ⟨s1, acc.1, hl1.stateAfter, ?_⟩
    have h2 : l[j] = e := (List.getElem?_eq_some_iff.1 he).2
    rw [List.take_succ_eq_append_getElem hje, h2, ← kel_text _ hpre, acc.2, hb', hst]
  · intro hjk
    obtain ⟨s', hl', ho⟩ := event_outcome env bs e (by rw [hpre]; exact hid)
    have hno : ∀ n, e.msg.applyTo env s' ≠ .ok n := by
      intro n hn
      have hsn := (Log.facts (by rw [hpre]; exact hid) (Log.snoc hl' rfl hseal hn)).2.2 ((after env bs).kel e.pre).length e (by simp)
      have hsn2 := (hl.facts hid).2.2 j e he
      rw [hb', List.length_take, Nat.min_eq_left hk] at hsn
      rw [hsn.1] at hsn2
      exact hjk hsn2.1.symm
    generalize hr : (process sled env (.event e) (after env bs)).1 = r at ho
    generalize ha : (after env (bs ++ [.submit (.event e)])).abs = a' at ho
    have hnp := applyTo_no_panic hap s'
    cases ho with
    | refused h1 h2 h3 =>
      refine ⟨?_, fun t x => ?_⟩
      · rcases h3 with ⟨er, _, h⟩ | ⟨h, _⟩ | ⟨_, ⟨h, _⟩ | ⟨_, er, _, h⟩ | ⟨_, h, _⟩⟩
        · exact ⟨er, h⟩
        · rw [plain_checkDelegation env e _ hpl] at h; cases h
        · exact absurd hrd h
        · exact ⟨er, h⟩
        · exact absurd h hnp
      · show (after env (bs ++ [.submit (.event e)])).abs.tables t x = (after env bs).abs.tables t x
        rw [ha, h2]
    | stored _ _ h _ _ => exact absurd h (hno _)

/-- one event of a portable log arrives at a processor that has the first `k` of them -/
theorem sync_step {env : Env} {id : IdentifierPrefix} (hid : id.toStr ≠ []) {l : List SignedEvent} (P : Portable env id l)
    (bs : List Action) (k : Nat) (hk : k ≤ l.length) (hb : (after env bs).kel id = l.take k) (j : Nat) (e : SignedEvent)
    (he : l[j]? = some e) :
    (j = k → ∃ st, (process sled env (.event e) (after env bs)).1 = .ok (some st) ∧ stateAfter env (l.take (k + 1)) = .ok st ∧
      (after env (bs ++ [.submit (.event e)])).kel id = l.take (k + 1)) ∧
    (j ≠ k → (∃ er, (process sled env (.event e) (after env bs)).1 = .err er) ∧
      ∀ t x, (after env (bs ++ [.submit (.event e)])).vec t x = (after env bs).vec t x) :=
  sync_plain hid P.log P.readable P.signed bs k hk hb j e he (P.plain e (List.mem_of_getElem? he))

theorem submitsFor_log {env : Env} {id : IdentifierPrefix} {l : List SignedEvent} (P : Portable env id l) {e : SignedEvent} (he : e ∈ l) :
    Action.submitsFor id (.submit (.event e)) := by
  obtain ⟨s, hl⟩ := P.log
  exact (hl.noSeal e he).2

/-- any history: the copy is a part of the log, and it includes whatever has arrived in order -/
theorem sync_history {env : Env} {id : IdentifierPrefix} (hid : id.toStr ≠ []) {l : List SignedEvent} (P : Portable env id l)
    (bs : List Action) (h : OnlyFrom l id bs) :
    ∃ k, k ≤ l.length ∧ (after env bs).kel id = l.take k ∧ ∀ n, n ≤ l.length → (replay (l.take n)).Sublist bs → n ≤ k := by
  revert h
  refine snoc_induction (P := fun bs => OnlyFrom l id bs → ∃ k, k ≤ l.length ∧ (after env bs).kel id = l.take k ∧
    ∀ n, n ≤ l.length → (replay (l.take n)).Sublist bs → n ≤ k) bs ?_ ?_
  · intro _
    refine ⟨0, Nat.zero_le _, rfl, fun n hn hs => ?_⟩
    have := hs.length_le
    simp only [replay, List.length_map, List.length_take, List.length_nil] at this
    omega
  · intro bs a ih h
    obtain ⟨k, h1, h2, h3⟩ := ih fun x hx => h x (by simp [hx])
    -- what the last action contributes to sublists
    have last : ∀ n, n ≤ l.length → (replay (l.take n)).Sublist (bs ++ [a]) →
        n ≤ k ∨ ∃ n' e, n = n' + 1 ∧ n' ≤ k ∧ l[n']? = some e ∧ a = .submit (.event e) := by
      intro n hn hs
      cases n with
      | zero => exact .inl (Nat.zero_le _)
      | succ n =>
        have hlt : n < l.length := by omega
        have hrep : replay (l.take (n + 1)) = replay (l.take n) ++ [.submit (.event l[n])] := by
          rw [List.take_succ_eq_append_getElem hlt, replay, List.map_append]; rfl
        rw [hrep] at hs
        by_cases ha : Action.submit (.event l[n]) = a
        · refine .inr ⟨n, l[n], rfl, h3 n (by omega) ?_, List.getElem?_eq_getElem hlt, ha.symm⟩
          rw [ha] at hs
          have := List.reverse_sublist.2 hs
          simp only [List.reverse_append, List.reverse_cons, List.reverse_nil, List.nil_append, List.cons_append] at this
          have := (List.cons_sublist_cons.1 this)
          exact List.reverse_sublist.1 this
        · refine .inl (h3 _ hn ?_)
          rw [hrep]
          have := List.reverse_sublist.2 hs
          simp only [List.reverse_append, List.reverse_cons, List.reverse_nil, List.nil_append, List.cons_append] at this
          rcases List.sublist_cons_iff.1 this with h4 | ⟨r, h4, _⟩
          · have := List.reverse_sublist.2 h4
            simpa using this
          · exact absurd (List.cons.inj h4).1 ha
    by_cases hs : a.submitsFor id
    · obtain ⟨e, he, rfl⟩ := h a (by simp) hs
      obtain ⟨j, hj, hje⟩ := List.mem_iff_getElem.1 he
      have hje : l[j]? = some e := by rw [List.getElem?_eq_getElem hj, hje]
      obtain ⟨g1, g2⟩ := sync_step hid P bs k h1 h2 j e hje
      by_cases hjk : j = k
      · obtain ⟨st, _, _, g3⟩ := g1 hjk
        refine ⟨k + 1, by omega, g3, fun n hn hsub => ?_⟩
        rcases last n hn hsub with h | ⟨n', _, rfl, h, _⟩ <;> omega
      · have g3 := (g2 hjk).2
        refine ⟨k, h1, ?_, fun n hn hsub => ?_⟩
        · show ((after env (bs ++ [.submit (.event e)])).vec .kels id.toStr).getD [] = _
          rw [g3]; exact h2
        · rcases last n hn hsub with h | ⟨n', e', rfl, h, he', ha⟩
          · exact h
          · cases ha
            obtain ⟨s, hl⟩ := P.log
            have q1 := (hl.facts hid).2.2 j e hje
            have q2 := (hl.facts hid).2.2 n' e he'
            omega
    · refine ⟨k, h1, by rw [other_kel env bs a id hid hs]; exact h2, fun n hn hsub => ?_⟩
      rcases last n hn hsub with h | ⟨n', e', rfl, h, he', ha⟩
      · exact h
      · subst ha
        exact absurd (submitsFor_log P (List.mem_of_getElem? he')) hs

theorem portable (env : Env) (as : List Action) (id : IdentifierPrefix) (hid : id.toStr ≠ [])
    (hr : Readable ((after env as).kel id)) (hnd : ∀ e ∈ (after env as).kel id, e.data.isDelegated = false)
    (hsig : ∀ i, i < ((after env as).kel id).length → SignedInForce env ((after env as).kel id) i) :
    Portable env id ((after env as).kel id) := ⟨after_log env as id hid, hr, hnd, hsig⟩

/-! ## C71 -/

/-- C71: a processor that is given events of one log (readable, not delegated, signed), in any order, any number of times, mixed with
any other traffic, always has a beginning of that log: no order of arrival can make it diverge … -/
theorem C71_copy_is_prefix (env : Env) (as : List Action) (id : IdentifierPrefix) (hid : id.toStr ≠ [])
    (hr : Readable ((after env as).kel id)) (hnd : ∀ e ∈ (after env as).kel id, e.data.isDelegated = false)
    (hsig : ∀ i, i < ((after env as).kel id).length → SignedInForce env ((after env as).kel id) i)
    (bs : List Action) (h : OnlyFrom ((after env as).kel id) id bs) :
    (after env bs).kel id <+: (after env as).kel id := by
  obtain ⟨k, _, h2, _⟩ := sync_history hid (portable env as id hid hr hnd hsig) bs h
  rw [h2]
  exact List.take_prefix _ _

/-- … and once the events of the log have arrived one after the other (possibly with repetitions and anything else in between), it has the whole log
and computes the same state. -/
theorem C71_copy_is_complete (env : Env) (as : List Action) (id : IdentifierPrefix) (hid : id.toStr ≠ [])
    (hr : Readable ((after env as).kel id)) (hnd : ∀ e ∈ (after env as).kel id, e.data.isDelegated = false)
    (hsig : ∀ i, i < ((after env as).kel id).length → SignedInForce env ((after env as).kel id) i)
    (bs : List Action) (h : OnlyFrom ((after env as).kel id) id bs) (hall : (replay ((after env as).kel id)).Sublist bs) :
    (after env bs).kel id = (after env as).kel id ∧
    ((after env as).kel id ≠ [] → (computeState sled env id (after env bs)).1 = (computeState sled env id (after env as)).1) := by
  obtain ⟨k, h1, h2, h3⟩ := sync_history hid (portable env as id hid hr hnd hsig) bs h
  have hk := h3 _ (Nat.le_refl _) (by rw [List.take_length]; exact hall)
  have e1 : (after env bs).kel id = (after env as).kel id := by rw [h2, List.take_of_length_le hk]
  refine ⟨e1, fun hne => ?_⟩
  rw [computeState_spec env _ (after_inv env _), computeState_spec env _ (after_inv env _), vec_of_kel hne,
    vec_of_kel (by rw [e1]; exact hne), e1]

/-- C71: what each arrival does: the next event of the log is accepted and appended; every other event of the log, earlier or later, is refused with an error and
changes nothing in the database. -/
theorem C71_arrival (env : Env) (as : List Action) (id : IdentifierPrefix) (hid : id.toStr ≠ [])
    (hr : Readable ((after env as).kel id)) (hnd : ∀ e ∈ (after env as).kel id, e.data.isDelegated = false)
    (hsig : ∀ i, i < ((after env as).kel id).length → SignedInForce env ((after env as).kel id) i)
    (bs : List Action) (h : OnlyFrom ((after env as).kel id) id bs) (j : Nat) (e : SignedEvent) (he : ((after env as).kel id)[j]? = some e) :
    (j = ((after env bs).kel id).length →
      (∃ st, (process sled env (.event e) (after env bs)).1 = .ok (some st) ∧ stateAfter env (((after env as).kel id).take (j + 1)) = .ok st) ∧
      (after env (bs ++ [.submit (.event e)])).kel id = (after env bs).kel id ++ [e]) ∧
    (j ≠ ((after env bs).kel id).length →
      (∃ er, (process sled env (.event e) (after env bs)).1 = .err er) ∧
      ∀ t x, (after env (bs ++ [.submit (.event e)])).vec t x = (after env bs).vec t x) := by
  have P := portable env as id hid hr hnd hsig
  obtain ⟨k, h1, h2, _⟩ := sync_history hid P bs h
  have hlen : ((after env bs).kel id).length = k := by rw [h2, List.length_take, Nat.min_eq_left h1]
  obtain ⟨g1, g2⟩ := sync_step hid P bs k h1 h2 j e he
  rw [hlen]
  refine ⟨fun hj => ?_, g2⟩
  obtain ⟨st, q1, q2, q3⟩ := g1 hj
  subst hj
  refine ⟨⟨st, q1, q2⟩, ?_⟩
  have hlt : j < ((after env as).kel id).length := (List.getElem?_eq_some_iff.1 he).1
  rw [q3, h2, List.take_succ_eq_append_getElem hlt, (List.getElem?_eq_some_iff.1 he).2]

/-- hypotheses met: the log of three events arrives in a bad order, with repetitions and other traffic; the copy is complete in the end, and a
beginning before -/
example : let bs := [Action.submit (.event Ex.rot), .submit (.event Ex.icp), .submit (.event Ex.ixn), .submit (.event Ex.icpFinal),
      .submit (.event Ex.rot), .submit (.event Ex.icp)]
    (after Ex.env bs).kel Ex.id = [Ex.icp, Ex.rot] ∧ (after Ex.env (bs ++ [.submit (.event Ex.ixn)])).kel Ex.id = (after Ex.env Ex.hist).kel Ex.id ∧
    (after Ex.env Ex.hist).kel Ex.id = [Ex.icp, Ex.rot, Ex.ixn] := by decide +kernel

/-- the hypothesis on the traffic is met there: the fourth event belongs to another identifier -/
example : OnlyFrom ((after Ex.env Ex.hist).kel Ex.id) Ex.id [Action.submit (.event Ex.rot), .submit (.event Ex.icp), .submit (.event Ex.ixn), .submit (.event Ex.icpFinal),
      .submit (.event Ex.rot), .submit (.event Ex.icp)] ∧ Ex.icpFinal.pre.toStr ≠ Ex.id.toStr := by
  have hk : (after Ex.env Ex.hist).kel Ex.id = [Ex.icp, Ex.rot, Ex.ixn] := by decide +kernel
  have hf : Ex.icpFinal.pre.toStr ≠ Ex.id.toStr := by decide +kernel
  refine ⟨?_, hf⟩
  intro a ha hs
  rw [hk]
  simp only [List.mem_cons, List.not_mem_nil, or_false] at ha
  rcases ha with rfl | rfl | rfl | rfl | rfl | rfl
  · exact ⟨_, by simp, rfl⟩
  · exact ⟨_, by simp, rfl⟩
  · exact ⟨_, by simp, rfl⟩
  · exact absurd hs hf
  · exact ⟨_, by simp, rfl⟩
  · exact ⟨_, by simp, rfl⟩

end Keriox
