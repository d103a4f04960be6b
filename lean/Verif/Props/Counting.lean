import Verif.Props.Interact

/-! C86: how long a log is, counted from outside; why sequence numbers never overflow. -/

namespace Keriox

/-- the action submits an event of this identifier -/
def Action.isFor (id : IdentifierPrefix) : Action → Bool
  | .submit (.event e) => decide (e.pre.toStr = id.toStr)
  | _ => false

/-- the action submits an event of the identifier and the call returns `Ok` -/
def Action.acceptedIn (env : Env) (db : Db) (id : IdentifierPrefix) : Action → Bool
  | .submit (.event e) =>
    decide (e.pre.toStr = id.toStr) && (match (process sled env (.event e) db).1 with | .ok _ => true | _ => false)
  | _ => false

/-- the action at position `i` of the history submits an event of the identifier and the call returns `Ok` -/
def acceptedAt (env : Env) (as : List Action) (id : IdentifierPrefix) (i : Nat) : Bool :=
  match as[i]? with
  | some a => a.acceptedIn env (after env (as.take i)) id
  | none => false

/-- how many submissions of events of the identifier returned `Ok` -/
def acceptedCount (env : Env) (as : List Action) (id : IdentifierPrefix) : Nat := (List.range as.length).countP (acceptedAt env as id)

theorem acceptedAt_old (env : Env) (as : List Action) (a : Action) (id : IdentifierPrefix) {i : Nat} (h : i < as.length) :
    acceptedAt env (as ++ [a]) id i = acceptedAt env as id i := by
  unfold acceptedAt
  rw [List.getElem?_append_left h, List.take_append_of_le_length (Nat.le_of_lt h)]

theorem acceptedCount_snoc (env : Env) (as : List Action) (a : Action) (id : IdentifierPrefix) :
    acceptedCount env (as ++ [a]) id = acceptedCount env as id + (if acceptedAt env (as ++ [a]) id as.length then 1 else 0) := by
  unfold acceptedCount
  rw [List.length_append, List.length_singleton, List.range_succ, List.countP_append, List.countP_singleton]
  congr 1
  refine List.countP_congr fun i hi => ?_
  rw [acceptedAt_old env as a id (List.mem_range.1 hi)]

theorem acceptedAt_last (env : Env) (as : List Action) (a : Action) (id : IdentifierPrefix) :
    acceptedAt env (as ++ [a]) id as.length = a.acceptedIn env (after env as) id := by
  unfold acceptedAt
  rw [List.getElem?_append_right (Nat.le_refl _), Nat.sub_self, List.getElem?_cons_zero, List.take_left]

theorem acceptedIn_notFor {env : Env} {db : Db} {id : IdentifierPrefix} {a : Action} (h : a.isFor id = false) : a.acceptedIn env db id = false := by
  unfold Action.isFor at h
  unfold Action.acceptedIn
  split at h
  · simp [of_decide_eq_false h]
  · rfl

theorem acceptedIn_iff {env : Env} {db : Db} {id : IdentifierPrefix} {e : SignedEvent} (h : e.pre.toStr = id.toStr) :
    (Action.submit (.event e)).acceptedIn env db id = true ↔ ∃ o, (process sled env (.event e) db).1 = .ok o := by
  unfold Action.acceptedIn
  rw [Bool.and_eq_true, decide_eq_true h]
  cases hr : (process sled env (.event e) db).1 <;> simp

/-- one submission: the log grows by at most one, by one if the call returns `Ok`, and not at all if it returns an error of a clean event -/
theorem submit_length (env : Env) (as : List Action) (e : SignedEvent) (hid : e.pre.toStr ≠ []) :
    ((after env as).kel e.pre).length ≤ ((after env (as ++ [.submit (.event e)])).kel e.pre).length ∧
    ((after env (as ++ [.submit (.event e)])).kel e.pre).length ≤ ((after env as).kel e.pre).length + 1 ∧
    ((∃ o, (process sled env (.event e) (after env as)).1 = .ok o) →
      ((after env (as ++ [.submit (.event e)])).kel e.pre).length = ((after env as).kel e.pre).length + 1) ∧
    ((∃ er, (process sled env (.event e) (after env as)).1 = .err er) → e.rt = true → (∃ b, e.msg.serialize env = .ok b) →
      ((after env (as ++ [.submit (.event e)])).kel e.pre).length = ((after env as).kel e.pre).length) := by
  obtain ⟨s, hl, ho⟩ := event_outcome env as e hid
  have hk : ∀ xs, (after env xs).kel e.pre = (after env xs).abs.log e.pre.toStr := fun _ => rfl
  rw [hk, hk]
  generalize (process sled env (.event e) (after env as)).1 = r at ho
  generalize (after env (as ++ [.submit (.event e)])).abs = a' at ho
  cases ho with
  | refused h ht _ =>
    rw [MapDb.log_congr ht]
    exact ⟨Nat.le_refl _, by omega, fun ⟨o, h'⟩ => absurd h' (h o), fun _ _ _ => rfl⟩
  | stored _ _ _ hst _ =>
    generalize a'.log e.pre.toStr = l' at hst
    cases hst with
    | accepted => simp
    | undone => exact ⟨Nat.le_refl _, by omega, (fun ⟨o, h'⟩ => by cases h'), fun _ _ _ => rfl⟩
    | unreadable b er _ _ _ h4 =>
      refine ⟨by simp, by simp, fun _ => by simp, fun _ h _ => ?_⟩
      rw [h4] at h; cases h
    | noBytesErr er h1 =>
      refine ⟨by simp, by simp, fun _ => by simp, fun _ _ ⟨b, h⟩ => ?_⟩
      rw [h1] at h; cases h
    | noBytesPanic => exact ⟨by simp, by simp, fun _ => by simp, fun ⟨er, h⟩ => by cases h⟩
    | panicked => exact ⟨by simp, by simp, fun _ => by simp, fun ⟨er, h⟩ => by cases h⟩

theorem isFor_iff (id : IdentifierPrefix) (a : Action) : a.isFor id = true ↔ a.submitsFor id := by
  cases a with
  | submit m => cases m <;> simp [Action.isFor, Action.submitsFor]
  | reprocess => simp [Action.isFor, Action.submitsFor]
  | lookup t x => simp [Action.isFor, Action.submitsFor]

theorem isFor_inv {id : IdentifierPrefix} {a : Action} (h : a.isFor id = true) : ∃ e, a = .submit (.event e) ∧ e.pre.toStr = id.toStr := by
  unfold Action.isFor at h
  split at h
  · exact ⟨_, rfl, of_decide_eq_true h⟩
  · cases h

/-- C86: counted from outside, the log of an identifier is at least as long as the number of its events whose submission returned `Ok` and at most as long as
the number of its events that were submitted at all. -/
theorem C86_length (env : Env) (as : List Action) (id : IdentifierPrefix) (hid : id.toStr ≠ []) :
    acceptedCount env as id ≤ ((after env as).kel id).length ∧ ((after env as).kel id).length ≤ as.countP (Action.isFor id) := by
  induction as using snoc_induction with
  | h0 => exact ⟨Nat.zero_le _, Nat.zero_le _⟩
  | h1 as a ih =>
    rw [acceptedCount_snoc, List.countP_append, List.countP_singleton, acceptedAt_last]
    cases hf : a.isFor id with
    | false =>
      rw [other_kel env as a id hid (fun h => by rw [(isFor_iff id a).2 h] at hf; cases hf)]
      refine ⟨?_, by simp only [Bool.false_eq_true, if_false]; exact ih.2⟩
      rw [acceptedIn_notFor hf]
      exact ih.1
    | true =>
      obtain ⟨e, rfl, he⟩ := isFor_inv hf
      have hk : ∀ xs, (after env xs).kel id = (after env xs).kel e.pre := fun xs => by rw [kel_eq, kel_eq, he]
      obtain ⟨h1, h2, h3, _⟩ := submit_length env as e (by rw [he]; exact hid)
      rw [hk] at ih ⊢
      simp only [if_true]
      refine ⟨?_, by omega⟩
      split
      · rename_i hx
        have := h3 ((acceptedIn_iff he).1 hx)
        omega
      · omega

/-- C86: if all submitted events of the identifier can be written and read back and no submission of them panics, the log is exactly as long as the number of its
events whose submission returned `Ok`. -/
theorem C86_exact (env : Env) (as : List Action) (id : IdentifierPrefix) (hid : id.toStr ≠ [])
    (hc : ∀ bs e cs, as = bs ++ .submit (.event e) :: cs → e.pre.toStr = id.toStr →
      e.rt = true ∧ (∃ b, e.msg.serialize env = .ok b) ∧ (process sled env (.event e) (after env bs)).1 ≠ .panic) :
    ((after env as).kel id).length = acceptedCount env as id := by
  induction as using snoc_induction with
  | h0 => rfl
  | h1 as a ih =>
    have ih := ih (fun bs e cs h => hc bs e (cs ++ [a]) (by rw [h]; simp))
    have hlast : ∀ e, a = .submit (.event e) → _ := fun e h => hc as e [] (by rw [h])
    rw [acceptedCount_snoc, acceptedAt_last]
    cases hf : a.isFor id with
    | false =>
      rw [other_kel env as a id hid (fun h => by rw [(isFor_iff id a).2 h] at hf; cases hf)]
      rw [acceptedIn_notFor hf, ih]
      rfl
    | true =>
      obtain ⟨e, rfl, he⟩ := isFor_inv hf
      have hk : ∀ xs, (after env xs).kel id = (after env xs).kel e.pre := fun xs => by rw [kel_eq, kel_eq, he]
      obtain ⟨_, _, h3, h4⟩ := submit_length env as e (by rw [he]; exact hid)
      obtain ⟨g1, g2, g3⟩ := hlast e rfl he
      rw [hk] at ih ⊢
      rw [← ih]
      cases hr : (process sled env (.event e) (after env as)).1 with
      | ok o => rw [h3 ⟨o, hr⟩, (acceptedIn_iff he).2 ⟨o, hr⟩]; rfl
      | err x =>
        rw [h4 ⟨x, hr⟩ g1 g2, if_neg]
        · rfl
        · rw [acceptedIn_iff he, hr]; simp
      | panic => exact absurd hr g3

/-- C86: the sequence number of a state is below the number of events submitted for the identifier. -/
theorem C86_sn_bound (env : Env) (as : List Action) (id : IdentifierPrefix) (hid : id.toStr ≠ []) (s : IdState)
    (h : stateAfter env ((after env as).kel id) = .ok s) :
    s.sn + 1 ≤ as.countP (Action.isFor id) ∨ (s.sn = 0 ∧ (after env as).kel id = []) := by
  obtain ⟨s', hl⟩ := after_log env as id hid
  have : s' = s := Res.ok.inj (hl.stateAfter.symm.trans h)
  subst this
  by_cases hne : (after env as).kel id = []
  · right
    rw [(hl.facts hid).1 hne]
    exact ⟨rfl, hne⟩
  · left
    rw [((hl.facts hid).2.1 hne).2.2.1]
    exact (C86_length env as id hid).2

/-- `state.sn + 1` on `u64`, event/mod.rs:76-79: at the largest number a debug build panics and a release build wraps to 0 -/
def succ64 (wrap : Bool) (n : Nat) : Res Nat :=
  if n + 1 ≤ u64max then .ok (n + 1) else if wrap then .ok 0 else .panic

/-- `Event::apply_to`, `/repo/src/event/mod.rs:59-90`, with the addition done on machine words; the second addition repeats the first -/
def Event.applyTo64 (wrap : Bool) (env : Env) (e : Event) (s : IdState) : Res IdState :=
  match e.data with
  | .icp _ | .dip _ =>
    if s.prefix ≠ IdentifierPrefix.default then .err .eventDuplicate
    else if e.sn ≠ 0 then .err (.semantic "SN is not correct")
    else e.data.applyTo env { s with sn := e.sn, «prefix» := e.prefix }
  | _ =>
    if e.prefix ≠ s.prefix then .err (.semantic "Prefix does not match")
    else do
      let n ← succ64 wrap s.sn
      if e.sn < n then .err .eventDuplicate
      else if n < e.sn then .err .eventOutOfOrder
      else e.data.applyTo env { s with sn := e.sn, «prefix» := e.prefix }

/-- C86: as long as fewer than 2^64 events were submitted for an identifier, in either build the machine arithmetic of applying an event to its state
gives what unbounded arithmetic gives: the addition never overflows. -/
theorem C86_no_overflow (wrap : Bool) (env : Env) (as : List Action) (id : IdentifierPrefix) (hid : id.toStr ≠ [])
    (hn : as.countP (Action.isFor id) < 2 ^ 64) (s : IdState) (h : stateAfter env ((after env as).kel id) = .ok s) (e : Event) :
    succ64 wrap s.sn = .ok (s.sn + 1) ∧ e.applyTo64 wrap env s = e.applyTo env s := by
  have hs : s.sn + 1 ≤ u64max := by
    rcases C86_sn_bound env as id hid s h with h1 | ⟨h1, _⟩
    · unfold u64max; omega
    · rw [h1]; decide
  have h1 : succ64 wrap s.sn = .ok (s.sn + 1) := by unfold succ64; rw [if_pos hs]
  refine ⟨h1, ?_⟩
  unfold Event.applyTo64 Event.applyTo
  rw [h1]
  rfl

/-- C86: the bound is needed: on a state at the largest sequence number a release build takes an interaction with sequence number 0, a debug build panics. -/
theorem C86_fails_beyond (env : Env) (s : IdState) (hs : s.sn = u64max) (i : InteractionEvent) :
    (∃ new, (Event.mk s.prefix 0 (.ixn i)).applyTo64 true env s = .ok new ∧ new.sn = 0) ∧
    (Event.mk s.prefix 0 (.ixn i)).applyTo64 false env s = .panic := by
  have h : ¬ u64max + 1 ≤ u64max := by omega
  constructor
  · refine ⟨{ s with sn := 0 }, ?_, rfl⟩
    unfold Event.applyTo64 succ64
    simp only [hs, if_neg h, ne_eq, not_true, if_false, if_true, Res.ok_bind, Nat.lt_irrefl]
    rfl
  · unfold Event.applyTo64 succ64
    simp only [hs, if_neg h, ne_eq, not_true, if_false, Bool.false_eq_true]
    rfl

/-- a history with refused and repeated submissions: five events submitted, three accepted -/
example : acceptedCount Ex.env (Ex.hist ++ [Action.submit (Message.event Ex.rot), Action.submit (Message.event Ex.forgedIxn)]) Ex.id = 3 ∧
    (Ex.hist ++ [Action.submit (Message.event Ex.rot), Action.submit (Message.event Ex.forgedIxn)]).countP (Action.isFor Ex.id) = 5 := by
  decide +kernel

/-- the hypotheses of `C86_exact` are met -/
example : ((after Ex.env Ex.hist).kel Ex.id).length = acceptedCount Ex.env Ex.hist Ex.id := by
  refine C86_exact _ _ _ (by decide +kernel) ?_
  intro bs e cs h he
  rcases bs with _ | ⟨a, _ | ⟨b, _ | ⟨c, bs⟩⟩⟩
  · simp only [Ex.hist, List.nil_append, List.cons.injEq, Action.submit.injEq, Message.event.injEq] at h
    obtain ⟨rfl, _⟩ := h
    exact ⟨by decide +kernel, ⟨_, json_serialize _ _ (by decide +kernel)⟩, by decide +kernel⟩
  · simp only [Ex.hist, List.nil_append, List.cons_append, List.cons.injEq, Action.submit.injEq, Message.event.injEq] at h
    obtain ⟨rfl, rfl, _⟩ := h
    exact ⟨by decide +kernel, ⟨_, json_serialize _ _ (by decide +kernel)⟩, by decide +kernel⟩
  · simp only [Ex.hist, List.nil_append, List.cons_append, List.cons.injEq, Action.submit.injEq, Message.event.injEq] at h
    obtain ⟨rfl, rfl, rfl, _⟩ := h
    exact ⟨by decide +kernel, ⟨_, json_serialize _ _ (by decide +kernel)⟩, by decide +kernel⟩
  · simp [Ex.hist] at h

end Keriox
