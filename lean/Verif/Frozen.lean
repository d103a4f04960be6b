import Verif.KeriFacts
/-!
# Logs with an unchained event in them (helper lemmas for C52)
-/
namespace Keriox

theorem mem_insertBySn (x y : SignedEvent) (l : List SignedEvent) : y ∈ insertBySn x l ↔ y = x ∨ y ∈ l := by
  induction l with
  | nil => simp [insertBySn]
  | cons z l ih =>
    unfold insertBySn
    split
    · simp
    · simp only [List.mem_cons, ih]; grind

theorem mem_sortBySn (y : SignedEvent) (l : List SignedEvent) : y ∈ sortBySn l ↔ y ∈ l := by
  induction l with
  | nil => simp [sortBySn]
  | cons z l ih => simp [sortBySn, mem_insertBySn, ih]

theorem insertBySn_front (x : SignedEvent) (l : List SignedEvent) (h : ∀ y ∈ l, x.sn ≤ y.sn) : insertBySn x l = x :: l := by
  cases l with
  | nil => rfl
  | cons z l =>
    have := h z (by simp)
    unfold insertBySn
    rw [if_pos this]

theorem sortBySn_front (l r : List SignedEvent) (h : l.Pairwise fun a b => a.sn ≤ b.sn) (hr : ∀ a ∈ l, ∀ b ∈ r, a.sn ≤ b.sn) :
    sortBySn (l ++ r) = l ++ sortBySn r := by
  induction l with
  | nil => rfl
  | cons x l ih =>
    rw [List.pairwise_cons] at h
    simp only [List.cons_append, sortBySn]
    rw [ih h.2 (fun a ha => hr a (by simp [ha]))]
    refine insertBySn_front x _ ?_
    intro y hy
    rcases List.mem_append.1 hy with hy | hy
    · exact h.1 y hy
    · exact hr x (by simp) y ((mem_sortBySn y r).1 hy)

theorem foldState_append (env : Env) (s s' : IdState) (l r : List SignedEvent) (h : foldStrict env s l = .ok s') :
    foldState env s (l ++ r) = foldState env s' r := by
  induction l generalizing s with
  | nil => simp only [foldStrict, Res.ok.injEq] at h; subst h; rfl
  | cons e l ih =>
    simp only [List.cons_append, foldState, SignedEvent.applyTo]
    simp only [foldStrict] at h
    cases h1 : e.msg.applyTo env s with
    | err x => rw [h1] at h; cases h
    | panic => rw [h1] at h; cases h
    | ok s1 => rw [h1] at h; exact ih s1 h

/-- a log whose event after the state `s` does not apply to it, and stops every later reading -/
structure Frozen (env : Env) (x : Bytes) (s : IdState) (log : List SignedEvent) : Prop where
  ex : ∃ l bad rest, log = l ++ bad :: rest ∧ Log env x l s ∧ l ≠ [] ∧ bad.sn = s.sn + 1 ∧
    (∃ t, bad.msg.applyTo env s = .err (.semantic t)) ∧ ∀ e ∈ rest, s.sn + 1 ≤ e.sn

theorem Frozen.fold {env : Env} {x : Bytes} {s : IdState} {log : List SignedEvent} (hx : x ≠ []) (h : Frozen env x s log) :
    foldState env IdState.default (sortBySn log) = .ok s := by
  obtain ⟨l, bad, rest, rfl, hl, hne, hsn, ⟨t, hbad⟩, hrest⟩ := h.ex
  have hlen := ((hl.facts hx).2.1 hne).2.2.1
  have hidx : ∀ a ∈ l, a.sn ≤ s.sn := by
    intro a ha
    obtain ⟨i, hi, rfl⟩ := List.mem_iff_getElem.1 ha
    have := hl.sn_eq hx (List.getElem?_eq_getElem hi)
    omega
  rw [sortBySn_front l (bad :: rest)]
  · rw [foldState_append env _ s l _ hl.fold]
    have : sortBySn (bad :: rest) = bad :: sortBySn rest := by
      refine insertBySn_front bad _ fun y hy => ?_
      have := hrest y ((mem_sortBySn y rest).1 hy)
      omega
    rw [this]
    simp only [foldState, SignedEvent.applyTo]
    rw [hbad]
  · exact List.pairwise_map.1 (pairwise_of_index l fun _ _ he => hl.sn_eq hx he)
  · intro a ha b hb
    have h1 := hidx a ha
    rcases List.mem_cons.1 hb with rfl | hb
    · omega
    · have := hrest b hb; omega


/-- storing and checking an event, on the log of its identifier -/
theorem store_log (env : Env) (e : SignedEvent) (new : IdState) (a : MapDb) (hr : (a.log e.pre.toStr).all SignedEvent.rt = true) :
    (storeAndVerify mapOps env e new a).2.log e.pre.toStr = a.log e.pre.toStr ++ [e.stored] ∨
    (storeAndVerify mapOps env e new a).2.log e.pre.toStr = (a.log e.pre.toStr ++ [e.stored]).filter (fun x => !x.same e.stored) := by
  have hp : Tbl.kels.pushed (a.tables .kels e.pre.toStr) e.stored = a.log e.pre.toStr ++ [e.stored] := by
    rw [pushed_kels]
    unfold MapDb.log at hr ⊢
    cases h : a.tables .kels e.pre.toStr with
    | none => rfl
    | some l => rw [h] at hr; simp only [Option.getD_some] at hr ⊢; rw [if_pos hr]
  let a1 := (a.touch e.pre.toStr).set .kels e.pre.toStr (some (a.log e.pre.toStr ++ [e.stored]))
  have h1 : addKel mapOps e e.pre a = (.ok (), a1) := by
    simp only [addKel, mapOps, hp, a1]
  have ha1 : a1.tables .kels e.pre.toStr = some (a.log e.pre.toStr ++ [e.stored]) := MapDb.set_same _ _ _ _
  have hl1 : a1.log e.pre.toStr = a.log e.pre.toStr ++ [e.stored] := by unfold MapDb.log at *; rw [ha1]; rfl
  cases hs : e.msg.serialize env with
  | err er =>
    have : storeAndVerify mapOps env e new a = (.err er, a1) :=
      StM.bind_ok h1 (StM.bind_err (congrArg (·, a1) hs))
    rw [this]; exact .inl hl1
  | panic =>
    have : storeAndVerify mapOps env e new a = (.panic, a1) :=
      StM.bind_ok h1 (StM.bind_panic (congrArg (·, a1) hs))
    rw [this]; exact .inl hl1
  | ok bytes =>
    rcases verifyOutcome_cases env new bytes e.sigs with ⟨h2, h3⟩ | ⟨er, h2, h3, h4⟩ | ⟨h2, h3⟩
    · have : storeAndVerify mapOps env e new a = (.ok (some new), a1) :=
        StM.bind_ok h1 (StM.bind_ok (congrArg (·, a1) hs) (StM.bind_ok (StM.result_ok (congrArg (·, a1) h2)) rfl))
      rw [this]; exact .inl hl1
    · have hnd : er ≠ .eventDuplicate := fun h => verifyOutcome_not_duplicate env new bytes e.sigs (h ▸ h2)
      let a2 := (a1.touch e.pre.toStr).set .kels e.pre.toStr (Tbl.kels.removed (a1.tables .kels e.pre.toStr) e.stored)
      have hdup : noteDup mapOps e er a1 = (.ok (), a1) := by simp only [noteDup, if_neg hnd]; rfl
      have hrem : removeKel mapOps e.pre e a1 = (.ok (), a2) := rfl
      have : storeAndVerify mapOps env e new a = (.err er, a2) :=
        StM.bind_ok h1 (StM.bind_ok (congrArg (·, a1) hs) (StM.bind_ok (StM.result_err (congrArg (·, a1) h2))
          (StM.bind_ok hdup (StM.bind_ok hrem rfl))))
      rw [this]
      have ht2 : a2.tables .kels e.pre.toStr = Tbl.kels.removed (some (a.log e.pre.toStr ++ [e.stored])) e.stored := by
        rw [← ha1]; exact MapDb.set_same _ _ _ _
      rw [removed_kels] at ht2
      by_cases hall : (a.log e.pre.toStr ++ [e.stored]).all SignedEvent.rt = true
      · rw [if_pos hall] at ht2
        refine .inr ?_
        conv => lhs; unfold MapDb.log
        rw [ht2]; rfl
      · rw [if_neg hall] at ht2
        refine .inl ?_
        conv => lhs; unfold MapDb.log
        rw [ht2]; rfl
    · have : storeAndVerify mapOps env e new a = (.panic, a1) :=
        StM.bind_ok h1 (StM.bind_ok (congrArg (·, a1) hs) (StM.bind_panic (StM.result_panic (congrArg (·, a1) h2))))
      rw [this]; exact .inl hl1

theorem Frozen.append {env : Env} {x : Bytes} {s : IdState} {log : List SignedEvent} (h : Frozen env x s log) {e : SignedEvent}
    (he : s.sn + 1 ≤ e.sn) : Frozen env x s (log ++ [e]) := by
  obtain ⟨l, bad, rest, rfl, h1, h2, h3, h4, h5⟩ := h.ex
  refine ⟨l, bad, rest ++ [e], by simp, h1, h2, h3, h4, fun y hy => ?_⟩
  rcases List.mem_append.1 hy with hy | hy
  · exact h5 y hy
  · rw [List.mem_singleton] at hy; subst hy; exact he

theorem Frozen.filter {env : Env} {x : Bytes} {s new : IdState} {log : List SignedEvent} (hx : x ≠ []) (h : Frozen env x s log) {e : SignedEvent}
    (he : e.sn = s.sn + 1) (ha : e.msg.applyTo env s = .ok new) :
    Frozen env x s ((log ++ [e.stored]).filter fun y => !y.same e.stored) := by
  obtain ⟨l, bad, rest, rfl, h1, h2, h3, ⟨t, h4⟩, h5⟩ := h.ex
  have hlen := ((h1.facts hx).2.1 h2).2.2.1
  refine ⟨l, bad, (rest ++ [e.stored]).filter fun y => !y.same e.stored, ?_, h1, h2, h3, ⟨t, h4⟩, fun y hy => ?_⟩
  · have hl : l.filter (fun y => !y.same e.stored) = l := by
      rw [List.filter_eq_self]
      intro y hy
      obtain ⟨i, hi, rfl⟩ := List.mem_iff_getElem.1 hy
      have hsn := h1.sn_eq hx (List.getElem?_eq_getElem hi)
      cases hsame : (l[i]).same e.stored with
      | false => rfl
      | true =>
        exfalso
        simp only [SignedEvent.same, SignedEvent.stored, Bool.and_eq_true] at hsame
        have : (l[i]).sn = e.sn := by rw [SignedEvent.sn, of_decide_eq_true hsame.1]
        omega
    have hb : bad.same e.stored = false := by
      cases hsame : bad.same e.stored with
      | false => rfl
      | true =>
        exfalso
        simp only [SignedEvent.same, SignedEvent.stored, Bool.and_eq_true] at hsame
        rw [of_decide_eq_true hsame.1, ha] at h4
        cases h4
    rw [show l ++ bad :: rest ++ [e.stored] = l ++ bad :: (rest ++ [e.stored]) by simp, List.filter_append, hl, List.filter_cons, hb]
    rfl
  · rcases List.mem_append.1 (List.mem_filter.1 hy).1 with hy | hy
    · exact h5 y hy
    · rw [List.mem_singleton] at hy; subst hy; show _ ≤ e.sn; omega

theorem Frozen.nonempty {env : Env} {x : Bytes} {s : IdState} {log : List SignedEvent} (h : Frozen env x s log) : log ≠ [] := by
  obtain ⟨l, bad, rest, rfl, _⟩ := h.ex; simp

theorem Frozen.table {env : Env} {x : Bytes} {s : IdState} {a : MapDb} (h : Frozen env x s (a.log x)) : a.tables .kels x = some (a.log x) := by
  have := h.nonempty
  unfold MapDb.log at *
  cases hv : a.tables .kels x with
  | none => rw [hv] at this; exact absurd rfl this
  | some l => rfl

/-- the state read from such a log -/
theorem Frozen.compute {env : Env} {s : IdState} {a : MapDb} {id : IdentifierPrefix} (hx : id.toStr ≠ [])
    (h : Frozen env id.toStr s (a.log id.toStr)) :
    computeState mapOps env id a = (if (a.log id.toStr).all SignedEvent.rt then .ok (some s) else .panic, a.touch id.toStr) := by
  rw [computeState_run, h.table]
  dsimp only
  rw [h.fold hx]

theorem Frozen.event {env : Env} {s : IdState} {a : MapDb} {e : SignedEvent} (hx : e.pre.toStr ≠ [])
    (h : Frozen env e.pre.toStr s (a.log e.pre.toStr)) : Frozen env e.pre.toStr s ((processEvent mapOps env e a).2.log e.pre.toStr) := by
  have hro := checkDelegation_ro env e a
  rcases hc : checkDelegation mapOps env e a with ⟨rc, ac⟩
  rw [hc] at hro
  have hlog : ac.log e.pre.toStr = a.log e.pre.toStr := MapDb.log_congr hro _
  cases rc with
  | err x => rw [show processEvent mapOps env e a = (.err x, ac) from StM.bind_err hc, hlog]; exact h
  | panic => rw [show processEvent mapOps env e a = (.panic, ac) from StM.bind_panic hc, hlog]; exact h
  | ok u =>
    have hcomp := Frozen.compute (a := ac) (id := e.msg.event.content.prefix) hx (by rw [hlog]; exact h)
    have hl2 : (ac.touch e.pre.toStr).log e.pre.toStr = a.log e.pre.toStr := by
      rw [← hlog]; exact MapDb.log_congr (MapDb.touch_tables _ _) _
    by_cases hr : (a.log e.pre.toStr).all SignedEvent.rt = true
    · rw [hlog, if_pos hr] at hcomp
      cases hap : e.msg.applyTo env s with
      | err x =>
        have : processEvent mapOps env e a = (.err x, ac.touch e.pre.toStr) :=
          StM.bind_ok hc (StM.bind_err (StM.bind_ok hcomp (congrArg (·, ac.touch e.pre.toStr) hap)))
        rw [this, hl2]; exact h
      | panic =>
        have : processEvent mapOps env e a = (.panic, ac.touch e.pre.toStr) :=
          StM.bind_ok hc (StM.bind_panic (StM.bind_ok hcomp (congrArg (·, ac.touch e.pre.toStr) hap)))
        rw [this, hl2]; exact h
      | ok new =>
        have hrun : processEvent mapOps env e a = storeAndVerify mapOps env e new (ac.touch e.pre.toStr) :=
          StM.bind_ok hc (StM.bind_ok (StM.bind_ok hcomp (congrArg (·, ac.touch e.pre.toStr) hap)) rfl)
        rw [hrun]
        have A := applyTo_ok hap
        have hsn : e.sn = s.sn + 1 := by
          cases hi : e.data.isInception with
          | false => exact A.nextSn hi
          | true =>
            obtain ⟨l, bad, rest, _, h1, h2, _⟩ := h.ex
            exact absurd (A.incPre hi) ((h1.facts hx).2.1 h2).1
        rcases store_log env e new (ac.touch e.pre.toStr) (by rw [hl2]; exact hr) with h1 | h1
        · rw [h1, hl2]; exact h.append (by show _ ≤ e.sn; omega)
        · rw [h1, hl2]; exact h.filter hx hsn hap
    · rw [hlog, if_neg hr] at hcomp
      have : processEvent mapOps env e a = (.panic, ac.touch e.pre.toStr) :=
        StM.bind_ok hc (StM.bind_panic (StM.bind_panic hcomp))
      rw [this, hl2]; exact h

/-- nothing that is submitted changes that -/
theorem Frozen.action {env : Env} {s : IdState} {a : MapDb} {x : Bytes} (hx : x ≠ []) (h : Frozen env x s (a.log x)) (act : Action) :
    Frozen env x s ((act.run mapOps env a).log x) := by
  have frame : ∀ b : MapDb, b.tables .kels x = a.tables .kels x → Frozen env x s (b.log x) := fun b hb => by
    have : b.log x = a.log x := by unfold MapDb.log; rw [hb]
    rw [this]; exact h
  cases act with
  | reprocess => exact frame _ (congrFun (escrow_writes env a .kels (by simp)) x)
  | lookup t id => exact frame _ (by rw [Action.run, ReadOnly.read t id a])
  | submit m =>
    cases m with
    | rctNt r => exact frame _ (witnessReceipt_writes env r a .kels x (.inr (by simp)))
    | rctT r => exact frame _ (validatorReceipt_writes env r a .kels x (.inr (by simp)))
    | reply r => exact frame _ (signedReply_writes env r a .kels x (.inr (by simp)))
    | query q => exact frame _ rfl
    | event e =>
      by_cases hp : e.pre.toStr = x
      · subst hp; exact Frozen.event hx h
      · exact frame _ (processEvent_writes env e a .kels x (.inl (Ne.symm hp)))

end Keriox
