import Verif.KelInv
/-!
# One call of `process_event` on the log of its identifier (helper lemmas)
-/
namespace Keriox

theorem StM.bind_run {σ α β : Type} (x : StM σ α) (f : α → StM σ β) (s : σ) :
    (x >>= f) s = match x s with
      | (.ok a, s') => f a s'
      | (.err e, s') => (.err e, s')
      | (.panic, s') => (.panic, s') := rfl

namespace StM
variable {σ α β : Type} {x : StM σ α} {s s' : σ}
theorem bind_ok {f : α → StM σ β} {a : α} {r} (h : x s = (.ok a, s')) (hf : f a s' = r) : (x >>= f) s = r := by
  rw [bind_run, h]; exact hf
theorem bind_err {f : α → StM σ β} {e : Error} (h : x s = (.err e, s')) : (x >>= f) s = (.err e, s') := by rw [bind_run, h]
theorem bind_panic {f : α → StM σ β} (h : x s = (.panic, s')) : (x >>= f) s = (.panic, s') := by rw [bind_run, h]
theorem result_ok {a : α} (h : x s = (.ok a, s')) : x.result s = (.ok (.ok a), s') := by unfold result; rw [h]
theorem result_err {e : Error} (h : x s = (.err e, s')) : x.result s = (.ok (.error e), s') := by unfold result; rw [h]
theorem result_panic (h : x s = (.panic, s')) : x.result s = (.panic, s') := by unfold result; rw [h]
end StM

/-- the log stored for a text in the specification database -/
def MapDb.log (a : MapDb) (x : Bytes) : List SignedEvent := (a.tables .kels x).getD []

/-- every stored log with a non-empty text was built by successful applications -/
def MapDb.Good (env : Env) (a : MapDb) : Prop :=
  ∀ x, x ≠ [] → ∃ s, Log env x (a.log x) s

theorem MapDb.empty_good (env : Env) : MapDb.empty.Good env := fun _ _ => ⟨_, Log.nil⟩

theorem readable_iff (l : List SignedEvent) : l.all SignedEvent.rt = true ↔ Readable l := by
  simp [Readable, List.all_eq_true]

/-- `compute_state` on a readable log -/
theorem computeState_run (env : Env) (id : IdentifierPrefix) (a : MapDb) :
    computeState mapOps env id a = (match a.tables .kels id.toStr with
      | none => .ok none
      | some l => if l.all SignedEvent.rt then
          (match foldState env IdState.default (sortBySn l) with
            | .ok s => .ok (some s)
            | .err e => .err e
            | .panic => .panic)
        else .panic, a.touch id.toStr) := by
  unfold computeState getKel
  rw [StM.bind_run]
  simp only [mapOps, iterValues_kels]
  cases h : a.tables .kels id.toStr with
  | none => rfl
  | some l =>
    dsimp only
    cases hr : l.all SignedEvent.rt
    · rfl
    · simp only [if_true]
      rw [StM.bind_run]
      unfold StM.lift
      cases foldState env IdState.default (sortBySn l) <;> rfl

theorem applyToState_run (env : Env) (m : EventMessage) (a : MapDb) (x : Bytes) (hx : m.event.content.prefix.toStr = x)
    (hne : x ≠ []) {s : IdState} (hl : Log env x (a.log x) s) :
    applyToState mapOps env m a =
      (if (a.log x).all SignedEvent.rt then m.applyTo env s else .panic, a.touch x) := by
  unfold applyToState
  rw [StM.bind_run, computeState_run, hx]
  unfold MapDb.log at hl ⊢
  cases h : a.tables .kels x with
  | none =>
    rw [h] at hl
    have := (hl.facts hne).1 rfl
    subst this
    simp [StM.lift]
  | some l =>
    rw [h] at hl
    dsimp only [Option.getD_some] at hl ⊢
    by_cases hr : l.all SignedEvent.rt = true
    · rw [if_pos hr, if_pos hr, hl.foldState hne]
      simp [StM.lift]
    · rw [if_neg hr, if_neg hr]

/-- the two ways signature checking can end -/
theorem verifyOutcome_cases (env : Env) (new : IdState) (bytes : Bytes) (sigs : List AttachedSignaturePrefix) :
    (verifyOutcome env new bytes sigs = .ok new ∧ new.current.verify env bytes sigs = .ok true) ∨
    (∃ e, verifyOutcome env new bytes sigs = .err e ∧ new.current.verify env bytes sigs ≠ .ok true ∧
      new.current.verify env bytes sigs ≠ .panic) ∨
    (verifyOutcome env new bytes sigs = .panic ∧ new.current.verify env bytes sigs = .panic) := by
  unfold verifyOutcome
  cases h : new.current.verify env bytes sigs with
  | ok b => cases b <;> simp
  | err e => simp
  | panic => simp

theorem rt_stored (e : SignedEvent) : e.stored.rt = e.rt := rfl

/-- How a call ended for the log of its identifier, given that it reached the storing step. -/
inductive Stored (env : Env) (e : SignedEvent) (l : List SignedEvent) (new : IdState) :
    Res (Option IdState) → List SignedEvent → Prop
  | accepted (bytes) : e.msg.serialize env = .ok bytes → new.current.verify env bytes e.sigs = .ok true →
      Stored env e l new (.ok (some new)) (l ++ [e.stored])
  | undone (bytes er) : e.msg.serialize env = .ok bytes → new.current.verify env bytes e.sigs ≠ .ok true →
      new.current.verify env bytes e.sigs ≠ .panic → e.rt = true →
      verifyOutcome env new bytes e.sigs = .err er → Stored env e l new (.err er) l
  | unreadable (bytes er) : e.msg.serialize env = .ok bytes → new.current.verify env bytes e.sigs ≠ .ok true →
      new.current.verify env bytes e.sigs ≠ .panic → e.rt = false →
      verifyOutcome env new bytes e.sigs = .err er → Stored env e l new (.err er) (l ++ [e.stored])
  | noBytesErr (er) : e.msg.serialize env = .err er → Stored env e l new (.err er) (l ++ [e.stored])
  | noBytesPanic : e.msg.serialize env = .panic → Stored env e l new .panic (l ++ [e.stored])
  | panicked (bytes) : e.msg.serialize env = .ok bytes → new.current.verify env bytes e.sigs = .panic →
      Stored env e l new .panic (l ++ [e.stored])

theorem verifySigs_err {env : Env} {keys : List BasicPrefix} {msg : Bytes} {sigs : List AttachedSignaturePrefix}
    {acc : Res Bool} (h : acc ≠ .err .eventDuplicate) : KeyConfig.verifySigs env keys msg sigs acc ≠ .err .eventDuplicate := by
  induction sigs generalizing acc with
  | nil => exact h
  | cons s ss ih =>
    refine ih ?_
    unfold KeyConfig.sigStep
    split
    · split
      · simp
      · rename_i k _
        obtain ⟨kd, kk⟩ := k
        obtain ⟨i, sd, sg⟩ := s
        cases kd <;> cases sd <;> simp [BasicPrefix.verify]
    · exact h

theorem countIdx_noerr (counts : List Nat) (sigs : List AttachedSignaturePrefix) (e : Error) :
    KeyConfig.countIdx counts sigs ≠ .err e := by
  induction sigs generalizing counts with
  | nil => simp [KeyConfig.countIdx]
  | cons s ss ih => unfold KeyConfig.countIdx; split; simp; exact ih _

theorem clauseSum_noerr (c : List Frac) (st : Nat) (sigs : List AttachedSignaturePrefix) (acc : Frac) (e : Error) :
    Threshold.clauseSum c st sigs acc ≠ .err e := by
  induction sigs generalizing acc with
  | nil => simp [Threshold.clauseSum]
  | cons s ss ih => unfold Threshold.clauseSum; split; simp; exact ih _

theorem clauseEnough_noerr (c : List Frac) (st : Nat) (sigs : List AttachedSignaturePrefix) (e : Error) :
    Threshold.clauseEnough c st sigs ≠ .err e := by
  unfold Threshold.clauseEnough
  have := clauseSum_noerr c st sigs Frac.zero
  cases h : Threshold.clauseSum c st sigs Frac.zero <;> simp_all

theorem multiEnough_noerr (sigs : List AttachedSignaturePrefix) (cs : List (List Frac)) (st : Nat) (b : Bool) (e : Error) :
    Threshold.multiEnough sigs cs st b ≠ .err e := by
  induction cs generalizing st b with
  | nil => simp [Threshold.multiEnough]
  | cons c cs ih =>
    unfold Threshold.multiEnough
    dsimp only
    split
    · have := clauseEnough_noerr c st (sigs.filter fun s => st ≤ s.index && s.index < st + c.length)
      cases h : Threshold.clauseEnough c st (sigs.filter fun s => st ≤ s.index && s.index < st + c.length) with
      | ok b => simpa using ih _ _
      | err e => exact absurd h (this e)
      | panic => simp
    · exact ih _ _

theorem enough_noerr (t : Threshold) (sigs : List AttachedSignaturePrefix) (e : Error) : t.enough sigs ≠ .err e := by
  cases t
  · simp [Threshold.enough]
  · exact clauseEnough_noerr _ _ _ _
  · exact multiEnough_noerr _ _ _ _ _

/-- signature checking never reports a duplicate event -/
theorem verify_not_duplicate (env : Env) (kc : KeyConfig) (m : Bytes) (sigs : List AttachedSignaturePrefix) :
    kc.verify env m sigs ≠ .err .eventDuplicate := by
  unfold KeyConfig.verify
  cases h : kc.threshold.enough sigs with
  | err e => exact absurd h (enough_noerr _ _ _)
  | panic => simp
  | ok b =>
    cases b
    · simp
    · simp only [Res.ok_bind, Bool.not_true, Bool.false_eq_true, if_false]
      unfold KeyConfig.validSet
      split
      · cases hc : KeyConfig.countIdx (List.replicate kc.publicKeys.length 0) sigs with
        | err e => exact absurd hc (countIdx_noerr _ _ _)
        | panic => simp
        | ok c =>
          simp only [Res.ok_bind]
          split
          · exact verifySigs_err (by simp)
          · simp
      · simp

theorem verifyOutcome_not_duplicate (env : Env) (new : IdState) (m : Bytes) (sigs : List AttachedSignaturePrefix) :
    verifyOutcome env new m sigs ≠ .err .eventDuplicate := by
  have := verify_not_duplicate env new.current m sigs
  unfold verifyOutcome
  cases h : new.current.verify env m sigs with
  | ok b => cases b <;> simp
  | err e => rw [h] at this; simpa using this
  | panic => simp

/-- storing and checking, on the log of the identifier -/
theorem storeAndVerify_run (env : Env) (e : SignedEvent) (new : IdState) (a : MapDb)
    (hr : (a.log e.pre.toStr).all SignedEvent.rt = true) (hd : ∀ x ∈ a.log e.pre.toStr, x.sn ≠ e.sn) :
    Stored env e (a.log e.pre.toStr) new (storeAndVerify mapOps env e new a).1
      ((storeAndVerify mapOps env e new a).2.log e.pre.toStr) ∧
    ∀ t y, (t ≠ .kels ∨ y ≠ e.pre.toStr) → (storeAndVerify mapOps env e new a).2.tables t y = a.tables t y := by
  have hp : Tbl.kels.pushed (a.tables .kels e.pre.toStr) e.stored = a.log e.pre.toStr ++ [e.stored] := by
    rw [pushed_kels]
    unfold MapDb.log at hr ⊢
    cases h : a.tables .kels e.pre.toStr with
    | none => rfl
    | some l => rw [h] at hr; simp only [Option.getD_some] at hr ⊢; rw [if_pos hr]
  let a1 := (a.touch e.pre.toStr).set .kels e.pre.toStr (some (a.log e.pre.toStr ++ [e.stored]))
  have h1 : addKel mapOps e e.pre a = (.ok (), a1) := by
    simp only [addKel, mapOps, hp, a1]
  have ha1 : a1.tables .kels e.pre.toStr = some (a.log e.pre.toStr ++ [e.stored]) := MapDb.set_same _ _ _ _
  have hl1 : a1.log e.pre.toStr = a.log e.pre.toStr ++ [e.stored] := by unfold MapDb.log at *; rw [ha1]; rfl
  have hf1 : ∀ t y, (t ≠ .kels ∨ y ≠ e.pre.toStr) → a1.tables t y = a.tables t y := by
    intro t y h
    rw [show a1 = _ from rfl, Writes.set_frame _ _ _ _ _ _ h.symm]
    simp
  cases hs : e.msg.serialize env with
  | err er =>
    have : storeAndVerify mapOps env e new a = (.err er, a1) :=
      StM.bind_ok h1 (StM.bind_err (congrArg (·, a1) hs))
    rw [this]; exact ⟨by rw [hl1]; exact .noBytesErr er hs, hf1⟩
  | panic =>
    have : storeAndVerify mapOps env e new a = (.panic, a1) :=
      StM.bind_ok h1 (StM.bind_panic (congrArg (·, a1) hs))
    rw [this]; exact ⟨by rw [hl1]; exact .noBytesPanic hs, hf1⟩
  | ok bytes =>
    rcases verifyOutcome_cases env new bytes e.sigs with ⟨h2, h3⟩ | ⟨er, h2, h3, h4⟩ | ⟨h2, h3⟩
    · have : storeAndVerify mapOps env e new a = (.ok (some new), a1) :=
        StM.bind_ok h1 (StM.bind_ok (congrArg (·, a1) hs) (StM.bind_ok (StM.result_ok (congrArg (·, a1) h2)) rfl))
      rw [this]; exact ⟨by rw [hl1]; exact .accepted bytes hs h3, hf1⟩
    · have hnd : er ≠ .eventDuplicate := fun h => verifyOutcome_not_duplicate env new bytes e.sigs (h ▸ h2)
      let a2 := (a1.touch e.pre.toStr).set .kels e.pre.toStr (Tbl.kels.removed (a1.tables .kels e.pre.toStr) e.stored)
      have hdup : noteDup mapOps e er a1 = (.ok (), a1) := by simp only [noteDup, if_neg hnd]; rfl
      have hrem : removeKel mapOps e.pre e a1 = (.ok (), a2) := rfl
      have : storeAndVerify mapOps env e new a = (.err er, a2) :=
        StM.bind_ok h1 (StM.bind_ok (congrArg (·, a1) hs) (StM.bind_ok (StM.result_err (congrArg (·, a1) h2))
          (StM.bind_ok hdup (StM.bind_ok hrem rfl))))
      rw [this]
      have hf2 : ∀ t y, (t ≠ .kels ∨ y ≠ e.pre.toStr) → a2.tables t y = a.tables t y := by
        intro t y h
        rw [show a2 = _ from rfl, Writes.set_frame _ _ _ _ _ _ h.symm, MapDb.touch_tables, hf1 t y h]
      have ht2 : a2.tables .kels e.pre.toStr = Tbl.kels.removed (some (a.log e.pre.toStr ++ [e.stored])) e.stored := by
        rw [← ha1]; exact MapDb.set_same _ _ _ _
      refine ⟨?_, hf2⟩
      rw [removed_kels] at ht2
      have hall : (a.log e.pre.toStr ++ [e.stored]).all SignedEvent.rt = e.rt := by
        rw [List.all_append, hr]; simp [rt_stored]
      cases hrt : e.rt with
      | true =>
        rw [hall, hrt, if_pos rfl] at ht2
        have : a2.log e.pre.toStr = a.log e.pre.toStr := by
          conv => lhs; unfold MapDb.log
          rw [ht2]
          simp only [Option.getD_some, List.filter_append]
          have h5 : (a.log e.pre.toStr).filter (fun x => !x.same e.stored) = a.log e.pre.toStr := by
            rw [List.filter_eq_self]
            intro x hx
            have := hd x hx
            cases hsame : x.same e.stored with
            | false => rfl
            | true =>
              exfalso
              apply this
              simp only [SignedEvent.same, SignedEvent.stored, Bool.and_eq_true] at hsame
              rw [SignedEvent.sn, of_decide_eq_true hsame.1]
          rw [h5]
          simp [SignedEvent.same]
        rw [this]
        exact .undone bytes er hs h3 h4 hrt h2
      | false =>
        rw [hall, hrt] at ht2
        have : a2.log e.pre.toStr = a.log e.pre.toStr ++ [e.stored] := by
          conv => lhs; unfold MapDb.log
          rw [ht2]; rfl
        rw [this]
        exact .unreadable bytes er hs h3 h4 hrt h2
    · have : storeAndVerify mapOps env e new a = (.panic, a1) :=
        StM.bind_ok h1 (StM.bind_ok (congrArg (·, a1) hs) (StM.bind_panic (StM.result_panic (congrArg (·, a1) h2))))
      rw [this]; exact ⟨by rw [hl1]; exact .panicked bytes hs h3, hf1⟩

/-- reading does not change logs -/
theorem MapDb.log_congr {a b : MapDb} (h : a.tables = b.tables) (x : Bytes) : a.log x = b.log x := by
  unfold MapDb.log; rw [h]

/-- How `process_event` ends. -/
inductive Outcome (env : Env) (a : MapDb) (e : SignedEvent) (s : IdState) : Res (Option IdState) → MapDb → Prop
  /-- refused before anything is stored -/
  | refused {r a'} : (∀ o, r ≠ .ok o) → a'.tables = a.tables →
      ((∃ er, (checkDelegation mapOps env e a).1 = .err er ∧ r = .err er) ∨
       ((checkDelegation mapOps env e a).1 = .panic ∧ r = .panic) ∨
       ((checkDelegation mapOps env e a).1 = .ok () ∧
        ((¬ Readable (a.log e.pre.toStr) ∧ r = .panic) ∨
         (Readable (a.log e.pre.toStr) ∧ ∃ er, e.msg.applyTo env s = .err er ∧ r = .err er) ∨
         (Readable (a.log e.pre.toStr) ∧ e.msg.applyTo env s = .panic ∧ r = .panic)))) → Outcome env a e s r a'
  /-- stored, then checked -/
  | stored {r a' new} : (checkDelegation mapOps env e a).1 = .ok () → Readable (a.log e.pre.toStr) →
      e.msg.applyTo env s = .ok new → Stored env e (a.log e.pre.toStr) new r (a'.log e.pre.toStr) →
      (∀ t y, (t ≠ .kels ∨ y ≠ e.pre.toStr) → a'.tables t y = a.tables t y) → Outcome env a e s r a'

theorem processEvent_outcome (env : Env) (e : SignedEvent) (a : MapDb) (hne : e.pre.toStr ≠ []) {s : IdState}
    (hl : Log env e.pre.toStr (a.log e.pre.toStr) s) :
    Outcome env a e s (processEvent mapOps env e a).1 (processEvent mapOps env e a).2 := by
  have hro := checkDelegation_ro env e a
  rcases hc : checkDelegation mapOps env e a with ⟨rc, ac⟩
  rw [hc] at hro
  cases rc with
  | err er =>
    have : processEvent mapOps env e a = (.err er, ac) := StM.bind_err hc
    rw [this]; exact .refused (by simp) hro (.inl ⟨er, by rw [hc], rfl⟩)
  | panic =>
    have : processEvent mapOps env e a = (.panic, ac) := StM.bind_panic hc
    rw [this]; exact .refused (by simp) hro (.inr (.inl ⟨by rw [hc], rfl⟩))
  | ok u =>
    have hlog := MapDb.log_congr hro
    have hl' : Log env e.pre.toStr (ac.log e.pre.toStr) s := by rw [hlog]; exact hl
    have ha := applyToState_run env e.msg ac e.pre.toStr rfl hne hl'
    rw [hlog] at ha
    have hcd : (checkDelegation mapOps env e a).1 = .ok () := by rw [hc]
    have htt : (ac.touch e.pre.toStr).tables = a.tables := by rw [MapDb.touch_tables]; exact hro
    by_cases hr : (a.log e.pre.toStr).all SignedEvent.rt = true
    · rw [if_pos hr] at ha
      have hrd := (readable_iff _).1 hr
      cases hap : e.msg.applyTo env s with
      | err er =>
        rw [hap] at ha
        have : processEvent mapOps env e a = (.err er, ac.touch e.pre.toStr) := StM.bind_ok hc (StM.bind_err ha)
        rw [this]
        exact .refused (by simp) htt (.inr (.inr ⟨hcd, .inr (.inl ⟨hrd, er, hap, rfl⟩)⟩))
      | panic =>
        rw [hap] at ha
        have : processEvent mapOps env e a = (.panic, ac.touch e.pre.toStr) := StM.bind_ok hc (StM.bind_panic ha)
        rw [this]
        exact .refused (by simp) htt (.inr (.inr ⟨hcd, .inr (.inr ⟨hrd, hap, rfl⟩)⟩))
      | ok new =>
        rw [hap] at ha
        have hrun : processEvent mapOps env e a = storeAndVerify mapOps env e new (ac.touch e.pre.toStr) :=
          StM.bind_ok hc (StM.bind_ok ha rfl)
        have hlog2 := MapDb.log_congr htt e.pre.toStr
        have hsn : ∀ x ∈ a.log e.pre.toStr, x.sn ≠ e.sn := by
          intro x hx
          have A := applyTo_ok hap
          have L := Log.facts hne (Log.snoc (e := e.stored) hl rfl rfl hap)
          have h1 := L.2.2 (a.log e.pre.toStr).length e.stored (by simp)
          obtain ⟨i, hi, hxi⟩ := List.mem_iff_getElem.1 hx
          have h2 := L.2.2 i x (by rw [List.getElem?_append_left hi, List.getElem?_eq_getElem hi, hxi])
          have h3 : e.stored.sn = e.sn := rfl
          omega
        have := storeAndVerify_run env e new (ac.touch e.pre.toStr) (by rw [hlog2]; exact hr) (by rw [hlog2]; exact hsn)
        rw [hlog2] at this
        rw [hrun]
        refine .stored hcd hrd hap this.1 fun t y h => ?_
        rw [this.2 t y h, htt]
    · rw [if_neg hr] at ha
      have : processEvent mapOps env e a = (.panic, ac.touch e.pre.toStr) := StM.bind_ok hc (StM.bind_panic ha)
      rw [this]
      exact .refused (by simp) htt (.inr (.inr ⟨hcd, .inl ⟨fun h => hr ((readable_iff _).2 h), rfl⟩⟩))

/-- the log after a call that stored the event -/
theorem Stored.log_cases {env : Env} {e : SignedEvent} {l l' : List SignedEvent} {new : IdState} {r}
    (h : Stored env e l new r l') : l' = l ∨ l' = l ++ [e.stored] := by
  cases h <;> simp

/-- the effect of `process_event` on the log of its identifier -/
theorem processEvent_log (env : Env) (e : SignedEvent) (a : MapDb) (hne : e.pre.toStr ≠ []) {s : IdState}
    (hl : Log env e.pre.toStr (a.log e.pre.toStr) s) :
    (processEvent mapOps env e a).2.log e.pre.toStr = a.log e.pre.toStr ∨
    ((processEvent mapOps env e a).2.log e.pre.toStr = a.log e.pre.toStr ++ [e.stored] ∧ ∃ new, e.msg.applyTo env s = .ok new) := by
  have h := processEvent_outcome env e a hne hl
  revert h
  generalize (processEvent mapOps env e a).1 = r
  generalize (processEvent mapOps env e a).2 = a'
  intro h
  cases h with
  | refused _ ht _ => exact .inl (MapDb.log_congr ht _)
  | stored _ _ hap hst _ =>
    rcases hst.log_cases with h | h
    · exact .inl h
    · exact .inr ⟨h, _, hap⟩

/-- one action keeps all logs well built, and appends at most one event to one log -/
theorem action_log (env : Env) (act : Action) (a : MapDb) (hg : a.Good env) (x : Bytes) (hx : x ≠ []) :
    (act.run mapOps env a).log x = a.log x ∨
    ∃ e s new, act = .submit (.event e) ∧ e.pre.toStr = x ∧ Log env x (a.log x) s ∧ e.msg.applyTo env s = .ok new ∧
      (act.run mapOps env a).log x = a.log x ++ [e.stored] := by
  have frame : ∀ b : MapDb, b.tables .kels x = a.tables .kels x → b.log x = a.log x := fun b h => by
    unfold MapDb.log; rw [h]
  cases act with
  | reprocess =>
    exact .inl (frame _ (congrFun (escrow_writes env a .kels (by simp)) x))
  | lookup t id => exact .inl (frame _ (by rw [Action.run, ReadOnly.read t id a]))
  | submit m =>
    cases m with
    | rctNt r => exact .inl (frame _ (witnessReceipt_writes env r a .kels x (.inr (by simp))))
    | rctT r => exact .inl (frame _ (validatorReceipt_writes env r a .kels x (.inr (by simp))))
    | reply r => exact .inl (frame _ (signedReply_writes env r a .kels x (.inr (by simp))))
    | query q => exact .inl rfl
    | event e =>
      by_cases hp : e.pre.toStr = x
      · obtain ⟨s, hs⟩ := hg x hx
        subst hp
        rcases processEvent_log env e a hx hs with h | ⟨h, new, hn⟩
        · exact .inl h
        · exact .inr ⟨e, s, new, rfl, rfl, hs, hn, h⟩
      · exact .inl (frame _ (processEvent_writes env e a .kels x (.inl (Ne.symm hp))))

theorem action_good (env : Env) (act : Action) (a : MapDb) (hg : a.Good env) : (act.run mapOps env a).Good env := by
  intro x hx
  rcases action_log env act a hg x hx with h | ⟨e, s, new, _, hp, hs, hn, h⟩
  · rw [h]; exact hg x hx
  · rw [h]; exact ⟨new, Log.snoc hs hp rfl hn⟩

theorem history_good (env : Env) (as : List Action) (a : MapDb) (hg : a.Good env) : (runHistory mapOps env a as).Good env := by
  induction as generalizing a with
  | nil => exact hg
  | cons x xs ih => exact ih _ (action_good env x a hg)

end Keriox
