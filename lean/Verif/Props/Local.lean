import Verif.Props.Counting
import Verif.Props.Deleg
import Verif.Props.Builder
/-!
# C101: what the acceptance of an event depends on
-/
namespace Keriox

/-! ## Specification -/

/-- two outcomes a caller cannot tell apart except by the text of an error: the same value, or both an error, or both a panic -/
def Res.Alike {α : Type} : Res α → Res α → Prop
  | .ok x, .ok y => x = y
  | .err _, .err _ => True
  | .panic, .panic => True
  | _, _ => False

/-- the delegator whose log decides about `e`, when `l` is the log of the identifier of `e`: named by the event itself (delegated
inception) or by a delegated inception in the log (delegated rotation); plain events have none -/
def consults (l : List SignedEvent) (e : SignedEvent) (d : IdentifierPrefix) : Prop :=
  match e.data with
  | .dip x => d = x.delegator
  | .drt _ => ∃ f ∈ l, f.data.delegator? = some d
  | _ => False

/-- the action is the submission of a key event -/
def Action.isEvent : Action → Bool
  | .submit (.event _) => true
  | _ => false

/-- the action is the submission of a delegated inception or rotation -/
def Action.isDelegated : Action → Bool
  | .submit (.event e) => match e.data with
    | .dip _ => true
    | .drt _ => true
    | _ => false
  | _ => false

/-! ## Proof -/

namespace Res
theorem Alike.refl {α : Type} (r : Res α) : Alike r r := by cases r <;> simp [Alike]
theorem Alike.of_eq {α : Type} {r r' : Res α} (h : r = r') : Alike r r' := h ▸ Alike.refl r
theorem Alike.symm {α : Type} {r r' : Res α} (h : Alike r r') : Alike r' r := by
  cases r <;> cases r' <;> simp_all [Alike]
theorem Alike.ok_iff {α : Type} {r r' : Res α} (h : Alike r r') (x : α) : r = .ok x ↔ r' = .ok x := by
  cases r <;> cases r' <;> simp_all [Alike]
theorem Alike.panic_iff {α : Type} {r r' : Res α} (h : Alike r r') : r = .panic ↔ r' = .panic := by
  cases r <;> cases r' <;> simp_all [Alike]
end Res

/-- `get_event_at_sn` sees only the log -/
theorem getEventAtSn_local (id : IdentifierPrefix) (sn : Nat) (a : MapDb) :
    (getEventAtSn mapOps id sn a).1 =
      if (a.log id.toStr).all SignedEvent.rt then .ok ((a.log id.toStr).find? fun e => e.sn = sn) else .panic := by
  unfold getEventAtSn getKel
  rw [StM.bind_run]
  simp only [mapOps, iterValues_kels]
  unfold MapDb.log
  cases h : a.tables .kels id.toStr with
  | none => rfl
  | some l =>
    dsimp only [Option.getD_some]
    by_cases hr : l.all SignedEvent.rt = true
    · rw [if_pos hr, if_pos hr]; rfl
    · rw [if_neg hr, if_neg hr]

theorem result_fst {σ α : Type} (x : StM σ α) (a : σ) :
    (x.result a).1 = match (x a).1 with | .ok v => .ok (.ok v) | .err e => .ok (.error e) | .panic => .panic := by
  unfold StM.result
  rcases x a with ⟨r, s⟩
  cases r <;> rfl

theorem validateSeal_local (env : Env) (sl : EventSeal) (m : EventMessage) {a b : MapDb}
    (h : a.log sl.prefix.toStr = b.log sl.prefix.toStr) :
    (validateSeal mapOps env sl m a).1 = (validateSeal mapOps env sl m b).1 := by
  have hg : ((getEventAtSn mapOps sl.prefix sl.sn).result a).1 = ((getEventAtSn mapOps sl.prefix sl.sn).result b).1 := by
    rw [result_fst, result_fst, getEventAtSn_local, getEventAtSn_local, h]
  unfold validateSeal
  rw [StM.bind_run, StM.bind_run]
  rcases ha : (getEventAtSn mapOps sl.prefix sl.sn).result a with ⟨r, a'⟩
  rcases hb : (getEventAtSn mapOps sl.prefix sl.sn).result b with ⟨r', b'⟩
  rw [ha, hb] at hg
  dsimp only at hg
  subst hg
  cases r with
  | err e => rfl
  | panic => rfl
  | ok x =>
    dsimp only
    cases x with
    | error e => rfl
    | ok o =>
      cases o with
      | none => rfl
      | some e =>
        dsimp only
        cases e.data.anchors? with
        | none => rfl
        | some data =>
          dsimp only
          rw [StM.bind_run, StM.bind_run]
          unfold StM.lift
          cases anySealMatches env m data with
          | ok v => cases v <;> rfl
          | err e => rfl
          | panic => rfl

/-- a delegator in a folded state comes from the starting state or from a delegated inception among the events -/
theorem foldState_delegator {env : Env} {l : List SignedEvent} {s s' : IdState} (h : foldState env s l = .ok s') {d : IdentifierPrefix}
    (hd : s'.delegator = some d) : s.delegator = some d ∨ ∃ f ∈ l, f.data.delegator? = some d := by
  induction l generalizing s with
  | nil => simp only [foldState, Res.ok.injEq] at h; subst h; exact .inl hd
  | cons e es ih =>
    have keep : ∀ {t : IdState}, foldState env t es = .ok s' → t.delegator = s.delegator →
        s.delegator = some d ∨ ∃ f ∈ e :: es, f.data.delegator? = some d := by
      intro t ht hts
      rcases ih ht with h1 | ⟨f, hf, h2⟩
      · exact .inl (hts ▸ h1)
      · exact .inr ⟨f, List.mem_cons_of_mem _ hf, h2⟩
    simp only [foldState] at h
    cases ha : e.applyTo env s with
    | panic => rw [ha] at h; cases h
    | err x =>
      rw [ha] at h
      cases x <;> first
        | exact keep h rfl
        | (simp only [Res.ok.injEq] at h; subst h; exact .inl hd)
    | ok t =>
      rw [ha] at h
      have A := applyTo_ok ha
      rcases ih h with h1 | ⟨f, hf, h2⟩
      · rw [A.delegator] at h1
        cases hdat : e.data with
        | dip x => exact .inr ⟨e, List.mem_cons_self, by rw [hdat] at h1 ⊢; simpa [EventData.delegator?] using h1⟩
        | icp x => rw [hdat] at h1; exact .inl h1
        | rot x => rw [hdat] at h1; exact .inl h1
        | ixn x => rw [hdat] at h1; exact .inl h1
        | drt x => rw [hdat] at h1; exact .inl h1
      · exact .inr ⟨f, List.mem_cons_of_mem _ hf, h2⟩

/-- `compute_state` sees only the log, up to the difference between an absent and an empty one -/
theorem computeState_local (env : Env) (id : IdentifierPrefix) {a b : MapDb} (h : a.log id.toStr = b.log id.toStr) :
    (computeState mapOps env id a).1 = (computeState mapOps env id b).1 ∨
    a.log id.toStr = [] ∧ (∀ r, r = (computeState mapOps env id a).1 ∨ r = (computeState mapOps env id b).1 →
      r = .ok none ∨ r = .ok (some IdState.default)) := by
  have run := computeState_run env id
  unfold MapDb.log at h ⊢
  rw [run a, run b]
  cases ha : a.tables .kels id.toStr with
  | none =>
    rw [ha] at h
    cases hb : b.tables .kels id.toStr with
    | none => exact .inl rfl
    | some l =>
      rw [hb] at h
      have : l = [] := h.symm
      subst this
      refine .inr ⟨rfl, fun r hr => ?_⟩
      rcases hr with rfl | rfl
      · exact .inl rfl
      · exact .inr rfl
  | some l =>
    rw [ha] at h
    cases hb : b.tables .kels id.toStr with
    | none =>
      rw [hb] at h
      have : l = [] := h
      subst this
      refine .inr ⟨rfl, fun r hr => ?_⟩
      rcases hr with rfl | rfl
      · exact .inr rfl
      · exact .inl rfl
    | some l' =>
      rw [hb] at h
      have : l = l' := h
      subst this
      exact .inl rfl

theorem computeState_delegator {env : Env} {id : IdentifierPrefix} {a : MapDb} {st : IdState} {d : IdentifierPrefix}
    (h : (computeState mapOps env id a).1 = .ok (some st)) (hd : st.delegator = some d) :
    ∃ f ∈ a.log id.toStr, f.data.delegator? = some d := by
  rw [computeState_run] at h
  unfold MapDb.log
  cases ha : a.tables .kels id.toStr with
  | none => rw [ha] at h; cases h
  | some l =>
    rw [ha] at h
    dsimp only at h
    by_cases hr : l.all SignedEvent.rt = true
    · rw [if_pos hr] at h
      cases hf : foldState env IdState.default (sortBySn l) with
      | ok s =>
        rw [hf] at h
        simp only [Res.ok.injEq, Option.some.injEq] at h
        subst h
        rcases foldState_delegator hf hd with h1 | ⟨f, h1, h2⟩
        · cases h1
        · exact ⟨f, (mem_sortBySn _ _).1 h1, h2⟩
      | err e => rw [hf] at h; cases h
      | panic => rw [hf] at h; cases h
    · rw [if_neg hr] at h; cases h

/-- the first component of a composition -/
theorem bind_alike {α β : Type} {x y : StM MapDb α} {f g : α → StM MapDb β} {a b : MapDb}
    (h : (x a).1.Alike (y b).1) (hf : ∀ v, (x a).1 = .ok v → (f v (x a).2 |>.1).Alike (g v (y b).2).1) :
    ((x >>= f) a).1.Alike ((y >>= g) b).1 := by
  rw [StM.bind_run, StM.bind_run]
  rcases hx : x a with ⟨r, a'⟩
  rcases hy : y b with ⟨r', b'⟩
  rw [hx, hy] at h hf
  cases r <;> cases r' <;> simp only [Res.Alike] at h ⊢
  · subst h; exact hf _ rfl

theorem checkDelegation_local (env : Env) (e : SignedEvent) {a b : MapDb} (h : a.log e.pre.toStr = b.log e.pre.toStr)
    (hd : ∀ d, consults (a.log e.pre.toStr) e d → a.log d.toStr = b.log d.toStr) :
    (checkDelegation mapOps env e a).1.Alike (checkDelegation mapOps env e b).1 := by
  unfold checkDelegation
  unfold consults at hd
  cases hdat : e.data with
  | icp x => exact .refl _
  | rot x => exact .refl _
  | ixn x => exact .refl _
  | dip x =>
    rw [hdat] at hd
    dsimp only at hd ⊢
    cases e.delegatorSeal with
    | none => exact .refl _
    | some s => exact .of_eq (validateSeal_local env _ _ (hd _ rfl))
  | drt x =>
    rw [hdat] at hd
    dsimp only at hd ⊢
    have ra := computeState_ro env e.pre a
    have rb := computeState_ro env e.pre b
    rw [StM.bind_run, StM.bind_run]
    rcases hx : computeState mapOps env e.pre a with ⟨r, a'⟩
    rcases hy : computeState mapOps env e.pre b with ⟨r', b'⟩
    rw [hx] at ra
    rw [hy] at rb
    have hcd := @computeState_delegator env e.pre a
    rcases computeState_local env e.pre h with he | ⟨_, he⟩
    · rw [hx, hy] at he
      dsimp only at he
      subst he
      cases r with
      | err er => exact .refl _
      | panic => exact .refl _
      | ok o =>
        dsimp only
        cases o with
        | none => exact .refl _
        | some st =>
          dsimp only
          cases hdel : st.delegator with
          | none => exact .refl _
          | some d =>
            dsimp only
            cases e.delegatorSeal with
            | none => exact .refl _
            | some s =>
              refine .of_eq (validateSeal_local env _ _ ?_)
              show a'.log d.toStr = b'.log d.toStr
              rw [MapDb.log_congr ra, MapDb.log_congr rb]
              exact hd d (hcd (by rw [hx]) hdel)
    · rw [hx, hy] at he
      have h1 := he r (.inl rfl)
      have h2 := he r' (.inr rfl)
      rcases h1 with rfl | rfl <;> rcases h2 with rfl | rfl <;> simp [Res.Alike, StM.fail, StM.lift, IdState.default]

theorem applyToState_local (env : Env) (m : EventMessage) {a b : MapDb}
    (h : a.log m.event.content.prefix.toStr = b.log m.event.content.prefix.toStr) :
    (applyToState mapOps env m a).1 = (applyToState mapOps env m b).1 := by
  unfold applyToState
  rw [StM.bind_run, StM.bind_run]
  rcases hx : computeState mapOps env m.event.content.prefix a with ⟨r, a'⟩
  rcases hy : computeState mapOps env m.event.content.prefix b with ⟨r', b'⟩
  rcases computeState_local env m.event.content.prefix h with he | ⟨_, he⟩
  · rw [hx, hy] at he
    dsimp only at he
    subst he
    cases r <;> rfl
  · rw [hx, hy] at he
    rcases he r (.inl rfl) with rfl | rfl <;> rcases he r' (.inr rfl) with rfl | rfl <;> rfl

theorem storeAndVerify_local (env : Env) (e : SignedEvent) (new : IdState) {a b : MapDb} (h : a.log e.pre.toStr = b.log e.pre.toStr) :
    (storeAndVerify mapOps env e new a).1 = (storeAndVerify mapOps env e new b).1 ∧
    (storeAndVerify mapOps env e new a).2.log e.pre.toStr = (storeAndVerify mapOps env e new b).2.log e.pre.toStr := by
  have hp : Tbl.kels.pushed (a.tables .kels e.pre.toStr) e.stored = Tbl.kels.pushed (b.tables .kels e.pre.toStr) e.stored := by
    rw [pushed_kels, pushed_kels]
    unfold MapDb.log at h
    cases ha : a.tables .kels e.pre.toStr with
    | none =>
      rw [ha] at h
      cases hb : b.tables .kels e.pre.toStr with
      | none => rfl
      | some l => rw [hb] at h; have : l = [] := h.symm; subst this; rfl
    | some l =>
      rw [ha] at h
      cases hb : b.tables .kels e.pre.toStr with
      | none => rw [hb] at h; have : l = [] := h; subst this; rfl
      | some l' => rw [hb] at h; have : l = l' := h; subst this; rfl
  have key : ∀ c : MapDb, ∃ r, ∃ o : List SignedEvent → List SignedEvent, ∀ c : MapDb,
      Tbl.kels.pushed (c.tables .kels e.pre.toStr) e.stored = Tbl.kels.pushed (a.tables .kels e.pre.toStr) e.stored →
      (storeAndVerify mapOps env e new c).1 = r ∧
      (storeAndVerify mapOps env e new c).2.log e.pre.toStr = o (Tbl.kels.pushed (a.tables .kels e.pre.toStr) e.stored) := by
    intro _
    let P : List SignedEvent := Tbl.kels.pushed (a.tables .kels e.pre.toStr) e.stored
    let W : MapDb → MapDb := fun c => (c.touch e.pre.toStr).set .kels e.pre.toStr (some (Tbl.kels.pushed (c.tables .kels e.pre.toStr) e.stored))
    have h1 : ∀ c, addKel mapOps e e.pre c = (.ok (), W c) := fun c => rfl
    have hW : ∀ c, Tbl.kels.pushed (c.tables .kels e.pre.toStr) e.stored = P → (W c).tables .kels e.pre.toStr = some P := by
      intro c hc; rw [← hc]; exact MapDb.set_same _ _ _ _
    have hl : ∀ c, Tbl.kels.pushed (c.tables .kels e.pre.toStr) e.stored = P → (W c).log e.pre.toStr = P := by
      intro c hc; unfold MapDb.log; rw [hW c hc]; rfl
    cases hs : e.msg.serialize env with
    | err er =>
      refine ⟨.err er, fun l => l, fun c hc => ?_⟩
      have : storeAndVerify mapOps env e new c = (.err er, W c) := StM.bind_ok (h1 c) (StM.bind_err (congrArg (·, W c) hs))
      rw [this]; exact ⟨rfl, hl c hc⟩
    | panic =>
      refine ⟨.panic, fun l => l, fun c hc => ?_⟩
      have : storeAndVerify mapOps env e new c = (.panic, W c) := StM.bind_ok (h1 c) (StM.bind_panic (congrArg (·, W c) hs))
      rw [this]; exact ⟨rfl, hl c hc⟩
    | ok bytes =>
      rcases verifyOutcome_cases env new bytes e.sigs with ⟨h2, _⟩ | ⟨er, h2, _, _⟩ | ⟨h2, _⟩
      · refine ⟨.ok (some new), fun l => l, fun c hc => ?_⟩
        have : storeAndVerify mapOps env e new c = (.ok (some new), W c) :=
          StM.bind_ok (h1 c) (StM.bind_ok (congrArg (·, W c) hs) (StM.bind_ok (StM.result_ok (congrArg (·, W c) h2)) rfl))
        rw [this]; exact ⟨rfl, hl c hc⟩
      · refine ⟨.err er, fun l => (Tbl.kels.removed (some l) e.stored).getD [], fun c hc => ?_⟩
        have hnd : er ≠ .eventDuplicate := fun h => verifyOutcome_not_duplicate env new bytes e.sigs (h ▸ h2)
        have hdup : noteDup mapOps e er (W c) = (.ok (), W c) := by simp only [noteDup, if_neg hnd]; rfl
        let V : MapDb := ((W c).touch e.pre.toStr).set .kels e.pre.toStr (Tbl.kels.removed ((W c).tables .kels e.pre.toStr) e.stored)
        have hrem : removeKel mapOps e.pre e (W c) = (.ok (), V) := rfl
        have : storeAndVerify mapOps env e new c = (.err er, V) :=
          StM.bind_ok (h1 c) (StM.bind_ok (congrArg (·, W c) hs) (StM.bind_ok (StM.result_err (congrArg (·, W c) h2))
            (StM.bind_ok hdup (StM.bind_ok hrem rfl))))
        rw [this]
        refine ⟨rfl, ?_⟩
        unfold MapDb.log
        rw [show V.tables .kels e.pre.toStr = Tbl.kels.removed ((W c).tables .kels e.pre.toStr) e.stored from MapDb.set_same _ _ _ _, hW c hc]
      · refine ⟨.panic, fun l => l, fun c hc => ?_⟩
        have : storeAndVerify mapOps env e new c = (.panic, W c) :=
          StM.bind_ok (h1 c) (StM.bind_ok (congrArg (·, W c) hs) (StM.bind_panic (StM.result_panic (congrArg (·, W c) h2))))
        rw [this]; exact ⟨rfl, hl c hc⟩
  obtain ⟨r, o, hk⟩ := key a
  have h1 := hk a rfl
  have h2 := hk b hp.symm
  exact ⟨h1.1.trans h2.1.symm, h1.2.trans h2.2.symm⟩

theorem processEvent_local (env : Env) (e : SignedEvent) {a b : MapDb} (h : a.log e.pre.toStr = b.log e.pre.toStr)
    (hd : ∀ d, consults (a.log e.pre.toStr) e d → a.log d.toStr = b.log d.toStr) :
    (processEvent mapOps env e a).1.Alike (processEvent mapOps env e b).1 ∧
    (processEvent mapOps env e a).2.log e.pre.toStr = (processEvent mapOps env e b).2.log e.pre.toStr := by
  have hc := checkDelegation_local env e h hd
  have ra := checkDelegation_ro env e a
  have rb := checkDelegation_ro env e b
  unfold processEvent
  rw [StM.bind_run, StM.bind_run]
  rcases hx : checkDelegation mapOps env e a with ⟨r, a'⟩
  rcases hy : checkDelegation mapOps env e b with ⟨r', b'⟩
  rw [hx] at ra hc
  rw [hy] at rb hc
  have hab : a'.log e.pre.toStr = b'.log e.pre.toStr := by rw [MapDb.log_congr ra, MapDb.log_congr rb, h]
  cases r <;> cases r' <;> simp only [Res.Alike] at hc
  · dsimp only
    have hs := applyToState_local env e.msg (a := a') (b := b') hab
    have rs := applyToState_ro env e.msg a'
    have rt := applyToState_ro env e.msg b'
    rw [StM.bind_run, StM.bind_run]
    rcases hu : applyToState mapOps env e.msg a' with ⟨u, a2⟩
    rcases hv : applyToState mapOps env e.msg b' with ⟨v, b2⟩
    rw [hu] at hs rs
    rw [hv] at hs rt
    dsimp only at hs
    subst hs
    have hab2 : a2.log e.pre.toStr = b2.log e.pre.toStr := by rw [MapDb.log_congr rs, MapDb.log_congr rt, hab]
    cases u with
    | ok new =>
      have := storeAndVerify_local env e new hab2
      exact ⟨.of_eq this.1, this.2⟩
    | err er => exact ⟨.refl _, hab2⟩
    | panic => exact ⟨.refl _, hab2⟩
  · exact ⟨trivial, hab⟩
  · exact ⟨trivial, hab⟩

/-- nothing but the submission of an event touches a log -/
theorem nonevent_kel (env : Env) (as : List Action) (a : Action) (h : a.isEvent = false) (id : IdentifierPrefix) :
    (after env (as ++ [a])).kel id = (after env as).kel id := by
  rw [kel_eq, kel_eq, after_abs, after_abs, runHistory_append]
  have frame : ∀ (b c : MapDb) x, b.tables .kels x = c.tables .kels x → b.log x = c.log x := fun b c x h => by
    unfold MapDb.log; rw [h]
  generalize runHistory mapOps env MapDb.empty as = m
  refine frame _ _ _ ?_
  show (a.run mapOps env m).tables .kels id.toStr = m.tables .kels id.toStr
  cases a with
  | reprocess => exact congrFun (escrow_writes env m .kels (by simp)) _
  | lookup t i => rw [Action.run, ReadOnly.read t i m]
  | submit x =>
    cases x with
    | rctNt r => exact witnessReceipt_writes env r m .kels _ (.inr (by simp))
    | rctT r => exact validatorReceipt_writes env r m .kels _ (.inr (by simp))
    | reply r => exact signedReply_writes env r m .kels _ (.inr (by simp))
    | query q => rfl
    | event e => cases h

/-- an event touches the log of its own identifier only -/
theorem event_other_kel (env : Env) (as : List Action) (e : SignedEvent) (id : IdentifierPrefix) (h : e.pre.toStr ≠ id.toStr) :
    (after env (as ++ [.submit (.event e)])).kel id = (after env as).kel id := by
  rw [kel_eq, kel_eq, after_abs, after_abs, runHistory_append]
  have := processEvent_writes env e (runHistory mapOps env MapDb.empty as) .kels id.toStr (.inl (Ne.symm h))
  show ((processEvent mapOps env e (runHistory mapOps env MapDb.empty as)).2).log id.toStr = _
  unfold MapDb.log
  rw [this]

/-! ## C101 -/

/-- C101: two nodes whatever their histories, with the same log of the identifier of an event and — for delegated events — the same
log of the delegator, treat the event alike: both accept it with the same state, or both refuse it, or both panic, and the log is again the same -/
theorem C101_local (env : Env) (as bs : List Action) (e : SignedEvent) (h : (after env as).kel e.pre = (after env bs).kel e.pre)
    (hd : ∀ d, consults ((after env as).kel e.pre) e d → (after env as).kel d = (after env bs).kel d) :
    (process sled env (.event e) (after env as)).1.Alike (process sled env (.event e) (after env bs)).1 ∧
    (after env (as ++ [.submit (.event e)])).kel e.pre = (after env (bs ++ [.submit (.event e)])).kel e.pre := by
  have ha := process_abs env _ (after_inv env as) (.event e)
  have hb := process_abs env _ (after_inv env bs) (.event e)
  have := processEvent_local env e (a := (after env as).abs) (b := (after env bs).abs) h hd
  rw [ha.1, hb.1, after_snoc, after_snoc]
  refine ⟨this.1, ?_⟩
  show (process sled env (.event e) (after env as)).2.abs.log _ = (process sled env (.event e) (after env bs)).2.abs.log _
  rw [ha.2.1, hb.2.1]
  exact this.2

/-- C101: receipts, replies, queries, reprocessing and lookups have no influence on any log: dropping them all from a history changes no log.
In particular no number of missing witness receipts keeps an event out, and no receipt lets one in, whatever the tally. -/
theorem C101_only_events (env : Env) (as : List Action) (id : IdentifierPrefix) :
    (after env (as.filter Action.isEvent)).kel id = (after env as).kel id := by
  induction as using snoc_induction generalizing id with
  | h0 => rfl
  | h1 as a ih =>
    rw [List.filter_append]
    cases ha : a.isEvent with
    | false =>
      rw [List.filter_cons_of_neg (by rw [ha]; simp), List.filter_nil, List.append_nil, ih, nonevent_kel env as a ha]
    | true =>
      rw [List.filter_cons_of_pos ha, List.filter_nil]
      cases a with
      | reprocess => cases ha
      | lookup t i => cases ha
      | submit m =>
        cases m with
        | event e =>
          by_cases hp : e.pre.toStr = id.toStr
          · have := (C101_local env (as.filter Action.isEvent) as e (ih _) (fun d _ => ih d)).2
            rw [kel_text _ hp, kel_text _ hp] at this
            exact this
          · rw [event_other_kel env _ e id hp, event_other_kel env _ e id hp, ih]
        | rctNt r => cases ha
        | rctT r => cases ha
        | reply r => cases ha
        | query q => cases ha

/-- C101: the log of an identifier no delegated event is submitted for is determined by the submissions in its name alone, in their order:
dropping everything else from the history does not change it -/
theorem C101_own_submissions (env : Env) (as : List Action) (id : IdentifierPrefix)
    (hn : ∀ a ∈ as, a.submitsFor id → a.isDelegated = false) :
    (after env (as.filter (Action.isFor id))).kel id = (after env as).kel id := by
  induction as using snoc_induction with
  | h0 => rfl
  | h1 as a ih =>
    have ih := ih (fun b hb => hn b (List.mem_append_left _ hb))
    have hna := hn a (List.mem_append_right _ List.mem_cons_self)
    rw [List.filter_append]
    cases ha : a.isFor id with
    | true =>
      obtain ⟨e, rfl, hp⟩ := isFor_inv ha
      rw [List.filter_cons_of_pos ha, List.filter_nil]
      have := (C101_local env (as.filter (Action.isFor id)) as e (by rw [kel_text _ hp, kel_text _ hp, ih]) (fun d hd => by
        have := hna hp
        unfold consults at hd
        simp only [Action.isDelegated] at this
        cases he : e.data <;> rw [he] at hd this <;> first | exact hd.elim | cases this)).2
      rw [kel_text _ hp, kel_text _ hp] at this
      exact this
    | false =>
      rw [List.filter_cons_of_neg (by rw [ha]; simp), List.filter_nil, List.append_nil, ih]
      cases a with
      | reprocess => exact (nonevent_kel env as _ rfl id).symm
      | lookup t i => exact (nonevent_kel env as _ rfl id).symm
      | submit m =>
        cases m with
        | event e =>
          refine (event_other_kel env as e id fun h => ?_).symm
          have := (isFor_iff id (.submit (.event e))).2 h
          rw [ha] at this
          cases this
        | rctNt r => exact (nonevent_kel env as _ rfl id).symm
        | rctT r => exact (nonevent_kel env as _ rfl id).symm
        | reply r => exact (nonevent_kel env as _ rfl id).symm
        | query q => exact (nonevent_kel env as _ rfl id).symm

/-- C101: so nodes that receive the streams of several identifiers, interleaved in whatever ways, agree on every identifier that is not
delegated, when the submissions in its name arrive in the same order -/
theorem C101_interleaving (env : Env) (as bs : List Action) (id : IdentifierPrefix)
    (hn : ∀ a ∈ as, a.submitsFor id → a.isDelegated = false)
    (h : as.filter (Action.isFor id) = bs.filter (Action.isFor id)) :
    (after env as).kel id = (after env bs).kel id := by
  rw [← C101_own_submissions env as id hn, h]
  refine C101_own_submissions env bs id fun b hb hs => ?_
  have : b ∈ as.filter (Action.isFor id) := by
    rw [h, List.mem_filter]
    exact ⟨hb, (isFor_iff id b).2 hs⟩
  exact hn b (List.mem_filter.1 this).1 hs

/-- **C101, what is not checked**: whatever witnesses and whatever tally an inception names, it is accepted with the signatures of its own
keys alone, by every node that has no log of the identifier, with no receipt before or after; the state then carries the tally as if it had been met. -/
theorem C101_tally_not_enforced (env : Env) (hb : env.Blake3Size) (x : InceptionEvent) (sigs : List AttachedSignaturePrefix) (m : EventMessage)
    (hm : inceptSelfAddressing env (.icp x) .blake3_256 .json = .ok m)
    (hs : SignedWith env ⟨x.keyConfig.publicKeys, x.keyConfig.threshold⟩ m sigs) (as : List Action)
    (hk : (after env as).kel m.event.content.prefix = []) :
    ∃ st, (process sled env (.event ⟨m, sigs, none⟩) (after env as)).1 = .ok (some st) ∧ st.tally = x.tally ∧ st.witnesses = x.initialWitnesses ∧
      (after env (as ++ [.submit (.event ⟨m, sigs, none⟩)])).kel m.event.content.prefix = [⟨m, sigs, none⟩] := by
  rw [inceptSelf_json] at hm
  cases hm
  have hne : (selfAddressedJson env (.icp x)).event.content.prefix.toStr ≠ [] := by
    refine prefixText_ne (show SelfAddressing.blake3_256.toStr ≠ [] by decide) ?_
    intro h
    have := hb (jsonText (dummyInceptionSval (SerInfo.new .json (jsonText (dummyInceptionSval (SerInfo.new .json 0) .blake3_256 (.icp x))).length) .blake3_256 (.icp x)))
    have h' : (env.derive .blake3_256 _).digest = [] := h
    unfold Env.derive at h'
    simp_all
  have hbind : verifyIdentifierBinding env (selfAddressedJson env (.icp x)) = .ok true := by
    simp [selfAddressedJson, verifyIdentifierBinding, EventMessage.checkDigest]
  let m := selfAddressedJson env (.icp x)
  have hap : m.applyTo env IdState.default = .ok { x.applyTo { IdState.default with lastDigest := m.event.digest, sn := 0, «prefix» := m.event.content.prefix } with
      lastEst := ⟨0, m.event.digest, [], []⟩ } := by
    have hdat : m.event.content.data = .icp x := rfl
    have hsn : m.event.content.sn = 0 := rfl
    unfold EventMessage.applyTo Event.applyTo
    rw [hbind]
    simp only [hdat]
    simp [IdState.default, EventData.applyTo, InceptionEvent.applyTo, hsn]
  obtain ⟨h1, h2, b, h3, h4⟩ := hs
  have hv : x.keyConfig.verify env b sigs = .ok true := (KeyConfig.verify_true_iff _ _ _ _).2 ⟨(enough_iff _ _).2 h1, h2, fun s hs => by
    obtain ⟨k, hk, hv⟩ := h4 s hs
    exact ⟨k, hk, (verify_iff_sigValid _ _ _ _).2 hv⟩⟩
  obtain ⟨r1, r2⟩ := accepts env as ⟨m, sigs, none⟩ hne IdState.default _ b (by rw [hk]; exact .nil) (by rw [hk]; intro e he; cases he)
    (plain_checkDelegation env _ _ (.inl ⟨x, rfl⟩)) hap h3 hv
  refine ⟨_, r1, rfl, rfl, ?_⟩
  rw [r2, hk]; rfl

/-! ### Examples -/

theorem filter_ex1 {p : Action → Bool} {a b c d : Action} (ha : p a = true) (hb : p b = false) (hc : p c = true) (hd : p d = false) :
    [a, b, c].filter p = [a, c, d].filter p := by simp [List.filter, ha, hb, hc, hd]
theorem filter_ex2 {p : Action → Bool} {a b c d : Action} (ha : p a = false) (hb : p b = false) (hc : p c = false) (hd : p d = true) :
    ([a, b, c] ++ [d]).filter p = (d :: [a, b, c]).filter p := by simp [List.filter, ha, hb, hc, hd]
theorem filter_ex3 {p : Action → Bool} {d : Action} (l : List Action) (hd : p d = false) : (l ++ [d]).filter p = (d :: l).filter p := by
  simp [List.filter_append, List.filter_cons, hd]

open Ex in
/-- the hypotheses of `C101_local` are met, for a delegated rotation and two different histories -/
example :
    let as := delHist dipSeal ++ [Action.submit (Message.event Ex.dip), .submit (.event anchor2)]
    let bs := delHist dipSeal ++ [Action.submit (Message.event Ex.dip), .lookup .kels Ex.id, .submit (.event anchor2), .submit (.event Ex.dip)]
    (after env as).kel Ex.drt.pre = (after env bs).kel Ex.drt.pre ∧ (after env as).kel Ex.id = (after env bs).kel Ex.id ∧
    ((after env as).kel Ex.drt.pre).map (·.data.delegator?) = [some Ex.id] ∧
    (process sled env (.event Ex.drt) (after env as)).1.isOk = true := by decide +kernel

open Ex in
/-- two interleavings of two streams with the same log of the identifier, not empty -/
example :
    let as := [Action.submit (Message.event icp), .submit (.event Ex.dip), .submit (.event rot)]
    let bs := [Action.submit (Message.event icp), .submit (.event rot), .lookup .rcts Ex.id]
    as.filter (Action.isFor Ex.id) = bs.filter (Action.isFor Ex.id) ∧ ((after env as).kel Ex.id).length = 2 ∧
    (∀ a ∈ as, a.isFor Ex.id = true → a.isDelegated = false) := by
  have h1 : Action.isFor Ex.id (.submit (.event icp)) = true := by decide +kernel
  have h2 : Action.isFor Ex.id (.submit (.event rot)) = true := by decide +kernel
  have h3 : Action.isFor Ex.id (.submit (.event Ex.dip)) = false := by decide +kernel
  have h4 : Action.isFor Ex.id (.lookup .rcts Ex.id) = false := rfl
  exact ⟨filter_ex1 h1 h3 h2 h4, by decide +kernel, by decide +kernel⟩

/-- **C101 for delegated identifiers**: there the interleaving does matter — the same events, those of each identifier in the same
order, give different logs, because a delegated inception that arrives before its anchor is refused -/
theorem C101_delegated_order_matters :
    let as := Ex.delHist Ex.dipSeal ++ [.submit (.event Ex.dip)]
    let bs := .submit (.event Ex.dip) :: Ex.delHist Ex.dipSeal
    as.filter (Action.isFor Ex.dip.pre) = bs.filter (Action.isFor Ex.dip.pre) ∧
    as.filter (Action.isFor Ex.id) = bs.filter (Action.isFor Ex.id) ∧
    (after Ex.env as).kel Ex.dip.pre = [Ex.dip.stored] ∧ (after Ex.env bs).kel Ex.dip.pre = [] := by
  have h1 : ∀ e ∈ [Ex.icp, Ex.rot, Ex.anchor Ex.dipSeal], Action.isFor Ex.dip.pre (.submit (.event e)) = false := by decide +kernel
  have h2 : Action.isFor Ex.dip.pre (.submit (.event Ex.dip)) = true := by decide +kernel
  have h3 : Action.isFor Ex.id (.submit (.event Ex.dip)) = false := by decide +kernel
  simp only [List.forall_mem_cons] at h1
  obtain ⟨a1, a2, a3, -⟩ := h1
  exact ⟨filter_ex2 a1 a2 a3 h2, filter_ex3 _ h3, by decide +kernel, by decide +kernel⟩

open Ex in
/-- an inception naming two witnesses and a tally of two, which nobody has receipted -/
example :
    let x : InceptionEvent := ⟨kc [11, 12] [13, 14] (.simple 2), 2, [key 60, key 61], [], []⟩
    ∃ m, inceptSelfAddressing env (.icp x) .blake3_256 .json = .ok m ∧
      (process sled env (.event (signAll m [11, 12])) (after env [])).1.isOk = true := by
  refine ⟨_, rfl, by decide +kernel⟩

end Keriox
