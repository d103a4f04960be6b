import Verif.Step
import Verif.Props.Events
/-!
# C33, C59: killing the process during a call

`crashStates env act db`: the databases after every single access to a sled tree during the call `act` (Step.lean).
-/
namespace Keriox

/-! ## Helper lemmas -/

/-- `d` holds the same key event logs as `db` -/
def SameLogs (db d : Db) : Prop := d.vec .kels = db.vec .kels

theorem sameLogs_tp (db : Db) : TableProp (SameLogs db) := fun d d' _ _ hv h => by
  unfold SameLogs at *; rw [hv]; exact h

theorem kels_write {db d : Db} {α : Type} {f : StM Db α} {g : StM MapDb α} (hs : (f d).2.abs = (g d.abs).2)
    {x : Bytes} {T : Tbl → Prop} (hw : Writes T x g) (hT : ¬ T .kels) (hp : SameLogs db d) : SameLogs db (f d).2 := by
  have h1 : (f d).2.abs.tables .kels = d.abs.tables .kels := by
    rw [hs]; funext y; exact hw d.abs .kels y (.inr hT)
  exact h1.trans hp

/-- writing other tables does not change the logs -/
theorem along_sameLogs (db : Db) {P : Db → Prop} (hP : ∀ d, SameLogs db d → P d) :
    GOps (Along P (SameLogs db)) (· ≠ .kels) stepped sled :=
  along_ops (sameLogs_tp db) hP
    (fun t ht id v d h hp => kels_write (sled_sim.push t id v d h).2.1 (Writes.push (T := (· ≠ .kels)) t ht id v) (by simp) hp)
    (fun t ht id v d h hp => kels_write (sled_sim.remove t id v d h).2.1 (Writes.remove (T := (· ≠ .kels)) t ht id v) (by simp) hp)
    (fun t ht id v d h hp => kels_write (sled_sim.put t id v d h).2.1 (Writes.put (T := (· ≠ .kels)) t ht id v) (by simp) hp)

/-- what the logs of `d` can be after a call that appends `e` -/
def Appended (db : Db) (e : SignedEvent) (d : Db) : Prop :=
  ∀ x : Bytes, d.abs.log x = db.abs.log x ∨ (x = e.pre.toStr ∧ d.abs.log x = db.abs.log x ++ [e.stored])

theorem SameLogs.log {db d : Db} (h : SameLogs db d) (x : Bytes) : d.abs.log x = db.abs.log x := by
  unfold MapDb.log; show ((d.vec .kels x).getD []) = ((db.vec .kels x).getD []); rw [h]

/-- the event stands at the end of the log of its identifier; the other logs are as before -/
def PushedLogs (db : Db) (e : SignedEvent) (d : Db) : Prop :=
  d.vec .kels e.pre.toStr = some (db.abs.log e.pre.toStr ++ [e.stored]) ∧ ∀ y, y ≠ e.pre.toStr → d.vec .kels y = db.vec .kels y

theorem pushedLogs_tp (db : Db) (e : SignedEvent) : TableProp (PushedLogs db e) := fun d d' _ _ hv h => by
  unfold PushedLogs at *; rw [hv]; exact h

theorem PushedLogs.appended {db d : Db} {e : SignedEvent} (h : PushedLogs db e d) : Appended db e d := by
  intro x
  by_cases hx : x = e.pre.toStr
  · subst hx
    right
    refine ⟨rfl, ?_⟩
    conv => lhs; unfold MapDb.log
    show ((d.vec .kels _).getD []) = _
    rw [h.1]; rfl
  · left
    unfold MapDb.log
    show ((d.vec .kels _).getD []) = ((db.vec .kels _).getD [])
    rw [h.2 x hx]

theorem pushed_log (a : MapDb) (e : SignedEvent) (x : Bytes) (hr : (a.log x).all SignedEvent.rt = true) :
    Tbl.kels.pushed (a.tables .kels x) e.stored = a.log x ++ [e.stored] := by
  rw [pushed_kels]
  unfold MapDb.log at hr ⊢
  cases h : a.tables .kels x with
  | none => rfl
  | some l => rw [h] at hr; simp only [Option.getD_some] at hr ⊢; rw [if_pos hr]

/-- the push -/
theorem addKel_pushed {db d : Db} {e : SignedEvent} (h : d.Inv) (hp : SameLogs db d)
    (hr : (db.abs.log e.pre.toStr).all SignedEvent.rt = true) : PushedLogs db e (addKel sled e e.pre d).2 := by
  have hs := (sled_sim.push .kels e.pre e.stored d h).2.1
  have ht : ∀ y, (addKel sled e e.pre d).2.vec .kels y = (addKel mapOps e e.pre d.abs).2.tables .kels y := fun y => by
    show (addKel sled e e.pre d).2.abs.tables .kels y = _
    exact congrFun (congrFun (congrArg MapDb.tables hs) .kels) y
  refine ⟨?_, fun y hy => ?_⟩
  · rw [ht]
    simp only [addKel, mapOps]
    rw [MapDb.set_same, pushed_log _ _ _ (by rw [hp.log]; exact hr), hp.log]
  · rw [ht]
    simp only [addKel, mapOps]
    rw [Writes.set_frame _ _ _ _ _ _ (.inl hy), MapDb.touch_tables]
    exact congrFun hp y

/-- removing the event from a log it was appended to -/
theorem filter_stored (l : List SignedEvent) (e : SignedEvent) (hd : ∀ x ∈ l, x.sn ≠ e.sn) :
    (l ++ [e.stored]).filter (fun x => !x.same e.stored) = l := by
  rw [List.filter_append]
  have h5 : l.filter (fun x => !x.same e.stored) = l := by
    rw [List.filter_eq_self]
    intro x hx
    cases hsame : x.same e.stored with
    | false => rfl
    | true =>
      exfalso
      apply hd x hx
      simp only [SignedEvent.same, SignedEvent.stored, Bool.and_eq_true] at hsame
      rw [SignedEvent.sn, of_decide_eq_true hsame.1]
  rw [h5]
  simp [SignedEvent.same]

theorem removeKel_appended {db d : Db} {e : SignedEvent} (h : d.Inv) (hp : PushedLogs db e d)
    (hd : ∀ x ∈ db.abs.log e.pre.toStr, x.sn ≠ e.sn) : Appended db e (removeKel sled e.pre e d).2 := by
  have hs := (sled_sim.remove .kels e.pre e.stored d h).2.1
  have ht : ∀ y, (removeKel sled e.pre e d).2.vec .kels y = (removeKel mapOps e.pre e d.abs).2.tables .kels y := fun y => by
    show (removeKel sled e.pre e d).2.abs.tables .kels y = _
    exact congrFun (congrFun (congrArg MapDb.tables hs) .kels) y
  intro x
  show ((removeKel sled e.pre e d).2.vec .kels x).getD [] = _ ∨ _ ∧ ((removeKel sled e.pre e d).2.vec .kels x).getD [] = _
  rw [ht]
  by_cases hx : x = e.pre.toStr
  · subst hx
    have h1 : d.abs.tables .kels e.pre.toStr = some (db.abs.log e.pre.toStr ++ [e.stored]) := hp.1
    simp only [removeKel, mapOps]
    rw [MapDb.set_same, h1, removed_kels]
    by_cases hr : (db.abs.log e.pre.toStr ++ [e.stored]).all SignedEvent.rt = true
    · rw [if_pos hr, filter_stored _ _ hd]; exact .inl rfl
    · rw [if_neg hr]; exact .inr ⟨trivial, rfl⟩
  · left
    simp only [removeKel, mapOps]
    rw [Writes.set_frame _ _ _ _ _ _ (.inl hx), MapDb.touch_tables]
    show (d.vec .kels x).getD [] = _
    rw [hp.2 x hx]; rfl

theorem along_lift {α β : Type} {R : World → Db → Prop} {r : Res α} {f : α → StM World β} {g : α → StM Db β} {w : World} {d : Db}
    (h : R w d) (hf : ∀ a, r = .ok a → ((f a w).1 = (g a d).1 ∧ R (f a w).2 (g a d).2)) :
    ((StM.lift r >>= f) w).1 = ((StM.lift r >>= g) d).1 ∧ R ((StM.lift r >>= f) w).2 ((StM.lift r >>= g) d).2 := by
  cases r with
  | ok a => exact hf a rfl
  | err e => exact ⟨rfl, h⟩
  | panic => exact ⟨rfl, h⟩

/-- the logs during the storing half of `process_event` -/
theorem storeAndVerify_along (env : Env) (db : Db) (e : SignedEvent) (new : IdState)
    (hr : (db.abs.log e.pre.toStr).all SignedEvent.rt = true) (hd : ∀ x ∈ db.abs.log e.pre.toStr, x.sn ≠ e.sn) (w : World) (d : Db)
    (h : Along (Appended db e) (SameLogs db) w d) :
    (storeAndVerify stepped env e new w).1 = (storeAndVerify sled env e new d).1 ∧
    Along (Appended db e) (Appended db e) (storeAndVerify stepped env e new w).2 (storeAndVerify sled env e new d).2 := by
  have hP0 : ∀ d, SameLogs db d → Appended db e d := fun d h x => .inl (h.log x)
  have hP1 : ∀ d, PushedLogs db e d → Appended db e d := fun d h => h.appended
  have h1 := Along.step (sameLogs_tp db) hP0 hP1 (fine_push .kels e.pre e.stored) h (sled_sim.push .kels e.pre e.stored d h.inv).2.2
    (addKel_pushed h.inv h.now hr)
  unfold storeAndVerify
  have hw : addKel stepped e e.pre w = (.ok (), (addKel stepped e e.pre w).2) := Prod.ext (h1.1.trans (sled_sim.push .kels e.pre e.stored d h.inv).1) rfl
  have hdd : addKel sled e e.pre d = (.ok (), (addKel sled e e.pre d).2) := Prod.ext (sled_sim.push .kels e.pre e.stored d h.inv).1 rfl
  rw [bind_okW hw, bind_okW hdd]
  have h2 : Along (Appended db e) (PushedLogs db e) (addKel stepped e e.pre w).2 (addKel sled e e.pre d).2 := h1.2
  generalize (addKel stepped e e.pre w).2 = w1 at h2
  generalize (addKel sled e e.pre d).2 = d1 at h2
  have hw2 : Along (Appended db e) (Appended db e) w1 d1 := h2.weaken (fun _ h => h) (hP1 _)
  refine along_lift hw2 fun bytes _ => ?_
  cases hv : verifyOutcome env new bytes e.sigs with
  | ok st =>
    rw [bind_okW (StM.result_ok (x := (StM.lift (.ok st) : StM World IdState)) (s := w1) rfl),
      bind_okW (StM.result_ok (x := (StM.lift (.ok st) : StM Db IdState)) (s := d1) rfl)]
    exact ⟨rfl, hw2⟩
  | panic =>
    rw [StM.bind_panic (StM.result_panic (x := (StM.lift .panic : StM World IdState)) (s := w1) rfl),
      StM.bind_panic (StM.result_panic (x := (StM.lift .panic : StM Db IdState)) (s := d1) rfl)]
    exact ⟨rfl, hw2⟩
  | err er =>
    have hnd : er ≠ .eventDuplicate := fun h => verifyOutcome_not_duplicate env new bytes e.sigs (h ▸ hv)
    rw [bind_okW (StM.result_err (x := (StM.lift (.err er) : StM World IdState)) (s := w1) rfl),
      bind_okW (StM.result_err (x := (StM.lift (.err er) : StM Db IdState)) (s := d1) rfl)]
    have hn1 : noteDup stepped e er w1 = (.ok (), w1) := by unfold noteDup; rw [if_neg hnd]; rfl
    have hn2 : noteDup sled e er d1 = (.ok (), d1) := by unfold noteDup; rw [if_neg hnd]; rfl
    dsimp only
    rw [bind_okW hn1, bind_okW hn2]
    have h3 := Along.step (pushedLogs_tp db e) hP1 (fun _ h => h) (fine_remove .kels e.pre e.stored) h2
      (sled_sim.remove .kels e.pre e.stored d1 h2.inv).2.2 (removeKel_appended h2.inv h2.now hd)
    have hw3 : removeKel stepped e.pre e w1 = (.ok (), (removeKel stepped e.pre e w1).2) :=
      Prod.ext (h3.1.trans (sled_sim.remove .kels e.pre e.stored d1 h2.inv).1) rfl
    have hd3 : removeKel sled e.pre e d1 = (.ok (), (removeKel sled e.pre e d1).2) :=
      Prod.ext (sled_sim.remove .kels e.pre e.stored d1 h2.inv).1 rfl
    rw [bind_okW hw3, bind_okW hd3]
    exact ⟨rfl, h3.2⟩

theorem log_no_sn {env : Env} {e : SignedEvent} {l : List SignedEvent} {s new : IdState} (hne : e.pre.toStr ≠ [])
    (hl : Log env e.pre.toStr l s) (hap : e.msg.applyTo env s = .ok new) : ∀ x ∈ l, x.sn ≠ e.sn := by
  intro x hx
  have L := Log.facts hne (Log.snoc (e := e.stored) hl rfl rfl hap)
  have h1 := L.2.2 l.length e.stored (by simp)
  obtain ⟨i, hi, hxi⟩ := List.mem_iff_getElem.1 hx
  have h2 := L.2.2 i x (by rw [List.getElem?_append_left hi, List.getElem?_eq_getElem hi, hxi])
  have h3 : e.stored.sn = e.sn := rfl
  omega

/-- the logs during `process_event`: unchanged, or the event is appended and it applies to the state of the log -/
theorem processEvent_along (env : Env) (db : Db) (hinv : db.Inv) (e : SignedEvent) (hne : e.pre.toStr ≠ []) {s : IdState}
    (hl : Log env e.pre.toStr (db.abs.log e.pre.toStr) s) :
    (∀ d' ∈ (processEvent stepped env e ⟨db, [], []⟩).2.trail, d'.Inv ∧ SameLogs db d') ∨
    ((∃ new, e.msg.applyTo env s = .ok new) ∧ ∀ d' ∈ (processEvent stepped env e ⟨db, [], []⟩).2.trail, d'.Inv ∧ Appended db e d') := by
  have h0 : Along (SameLogs db) (SameLogs db) ⟨db, [], []⟩ db := Along.start db hinv rfl
  have hr := along_read (P := SameLogs db) (sameLogs_tp db) (fun _ h => h)
  have h1 := checkDelegation_par hr env e _ _ h0
  unfold processEvent
  rcases hc : checkDelegation stepped env e ⟨db, [], []⟩ with ⟨rc, w1⟩
  rcases hc' : checkDelegation sled env e db with ⟨rc', d1⟩
  rw [hc, hc'] at h1
  dsimp only at h1
  obtain ⟨rfl, h1⟩ := h1
  cases rc with
  | err er => rw [StM.bind_err hc]; exact .inl h1.past
  | panic => rw [StM.bind_panic hc]; exact .inl h1.past
  | ok u =>
    rw [bind_okW hc]
    have h2 := applyToState_par hr env e.msg _ _ h1
    rcases ha : applyToState stepped env e.msg w1 with ⟨ra, w2⟩
    rcases ha' : applyToState sled env e.msg d1 with ⟨ra', d2⟩
    rw [ha, ha'] at h2
    dsimp only at h2
    obtain ⟨rfl, h2⟩ := h2
    cases ra with
    | err er => rw [StM.bind_err ha]; exact .inl h2.past
    | panic => rw [StM.bind_panic ha]; exact .inl h2.past
    | ok new =>
      rw [bind_okW ha]
      right
      have hlog := h1.now.log e.pre.toStr
      have hrun := applyToState_run env e.msg d1.abs e.pre.toStr rfl hne (s := s) (by rw [hlog]; exact hl)
      have hsim := (applyToState_sim sled_sim env e.msg d1 h1.inv).1
      rw [ha', hrun, hlog] at hsim
      by_cases hrd : (db.abs.log e.pre.toStr).all SignedEvent.rt = true
      · rw [if_pos hrd] at hsim
        have hap : e.msg.applyTo env s = .ok new := hsim.symm
        refine ⟨⟨new, hap⟩, ?_⟩
        have h3 := storeAndVerify_along env db e new hrd (log_no_sn hne hl hap) w2 d2
          (h2.weaken (fun d h x => .inl (h.log x)) fun h => h)
        exact h3.2.past
      · rw [if_neg hrd] at hsim; cases hsim

/-- the logs of the other identifiers -/
def OtherLogs (db : Db) (z : Bytes) (d : Db) : Prop := ∀ y, y ≠ z → d.vec .kels y = db.vec .kels y

theorem otherLogs_tp (db : Db) (z : Bytes) : TableProp (OtherLogs db z) := fun d d' _ _ hv h => by
  unfold OtherLogs at *; rw [hv]; exact h

theorem other_write {db d : Db} {α : Type} {f : StM Db α} {g : StM MapDb α} (hs : (f d).2.abs = (g d.abs).2)
    {z : Bytes} {T : Tbl → Prop} (hw : Writes T z g) (hp : OtherLogs db z d) : OtherLogs db z (f d).2 := by
  intro y hy
  show (f d).2.abs.tables .kels y = _
  rw [hs, hw d.abs .kels y (.inl hy)]
  exact hp y hy

/-- `process_event` does not touch the logs of other identifiers at any moment -/
theorem processEvent_others (env : Env) (db : Db) (e : SignedEvent) :
    GSim (Along (OtherLogs db e.pre.toStr) (OtherLogs db e.pre.toStr)) (processEvent stepped env e) (processEvent sled env e) := by
  have hr := along_read (P := OtherLogs db e.pre.toStr) (otherLogs_tp db e.pre.toStr) (fun _ h => h)
  have hpush : ∀ t v, GSim (Along (OtherLogs db e.pre.toStr) (OtherLogs db e.pre.toStr)) (stepped.push t e.pre v) (sled.push t e.pre v) :=
    fun t v => Along.of_fine (otherLogs_tp db _) (fun _ h => h) (fine_push t e.pre v) (fun d h => (sled_sim.push t e.pre v d h).2.2)
      fun d h hp => other_write (sled_sim.push t e.pre v d h).2.1 (Writes.push (T := fun _ => True) t trivial e.pre v) hp
  have hrem : ∀ t v, GSim (Along (OtherLogs db e.pre.toStr) (OtherLogs db e.pre.toStr)) (stepped.remove t e.pre v) (sled.remove t e.pre v) :=
    fun t v => Along.of_fine (otherLogs_tp db _) (fun _ h => h) (fine_remove t e.pre v) (fun d h => (sled_sim.remove t e.pre v d h).2.2)
      fun d h hp => other_write (sled_sim.remove t e.pre v d h).2.1 (Writes.remove (T := fun _ => True) t trivial e.pre v) hp
  refine GSim.bind (checkDelegation_par hr env e) fun _ => GSim.bind (applyToState_par hr env e.msg) fun new => ?_
  refine GSim.bind (hpush _ _) fun _ => GSim.bind (GSim.lift _) fun bytes => GSim.bind (GSim.result (GSim.lift _)) fun r => ?_
  cases r with
  | ok st => exact GSim.pure _
  | error er =>
    refine GSim.bind ?_ fun _ => GSim.bind (hrem _ _) fun _ => GSim.fail _
    unfold noteDup
    split
    · exact hpush _ _
    · exact GSim.pure _

/-- the logs found after killing the process during a call -/
theorem crash_log (env : Env) (act : Action) (db : Db) (hinv : db.Inv) (hg : db.abs.Good env) (d : Db) (hd : d ∈ crashStates env act db) :
    d.Inv ∧ ∀ x, x ≠ [] → (d.abs.log x = db.abs.log x ∨
    ∃ e s new, act = .submit (.event e) ∧ e.pre.toStr = x ∧ Log env x (db.abs.log x) s ∧ e.msg.applyTo env s = .ok new ∧
      d.abs.log x = db.abs.log x ++ [e.stored]) := by
  unfold crashStates at hd
  rcases List.mem_cons.1 hd with rfl | hd
  · exact ⟨hinv, fun x _ => .inl rfl⟩
  have h0 : Along (SameLogs db) (SameLogs db) ⟨db, [], []⟩ db := Along.start db hinv rfl
  have ho := along_sameLogs db (P := SameLogs db) (fun _ h => h)
  have fin : (d.Inv ∧ SameLogs db d) → d.Inv ∧ ∀ x, x ≠ [] → (d.abs.log x = db.abs.log x ∨
    ∃ e s new, act = .submit (.event e) ∧ e.pre.toStr = x ∧ Log env x (db.abs.log x) s ∧ e.msg.applyTo env s = .ok new ∧
      d.abs.log x = db.abs.log x ++ [e.stored]) := fun h => ⟨h.1, fun x _ => .inl (h.2.log x)⟩
  cases act with
  | reprocess => exact fin ((processEscrow_par ho (by simp) (by simp) env _ _ h0).2.past d hd)
  | lookup t id => exact fin ((ho.read t id _ _ h0).2.past d hd)
  | submit m =>
    cases m with
    | rctNt r => exact fin ((processWitnessReceipt_par ho (by simp) (by simp) env r _ _ h0).2.past d hd)
    | rctT r => exact fin ((processValidatorReceipt_par ho (by simp) (by simp) env r _ _ h0).2.past d hd)
    | reply r => exact fin ((processSignedReply_par ho (by simp) (by simp) env r _ _ h0).2.past d hd)
    | query q => exact (List.not_mem_nil hd).elim
    | event e =>
      by_cases hne : e.pre.toStr = []
      · have h := (processEvent_others env db e _ _ (Along.start db hinv fun _ _ => rfl)).2.past d hd
        refine ⟨h.1, fun x hx => .inl ?_⟩
        unfold MapDb.log
        show (d.vec .kels x).getD [] = (db.vec .kels x).getD []
        rw [h.2 x (by rw [hne]; exact hx)]
      · obtain ⟨s, hs⟩ := hg _ hne
        rcases processEvent_along env db hinv e hne hs with h | ⟨⟨new, hap⟩, h⟩
        · exact fin (h d hd)
        · refine ⟨(h d hd).1, fun x _ => ?_⟩
          rcases (h d hd).2 x with h | ⟨rfl, h⟩
          · exact .inl h
          · exact .inr ⟨e, s, new, rfl, rfl, hs, hap, h⟩

/-! ## The database passes through every state -/

/-- the history of databases only gets longer -/
def Grows {α : Type} (x : StM World α) : Prop := ∀ w d, d ∈ w.trail → d ∈ (x w).2.trail

namespace Grows
variable {α β : Type}
theorem lift (r : Res α) : Grows (StM.lift r) := fun _ _ h => h
theorem pure (a : α) : Grows (Pure.pure a : StM World α) := fun _ _ h => h
theorem atom (f : StM Db α) : Grows (atom f) := fun _ _ h => List.mem_cons_of_mem _ h
theorem bind {x : StM World α} {f : α → StM World β} (h1 : Grows x) (h2 : ∀ a, Grows (f a)) : Grows (x >>= f) := by
  intro w d h
  have := h1 w d h
  rw [StM.bind_run]
  rcases hx : x w with ⟨r, w'⟩
  rw [hx] at this
  cases r with
  | ok a => exact h2 a w' d this
  | err e => exact this
  | panic => exact this
theorem result {x : StM World α} (h1 : Grows x) : Grows x.result := by
  intro w d h
  have := h1 w d h
  unfold StM.result
  rcases hx : x w with ⟨r, w'⟩
  rw [hx] at this
  cases r <;> exact this
theorem desKey (id : IdentifierPrefix) : Grows (desKey id) := by
  unfold Keriox.desKey
  refine bind (atom _) fun o => ?_
  cases o with
  | some k => exact pure k
  | none => exact bind (atom _) fun _ => bind (atom _) fun _ => pure _
theorem push (t : Tbl) (id : IdentifierPrefix) (v : t.Val) : Grows (stepped.push t id v) :=
  bind (desKey id) fun _ => bind (atom _) fun _ => atom _
theorem remove (t : Tbl) (id : IdentifierPrefix) (v : t.Val) : Grows (stepped.remove t id v) := by
  refine bind (desKey id) fun _ => bind (atom _) fun o => ?_
  unfold putIf
  split
  · exact atom _
  · exact pure _
end Grows

theorem push_seen (t : Tbl) (id : IdentifierPrefix) (v : t.Val) (w : World) (h : w.sched = []) (hinv : w.db.Inv) :
    (stepped.push t id v w).2.db ∈ (stepped.push t id v w).2.trail := by
  obtain ⟨k, w', h1, h2, -⟩ := desKey_run id w h hinv
  have h3 : atom (treeGet t k) w' = (.ok ((w'.db.tables t).get k), ⟨w'.db, [], w'.db :: w'.trail⟩) := atom_run _ _ h2
  have : stepped.push t id v w = atom (treePut t k (t.pushed ((w'.db.tables t).get k) v)) ⟨w'.db, [], w'.db :: w'.trail⟩ :=
    StM.bind_ok h1 (StM.bind_ok h3 rfl)
  rw [this, atom_run _ _ rfl]
  exact List.mem_cons_self

/-! ## Reachable databases, with crashes -/

/-- databases reachable from an empty one by calls, any of which may be cut short by killing the process -/
inductive Reach (env : Env) : Db → Prop
  | empty : Reach env Db.empty
  | call {db} (act : Action) : Reach env db → Reach env (act.run sled env db)
  | crash {db d} (act : Action) : Reach env db → d ∈ crashStates env act db → Reach env d

theorem Reach.good {env : Env} {db : Db} (h : Reach env db) : db.Inv ∧ db.abs.Good env := by
  induction h with
  | empty => exact ⟨Db.empty_inv, MapDb.empty_good env⟩
  | call act _ ih =>
    have := action_sim sled_sim env act _ ih.1
    refine ⟨this.1, ?_⟩
    rw [this.2]; exact action_good env act _ ih.2
  | crash act _ hd ih =>
    obtain ⟨h1, h2⟩ := crash_log env act _ ih.1 ih.2 _ hd
    refine ⟨h1, fun x hx => ?_⟩
    rcases h2 x hx with h | ⟨e, s, new, _, hp, hs, hn, h⟩
    · rw [h]; exact ih.2 x hx
    · rw [h]; exact ⟨new, Log.snoc hs hp rfl hn⟩

theorem Reach.log {env : Env} {db : Db} (h : Reach env db) (id : IdentifierPrefix) (hid : id.toStr ≠ []) :
    ∃ s, Log env id.toStr (db.kel id) s := h.good.2 _ hid

/-- histories without crashes are included -/
theorem Reach.of_after (env : Env) (as : List Action) : Reach env (after env as) := by
  induction as using snoc_induction with
  | h0 => exact .empty
  | h1 as a ih =>
    have : after env (as ++ [a]) = a.run sled env (after env as) := by rw [Keriox.after, runHistory_append]; rfl
    rw [this]; exact .call a ih

/-! ## C33 -/

/-- C33: when the process is killed at any moment of any call, the log of every identifier found after the restart is
the one before the call, or that log with the submitted event appended. -/
theorem C33_old_or_appended (env : Env) (db : Db) (hr : Reach env db) (act : Action) (d : Db) (hd : d ∈ crashStates env act db)
    (id : IdentifierPrefix) (hid : id.toStr ≠ []) :
    d.kel id = db.kel id ∨
    ∃ e, act = .submit (.event e) ∧ e.pre.toStr = id.toStr ∧ d.kel id = db.kel id ++ [e.stored] := by
  rcases (crash_log env act db hr.good.1 hr.good.2 d hd).2 id.toStr hid with h | ⟨e, s, new, h1, h2, _, _, h⟩
  · exact .inl h
  · exact .inr ⟨e, h1, h2, h⟩

/-- C33: logs stay contiguous (as in C03) through any number of calls and crashes. -/
theorem C33_contiguous (env : Env) (db : Db) (hr : Reach env db) (id : IdentifierPrefix) (hid : id.toStr ≠ []) (i : Nat)
    (e : SignedEvent) (he : (db.kel id)[i]? = some e) :
    e.sn = i ∧ (e.data.isInception = true ↔ i = 0) ∧ e.pre.toStr = id.toStr ∧ ∀ e', e' ∈ db.kel id → e'.pre = e.pre := by
  obtain ⟨s, hl⟩ := hr.log id hid
  exact hl.contiguous hid he

/-- C33: logs stay chained by digests (as in C04) through any number of calls and crashes. -/
theorem C33_chained (env : Env) (db : Db) (hr : Reach env db) (id : IdentifierPrefix) (hid : id.toStr ≠ []) (i : Nat)
    (e0 e1 : SignedEvent) (h0 : (db.kel id)[i]? = some e0) (h1 : (db.kel id)[i + 1]? = some e1) :
    e1.data.previous? = some e0.dig := by
  obtain ⟨s, hl⟩ := hr.log id hid
  exact hl.chained hid h0 h1

/-- C33: rotations open the prior commitment (as in C05) through any number of calls and crashes. -/
theorem C33_prerotation (env : Env) (db : Db) (hr : Reach env db) (id : IdentifierPrefix) (hid : id.toStr ≠ []) (i : Nat)
    (e : SignedEvent) (r : RotationEvent) (he : (db.kel id)[i]? = some e) (hrot : e.data.rotation? = some r) :
    ∃ kc n, keysInForce ((db.kel id).take i) = some kc ∧ kc.nextDigest = some n ∧ r.keyConfig.commit env n.derivation = n := by
  obtain ⟨s, hl⟩ := hr.log id hid
  exact hl.opens_commitment hid he hrot

/-- C59 fails for every event that is applicable: whatever its signatures (they are checked later), there is a
moment at which killing the process leaves the event in the log. -/
theorem C59_fails_for_all (env : Env) (db : Db) (hr : Reach env db) (e : SignedEvent) (hid : e.pre.toStr ≠ [])
    (hrd : Readable (db.kel e.pre)) (hdel : (checkDelegation sled env e db).1 = .ok ()) (s new : IdState)
    (hs : stateAfter env (db.kel e.pre) = .ok s) (hap : e.msg.applyTo env s = .ok new) :
    ∃ d ∈ crashStates env (.submit (.event e)) db, d.kel e.pre = db.kel e.pre ++ [e.stored] := by
  obtain ⟨hinv, hg⟩ := hr.good
  obtain ⟨s', hl⟩ := hg _ hid
  have hs' : stateAfter env (db.kel e.pre) = .ok s' := Log.stateAfter hl
  rw [hs] at hs'
  obtain rfl := Res.ok.inj hs'
  have h0 : Along (SameLogs db) (SameLogs db) ⟨db, [], []⟩ db := Along.start db hinv rfl
  have hrr := along_read (P := SameLogs db) (sameLogs_tp db) (fun _ h => h)
  have h1 := checkDelegation_par hrr env e _ _ h0
  rcases hc : checkDelegation stepped env e ⟨db, [], []⟩ with ⟨rc, w1⟩
  rcases hc' : checkDelegation sled env e db with ⟨rc', d1⟩
  rw [hc, hc'] at h1
  rw [hc'] at hdel
  dsimp only at h1 hdel
  obtain ⟨rfl, h1⟩ := h1
  subst hdel
  have h2 := applyToState_par hrr env e.msg _ _ h1
  have hlog := h1.now.log e.pre.toStr
  have hrun := applyToState_run env e.msg d1.abs e.pre.toStr rfl hid (s := s) (by rw [hlog]; exact hl)
  have hsim := (applyToState_sim sled_sim env e.msg d1 h1.inv).1
  have hrd' : (db.abs.log e.pre.toStr).all SignedEvent.rt = true := (readable_iff _).2 hrd
  rw [hrun, hlog, if_pos hrd', hap] at hsim
  rcases ha : applyToState stepped env e.msg w1 with ⟨ra, w2⟩
  rw [ha, hsim] at h2
  dsimp only at h2
  obtain ⟨rfl, h2⟩ := h2
  generalize hd2 : (applyToState sled env e.msg d1).2 = d2 at h2
  have h3 := Along.step (P := fun _ => True) (Q' := PushedLogs db e) (sameLogs_tp db) (fun _ _ => trivial) (fun _ _ => trivial)
    (fine_push .kels e.pre e.stored) (h2.weaken (fun _ _ => trivial) fun h => h)
    (sled_sim.push .kels e.pre e.stored d2 h2.inv).2.2 (addKel_pushed h2.inv h2.now hrd')
  have hsame := h3.2.same
  have hnow := h3.2.now
  refine ⟨(stepped.push .kels e.pre e.stored w2).2.db, ?_, ?_⟩
  · have hseen := push_seen .kels e.pre e.stored w2 h2.quiet (by rw [h2.same]; exact h2.inv)
    have hpush : addKel stepped e e.pre w2 = (.ok (), (stepped.push .kels e.pre e.stored w2).2) :=
      Prod.ext (h3.1.trans (sled_sim.push .kels e.pre e.stored d2 h2.inv).1) rfl
    unfold crashStates
    refine List.mem_cons_of_mem _ ?_
    have hrun : Action.run stepped env (.submit (.event e)) ⟨db, [], []⟩ = (storeAndVerify stepped env e new w2).2 :=
      congrArg Prod.snd (StM.bind_ok (x := checkDelegation stepped env e) hc (StM.bind_ok (x := applyToState stepped env e.msg) ha rfl))
    rw [hrun]
    unfold storeAndVerify
    rw [bind_okW hpush]
    refine Grows.bind (Grows.lift _) (fun bytes => Grows.bind (Grows.result (Grows.lift _)) fun r => ?_) _ _ hseen
    cases r with
    | ok st => exact Grows.pure _
    | error er =>
      refine Grows.bind ?_ fun _ => Grows.bind (Grows.remove _ _ _) fun _ => Grows.lift _
      unfold noteDup
      split
      · exact Grows.push _ _ _
      · exact Grows.pure _
  · rw [hsame]
    show (((sled.push .kels e.pre e.stored d2).2.vec .kels e.pre.toStr).getD []) = _
    have : (sled.push .kels e.pre e.stored d2).2.vec .kels e.pre.toStr = _ := hnow.1
    rw [this]; rfl

/-- an interaction of `Ex.id` that nobody signed -/
def Ex.strayIxn : SignedEvent := ⟨Ex.msgOr ((Event.mk Ex.id 2 (.ixn ⟨Ex.rot.dig, []⟩)).toMessage Ex.env .json .blake3_256), [], none⟩

/-- C59 is false: an interaction without signatures is refused and leaves the log alone when the call runs to its end,
but killing the process at the wrong moment leaves it in the log; after the restart it counts as event 2 of the key state
and the controller's own event 2 is refused. -/
theorem C59_fails :
    let db := after Ex.env [.submit (.event Ex.icp), .submit (.event Ex.rot)]
    (process sled Ex.env (.event Ex.strayIxn) db).1 = .err .notEnoughSigs ∧
    (process sled Ex.env (.event Ex.strayIxn) db).2.kel Ex.id = [Ex.icp, Ex.rot] ∧
    ∃ d ∈ crashStates Ex.env (.submit (.event Ex.strayIxn)) db, d.kel Ex.id = [Ex.icp, Ex.rot, Ex.strayIxn] ∧
      (computeState sled Ex.env Ex.id d).1 = .ok (some { Ex.rotState with sn := 2, lastDigest := Ex.strayIxn.dig }) ∧
      (process sled Ex.env (.event Ex.ixn) d).1.isOk = false := by decide +kernel

/-- the conditions of the theorems above are met: a reachable database with a log of two events, an applicable event -/
example : Ex.id.toStr ≠ [] ∧ Ex.strayIxn.pre = Ex.id ∧
    ((after Ex.env [.submit (.event Ex.icp), .submit (.event Ex.rot)]).kel Ex.id).all SignedEvent.rt = true ∧
    (stateAfter Ex.env ((after Ex.env [.submit (.event Ex.icp), .submit (.event Ex.rot)]).kel Ex.id)) = .ok Ex.rotState ∧
    (Ex.strayIxn.msg.applyTo Ex.env Ex.rotState).isOk = true ∧
    (crashStates Ex.env (.submit (.event Ex.strayIxn)) (after Ex.env [.submit (.event Ex.icp), .submit (.event Ex.rot)])).length > 4 := by
  decide +kernel

end Keriox
