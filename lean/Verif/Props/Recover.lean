import Verif.Props.Dirty
/-!
# C114: submitting again after a crash

A client hands over its messages one after another.  Any attempt may be cut short by killing the process at any access to the database; then the
node is started again and the client submits the same message again, as often as it takes.
-/
namespace Keriox

/-! ## Specification -/

/-- the messages are submitted in order to the database `db`, every one until it is answered; in between other calls that submit no event may run, and
the process may be killed at any moment; at the end the database is `db'` -/
inductive Retried (env : Env) : Db → List Message → Db → Prop
  | done (db : Db) : Retried env db [] db
  /-- killed before there was an answer: submit again -/
  | killed {db d db' : Db} {m : Message} {ms : List Message} :
      d ∈ crashStates env (.submit m) db → Retried env d (m :: ms) db' → Retried env db (m :: ms) db'
  /-- answered, whatever the answer -/
  | answered {db db' : Db} {m : Message} {ms : List Message} :
      Retried env (process sled env m db).2 ms db' → Retried env db (m :: ms) db'
  /-- another call, complete or not -/
  | between {db d db' : Db} {ms : List Message} (act : Action) :
      act.isEvent = false → d ∈ act.run sled env db :: crashStates env act db → Retried env d ms db' → Retried env db ms db'

/-- the database after submitting the messages with nothing going wrong -/
def inOrder (env : Env) (ms : List Message) (db : Db) : Db := ms.foldl (fun d m => (process sled env m d).2) db

/-- with nothing going wrong every event is accepted -/
def AllAccepted (env : Env) : List Message → Db → Prop
  | [], _ => True
  | m :: ms, db => (∀ e, m = .event e → ∃ st, (process sled env m db).1 = .ok st) ∧ AllAccepted env ms (process sled env m db).2

/-! ## Helper lemmas -/

/-- the same logs -/
def LogsAgree (d c : Db) : Prop := ∀ x, d.abs.log x = c.abs.log x

theorem LogsAgree.trans {a b c : Db} (h : LogsAgree a b) (h' : LogsAgree b c) : LogsAgree a c := fun x => (h x).trans (h' x)
theorem LogsAgree.symm {a b : Db} (h : LogsAgree a b) : LogsAgree b a := fun x => (h x).symm

/-- a call that submits no event leaves the logs, at every moment -/
theorem nonevent_logs (env : Env) (act : Action) (h : act.isEvent = false) (db : Db) (hinv : db.Inv) (d : Db)
    (hd : d ∈ act.run sled env db :: crashStates env act db) : d.Inv ∧ LogsAgree d db := by
  have fin : (d.Inv ∧ SameLogs db d) → d.Inv ∧ LogsAgree d db := fun h => ⟨h.1, fun x => h.2.log x⟩
  have h0 : Along (SameLogs db) (SameLogs db) ⟨db, [], []⟩ db := Along.start db hinv rfl
  have ho := along_sameLogs db (P := SameLogs db) (fun _ h => h)
  rcases List.mem_cons.1 hd with rfl | hd
  · have hs := action_sim sled_sim env act db hinv
    refine ⟨hs.1, fun x => ?_⟩
    rw [hs.2]
    unfold MapDb.log
    have : (act.run mapOps env db.abs).tables .kels x = db.abs.tables .kels x := by
      cases act with
      | reprocess => exact congrFun (escrow_writes env db.abs .kels (by simp)) x
      | lookup t id => rw [Action.run, ReadOnly.read t id db.abs]
      | submit m =>
        cases m with
        | rctNt r => exact witnessReceipt_writes env r db.abs .kels x (.inr (by simp))
        | rctT r => exact validatorReceipt_writes env r db.abs .kels x (.inr (by simp))
        | reply r => exact signedReply_writes env r db.abs .kels x (.inr (by simp))
        | query q => rfl
        | event e => cases h
    rw [this]
  unfold crashStates at hd
  rcases List.mem_cons.1 hd with rfl | hd
  · exact ⟨hinv, fun _ => rfl⟩
  cases act with
  | reprocess => exact fin ((processEscrow_par ho (by simp) (by simp) env _ _ h0).2.past d hd)
  | lookup t id => exact fin ((ho.read t id _ _ h0).2.past d hd)
  | submit m =>
    cases m with
    | rctNt r => exact fin ((processWitnessReceipt_par ho (by simp) (by simp) env r _ _ h0).2.past d hd)
    | rctT r => exact fin ((processValidatorReceipt_par ho (by simp) (by simp) env r _ _ h0).2.past d hd)
    | reply r => exact fin ((processSignedReply_par ho (by simp) (by simp) env r _ _ h0).2.past d hd)
    | query q => exact (List.not_mem_nil hd).elim
    | event e => cases h

/-- an event leaves the other logs, at every moment -/
theorem event_others (env : Env) (e : SignedEvent) (db : Db) (hinv : db.Inv) (d : Db)
    (hd : d = (process sled env (.event e) db).2 ∨ d ∈ crashStates env (.submit (.event e)) db) (x : Bytes) (hx : x ≠ e.pre.toStr) :
    d.abs.log x = db.abs.log x := by
  rcases hd with rfl | hd
  · rw [(process_abs env db hinv (.event e)).2.1]
    unfold MapDb.log
    rw [show (process mapOps env (.event e) db.abs).2.tables .kels x = db.abs.tables .kels x from
      processEvent_writes env e db.abs .kels x (.inl hx)]
  unfold crashStates at hd
  rcases List.mem_cons.1 hd with rfl | hd
  · rfl
  have h := (processEvent_others env db e _ _ (Along.start db hinv fun _ _ => rfl)).2.past d hd
  unfold MapDb.log
  show (d.vec .kels x).getD [] = (db.vec .kels x).getD []
  rw [h.2 x hx]

/-- an event that is accepted is appended -/
theorem accepted_appends (env : Env) (e : SignedEvent) (hid : e.pre.toStr ≠ []) (db : Db) (hr : Reach env db) (st : Option IdState)
    (h : (process sled env (.event e) db).1 = .ok st) :
    ∃ s new, Log env e.pre.toStr (db.abs.log e.pre.toStr) s ∧ e.msg.applyTo env s = .ok new ∧
      (process sled env (.event e) db).2.abs.log e.pre.toStr = db.abs.log e.pre.toStr ++ [e.stored] := by
  obtain ⟨hinv, hg⟩ := hr.good
  obtain ⟨s, hl⟩ := hg _ hid
  have ho := processEvent_outcome env e db.abs hid hl
  obtain ⟨h1, h2, _⟩ := process_abs env db hinv (.event e)
  rw [h] at h1
  rw [h2]
  change Outcome env db.abs e s (process mapOps env (.event e) db.abs).1 (process mapOps env (.event e) db.abs).2 at ho
  rw [← h1] at ho
  generalize (process mapOps env (.event e) db.abs).2 = a' at ho
  cases ho with
  | refused hn _ _ => exact absurd rfl (hn st)
  | @stored new _ hrd hap hs _ =>
    refine ⟨s, new, hl, hap, ?_⟩
    generalize hr : (Res.ok st : Res (Option IdState)) = r at hs
    generalize a'.log e.pre.toStr = l at hs
    cases hs <;> first | rfl | cases hr

/-- an event that is in the log already is refused, and the log stays, at every moment -/
theorem present_nothing (env : Env) (e : SignedEvent) (hid : e.pre.toStr ≠ []) (db : Db) (hr : Reach env db) (hin : e.stored ∈ db.abs.log e.pre.toStr) :
    (∀ st, (process sled env (.event e) db).1 ≠ .ok st) ∧
    ∀ d, d = (process sled env (.event e) db).2 ∨ d ∈ crashStates env (.submit (.event e)) db → LogsAgree d db := by
  obtain ⟨hinv, hg⟩ := hr.good
  obtain ⟨new, hl'⟩ := hg _ hid
  have no : ∀ n, e.msg.applyTo env new ≠ .ok n := by
    intro n hn
    exact log_no_sn hid hl' hn e.stored hin rfl
  have ho := processEvent_outcome env e db.abs hid hl'
  obtain ⟨h1, h2, _⟩ := process_abs env db hinv (.event e)
  change Outcome env db.abs e new (process mapOps env (.event e) db.abs).1 (process mapOps env (.event e) db.abs).2 at ho
  rw [← h1, ← h2] at ho
  have key : (∀ st, (process sled env (.event e) db).1 ≠ .ok st) ∧ (process sled env (.event e) db).2.abs.tables = db.abs.tables := by
    generalize (process sled env (.event e) db).1 = r at ho
    generalize (process sled env (.event e) db).2.abs = a' at ho
    cases ho with
    | refused hn ht _ => exact ⟨hn, ht⟩
    | stored _ _ hap' _ _ => exact absurd hap' (no _)
  refine ⟨key.1, fun d hd x => ?_⟩
  by_cases hx : x = e.pre.toStr
  · subst hx
    rcases hd with rfl | hd
    · exact MapDb.log_congr key.2 _
    · rcases (crash_log env _ db hinv hg d hd).2 _ hid with h | ⟨e', s', n', he, _, hs', hn', _⟩
      · exact h
      · cases he
        rw [hs'.unique hl'] at hn'
        exact absurd hn' (no _)
  · exact event_others env e db hinv d hd x hx

theorem again_nothing (env : Env) (e : SignedEvent) (hid : e.pre.toStr ≠ []) (db : Db) (hr : Reach env db) (l : List SignedEvent)
    (hdb : db.abs.log e.pre.toStr = l ++ [e.stored]) :
    (∀ st, (process sled env (.event e) db).1 ≠ .ok st) ∧
    ∀ d, d = (process sled env (.event e) db).2 ∨ d ∈ crashStates env (.submit (.event e)) db → LogsAgree d db :=
  present_nothing env e hid db hr (by rw [hdb]; simp)

/-- with the same logs the event is accepted with the same answer, and the logs are the same afterwards -/
theorem same_logs_event (env : Env) (e : SignedEvent) (db c : Db) (hr : Reach env db) (hc : Reach env c) (h : LogsAgree db c)
    (st : Option IdState) (hst : (process sled env (.event e) c).1 = .ok st) :
    (process sled env (.event e) db).1 = .ok st ∧ LogsAgree (process sled env (.event e) db).2 (process sled env (.event e) c).2 := by
  obtain ⟨h1, h2, _⟩ := process_abs env db hr.good.1 (.event e)
  obtain ⟨g1, g2, _⟩ := process_abs env c hc.good.1 (.event e)
  have hloc := processEvent_local env e (a := db.abs) (b := c.abs) (h _) (fun d _ => h _)
  constructor
  · rw [h1]
    rw [g1] at hst
    change (processEvent mapOps env e c.abs).1 = _ at hst
    change (processEvent mapOps env e db.abs).1 = _
    have := hloc.1
    rw [hst] at this
    generalize (processEvent mapOps env e db.abs).1 = r at this
    cases r <;> simp only [Res.Alike] at this
    rw [this]
  · intro x
    by_cases hx : x = e.pre.toStr
    · subst hx; rw [h2, g2]; exact hloc.2
    · rw [event_others env e db hr.good.1 _ (.inl rfl) x hx, event_others env e c hc.good.1 _ (.inl rfl) x hx, h x]

/-- killed during an event that would be accepted: the logs are as before or as after -/
theorem killed_event (env : Env) (e : SignedEvent) (hid : e.pre.toStr ≠ []) (db c : Db) (hr : Reach env db) (hc : Reach env c) (h : LogsAgree db c)
    (st : Option IdState) (hst : (process sled env (.event e) c).1 = .ok st) (d : Db) (hd : d ∈ crashStates env (.submit (.event e)) db) :
    LogsAgree d c ∨ LogsAgree d (process sled env (.event e) c).2 := by
  obtain ⟨s, new, _, _, happ⟩ := accepted_appends env e hid c hc st hst
  have others : ∀ x, x ≠ e.pre.toStr → d.abs.log x = c.abs.log x := fun x hx => by
    rw [event_others env e db hr.good.1 d (.inr hd) x hx, h x]
  rcases (crash_log env _ db hr.good.1 hr.good.2 d hd).2 _ hid with hl | ⟨e', _, _, he, _, _, _, hl⟩
  · left
    intro x
    by_cases hx : x = e.pre.toStr
    · subst hx; rw [hl, h]
    · exact others x hx
  · right
    cases he
    intro x
    by_cases hx : x = e.pre.toStr
    · subst hx; rw [hl, h, happ]
    · rw [others x hx, event_others env e c hc.good.1 _ (.inl rfl) x hx]

theorem nonevent_process (env : Env) (m : Message) (hm : ∀ e, m ≠ .event e) (db : Db) (hr : Reach env db) :
    LogsAgree (process sled env m db).2 db :=
  (nonevent_logs env (.submit m) (by cases m <;> first | rfl | exact absurd rfl (hm _)) db hr.good.1 _ (List.mem_cons_self)).2

theorem Reach.process {env : Env} {db : Db} (h : Reach env db) (m : Message) : Reach env (Keriox.process sled env m db).2 :=
  Reach.call (.submit m) h

/-- from the same logs, or from logs in which the first message already is, the logs end the same -/
theorem retried_logs (env : Env) {db db' : Db} {ms : List Message} (h : Retried env db ms db') :
    ∀ c : Db, Reach env db → Reach env c → (∀ e, .event e ∈ ms → e.pre.toStr ≠ []) → AllAccepted env ms c →
      (LogsAgree db c ∨ ∃ e ms', ms = .event e :: ms' ∧ LogsAgree db (process sled env (.event e) c).2) →
      Reach env db' ∧ LogsAgree db' (inOrder env ms c) := by
  induction h with
  | done db =>
    rintro c hr hc hid ha (h | ⟨e, ms', he, _⟩)
    · exact ⟨hr, h⟩
    · cases he
  | @between db d db' ms act hact hd hret ih =>
    intro c hr hc hid ha hs
    have hl := (nonevent_logs env act hact db hr.good.1 d hd).2
    have hrd : Reach env d := by
      rcases List.mem_cons.1 hd with rfl | hd
      · exact .call act hr
      · exact .crash act hr hd
    refine ih c hrd hc hid ha ?_
    rcases hs with h | ⟨e, ms', he, h⟩
    · exact .inl (hl.trans h)
    · exact .inr ⟨e, ms', he, hl.trans h⟩
  | @killed db d db' m ms hd hret ih =>
    intro c hr hc hid ha hs
    refine ih c (.crash _ hr hd) hc hid ha ?_
    by_cases hm : ∃ e, m = .event e
    · obtain ⟨e, rfl⟩ := hm
      have hide := hid e (by simp)
      obtain ⟨st, hst⟩ := ha.1 e rfl
      rcases hs with h | ⟨e', ms', he, h⟩
      · rcases killed_event env e hide db c hr hc h st hst d hd with h | h
        · exact .inl h
        · exact .inr ⟨e, ms, rfl, h⟩
      · cases he
        right
        refine ⟨e, ms, rfl, ?_⟩
        obtain ⟨s, new, hl, hap, happ⟩ := accepted_appends env e hide c hc st hst
        exact ((again_nothing env e hide db hr _ ((h _).trans happ)).2 d (.inr hd)).trans h
    · have hne : ∀ e, m ≠ .event e := fun e he => hm ⟨e, he⟩
      have hl := (nonevent_logs env (.submit m) (by cases m <;> first | rfl | exact absurd rfl (hne _)) db hr.good.1 d (List.mem_cons_of_mem _ hd)).2
      rcases hs with h | ⟨e, ms', he, h⟩
      · exact .inl (hl.trans h)
      · cases he; exact absurd rfl (hne _)
  | @answered db db' m ms hret ih =>
    intro c hr hc hid ha hs
    show Reach env db' ∧ LogsAgree db' (inOrder env ms (process sled env m c).2)
    refine ih _ (hr.process m) (hc.process m) (fun e he => hid e (List.mem_cons_of_mem _ he)) ha.2 (.inl ?_)
    by_cases hm : ∃ e, m = .event e
    · obtain ⟨e, rfl⟩ := hm
      have hide := hid e (by simp)
      obtain ⟨st, hst⟩ := ha.1 e rfl
      rcases hs with h | ⟨e', ms', he, h⟩
      · exact (same_logs_event env e db c hr hc h st hst).2
      · cases he
        obtain ⟨s, new, hl, hap, happ⟩ := accepted_appends env e hide c hc st hst
        exact ((again_nothing env e hide db hr _ ((h _).trans happ)).2 _ (.inl rfl)).trans h
    · have hne : ∀ e, m ≠ .event e := fun e he => hm ⟨e, he⟩
      rcases hs with h | ⟨e, ms', he, h⟩
      · exact (nonevent_process env m hne db hr).trans (h.trans (nonevent_process env m hne c hc).symm)
      · cases he; exact absurd rfl (hne _)

/-! ## C114 -/

/-- C114: whatever is killed and however often the messages are submitted again: if without crashes every event would be accepted, the logs at the
end are those without crashes, and so is the key state of every identifier that has events. -/
theorem C114_retry (env : Env) (db db' : Db) (hr : Reach env db) (ms : List Message) (hid : ∀ e, .event e ∈ ms → e.pre.toStr ≠ [])
    (ha : AllAccepted env ms db) (h : Retried env db ms db') (id : IdentifierPrefix) :
    db'.kel id = (inOrder env ms db).kel id ∧
    ((inOrder env ms db).kel id ≠ [] → (computeState sled env id db').1 = (computeState sled env id (inOrder env ms db)).1) := by
  obtain ⟨hr', hl⟩ := retried_logs env h db hr hr hid ha (.inl fun _ => rfl)
  have hrs : ∀ (ms : List Message) (db : Db), Reach env db → Reach env (inOrder env ms db) := by
    intro ms
    induction ms with
    | nil => exact fun _ h => h
    | cons m ms ih => exact fun db h => ih _ (h.process m)
  refine ⟨hl _, fun hne => ?_⟩
  rw [(computeState_sim sled_sim env id db' hr'.good.1).1, (computeState_sim sled_sim env id _ (hrs ms db hr).good.1).1]
  rcases computeState_local env id (a := db'.abs) (b := (inOrder env ms db).abs) (hl _) with h | ⟨h, _⟩
  · exact h
  · rw [hl] at h; exact absurd h hne

/-- C114, the answers: when an event that would have been accepted is submitted again after the process was killed, either it is accepted, with the answer
that was due, or it is refused, and then it is in the log already. -/
theorem C114_answer (env : Env) (db d : Db) (hr : Reach env db) (e : SignedEvent) (hid : e.pre.toStr ≠ []) (st : Option IdState)
    (hst : (process sled env (.event e) db).1 = .ok st) (hd : d ∈ crashStates env (.submit (.event e)) db) :
    (process sled env (.event e) d).2.kel e.pre = db.kel e.pre ++ [e.stored] ∧
    ((d.kel e.pre = db.kel e.pre ∧ (process sled env (.event e) d).1 = .ok st) ∨
     (d.kel e.pre = db.kel e.pre ++ [e.stored] ∧ ∀ st', (process sled env (.event e) d).1 ≠ .ok st')) := by
  obtain ⟨s, new, hl, hap, happ⟩ := accepted_appends env e hid db hr st hst
  have hrd : Reach env d := .crash _ hr hd
  rcases killed_event env e hid db db hr hr (fun _ => rfl) st hst d hd with h | h
  · obtain ⟨h1, h2⟩ := same_logs_event env e d db hrd hr h st hst
    exact ⟨(h2 _).trans happ, .inl ⟨h _, h1⟩⟩
  · obtain ⟨h1, h2⟩ := again_nothing env e hid d hrd _ ((h _).trans happ)
    exact ⟨(h2 _ (.inl rfl) _).trans ((h _).trans happ), .inr ⟨(h _).trans happ, h1⟩⟩

/-! ### A power failure may take back answered calls -/

/-- the database `d` was passed through while the messages were submitted in order to `db` -/
def Passed (env : Env) (ms : List Message) (db d : Db) : Prop :=
  ∃ i m, ms[i]? = some m ∧ d ∈ crashStates env (.submit m) (inOrder env (ms.take i) db)

/-- the node is restarted any number of times, each time on a database passed through since the last restart, and each time the client submits all messages
again, from the first -/
inductive Restarted (env : Env) (ms : List Message) (db : Db) : Db → Prop
  | first : Restarted env ms db db
  | again {d d' : Db} : Restarted env ms db d → Passed env ms d d' → Restarted env ms db d'

theorem inOrder_snoc (env : Env) (ms : List Message) (m : Message) (db : Db) :
    inOrder env (ms ++ [m]) db = (process sled env m (inOrder env ms db)).2 := by
  unfold inOrder; rw [List.foldl_append]; rfl

theorem inOrder_take_succ (env : Env) {ms : List Message} {i : Nat} {m : Message} (h : ms[i]? = some m) (db : Db) :
    inOrder env (ms.take (i + 1)) db = (process sled env m (inOrder env (ms.take i) db)).2 := by
  rw [← inOrder_snoc, List.take_succ, h]; rfl

theorem Reach.inOrder {env : Env} {db : Db} (h : Reach env db) (ms : List Message) : Reach env (Keriox.inOrder env ms db) := by
  induction ms using snoc_induction with
  | h0 => exact h
  | h1 ms m ih => rw [inOrder_snoc]; exact ih.process m

theorem AllAccepted.at {env : Env} {ms : List Message} {db : Db} (h : AllAccepted env ms db) {i : Nat} {e : SignedEvent} (hi : ms[i]? = some (.event e)) :
    ∃ st, (process sled env (.event e) (inOrder env (ms.take i) db)).1 = .ok st := by
  induction ms generalizing db i with
  | nil => simp at hi
  | cons m ms ih =>
    cases i with
    | zero =>
      rw [List.getElem?_cons_zero, Option.some.injEq] at hi
      subst hi
      exact h.1 e rfl
    | succ i =>
      rw [List.getElem?_cons_succ] at hi
      exact ih h.2 hi

/-- what was accepted stays in the log -/
theorem accepted_stays (env : Env) (ms : List Message) (db : Db) (hr : Reach env db) (hid : ∀ e, .event e ∈ ms → e.pre.toStr ≠ [])
    (ha : AllAccepted env ms db) (i p : Nat) (hip : i < p) (e : SignedEvent) (hi : ms[i]? = some (.event e)) :
    e.stored ∈ (inOrder env (ms.take p) db).abs.log e.pre.toStr := by
  have hide := hid e (List.mem_of_getElem? hi)
  obtain ⟨st, hst⟩ := ha.at hi
  obtain ⟨s, new, _, _, happ⟩ := accepted_appends env e hide _ (hr.inOrder _) st hst
  induction p with
  | zero => omega
  | succ p ih =>
    by_cases hp : i = p
    · subst hp
      rw [inOrder_take_succ env hi, happ]
      simp
    · have hin := ih (by omega)
      cases hm : ms[p]? with
      | none =>
        have : ms.length ≤ p := List.getElem?_eq_none_iff.1 hm
        rw [List.take_of_length_le (by omega)]
        rwa [List.take_of_length_le this] at hin
      | some m =>
        rw [inOrder_take_succ env hm]
        have hrp : Reach env (inOrder env (ms.take p) db) := hr.inOrder _
        by_cases hev : ∃ e', m = .event e'
        · obtain ⟨e', rfl⟩ := hev
          obtain ⟨st', hst'⟩ := ha.at hm
          obtain ⟨_, _, _, _, happ'⟩ := accepted_appends env e' (hid e' (List.mem_of_getElem? hm)) _ hrp st' hst'
          by_cases hx : e.pre.toStr = e'.pre.toStr
          · rw [hx, happ']
            rw [hx] at hin
            simp [hin]
          · rw [event_others env e' _ hrp.good.1 _ (.inl rfl) _ hx]
            exact hin
        · rw [nonevent_process env m (fun e' he => hev ⟨e', he⟩) _ hrp]
          exact hin

/-- submitting everything again, from logs that hold the events of the first `p` messages -/
theorem resubmitted (env : Env) (ms : List Message) (db : Db) (hr : Reach env db) (hid : ∀ e, .event e ∈ ms → e.pre.toStr ≠ [])
    (ha : AllAccepted env ms db) (p : Nat) (d : Db) (hd : Reach env d) (h : LogsAgree d (inOrder env (ms.take p) db)) (i : Nat) :
    LogsAgree (inOrder env (ms.take i) d) (inOrder env (ms.take (max i p)) db) := by
  induction i with
  | zero => rw [Nat.zero_max]; exact h
  | succ i ih =>
    cases hm : ms[i]? with
    | none =>
      have : ms.length ≤ i := List.getElem?_eq_none_iff.1 hm
      rw [List.take_of_length_le (by omega : ms.length ≤ max i p), List.take_of_length_le this] at ih
      rw [List.take_of_length_le (by omega : ms.length ≤ i + 1), List.take_of_length_le (by omega : ms.length ≤ max (i + 1) p)]
      exact ih
    | some m =>
      rw [inOrder_take_succ env hm]
      have hri : Reach env (inOrder env (ms.take i) d) := hd.inOrder _
      by_cases hip : i < p
      · rw [show max i p = p by omega] at ih
        rw [show max (i + 1) p = p by omega]
        by_cases hev : ∃ e, m = .event e
        · obtain ⟨e, rfl⟩ := hev
          have hide := hid e (List.mem_of_getElem? hm)
          refine ((present_nothing env e hide _ hri ?_).2 _ (.inl rfl)).trans ih
          rw [ih]
          exact accepted_stays env ms db hr hid ha i p hip e hm
        · exact (nonevent_process env m (fun e he => hev ⟨e, he⟩) _ hri).trans ih
      · rw [show max i p = i by omega] at ih
        rw [show max (i + 1) p = i + 1 by omega, inOrder_take_succ env hm]
        have hrc : Reach env (inOrder env (ms.take i) db) := hr.inOrder _
        by_cases hev : ∃ e, m = .event e
        · obtain ⟨e, rfl⟩ := hev
          obtain ⟨st, hst⟩ := ha.at hm
          exact (same_logs_event env e _ _ hri hrc ih st hst).2
        · have hne : ∀ e, m ≠ .event e := fun e he => hev ⟨e, he⟩
          exact (nonevent_process env m hne _ hri).trans (ih.trans (nonevent_process env m hne _ hrc).symm)

theorem passed_logs (env : Env) (ms : List Message) (db : Db) (hr : Reach env db) (hid : ∀ e, .event e ∈ ms → e.pre.toStr ≠ [])
    (ha : AllAccepted env ms db) (p : Nat) (d : Db) (hd : Reach env d) (h : LogsAgree d (inOrder env (ms.take p) db)) (d' : Db) (hp : Passed env ms d d') :
    Reach env d' ∧ ∃ q, LogsAgree d' (inOrder env (ms.take q) db) := by
  obtain ⟨i, m, hm, hd'⟩ := hp
  have hri : Reach env (inOrder env (ms.take i) d) := hd.inOrder _
  have hag := resubmitted env ms db hr hid ha p d hd h i
  refine ⟨.crash _ hri hd', ?_⟩
  by_cases hev : ∃ e, m = .event e
  · obtain ⟨e, rfl⟩ := hev
    have hide := hid e (List.mem_of_getElem? hm)
    by_cases hip : i < p
    · refine ⟨max i p, ((present_nothing env e hide _ hri ?_).2 _ (.inr hd')).trans hag⟩
      rw [hag, show max i p = p by omega]
      exact accepted_stays env ms db hr hid ha i p hip e hm
    · rw [show max i p = i by omega] at hag
      obtain ⟨st, hst⟩ := ha.at hm
      rcases killed_event env e hide _ _ hri (hr.inOrder _) hag st hst d' hd' with h | h
      · exact ⟨i, h⟩
      · exact ⟨i + 1, by rw [inOrder_take_succ env hm]; exact h⟩
  · have hne : ∀ e, m ≠ .event e := fun e he => hev ⟨e, he⟩
    exact ⟨max i p, ((nonevent_logs env (.submit m) (by cases m <;> first | rfl | exact absurd rfl (hne _)) _ hri.good.1 d'
      (List.mem_cons_of_mem _ hd')).2).trans hag⟩

/-- C114, power failures: if a failure may throw the database back to any state that it passed through, and the client then submits all its messages again
from the first, once it gets through the logs are those without failures. -/
theorem C114_from_the_first (env : Env) (db d : Db) (hr : Reach env db) (ms : List Message) (hid : ∀ e, .event e ∈ ms → e.pre.toStr ≠ [])
    (ha : AllAccepted env ms db) (h : Restarted env ms db d) (id : IdentifierPrefix) :
    (inOrder env ms d).kel id = (inOrder env ms db).kel id := by
  have key : Reach env d ∧ ∃ p, LogsAgree d (inOrder env (ms.take p) db) := by
    induction h with
    | first => exact ⟨hr, 0, fun _ => rfl⟩
    | again _ hp ih =>
      obtain ⟨h1, p, h2⟩ := ih
      exact passed_logs env ms db hr hid ha p _ h1 h2 _ hp
  obtain ⟨hd, p, hp⟩ := key
  have := resubmitted env ms db hr hid ha p d hd hp ms.length
  rw [List.take_length, List.take_of_length_le (by omega)] at this
  exact this _

/-- C114 does not clean up: an event that is refused, left in the log by a kill (C59), stays there when it is submitted again. -/
theorem C114_fails_refused (env : Env) (db : Db) (hr : Reach env db) (e : SignedEvent) (hid : e.pre.toStr ≠ [])
    (d : Db) (hd : d ∈ crashStates env (.submit (.event e)) db) (hleft : d.kel e.pre = db.kel e.pre ++ [e.stored]) :
    (∀ st, (process sled env (.event e) d).1 ≠ .ok st) ∧ (process sled env (.event e) d).2.kel e.pre = db.kel e.pre ++ [e.stored] := by
  rcases (crash_log env _ db hr.good.1 hr.good.2 d hd).2 _ hid with h | ⟨e', s, new, he, _, hl, hap, h⟩
  · have : db.abs.log e.pre.toStr = db.abs.log e.pre.toStr ++ [e.stored] := h.symm.trans hleft
    have := congrArg List.length this
    simp at this
  · cases he
    obtain ⟨h1, h2⟩ := again_nothing env e hid d (.crash _ hr hd) _ h
    exact ⟨h1, (h2 _ (.inl rfl) _).trans h⟩

/-- C114 is about the logs: a receipt that is submitted again because the process was killed after storing it is stored twice. -/
theorem C114_fails_receipt :
    ∃ d ∈ crashStates Ex.env (.submit (.rctT Ex.rct)) (after Ex.env Ex.rctHist),
      (getReceiptsT sled Ex.id (process sled Ex.env (.rctT Ex.rct) d).2).1 = .ok (some [Ex.rct, Ex.rct]) ∧
      (getReceiptsT sled Ex.id (process sled Ex.env (.rctT Ex.rct) (after Ex.env Ex.rctHist)).2).1 = .ok (some [Ex.rct]) := by
  decide +kernel

theorem Res.exists_of_isOk {α : Type} {r : Res α} (h : r.isOk = true) : ∃ a, r = .ok a := by
  cases r with
  | ok a => exact ⟨a, rfl⟩
  | err _ => cases h
  | panic => cases h

/-- hypotheses met: an inception, a rotation and an interaction, all accepted, a receipt in between -/
def Ex.msgs : List Message := [.event Ex.icp, .rctNt Ex.badNt, .event Ex.rot, .event Ex.ixn]

example : AllAccepted Ex.env Ex.msgs Db.empty ∧ (∀ e, Message.event e ∈ Ex.msgs → e.pre.toStr ≠ []) := by
  constructor
  · refine ⟨fun e _ => ?_, fun e h => (by cases h), fun e _ => ?_, fun e _ => ?_, trivial⟩
    · exact Res.exists_of_isOk (by decide +kernel)
    · exact Res.exists_of_isOk (by decide +kernel)
    · exact Res.exists_of_isOk (by decide +kernel)
  · intro e he
    simp only [Ex.msgs, List.mem_cons, Message.event.injEq, List.not_mem_nil, or_false, reduceCtorEq, false_or] at he
    rcases he with rfl | rfl | rfl <;> decide +kernel

/-- … and the process is killed after the inception was written and before it was answered: the client is told of a duplicate, and goes on -/
example : ∃ d ∈ crashStates Ex.env (.submit (.event Ex.icp)) Db.empty, d.kel Ex.id = [Ex.icp] ∧
    (process sled Ex.env (.event Ex.icp) d).1.isOk = false ∧
    Retried Ex.env Db.empty Ex.msgs (inOrder Ex.env Ex.msgs d) ∧ (inOrder Ex.env Ex.msgs d).kel Ex.id = [Ex.icp, Ex.rot, Ex.ixn] := by
  have h : ∃ d ∈ crashStates Ex.env (.submit (.event Ex.icp)) Db.empty, d.kel Ex.id = [Ex.icp] ∧ (process sled Ex.env (.event Ex.icp) d).1.isOk = false ∧
      (inOrder Ex.env Ex.msgs d).kel Ex.id = [Ex.icp, Ex.rot, Ex.ixn] := by decide +kernel
  obtain ⟨d, hd, h1, h2, h3⟩ := h
  exact ⟨d, hd, h1, h2, .killed hd (.answered (.answered (.answered (.answered (.done _))))), h3⟩

/-- twice thrown back to the moment before the third message -/
example : ∃ d d', Passed Ex.env Ex.msgs Db.empty d ∧ Passed Ex.env Ex.msgs d d' ∧ d.kel Ex.id = [Ex.icp] ∧ d'.kel Ex.id = [Ex.icp] ∧
    (getEscrowNt sled Ex.id d').1 = .ok (some [Ex.badNt, Ex.badNt]) ∧ (inOrder Ex.env Ex.msgs d').kel Ex.id = [Ex.icp, Ex.rot, Ex.ixn] := by
  refine ⟨inOrder Ex.env (Ex.msgs.take 2) Db.empty, inOrder Ex.env (Ex.msgs.take 2) (inOrder Ex.env (Ex.msgs.take 2) Db.empty),
    ⟨2, _, rfl, List.mem_cons_self⟩, ⟨2, _, rfl, List.mem_cons_self⟩, ?_⟩
  decide +kernel

end Keriox
