import Verif.Props.Handshake
import Verif.Props.QueryCrash
/-!
# C97: what `respond` answers to a stream of messages, exactly
-/
namespace Keriox

/-! ## Specification -/

/-- the event is an inception, and its controller has not receipted our inception (`rs` are the stored receipts of our events) -/
def Introduces (rs : List TReceipt) (e : SignedEvent) : Prop :=
  (∃ x, e.data = .icp x) ∧ ∀ r ∈ rs, r.body.sn = 0 → r.validatorSeal.prefix ≠ e.pre

/-- the text is a good answer to an accepted message.  A receipt of a controller needs no answer; an event is answered with our receipt for it, and if it
introduces its controller, with our log (`mine`) before that. -/
inductive GoodAnswer (bin : Binary) (env : Env) (db : Db) (me : IdentifierPrefix) (rs : List TReceipt) (mine : Bytes) : Message → Bytes → Prop
  | receipt (r : TReceipt) : GoodAnswer bin env db me rs mine (.rctT r) []
  | known (e : SignedEvent) (r : TReceipt) (t : Bytes) : ¬ Introduces rs e → ReadsAs bin t (.rctT r) →
      RctFor env e.pre (db.kel e.pre) me (db.kel me) e.sn r → GoodAnswer bin env db me rs mine (.event e) t
  | new (e : SignedEvent) (r : TReceipt) (t : Bytes) : Introduces rs e → ReadsAs bin t (.rctT r) →
      RctFor env e.pre (db.kel e.pre) me (db.kel me) e.sn r → GoodAnswer bin env db me rs mine (.event e) (mine ++ t)

/-- the list of texts answers the list of messages one by one -/
inductive GoodAnswers (bin : Binary) (env : Env) (db : Db) (me : IdentifierPrefix) (rs : List TReceipt) (mine : Bytes) : List Message → List Bytes → Prop
  | nil : GoodAnswers bin env db me rs mine [] []
  | cons {m ms t ts} : GoodAnswer bin env db me rs mine m t → GoodAnswers bin env db me rs mine ms ts →
      GoodAnswers bin env db me rs mine (m :: ms) (t :: ts)

/-- the messages of a stream that can be made out -/
def understood (ds : List SignedDataQ) : List Message := ds.filterMap fun d => match d.toMessage with | .ok m => some m | _ => none

/-! ## Proof -/

theorem respondAllQ_run (env : Env) (ds : List SignedDataQ) (hd : ∀ d ∈ ds, d.toMessage ≠ .panic) (db : Db) :
    (¬ crashesOn env (understood ds) db →
      respondAllQ sled env ds db = (.ok (acceptedOf env (understood ds) db), runHistory sled env db ((understood ds).map .submit))) ∧
    (crashesOn env (understood ds) db → (respondAllQ sled env ds db).1 = .panic) := by
  induction ds generalizing db with
  | nil => exact ⟨fun _ => rfl, fun h => h.elim⟩
  | cons d ds ih =>
    have ih := ih fun x hx => hd x (by simp [hx])
    cases ht : d.toMessage with
    | panic => exact absurd ht (hd d (by simp))
    | err er =>
      have hu : understood (d :: ds) = understood ds := by simp [understood, ht]
      have hone : respondOneQ sled env d db = (.err er, db) := by unfold respondOneQ; rw [ht]; rfl
      rw [hu]
      obtain ⟨i1, i2⟩ := ih db
      constructor
      · intro hc
        unfold respondAllQ
        exact StM.bind_ok (StM.result_err hone) (StM.bind_ok (i1 hc) rfl)
      · intro hc
        unfold respondAllQ
        have := i2 hc
        rcases hx : respondAllQ sled env ds db with ⟨r', db''⟩
        rw [hx] at this
        cases this
        rw [StM.bind_ok (StM.result_err hone) (StM.bind_panic hx)]
    | ok m =>
      have hu : understood (d :: ds) = m :: understood ds := by simp [understood, ht]
      rw [hu]
      obtain ⟨i1, i2⟩ := ih (process sled env m db).2
      have hone : respondOneQ sled env d db = match process sled env m db with
          | (.ok _, db') => (.ok m, db')
          | (.err e, db') => (.err e, db')
          | (.panic, db') => (.panic, db') := by
        unfold respondOneQ
        refine StM.bind_ok (a := m) (s' := db) (by rw [ht]; rfl) ?_
        rw [StM.bind_run]
        rcases process sled env m db with ⟨r, db'⟩
        cases r <;> rfl
      have hrun : runHistory sled env db ((m :: understood ds).map Action.submit) = runHistory sled env (process sled env m db).2 ((understood ds).map .submit) := rfl
      rw [hrun]
      rcases hp : process sled env m db with ⟨r, db'⟩
      rw [hp] at hone i1 i2
      dsimp only at i1 i2 hone
      constructor
      · intro hc
        simp only [crashesOn, hp, not_or] at hc
        unfold respondAllQ acceptedOf
        rw [hp]
        cases r with
        | panic => exact absurd rfl hc.1
        | ok o => exact StM.bind_ok (StM.result_ok hone) (StM.bind_ok (i1 hc.2) rfl)
        | err e => exact StM.bind_ok (StM.result_err hone) (StM.bind_ok (i1 hc.2) rfl)
      · intro hc
        simp only [crashesOn, hp] at hc
        unfold respondAllQ
        cases r with
        | panic => rw [StM.bind_panic (StM.result_panic hone)]
        | ok o =>
          have := i2 (hc.resolve_left (by simp))
          rcases hx : respondAllQ sled env ds db' with ⟨r', db''⟩
          rw [hx] at this
          cases this
          rw [StM.bind_ok (StM.result_ok hone) (StM.bind_panic hx)]
        | err e =>
          have := i2 (hc.resolve_left (by simp))
          rcases hx : respondAllQ sled env ds db' with ⟨r', db''⟩
          rw [hx] at this
          cases this
          rw [StM.bind_ok (StM.result_err hone) (StM.bind_panic hx)]

/-- an event accepted on the way is in the log in the end, and lengthens it -/
theorem accepted_logged (env : Env) (ms : List Message) (as : List Action) (e : SignedEvent) (hid : e.pre.toStr ≠ [])
    (h : .event e ∈ acceptedOf env ms (after env as)) :
    ((after env (as ++ ms.map .submit)).kel e.pre)[e.sn]? = some e.stored ∧
      ((after env as).kel e.pre).length < ((after env (as ++ ms.map .submit)).kel e.pre).length := by
  induction ms generalizing as with
  | nil => cases h
  | cons m ms ih =>
    have hgrow := (C01_append_only env as [.submit m] e.pre hid).length_le
    rw [acceptedOf, ← after_snoc] at h
    have hl : as ++ (m :: ms).map Action.submit = as ++ [.submit m] ++ ms.map .submit := by simp
    rw [hl]
    split at h
    · next ho =>
      rcases List.mem_cons.1 h with h | h
      · subst h
        cases hp : (process sled env (.event e) (after env as)).1 with
        | ok st =>
          have hlog := C01_accepted_is_logged env as (ms.map .submit) e st hid hp
          rw [show as ++ [Action.submit (.event e)] ++ ms.map .submit = as ++ .submit (.event e) :: ms.map .submit by simp]
          have hget : ((after env (as ++ .submit (.event e) :: ms.map .submit)).kel e.pre)[((after env as).kel e.pre).length]? = some e.stored := by
            rw [hlog, List.append_assoc, List.getElem?_append_right (Nat.le_refl _)]
            simp
          have hsn := (C03_contiguous env _ e.pre hid _ _ hget).1
          have hlt : ((after env as).kel e.pre).length < ((after env (as ++ .submit (.event e) :: ms.map .submit)).kel e.pre).length := by
            obtain ⟨h1, _⟩ := List.getElem?_eq_some_iff.1 hget
            exact h1
          have hsn' : e.sn = ((after env as).kel e.pre).length := hsn
          refine ⟨by rw [hsn']; exact hget, hlt⟩
        | err er => rw [hp] at ho; cases ho
        | panic => rw [hp] at ho; cases ho
      · obtain ⟨h1, h2⟩ := ih (as ++ [.submit m]) h
        exact ⟨h1, by omega⟩
    · obtain ⟨h1, h2⟩ := ih (as ++ [.submit m]) h
      exact ⟨h1, by omega⟩

theorem answers_exact {bin : Binary} (hbin : bin.RejectsJson) {env : Env} {sg : SignFn} {c : Controller} {s : IdState} (hb : env.Blake3Size)
    (db0 : Db) (R : c.Ready env sg (db0.kel c.pre) s) (rs : List TReceipt) (mine : Bytes) (hm : kerlBytes (db0.kel c.pre) = .ok mine) (ms : List Message)
    (h : ∀ m ∈ ms, (∃ r, m = .rctT r) ∨ ∃ e, m = .event e ∧ e.pre.toStr ≠ [] ∧ e.pre.toStr ≠ c.pre.toStr ∧ (db0.kel e.pre)[e.sn]? = some e.stored ∧
      Readable (db0.kel e.pre) ∧ e.pre.Representable ∧ e.msg.info.kind = .json)
    (as : List Action) (hk : ∀ id : IdentifierPrefix, (after env as).kel id = db0.kel id) (hrs : storedReceipts c.pre (after env as) = .ok rs) :
    ∃ ts as', c.answers sled env sg ms (after env as) = (.ok ts.flatten, after env as') ∧ GoodAnswers bin env db0 c.pre rs mine ms ts ∧
      (∀ id : IdentifierPrefix, (after env as').kel id = db0.kel id) ∧ storedReceipts c.pre (after env as') = .ok rs := by
  induction ms generalizing as with
  | nil => exact ⟨[], as, rfl, .nil, hk, hrs⟩
  | cons m ms ih =>
    have ih := ih fun x hx => h x (by simp [hx])
    rcases h m (by simp) with ⟨r, rfl⟩ | ⟨e, rfl, hid, hne, hlog, hr, hp, hj⟩
    · obtain ⟨ts, as', g1, g2, g3⟩ := ih as hk hrs
      refine ⟨[] :: ts, as', ?_, .cons (.receipt r) g2, g3⟩
      unfold Controller.answers
      exact StM.bind_ok (StM.result_ok (a := []) rfl) (StM.bind_ok g1 rfl)
    · have hR : c.Ready env sg ((after env as).kel c.pre) s := by rw [hk]; exact R
      have key : ∀ (k : Bytes) (as1 : List Action), c.ownKerl sled e.stored (after env as) = (.ok k, after env as1) →
          (∀ t x, (after env as1).vec t x = (after env as).vec t x) →
          (∀ t r, ReadsAs bin t (.rctT r) → RctFor env e.pre (db0.kel e.pre) c.pre (db0.kel c.pre) e.sn r → GoodAnswer bin env db0 c.pre rs mine (.event e) (k ++ t)) →
          ∃ ts as', c.answers sled env sg (.event e :: ms) (after env as) = (.ok ts.flatten, after env as') ∧
            GoodAnswers bin env db0 c.pre rs mine (.event e :: ms) ts ∧ (∀ id : IdentifierPrefix, (after env as').kel id = db0.kel id) ∧
            storedReceipts c.pre (after env as') = .ok rs := by
        intro k as1 h1 h2 h3
        obtain ⟨r, t, as2, a1, a2, a3, a4, _, a6⟩ := answer_event hbin hb hR e.pre hid e.sn e.stored (by rw [hk]; exact hlog) (by rw [hk]; exact hr) hp hj k as1 h1 h2
        rw [hk, hk] at a3
        obtain ⟨ts, as', g1, g2, g3⟩ := ih as2 (fun id => by rw [a4, hk]) (by rw [a6 c.pre (fun h => hne h.symm)]; exact hrs)
        refine ⟨(k ++ t) :: ts, as', ?_, .cons (h3 t r a2 a3) g2, g3⟩
        have a1' : c.answer sled env sg (.event e) (after env as) = (.ok (k ++ t), after env as2) := a1
        unfold Controller.answers
        exact StM.bind_ok (StM.result_ok a1') (StM.bind_ok g1 rfl)
      by_cases hi : Introduces rs e
      · obtain ⟨x, hx⟩ := hi.1
        exact key mine _ (ownKerl_unreceipted c e.stored hx hrs hi.2 hR.readable hR.nonempty (by rw [hk]; exact hm))
          (fun t x => by rw [after_lookup_vec, after_lookup_vec]) fun t r q1 q2 => .new e r t hi q1 q2
      · by_cases hic : ∃ x, e.data = .icp x
        · obtain ⟨x, hx⟩ := hic
          have hex : ∃ r ∈ rs, r.body.sn = 0 ∧ r.validatorSeal.prefix = e.pre := by
            refine Classical.byContradiction fun hno => hi ⟨⟨x, hx⟩, fun r hr h0 hp => hno ⟨r, hr, h0, hp⟩⟩
          obtain ⟨r, hr, h0, hp⟩ := hex
          exact key [] _ (ownKerl_receipted c e.stored hx hrs r hr h0 hp) (fun t x => by rw [after_lookup_vec]) fun t r q1 q2 => .known e r t hi q1 q2
        · have : c.ownKerl sled e.stored (after env as) = (.ok [], after env as) := by
            unfold Controller.ownKerl
            cases hd : e.data with
            | icp x => exact absurd ⟨x, hd⟩ hic
            | _ => simp only [show e.stored.data = e.data from rfl, hd]; rfl
          exact key [] as this (fun _ _ => rfl) fun t r q1 q2 => .known e r t hi q1 q2

/-- the database after submitting the messages one by one -/
def submitted (env : Env) (db : Db) (ms : List Message) : Db := runHistory sled env db (ms.map .submit)

/-- the conditions under which the accepted messages of a stream can all be answered: the calls of `process` do not crash and leave the own log alone, what is accepted are
receipts of controllers and JSON events with identifiers that can be written, and the tables needed can be read in the end -/
structure Answerable (env : Env) (c : Controller) (db : Db) (ms : List Message) (rs : List TReceipt) (mine : Bytes) : Prop where
  quiet : ¬ crashesOn env ms db
  mine : kerlBytes (db.kel c.pre) = .ok mine
  untouched : (submitted env db ms).kel c.pre = db.kel c.pre
  receipts : storedReceipts c.pre (submitted env db ms) = .ok rs
  kinds : ∀ m ∈ acceptedOf env ms db, (∃ r, m = .rctT r) ∨ ∃ e, m = .event e ∧ e.pre.toStr ≠ [] ∧
    Readable ((submitted env db ms).kel e.pre) ∧ e.pre.Representable ∧ e.msg.info.kind = .json

theorem Answerable.answers {bin : Binary} (hbin : bin.RejectsJson) {env : Env} {sg : SignFn} {c : Controller} (hb : env.Blake3Size) {db : Db}
    {ms : List Message} {rs : List TReceipt} {mine : Bytes} (hc : Started env sg c db) (A : Answerable env c db ms rs mine) :
    ∃ ts db', c.answers sled env sg (acceptedOf env ms db) (submitted env db ms) = (.ok ts.flatten, db') ∧
      GoodAnswers bin env (submitted env db ms) c.pre rs mine (acceptedOf env ms db) ts ∧
      (∀ id : IdentifierPrefix, db'.kel id = (submitted env db ms).kel id) ∧ storedReceipts c.pre db' = .ok rs := by
  obtain ⟨as, s, rfl, R⟩ := started_ready hb hc
  have hrun : submitted env (after env as) ms = after env (as ++ ms.map .submit) := by rw [submitted, after, after, runHistory_append]
  obtain ⟨a1, a2, a3, a4, a5⟩ := A
  rw [hrun] at a3 a4 a5 ⊢
  have := answers_exact (sg := sg) (c := c) (s := s) hbin hb (after env (as ++ ms.map .submit)) (by rw [a3]; exact R) rs mine (by rw [a3]; exact a2)
    (acceptedOf env ms (after env as)) (fun m hm => ?_) _ (fun _ => rfl) a4
  · obtain ⟨ts, as', h⟩ := this
    exact ⟨ts, _, h⟩
  rcases a5 m hm with h | ⟨e, rfl, h1, h2, h3, h4⟩
  · exact .inl h
  · obtain ⟨g1, g2⟩ := accepted_logged env ms as e h1 hm
    refine .inr ⟨e, rfl, h1, fun heq => ?_, g1, h2, h3, h4⟩
    have hsame : ∀ db : Db, db.kel e.pre = db.kel c.pre := fun db => by unfold Db.kel; rw [heq]
    rw [hsame, hsame, a3] at g2
    omega

/-- C97: a started controller answers a stream of messages with the good answers to the accepted messages, one after the other, and nothing else; afterwards the logs and the
receipts of its own events are those after submitting the messages one by one. -/
theorem C97_answer (bin : Binary) (hbin : bin.RejectsJson) (env : Env) (hb : env.Blake3Size) (sg : SignFn) (c : Controller) (db : Db)
    (hc : Started env sg c db) (ms : List Message) (hw : ∀ m ∈ ms, m.Wireable) (text : Bytes) (ht : streamText env ms = .ok text)
    (rs : List TReceipt) (mine : Bytes) (A : Answerable env c db ms rs mine) :
    ∃ ts db', c.respond bin sled env sg text db = (.ok ts.flatten, db') ∧
      GoodAnswers bin env (submitted env db ms) c.pre rs mine (acceptedOf env ms db) ts ∧
      (∀ id : IdentifierPrefix, db'.kel id = (submitted env db ms).kel id) ∧ storedReceipts c.pre db' = .ok rs := by
  obtain ⟨b, ds, h1, h2, h3⟩ := C62_stream_roundtrip env bin hbin ms hw
  rw [ht] at h1
  cases h1
  rw [(respond_run bin env sg c text ds [] ms h2 h3 _).1 A.quiet]
  exact A.answers hbin hb hc

/-- C97: the same with the `query` feature, for every text that can be parsed: parts of the stream that make no message are passed over without effect on the answers to
the others. -/
theorem C97_answer_query (rd : Readers) (hbin : rd.toBinary.RejectsJson) (env : Env) (hb : env.Blake3Size) (sg : SignFn) (c : Controller) (db : Db)
    (hc : Started env sg c db) (text rest : Bytes) (ds : List SignedDataQ) (hp : signedStreamQ rd text = .ok rest ds)
    (hd : ∀ d ∈ ds, d.toMessage ≠ .panic) (rs : List TReceipt) (mine : Bytes) (A : Answerable env c db (understood ds) rs mine) :
    ∃ ts db', c.respondQ rd sled env sg text db = (.ok ts.flatten, db') ∧
      GoodAnswers rd.toBinary env (submitted env db (understood ds)) c.pre rs mine (acceptedOf env (understood ds) db) ts ∧
      (∀ id : IdentifierPrefix, db'.kel id = (submitted env db (understood ds)).kel id) ∧ storedReceipts c.pre db' = .ok rs := by
  obtain ⟨ts, db', g1, g2⟩ := A.answers hbin hb hc
  refine ⟨ts, db', ?_, g2⟩
  unfold Controller.respondQ
  refine StM.bind_ok (a := ds) (s' := db) (by rw [hp]; rfl) ?_
  exact StM.bind_ok ((respondAllQ_run env ds hd db).1 A.quiet) g1

/-- C97: one message that crashes `process` crashes the whole call, wherever it stands in the stream. -/
theorem C97_crash (rd : Readers) (env : Env) (sg : SignFn) (c : Controller) (db : Db) (text rest : Bytes) (ds : List SignedDataQ)
    (hp : signedStreamQ rd text = .ok rest ds) (h : crashesOn env (understood ds) db) : (c.respondQ rd sled env sg text db).1 = .panic := by
  by_cases hd : ∀ d ∈ ds, d.toMessage ≠ .panic
  · unfold Controller.respondQ
    rw [hp]
    show ((respondAllQ sled env ds >>= c.answers sled env sg) db).1 = _
    have := (respondAllQ_run env ds hd db).2 h
    rcases hx : respondAllQ sled env ds db with ⟨r, db'⟩
    rw [hx] at this
    cases this
    rw [StM.bind_panic hx]
  · simp only [Classical.not_forall] at hd
    obtain ⟨d, h1, h2⟩ := hd
    exact respondQ_fatal rd sled env sg c text rest ds hp ⟨d, h1, .inl (Classical.not_not.1 h2)⟩ db

/-! ## Non-vacuity -/

namespace Ex
/-- the log of the second controller (an inception and an interaction), the interaction sent too early once -/
def earlyLog : List Message := ((bob.2.kel bob.1.pre).drop 1 ++ bob.2.kel bob.1.pre).map .event
/-- the text of the log of the first controller -/
def aliceText : Bytes := match kerlBytes (alice.2.kel alice.1.pre) with | .ok b => b | _ => []
/-- the same on the wire, the inception a second time without its signatures in between, read with the `query` feature -/
def earlyText : Bytes :=
  match kerlBytes ((bob.2.kel bob.1.pre).drop 1), kerlBytes ((bob.2.kel bob.1.pre).map fun e => ⟨e.msg, [], none⟩), kerlBytes (bob.2.kel bob.1.pre) with
  | .ok a, .ok b, .ok c => a ++ b.take 335 ++ c
  | _, _, _ => []
/-- what is read of it -/
def earlyRead : List SignedDataQ := match signedStreamQ noReaders earlyText with | .ok _ ds => ds | _ => []
end Ex

section
open Ex
set_option maxRecDepth 20000
private instance (p : BasicPrefix) : Decidable p.Sized := by unfold BasicPrefix.Sized; infer_instance
private instance (p : SelfSigningPrefix) : Decidable p.Sized := by unfold SelfSigningPrefix.Sized; infer_instance
private instance (p : SelfAddressingPrefix) : Decidable p.Sized := by unfold SelfAddressingPrefix.Sized; infer_instance
private instance (p : BasicPrefix) : Decidable p.Representable := by
  unfold BasicPrefix.Representable BasicPrefix.IsSecp; infer_instance
private instance (p : IdentifierPrefix) : Decidable p.Representable := by
  unfold IdentifierPrefix.Representable
  cases p <;> simp only [IdentifierPrefix.Sized, IdentifierPrefix.IsSecp] <;> first | infer_instance | (unfold BasicPrefix.IsSecp; infer_instance)
private instance (l : List SignedEvent) : Decidable (Readable l) := by unfold Readable; infer_instance
private instance (p : AttachedSignaturePrefix) : Decidable (SigOk p) := by unfold SigOk; infer_instance
private instance (l : List AttachedSignaturePrefix) : Decidable (SigsOk l) := by unfold SigsOk; infer_instance
private instance (s : Seal) : Decidable s.Representable := by cases s <;> simp only [Seal.Representable] <;> infer_instance
private noncomputable instance (f : Frac) : Decidable (IsWeight f) := Classical.propDecidable _
private noncomputable instance (t : Threshold) : Decidable t.Representable := by cases t <;> simp only [Threshold.Representable] <;> infer_instance
private noncomputable instance (k : KeyConfig) : Decidable k.Representable :=
  decidable_of_iff (k.threshold.Representable ∧ (∀ x ∈ k.publicKeys, x.Representable) ∧ ∀ n ∈ k.nextDigest.toList, n.Sized) (by
    unfold KeyConfig.Representable; simp only [Option.mem_toList])
private noncomputable instance (k : InceptionEvent) : Decidable k.Representable := by unfold InceptionEvent.Representable; infer_instance
private noncomputable instance (k : RotationEvent) : Decidable k.Representable := by unfold RotationEvent.Representable; infer_instance
private noncomputable instance (k : EventData) : Decidable k.Representable := by cases k <;> simp only [EventData.Representable] <;> infer_instance
private noncomputable instance (k : EventMessage) : Decidable k.Representable := by unfold EventMessage.Representable; infer_instance

theorem Ex.early_wireable : ∀ m ∈ earlyLog, m.Wireable := by
  have h : ∀ e ∈ bob.2.kel bob.1.pre, e.msg.Representable ∧ e.msg.info.kind = .json ∧ SigsOk e.sigs ∧ e.delegatorSeal = none ∧ e.data.isDelegated = false := by
    decide +kernel
  intro m hm
  obtain ⟨e, he, rfl⟩ := List.mem_map.1 hm
  obtain ⟨h1, h2, h3, h4, h5⟩ := h e ((List.mem_append.1 he).elim List.mem_of_mem_drop fun h => h)
  refine ⟨h1, h2, h3, ?_⟩
  rw [h4]
  exact h5

private instance decCrash (env : Env) : (ms : List Message) → (db : Db) → Decidable (crashesOn env ms db)
  | [], _ => isFalse fun h => h
  | _ :: ms, _ => @instDecidableOr _ _ inferInstance (decCrash env ms _)

/-- the two messages that are accepted are answerable -/
theorem Ex.early_kinds (ms : List Message) (h1 : acceptedOf env ms alice.2 = (bob.2.kel bob.1.pre).map .event)
    (h2 : (submitted env alice.2 ms).kel bob.1.pre = bob.2.kel bob.1.pre) : ∀ m ∈ acceptedOf env ms alice.2, (∃ r, m = .rctT r) ∨ ∃ e, m = .event e ∧ e.pre.toStr ≠ [] ∧
    Readable ((submitted env alice.2 ms).kel e.pre) ∧ e.pre.Representable ∧ e.msg.info.kind = .json := by
  intro m hm
  rw [h1] at hm
  obtain ⟨e, he, rfl⟩ := List.mem_map.1 hm
  have hall : ∀ e ∈ bob.2.kel bob.1.pre, e.pre = bob.1.pre ∧ e.pre.toStr ≠ [] ∧ e.pre.Representable ∧ e.msg.info.kind = .json := by decide +kernel
  obtain ⟨g1, g2, g3, g4⟩ := hall e he
  refine .inr ⟨e, rfl, g2, ?_, g3, g4⟩
  rw [g1, h2]
  decide +kernel

theorem Ex.early_answerable : Answerable env alice.1 alice.2 earlyLog [] aliceText where
  quiet := by decide +kernel
  mine := by decide +kernel
  untouched := by decide +kernel
  receipts := by decide +kernel
  kinds := Ex.early_kinds _ (by decide +kernel) (by decide +kernel)

theorem Ex.early_done {bin : Binary} {x : Res Bytes × Db} {ts : List Bytes} {db db' : Db} (h1 : x = (.ok ts.flatten, db'))
    (h2 : GoodAnswers bin env db alice.1.pre [] aliceText ((bob.2.kel bob.1.pre).map .event) ts) (h3 : db'.kel bob.1.pre = bob.2.kel bob.1.pre) :
    ∃ t1 t2 r1 r2 db', x = (.ok (aliceText ++ t1 ++ t2), db') ∧ ReadsAs bin t1 (.rctT r1) ∧
    ReadsAs bin t2 (.rctT r2) ∧ r1.body.sn = 0 ∧ r2.body.sn = 1 ∧ db'.kel bob.1.pre = bob.2.kel bob.1.pre := by
  have hl : ∃ e f, bob.2.kel bob.1.pre = [e, f] ∧ e.sn = 0 ∧ f.sn = 1 ∧ e.data.isInception = true ∧ e.data.isDelegated = false ∧ f.data.isInception = false := by
    have : (match bob.2.kel bob.1.pre with
      | [e, f] => decide (e.sn = 0 ∧ f.sn = 1 ∧ e.data.isInception = true ∧ e.data.isDelegated = false ∧ f.data.isInception = false)
      | _ => false) = true := by decide +kernel
    split at this
    · rename_i e f he; exact ⟨e, f, he, of_decide_eq_true this⟩
    · cases this
  obtain ⟨e, f, hef, g1, g2, g3, g4, g5⟩ := hl
  rw [hef] at h2
  have hi : Introduces [] e := by
    refine ⟨?_, by simp⟩
    cases hd : e.data with
    | icp x => exact ⟨x, rfl⟩
    | dip x => rw [hd] at g4; cases g4
    | rot x => rw [hd] at g3; cases g3
    | drt x => rw [hd] at g3; cases g3
    | ixn x => rw [hd] at g3; cases g3
  have hni : ¬ Introduces [] f := by
    rintro ⟨⟨x, hx⟩, _⟩
    rw [hx] at g5
    cases g5
  cases h2 with
  | cons a1 h2 =>
    cases h2 with
    | cons a2 h2 =>
      cases h2
      cases a1 with
      | known _ _ hn => exact absurd hi ‹_›
      | new =>
        cases a2 with
        | new => exact absurd ‹_› hni
        | known =>
          rename_i t2 r1 t1 q1 _ q2 r2 _ p2 p1
          refine ⟨t1, t2, r1, r2, db', ?_, q1, p1, by rw [q2.2.1, g1], by rw [p2.2.1, g2], h3⟩
          rw [h1]
          simp

/-- `C97_answer` applied: the interaction that comes too early is passed over; the first controller answers the inception with its log and a receipt, the interaction with a receipt -/
example : ∃ text t1 t2 r1 r2 db', streamText env earlyLog = .ok text ∧
    alice.1.respond noBin sled env sg text alice.2 = (.ok (aliceText ++ t1 ++ t2), db') ∧ ReadsAs noBin t1 (.rctT r1) ∧ ReadsAs noBin t2 (.rctT r2) ∧
      r1.body.sn = 0 ∧ r2.body.sn = 1 ∧ db'.kel bob.1.pre = bob.2.kel bob.1.pre := by
  obtain ⟨text, _, ht, _⟩ := C62_stream_roundtrip env noBin (fun _ _ => ⟨rfl, rfl⟩) earlyLog early_wireable
  obtain ⟨ts, db', h1, h2, h3, _⟩ := C97_answer noBin (fun _ _ => ⟨rfl, rfl⟩) env blake3Size sg alice.1 alice.2 alice_started earlyLog early_wireable text ht [] aliceText
    early_answerable
  have hacc : acceptedOf env earlyLog alice.2 = (bob.2.kel bob.1.pre).map .event := by decide +kernel
  rw [hacc] at h2
  obtain ⟨t1, t2, r1, r2, db'', g⟩ := early_done h1 h2 (by rw [h3]; decide +kernel)
  exact ⟨text, t1, t2, r1, r2, db'', ht, g⟩

/-- `C97_answer_query` applied: the same, with a part in the stream that makes no message -/
example : ∃ t1 t2 r1 r2 db', alice.1.respondQ noReaders sled env sg earlyText alice.2 = (.ok (aliceText ++ t1 ++ t2), db') ∧ ReadsAs noBin t1 (.rctT r1) ∧
    ReadsAs noBin t2 (.rctT r2) ∧ r1.body.sn = 0 ∧ r2.body.sn = 1 ∧ db'.kel bob.1.pre = bob.2.kel bob.1.pre := by
  have hu : understood earlyRead = earlyLog := by decide +kernel
  have hlen : earlyRead.length = 4 := by decide +kernel
  have hp : (match signedStreamQ noReaders earlyText with | .ok _ _ => true | _ => false) = true := by decide +kernel
  have hd : ∀ d ∈ earlyRead, d.toMessage ≠ .panic := by decide +kernel
  unfold earlyRead at hu hd
  split at hp
  · rename_i rest ds hs
    rw [hs] at hu hd
    dsimp only at hu hd
    obtain ⟨ts, db', h1, h2, h3, _⟩ := C97_answer_query noReaders (fun _ _ => ⟨rfl, rfl⟩) env blake3Size sg alice.1 alice.2 alice_started earlyText rest ds hs hd [] aliceText
      (by rw [hu]; exact early_answerable)
    rw [hu] at h2 h3
    have hacc : acceptedOf env earlyLog alice.2 = (bob.2.kel bob.1.pre).map .event := by decide +kernel
    rw [hacc] at h2
    exact early_done h1 h2 (by rw [h3]; decide +kernel)
  · cases hp
end

end Keriox
