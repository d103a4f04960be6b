import Verif.Props.Honest
import Verif.Props.Sync
/-!
# C72: answering messages
-/
namespace Keriox

/-! ## Specification -/

/-- the messages that `process` accepts when they are submitted one after the other -/
def acceptedOf (env : Env) : List Message → Db → List Message
  | [], _ => []
  | m :: ms, db =>
    if (process sled env m db).1.isOk then m :: acceptedOf env ms (process sled env m db).2 else acceptedOf env ms (process sled env m db).2

/-- one of the calls of `process` crashes when the messages are submitted one after the other -/
def crashesOn (env : Env) : List Message → Db → Prop
  | [], _ => False
  | m :: ms, db => (process sled env m db).1 = .panic ∨ crashesOn env ms (process sled env m db).2

/-! ## Parsing streams put together from texts -/

/-- wherever the text stands in a stream, it is read as this message -/
def ReadsAs (bin : Binary) (t : Bytes) (m : Message) : Prop :=
  (∃ r, t = 123 :: 34 :: r) ∧ ∀ rest, StreamEnd rest → ∃ d, signedMessageP bin (t ++ rest) = .ok rest d ∧ d.toMessage = .ok m

theorem chunks_parse (bin : Binary) (hb : bin.RejectsJson) (cs : List (Bytes × Message)) (h : ∀ c ∈ cs, ReadsAs bin c.1 c.2) :
    ∃ ds, signedEventStreamP bin (cs.flatMap Prod.fst) = .ok [] ds ∧ ds.map SignedEventData.toMessage = (cs.map Prod.snd).map .ok := by
  suffices hx : StreamEnd (cs.flatMap Prod.fst) ∧ ∃ ds, (∀ n, (cs.flatMap Prod.fst).length + 1 ≤ n → many0P (signedMessageP bin) n (cs.flatMap Prod.fst) = .ok [] ds) ∧
      ds.map SignedEventData.toMessage = (cs.map Prod.snd).map .ok by
    obtain ⟨_, ds, h2, h3⟩ := hx
    exact ⟨ds, h2 _ (Nat.le_refl _), h3⟩
  induction cs with
  | nil =>
    refine ⟨Or.inl rfl, [], fun n hn => ?_, rfl⟩
    obtain ⟨n, rfl⟩ : ∃ m, n = m + 1 := ⟨n - 1, by omega⟩
    rw [List.flatMap_nil, many0P, signedMessageP_nil bin hb]
  | cons c cs ih =>
    obtain ⟨e, ds, h2, h3⟩ := ih fun x hx => h x (by simp [hx])
    obtain ⟨⟨r, hr⟩, hp⟩ := h c (by simp)
    obtain ⟨d, g4, g5⟩ := hp _ e
    rw [List.flatMap_cons]
    refine ⟨Or.inr ⟨r ++ cs.flatMap Prod.fst, by rw [hr]; rfl⟩, d :: ds, fun n hn => ?_, by simp [g5, h3]⟩
    obtain ⟨n, rfl⟩ : ∃ m, n = m + 1 := ⟨n - 1, by omega⟩
    rw [hr] at hn
    simp only [List.length_append, List.length_cons] at hn
    rw [many0P, g4]
    simp only
    rw [hr, if_neg (by simp only [List.length_append, List.length_cons]; omega), h2 n (by omega), IRes.andThen_ok]

theorem reads_message (env : Env) (bin : Binary) (hb : bin.RejectsJson) (m : Message) (h : m.Wireable) :
    ∃ d t, m.data? = some d ∧ d.toCesr env = .ok t ∧ ReadsAs bin t m := by
  obtain ⟨d, t, h1, h2, h3⟩ := C61_signed_message_roundtrip env bin hb m h
  exact ⟨d, t, h1, h2, toCesr_start env m h d t h1 h2, h3⟩

/-- an exported event of a log that other processors can read -/
theorem reads_event (bin : Binary) (e : SignedEvent) (he : e.Exportable) (hds : e.delegatorSeal = none) (hs : e.data.seals = [])
    (hd : e.data.isDelegated = false) : ∃ t, e.serialize = .ok t ∧ ReadsAs bin t (.event e) := by
  obtain ⟨c, hc, hser⟩ := serialize_text e he
  refine ⟨_, hser, serialize_start e he _ hser, fun rest hrest => ⟨⟨.keyEvent e.msg, [.attachedSignatures e.sigs]⟩, ?_, ?_⟩⟩
  · have htext := keriSer_noSeals _ he.2.2 (EventMessage.rt_of he.1).2 hs
    obtain ⟨t, ht, hatt⟩ := attachments_roundtrip [.attachedSignatures e.sigs] (by intro a ha; rw [List.mem_singleton] at ha; rw [ha]; exact he.2.1)
    have htc : t = c := by
      simp only [Attachment.toCesrList, Attachment.toCesr, hc, Res.ok_bind, List.append_nil, Res.ok.injEq] at ht
      exact ht.symm
    rw [htext]
    unfold signedMessageP altP keyEventMessageP altP
    rw [List.append_assoc, C44_roundtrip e.msg (c ++ rest) he.1]
    simp only [IRes.andThen_ok]
    rw [← htc, hatt rest hrest _ (Nat.le_refl _), IRes.andThen_ok]
  · obtain ⟨m, sigs, sl⟩ := e
    cases hds
    obtain ⟨info, dg, p, sn, dat⟩ := m
    cases dat with
    | dip x => cases hd
    | drt x => cases hd
    | icp x => rfl
    | rot x => rfl
    | ixn x => rfl

theorem kerl_chunks (bin : Binary) (l : List SignedEvent) (h : ∀ e ∈ l, e.Exportable ∧ e.delegatorSeal = none ∧ e.data.seals = [] ∧
    e.data.isDelegated = false) :
    ∃ cs : List (Bytes × Message), kerlBytes l = .ok (cs.flatMap Prod.fst) ∧ cs.map Prod.snd = l.map .event ∧ ∀ c ∈ cs, ReadsAs bin c.1 c.2 := by
  induction l with
  | nil => exact ⟨[], rfl, rfl, by simp⟩
  | cons e l ih =>
    obtain ⟨cs, h1, h2, h3⟩ := ih fun x hx => h x (by simp [hx])
    obtain ⟨g1, g2, g3, g4⟩ := h e (by simp)
    obtain ⟨t, q1, q2⟩ := reads_event bin e g1 g2 g3 g4
    exact ⟨(t, .event e) :: cs, kerlBytes_cons e l _ _ q1 h1, by simp [h2], by
      intro c hc
      rcases List.mem_cons.1 hc with rfl | hc
      · exact q2
      · exact h3 c hc⟩

/-! ## The two passes of `respond` -/

theorem respondOne_run (env : Env) (d : SignedEventData) (m : Message) (h : d.toMessage = .ok m) (db : Db) :
    respondOne sled env d db = match process sled env m db with
      | (.ok _, db') => (.ok m, db')
      | (.err e, db') => (.err e, db')
      | (.panic, db') => (.panic, db') := by
  unfold respondOne
  refine StM.bind_ok (a := m) (s' := db) (by rw [h]; rfl) ?_
  rw [StM.bind_run]
  rcases process sled env m db with ⟨r, db'⟩
  cases r <;> rfl

theorem respondAll_run (env : Env) (ds : List SignedEventData) (ms : List Message) (h : ds.map SignedEventData.toMessage = ms.map .ok) (db : Db) :
    (¬ crashesOn env ms db → respondAll sled env ds db = (.ok (acceptedOf env ms db), runHistory sled env db (ms.map .submit))) ∧
    (crashesOn env ms db → (respondAll sled env ds db).1 = .panic) := by
  induction ms generalizing ds db with
  | nil =>
    cases ds with
    | nil => exact ⟨fun _ => rfl, fun h => h.elim⟩
    | cons d ds => cases h
  | cons m ms ih =>
    cases ds with
    | nil => cases h
    | cons d ds =>
      simp only [List.map_cons, List.cons.injEq] at h
      obtain ⟨i1, i2⟩ := ih ds h.2 (process sled env m db).2
      have hone := respondOne_run env d m h.1 db
      have hrun : runHistory sled env db ((m :: ms).map Action.submit) = runHistory sled env (process sled env m db).2 (ms.map .submit) := rfl
      rw [hrun]
      rcases hp : process sled env m db with ⟨r, db'⟩
      rw [hp] at hone i1 i2
      dsimp only at i1 i2 hone
      constructor
      · intro hc
        simp only [crashesOn, hp, not_or] at hc
        unfold respondAll acceptedOf
        rw [hp]
        cases r with
        | panic => exact absurd rfl hc.1
        | ok o =>
          refine StM.bind_ok (StM.result_ok hone) ?_
          refine StM.bind_ok (i1 hc.2) rfl
        | err e =>
          refine StM.bind_ok (StM.result_err hone) ?_
          refine StM.bind_ok (i1 hc.2) rfl
      · intro hc
        simp only [crashesOn, hp] at hc
        unfold respondAll
        cases r with
        | panic => rw [StM.bind_panic (StM.result_panic hone)]
        | ok o =>
          have := i2 (hc.resolve_left (by simp))
          rcases hx : respondAll sled env ds db' with ⟨r', db''⟩
          rw [hx] at this
          cases this
          rw [StM.bind_ok (StM.result_ok hone) (StM.bind_panic hx)]
        | err e =>
          have := i2 (hc.resolve_left (by simp))
          rcases hx : respondAll sled env ds db' with ⟨r', db''⟩
          rw [hx] at this
          cases this
          rw [StM.bind_ok (StM.result_err hone) (StM.bind_panic hx)]

theorem answers_panic (env : Env) (sg : SignFn) (c : Controller) (ms : List Message) (r : NtReceipt) (h : .rctNt r ∈ ms) (db : Db) :
    (c.answers sled env sg ms db).1 = .panic := by
  induction ms generalizing db with
  | nil => cases h
  | cons m ms ih =>
    unfold Controller.answers
    rcases hx : c.answer sled env sg m db with ⟨q, db'⟩
    cases q with
    | panic => rw [StM.bind_panic (StM.result_panic hx)]
    | ok a =>
      have hm : .rctNt r ∈ ms := by
        rcases List.mem_cons.1 h with rfl | h
        · cases hx
        · exact h
      have := ih hm db'
      rcases hy : c.answers sled env sg ms db' with ⟨r', db''⟩
      rw [hy] at this
      cases this
      rw [StM.bind_ok (StM.result_ok hx) (StM.bind_panic hy)]
    | err e =>
      have hm : .rctNt r ∈ ms := by
        rcases List.mem_cons.1 h with rfl | h
        · cases hx
        · exact h
      have := ih hm db'
      rcases hy : c.answers sled env sg ms db' with ⟨r', db''⟩
      rw [hy] at this
      cases this
      rw [StM.bind_ok (StM.result_err hx) (StM.bind_panic hy)]

theorem respond_parsed (bin : Binary) (env : Env) (sg : SignFn) (c : Controller) (text : Bytes) (ds : List SignedEventData) (rest : Bytes)
    (hp : signedEventStreamP bin text = .ok rest ds) (db : Db) :
    c.respond bin sled env sg text db = (respondAll sled env ds >>= c.answers sled env sg) db := by
  unfold Controller.respond
  exact StM.bind_ok (a := ds) (s' := db) (by rw [hp]; rfl) rfl

/-- `respond`, by messages -/
theorem respond_run (bin : Binary) (env : Env) (sg : SignFn) (c : Controller) (text : Bytes) (ds : List SignedEventData) (rest : Bytes) (ms : List Message)
    (hp : signedEventStreamP bin text = .ok rest ds) (hm : ds.map SignedEventData.toMessage = ms.map .ok) (db : Db) :
    (¬ crashesOn env ms db → c.respond bin sled env sg text db = c.answers sled env sg (acceptedOf env ms db) (runHistory sled env db (ms.map .submit))) ∧
    (crashesOn env ms db → (c.respond bin sled env sg text db).1 = .panic) := by
  obtain ⟨h1, h2⟩ := respondAll_run env ds ms hm db
  rw [respond_parsed bin env sg c text ds rest hp]
  constructor
  · intro h
    exact StM.bind_ok (h1 h) rfl
  · intro h
    have := h2 h
    rcases hx : respondAll sled env ds db with ⟨r, db'⟩
    rw [hx] at this
    cases this
    rw [StM.bind_panic hx]

/-! ## Answering -/

theorem after_lookup_vec (env : Env) (as : List Action) (t : Tbl) (id : IdentifierPrefix) (t' : Tbl) (x : Bytes) :
    (after env (as ++ [.lookup t id])).vec t' x = (after env as).vec t' x := by
  show (after env (as ++ [.lookup t id])).abs.tables t' x = (after env as).abs.tables t' x
  rw [after_abs, after_abs, runHistory_append]
  exact congrFun (congrFun (MapDb.touch_tables _ _) _) _

theorem storedReceipts_congr {env : Env} {as as' : List Action} {id : IdentifierPrefix}
    (h : (after env as').vec .vrcs id.toStr = (after env as).vec .vrcs id.toStr) :
    storedReceipts id (after env as') = storedReceipts id (after env as) := by
  unfold storedReceipts
  rw [getReceiptsT_run, getReceiptsT_run, h]

theorem read_after (env : Env) (as : List Action) (t : Tbl) (id : IdentifierPrefix) :
    (sled.read t id (after env as)).2 = after env (as ++ [.lookup t id]) := by
  rw [after, after, runHistory_append]; rfl

theorem hasReceipt_run {env : Env} {as : List Action} {id : IdentifierPrefix} (sn : Nat) (v : IdentifierPrefix) {l : List TReceipt}
    (h : storedReceipts id (after env as) = .ok l) :
    hasReceipt sled id sn v (after env as) =
      (.ok (l.any fun r => r.body.sn = sn && r.validatorSeal.prefix = v), after env (as ++ [.lookup .vrcs id])) := by
  have h2 : (getReceiptsT sled id (after env as)).2 = after env (as ++ [.lookup .vrcs id]) := read_after env as .vrcs id
  unfold storedReceipts at h
  unfold hasReceipt
  rcases hg : getReceiptsT sled id (after env as) with ⟨q, d⟩
  rw [hg] at h h2
  subst h2
  cases q with
  | ok o =>
    cases o with
    | none => cases h; exact StM.bind_ok hg rfl
    | some l' => cases h; exact StM.bind_ok hg rfl
  | err e => cases h
  | panic => cases h

theorem getKerl_after {env : Env} {as : List Action} {id : IdentifierPrefix} {b : Bytes} (hr : Readable ((after env as).kel id))
    (hne : (after env as).kel id ≠ []) (hb : kerlBytes ((after env as).kel id) = .ok b) :
    getKerl sled id (after env as) = (.ok (some b), after env (as ++ [.lookup .kels id])) := by
  have h2 : (getKel sled id (after env as)).2 = after env (as ++ [.lookup .kels id]) := read_after env as .kels id
  have h1 : (getKel sled id (after env as)).1 = .ok (some ((after env as).kel id)) := by
    show (sled.read .kels id (after env as)).1 = _
    rw [read_run .kels id _ (after_inv env as), iterValues_kels, vec_of_kel hne]
    exact if_pos (List.all_eq_true.2 hr)
  unfold getKerl
  refine StM.bind_ok (Prod.ext h1 h2) ?_
  refine StM.bind_ok (a := b) (s' := after env (as ++ [.lookup .kels id])) (by rw [hb]; rfl) rfl

theorem ownKerl_later (c : Controller) (e : SignedEvent) (h : e.data.isInception = false) (db : Db) : c.ownKerl sled e db = (.ok [], db) := by
  unfold Controller.ownKerl
  cases hd : e.data with
  | icp x => rw [hd] at h; cases h
  | dip x => rfl
  | rot x => rfl
  | drt x => rfl
  | ixn x => rfl

theorem ownKerl_receipted {env : Env} {as : List Action} (c : Controller) (e : SignedEvent) {x : InceptionEvent} (h : e.data = .icp x) {l : List TReceipt}
    (hl : storedReceipts c.pre (after env as) = .ok l) (r : TReceipt) (hr : r ∈ l) (h0 : r.body.sn = 0) (hp : r.validatorSeal.prefix = e.pre) :
    c.ownKerl sled e (after env as) = (.ok [], after env (as ++ [.lookup .vrcs c.pre])) := by
  unfold Controller.ownKerl
  rw [h]
  refine StM.bind_ok (hasReceipt_run 0 e.pre hl) ?_
  have : (l.any fun r => r.body.sn = 0 && r.validatorSeal.prefix = e.pre) = true := List.any_eq_true.2 ⟨r, hr, by simp [h0, hp]⟩
  rw [this]
  rfl

theorem ownKerl_unreceipted {env : Env} {as : List Action} (c : Controller) (e : SignedEvent) {x : InceptionEvent} (h : e.data = .icp x) {l : List TReceipt}
    (hl : storedReceipts c.pre (after env as) = .ok l) (hno : ∀ r ∈ l, r.body.sn = 0 → r.validatorSeal.prefix ≠ e.pre)
    (hr : Readable ((after env as).kel c.pre)) (hne : (after env as).kel c.pre ≠ []) {b : Bytes} (hb : kerlBytes ((after env as).kel c.pre) = .ok b) :
    c.ownKerl sled e (after env as) = (.ok b, after env (as ++ [.lookup .vrcs c.pre] ++ [.lookup .kels c.pre])) := by
  unfold Controller.ownKerl
  rw [h]
  refine StM.bind_ok (hasReceipt_run 0 e.pre hl) ?_
  have : (l.any fun r => r.body.sn = 0 && r.validatorSeal.prefix = e.pre) = false := by
    rw [← Bool.not_eq_true, List.any_eq_true]
    rintro ⟨r, hr, h2⟩
    simp only [Bool.and_eq_true, decide_eq_true_eq] at h2
    exact hno r hr h2.1 h2.2
  rw [this]
  have hk : (after env (as ++ [.lookup .vrcs c.pre])).kel c.pre = (after env as).kel c.pre := after_lookup_kel env as _ _ _
  have := getKerl_after (env := env) (as := as ++ [.lookup .vrcs c.pre]) (id := c.pre) (b := b) (by rw [hk]; exact hr) (by rw [hk]; exact hne) (by rw [hk]; exact hb)
  rw [if_neg (by simp)]
  exact StM.bind_ok this rfl

/-- a receipt of event `i` of the log `l` of `id`, naming an establishment event of the log `lv` of `p` and signed by its keys -/
def RctFor (env : Env) (id : IdentifierPrefix) (l : List SignedEvent) (p : IdentifierPrefix) (lv : List SignedEvent) (i : Nat) (r : TReceipt) : Prop :=
  r.body.prefix.toStr = id.toStr ∧ r.body.sn = i ∧ r.validatorSeal.prefix = p ∧ r.rt = true ∧
  ∃ (e v : SignedEvent) (kc : KeyConfig) (bytes : Bytes), l[i]? = some e ∧ lv[r.validatorSeal.sn]? = some v ∧
    v.msg.event.digest = r.validatorSeal.eventDigest ∧ v.data.keyConfig? = some kc ∧ e.msg.serialize env = .ok bytes ∧
    ValidSigs env kc bytes r.sigs

theorem answer_event {bin : Binary} (hbin : bin.RejectsJson) {env : Env} {sg : SignFn} {c : Controller} {as : List Action} {s : IdState} (hb : env.Blake3Size)
    (R : c.Ready env sg ((after env as).kel c.pre) s) (id : IdentifierPrefix) (hid : id.toStr ≠ []) (i : Nat) (e : SignedEvent)
    (he : ((after env as).kel id)[i]? = some e) (hr : Readable ((after env as).kel id)) (hp : e.pre.Representable) (hj : e.msg.info.kind = .json)
    (k : Bytes) (as1 : List Action) (hk : c.ownKerl sled e (after env as) = (.ok k, after env as1))
    (hs : ∀ t x, (after env as1).vec t x = (after env as).vec t x) :
    ∃ r t as', c.answer sled env sg (.event e) (after env as) = (.ok (k ++ t), after env as') ∧ ReadsAs bin t (.rctT r) ∧
      RctFor env id ((after env as).kel id) c.pre ((after env as).kel c.pre) i r ∧
      (∀ id' : IdentifierPrefix, (after env as').kel id' = (after env as).kel id') ∧
      (∀ l, storedReceipts id (after env as) = .ok l → storedReceipts id (after env as') = .ok (l ++ [r])) ∧
      ∀ id' : IdentifierPrefix, id'.toStr ≠ id.toStr → storedReceipts id' (after env as') = storedReceipts id' (after env as) := by
  have kk : ∀ id' : IdentifierPrefix, (after env as1).kel id' = (after env as).kel id' := fun id' => by
    unfold Db.kel; rw [hs]
  obtain ⟨r, v, as', g1, g2, g3, g4, g5, g6, g7, g8, g9, g10, g11⟩ := (show c.Ready env sg ((after env as1).kel c.pre) s by rw [kk]; exact R).makeRct hb
    id hid i e (by rw [kk]; exact he) (by rw [kk]; exact hr) (jsonText e.msg.sval) (json_serialize env e.msg hj)
  obtain ⟨d, t, q1, q2, q3⟩ := reads_message env bin hbin (.rctT r) (g11 hp)
  cases q1
  obtain ⟨_, _, hepre, _⟩ := C03_contiguous env as id hid i e he
  rw [kk] at g3
  have hbody : r.body.prefix.toStr = id.toStr := by rw [g2]; exact hepre
  refine ⟨r, t, as', ?_, q3, ?_, fun id' => by rw [g8, kk], fun l hl => ?_, fun id' hne => ?_⟩
  · unfold Controller.answer
    refine StM.bind_ok hk (StM.bind_ok g1 ?_)
    refine StM.bind_ok (a := t) (s' := after env as') ?_ rfl
    rw [show r.toData.toCesr env = .ok t from q2]; rfl
  · refine ⟨hbody, by rw [g2]; rfl, by rw [g4]; exact g5, g7, e, v, s.current, jsonText e.msg.sval, he, ?_, by rw [g4], ?_, json_serialize env e.msg hj, g6⟩
    · obtain ⟨j, hj, hvj⟩ := List.mem_iff_getElem.1 (lastEstablishment_mem g3)
      have hvj : ((after env as).kel c.pre)[j]? = some v := by rw [List.getElem?_eq_getElem hj, hvj]
      have := ((R.log.facts R.preNe).2.2 j v hvj).1
      rw [g4]
      show ((after env as).kel c.pre)[v.sn]? = some v
      rw [this]; exact hvj
    · have := R.log.keys R.preNe R.nonempty
      rw [keysInForce_lastEstablishment, g3] at this
      exact this
  · exact (storedReceipts_pushed g7 (by rw [g9, hs]) l hl).1
  · refine storedReceipts_congr ?_
    rw [g10, C10_isolated _ _ _ _ (by rw [show (Message.rctT r).subject.toStr = r.body.prefix.toStr from rfl, hbody]; exact hne), after_lookup_vec, hs]

/-- the answers to events of a log after its inception: one receipt for each -/
theorem answers_later {bin : Binary} (hbin : bin.RejectsJson) {env : Env} {sg : SignFn} {c : Controller} {s : IdState} (hb : env.Blake3Size)
    (id : IdentifierPrefix) (hid : id.toStr ≠ []) (l lv : List SignedEvent) (R : c.Ready env sg lv s) (hr : Readable l)
    (hl : ∀ e ∈ l, e.pre.Representable ∧ e.msg.info.kind = .json) (es : List SignedEvent) (k : Nat) (hes : l.drop (k + 1) = es) (as : List Action)
    (h1 : (after env as).kel id = l) (h2 : (after env as).kel c.pre = lv) (rl : List TReceipt) (hrl : storedReceipts id (after env as) = .ok rl) :
    ∃ (rs : List TReceipt) (cs : List (Bytes × Message)) (as' : List Action),
      c.answers sled env sg (es.map .event) (after env as) = (.ok (cs.flatMap Prod.fst), after env as') ∧
      cs.map Prod.snd = rs.map .rctT ∧ (∀ x ∈ cs, ReadsAs bin x.1 x.2) ∧ rs.length = es.length ∧
      (∀ j r, rs[j]? = some r → RctFor env id l c.pre lv (k + 1 + j) r) ∧
      (∀ id' : IdentifierPrefix, (after env as').kel id' = (after env as).kel id') ∧ storedReceipts id (after env as') = .ok (rl ++ rs) ∧
      ∀ id' : IdentifierPrefix, id'.toStr ≠ id.toStr → storedReceipts id' (after env as') = storedReceipts id' (after env as) := by
  induction es generalizing k as rl with
  | nil => exact ⟨[], [], as, rfl, rfl, by simp, rfl, by simp, fun _ => rfl, by simpa using hrl, fun _ _ => rfl⟩
  | cons e es ih =>
    have hk : l[k + 1]? = some e := by
      have := congrArg (fun x : List SignedEvent => x[0]?) hes
      simpa using this
    have hdrop : l.drop (k + 1 + 1) = es := by
      have := congrArg List.tail hes
      simpa using this
    have hmem := List.mem_of_getElem? hk
    have hni : e.data.isInception = false := by
      have := (C03_contiguous env as id hid (k + 1) e (by rw [h1]; exact hk)).2.1
      cases hi : e.data.isInception with
      | false => rfl
      | true => have := this.1 hi; omega
    obtain ⟨r, t, as1, a1, a2, a3, a4, a5, a6⟩ := answer_event hbin hb (show c.Ready env sg ((after env as).kel c.pre) s by rw [h2]; exact R) id hid (k + 1) e
      (by rw [h1]; exact hk) (by rw [h1]; exact hr) (hl e hmem).1 (hl e hmem).2 [] as (ownKerl_later c e hni _) (fun _ _ => rfl)
    rw [h1, h2] at a3
    obtain ⟨rs, cs, as2, b1, b2, b3, b4, b5, b6, b7, b8⟩ := ih (k + 1) hdrop as1 (by rw [a4]; exact h1) (by rw [a4]; exact h2) (rl ++ [r]) (a5 rl hrl)
    refine ⟨r :: rs, (t, .rctT r) :: cs, as2, ?_, by simp [b2], ?_, by simp [b4], ?_, fun id' => by rw [b6, a4], by rw [b7]; simp, fun id' h => by rw [b8 id' h, a6 id' h]⟩
    · rw [List.map_cons]
      unfold Controller.answers
      exact StM.bind_ok (StM.result_ok a1) (StM.bind_ok b1 rfl)
    · intro x hx
      rcases List.mem_cons.1 hx with rfl | hx
      · exact a2
      · exact b3 x hx
    · intro j r' hj
      cases j with
      | zero => simp only [List.getElem?_cons_zero, Option.some.injEq] at hj; subst hj; exact a3
      | succ j =>
        have := b5 j r' (by simpa using hj)
        rw [show k + 1 + (j + 1) = k + 1 + 1 + j by omega]
        exact this

/-- the answers to a whole log: whatever is answered to the inception, and one receipt for each event -/
theorem answers_log {bin : Binary} (hbin : bin.RejectsJson) {env : Env} {sg : SignFn} {c : Controller} {s : IdState} (hb : env.Blake3Size)
    (id : IdentifierPrefix) (hid : id.toStr ≠ []) (l lv : List SignedEvent) (R : c.Ready env sg lv s) (hr : Readable l)
    (hl : ∀ e ∈ l, e.pre.Representable ∧ e.msg.info.kind = .json) (as : List Action)
    (h1 : (after env as).kel id = l) (h2 : (after env as).kel c.pre = lv) (rl : List TReceipt) (hrl : storedReceipts id (after env as) = .ok rl)
    (e0 : SignedEvent) (h0 : l[0]? = some e0) (k : Bytes) (as1 : List Action) (hk : c.ownKerl sled e0 (after env as) = (.ok k, after env as1))
    (hs : ∀ t x, (after env as1).vec t x = (after env as).vec t x) :
    ∃ (rs : List TReceipt) (cs : List (Bytes × Message)) (as' : List Action),
      c.answers sled env sg (l.map .event) (after env as) = (.ok (k ++ cs.flatMap Prod.fst), after env as') ∧
      cs.map Prod.snd = rs.map .rctT ∧ (∀ x ∈ cs, ReadsAs bin x.1 x.2) ∧ rs.length = l.length ∧
      (∀ j r, rs[j]? = some r → RctFor env id l c.pre lv j r) ∧
      (∀ id' : IdentifierPrefix, (after env as').kel id' = (after env as).kel id') ∧ storedReceipts id (after env as') = .ok (rl ++ rs) ∧
      ∀ id' : IdentifierPrefix, id'.toStr ≠ id.toStr → storedReceipts id' (after env as') = storedReceipts id' (after env as) := by
  have hmem := List.mem_of_getElem? h0
  obtain ⟨r, t, as1, a1, a2, a3, a4, a5, a6⟩ := answer_event hbin hb (show c.Ready env sg ((after env as).kel c.pre) s by rw [h2]; exact R) id hid 0 e0
    (by rw [h1]; exact h0) (by rw [h1]; exact hr) (hl e0 hmem).1 (hl e0 hmem).2 k as1 hk hs
  rw [h1, h2] at a3
  cases l with
  | nil => simp at h0
  | cons e es =>
    simp only [List.getElem?_cons_zero, Option.some.injEq] at h0
    subst h0
    obtain ⟨rs, cs, as2, b1, b2, b3, b4, b5, b6, b7, b8⟩ := answers_later hbin hb id hid (e :: es) lv R hr hl es 0 rfl as1 (by rw [a4]; exact h1) (by rw [a4]; exact h2) (rl ++ [r]) (a5 rl hrl)
    refine ⟨r :: rs, (t, .rctT r) :: cs, as2, ?_, by simp [b2], ?_, by simp [b4], ?_, fun id' => by rw [b6, a4], by rw [b7]; simp, fun id' h => by rw [b8 id' h, a6 id' h]⟩
    · rw [List.map_cons]
      unfold Controller.answers
      refine StM.bind_ok (StM.result_ok a1) (StM.bind_ok b1 ?_)
      show (Res.ok ((k ++ t) ++ cs.flatMap Prod.fst), _) = _
      rw [List.flatMap_cons, List.append_assoc]
    · intro x hx
      rcases List.mem_cons.1 hx with rfl | hx
      · exact a2
      · exact b3 x hx
    · intro j r' hj
      cases j with
      | zero => simp only [List.getElem?_cons_zero, Option.some.injEq] at hj; subst hj; exact a3
      | succ j =>
        have := b5 j r' (by simpa using hj)
        rw [show j + 1 = 0 + 1 + j by omega]
        exact this

/-! ## C72 -/

/-- C72: one accepted witness receipt anywhere in the received stream crashes `respond`, after the whole stream has been processed. -/
theorem C72_witness_receipt_crashes (bin : Binary) (hb : bin.RejectsJson) (env : Env) (sg : SignFn) (c : Controller) (ms : List Message)
    (hw : ∀ m ∈ ms, m.Wireable) (text : Bytes) (ht : streamText env ms = .ok text) (db : Db) (r : NtReceipt) (h : .rctNt r ∈ acceptedOf env ms db) :
    (c.respond bin sled env sg text db).1 = .panic := by
  obtain ⟨b, ds, h1, h2, h3⟩ := C62_stream_roundtrip env bin hb ms hw
  rw [ht] at h1
  cases h1
  obtain ⟨g1, g2⟩ := respond_run bin env sg c text ds [] ms h2 h3 db
  by_cases hc : crashesOn env ms db
  · exact g2 hc
  · rw [g1 hc]; exact answers_panic env sg c _ r h _

/-- C72 and C29 together: anyone can crash `respond` of every controller, with no key at all.  A witness receipt of any logged event (readable log,
event that can be written) with arbitrary signatures does it; the receipt is stored all the same. -/
theorem C72_fails_for_all (bin : Binary) (hb : bin.RejectsJson) (env : Env) (sg : SignFn) (c : Controller) (as : List Action) (r : NtReceipt)
    (hw : (Message.rctNt r).Wireable) (hid : r.body.prefix.toStr ≠ []) (hr : Readable ((after env as).kel r.body.prefix)) (e : SignedEvent) (ser : Bytes)
    (he : ((after env as).kel r.body.prefix)[r.body.sn]? = some e) (hs : e.serialize = .ok ser) (hk : ∀ x ∈ r.couplets, coupletKindsMatch x) :
    ∃ text, r.toData.toCesr env = .ok text ∧ (c.respond bin sled env sg text (after env as)).1 = .panic ∧
      ∃ l, (c.respond bin sled env sg text (after env as)).2.vec .rcts r.body.prefix.toStr = some l ∧ r ∈ l := by
  obtain ⟨d, text, h1, h2, h3⟩ := reads_message env bin hb (.rctNt r) hw
  cases h1
  obtain ⟨ds, g1, g2⟩ := chunks_parse bin hb [(text, .rctNt r)] (by
    intro c hc; rw [List.mem_singleton] at hc; subst hc; exact h3)
  rw [show [(text, Message.rctNt r)].flatMap Prod.fst = text by simp] at g1
  obtain ⟨⟨st, hst⟩, l, hl, hrl⟩ := C29_fails_for_all env as r hid hr e ser he hs hk
  have hacc : acceptedOf env [.rctNt r] (after env as) = [.rctNt r] := by
    simp [acceptedOf, hst, Res.isOk]
  have hcr : ¬ crashesOn env [.rctNt r] (after env as) := by
    simp [crashesOn, hst]
  obtain ⟨q1, _⟩ := respond_run bin env sg c text ds [] [.rctNt r] g1 g2 (after env as)
  have hdb : runHistory sled env (after env as) ([Message.rctNt r].map Action.submit) = after env (as ++ [.submit (.rctNt r)]) := by
    rw [after, after, runHistory_append]; rfl
  have hresp := q1 hcr
  rw [hacc, hdb] at hresp
  have hfin : c.answers sled env sg [.rctNt r] (after env (as ++ [.submit (.rctNt r)])) = (.panic, after env (as ++ [.submit (.rctNt r)])) := by
    unfold Controller.answers
    exact StM.bind_panic (StM.result_panic rfl)
  rw [hfin] at hresp
  exact ⟨text, h2, by rw [hresp], l, by rw [hresp]; exact hl, hrl⟩

/-- C72: refused messages are dropped without a word: if no message of the stream is accepted, or only receipts of controllers are, the answer is the empty
text, and the database is the one after submitting the messages one after the other. -/
theorem C72_silence (bin : Binary) (hb : bin.RejectsJson) (env : Env) (sg : SignFn) (c : Controller) (ms : List Message)
    (hw : ∀ m ∈ ms, m.Wireable) (text : Bytes) (ht : streamText env ms = .ok text) (db : Db) (hc : ¬ crashesOn env ms db)
    (h : ∀ m ∈ acceptedOf env ms db, ∃ r, m = .rctT r) :
    c.respond bin sled env sg text db = (.ok [], runHistory sled env db (ms.map .submit)) := by
  obtain ⟨b, ds, h1, h2, h3⟩ := C62_stream_roundtrip env bin hb ms hw
  rw [ht] at h1
  cases h1
  rw [(respond_run bin env sg c text ds [] ms h2 h3 db).1 hc]
  generalize runHistory sled env db (ms.map .submit) = db'
  generalize acceptedOf env ms db = l at h
  induction l with
  | nil => rfl
  | cons m l ih =>
    obtain ⟨r, rfl⟩ := h m (by simp)
    unfold Controller.answers
    refine StM.bind_ok (StM.result_ok (a := []) rfl) ?_
    exact StM.bind_ok (ih fun x hx => h x (by simp [hx])) rfl

/-! ### Examples -/

theorem Ex.badNt_wireable : (Message.rctNt Ex.badNt).Wireable := by
  refine ⟨⟨by decide, by decide, by decide, rfl, ⟨by decide +kernel, by decide +kernel⟩, ?_, by decide⟩, by decide, ?_⟩
  · have h : (match Ex.id with | .selfAddressing p => decide (p.digest.length = p.derivation.rawBytes ∧ p.derivation.keyless = true) | _ => false) = true := by decide +kernel
    show Ex.id.Representable
    cases hd : Ex.id with
    | selfAddressing p => rw [hd] at h; exact ⟨@of_decide_eq_true _ (_) h, fun h => h⟩
    | basic p => rw [hd] at h; cases h
    | selfSigning p => rw [hd] at h; cases h
  · intro x hx
    have : x = (Ex.key 31, ⟨.ed25519Sha512, List.replicate 64 0⟩) := List.mem_singleton.1 hx
    subst this
    refine ⟨rfl, ?_, rfl⟩
    rintro (h | h) <;> cases h

/-- `C72_fails_for_all` applied: the receipt of the example, whose signature is all zeros, crashes `respond` of every controller -/
example (c : Controller) : ∃ text, Ex.badNt.toData.toCesr Ex.env = .ok text ∧ (c.respond Ex.noBin sled Ex.env Ex.sg text (after Ex.env Ex.hist)).1 = .panic := by
  obtain ⟨ser, hser⟩ : ∃ ser, Ex.rot.serialize = .ok ser := by
    have h : Ex.rot.serialize.isOk = true := by decide +kernel
    cases hs : Ex.rot.serialize with
    | ok b => exact ⟨b, rfl⟩
    | err e => rw [hs] at h; cases h
    | panic => rw [hs] at h; cases h
  obtain ⟨text, h1, h2, _⟩ := C72_fails_for_all Ex.noBin (fun _ _ => ⟨rfl, rfl⟩) Ex.env Ex.sg c Ex.hist Ex.badNt Ex.badNt_wireable (by decide +kernel)
    (by unfold Readable; decide +kernel) Ex.rot ser (by decide +kernel) hser (by
      intro x hx
      have : x = (Ex.key 31, ⟨.ed25519Sha512, List.replicate 64 0⟩) := List.mem_singleton.1 hx
      subst this
      exact Or.inl ⟨Or.inl rfl, rfl⟩)
  exact ⟨text, h1, h2⟩

/-- `C72_silence` and its hypotheses on a stream whose only message is refused, and on one whose messages are a refused event and a receipt -/
example : acceptedOf Ex.env [.event Ex.rot] (after Ex.env Ex.hist) = [] ∧
    acceptedOf Ex.env [.event Ex.rot, .rctT Ex.rct] (after Ex.env Ex.rctHist) = [.rctT Ex.rct] ∧
    ¬ crashesOn Ex.env [.event Ex.rot, .rctT Ex.rct] (after Ex.env Ex.rctHist) := by
  refine ⟨by decide +kernel, by decide +kernel, ?_⟩
  have h : ((process sled Ex.env (.event Ex.rot) (after Ex.env Ex.rctHist)).1 ≠ .panic) ∧
    ((process sled Ex.env (.rctT Ex.rct) (process sled Ex.env (.event Ex.rot) (after Ex.env Ex.rctHist)).2).1 ≠ .panic) := by decide +kernel
  rintro (h1 | h1 | h1)
  · exact h.1 h1
  · exact h.2 h1
  · exact h1

end Keriox
