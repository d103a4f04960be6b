import Verif.Props.QueryExact
/-!
# C130: a check in front of `process` that keeps every message from crashing it

C124 checks events.  Here every kind of message is checked, with what the caller can see: the message, the logs, and what storing the message makes of it.
-/
namespace Keriox

/-! ## Specification -/

/-- the indices of the attached signatures name keys and weights of the keys that the event named by the seal has established, if the node has it -/
def IndicesFit (kel : IdentifierPrefix → List SignedEvent) (sl : EventSeal) (sigs : List AttachedSignaturePrefix) : Prop :=
  ∀ v kc, (kel sl.prefix)[sl.sn]? = some v → v.data.keyConfig? = some kc → ¬ CrashesOn kc sigs

/-- what the caller checks before it submits a message; queries are never submitted (`process` has no case for them) -/
def CheckedMsg (env : Env) (kel : IdentifierPrefix → List SignedEvent) : Message → Prop
  | .event e => e.pre.toStr ≠ [] ∧ Sane env kel e ∧ e.msg.info.kind = .json ∧ ¬ Unbindable e.msg
  | .rctNt r => r.body.prefix.toStr ≠ []
  | .rctT r => r.body.prefix.toStr ≠ [] ∧ r.validatorSeal.prefix.toStr ≠ [] ∧ IndicesFit kel r.validatorSeal r.sigs
  | .reply r => r.pre.toStr ≠ [] ∧ r.signature.signer.toStr ≠ [] ∧ r.reply.ksn.state.current.nextDigest ≠ none ∧ r.dec = some r ∧
      ∀ sl sigs, r.signature = .transferable sl sigs → IndicesFit kel sl sigs
  | .query _ => False

/-- every message of the history was checked when it was submitted, and the escrow of replies was not reprocessed -/
def AllChecked (env : Env) (as : List Action) : Prop :=
  Action.reprocess ∉ as ∧ ∀ before m rest, as = before ++ .submit m :: rest → CheckedMsg env (after env before).kel m

/-! ## Proof -/

theorem AllChecked.init {env : Env} {as bs : List Action} (h : AllChecked env (as ++ bs)) : AllChecked env as :=
  ⟨fun hm => h.1 (List.mem_append_left _ hm), fun before m rest he => h.2 before m (rest ++ bs) (by rw [he]; simp)⟩

theorem AllChecked.last {env : Env} {as : List Action} {m : Message} (h : AllChecked env (as ++ [.submit m])) : CheckedMsg env (after env as).kel m :=
  h.2 as m [] rfl

theorem AllChecked.guarded {env : Env} {as : List Action} (h : AllChecked env as) : Guarded env as := fun before e rest he =>
  have := h.2 before (.event e) rest he
  ⟨this.1, this.2.1⟩

theorem decAll_fix {l : List SignedReply} (h : ∀ r ∈ l, r.dec = some r) : Tbl.knas.decAll l = some l := by
  induction l with
  | nil => rfl
  | cons r l ih =>
    unfold Tbl.decAll
    rw [ih fun x hx => h x (List.mem_cons_of_mem _ hx), show Tbl.knas.dec r = some r from h r (by simp)]

theorem replies_lookup (env : Env) (as : List Action) (t : Tbl) (id id' : IdentifierPrefix) :
    (after env (as ++ [.lookup t id])).replies id' = (after env as).replies id' := by
  have : (after env (as ++ [.lookup t id])).abs.tables = (after env as).abs.tables := by
    rw [after_abs, after_abs, runHistory_append]
    exact MapDb.touch_tables _ _
  have h2 : (after env (as ++ [.lookup t id])).vec .knas id'.toStr = (after env as).vec .knas id'.toStr :=
    congrFun (congrFun this .knas) id'.toStr
  unfold Db.replies
  rw [h2]

theorem replies_text (db : Db) {id id' : IdentifierPrefix} (h : id.toStr = id'.toStr) : db.replies id = db.replies id' := by
  unfold Db.replies
  rw [h]

/-- stored replies are as they were submitted -/
theorem replies_fix (env : Env) (as : List Action) (h : AllChecked env as) (id : IdentifierPrefix) : ∀ r ∈ (after env as).replies id, r.dec = some r := by
  induction as using snoc_induction generalizing id with
  | h0 => intro r hr; simp [after, runHistory, Db.replies, Db.vec, Db.empty, keyByValue] at hr
  | h1 as a ih =>
    replace ih := ih h.init
    cases a with
    | reprocess => exact absurd (List.mem_append_right _ (by simp)) h.1
    | lookup t i => rw [replies_lookup]; exact ih id
    | submit m =>
      by_cases hm : ∃ r, m = .reply r
      case neg => rw [C48_others env as m fun r hr => hm ⟨r, hr⟩]; exact ih id
      obtain ⟨r, rfl⟩ := hm
      have hc := h.last
      by_cases ha : ∃ s, (process sled env (.reply r) (after env as)).1 = .ok s
      case neg => rw [C48_refused env as r fun s hs => ha ⟨s, hs⟩]; exact ih id
      obtain ⟨s, hs⟩ := ha
      obtain ⟨⟨l, hl, h1⟩, h2⟩ := C48_accepted env as r s hs
      by_cases hi : id.toStr = r.pre.toStr
      · rw [replies_text _ hi, h1]
        rw [decAll_fix (ih r.pre)] at hl
        cases hl
        intro x hx
        rcases List.mem_append.1 hx with hx | hx
        · exact ih r.pre x (List.mem_filter.1 hx).1
        · rw [List.mem_singleton.1 hx]; exact hc.2.2.2.1
      · rw [h2 id hi]; exact ih id

/-- C130: everything the processor has stored can be read: every log, and every accepted reply as it was submitted. -/
theorem C130_readable (env : Env) (as : List Action) (h : AllChecked env as) (id : IdentifierPrefix) :
    Readable ((after env as).kel id) ∧ ∃ o, (getAccepted sled id (after env as)).1 = .ok o ∧ o.getD [] = (after env as).replies id := by
  refine ⟨(C124_signed env as h.guarded id).1, ?_⟩
  have hf := decAll_fix (replies_fix env as h id)
  rw [accepted_read, show (after env as).abs.tables .knas id.toStr = (after env as).vec .knas id.toStr from rfl]
  unfold Db.replies at *
  unfold Tbl.iterValues Tbl.entry
  cases hv : (after env as).vec .knas id.toStr with
  | none => exact ⟨none, rfl, rfl⟩
  | some l =>
    rw [hv] at hf
    dsimp only [Option.getD_some] at hf ⊢
    rw [hf]
    exact ⟨some l, rfl, rfl⟩

/-- C130: no checked message crashes `process`, whatever checked messages came before, accepted or not. -/
theorem C130_no_crash (env : Env) (as : List Action) (m : Message) (h : AllChecked env (as ++ [.submit m])) :
    (process sled env m (after env as)).1 ≠ .panic := by
  have hc := h.last
  have hi := h.init
  have hR : ∀ id, Readable ((after env as).kel id) := fun id => (C130_readable env as hi id).1
  cases m with
  | event e => exact C124_no_crash env as e h.guarded hc.2.2.1 hc.2.2.2
  | query q => exact hc.elim
  | rctNt r => rw [Ne, C127_witness_crash_exact env as r hc]; exact not_not_intro (hR _)
  | rctT r =>
    obtain ⟨h1, h2, h3⟩ := hc
    rw [Ne, C127_crash_exact env as r h1 h2]
    rintro (h | ⟨e, he, h | ⟨v, kc, bytes, g1, _, g2, _, g3⟩⟩)
    · exact h (hR _)
    · exact h (hR _)
    · exact h3 v kc g1 g2 g3
  | reply r =>
    obtain ⟨h1, h2, h3, h4, h5⟩ := hc
    rw [Ne, C128_crash_exact env as r h1 h2]
    rintro ⟨_, hx⟩
    cases hx with
    | noNext h => exact h3 h
    | signature b _ h =>
      obtain ⟨sl, sigs, hs, h | ⟨v, kc, g1, _, g2, g3⟩⟩ := h
      · exact h (hR _)
      · exact h5 sl sigs hs v kc g1 g2 g3
    | stored b _ _ _ h =>
      obtain ⟨o, ho, _⟩ := (C130_readable env as hi r.pre).2
      rw [ho] at h
      cases h
    | log b _ _ _ _ h => exact h (hR _)

/-- what is checked before a signed query is handed to a witness: texts, JSON, indices in range of the signer's keys in force, and a question that can
be put: for a log that can be written, or for a state with next keys -/
structure CheckedQuery (env : Env) (kel : IdentifierPrefix → List SignedEvent) (q : SignedQuery) : Prop where
  signer : q.signer.toStr ≠ []
  subject : q.id.toStr ≠ []
  json : q.info.kind = .json
  indices : ∀ s, stateAfter env (kel q.signer) = .ok s → ¬ CrashesOn s.current q.sigs
  asks : (q.route = .log ∧ kerlBytes (kel q.id) ≠ .panic) ∨
    (q.route = .ksn ∧ ∀ s, stateAfter env (kel q.id) = .ok s → s.current.nextDigest ≠ none)

/-- C130: a witness with a working key that is given only checked messages and checked queries does not crash on a query either. -/
theorem C130_witness_query (env : Env) (sg : SignFn) (w : Witness) (hsg : ∀ m, ∃ b, w.signer.sign sg m = .ok b) (as : List Action) (h : AllChecked env as)
    (q : SignedQuery) (hq : CheckedQuery env (after env as).kel q) (t1 t2 : Timestamp) :
    (w.processSignedQuery sled env sg q t1 t2 (after env as)).1 ≠ .panic := by
  have hR : ∀ id, Readable ((after env as).kel id) := fun id => (C130_readable env as h id).1
  rw [Ne, C129_crash_exact env sg w hsg as q hq.signer hq.subject]
  intro hc
  cases hc with
  | signerLog h => exact h (hR _)
  | unwritable _ h =>
    unfold SignedQuery.serialize at h
    rw [hq.json] at h
    cases h
  | index s h1 h2 => exact hq.indices s h1 h2
  | route i _ h => rcases hq.asks with ⟨h', _⟩ | ⟨h', _⟩ <;> (rw [h] at h'; cases h')
  | log _ h => exact h (hR _)
  | kerl _ h1 h2 =>
    rcases hq.asks with ⟨_, h'⟩ | ⟨h', _⟩
    · exact h' h2
    · rw [h1] at h'; cases h'
  | noNext s _ h1 _ h2 h3 =>
    rcases hq.asks with ⟨h', _⟩ | ⟨_, h'⟩
    · rw [h1] at h'; cases h'
    · exact h' s h2 h3

/-- C130: the check on the indices is met by indices in range of the keys, and of the weights of a single clause. -/
theorem C130_indices (kel : IdentifierPrefix → List SignedEvent) (sl : EventSeal) (sigs : List AttachedSignaturePrefix)
    (hi : ∀ v kc, (kel sl.prefix)[sl.sn]? = some v → v.data.keyConfig? = some kc → (∀ s ∈ sigs, s.index < kc.publicKeys.length) ∧
      ∀ c, kc.threshold = .single c → ∀ s ∈ sigs, s.index < c.length) : IndicesFit kel sl sigs := by
  intro v kc h1 h2 h
  obtain ⟨g1, g2⟩ := hi v kc h1 h2
  rcases h with ⟨c, hc, s, hs, hl⟩ | ⟨_, _, s, hs, hl⟩
  · have := g2 c hc s hs; omega
  · have := g1 s hs; omega

/-! ## The check as a program -/

/-- indices in range of the keys, and of the weights of a single clause -/
def inRange (kc : KeyConfig) (sigs : List AttachedSignaturePrefix) : Bool :=
  sigs.all fun s => decide (s.index < kc.publicKeys.length) && match kc.threshold with
    | .single c => decide (s.index < c.length)
    | _ => true

/-- in range of the keys of the event that the seal names, if there is one -/
def sealInRange (kel : IdentifierPrefix → List SignedEvent) (sl : EventSeal) (sigs : List AttachedSignaturePrefix) : Bool :=
  match (kel sl.prefix)[sl.sn]? with
  | some v => (match v.data.keyConfig? with
    | some kc => inRange kc sigs
    | none => true)
  | none => true

/-- tying the identifier to the content of an inception is implemented -/
def bindable (m : EventMessage) : Bool :=
  match m.event.content.data, m.event.content.prefix with
  | .icp _, .selfSigning _ => false
  | .dip _, .selfSigning _ => false
  | .dip _, .basic _ => false
  | _, _ => true

/-- the check; it refuses queries, events that are not JSON, and inceptions for whose identifier no check is implemented -/
def messageOk (env : Env) (kel : IdentifierPrefix → List SignedEvent) : Message → Bool
  | .event e => decide (e.pre.toStr ≠ []) && (e.msg.serialize env).isOk && e.rt && decide (e.msg.info.kind = .json) && bindable e.msg &&
      (match keysInForce (kel e.pre ++ [e]) with
      | some kc => inRange kc e.sigs
      | none => true)
  | .rctNt r => decide (r.body.prefix.toStr ≠ [])
  | .rctT r => decide (r.body.prefix.toStr ≠ []) && decide (r.validatorSeal.prefix.toStr ≠ []) && sealInRange kel r.validatorSeal r.sigs
  | .reply r => decide (r.pre.toStr ≠ []) && decide (r.signature.signer.toStr ≠ []) && r.reply.ksn.state.current.nextDigest.isSome &&
      decide (r.dec = some r) && (match r.signature with
      | .transferable sl sigs => sealInRange kel sl sigs
      | _ => true)
  | .query _ => false

theorem inRange_sound {kc : KeyConfig} {sigs : List AttachedSignaturePrefix} (h : inRange kc sigs = true) : ¬ CrashesOn kc sigs := by
  have h' := List.all_eq_true.1 h
  rintro (⟨c, hc, s, hs, hl⟩ | ⟨_, _, s, hs, hl⟩)
  · have := h' s hs
    rw [hc, Bool.and_eq_true] at this
    have := of_decide_eq_true this.2
    omega
  · have := h' s hs
    rw [Bool.and_eq_true] at this
    have := of_decide_eq_true this.1
    omega

theorem sealInRange_sound {kel : IdentifierPrefix → List SignedEvent} {sl : EventSeal} {sigs : List AttachedSignaturePrefix}
    (h : sealInRange kel sl sigs = true) : IndicesFit kel sl sigs := by
  intro v kc h1 h2
  unfold sealInRange at h
  rw [h1] at h
  dsimp only at h
  rw [h2] at h
  exact inRange_sound h

theorem bindable_sound {m : EventMessage} (h : bindable m = true) : ¬ Unbindable m := by
  unfold bindable at h
  unfold Unbindable
  split at h <;> first | cases h | skip
  split <;> simp_all

/-- C130: a message that passes the program is checked. -/
theorem C130_program (env : Env) (kel : IdentifierPrefix → List SignedEvent) (m : Message) (h : messageOk env kel m = true) : CheckedMsg env kel m := by
  cases m with
  | query q => cases h
  | rctNt r => exact of_decide_eq_true (p := r.body.prefix.toStr ≠ []) h
  | rctT r =>
    simp only [messageOk, Bool.and_eq_true, decide_eq_true_eq] at h
    exact ⟨h.1.1, h.1.2, sealInRange_sound h.2⟩
  | reply r =>
    simp only [messageOk, Bool.and_eq_true, decide_eq_true_eq] at h
    obtain ⟨⟨⟨⟨h1, h2⟩, h3⟩, h4⟩, h5⟩ := h
    refine ⟨h1, h2, fun h0 => ?_, h4, fun sl sigs hs => ?_⟩
    · rw [h0] at h3; cases h3
    · rw [hs] at h5; exact sealInRange_sound h5
  | event e =>
    simp only [messageOk, Bool.and_eq_true, decide_eq_true_eq] at h
    obtain ⟨⟨⟨⟨⟨h1, h2⟩, h3⟩, h4⟩, h5⟩, h6⟩ := h
    refine ⟨h1, ⟨Res.ok_of_isOk h2, h3, fun kc hk => ?_⟩, h4, bindable_sound h5⟩
    rw [hk] at h6
    exact inRange_sound h6

/-- the program run on every message of a history when it is submitted -/
def historyOk (env : Env) (before : List Action) : List Action → Bool
  | [] => true
  | .reprocess :: _ => false
  | .lookup t id :: rest => historyOk env (before ++ [.lookup t id]) rest
  | .submit m :: rest => messageOk env (after env before).kel m && historyOk env (before ++ [.submit m]) rest

theorem historyOk_sound {env : Env} (as : List Action) : ∀ (before : List Action), historyOk env before as = true →
    Action.reprocess ∉ as ∧ ∀ b m rest, as = b ++ .submit m :: rest → CheckedMsg env (after env (before ++ b)).kel m := by
  induction as with
  | nil => exact fun _ _ => ⟨by simp, fun b m rest h => by simp at h⟩
  | cons a as ih =>
    intro before h
    cases a with
    | reprocess => cases h
    | lookup t id =>
      obtain ⟨h1, h2⟩ := ih _ h
      refine ⟨by simpa using h1, fun b m rest he => ?_⟩
      cases b with
      | nil => cases he
      | cons x b =>
        rw [List.cons_append, List.cons.injEq] at he
        have := h2 b m rest he.2
        rw [he.1, List.append_assoc] at this
        exact this
    | submit m' =>
      rw [historyOk, Bool.and_eq_true] at h
      obtain ⟨h1, h2⟩ := ih _ h.2
      refine ⟨by simpa using h1, fun b m rest he => ?_⟩
      cases b with
      | nil =>
        rw [List.nil_append, List.cons.injEq] at he
        cases he.1
        rw [List.append_nil]
        exact C130_program _ _ _ h.1
      | cons x b =>
        rw [List.cons_append, List.cons.injEq] at he
        have := h2 b m rest he.2
        rw [he.1, List.append_assoc] at this
        exact this

/-- C130: so a caller that runs the program on every message and submits what passes never sees `process` crash. -/
theorem C130_program_no_crash (env : Env) (as : List Action) (m : Message) (h : historyOk env [] as = true) (hm : messageOk env (after env as).kel m = true) :
    (process sled env m (after env as)).1 ≠ .panic := by
  obtain ⟨h1, h2⟩ := historyOk_sound as [] h
  refine C130_no_crash env as m ⟨?_, fun b m' rest he => ?_⟩
  · simpa using h1
  · rcases List.eq_nil_or_concat rest with rfl | ⟨rest, x, rfl⟩
    · obtain ⟨e1, e2⟩ := List.append_inj' he rfl
      cases e2
      rw [e1] at hm
      exact C130_program _ _ _ hm
    · rw [List.concat_eq_append, ← List.cons_append, ← List.append_assoc] at he
      exact h2 b m' rest (List.append_inj' he rfl).1

/-! ## Examples -/

/-- events of two identifiers, receipts of both kinds (one of them with a garbage signature), a lookup and a reply -/
def Ex.checkedHist : List Action := Ex.rctHist ++ [.submit (.rctT Ex.rct), .submit (.rctNt Ex.badNt), .lookup .kels Ex.id, .submit (.reply (Ex.selfReply 5))]

/-- a later reply passes and is accepted; a receipt and a reply with wrong indices do not pass -/
example : historyOk Ex.env [] Ex.checkedHist = true ∧ messageOk Ex.env (after Ex.env Ex.checkedHist).kel (.reply (Ex.selfReply 6)) = true ∧
    (process sled Ex.env (.reply (Ex.selfReply 6)) (after Ex.env Ex.checkedHist)).1.isOk = true ∧
    messageOk Ex.env (after Ex.env Ex.checkedHist).kel (.rctT Ex.rctCrash) = false ∧
    messageOk Ex.env (after Ex.env Ex.checkedHist).kel (.reply Ex.replyCrash) = false := by
  decide +kernel

/-- a query that is checked, to a node with that history -/
example : CheckedQuery Ex.env (after Ex.env Ex.checkedHist).kel (Ex.qry .ksn Ex.id) := by
  have hst : stateAfter Ex.env ((after Ex.env Ex.checkedHist).kel Ex.id) = .ok Ex.ixnState := by decide +kernel
  refine ⟨by decide +kernel, by decide +kernel, rfl, fun s hs => ?_, .inr ⟨rfl, fun s hs => ?_⟩⟩
  · cases hst.symm.trans hs
    exact inRange_sound (by decide +kernel)
  · cases hst.symm.trans hs
    decide +kernel

end Keriox
