import Verif.CborFacts
import Verif.Props.Wire
import Verif.Keri
/-!
# Property C110: messages in CBOR
-/
namespace Keriox

/-! ## Reading back what was written -/

private theorem event_fits (m : EventMessage) (h : m.event.content.data.utf8 = true) :
    SVal.FitsF 127 ([(b!"v", .str m.info.toStr), (b!"t", .str m.event.content.data.type.toStr), (b!"d", .str m.event.digest.toStr)] ++
      m.event.content.fields) := by
  refine FitsF_append _ _ _ ?_ ?_
  · simp only [SVal.FitsF, SVal.Fits]
    exact ⟨by decide, SerInfo.toStr_utf8 _, by decide, type_utf8 _, by decide, SelfAddressingPrefix.toStr_utf8 _, trivial⟩
  · unfold Event.fields
    refine FitsF_append _ _ _ ?_ (data_fits _ h 124)
    simp only [SVal.FitsF, SVal.Fits]
    exact ⟨by decide, IdentifierPrefix.toStr_utf8 _, by decide, hexStr_utf8 _, trivial⟩

theorem cborTop_message (m : EventMessage) (h : m.event.content.data.utf8 = true) (hl : (cborText m.sval).length < 2 ^ 64) (rest : Bytes) :
    cborTop (cborText m.sval ++ rest) = ((b!"v", .str m.info.toStr) :: eventMembers m.event, some rest) := by
  unfold EventMessage.sval at hl ⊢
  rw [cborTop_written _ _ (event_fits m h) hl]
  rfl

/-- C110, exactly: a key event message written as CBOR and followed by anything is read back as itself, leaving exactly what followed,
if and only if each of its parts reads back on its own: the same condition as for JSON (`C44_exact`). -/
theorem C110_exact (m : EventMessage) (rest : Bytes) (hu : m.event.content.data.utf8 = true) (hl : (cborText m.sval).length < 2 ^ 64) :
    cborMessage desKeyEvent (cborText m.sval ++ rest) = .ok rest (m.info, m.event) ↔ m.rt = true := by
  rw [← C44_exact m rest hu]
  unfold cborMessage jsonMessage
  rw [cborTop_message m hu hl, jsonTop_message m hu]
  exact Iff.rfl

/-- the JSON reader gives up on a CBOR map at once -/
theorem jsonMessage_cbor {α : Type} (inner : List (Bytes × JVal) → Res α) (v : List (Bytes × SVal)) (rest : Bytes) :
    jsonMessage inner (cborText (.map v) ++ rest) = .error := by
  have h : jsonTop (cborText (.map v) ++ rest) = ([], none) := by
    simp only [cborText, List.append_assoc, List.cons_append, List.nil_append]
    unfold jsonTop
    rw [skipWs_cons _ _ (by decide)]
    rfl
  unfold jsonMessage
  rw [h]
  rfl

theorem keyEvent_cbor (bin : Binary) (hc : bin.ReadsCbor) (m : EventMessage) (rest : Bytes) (h : m.Representable)
    (hl : (cborText m.sval).length < 2 ^ 64) : keyEventMessageP bin (cborText m.sval ++ rest) = .ok rest (.keyEvent m) := by
  have hu := (EventMessage.rt_of h).2
  unfold keyEventMessageP altP
  have hj : jsonMessage desKeyEvent (cborText m.sval ++ rest) = .error := jsonMessage_cbor _ _ _
  rw [hj, hc.event _ (by rw [cborTop_message m hu hl]; simp), (C110_exact m rest hu hl).2 (EventMessage.rt_of h).1]
  rfl

/-! ### Receipts -/

/-- a receipt body the wire carries, in CBOR -/
def ReceiptMsg.RepresentableCbor (r : ReceiptMsg) : Prop :=
  r.info.kind = .cbor ∧ ({ r with info := { r.info with kind := .json } } : ReceiptMsg).Representable ∧ (cborText r.sval).length < 2 ^ 64

theorem receipt_cborTop (r : ReceiptMsg) (hl : (cborText r.sval).length < 2 ^ 64) (rest : Bytes) :
    cborTop (cborText r.sval ++ rest) = ([(b!"v", .str r.info.toStr), (b!"t", .str b!"rct"), (b!"d", .str r.digest.toStr),
      (b!"i", .str r.prefix.toStr), (b!"s", .str (hexStr r.sn))], some rest) := by
  unfold ReceiptMsg.sval at hl ⊢
  rw [cborTop_written _ _ _ hl]
  · rfl
  · simp only [SVal.FitsF, SVal.Fits]
    exact ⟨by decide, SerInfo.toStr_utf8 _, by decide, by decide, by decide, SelfAddressingPrefix.toStr_utf8 _, by decide,
      IdentifierPrefix.toStr_utf8 _, by decide, hexStr_utf8 _, trivial⟩

private theorem receipt_parts {r : ReceiptMsg} (h : r.RepresentableCbor) :
    SerInfo.fromStr r.info.toStr = .ok r.info ∧ SelfAddressingPrefix.fromStr r.digest.toStr = .ok r.digest ∧
      IdentifierPrefix.fromStr r.prefix.toStr = .ok r.prefix ∧ desHex (.str (hexStr r.sn)) = .ok r.sn := by
  obtain ⟨-, ⟨h1, h2, h3, h4, h5, h6, h7⟩, -⟩ := h
  exact ⟨(C41_exact r.info h1 h2).2 h3, C35_selfAddressing_roundtrip _ h5, C35_identifier_roundtrip _ h6.1 h6.2, (desHex_iff _).2 h7⟩

theorem receipt_cbor (r : ReceiptMsg) (h : r.RepresentableCbor) (rest : Bytes) :
    cborMessage (fun fs => desReceipt fs none none none) (cborText r.sval ++ rest) = .ok rest (r.info, r.digest, r.prefix, r.sn) := by
  obtain ⟨h1, h2, h3, h4⟩ := receipt_parts h
  unfold cborMessage
  rw [receipt_cborTop r h.2.2]
  unfold desMessage
  rw [ownField_here _ _ _ _ (by simp), desText_ok, h1]
  simp only [Res.ok_bind, Res.ofOption, need]
  simp only [desReceipt, List.cons.injEq, reduceCtorEq, and_true, if_true, if_false, desText_ok, h2, h3, h4, Res.ok_bind, need, Res.ofOption]
  simp

theorem receipt_not_event_cbor (r : ReceiptMsg) (h : r.RepresentableCbor) (rest : Bytes) :
    cborMessage desKeyEvent (cborText r.sval ++ rest) = .error := by
  obtain ⟨h1, h2, h3, h4⟩ := receipt_parts h
  unfold cborMessage
  rw [receipt_cborTop r h.2.2]
  unfold desMessage
  rw [ownField_here _ _ _ _ (by simp), desText_ok, h1]
  simp only [Res.ok_bind, Res.ofOption, need]
  unfold desKeyEvent
  rw [ownField_skip _ _ _ _ _ (by decide), ownField_here _ _ _ _ (by simp), desText_ok, h2]
  simp only [Res.ok_bind, need, Res.ofOption]
  rw [eventOwn, if_neg (by decide), if_neg (by decide), eventOwn, if_pos rfl]
  simp only [desText_ok, h3, Res.ok_bind]
  rw [eventOwn, if_neg (by decide), if_pos rfl]
  simp only [h4, Res.ok_bind]
  rfl

/-! ## Signed messages -/

/-- messages the wire carries in CBOR: as `Message.Wireable`, but declared as CBOR and shorter than 2^64 bytes -/
def Message.WireableCbor : Message → Prop
  | .event e => e.msg.Representable ∧ e.msg.info.kind = .cbor ∧ (cborText e.msg.sval).length < 2 ^ 64 ∧ SigsOk e.sigs ∧
      (match e.delegatorSeal with
        | some sl => e.msg.event.content.data.isDelegated = true ∧ sl.sn < 2 ^ 64 ∧ sl.digest.Sized
        | none => e.msg.event.content.data.isDelegated = false)
  | .rctNt r => r.body.RepresentableCbor ∧ r.couplets.length < 63 ∧ ∀ x ∈ r.couplets, x.1.Sized ∧ ¬ x.1.IsSecp ∧ x.2.Sized
  | .rctT r => r.body.RepresentableCbor ∧ EventSealOk r.validatorSeal ∧ SigsOk r.sigs
  | .reply _ => False
  | .query _ => False

private theorem text_start (fs : List (Bytes × SVal)) (v : SVal) :
    ∃ r, cborText (.map ((b!"v", v) :: fs)) = 0xbf :: 0x61 :: r := ⟨_, rfl⟩

/-- the text of a message: its CBOR, then its attachments -/
theorem message_text_cbor (env : Env) (he : env.WritesCbor) (m : Message) (h : m.WireableCbor) (d : SignedEventData) (hd : m.data? = some d)
    (bin : Binary) (hc : bin.ReadsCbor) :
    ∃ t, d.event.serialize env = .ok t ∧ (∃ r, t = 0xbf :: 0x61 :: r) ∧ (∀ a ∈ d.attachments, a.Ok) ∧ d.toMessage = .ok m ∧
      ∀ rest, altP (keyEventMessageP bin) (receiptMessageP bin) (t ++ rest) = .ok rest d.event := by
  have rct : ∀ r : ReceiptMsg, r.RepresentableCbor → (EventType.receipt r).serialize env = .ok (cborText r.sval) ∧
      (∃ t, cborText r.sval = 0xbf :: 0x61 :: t) ∧
      ∀ rest, altP (keyEventMessageP bin) (receiptMessageP bin) (cborText r.sval ++ rest) = .ok rest (.receipt r) := by
    intro r hr
    refine ⟨by simp [EventType.serialize, hr.1, Fmt.encode, he _, Res.ofOption], text_start _ _, fun rest => ?_⟩
    have hj : ∀ {α : Type} (inner : List (Bytes × JVal) → Res α), jsonMessage inner (cborText r.sval ++ rest) = .error :=
      fun _ => jsonMessage_cbor _ _ _
    have ht : (cborTop (cborText r.sval ++ rest)).2 ≠ none := by rw [receipt_cborTop r hr.2.2]; simp
    unfold altP keyEventMessageP receiptMessageP altP
    rw [hj, hj, hc.event _ ht, receipt_not_event_cbor r hr rest, hc.receipt _ ht, receipt_cbor r hr rest]
    rfl
  cases m with
  | event e =>
    cases hd
    obtain ⟨h1, h2, hl, h3, h4⟩ := h
    refine ⟨cborText e.msg.sval, by simp [SignedEvent.toData, EventType.serialize, EventMessage.serialize, h2, Fmt.encode, he _, Res.ofOption],
      text_start _ _, ?_, ?_, ?_⟩
    · cases hs : e.delegatorSeal with
      | none => simp only [SignedEvent.toData, hs, List.mem_singleton, forall_eq]; exact h3
      | some sl =>
        rw [hs] at h4
        simp only [SignedEvent.toData, hs, List.mem_cons, List.not_mem_nil, or_false, forall_eq_or_imp, forall_eq]
        exact ⟨⟨by simp, by simpa using h4.2⟩, h3⟩
    · obtain ⟨m, sigs, ds⟩ := e
      cases ds with
      | none =>
        simp only [SignedEvent.toData, SignedEventData.toMessage, signedKeyEvent]
        cases hdat : m.event.content.data <;> simp_all [EventData.isDelegated]
      | some sl =>
        simp only [SignedEvent.toData, SignedEventData.toMessage, signedKeyEvent]
        cases hdat : m.event.content.data <;> simp_all [EventData.isDelegated, lastTwo, delegatedAtts]
    · intro rest
      unfold altP
      rw [keyEvent_cbor bin hc e.msg rest h1 hl]
      rfl
  | rctNt r =>
    cases hd
    obtain ⟨a, b, c⟩ := rct r.body h.1
    refine ⟨_, a, b, ?_, rfl, c⟩
    simp only [NtReceipt.toData, List.mem_singleton, forall_eq]
    exact h.2
  | rctT r =>
    cases hd
    obtain ⟨a, b, c⟩ := rct r.body h.1
    refine ⟨_, a, b, ?_, rfl, c⟩
    simp only [TReceipt.toData, List.mem_singleton, forall_eq, Attachment.Ok]
    exact ⟨by simp, h.2⟩
  | reply r => cases hd
  | query q => cases hd

private theorem data_some (m : Message) (h : m.Wireable ∨ m.WireableCbor) : ∃ d, m.data? = some d := by
  cases m with
  | event e => exact ⟨_, rfl⟩
  | rctNt r => exact ⟨_, rfl⟩
  | rctT r => exact ⟨_, rfl⟩
  | reply r => exact (h.elim id id).elim
  | query q => exact (h.elim id id).elim

/-- C110: a signed message in CBOR (key event, delegated or not, or receipt of either kind) followed by the end of the stream or by a
JSON message is read back as the same message, leaving exactly what followed. -/
theorem C110_signed_message (env : Env) (he : env.WritesCbor) (bin : Binary) (hc : bin.ReadsCbor) (m : Message) (h : m.WireableCbor) :
    ∃ d b, m.data? = some d ∧ d.toCesr env = .ok b ∧ ∀ rest, StreamEnd rest →
      ∃ d', signedMessageP bin (b ++ rest) = .ok rest d' ∧ d'.toMessage = .ok m := by
  obtain ⟨d, hd⟩ := data_some m (Or.inr h)
  obtain ⟨t, h1, h2, h3, h4, h5⟩ := message_text_cbor env he m h d hd bin hc
  obtain ⟨u, h6, h7⟩ := attachments_roundtrip d.attachments h3
  refine ⟨d, t ++ u, hd, by unfold SignedEventData.toCesr; rw [h6, Res.ok_bind, h1, Res.ok_bind], fun rest hr => ⟨d, ?_, h4⟩⟩
  unfold signedMessageP
  rw [List.append_assoc, h5 (u ++ rest), IRes.andThen_ok, h7 rest hr _ (Nat.le_refl _), IRes.andThen_ok]

/-! ## What follows must be text -/

/-- two bytes that are not the beginning of a text: every CBOR map of indefinite length and every MessagePack map starts so -/
def StartsBinary (s : Bytes) : Prop := ∃ a b r, s = a :: b :: r ∧ utf8Valid [a, b] = false

theorem attachmentP_binary {s : Bytes} (h : StartsBinary s) : attachmentP s = .failure := by
  obtain ⟨a, b, r, rfl, hu⟩ := h
  unfold attachmentP
  rw [attachmentF, show takeN 2 (a :: b :: r) = .ok r [a, b] from takeN_append [a, b] r 2 rfl, IRes.andThen_ok, hu]
  rfl

theorem attachments_binary (as : List Attachment) (h : ∀ a ∈ as, a.Ok) :
    ∃ t, Attachment.toCesrList as = .ok t ∧ ∀ (rest : Bytes), StartsBinary rest → ∀ n, (t ++ rest).length + 1 ≤ n →
      many0P attachmentP n (t ++ rest) = .failure := by
  induction as with
  | nil =>
    refine ⟨[], rfl, fun rest hr n hn => ?_⟩
    obtain ⟨n, rfl⟩ : ∃ m, n = m + 1 := ⟨n - 1, by omega⟩
    rw [many0P, List.nil_append, attachmentP_binary hr]
  | cons a as ih =>
    obtain ⟨x, hx, hx'⟩ := C40_attachment_roundtrip a (h a (by simp))
    obtain ⟨y, hy, hy'⟩ := ih fun b hb => h b (by simp [hb])
    refine ⟨x ++ y, by rw [Attachment.toCesrList, hx, Res.ok_bind, hy, Res.ok_bind], fun rest hr n hn => ?_⟩
    have hpos : 1 ≤ x.length := by
      cases x with
      | nil =>
        have := hx' []
        rw [List.append_nil, attachmentP_end (Or.inl rfl)] at this
        cases this
      | cons c x => simp
    obtain ⟨n, rfl⟩ : ∃ m, n = m + 1 := ⟨n - 1, by omega⟩
    simp only [List.length_append] at hn
    rw [many0P, List.append_assoc, hx' (y ++ rest)]
    simp only
    rw [if_neg (by simp only [List.length_append]; omega), hy' rest hr n (by simp only [List.length_append]; omega)]
    rfl

/-- C110, the excluded case is real: a signed message of either format followed by anything binary cannot be read at all. -/
theorem C110_fails_before_binary (env : Env) (he : env.WritesCbor) (bin : Binary) (hb : bin.RejectsJson) (hc : bin.ReadsCbor) (m : Message)
    (h : m.Wireable ∨ m.WireableCbor) : ∃ d b, m.data? = some d ∧ d.toCesr env = .ok b ∧ ∀ next, StartsBinary next →
      signedMessageP bin (b ++ next) = .failure := by
  obtain ⟨d, hd⟩ := data_some m h
  have key : ∃ t, d.event.serialize env = .ok t ∧ (∀ a ∈ d.attachments, a.Ok) ∧
      ∀ rest, altP (keyEventMessageP bin) (receiptMessageP bin) (t ++ rest) = .ok rest d.event := by
    rcases h with h | h
    · obtain ⟨t, h1, -, h3, -, h5⟩ := message_text env m h d hd bin hb
      exact ⟨t, h1, h3, h5⟩
    · obtain ⟨t, h1, -, h3, -, h5⟩ := message_text_cbor env he m h d hd bin hc
      exact ⟨t, h1, h3, h5⟩
  obtain ⟨t, h1, h3, h5⟩ := key
  obtain ⟨u, h6, h7⟩ := attachments_binary d.attachments h3
  refine ⟨d, t ++ u, hd, by unfold SignedEventData.toCesr; rw [h6, Res.ok_bind, h1, Res.ok_bind], fun rest hr => ?_⟩
  unfold signedMessageP
  rw [List.append_assoc, h5 (u ++ rest), IRes.andThen_ok, h7 rest hr _ (Nat.le_refl _)]
  rfl

/-- what a CBOR message looks like from its first two bytes -/
theorem C110_cbor_starts_binary (env : Env) (he : env.WritesCbor) (m : Message) (h : m.WireableCbor) (d : SignedEventData) (b : Bytes)
    (hd : m.data? = some d) (hb : d.toCesr env = .ok b) (rest : Bytes) : StartsBinary (b ++ rest) := by
  unfold SignedEventData.toCesr at hb
  obtain ⟨u, _, hb⟩ := Res.bind_eq_ok.1 hb
  obtain ⟨t, ht, hb⟩ := Res.bind_eq_ok.1 hb
  cases hb
  have hs : ∃ r, t = 0xbf :: 0x61 :: r := by
    cases m with
    | event e =>
      cases hd
      simp [SignedEvent.toData, EventType.serialize, EventMessage.serialize, h.2.1, Fmt.encode, he _, Res.ofOption] at ht
      subst ht
      exact text_start _ _
    | rctNt r =>
      cases hd
      simp [NtReceipt.toData, EventType.serialize, h.1.1, Fmt.encode, he _, Res.ofOption] at ht
      subst ht
      exact text_start _ _
    | rctT r =>
      cases hd
      simp [TReceipt.toData, EventType.serialize, h.1.1, Fmt.encode, he _, Res.ofOption] at ht
      subst ht
      exact text_start _ _
    | reply r => cases hd
    | query q => cases hd
  obtain ⟨r, rfl⟩ := hs
  exact ⟨_, _, _, rfl, by decide⟩

private theorem streamText_cons {env : Env} {m : Message} {ms : List Message} {t : Bytes} (h : streamText env (m :: ms) = .ok t) :
    ∃ d b r, m.data? = some d ∧ d.toCesr env = .ok b ∧ streamText env ms = .ok r ∧ t = b ++ r := by
  simp only [streamText, Res.bind_eq_ok, Res.ok.injEq] at h
  obtain ⟨d, h1, b, h2, r, h3, rfl⟩ := h
  refine ⟨d, b, r, ?_, h2, h3, rfl⟩
  cases hm : m.data? with
  | none => rw [hm] at h1; cases h1
  | some x => rw [hm] at h1; cases h1; rfl

private theorem start_json (env : Env) (m : Message) (h : m.Wireable) (ms : List Message) (t : Bytes) (ht : streamText env (m :: ms) = .ok t) (u : Bytes) :
    StreamEnd (t ++ u) := by
  obtain ⟨d, b, r, h1, h2, -, rfl⟩ := streamText_cons ht
  obtain ⟨r', rfl⟩ := toCesr_start env m h d b h1 h2
  exact Or.inr ⟨_, rfl⟩

/-- C110: however many JSON messages come first (at least one), a stream in which they are followed by something binary, such as a
message in CBOR, is not read at all: not one of these messages is handed on. -/
theorem C110_stream_fails (env : Env) (he : env.WritesCbor) (bin : Binary) (hb : bin.RejectsJson) (hc : bin.ReadsCbor) (ms : List Message)
    (hms : ms ≠ []) (h : ∀ m ∈ ms, m.Wireable) (text next : Bytes) (ht : streamText env ms = .ok text) (hn : StartsBinary next) :
    signedEventStreamP bin (text ++ next) = .failure := by
  suffices hx : ∀ n, (text ++ next).length + 1 ≤ n → many0P (signedMessageP bin) n (text ++ next) = .failure from hx _ (Nat.le_refl _)
  induction ms generalizing text with
  | nil => exact absurd rfl hms
  | cons m ms ih =>
    obtain ⟨d, b, r, h1, h2, h3, rfl⟩ := streamText_cons ht
    intro n hnl
    obtain ⟨n, rfl⟩ : ∃ m, n = m + 1 := ⟨n - 1, by omega⟩
    cases ms with
    | nil =>
      cases h3
      obtain ⟨d', b', g1, g2, g3⟩ := C110_fails_before_binary env he bin hb hc m (Or.inl (h m (by simp)))
      rw [h1] at g1; cases g1
      rw [h2] at g2; cases g2
      rw [many0P, List.append_nil, g3 next hn]
    | cons m' ms =>
      obtain ⟨d', b', g1, g2, g3⟩ := C61_signed_message_roundtrip env bin hb m (h m (by simp))
      rw [h1] at g1; cases g1
      rw [h2] at g2; cases g2
      obtain ⟨d'', g4, -⟩ := g3 (r ++ next) (start_json env m' (h m' (by simp)) ms r h3 next)
      obtain ⟨r', rfl⟩ := toCesr_start env m (h m (by simp)) d b h1 h2
      rw [many0P, List.append_assoc, g4]
      simp only [List.length_append, List.length_cons] at hnl ⊢
      rw [if_neg (by omega), ih (by simp) (fun x hx => h x (by simp [hx])) r h3 n (by rw [List.length_append]; omega)]
      rfl

/-- C110: two CBOR messages in a row are not read either. -/
theorem C110_pair_fails (env : Env) (he : env.WritesCbor) (bin : Binary) (hb : bin.RejectsJson) (hc : bin.ReadsCbor) (m m' : Message)
    (h : m.WireableCbor) (h' : m'.WireableCbor) (ms : List Message) (text : Bytes) (ht : streamText env (m :: m' :: ms) = .ok text) :
    signedEventStreamP bin text = .failure := by
  obtain ⟨d, b, r, h1, h2, h3, rfl⟩ := streamText_cons ht
  obtain ⟨d', b', r', h1', h2', h3', rfl⟩ := streamText_cons h3
  obtain ⟨d'', b'', g1, g2, g3⟩ := C110_fails_before_binary env he bin hb hc m (Or.inr h)
  rw [h1] at g1; cases g1
  rw [h2] at g2; cases g2
  unfold signedEventStreamP
  rw [many0P, g3 _ (C110_cbor_starts_binary env he m' h' d' b' h1' h2' r')]

/-- C110: and the node that is handed such a batch answers with an error and remembers none of it. -/
theorem C110_batch_lost (env : Env) (he : env.WritesCbor) (bin : Binary) (hb : bin.RejectsJson) (hc : bin.ReadsCbor) (ms : List Message)
    (hms : ms ≠ []) (h : ∀ m ∈ ms, m.Wireable) (m : Message) (hm : m.WireableCbor) (rest : List Message) (text : Bytes)
    (ht : streamText env (ms ++ m :: rest) = .ok text) (sg : SignFn) (c : Controller) (db : Db) :
    ∃ e, c.respond bin sled env sg text db = (.err e, db) := by
  have split : ∀ (xs : List Message) (t : Bytes), streamText env (xs ++ m :: rest) = .ok t →
      ∃ a b, streamText env xs = .ok a ∧ streamText env (m :: rest) = .ok b ∧ t = a ++ b := by
    intro xs
    induction xs with
    | nil => intro t ht; exact ⟨[], t, rfl, ht, rfl⟩
    | cons x xs ih =>
      intro t ht
      obtain ⟨d, b, r, h1, h2, h3, rfl⟩ := streamText_cons ht
      obtain ⟨a, b', g1, g2, rfl⟩ := ih r h3
      exact ⟨b ++ a, b', by simp [streamText, h1, h2, g1, Res.ofOption], g2, by rw [List.append_assoc]⟩
  obtain ⟨a, b, h1, h2, rfl⟩ := split ms text ht
  obtain ⟨d, b', r, g1, g2, g3, rfl⟩ := streamText_cons h2
  have hf := C110_stream_fails env he bin hb hc ms hms h a (b' ++ r) h1 (C110_cbor_starts_binary env he m hm d b' g1 g2 r)
  unfold Controller.respond
  rw [hf]
  exact ⟨_, rfl⟩

/-! ## Sizes -/

mutual
theorem cborText_shape : ∀ v : SVal, (cborText v.shape).length = (cborText v).length
  | .null => rfl
  | .str s => by
    unfold SVal.shape
    split
    · simp only [cborText, List.length_append, List.length_replicate]
    · rfl
  | .seq xs => by
    simp only [SVal.shape, cborText, List.length_append, (cborItems_shape xs).1, (cborItems_shape xs).2]
  | .map fs => by
    simp only [SVal.shape, cborText, List.length_append, (cborFields_shape fs).1]
  | .struct fs => by
    simp only [SVal.shape, cborText, List.length_append, (cborFields_shape fs).1, (cborFields_shape fs).2]
theorem cborItems_shape : ∀ xs : List SVal, (cborItems (SVal.shapes xs)).length = (cborItems xs).length ∧ (SVal.shapes xs).length = xs.length
  | [] => ⟨rfl, rfl⟩
  | x :: xs => by
    simp only [SVal.shapes, cborItems, List.length_append, List.length_cons, cborText_shape x, (cborItems_shape xs).1, (cborItems_shape xs).2,
      and_self]
theorem cborFields_shape : ∀ fs : List (Bytes × SVal),
    (cborFields (SVal.shapeFields fs)).length = (cborFields fs).length ∧ (SVal.shapeFields fs).length = fs.length
  | [] => ⟨rfl, rfl⟩
  | (k, x) :: xs => by
    simp only [SVal.shapeFields, cborFields, List.length_append, List.length_cons, cborText_shape x, (cborFields_shape xs).1, (cborFields_shape xs).2,
      and_self]
end

/-- what C42 assumed of the CBOR writer holds of this one -/
theorem cbor_sizes (env : Env) (he : env.WritesCbor) (v w : SVal) (h : v.shape = w.shape) :
    (env.cbor v).map List.length = (env.cbor w).map List.length := by
  rw [he, he, Option.map_some, Option.map_some, ← cborText_shape v, h, cborText_shape w]

end Keriox
