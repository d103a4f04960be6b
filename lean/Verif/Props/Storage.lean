import Verif.Storage
import Verif.CborFacts
import Verif.Props.Cbor
/-!
# Property C112: what is stored and read back
-/
namespace Keriox

/-! ## Members -/

theorem member_here {α : Type} (p : JVal → Res α) (k : Bytes) (v : JVal) (r : List (Bytes × JVal)) (h : k ∉ r.map Prod.fst) :
    member p k ((k, v) :: r) = p v := by
  unfold member
  rw [ownField_here p k v r h]
  cases p v <;> rfl

theorem member_skip {α : Type} (p : JVal → Res α) (k k' : Bytes) (v : JVal) (r : List (Bytes × JVal)) (h : k' ≠ k) :
    member p k ((k', v) :: r) = member p k r := by
  unfold member
  rw [ownField_skip p k k' v r h]
  cases ownField p k r none <;> rfl

/-! ## Events -/

theorem desInner_event (m : EventMessage) (h : m.event.content.data.utf8 = true) :
    desInner desKeyEvent m.sval.toJ = .ok (m.info, m.event) ↔ m.rt = true := by
  have hx := C44_exact m [] h
  have hj := jsonTop_message m h []
  unfold jsonMessage at hx
  rw [hj] at hx
  have hm : m.sval.toJ = .obj ((b!"v", .str m.info.toStr) :: eventMembers m.event) := rfl
  rw [hm]
  unfold desInner mapMembers
  simp only [Res.ok_bind]
  rw [← hx]
  cases hd : desMessage desKeyEvent ((b!"v", .str m.info.toStr) :: eventMembers m.event, some []) with
  | err e => simp [Bind.bind, Res.bind]
  | panic => simp [Bind.bind, Res.bind]
  | ok q =>
    obtain ⟨a, b, c⟩ := q
    have hc : c = [] := by
      unfold desMessage at hd
      simp only [Res.bind_eq_ok, Res.ok.injEq, Prod.mk.injEq] at hd
      obtain ⟨_, _, r, hr, _, _, _, _, _, _, h3⟩ := hd
      simp only [Res.ofOption, Res.ok.injEq] at hr
      rw [← h3, ← hr]
    subst hc
    simp

theorem sigs_iff (ss : List AttachedSignaturePrefix) :
    desVec desAttached (SVal.seq (ss.map fun s => .str s.toStr)).toJ = .ok ss ↔ ss.all AttachedSignaturePrefix.rt = true := by
  rw [desVec_map]
  simp only [SVal.toJ, desAttached, desText, List.all_eq_true, AttachedSignaturePrefix.rt, decide_eq_true_eq]

theorem desSignedEvent_iff (e : SignedEvent) (h : e.msg.event.content.data.utf8 = true) :
    desSignedEvent e.dbSval.toJ = .ok e.stored ↔ e.rt = true := by
  unfold desSignedEvent
  have hm : e.dbSval.toJ = .obj [(b!"event_message", e.msg.sval.toJ), (b!"signatures", (SVal.seq (e.sigs.map fun s => .str s.toStr)).toJ)] := rfl
  rw [hm]
  simp only [mapMembers, Res.ok_bind]
  rw [member_here _ _ _ _ (by simp), member_skip _ _ _ _ _ (by decide), member_here _ _ _ _ (by simp)]
  unfold SignedEvent.rt
  rw [Bool.and_eq_true, ← desInner_event _ h, ← sigs_iff]
  obtain ⟨⟨i, ev⟩, sigs, sl⟩ := e
  simp only [Res.bind_eq_ok, Res.ok.injEq, SignedEvent.stored, SignedEvent.mk.injEq, EventMessage.mk.injEq, and_true]
  constructor
  · rintro ⟨⟨a, b⟩, h1, ss, h2, ⟨rfl, rfl⟩, rfl⟩
    exact ⟨h1, h2⟩
  · rintro ⟨h1, h2⟩
    exact ⟨_, h1, _, h2, ⟨rfl, rfl⟩, rfl⟩

/-- every free text is UTF-8, as every Rust `String` is -/
def SignedEvent.utf8 (e : SignedEvent) : Bool := e.msg.event.content.data.utf8

theorem desTimed_iff (time : Bytes → Option Timestamp) (te : Bytes × SignedEvent) (ht : (time te.1).isSome = true) (h : te.2.utf8 = true) :
    desTimed time (timedSval te).toJ = .ok te.2.stored ↔ te.2.rt = true := by
  unfold desTimed
  have hm : (timedSval te).toJ = .obj [(b!"timestamp", .str te.1), (b!"signed_event_message", te.2.dbSval.toJ)] := rfl
  rw [hm]
  simp only [mapMembers, Res.ok_bind]
  rw [member_here _ _ _ _ (by simp), member_skip _ _ _ _ _ (by decide), member_here _ _ _ _ (by simp)]
  obtain ⟨t, ht⟩ := Option.isSome_iff_exists.1 ht
  simp only [desText_ok, ht, Res.ofOption, Res.ok_bind]
  exact desSignedEvent_iff te.2 h

/-! ## Receipts -/

theorem desReceiptBody_iff (r : ReceiptMsg) : desReceiptBody r.sval.toJ = .ok r ↔ r.rt = true := by
  have hm : r.sval.toJ = .obj [(b!"v", .str r.info.toStr), (b!"t", .str b!"rct"), (b!"d", .str r.digest.toStr),
      (b!"i", .str r.prefix.toStr), (b!"s", .str (hexStr r.sn))] := rfl
  have key : desReceiptBody r.sval.toJ = (do
      let info ← SerInfo.fromStr r.info.toStr
      let d ← SelfAddressingPrefix.fromStr r.digest.toStr
      let i ← IdentifierPrefix.fromStr r.prefix.toStr
      let s ← desHex (.str (hexStr r.sn))
      .ok ⟨info, d, i, s⟩) := by
    rw [hm]
    unfold desReceiptBody desInner mapMembers desMessage
    simp only [Res.ok_bind]
    rw [ownField_here _ _ _ _ (by simp), desText_ok]
    cases SerInfo.fromStr r.info.toStr with
    | err e => rfl
    | panic => rfl
    | ok info =>
      simp only [Res.ok_bind, Res.ofOption, need]
      simp only [desReceipt, List.cons.injEq, reduceCtorEq, and_true, if_true, if_false, desText_ok]
      cases SelfAddressingPrefix.fromStr r.digest.toStr with
      | err e => rfl
      | panic => rfl
      | ok d =>
        cases IdentifierPrefix.fromStr r.prefix.toStr with
        | err e => rfl
        | panic => rfl
        | ok i =>
          cases desHex (.str (hexStr r.sn)) with
          | err e => rfl
          | panic => rfl
          | ok s => rfl
  rw [key]
  unfold ReceiptMsg.rt SerInfo.rt
  rw [Bool.and_eq_true, Bool.and_eq_true, Bool.and_eq_true, SelfAddressingPrefix.rt_iff, IdentifierPrefix.rt_iff, decide_eq_true_eq,
    decide_eq_true_eq, ← desHex_iff]
  obtain ⟨v, d, i, s⟩ := r
  simp only [Res.bind_eq_ok, Res.ok.injEq, ReceiptMsg.mk.injEq]
  constructor
  · rintro ⟨_, h1, _, h2, _, h3, _, h4, rfl, rfl, rfl, rfl⟩
    exact ⟨⟨⟨h1, h2⟩, h3⟩, h4⟩
  · rintro ⟨⟨⟨h1, h2⟩, h3⟩, h4⟩
    exact ⟨_, h1, _, h2, _, h3, _, h4, rfl, rfl, rfl, rfl⟩

theorem desDbSeal_iff (s : EventSeal) :
    desDbSeal s.dbSval.toJ = .ok s ↔ s.prefix.rt = true ∧ s.sn ≤ u64max ∧ s.eventDigest.rt = true := by
  unfold desDbSeal
  have hm : s.dbSval.toJ = .obj [(b!"i", .str s.prefix.toStr), (b!"s", .str (hexStr s.sn)), (b!"d", .str s.eventDigest.toStr)] := rfl
  rw [hm]
  simp only [mapMembers, Res.ok_bind]
  rw [member_here _ _ _ _ (by simp), member_skip _ _ _ _ _ (by decide), member_here _ _ _ _ (by simp), member_skip _ _ _ _ _ (by decide),
    member_skip _ _ _ _ _ (by decide), member_here _ _ _ _ (by simp)]
  rw [SelfAddressingPrefix.rt_iff, IdentifierPrefix.rt_iff, ← desHex_iff]
  obtain ⟨i, n, d⟩ := s
  simp only [desText_ok, Res.bind_eq_ok, Res.ok.injEq, EventSeal.mk.injEq]
  constructor
  · rintro ⟨_, h1, _, h2, _, h3, rfl, rfl, rfl⟩
    exact ⟨h1, h2, h3⟩
  · rintro ⟨h1, h2, h3⟩
    exact ⟨_, h1, _, h2, _, h3, rfl, rfl, rfl⟩

theorem desTReceipt_iff (r : TReceipt) : desTReceipt r.dbSval.toJ = .ok r ↔ r.rt = true := by
  unfold desTReceipt
  have hm : r.dbSval.toJ = .obj [(b!"body", r.body.sval.toJ), (b!"validator_seal", r.validatorSeal.dbSval.toJ),
    (b!"signatures", (SVal.seq (r.sigs.map fun s => .str s.toStr)).toJ)] := rfl
  rw [hm]
  simp only [mapMembers, Res.ok_bind]
  rw [member_here _ _ _ _ (by simp), member_skip _ _ _ _ _ (by decide), member_here _ _ _ _ (by simp), member_skip _ _ _ _ _ (by decide),
    member_skip _ _ _ _ _ (by decide), member_here _ _ _ _ (by simp)]
  have hrt : r.rt = true ↔ r.body.rt = true ∧ (r.validatorSeal.prefix.rt = true ∧ r.validatorSeal.sn ≤ u64max ∧ r.validatorSeal.eventDigest.rt = true) ∧
      r.sigs.all AttachedSignaturePrefix.rt = true := by
    unfold TReceipt.rt
    simp only [Bool.and_eq_true, decide_eq_true_eq]
    constructor
    · rintro ⟨⟨⟨⟨h1, h2⟩, h3⟩, h4⟩, h5⟩; exact ⟨h1, ⟨h2, h3, h4⟩, h5⟩
    · rintro ⟨h1, ⟨h2, h3, h4⟩, h5⟩; exact ⟨⟨⟨⟨h1, h2⟩, h3⟩, h4⟩, h5⟩
  rw [hrt, ← desReceiptBody_iff, ← desDbSeal_iff, ← sigs_iff]
  obtain ⟨b, s, ss⟩ := r
  simp only [Res.bind_eq_ok, Res.ok.injEq, TReceipt.mk.injEq]
  constructor
  · rintro ⟨_, h1, _, h2, _, h3, rfl, rfl, rfl⟩
    exact ⟨h1, h2, h3⟩
  · rintro ⟨h1, h2, h3⟩
    exact ⟨_, h1, _, h2, _, h3, rfl, rfl, rfl⟩

theorem desCouplets_iff (cs : List (BasicPrefix × SelfSigningPrefix)) :
    desVec desCouplet (SVal.seq (cs.map fun c => .seq [.str c.1.toStr, .str c.2.toStr])).toJ = .ok cs ↔
      (cs.all fun c => c.1.rt && c.2.rt) = true := by
  rw [desVec_map]
  simp only [List.all_eq_true, Bool.and_eq_true, BasicPrefix.rt, SelfSigningPrefix.rt, decide_eq_true_eq]
  refine forall_congr' fun c => forall_congr' fun _ => ?_
  obtain ⟨k, s⟩ := c
  simp only [SVal.toJ, SVal.toJs, desCouplet, desText_ok, Res.bind_eq_ok, Res.ok.injEq, Prod.mk.injEq]
  constructor
  · rintro ⟨_, h1, _, h2, rfl, rfl⟩
    exact ⟨h1, h2⟩
  · rintro ⟨h1, h2⟩
    exact ⟨_, h1, _, h2, rfl, rfl⟩

theorem desNtReceipt_iff (r : NtReceipt) : desNtReceipt r.dbSval.toJ = .ok r ↔ r.rt = true := by
  unfold desNtReceipt
  have hm : r.dbSval.toJ = .obj [(b!"body", r.body.sval.toJ),
    (b!"couplets", (SVal.seq (r.couplets.map fun c => .seq [.str c.1.toStr, .str c.2.toStr])).toJ)] := rfl
  rw [hm]
  simp only [mapMembers, Res.ok_bind]
  rw [member_here _ _ _ _ (by simp), member_skip _ _ _ _ _ (by decide), member_here _ _ _ _ (by simp)]
  unfold NtReceipt.rt
  rw [Bool.and_eq_true, ← desReceiptBody_iff, ← desCouplets_iff]
  obtain ⟨b, cs⟩ := r
  simp only [Res.bind_eq_ok, Res.ok.injEq, NtReceipt.mk.injEq]
  constructor
  · rintro ⟨_, h1, _, h2, rfl, rfl⟩
    exact ⟨h1, h2⟩
  · rintro ⟨h1, h2⟩
    exact ⟨_, h1, _, h2, rfl, rfl⟩

/-! ## Vectors -/

theorem readVec_written {α β : Type} (p : JVal → Res β) (g : α → SVal) (l : List α) (hf : ∀ x ∈ l, (g x).Fits 127)
    (hl : (vecBytes g l).length < 2 ^ 64) : readVec p (vecBytes g l) = desVec p (SVal.seq (l.map g)).toJ := by
  unfold readVec vecBytes at *
  have h := cborValue_written (.seq (l.map g)) 128 [] (4 * (cborText (.seq (l.map g))).length + 4)
    (by simp only [SVal.Fits]; exact ⟨by omega, FitsL_map _ _ _ hf⟩) (by omega) hl
  rw [List.append_nil] at h
  rw [h]

theorem AttachedSignaturePrefix.toStr_utf8 (p : AttachedSignaturePrefix) : utf8Valid p.toStr = true := by
  refine (prefixText_ascii ?_ _).utf8
  unfold SelfSigning.attToStr
  refine Ascii.append (by cases p.signature.derivation <;> simp only [Ascii] <;> decide) ?_
  unfold numToB64
  split
  · exact fun c h => b64Encode_ascii _ c (List.mem_of_mem_take h)
  · split
    · exact fun c h => b64Encode_ascii _ c (List.mem_of_mem_take h)
    · exact b64Encode_ascii _

theorem sigs_fit (ss : List AttachedSignaturePrefix) (d : Nat) : (SVal.seq (ss.map fun s => .str s.toStr)).Fits (d + 2) := by
  simp only [SVal.Fits]
  refine ⟨by omega, FitsL_map _ _ _ fun k _ => ?_⟩
  simp only [SVal.Fits]
  exact AttachedSignaturePrefix.toStr_utf8 k

theorem receipt_fits (r : ReceiptMsg) (d : Nat) : r.sval.Fits (d + 2) := by
  simp only [ReceiptMsg.sval, SVal.Fits, SVal.FitsF]
  exact ⟨by omega, by decide, SerInfo.toStr_utf8 _, by decide, by decide, by decide, SelfAddressingPrefix.toStr_utf8 _, by decide,
      IdentifierPrefix.toStr_utf8 _, by decide, hexStr_utf8 _, trivial⟩

theorem message_fits (m : EventMessage) (h : m.event.content.data.utf8 = true) (d : Nat) : m.sval.Fits (d + 4) := by
  simp only [EventMessage.sval, SVal.Fits]
  refine ⟨by omega, ?_⟩
  refine FitsF_append _ _ _ ?_ ?_
  · simp only [SVal.FitsF, SVal.Fits]
    exact ⟨by decide, SerInfo.toStr_utf8 _, by decide, type_utf8 _, by decide, SelfAddressingPrefix.toStr_utf8 _, trivial⟩
  · unfold Event.fields
    refine FitsF_append _ _ _ ?_ (data_fits _ h d)
    simp only [SVal.FitsF, SVal.Fits]
    exact ⟨by decide, IdentifierPrefix.toStr_utf8 _, by decide, hexStr_utf8 _, trivial⟩

theorem timed_fits (te : Bytes × SignedEvent) (ht : utf8Valid te.1 = true) (h : te.2.utf8 = true) : (timedSval te).Fits 127 := by
  simp only [timedSval, SignedEvent.dbSval, SVal.Fits, SVal.FitsF]
  refine ⟨by omega, by decide, ht, by decide, ⟨by omega, by decide, message_fits _ h 121, by decide, ?_⟩, trivial⟩
  exact ⟨sigs_fit _ 123, trivial⟩

theorem treceipt_fits (r : TReceipt) : r.dbSval.Fits 127 := by
  simp only [TReceipt.dbSval, EventSeal.dbSval, SVal.Fits, SVal.FitsF]
  refine ⟨by omega, by decide, receipt_fits _ 124, by decide, ?_, by decide, sigs_fit _ 124, trivial⟩
  exact ⟨by omega, by decide, IdentifierPrefix.toStr_utf8 _, by decide, hexStr_utf8 _, by decide, SelfAddressingPrefix.toStr_utf8 _, trivial⟩

theorem ntreceipt_fits (r : NtReceipt) : r.dbSval.Fits 127 := by
  simp only [NtReceipt.dbSval, SVal.Fits, SVal.FitsF]
  refine ⟨by omega, by decide, receipt_fits _ 124, by decide, ⟨by omega, FitsL_map _ _ _ fun c _ => ?_⟩, trivial⟩
  simp only [SVal.Fits, SVal.FitsL]
  exact ⟨by omega, BasicPrefix.toStr_utf8 _, SelfSigningPrefix.toStr_utf8 _, trivial⟩

/-- C112, logs: the bytes a list of events is stored as, read back, are the same events without their source seals if and only if every part
of every event reads back on its own. -/
theorem C112_events (time : Bytes → Option Timestamp) (l : List (Bytes × SignedEvent))
    (ht : ∀ te ∈ l, utf8Valid te.1 = true ∧ (time te.1).isSome = true ∧ te.2.utf8 = true) (hl : (vecBytes timedSval l).length < 2 ^ 64) :
    readVec (desTimed time) (vecBytes timedSval l) = .ok (l.map fun te => te.2.stored) ↔ ∀ te ∈ l, te.2.rt = true := by
  rw [readVec_written _ _ _ (fun te h => timed_fits te (ht te h).1 (ht te h).2.2) hl]
  simp only [SVal.toJ, desVec, toJs_map]
  clear hl
  induction l with
  | nil => simp [desAll]
  | cons x xs ih =>
    simp only [List.map_cons, desAll, Res.bind_eq_ok, Res.ok.injEq, List.cons.injEq, List.mem_cons, forall_eq_or_imp]
    rw [← desTimed_iff time x (ht x (by simp)).2.1 (ht x (by simp)).2.2, ← ih fun te h => ht te (by simp [h])]
    constructor
    · rintro ⟨a, h1, as, h2, rfl, rfl⟩; exact ⟨h1, h2⟩
    · rintro ⟨h1, h2⟩; exact ⟨_, h1, _, h2, rfl, rfl⟩

/-- C112, receipts by transferable identifiers -/
theorem C112_receipts (l : List TReceipt) (hl : (vecBytes TReceipt.dbSval l).length < 2 ^ 64) :
    readVec desTReceipt (vecBytes TReceipt.dbSval l) = .ok l ↔ ∀ r ∈ l, r.rt = true := by
  rw [readVec_written _ _ _ (fun r _ => treceipt_fits r) hl, desVec_map]
  simp only [desTReceipt_iff]

/-- C112, witness receipts -/
theorem C112_witness_receipts (l : List NtReceipt) (hl : (vecBytes NtReceipt.dbSval l).length < 2 ^ 64) :
    readVec desNtReceipt (vecBytes NtReceipt.dbSval l) = .ok l ↔ ∀ r ∈ l, r.rt = true := by
  rw [readVec_written _ _ _ (fun r _ => ntreceipt_fits r) hl, desVec_map]
  simp only [desNtReceipt_iff]

/-! ## Keys -/

private theorem bytesLt_snoc : ∀ (u v : Bytes) (x y : UInt8), u.length = v.length →
    (bytesLt (u ++ [x]) (v ++ [y]) ↔ bytesLt u v ∨ (u = v ∧ x.toNat < y.toNat))
  | [], [], x, y, _ => by simp [bytesLt]
  | [], _ :: _, _, _, h => by cases h
  | _ :: _, [], _, _, h => by cases h
  | a :: u, b :: v, x, y, h => by
    have ih := bytesLt_snoc u v x y (Nat.succ.inj h)
    simp only [List.cons_append, bytesLt, ih, List.cons.injEq]
    constructor
    · rintro (h | ⟨h, h' | h'⟩)
      · exact .inl (.inl h)
      · exact .inl (.inr ⟨h, h'⟩)
      · exact .inr ⟨⟨h, h'.1⟩, h'.2⟩
    · rintro ((h | ⟨h, h'⟩) | ⟨⟨h, h'⟩, h''⟩)
      · exact .inl h
      · exact .inr ⟨h, .inl h'⟩
      · exact .inr ⟨h, .inr ⟨h', h''⟩⟩

private theorem bytesLt_be (n : Nat) : ∀ a b : Nat, a < 256 ^ n → b < 256 ^ n → (bytesLt (beBytes n a) (beBytes n b) ↔ a < b) := by
  induction n with
  | zero => intro a b ha hb; simp at ha hb; subst ha; subst hb; simp [beBytes, bytesLt]
  | succ n ih =>
    intro a b ha hb
    have ha' : a / 256 < 256 ^ n := by rw [Nat.pow_succ] at ha; omega
    have hb' : b / 256 < 256 ^ n := by rw [Nat.pow_succ] at hb; omega
    have inj : beBytes n (a / 256) = beBytes n (b / 256) ↔ a / 256 = b / 256 := by
      refine ⟨fun h => ?_, fun h => by rw [h]⟩
      rw [← beVal_beBytes n _ ha', ← beVal_beBytes n _ hb', h]
    rw [beBytes, beBytes, bytesLt_snoc _ _ _ _ (by rw [beBytes_length, beBytes_length]), ih _ _ ha' hb', inj, UInt8.toNat_ofNat',
      UInt8.toNat_ofNat']
    omega

/-- C112, keys: the numbers under which vectors are filed are written as eight bytes that give the number back, distinct numbers get
distinct bytes, and the order of the bytes, which is the order of the tree, is the order of the numbers. -/
theorem C112_keys (a b : Nat) (ha : a ≤ u64max) (hb : b ≤ u64max) :
    (keyBytes a).length = 8 ∧ beVal (keyBytes a) = a ∧ (keyBytes a = keyBytes b ↔ a = b) ∧ (bytesLt (keyBytes a) (keyBytes b) ↔ a < b) := by
  have ha' : a < 256 ^ 8 := by unfold u64max at ha; omega
  have hb' : b < 256 ^ 8 := by unfold u64max at hb; omega
  refine ⟨beBytes_length _ _, beVal_beBytes _ _ ha', ⟨fun h => ?_, fun h => by rw [h]⟩, bytesLt_be 8 a b ha' hb'⟩
  rw [← beVal_beBytes 8 a ha', ← beVal_beBytes 8 b hb']
  exact congrArg beVal h

/-! ## The hypotheses are met -/

/-- an inception and a rotation, each with its time of arrival -/
def Ex.shelf : List (Bytes × SignedEvent) := [(b!"2021-06-01T12:00:00+02:00", Ex.icp), (b!"2021-06-01T12:00:01+02:00", Ex.rot)]

set_option maxRecDepth 20000 in
example : (∀ te ∈ Ex.shelf, utf8Valid te.1 = true ∧ ((fun s : Bytes => if s.length = 25 then some (⟨0, 0⟩ : Timestamp) else none) te.1).isSome = true ∧ te.2.utf8 = true) ∧
    (vecBytes timedSval Ex.shelf).length < 2 ^ 64 ∧ (∀ te ∈ Ex.shelf, te.2.rt = true) := by decide +kernel

example : bytesLt (keyBytes 255) (keyBytes 256) ∧ ¬ bytesLt (keyBytes 256) (keyBytes 255) := by
  rw [(C112_keys 255 256 (by decide) (by decide)).2.2.2, (C112_keys 256 255 (by decide) (by decide)).2.2.2]
  decide

end Keriox
