import Verif.Props.Mgpk
/-!
# Property C111, continued: receipts in MessagePack
-/
namespace Keriox

/-- a receipt body the wire carries, in MessagePack -/
def ReceiptMsg.RepresentableMgpk (r : ReceiptMsg) : Prop :=
  r.info.kind = .mgpk ∧ ({ r with info := { r.info with kind := .json } } : ReceiptMsg).Representable ∧ (mgpkText r.sval).length < 2 ^ 32

theorem receipt_mgpkTop (r : ReceiptMsg) (hl : (mgpkText r.sval).length < 2 ^ 32) (rest : Bytes) :
    mgpkTop (mgpkText r.sval ++ rest) = ([(b!"v", .str r.info.toStr), (b!"t", .str b!"rct"), (b!"d", .str r.digest.toStr),
      (b!"i", .str r.prefix.toStr), (b!"s", .str (hexStr r.sn))], some rest) := by
  unfold ReceiptMsg.sval at hl ⊢
  rw [mgpkTop_written _ _ _ hl]
  · rfl
  · simp only [SVal.FitsF, SVal.Fits]
    exact ⟨by decide, SerInfo.toStr_utf8 _, by decide, by decide, by decide, SelfAddressingPrefix.toStr_utf8 _, by decide,
      IdentifierPrefix.toStr_utf8 _, by decide, hexStr_utf8 _, trivial⟩

private theorem receipt_parts {r : ReceiptMsg} (h : r.RepresentableMgpk) :
    SerInfo.fromStr r.info.toStr = .ok r.info ∧ SelfAddressingPrefix.fromStr r.digest.toStr = .ok r.digest ∧
      IdentifierPrefix.fromStr r.prefix.toStr = .ok r.prefix ∧ desHex (.str (hexStr r.sn)) = .ok r.sn := by
  obtain ⟨-, ⟨h1, h2, h3, h4, h5, h6, h7⟩, -⟩ := h
  exact ⟨(C41_exact r.info h1 h2).2 h3, C35_selfAddressing_roundtrip _ h5, C35_identifier_roundtrip _ h6.1 h6.2, (desHex_iff _).2 h7⟩

theorem receipt_mgpk (r : ReceiptMsg) (h : r.RepresentableMgpk) (rest : Bytes) :
    mgpkMessage (fun fs => desReceipt fs none none none) (mgpkText r.sval ++ rest) = .ok rest (r.info, r.digest, r.prefix, r.sn) := by
  obtain ⟨h1, h2, h3, h4⟩ := receipt_parts h
  unfold mgpkMessage
  rw [receipt_mgpkTop r h.2.2]
  unfold desMessage
  rw [ownField_here _ _ _ _ (by simp), desText_ok, h1]
  simp only [Res.ok_bind, Res.ofOption, need]
  simp only [desReceipt, List.cons.injEq, reduceCtorEq, and_true, if_true, if_false, desText_ok, h2, h3, h4, Res.ok_bind, need, Res.ofOption]
  simp

theorem receipt_not_event_mgpk (r : ReceiptMsg) (h : r.RepresentableMgpk) (rest : Bytes) :
    mgpkMessage desKeyEvent (mgpkText r.sval ++ rest) = .error := by
  obtain ⟨h1, h2, h3, h4⟩ := receipt_parts h
  unfold mgpkMessage
  rw [receipt_mgpkTop r h.2.2]
  unfold desMessage
  rw [ownField_here _ _ _ _ (by simp), desText_ok, h1]
  simp only [Res.ok_bind, Res.ofOption, need]
  unfold desKeyEvent
  rw [ownField_skip _ _ _ _ _ (by decide), ownField_here _ _ _ _ (by simp), desText_ok, h2]
  simp only [Res.ok_bind, need, Res.ofOption]
  rw [eventOwn, if_neg (by decide), if_neg (by decide), eventOwn, if_pos rfl]
  simp only [desText_ok, h3, Res.ok_bind]
  rw [eventOwn, if_neg (by decide), if_pos rfl]
  simp only [h4, Res.ok_bind]
  rfl

/-- the signed receipts the wire carries in MessagePack: as `Message.Wireable`, but declared as MessagePack and shorter than 2^32 bytes -/
def Message.ReceiptMgpk : Message → Prop
  | .rctNt r => r.body.RepresentableMgpk ∧ r.couplets.length < 63 ∧ ∀ x ∈ r.couplets, x.1.Sized ∧ ¬ x.1.IsSecp ∧ x.2.Sized
  | .rctT r => r.body.RepresentableMgpk ∧ EventSealOk r.validatorSeal ∧ SigsOk r.sigs
  | _ => False

/-- C111: a signed receipt of either kind in MessagePack, followed by the end of the stream or by a JSON message, is read back as itself,
leaving exactly what followed; followed by a binary message, nothing is read.  (A receipt has no seals in its body, so unlike a key event
it loses nothing.) -/
theorem C111_receipts (env : Env) (he : env.WritesMgpk) (bin : Binary) (hm : bin.ReadsMgpk) (m : Message) (h : m.ReceiptMgpk) :
    ∃ d b, m.data? = some d ∧ d.toCesr env = .ok b ∧ (∀ rest, StartsBinary (b ++ rest)) ∧
      (∀ next, StartsBinary next → signedMessageP bin (b ++ next) = .failure) ∧
      ∀ rest, StreamEnd rest → ∃ d', signedMessageP bin (b ++ rest) = .ok rest d' ∧ d'.toMessage = .ok m := by
  have rct : ∀ r : ReceiptMsg, r.RepresentableMgpk → (EventType.receipt r).serialize env = .ok (mgpkText r.sval) ∧
      (∀ x, StartsBinary (mgpkText r.sval ++ x)) ∧
      ∀ rest, altP (keyEventMessageP bin) (receiptMessageP bin) (mgpkText r.sval ++ rest) = .ok rest (.receipt r) := by
    intro r hr
    refine ⟨by simp [EventType.serialize, hr.1, Fmt.encode, he _, Res.ofOption], fun x => ?_, fun rest => ?_⟩
    · exact ⟨0x85, 0xa1, _, rfl, by decide⟩
    · have hj : ∀ {α : Type} (inner : List (Bytes × JVal) → Res α), jsonMessage inner (mgpkText r.sval ++ rest) = .error :=
        fun _ => jsonMessage_mgpk _ _ (by simp) _
      have ht : (mgpkTop (mgpkText r.sval ++ rest)).2 ≠ none := by rw [receipt_mgpkTop r hr.2.2]; simp
      unfold altP keyEventMessageP receiptMessageP altP
      rw [hj, hj, hm.event _ ht, receipt_not_event_mgpk r hr rest, hm.receipt _ ht, receipt_mgpk r hr rest]
      rfl
  have key : ∃ d r, m.data? = some d ∧ r.RepresentableMgpk ∧ d.event = .receipt r ∧ (∀ a ∈ d.attachments, a.Ok) ∧ d.toMessage = .ok m := by
    cases m with
    | rctNt r =>
      refine ⟨_, r.body, rfl, h.1, rfl, ?_, rfl⟩
      simp only [NtReceipt.toData, List.mem_singleton, forall_eq]
      exact h.2
    | rctT r =>
      refine ⟨_, r.body, rfl, h.1, rfl, ?_, rfl⟩
      simp only [TReceipt.toData, List.mem_singleton, forall_eq, Attachment.Ok]
      exact ⟨by simp, h.2⟩
    | event e => exact h.elim
    | reply r => exact h.elim
    | query q => exact h.elim
  obtain ⟨d, r, hd, hr, hev, hat, hto⟩ := key
  obtain ⟨s1, s2, s3⟩ := rct r hr
  obtain ⟨u, h6, h7⟩ := attachments_roundtrip d.attachments hat
  obtain ⟨u', h6', h8⟩ := attachments_binary d.attachments hat
  rw [h6] at h6'; cases h6'
  rw [← hev] at s1 s3
  refine ⟨d, mgpkText r.sval ++ u, hd, by unfold SignedEventData.toCesr; rw [h6, Res.ok_bind, s1, Res.ok_bind], fun rest => ?_, fun next hn => ?_,
    fun rest hrs => ⟨d, ?_, hto⟩⟩
  · rw [List.append_assoc]; exact s2 _
  · unfold signedMessageP
    rw [List.append_assoc, s3 (u ++ next), IRes.andThen_ok, h8 next hn _ (Nat.le_refl _)]
    rfl
  · unfold signedMessageP
    rw [List.append_assoc, s3 (u ++ rest), IRes.andThen_ok, h7 rest hrs _ (Nat.le_refl _), IRes.andThen_ok]

/-! ## Concrete instances -/

private def rct1 : Message :=
  .rctNt ⟨⟨SerInfo.new .mgpk 145, ⟨.blake3_256, List.replicate 32 1⟩, .basic (Ex.key 1), 3⟩, [(Ex.key 7, ⟨.ed25519Sha512, List.replicate 64 1⟩)]⟩
private def rct2 : Message :=
  .rctT ⟨⟨SerInfo.new .mgpk 145, ⟨.blake3_256, List.replicate 32 1⟩, .basic (Ex.key 1), 3⟩,
    ⟨.basic (Ex.key 1), 7, ⟨.blake3_256, List.replicate 32 1⟩⟩, [⟨2, ⟨.ed25519Sha512, List.replicate 64 1⟩⟩]⟩
example : ∀ m ∈ [rct1, rct2], m.ReceiptMgpk := by
  have l1 : (match rct1 with | .rctNt r => (mgpkText r.body.sval).length | _ => 0) < 2 ^ 32 := by decide +kernel
  have l2 : (match rct2 with | .rctT r => (mgpkText r.body.sval).length | _ => 0) < 2 ^ 32 := by decide +kernel
  simp only [List.mem_cons, List.not_mem_nil, or_false, forall_eq_or_imp, forall_eq]
  refine ⟨⟨⟨rfl, ?_, l1⟩, ?_⟩, ⟨⟨rfl, ?_, l2⟩, ?_⟩⟩ <;>
  simp [ReceiptMsg.Representable, SigsOk, EventSealOk, IdentifierPrefix.Representable, IdentifierPrefix.Sized,
    BasicPrefix.Sized, SelfAddressingPrefix.Sized, IdentifierPrefix.IsSecp, BasicPrefix.IsSecp, Ex.key, Basic.rawBytes,
    SelfAddressing.rawBytes, SelfAddressing.keyless, SerInfo.new, u64max, SigOk, SelfSigningPrefix.Sized, SelfSigning.rawBytes]

/-- both receipts, one after the other with nothing between, are lost; each alone is read -/
example : (match rct1.data?, rct2.data? with
    | some d1, some d2 => (match d1.toCesr Ex.binEnv, d2.toCesr Ex.binEnv with
      | .ok a, .ok b => (match signedEventStreamP Ex.binReaders a with | .ok [] [_] => true | _ => false) &&
        (match signedEventStreamP Ex.binReaders b with | .ok [] [_] => true | _ => false) &&
        (match signedEventStreamP Ex.binReaders (a ++ b) with | .failure => true | _ => false)
      | _, _ => false)
    | _, _ => false) = true := by decide +kernel

end Keriox
