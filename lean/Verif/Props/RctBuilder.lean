import Verif.Props.Receipts
import Verif.Props.Wire
/-!
# C93: receipts made with the receipt builder
-/
namespace Keriox

/-- C93: a built receipt says which event it is for — identifier, number, and the digest of the event as it is sent, under the chosen algorithm — and
announces its own length. -/
theorem C93_built (env : Env) (h2 : env.SizesByShape) (m : EventMessage) (f : Fmt) (c : SelfAddressing) (r : ReceiptMsg) (h : receiptFor env m f c = .ok r) :
    r.prefix = m.event.content.prefix ∧ r.sn = m.event.content.sn ∧
    (∃ text, m.serialize env = .ok text ∧ r.digest = ⟨c, env.digest c text⟩) ∧
    r.info.kind = f ∧ (r.info.size < 2 ^ 24 → ∃ b, r.info.kind.encode env r.sval = .ok b ∧ b.length = r.info.size) := by
  unfold receiptFor at h
  obtain ⟨text, h1, h⟩ := Res.bind_eq_ok.1 h
  have h0 := h
  unfold ReceiptMsg.toMessage at h
  obtain ⟨b0, hb, h⟩ := Res.bind_eq_ok.1 h
  simp only [Res.ok.injEq] at h
  refine ⟨by rw [← h], by rw [← h], ⟨text, h1, by rw [← h]; rfl⟩, by rw [← h]; rfl, fun hs => ?_⟩
  exact C42_receipt env h2 _ _ _ f r h0 hs

/-- C93: one can be built for every event that can be serialized, as JSON always. -/
theorem C93_always (env : Env) (m : EventMessage) (text : Bytes) (h : m.serialize env = .ok text) (c : SelfAddressing) :
    ∃ r, receiptFor env m .json c = .ok r := by
  unfold receiptFor
  rw [h, Res.ok_bind]
  unfold ReceiptMsg.toMessage Fmt.encode
  rw [Res.ok_bind]
  exact ⟨_, rfl⟩

/-- C93: the digest pins the event down: receipts with the same digest are for events with the same text, or two texts with the same digest are known. -/
theorem C93_binds (env : Env) (m m' : EventMessage) (f f' : Fmt) (c c' : SelfAddressing) (r r' : ReceiptMsg) (h : receiptFor env m f c = .ok r)
    (h' : receiptFor env m' f' c' = .ok r') (hd : r.digest = r'.digest) :
    m.serialize env = m'.serialize env ∨ ∃ x y, x ≠ y ∧ env.digest c x = env.digest c y := by
  unfold receiptFor at h h'
  obtain ⟨x, h1, h⟩ := Res.bind_eq_ok.1 h
  obtain ⟨y, h1', h'⟩ := Res.bind_eq_ok.1 h'
  unfold ReceiptMsg.toMessage at h h'
  obtain ⟨b0, _, h⟩ := Res.bind_eq_ok.1 h
  obtain ⟨b0', _, h'⟩ := Res.bind_eq_ok.1 h'
  simp only [Res.ok.injEq] at h h'
  rw [← h, ← h'] at hd
  simp only [Env.derive, SelfAddressingPrefix.mk.injEq] at hd
  obtain ⟨rfl, hd⟩ := hd
  by_cases he : x = y
  · left; rw [h1, h1', he]
  · exact .inr ⟨x, y, he, hd⟩

/-- C93: put together with a validator's seal and its signatures on the event, a built receipt is accepted and kept by every processor that has both
logged. -/
theorem C93_accepted (env : Env) (as : List Action) (e v : SignedEvent) (f : Fmt) (c : SelfAddressing) (body : ReceiptMsg)
    (hb : receiptFor env e.msg f c = .ok body) (he : e.pre.toStr ≠ []) (sl : EventSeal) (sigs : List AttachedSignaturePrefix) (hsl : sl.prefix.toStr ≠ [])
    (hr : Readable ((after env as).kel e.pre)) (hrv : Readable ((after env as).kel sl.prefix))
    (h1 : ((after env as).kel e.pre)[e.sn]? = some e) (h2 : ((after env as).kel sl.prefix)[sl.sn]? = some v)
    (h3 : v.msg.event.digest = sl.eventDigest) (kc : KeyConfig) (h4 : v.data.keyConfig? = some kc)
    (text : Bytes) (h5 : e.msg.serialize env = .ok text) (h6 : ValidSigs env kc text sigs) :
    (∃ st, (process sled env (.rctT ⟨body, sl, sigs⟩) (after env as)).1 = .ok (some st)) ∧
    ∃ l, (after env (as ++ [.submit (.rctT ⟨body, sl, sigs⟩)])).vec .vrcs e.pre.toStr = some l ∧ (⟨body, sl, sigs⟩ : TReceipt) ∈ l := by
  have hbd : body.prefix = e.pre ∧ body.sn = e.sn := by
    unfold receiptFor at hb
    obtain ⟨x, _, hb⟩ := Res.bind_eq_ok.1 hb
    unfold ReceiptMsg.toMessage at hb
    obtain ⟨_, _, hb⟩ := Res.bind_eq_ok.1 hb
    simp only [Res.ok.injEq] at hb
    rw [← hb]
    exact ⟨rfl, rfl⟩
  obtain ⟨p1, p2⟩ := hbd
  have := C28_verified_is_stored env as ⟨body, sl, sigs⟩ (by dsimp only; rw [p1]; exact he) hsl (by dsimp only; rw [p1]; exact hr) hrv e v kc text
    (by dsimp only; rw [p1, p2]; exact h1) h2 h3 h4 h5 h6
  obtain ⟨⟨st, g1, _⟩, g2⟩ := this
  dsimp only at g2
  rw [p1] at g2
  exact ⟨⟨st, g1⟩, g2⟩

/-! ## what the digest is not -/

theorem jsonStr_inj {a b x y : Bytes} (ha : utf8Valid a = true) (hb : utf8Valid b = true) (h : jsonStr a ++ x = jsonStr b ++ y) : a = b ∧ x = y := by
  unfold jsonStr at h
  simp only [List.append_assoc, List.cons_append, List.nil_append, List.cons.injEq, true_and] at h
  have h1 := jsonString_written a x ha
  rw [h, jsonString_written b y hb] at h1
  simp only [Option.some.injEq, Prod.mk.injEq] at h1
  exact ⟨h1.1.symm, h1.2.symm⟩

theorem said_not_hashes (d : SelfAddressingPrefix) (c : SelfAddressing) : d.toStr ≠ dummyPrefix c := by
  intro h
  have h1 : ∃ r, dummyPrefix c = 35 :: r := by
    unfold dummyPrefix
    cases c <;> exact ⟨_, rfl⟩
  obtain ⟨r, h1⟩ := h1
  rw [h1] at h
  unfold SelfAddressingPrefix.toStr prefixText at h
  split at h
  · cases h
  · revert h
    cases d.derivation <;> simp only [SelfAddressing.toStr] <;> intro h <;> (injection h with h _; revert h; decide)

theorem text_not_data (i i' : SerInfo) (t : EventTypeTag) (d : SelfAddressingPrefix) (c : SelfAddressing) (r r' : List (Bytes × SVal)) :
    jsonText (.map ([(b!"v", .str i.toStr), (b!"t", .str t.toStr), (b!"d", .str d.toStr)] ++ r)) ≠
    jsonText (.map ([(b!"v", .str i'.toStr), (b!"t", .str t.toStr), (b!"d", .str (dummyPrefix c))] ++ r')) := by
  intro h
  have hd : utf8Valid (dummyPrefix c) = true := by
    cases c <;> (simp only [dummyPrefix, SelfAddressing.codeLen, SelfAddressing.b64Len]; decide +kernel)
  simp only [List.cons_append, List.nil_append, jsonText, jsonFields, jsonFieldsTail, List.append_assoc, List.cons.injEq, true_and] at h
  have h1 := List.append_cancel_left h
  simp only [List.cons.injEq, true_and] at h1
  obtain ⟨_, h2⟩ := jsonStr_inj (SerInfo.toStr_utf8 i) (SerInfo.toStr_utf8 i') h1
  simp only [List.cons.injEq, true_and] at h2
  have h3 := List.append_cancel_left h2
  simp only [List.cons.injEq, true_and] at h3
  have h4 := List.append_cancel_left h3
  simp only [List.cons.injEq, true_and] at h4
  have h5 := List.append_cancel_left h4
  simp only [List.cons.injEq, true_and] at h5
  exact said_not_hashes d c (jsonStr_inj d.toStr_utf8 hd h5).1

theorem derivation_differs (env : Env) (m : EventMessage) (hk : m.info.kind = .json) (text data : Bytes) (h : m.serialize env = .ok text)
    (hd : m.toDerivationData env = .ok data) : text ≠ data := by
  unfold EventMessage.serialize Fmt.encode at h
  rw [hk] at h
  cases h
  have inc : ∀ d : EventData, m.event.content.data = d → dummyInceptionBytes env d m.event.digest.derivation m.info.kind = .ok data →
      jsonText m.sval ≠ data := by
    intro d hdd hh
    unfold dummyInceptionBytes at hh
    obtain ⟨info, h1, hh⟩ := Res.bind_eq_ok.1 hh
    unfold dummyInceptionInfo at h1
    obtain ⟨b, _, h1⟩ := Res.bind_eq_ok.1 h1
    rw [hk] at h1
    cases h1
    cases hh
    unfold EventMessage.sval dummyInceptionSval
    rw [hdd]
    exact text_not_data _ _ _ _ _ _ ((b!"i", .str (dummyPrefix m.event.digest.derivation)) :: (b!"s", .str b!"0") :: d.fields)
  unfold EventMessage.toDerivationData at hd
  cases hm : m.event.content.data with
  | icp e => rw [hm] at hd; exact inc _ hm hd
  | dip e => rw [hm] at hd; exact inc _ hm hd
  | rot e =>
    rw [hm, hk] at hd
    cases hd
    unfold EventMessage.sval dummyEventSval
    exact text_not_data _ _ _ _ _ _ _
  | ixn e =>
    rw [hm, hk] at hd
    cases hd
    unfold EventMessage.sval dummyEventSval
    exact text_not_data _ _ _ _ _ _ _
  | drt e =>
    rw [hm, hk] at hd
    cases hd
    unfold EventMessage.sval dummyEventSval
    exact text_not_data _ _ _ _ _ _ _

/-- C93, what the digest is not: it never is the digest by which the log, seals and other receipts name the event. For every event written as JSON that
carries its own digest, if the digest of the receipt names the event, two texts with the same digest are known. -/
theorem C93_fails_for_all (env : Env) (m : EventMessage) (hk : m.info.kind = .json) (data : Bytes) (hd : m.toDerivationData env = .ok data)
    (hown : m.event.digest.verifyBinding env data = true) (f : Fmt) (c : SelfAddressing) (r : ReceiptMsg) (h : receiptFor env m f c = .ok r)
    (hn : NamesEvent env m r.digest) : ∃ x y, x ≠ y ∧ env.digest c x = env.digest c y := by
  unfold receiptFor at h
  obtain ⟨text, h1, h⟩ := Res.bind_eq_ok.1 h
  unfold ReceiptMsg.toMessage at h
  obtain ⟨b0, _, h⟩ := Res.bind_eq_ok.1 h
  simp only [Res.ok.injEq] at h
  have hr : r.digest = ⟨c, env.digest c text⟩ := by rw [← h]; rfl
  rw [hr] at hn
  refine ⟨text, data, derivation_differs env m hk text data h1 hd, ?_⟩
  rcases hn with hn | ⟨_, data', hd', hn⟩
  · rw [hn] at hown
    exact (of_decide_eq_true hown).symm
  · rw [hd] at hd'
    cases hd'
    exact (of_decide_eq_true hn).symm

/-- C93_fails_for_all at work: the receipt for a rotation does not name it -/
theorem C93_fails : (match receiptFor Ex.env Ex.rot.msg .json .blake3_256 with
    | .ok r => decide (r.digest ≠ Ex.rot.dig ∧ r.prefix = Ex.id ∧ r.sn = 1)
    | _ => false) = true := by decide +kernel

open Ex in
/-- the hypotheses of C93_accepted and C93_fails_for_all are met by a logged rotation and a validator with a log of its own -/
example : (match receiptFor env rot.msg .json .blake3_256 with
    | .ok _ => true | _ => false) = true ∧ rot.pre.toStr ≠ [] ∧ rct.validatorSeal.prefix.toStr ≠ [] ∧
    Readable ((after env rctHist).kel rot.pre) ∧ Readable ((after env rctHist).kel rct.validatorSeal.prefix) ∧
    ((after env rctHist).kel rot.pre)[rot.sn]? = some rot ∧
    (∃ v kc text, ((after env rctHist).kel rct.validatorSeal.prefix)[rct.validatorSeal.sn]? = some v ∧ v.msg.event.digest = rct.validatorSeal.eventDigest ∧
      v.data.keyConfig? = some kc ∧ rot.msg.serialize env = .ok text ∧ kc.verify env text rct.sigs = .ok true) ∧
    rot.msg.info.kind = .json ∧ (∃ data, rot.msg.toDerivationData env = .ok data ∧ rot.msg.event.digest.verifyBinding env data = true) := by
  refine ⟨by decide +kernel, by decide +kernel, by decide +kernel, by unfold Readable; decide +kernel, by unfold Readable; decide +kernel, by decide +kernel,
    ⟨icpFinal, ⟨.simple 1, [key 9], none⟩, jsonText rot.msg.sval, ?_⟩, by decide +kernel, ⟨jsonText (dummyEventSval rot.msg.info .blake3_256 rot.msg.event.content), ?_⟩⟩
  · decide +kernel
  · decide +kernel

end Keriox
