import Verif.WireFacts
import Verif.Props.Format
import Verif.Props.Codec2
import Verif.Example
import Verif.Spec
/-!
# Properties C44, C61–C63: messages on the JSON wire
-/
namespace Keriox

/-! ## Specification: which messages are representable -/

/-- a weight `n/d` given by two `u64` numbers, the second not zero -/
def IsWeight (f : Frac) : Prop := ∃ n d, n ≤ u64max ∧ d ≤ u64max ∧ d ≠ 0 ∧ f = Frac.new n d

/-- a public key the text format can carry -/
def BasicPrefix.Representable (k : BasicPrefix) : Prop := k.Sized ∧ ¬ k.IsSecp
/-- an identifier the text format can carry -/
def IdentifierPrefix.Representable (k : IdentifierPrefix) : Prop := k.Sized ∧ ¬ k.IsSecp

/-- a threshold the text format can carry -/
def Threshold.Representable : Threshold → Prop
  | .simple n => n ≤ u64max
  | .single c => ∀ w ∈ c, IsWeight w
  | .multi cs => cs ≠ [] ∧ ∀ c ∈ cs, ∀ w ∈ c, IsWeight w

/-- a key configuration the text format can carry -/
def KeyConfig.Representable (kc : KeyConfig) : Prop :=
  kc.threshold.Representable ∧ (∀ k ∈ kc.publicKeys, k.Representable) ∧ ∀ n, kc.nextDigest = some n → n.Sized

/-- a seal the text format can carry -/
def Seal.Representable : Seal → Prop
  | .location s => s.prefix.Representable ∧ s.sn ≤ u64max ∧ s.priorDigest.Sized ∧ utf8Valid s.ilk = true
  | .event s => s.prefix.Representable ∧ s.sn ≤ u64max ∧ s.eventDigest.Sized
  | .digest d => d.Sized
  | .root d => d.Sized

/-- an inception the text format can carry -/
def InceptionEvent.Representable (e : InceptionEvent) : Prop :=
  e.keyConfig.Representable ∧ e.tally ≤ u64max ∧ (∀ k ∈ e.initialWitnesses, k.Representable) ∧ (∀ c ∈ e.config, utf8Valid c = true) ∧
    ∀ s ∈ e.data, s.Representable
/-- a rotation the text format can carry -/
def RotationEvent.Representable (e : RotationEvent) : Prop :=
  e.previous.Sized ∧ e.keyConfig.Representable ∧ e.tally ≤ u64max ∧ (∀ k ∈ e.prune, k.Representable) ∧ (∀ k ∈ e.graft, k.Representable) ∧
    ∀ s ∈ e.data, s.Representable
/-- event data the text format can carry -/
def EventData.Representable : EventData → Prop
  | .icp e => e.Representable
  | .rot e => e.Representable
  | .ixn e => e.previous.Sized ∧ ∀ s ∈ e.data, s.Representable
  | .dip e => e.inception.Representable ∧ e.delegator.Representable
  | .drt e => e.Representable

/-- a key event message the text format can carry: payloads of the advertised lengths, no secp256k1 keys, numbers of the
advertised widths, a declared size of at most 65535 -/
def EventMessage.Representable (m : EventMessage) : Prop :=
  m.info.major ≤ 15 ∧ m.info.minor ≤ 15 ∧ m.info.size ≤ 65535 ∧ m.event.digest.Sized ∧ m.event.content.prefix.Representable ∧
    m.event.content.sn ≤ u64max ∧ m.event.content.data.Representable

/-! ## Representable parts come back -/

theorem splitSlash_none (s : Bytes) (h : (47 : UInt8) ∉ s) : splitSlash s = [s] := by
  induction s with
  | nil => rfl
  | cons c s ih =>
    simp only [List.mem_cons, not_or] at h
    rw [splitSlash, if_neg (fun e => h.1 e.symm), ih h.2]

theorem splitSlash_one (s t : Bytes) (h : (47 : UInt8) ∉ s) (ht : (47 : UInt8) ∉ t) : splitSlash (s ++ 47 :: t) = [s, t] := by
  induction s with
  | nil => rw [List.nil_append, splitSlash, if_pos rfl, splitSlash_none t ht]
  | cons c s ih =>
    simp only [List.mem_cons, not_or] at h
    rw [List.cons_append, splitSlash, if_neg (fun e => h.1 e.symm), ih h.2]

private theorem decStr_noslash (n : Nat) : (47 : UInt8) ∉ decStr n := by
  intro h
  have := toBase_chars 10 (by omega) (by omega) n _ h
  exact absurd this (by decide)

theorem Frac.rt_of_weight {f : Frac} (h : IsWeight f) : f.rt = true := by
  obtain ⟨n, d, hn, hd, h0, rfl⟩ := h
  have hg : 0 < Nat.gcd n d := Nat.gcd_pos_of_pos_right _ (Nat.pos_of_ne_zero h0)
  have hc : Nat.gcd (n / Nat.gcd n d) (d / Nat.gcd n d) = 1 := by
    rw [Nat.gcd_div (Nat.gcd_dvd_left _ _) (Nat.gcd_dvd_right _ _), Nat.div_self hg]
  have hn' : n / Nat.gcd n d ≤ u64max := Nat.le_trans (Nat.div_le_self _ _) hn
  have hd' : d / Nat.gcd n d ≤ u64max := Nat.le_trans (Nat.div_le_self _ _) hd
  have hd0 : d / Nat.gcd n d ≠ 0 := by
    have := Nat.div_pos (Nat.le_of_dvd (Nat.pos_of_ne_zero h0) (Nat.gcd_dvd_right n d)) hg
    omega
  unfold Frac.rt
  rw [decide_eq_true_eq]
  unfold Frac.new
  rw [if_neg h0]
  unfold Frac.reduce
  generalize n / Nat.gcd n d = a at *
  generalize d / Nat.gcd n d = b at *
  show Frac.fromStr (if b = 1 then decStr a else decStr a ++ [47] ++ decStr b) = _
  unfold Frac.fromStr
  have pa : fromStrRadix 10 u64max (decStr a) = some a := by
    unfold decStr; rw [fromStrRadix_toBase 10 u64max (by omega) (by omega), if_pos hn']
  have pb : fromStrRadix 10 u64max (decStr b) = some b := by
    unfold decStr; rw [fromStrRadix_toBase 10 u64max (by omega) (by omega), if_pos hd']
  by_cases h1 : b = 1
  · rw [if_pos h1]
    subst h1
    rw [splitSlash_none _ (decStr_noslash a)]
    simp only [pa, Res.ofOption, Res.ok_bind, Frac.new, Frac.reduce]
    simp
  · rw [if_neg h1, List.append_assoc, List.singleton_append, splitSlash_one _ _ (decStr_noslash a) (decStr_noslash b)]
    simp only [pa, pb, Res.ofOption, Res.ok_bind, Frac.new, if_neg hd0, Frac.reduce, hc, Nat.div_one]

theorem BasicPrefix.rt_of {k : BasicPrefix} (h : k.Representable) : k.rt = true := by
  simp [BasicPrefix.rt, C35_basic_roundtrip k h.1 h.2]
theorem IdentifierPrefix.rt_of {k : IdentifierPrefix} (h : k.Representable) : k.rt = true := by
  simp [IdentifierPrefix.rt, C35_identifier_roundtrip k h.1 h.2]
theorem SelfAddressingPrefix.rt_of {k : SelfAddressingPrefix} (h : k.Sized) : k.rt = true := by
  simp [SelfAddressingPrefix.rt, C35_selfAddressing_roundtrip k h]

theorem Threshold.rt_of {t : Threshold} (h : t.Representable) : t.rt = true := by
  cases t with
  | simple n => exact decide_eq_true (show n ≤ u64max from h)
  | single c => exact List.all_eq_true.2 fun w hw => Frac.rt_of_weight (h w hw)
  | multi cs =>
    simp only [Threshold.rt, Bool.and_eq_true, Bool.not_eq_true', List.isEmpty_eq_false_iff]
    exact ⟨h.1, List.all_eq_true.2 fun c hc => List.all_eq_true.2 fun w hw => Frac.rt_of_weight (h.2 c hc w hw)⟩

theorem KeyConfig.rt_of {k : KeyConfig} (h : k.Representable) : k.rt = true := by
  obtain ⟨h1, h2, h3⟩ := h
  unfold KeyConfig.rt
  rw [Bool.and_eq_true, Bool.and_eq_true]
  refine ⟨⟨Threshold.rt_of h1, List.all_eq_true.2 fun k hk => BasicPrefix.rt_of (h2 k hk)⟩, ?_⟩
  cases hn : k.nextDigest with
  | none => rfl
  | some n => exact SelfAddressingPrefix.rt_of (h3 n hn)

theorem Seal.rt_of {s : Seal} (h : s.Representable) : s.rt = true ∧ s.utf8 = true := by
  cases s with
  | location s => simp [Seal.rt, Seal.utf8, IdentifierPrefix.rt_of h.1, h.2.1, SelfAddressingPrefix.rt_of h.2.2.1, h.2.2.2]
  | event s => simp [Seal.rt, Seal.utf8, IdentifierPrefix.rt_of h.1, h.2.1, SelfAddressingPrefix.rt_of h.2.2]
  | digest s => exact ⟨SelfAddressingPrefix.rt_of h, rfl⟩
  | root s => exact ⟨SelfAddressingPrefix.rt_of h, rfl⟩

private theorem keys_rt {ks : List BasicPrefix} (h : ∀ k ∈ ks, k.Representable) : ks.all BasicPrefix.rt = true :=
  List.all_eq_true.2 fun k hk => BasicPrefix.rt_of (h k hk)
private theorem seals_rt {ss : List Seal} (h : ∀ s ∈ ss, s.Representable) : ss.all Seal.rt = true ∧ ss.all Seal.utf8 = true :=
  ⟨List.all_eq_true.2 fun k hk => (Seal.rt_of (h k hk)).1, List.all_eq_true.2 fun k hk => (Seal.rt_of (h k hk)).2⟩

theorem InceptionEvent.rt_of {e : InceptionEvent} (h : e.Representable) :
    e.rt = true ∧ (e.config.all utf8Valid && e.data.all Seal.utf8) = true := by
  obtain ⟨h1, h2, h3, h4, h5⟩ := h
  simp only [InceptionEvent.rt, KeyConfig.rt_of h1, keys_rt h3, (seals_rt h5).1, (seals_rt h5).2, h2, decide_true, Bool.and_self,
    List.all_eq_true.2 h4, and_self]

theorem RotationEvent.rt_of {e : RotationEvent} (h : e.Representable) : e.rt = true ∧ e.data.all Seal.utf8 = true := by
  obtain ⟨h1, h2, h3, h4, h5, h6⟩ := h
  simp only [RotationEvent.rt, KeyConfig.rt_of h2, keys_rt h4, keys_rt h5, (seals_rt h6).1, (seals_rt h6).2, h3, decide_true, Bool.and_self,
    SelfAddressingPrefix.rt_of h1, and_self]

theorem EventData.rt_of {d : EventData} (h : d.Representable) : d.rt = true ∧ d.utf8 = true := by
  cases d with
  | icp e => exact InceptionEvent.rt_of h
  | rot e => exact RotationEvent.rt_of h
  | drt e => exact RotationEvent.rt_of h
  | ixn e =>
    simp only [EventData.rt, EventData.utf8, SelfAddressingPrefix.rt_of h.1, (seals_rt h.2).1, (seals_rt h.2).2, Bool.and_self, and_self]
  | dip e =>
    obtain ⟨h1, h2⟩ := InceptionEvent.rt_of h.1
    exact ⟨by simp only [EventData.rt, h1, IdentifierPrefix.rt_of h.2, Bool.and_self], h2⟩

theorem EventMessage.rt_of {m : EventMessage} (h : m.Representable) : m.rt = true ∧ m.event.content.data.utf8 = true := by
  obtain ⟨h1, h2, h3, h4, h5, h6, h7⟩ := h
  have hi : m.info.rt = true := by unfold SerInfo.rt; rw [decide_eq_true_eq, C41_exact _ h1 h2]; exact h3
  simp only [EventMessage.rt, hi, SelfAddressingPrefix.rt_of h4, IdentifierPrefix.rt_of h5, h6, (EventData.rt_of h7).1, (EventData.rt_of h7).2,
    decide_true, Bool.and_self, and_self]

/-! ## C44 -/

/-- C44, exactly: a key event message written as JSON and followed by anything is read back as itself, leaving exactly what followed,
if and only if each of its parts (version string, prefixes, numbers, thresholds) is one that reads back on its own. -/
theorem C44_exact (m : EventMessage) (rest : Bytes) (hu : m.event.content.data.utf8 = true) :
    jsonMessage desKeyEvent (jsonText m.sval ++ rest) = .ok rest (m.info, m.event) ↔ m.rt = true := by
  have hrt : m.rt = true ↔ SerInfo.fromStr m.info.toStr = .ok m.info ∧ desKeyEvent (eventMembers m.event) = .ok m.event := by
    rw [desKeyEvent_iff]
    unfold EventMessage.rt KeyEvent.rt SerInfo.rt
    simp only [Bool.and_eq_true, decide_eq_true_eq, and_assoc]
  rw [hrt]
  unfold jsonMessage
  rw [desMessage_event m hu]
  cases SerInfo.fromStr m.info.toStr with
  | err e => simp
  | panic => simp
  | ok i =>
    cases desKeyEvent (eventMembers m.event) with
    | err e => simp
    | panic => simp
    | ok e => simp

/-- C44: every representable key event message, written as JSON and followed by anything, is read back as itself, leaving exactly what
followed. -/
theorem C44_roundtrip (m : EventMessage) (rest : Bytes) (h : m.Representable) :
    jsonMessage desKeyEvent (jsonText m.sval ++ rest) = .ok rest (m.info, m.event) :=
  (C44_exact m rest (EventMessage.rt_of h).2).2 (EventMessage.rt_of h).1

/-- a concrete rotation of two keys with weights, witnesses and seals -/
example : EventMessage.Representable ⟨SerInfo.new .json 500, ⟨⟨.blake3_256, List.replicate 32 1⟩, ⟨.basic (Ex.key 1), 3,
    .rot ⟨⟨.sha3_256, List.replicate 32 2⟩, ⟨.multi [[.rat 1 2, .rat 1 3]], [Ex.key 2, ⟨.ed25519NT, List.replicate 32 3⟩], none⟩, 1, [Ex.key 4], [Ex.key 5],
      [.event ⟨.basic (Ex.key 1), 7, ⟨.blake3_256, List.replicate 32 1⟩⟩, .root ⟨.blake3_512, List.replicate 64 1⟩]⟩⟩⟩⟩ := by
  have w : IsWeight (.rat 1 2) ∧ IsWeight (.rat 1 3) :=
    ⟨⟨1, 2, by decide, by decide, by decide, by decide⟩, ⟨1, 3, by decide, by decide, by decide, by decide⟩⟩
  simp [EventMessage.Representable, EventData.Representable, RotationEvent.Representable, KeyConfig.Representable, Threshold.Representable,
    Seal.Representable, IdentifierPrefix.Representable, BasicPrefix.Representable, IdentifierPrefix.Sized, BasicPrefix.Sized,
    SelfAddressingPrefix.Sized, IdentifierPrefix.IsSecp, BasicPrefix.IsSecp, Ex.key, Basic.rawBytes, SelfAddressing.rawBytes,
    SelfAddressing.keyless, SerInfo.new, u64max, w]

/-- C44, the excluded cases are real: an event declared longer than 65535 bytes never comes back … -/
theorem C44_fails_size (m : EventMessage) (rest : Bytes) (hu : m.event.content.data.utf8 = true) (h1 : m.info.major ≤ 15)
    (h2 : m.info.minor ≤ 15) (h3 : 65535 < m.info.size) :
    jsonMessage desKeyEvent (jsonText m.sval ++ rest) ≠ .ok rest (m.info, m.event) := by
  rw [ne_eq, C44_exact m rest hu]
  intro h
  simp only [EventMessage.rt, Bool.and_eq_true, SerInfo.rt, decide_eq_true_eq] at h
  have := (C41_exact _ h1 h2).1 h.1.1.1.1
  omega

/-- … nor does one naming a secp256k1 key … -/
theorem C44_fails_secp (m : EventMessage) (e : InceptionEvent) (k : BasicPrefix) (rest : Bytes) (hu : m.event.content.data.utf8 = true)
    (he : m.event.content.data = .icp e) (hk : k ∈ e.keyConfig.publicKeys) (hz : k.Sized) (hs : k.IsSecp) :
    jsonMessage desKeyEvent (jsonText m.sval ++ rest) ≠ .ok rest (m.info, m.event) := by
  rw [ne_eq, C44_exact m rest hu]
  intro h
  simp only [EventMessage.rt, Bool.and_eq_true, he, EventData.rt, InceptionEvent.rt, KeyConfig.rt, List.all_eq_true] at h
  have := h.2.1.1.1.1.2 k hk
  simp [BasicPrefix.rt, C35_secp_never_parses k hz hs] at this

/-- … nor one with an empty list of weight clauses … -/
theorem C44_fails_threshold (m : EventMessage) (e : InceptionEvent) (rest : Bytes) (hu : m.event.content.data.utf8 = true)
    (he : m.event.content.data = .icp e) (ht : e.keyConfig.threshold = .multi []) :
    jsonMessage desKeyEvent (jsonText m.sval ++ rest) ≠ .ok rest (m.info, m.event) := by
  rw [ne_eq, C44_exact m rest hu]
  intro h
  simp only [EventMessage.rt, Bool.and_eq_true, he, EventData.rt, InceptionEvent.rt, KeyConfig.rt] at h
  have := h.2.1.1.1.1.1
  simp [ht, Threshold.rt] at this

/-- … nor one with an infinite weight. -/
theorem C44_fails_infinite_weight (m : EventMessage) (e : InceptionEvent) (c : List Frac) (rest : Bytes)
    (hu : m.event.content.data.utf8 = true) (he : m.event.content.data = .icp e) (ht : e.keyConfig.threshold = .single c) (hc : .inf ∈ c) :
    jsonMessage desKeyEvent (jsonText m.sval ++ rest) ≠ .ok rest (m.info, m.event) := by
  rw [ne_eq, C44_exact m rest hu]
  intro h
  simp only [EventMessage.rt, Bool.and_eq_true, he, EventData.rt, InceptionEvent.rt, KeyConfig.rt] at h
  have h2 := h.2.1.1.1.1.1
  rw [ht] at h2
  have := List.all_eq_true.1 h2 _ hc
  exact absurd this (by decide)

/-! ## Signed messages -/

/-- The two binary readers reject an empty input and one starting with `{` (0x7b is a text string header in CBOR and an integer in
MessagePack, neither a map). -/
def Binary.RejectsJson (bin : Binary) : Prop :=
  ∀ s : Bytes, (s = [] ∨ ∃ r, s = 123 :: r) → bin.event s = .error ∧ bin.receipt s = .error

/-- what may follow a message in a stream: nothing, or another message -/
def StreamEnd (s : Bytes) : Prop := s = [] ∨ ∃ r, s = 123 :: 34 :: r

/-- a receipt body the wire carries -/
def ReceiptMsg.Representable (r : ReceiptMsg) : Prop :=
  r.info.major ≤ 15 ∧ r.info.minor ≤ 15 ∧ r.info.size ≤ 65535 ∧ r.info.kind = .json ∧ r.digest.Sized ∧ r.prefix.Representable ∧ r.sn ≤ u64max

/-- messages the wire carries: representable parts, JSON, fewer than 63 members in each attached group with indices below 63, and a
delegator seal on exactly the delegated events -/
def Message.Wireable : Message → Prop
  | .event e => e.msg.Representable ∧ e.msg.info.kind = .json ∧ SigsOk e.sigs ∧
      (match e.delegatorSeal with
        | some sl => e.msg.event.content.data.isDelegated = true ∧ sl.sn < 2 ^ 64 ∧ sl.digest.Sized
        | none => e.msg.event.content.data.isDelegated = false)
  | .rctNt r => r.body.Representable ∧ r.couplets.length < 63 ∧ ∀ x ∈ r.couplets, x.1.Sized ∧ ¬ x.1.IsSecp ∧ x.2.Sized
  | .rctT r => r.body.Representable ∧ EventSealOk r.validatorSeal ∧ SigsOk r.sigs
  | .reply _ => False
  | .query _ => False

/-- the wire form of a message (`From<…> for SignedEventData`; replies and queries are not modelled here) -/
def Message.data? : Message → Option SignedEventData
  | .event e => some e.toData
  | .rctNt r => some r.toData
  | .rctT r => some r.toData
  | _ => none

private theorem jsonText_map_start (fs : List (Bytes × SVal)) (k : Bytes) (x : SVal) (h : fs.head? = some (k, x)) :
    ∃ r, jsonText (.map fs) = 123 :: 34 :: r := by
  cases fs with
  | nil => cases h
  | cons f fs =>
    obtain ⟨k', x'⟩ := f
    simp only [jsonText, jsonFields, jsonStr, List.cons_append, List.nil_append]
    exact ⟨_, rfl⟩

theorem EventMessage.text_start (m : EventMessage) : ∃ r, jsonText m.sval = 123 :: 34 :: r := jsonText_map_start _ _ _ rfl
theorem ReceiptMsg.text_start (m : ReceiptMsg) : ∃ r, jsonText m.sval = 123 :: 34 :: r := jsonText_map_start _ _ _ rfl

theorem attachmentP_end {s : Bytes} (h : StreamEnd s) : attachmentP s = .error := by
  unfold attachmentP
  rw [attachmentF]
  rcases h with rfl | ⟨r, rfl⟩
  · rfl
  · rw [show takeN 2 (123 :: 34 :: r) = .ok r [123, 34] from takeN_append [123, 34] r 2 rfl]
    rfl

/-- a list of attachments written one after the other is read back, whatever ends the stream -/
theorem attachments_roundtrip (as : List Attachment) (h : ∀ a ∈ as, a.Ok) :
    ∃ t, Attachment.toCesrList as = .ok t ∧ ∀ (rest : Bytes), StreamEnd rest → ∀ n, (t ++ rest).length + 1 ≤ n →
      many0P attachmentP n (t ++ rest) = .ok rest as := by
  induction as with
  | nil =>
    refine ⟨[], rfl, fun rest hr n hn => ?_⟩
    obtain ⟨n, rfl⟩ : ∃ m, n = m + 1 := ⟨n - 1, by omega⟩
    rw [many0P, List.nil_append, attachmentP_end hr]
  | cons a as ih =>
    obtain ⟨x, hx, hx'⟩ := C40_attachment_roundtrip a (h a (by simp))
    obtain ⟨y, hy, hy'⟩ := ih fun b hb => h b (by simp [hb])
    refine ⟨x ++ y, by rw [Attachment.toCesrList, hx, Res.ok_bind, hy, Res.ok_bind], fun rest hr n hn => ?_⟩
    have hpos : 1 ≤ x.length := by
      cases x with
      | nil =>
        have := hx' []
        rw [List.append_nil, attachmentP_end (Or.inl rfl)] at this
        cases this
      | cons c x => simp
    obtain ⟨n, rfl⟩ : ∃ m, n = m + 1 := ⟨n - 1, by omega⟩
    simp only [List.length_append] at hn
    rw [many0P, List.append_assoc, hx' (y ++ rest)]
    simp only
    rw [if_neg (by simp only [List.length_append]; omega), hy' rest hr n (by simp only [List.length_append]; omega), IRes.andThen_ok]

/-! ### Receipts -/

theorem receiptTop (r : ReceiptMsg) (rest : Bytes) :
    jsonTop (jsonText r.sval ++ rest) = ([(b!"v", .str r.info.toStr), (b!"t", .str b!"rct"), (b!"d", .str r.digest.toStr),
      (b!"i", .str r.prefix.toStr), (b!"s", .str (hexStr r.sn))], some rest) := by
  unfold ReceiptMsg.sval
  rw [jsonTop_written]
  · rfl
  · simp only [SVal.FitsF, SVal.Fits]
    exact ⟨by decide, SerInfo.toStr_utf8 _, by decide, by decide, by decide, SelfAddressingPrefix.toStr_utf8 _, by decide,
      IdentifierPrefix.toStr_utf8 _, by decide, hexStr_utf8 _, trivial⟩

private theorem receipt_parts {r : ReceiptMsg} (h : r.Representable) :
    SerInfo.fromStr r.info.toStr = .ok r.info ∧ SelfAddressingPrefix.fromStr r.digest.toStr = .ok r.digest ∧
      IdentifierPrefix.fromStr r.prefix.toStr = .ok r.prefix ∧ desHex (.str (hexStr r.sn)) = .ok r.sn := by
  obtain ⟨h1, h2, h3, h4, h5, h6, h7⟩ := h
  exact ⟨(C41_exact _ h1 h2).2 h3, C35_selfAddressing_roundtrip _ h5, C35_identifier_roundtrip _ h6.1 h6.2, (desHex_iff _).2 h7⟩

theorem receipt_json (r : ReceiptMsg) (h : r.Representable) (rest : Bytes) :
    jsonMessage (fun fs => desReceipt fs none none none) (jsonText r.sval ++ rest) =
      .ok rest (r.info, r.digest, r.prefix, r.sn) := by
  obtain ⟨h1, h2, h3, h4⟩ := receipt_parts h
  unfold jsonMessage
  rw [receiptTop]
  unfold desMessage
  rw [ownField_here _ _ _ _ (by simp), desText_ok, h1]
  simp only [Res.ok_bind, Res.ofOption, need]
  simp only [desReceipt, List.cons.injEq, reduceCtorEq, and_true, if_true, if_false, desText_ok, h2, h3, h4, Res.ok_bind, need, Res.ofOption]
  simp

/-- a written receipt is not taken for a key event -/
theorem receipt_not_event (r : ReceiptMsg) (h : r.Representable) (rest : Bytes) :
    jsonMessage desKeyEvent (jsonText r.sval ++ rest) = .error := by
  obtain ⟨h1, h2, h3, h4⟩ := receipt_parts h
  unfold jsonMessage
  rw [receiptTop]
  unfold desMessage
  rw [ownField_here _ _ _ _ (by simp), desText_ok, h1]
  simp only [Res.ok_bind, Res.ofOption, need]
  unfold desKeyEvent
  rw [ownField_skip _ _ _ _ _ (by decide), ownField_here _ _ _ _ (by simp), desText_ok, h2]
  simp only [Res.ok_bind, need, Res.ofOption]
  rw [eventOwn, if_neg (by decide), if_neg (by decide), eventOwn, if_pos rfl]
  simp only [desText_ok, h3, Res.ok_bind]
  rw [eventOwn, if_neg (by decide), if_pos rfl]
  simp only [h4, Res.ok_bind]
  rfl

/-! ### C61 -/

theorem message_text (env : Env) (m : Message) (h : m.Wireable) (d : SignedEventData) (hd : m.data? = some d) (bin : Binary)
    (hb : bin.RejectsJson) :
    ∃ t, d.event.serialize env = .ok t ∧ (∃ r, t = 123 :: 34 :: r) ∧ (∀ a ∈ d.attachments, a.Ok) ∧ d.toMessage = .ok m ∧
      ∀ rest, altP (keyEventMessageP bin) (receiptMessageP bin) (t ++ rest) = .ok rest d.event := by
  have rct : ∀ r : ReceiptMsg, r.Representable → (EventType.receipt r).serialize env = .ok (jsonText r.sval) ∧ (∃ t, jsonText r.sval = 123 :: 34 :: t) ∧
      ∀ rest, altP (keyEventMessageP bin) (receiptMessageP bin) (jsonText r.sval ++ rest) = .ok rest (.receipt r) := by
    intro r hr
    obtain ⟨t, ht⟩ := r.text_start
    refine ⟨by simp [EventType.serialize, hr.2.2.2.1, Fmt.encode], ⟨t, ht⟩, fun rest => ?_⟩
    have hs : ∃ u, jsonText r.sval ++ rest = 123 :: u := ⟨_, by rw [ht]; rfl⟩
    unfold altP keyEventMessageP receiptMessageP altP
    rw [receipt_not_event r hr rest, (hb _ (Or.inr hs)).1, receipt_json r hr rest]
    rfl
  cases m with
  | event e =>
    cases hd
    obtain ⟨h1, h2, h3, h4⟩ := h
    obtain ⟨t, ht⟩ := e.msg.text_start
    refine ⟨jsonText e.msg.sval, by simp [SignedEvent.toData, EventType.serialize, EventMessage.serialize, h2, Fmt.encode], ⟨t, ht⟩, ?_, ?_, ?_⟩
    · cases hs : e.delegatorSeal with
      | none => simp only [SignedEvent.toData, hs, List.mem_singleton, forall_eq]; exact h3
      | some sl =>
        rw [hs] at h4
        simp only [SignedEvent.toData, hs, List.mem_cons, List.not_mem_nil, or_false, forall_eq_or_imp, forall_eq]
        exact ⟨⟨by simp, by simpa using h4.2⟩, h3⟩
    · obtain ⟨m, sigs, ds⟩ := e
      cases ds with
      | none =>
        simp only [SignedEvent.toData, SignedEventData.toMessage, signedKeyEvent]
        cases hdat : m.event.content.data <;> simp_all [EventData.isDelegated]
      | some sl =>
        simp only [SignedEvent.toData, SignedEventData.toMessage, signedKeyEvent]
        cases hdat : m.event.content.data <;> simp_all [EventData.isDelegated, lastTwo, delegatedAtts]
    · intro rest
      unfold altP keyEventMessageP altP
      rw [C44_roundtrip e.msg rest h1]
      rfl
  | rctNt r =>
    cases hd
    obtain ⟨a, b, c⟩ := rct r.body h.1
    refine ⟨_, a, b, ?_, rfl, c⟩
    simp only [NtReceipt.toData, List.mem_singleton, forall_eq]
    exact h.2
  | rctT r =>
    cases hd
    obtain ⟨a, b, c⟩ := rct r.body h.1
    refine ⟨_, a, b, ?_, rfl, c⟩
    simp only [TReceipt.toData, List.mem_singleton, forall_eq, Attachment.Ok]
    exact ⟨by simp, h.2⟩
  | reply r => cases hd
  | query q => cases hd

/-- C61: a signed message (key event, delegated or not, or receipt of either kind) written to CESR and followed by the end of the stream
or by another message is read back as the same message, leaving exactly what followed. -/
theorem C61_signed_message_roundtrip (env : Env) (bin : Binary) (hb : bin.RejectsJson) (m : Message) (h : m.Wireable) :
    ∃ d b, m.data? = some d ∧ d.toCesr env = .ok b ∧ ∀ rest, StreamEnd rest →
      ∃ d', signedMessageP bin (b ++ rest) = .ok rest d' ∧ d'.toMessage = .ok m := by
  obtain ⟨d, hd⟩ : ∃ d, m.data? = some d := by
    cases m with
    | event e => exact ⟨_, rfl⟩
    | rctNt r => exact ⟨_, rfl⟩
    | rctT r => exact ⟨_, rfl⟩
    | reply r => exact h.elim
    | query q => exact h.elim
  obtain ⟨t, h1, h2, h3, h4, h5⟩ := message_text env m h d hd bin hb
  obtain ⟨u, h6, h7⟩ := attachments_roundtrip d.attachments h3
  refine ⟨d, t ++ u, hd, by unfold SignedEventData.toCesr; rw [h6, Res.ok_bind, h1, Res.ok_bind], fun rest hr => ⟨d, ?_, h4⟩⟩
  unfold signedMessageP
  rw [List.append_assoc, h5 (u ++ rest), IRes.andThen_ok, h7 rest hr _ (Nat.le_refl _), IRes.andThen_ok]

/-- the hypotheses are met: a signed delegated rotation with its delegator seal, and receipts of both kinds -/
private def wireEx1 : Message :=
  .event ⟨⟨SerInfo.new .json 300, ⟨⟨.blake3_256, List.replicate 32 1⟩, ⟨.basic (Ex.key 1), 3,
    .drt ⟨⟨.sha3_256, List.replicate 32 2⟩, ⟨.simple 1, [Ex.key 2], none⟩, 1, [Ex.key 4], [Ex.key 5], [.digest ⟨.blake3_256, List.replicate 32 1⟩]⟩⟩⟩⟩,
    [⟨0, ⟨.ed25519Sha512, List.replicate 64 1⟩⟩], some ⟨4, ⟨.blake3_256, List.replicate 32 9⟩⟩⟩
private def wireEx2 : Message :=
  .rctNt ⟨⟨SerInfo.new .json 145, ⟨.blake3_256, List.replicate 32 1⟩, .basic (Ex.key 1), 3⟩, [(Ex.key 7, ⟨.ed25519Sha512, List.replicate 64 1⟩)]⟩
private def wireEx3 : Message :=
  .rctT ⟨⟨SerInfo.new .json 145, ⟨.blake3_256, List.replicate 32 1⟩, .basic (Ex.key 1), 3⟩,
    ⟨.basic (Ex.key 1), 7, ⟨.blake3_256, List.replicate 32 1⟩⟩, [⟨2, ⟨.ed25519Sha512, List.replicate 64 1⟩⟩]⟩
example : ∀ m ∈ [wireEx1, wireEx2, wireEx3], m.Wireable := by
  simp [wireEx1, wireEx2, wireEx3, Message.Wireable, ReceiptMsg.Representable, SigsOk, EventSealOk, EventData.isDelegated,
    EventMessage.Representable, EventData.Representable, RotationEvent.Representable, KeyConfig.Representable, Threshold.Representable,
    Seal.Representable, IdentifierPrefix.Representable, BasicPrefix.Representable, IdentifierPrefix.Sized, BasicPrefix.Sized,
    SelfAddressingPrefix.Sized, IdentifierPrefix.IsSecp, BasicPrefix.IsSecp, Ex.key, Basic.rawBytes, SelfAddressing.rawBytes,
    SelfAddressing.keyless, SerInfo.new, u64max, SigOk, SelfSigningPrefix.Sized, SelfSigning.rawBytes]
example : (⟨fun _ => .error, fun _ => .error⟩ : Binary).RejectsJson := fun _ _ => ⟨rfl, rfl⟩

/-- the text of a stream of messages: their CESR forms one after the other -/
def streamText (env : Env) : List Message → Res Bytes
  | [] => .ok []
  | m :: ms => do
    let d ← Res.ofOption m.data? (.semantic "not a key event or receipt")
    let b ← d.toCesr env
    let r ← streamText env ms
    .ok (b ++ r)

theorem toCesr_start (env : Env) (m : Message) (h : m.Wireable) (d : SignedEventData) (b : Bytes) (hd : m.data? = some d)
    (hb : d.toCesr env = .ok b) : ∃ r, b = 123 :: 34 :: r := by
  unfold SignedEventData.toCesr at hb
  obtain ⟨u, _, hb⟩ := Res.bind_eq_ok.1 hb
  obtain ⟨t, ht, hb⟩ := Res.bind_eq_ok.1 hb
  cases hb
  obtain ⟨t', h1, ⟨r, hr⟩, _⟩ := message_text env m h d hd ⟨fun _ => .error, fun _ => .error⟩ (fun _ _ => ⟨rfl, rfl⟩)
  rw [h1] at ht
  cases ht
  exact ⟨_, by rw [hr]; rfl⟩

private theorem streamText_end (env : Env) (ms : List Message) (h : ∀ m ∈ ms, m.Wireable) (b : Bytes) (hb : streamText env ms = .ok b) :
    StreamEnd b := by
  cases ms with
  | nil => cases hb; exact Or.inl rfl
  | cons m ms =>
    simp only [streamText, Res.bind_eq_ok, Res.ok.injEq] at hb
    obtain ⟨d, h1, b1, h2, r, h3, rfl⟩ := hb
    have hd : m.data? = some d := by
      cases hm : m.data? with
      | none => rw [hm] at h1; cases h1
      | some x => rw [hm] at h1; cases h1; rfl
    obtain ⟨r', rfl⟩ := toCesr_start env m (h m (by simp)) d b1 hd h2
    exact Or.inr ⟨_, rfl⟩

/-- the end of the stream is not a message -/
theorem signedMessageP_nil (bin : Binary) (hb : bin.RejectsJson) : signedMessageP bin [] = .error := by
  have e1 : jsonMessage desKeyEvent [] = .error := by decide +kernel
  have e2 : jsonMessage (fun fs => desReceipt fs none none none) [] = .error := by decide +kernel
  unfold signedMessageP altP keyEventMessageP receiptMessageP altP
  rw [e1, e2, (hb [] (Or.inl rfl)).1, (hb [] (Or.inl rfl)).2]
  rfl

/-- C62: a stream of any number of signed messages, written one after the other, is parsed into exactly these messages, in order, with
nothing left over. -/
theorem C62_stream_roundtrip (env : Env) (bin : Binary) (hb : bin.RejectsJson) (ms : List Message) (h : ∀ m ∈ ms, m.Wireable) :
    ∃ b ds, streamText env ms = .ok b ∧ signedEventStreamP bin b = .ok [] ds ∧ ds.map SignedEventData.toMessage = ms.map .ok := by
  suffices hx : ∃ b ds, streamText env ms = .ok b ∧ (∀ n, b.length + 1 ≤ n → many0P (signedMessageP bin) n b = .ok [] ds) ∧
      ds.map SignedEventData.toMessage = ms.map .ok by
    obtain ⟨b, ds, h1, h2, h3⟩ := hx
    exact ⟨b, ds, h1, h2 _ (Nat.le_refl _), h3⟩
  induction ms with
  | nil =>
    refine ⟨[], [], rfl, fun n hn => ?_, rfl⟩
    obtain ⟨n, rfl⟩ : ∃ m, n = m + 1 := ⟨n - 1, by omega⟩
    rw [many0P, signedMessageP_nil bin hb]
  | cons m ms ih =>
    obtain ⟨b, ds, h1, h2, h3⟩ := ih fun x hx => h x (by simp [hx])
    obtain ⟨d, c, g1, g2, g3⟩ := C61_signed_message_roundtrip env bin hb m (h m (by simp))
    obtain ⟨d', g4, g5⟩ := g3 b (streamText_end env ms (fun x hx => h x (by simp [hx])) b h1)
    refine ⟨c ++ b, d' :: ds, by rw [streamText, g1]; simp [Res.ofOption, g2, h1], fun n hn => ?_, by simp [g5, h3]⟩
    obtain ⟨r, rfl⟩ := toCesr_start env m (h m (by simp)) d c g1 g2
    obtain ⟨n, rfl⟩ : ∃ m, n = m + 1 := ⟨n - 1, by omega⟩
    simp only [List.length_append, List.length_cons] at hn
    rw [many0P, g4]
    simp only
    rw [if_neg (by simp only [List.length_append, List.length_cons]; omega), h2 n (by omega), IRes.andThen_ok]

/-! ## C64: the receipt reader does not look at the message type -/

/-- the wire text of a receipt, except that its type says `tag` -/
def receiptTextAs (tag : Bytes) (r : ReceiptMsg) : Bytes :=
  jsonText (.map [(b!"v", .str r.info.toStr), (b!"t", .str tag), (b!"d", .str r.digest.toStr), (b!"i", .str r.prefix.toStr),
    (b!"s", .str (hexStr r.sn))])

private theorem need_err {α : Type} : (need (none : Option α)) = .err (.deserialize "missing field") := rfl

private theorem desEventData_tagOnly (tag : Bytes) : ∃ e, desEventData [(b!"t", .str tag)] = .err e := by
  unfold desEventData
  simp only [optField, lookLast]
  show ∃ e, ((do let a ← desTag (.str tag); .ok (some a)) >>= fun t => _) = .err e
  cases ht : desTag (.str tag) with
  | err e => exact ⟨e, rfl⟩
  | panic =>
    exfalso
    revert ht
    simp only [desTag, tagOf]
    repeat' split
    all_goals simp
  | ok t =>
    simp only [Res.ok_bind, need, Res.ofOption]
    cases t <;> exact ⟨_, rfl⟩

/-- C64 is FALSE of the code: whatever its type field says, a message with the fields of a receipt and no others is read as a receipt —
a truncated inception, say, becomes a receipt of the event it names. -/
theorem C64_fails (bin : Binary) (hb : bin.RejectsJson) (r : ReceiptMsg) (hr : r.Representable) (tag : Bytes) (ht : utf8Valid tag = true)
    (rest : Bytes) : altP (keyEventMessageP bin) (receiptMessageP bin) (receiptTextAs tag r ++ rest) = .ok rest (.receipt r) := by
  have top : jsonTop (receiptTextAs tag r ++ rest) = ([(b!"v", .str r.info.toStr), (b!"t", .str tag), (b!"d", .str r.digest.toStr),
      (b!"i", .str r.prefix.toStr), (b!"s", .str (hexStr r.sn))], some rest) := by
    unfold receiptTextAs
    rw [jsonTop_written]
    · rfl
    · simp only [SVal.FitsF, SVal.Fits]
      exact ⟨by decide, SerInfo.toStr_utf8 _, by decide, ht, by decide, SelfAddressingPrefix.toStr_utf8 _, by decide,
        IdentifierPrefix.toStr_utf8 _, by decide, hexStr_utf8 _, trivial⟩
  obtain ⟨h1, h2, h3, h4⟩ := receipt_parts hr
  have e1 : jsonMessage desKeyEvent (receiptTextAs tag r ++ rest) = .error := by
    unfold jsonMessage
    rw [top]
    unfold desMessage
    rw [ownField_here _ _ _ _ (by simp), desText_ok, h1]
    simp only [Res.ok_bind, Res.ofOption, need]
    unfold desKeyEvent
    rw [ownField_skip _ _ _ _ _ (by decide), ownField_here _ _ _ _ (by simp), desText_ok, h2]
    simp only [Res.ok_bind, need, Res.ofOption]
    rw [eventOwn, if_neg (by decide), if_neg (by decide), eventOwn, if_pos rfl]
    simp only [desText_ok, h3, Res.ok_bind]
    rw [eventOwn, if_neg (by decide), if_pos rfl]
    simp only [h4, Res.ok_bind]
    rw [eventOwn]
    simp only [Res.ok_bind]
    obtain ⟨e, he⟩ := desEventData_tagOnly tag
    rw [he]
    rfl
  have e2 : jsonMessage (fun fs => desReceipt fs none none none) (receiptTextAs tag r ++ rest) =
      .ok rest (r.info, r.digest, r.prefix, r.sn) := by
    unfold jsonMessage
    rw [top]
    unfold desMessage
    rw [ownField_here _ _ _ _ (by simp), desText_ok, h1]
    simp only [Res.ok_bind, Res.ofOption, need]
    simp only [desReceipt, List.cons.injEq, reduceCtorEq, and_true, if_true, if_false, desText_ok, h2, h3, h4, Res.ok_bind, need, Res.ofOption]
    simp
  have hs : ∃ u, receiptTextAs tag r ++ rest = 123 :: u := by
    unfold receiptTextAs
    simp only [jsonText, List.cons_append, List.nil_append]
    exact ⟨_, rfl⟩
  unfold altP keyEventMessageP receiptMessageP altP
  rw [e1, (hb _ (Or.inr hs)).1, e2]
  rfl

/-- for instance a receipt body announced as an inception -/
example : utf8Valid b!"icp" = true ∧ receiptTextAs b!"icp" ⟨SerInfo.new .json 145, ⟨.blake3_256, List.replicate 32 1⟩, .basic (Ex.key 1), 3⟩ ≠
    jsonText (ReceiptMsg.sval ⟨SerInfo.new .json 145, ⟨.blake3_256, List.replicate 32 1⟩, .basic (Ex.key 1), 3⟩) := by decide +kernel

private theorem tagOf_toStr {s : Bytes} {t : EventTypeTag} (hs : tagOf s = .ok t) : s = t.toStr := by
  unfold tagOf at hs
  repeat' split at hs
  all_goals (cases hs <;> assumption)

/-- C64, the half that holds: what the event reader accepts carries the type of the event it was read as, in the last `t` member, as a
string or as the one-member object. -/
theorem C64_event_type (fs : List (Bytes × JVal)) (d : EventData) (h : desEventData fs = .ok d) :
    ∃ v, lookLast b!"t" fs = some v ∧ (v = .str d.type.toStr ∨ v = .obj [(d.type.toStr, .null)]) := by
  unfold desEventData at h
  obtain ⟨t, ht, h⟩ := Res.bind_eq_ok.1 h
  obtain ⟨t', ht', h⟩ := Res.bind_eq_ok.1 h
  cases t with
  | none => cases ht'
  | some t =>
    obtain rfl : t = t' := by cases ht'; rfl
    have hty : t = d.type := by
      cases t <;> simp only [Res.bind_eq_ok, Res.ok.injEq, reduceCtorEq] at h <;> obtain ⟨e, _, rfl⟩ := h <;> rfl
    unfold optField at ht
    cases hl : lookLast b!"t" fs with
    | none => rw [hl] at ht; cases ht
    | some v =>
      rw [hl] at ht
      refine ⟨v, rfl, ?_⟩
      obtain ⟨a, ha, hb⟩ := Res.bind_eq_ok.1 ht
      cases hb
      have tg : ∀ s, tagOf s = .ok t → s = t.toStr := fun s hs => tagOf_toStr hs
      rw [← hty]
      unfold desTag at ha
      split at ha
      · left; rw [tg _ ha]
      · right; rw [tg _ ha]
      · cases ha

end Keriox
