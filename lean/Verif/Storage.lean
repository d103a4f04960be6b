import Verif.Cbor
/-!
# The bytes of the database — `/repo/src/database/sled/tables.rs` and the `serde` forms of what it stores

`Db.lean` keeps the stored values themselves and says by `Tbl.dec` what reading a written one gives.  Here are the bytes: a vector is
written with `serde_cbor::to_vec` and read with `serde_cbor::from_slice` (tables.rs:34-50).

Simplifications: the derived readers take the members in the order of the fields, not of the text (this only decides which of two errors
is reported), and only accept maps (the crate also reads structs from arrays; the writer never produces these).  The time stamp of a stored
event is some text accepted by the reader `time` of `chrono` (its value is never used).
-/
namespace Keriox

/-- `key_bytes`, tables.rs:244-246 -/
def keyBytes (k : Nat) : Bytes := beBytes 8 k

/-- the order of sled: keys compare as byte strings -/
def bytesLt : Bytes → Bytes → Prop
  | _, [] => False
  | [], _ :: _ => True
  | a :: r, b :: s => a.toNat < b.toNat ∨ (a = b ∧ bytesLt r s)

/-! ## Writers -/

/-- `SignedEventMessage` written to CBOR, signed_event_message.rs:58-63: no source seal -/
def SignedEvent.dbSval (e : SignedEvent) : SVal :=
  .struct [(b!"event_message", e.msg.sval), (b!"signatures", .seq (e.sigs.map fun s => .str s.toStr))]

/-- `TimestampedSignedEventMessage` (derived), signed_event_message.rs:72-76 -/
def timedSval (te : Bytes × SignedEvent) : SVal :=
  .struct [(b!"timestamp", .str te.1), (b!"signed_event_message", te.2.dbSval)]

/-- `EventSeal` (derived), sections/seal.rs:26-36 -/
def EventSeal.dbSval (s : EventSeal) : SVal :=
  .struct [(b!"i", .str s.prefix.toStr), (b!"s", .str (hexStr s.sn)), (b!"d", .str s.eventDigest.toStr)]

/-- `SignedTransferableReceipt` (derived), signed_event_message.rs:175-180 -/
def TReceipt.dbSval (r : TReceipt) : SVal :=
  .struct [(b!"body", r.body.sval), (b!"validator_seal", r.validatorSeal.dbSval),
    (b!"signatures", .seq (r.sigs.map fun s => .str s.toStr))]

/-- `SignedNontransferableReceipt` (derived), signed_event_message.rs:205-209; a pair is an array of two -/
def NtReceipt.dbSval (r : NtReceipt) : SVal :=
  .struct [(b!"body", r.body.sval), (b!"couplets", .seq (r.couplets.map fun c => .seq [.str c.1.toStr, .str c.2.toStr]))]

/-- `serde_cbor::to_vec(&value)`, tables.rs:48 -/
def vecBytes {α : Type} (g : α → SVal) (l : List α) : Bytes := cborText (.seq (l.map g))

/-! ## Readers -/

/-- a map -/
def mapMembers (v : JVal) : Res (List (Bytes × JVal)) :=
  match v with
  | .obj fs => .ok fs
  | _ => .err (.deserialize "invalid type")

/-- a required member of a derived struct -/
def member {α : Type} (p : JVal → Res α) (k : Bytes) (fs : List (Bytes × JVal)) : Res α := do
  let q ← ownField p k fs none
  need q.1

/-- `EventMessage<D>` inside another value, event_message/mod.rs:84-94 -/
def desInner {α : Type} (inner : List (Bytes × JVal) → Res α) (v : JVal) : Res (SerInfo × α) := do
  let fs ← mapMembers v
  let q ← desMessage inner (fs, some [])
  .ok (q.1, q.2.1)

/-- an attached signature, prefix/attached_signature.rs (`Deserialize`) -/
def desAttached (v : JVal) : Res AttachedSignaturePrefix := desText AttachedSignaturePrefix.fromStr v

/-- `SignedEventMessage` (derived `Deserialize`), signed_event_message.rs:34-41: the missing source seal is `None` -/
def desSignedEvent (v : JVal) : Res SignedEvent := do
  let fs ← mapMembers v
  let m ← member (desInner desKeyEvent) b!"event_message" fs
  let sigs ← member (desVec desAttached) b!"signatures" fs
  .ok ⟨⟨m.1, m.2⟩, sigs, none⟩

/-- `TimestampedSignedEventMessage` (derived), signed_event_message.rs:72-76, then `into` -/
def desTimed (time : Bytes → Option Timestamp) (v : JVal) : Res SignedEvent := do
  let fs ← mapMembers v
  let _ ← member (desText fun s => Res.ofOption (time s) (.deserialize "time")) b!"timestamp" fs
  member desSignedEvent b!"signed_event_message" fs

/-- `EventMessage<Receipt>` -/
def desReceiptBody (v : JVal) : Res ReceiptMsg := do
  let m ← desInner (fun fs => desReceipt fs none none none) v
  .ok ⟨m.1, m.2.1, m.2.2.1, m.2.2.2⟩

/-- `EventSeal` (derived), sections/seal.rs:26-36 -/
def desDbSeal (v : JVal) : Res EventSeal := do
  let fs ← mapMembers v
  let i ← member (desText IdentifierPrefix.fromStr) b!"i" fs
  let s ← member desHex b!"s" fs
  let d ← member (desText SelfAddressingPrefix.fromStr) b!"d" fs
  .ok ⟨i, s, d⟩

/-- `SignedTransferableReceipt` (derived), signed_event_message.rs:175-180 -/
def desTReceipt (v : JVal) : Res TReceipt := do
  let fs ← mapMembers v
  let b ← member desReceiptBody b!"body" fs
  let s ← member desDbSeal b!"validator_seal" fs
  let sigs ← member (desVec desAttached) b!"signatures" fs
  .ok ⟨b, s, sigs⟩

/-- a pair -/
def desCouplet (v : JVal) : Res (BasicPrefix × SelfSigningPrefix) :=
  match v with
  | .arr [a, b] => do
    let k ← desText BasicPrefix.fromStr a
    let s ← desText SelfSigningPrefix.fromStr b
    .ok (k, s)
  | _ => .err (.deserialize "invalid length")

/-- `SignedNontransferableReceipt` (derived), signed_event_message.rs:205-209 -/
def desNtReceipt (v : JVal) : Res NtReceipt := do
  let fs ← mapMembers v
  let b ← member desReceiptBody b!"body" fs
  let cs ← member (desVec desCouplet) b!"couplets" fs
  .ok ⟨b, cs⟩

/-- `serde_cbor::from_slice`, tables.rs:36: one value and nothing behind it -/
def readVec {α : Type} (p : JVal → Res α) (s : Bytes) : Res (List α) :=
  match cborValue (4 * s.length + 4) 128 s with
  | some (v, []) => desVec p v
  | _ => .err (.deserialize "cbor")

end Keriox
