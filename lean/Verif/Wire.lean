import Verif.Json
import Verif.Db
/-!
# Reading messages — serde `Deserialize` of events and receipts, and the stream parsers of
`/repo/src/event_parsing/{message,mod}.rs` (default features: the `query` feature is off)

`#[serde(flatten)]`: each level takes its own fields from the members in text order (a repeated own field is an error) and hands the
others on.  Event data goes through `serde_json::Value` (event_data/mod.rs:43), whose objects keep the last of repeated members and are
visited in the order of the keys; that order is visible only in whether an error or a panic comes first, and is kept here.
Simplification: `SerHex::<Compact>` numbers are read by `u64::from_str_radix(_, 16)`.
-/
namespace Keriox

/-- `String::deserialize` followed by `FromStr` (all prefix types, `SerializationInfo`, `ThresholdFraction`) -/
def desText {α : Type} (p : Bytes → Res α) (v : JVal) : Res α :=
  match v with
  | .str s => p s
  | _ => .err (.deserialize "invalid type")

/-- `SerHex::<Compact>::deserialize` for `u64` -/
def desHex (v : JVal) : Res Nat := desText (fun s => Res.ofOption (fromStrRadix 16 u64max s) .intParse) v

/-- elements of a `Vec<T>`, in order -/
def desAll {α : Type} (p : JVal → Res α) : List JVal → Res (List α)
  | [] => .ok []
  | x :: xs => do
    let a ← p x
    let as ← desAll p xs
    .ok (a :: as)

/-- `Vec::<T>::deserialize` -/
def desVec {α : Type} (p : JVal → Res α) (v : JVal) : Res (List α) :=
  match v with
  | .arr xs => desAll p xs
  | _ => .err (.deserialize "invalid type")

/-- lookup in a `serde_json::Value` object: the last member with the key -/
def lookLast (k : Bytes) : List (Bytes × JVal) → Option JVal
  | [] => none
  | (k', v) :: r =>
    match lookLast k r with
    | some x => some x
    | none => if k' = k then some v else none

/-- an own field that is present is read where it occurs -/
def optField {α : Type} (p : JVal → Res α) (k : Bytes) (fs : List (Bytes × JVal)) : Res (Option α) :=
  match lookLast k fs with
  | none => .ok none
  | some v => do
    let a ← p v
    .ok (some a)

/-- `missing_field` -/
def need {α : Type} (o : Option α) : Res α := Res.ofOption o (.deserialize "missing field")

/-- untagged enums: the first alternative that succeeds; panics propagate -/
def orTry {α : Type} (x y : Res α) : Res α :=
  match x with
  | .err _ => y
  | r => r

/-- `ThresholdClause`, threshold.rs:139; `ThresholdFraction`, threshold.rs:48-56 -/
def desClause (v : JVal) : Res (List Frac) := desVec (desText Frac.fromStr) v

/-- `SignatureThreshold`, threshold.rs:66-79 (untagged) -/
def desThreshold (v : JVal) : Res Threshold :=
  orTry (do let n ← desHex v; .ok (.simple n)) <|
  orTry (do let c ← desClause v; .ok (.single c)) <|
  do let cs ← desVec desClause v; .ok (.multi cs)

/-- `empty_string_as_none`, key_config.rs:124-140 -/
def desNext (v : JVal) : Res (Option SelfAddressingPrefix) :=
  match v with
  | .null => .ok none
  | .str [] => .ok none
  | .str s => do
    let p ← SelfAddressingPrefix.fromStr s
    .ok (some p)
  | _ => .err (.deserialize "invalid type")

/-- `KeyConfig`, key_config.rs:11-21 (a flattened struct) -/
def desKeyConfig (fs : List (Bytes × JVal)) : Res KeyConfig := do
  let k ← optField (desVec (desText BasicPrefix.fromStr)) b!"k" fs
  let kt ← optField desThreshold b!"kt" fs
  let n ← optField desNext b!"n" fs
  let kt ← need kt
  let k ← need k
  let n ← need n
  .ok ⟨kt, k, n⟩

/-- an attempt to read a value -/
def tried {α : Type} (p : JVal → Res α) (v : JVal) : Res Unit := do
  let _ ← p v
  .ok ()

/-- derived `visit_seq`: the elements are read one after another, in the order of the fields; a wrong length is noticed when it is met -/
def seqWalk : List (JVal → Res Unit) → List JVal → Res Unit
  | [], [] => .ok ()
  | p :: ps, x :: xs => do
    p x
    seqWalk ps xs
  | _, _ => .err (.deserialize "invalid length")

/-- the value of a struct that may be given as an object or as the sequence of its fields (derived `visit_map` and `visit_seq`):
the fields as an object -/
def structFields (fields : List (Bytes × (JVal → Res Unit))) (v : JVal) : Res (List (Bytes × JVal)) :=
  match v with
  | .obj fs => .ok fs
  | .arr xs => do
    seqWalk (fields.map Prod.snd) xs
    .ok ((fields.map Prod.fst).zip xs)
  | _ => .err (.deserialize "invalid type")

/-- `LocationSeal`, seal.rs:38-51 -/
def desLocationSeal (v : JVal) : Res Seal := do
  let fs ← structFields [(b!"i", tried (desText IdentifierPrefix.fromStr)), (b!"s", tried desHex), (b!"t", tried (desText Res.ok)), (b!"p", tried (desText SelfAddressingPrefix.fromStr))] v
  let i ← optField (desText IdentifierPrefix.fromStr) b!"i" fs
  let p ← optField (desText SelfAddressingPrefix.fromStr) b!"p" fs
  let s ← optField desHex b!"s" fs
  let t ← optField (desText Res.ok) b!"t" fs
  let i ← need i
  let s ← need s
  let t ← need t
  let p ← need p
  .ok (.location ⟨i, s, t, p⟩)

/-- `EventSeal`, seal.rs:26-36 -/
def desEventSeal (v : JVal) : Res Seal := do
  let fs ← structFields [(b!"i", tried (desText IdentifierPrefix.fromStr)), (b!"s", tried desHex), (b!"d", tried (desText SelfAddressingPrefix.fromStr))] v
  let d ← optField (desText SelfAddressingPrefix.fromStr) b!"d" fs
  let i ← optField (desText IdentifierPrefix.fromStr) b!"i" fs
  let s ← optField desHex b!"s" fs
  let i ← need i
  let s ← need s
  let d ← need d
  .ok (.event ⟨i, s, d⟩)

/-- `DigestSeal`, seal.rs:14-18 -/
def desDigestSeal (v : JVal) : Res Seal := do
  let fs ← structFields [(b!"d", tried (desText SelfAddressingPrefix.fromStr))] v
  let d ← optField (desText SelfAddressingPrefix.fromStr) b!"d" fs
  let d ← need d
  .ok (.digest d)

/-- `RootSeal`, seal.rs:20-24 -/
def desRootSeal (v : JVal) : Res Seal := do
  let fs ← structFields [(b!"rd", tried (desText SelfAddressingPrefix.fromStr))] v
  let d ← optField (desText SelfAddressingPrefix.fromStr) b!"rd" fs
  let d ← need d
  .ok (.root d)

/-- `Seal`, seal.rs:5-12 (untagged, in this order) -/
def desSeal (v : JVal) : Res Seal :=
  orTry (desLocationSeal v) <| orTry (desEventSeal v) <| orTry (desDigestSeal v) <| desRootSeal v

/-- `InceptionEvent`, inception.rs:21-34, with `InceptionWitnessConfig`, sections/mod.rs:22-29 -/
def desInception (fs : List (Bytes × JVal)) : Res InceptionEvent := do
  let a ← optField (desVec desSeal) b!"a" fs
  let c ← optField (desVec (desText Res.ok)) b!"c" fs
  let c ← need c
  let a ← need a
  let kc ← desKeyConfig fs
  let b ← optField (desVec (desText BasicPrefix.fromStr)) b!"b" fs
  let bt ← optField desHex b!"bt" fs
  let bt ← need bt
  let b ← need b
  .ok ⟨kc, bt, b, c, a⟩

/-- `RotationEvent`, rotation.rs:12-25, with `WitnessConfig`, sections/mod.rs:10-20 -/
def desRotation (fs : List (Bytes × JVal)) : Res RotationEvent := do
  let a ← optField (desVec desSeal) b!"a" fs
  let p ← optField (desText SelfAddressingPrefix.fromStr) b!"p" fs
  let p ← need p
  let a ← need a
  let kc ← desKeyConfig fs
  let ba ← optField (desVec (desText BasicPrefix.fromStr)) b!"ba" fs
  let br ← optField (desVec (desText BasicPrefix.fromStr)) b!"br" fs
  let bt ← optField desHex b!"bt" fs
  let bt ← need bt
  let br ← need br
  let ba ← need ba
  .ok ⟨p, kc, bt, br, ba, a⟩

/-- `InteractionEvent`, interaction.rs:7-14 -/
def desInteraction (fs : List (Bytes × JVal)) : Res InteractionEvent := do
  let a ← optField (desVec desSeal) b!"a" fs
  let p ← optField (desText SelfAddressingPrefix.fromStr) b!"p" fs
  let p ← need p
  let a ← need a
  .ok ⟨p, a⟩

/-- `DelegatedInceptionEvent`, delegated/mod.rs:15-22 -/
def desDelegatedInception (fs : List (Bytes × JVal)) : Res DelegatedInceptionEvent := do
  let di ← optField (desText IdentifierPrefix.fromStr) b!"di" fs
  let di ← need di
  let i ← desInception fs
  .ok ⟨i, di⟩

/-- the variant names of `EventTypeTag`, event_message/mod.rs:26-39 -/
def tagOf (s : Bytes) : Res EventTypeTag :=
  if s = b!"icp" then .ok .icp
  else if s = b!"rot" then .ok .rot
  else if s = b!"ixn" then .ok .ixn
  else if s = b!"dip" then .ok .dip
  else if s = b!"drt" then .ok .drt
  else if s = b!"rct" then .ok .rct
  else .err (.deserialize "unknown variant")

/-- a unit variant: its name, or an object with the name as only member and null as value -/
def desTag (v : JVal) : Res EventTypeTag :=
  match v with
  | .str s => tagOf s
  | .obj [(k, .null)] => tagOf k
  | _ => .err (.deserialize "invalid type")

/-- `Deserialize for EventData`, event_data/mod.rs:32-64 -/
def desEventData (fs : List (Bytes × JVal)) : Res EventData := do
  let t ← optField desTag b!"t" fs
  let t ← need t
  match t with
  | .icp => do let e ← desInception fs; .ok (.icp e)
  | .rot => do let e ← desRotation fs; .ok (.rot e)
  | .ixn => do let e ← desInteraction fs; .ok (.ixn e)
  | .dip => do let e ← desDelegatedInception fs; .ok (.dip e)
  | .drt => do let e ← desRotation fs; .ok (.drt e)
  | _ => .err (.semantic "Not a key event")

/-- One level of a flattened struct with a single own field `k`: the members in text order; a repeated own field is an error;
the other members are handed on.  `got` is the value read so far. -/
def ownField {α : Type} (p : JVal → Res α) (k : Bytes) : List (Bytes × JVal) → Option α → Res (Option α × List (Bytes × JVal))
  | [], got => .ok (got, [])
  | (k', v) :: r, got =>
    if k' = k then
      match got with
      | some _ => .err (.deserialize "duplicate field")
      | none => do
        let a ← p v
        ownField p k r (some a)
    else do
      let q ← ownField p k r got
      .ok (q.1, (k', v) :: q.2)

/-- `Event`, event/mod.rs:15-25: own fields `i` and `s` -/
def eventOwn : List (Bytes × JVal) → Option IdentifierPrefix → Option Nat →
    Res (Option IdentifierPrefix × Option Nat × List (Bytes × JVal))
  | [], i, s => .ok (i, s, [])
  | (k, v) :: r, i, s =>
    if k = b!"i" then
      match i with
      | some _ => .err (.deserialize "duplicate field")
      | none => do
        let a ← desText IdentifierPrefix.fromStr v
        eventOwn r (some a) s
    else if k = b!"s" then
      match s with
      | some _ => .err (.deserialize "duplicate field")
      | none => do
        let a ← desHex v
        eventOwn r i (some a)
    else do
      let q ← eventOwn r i s
      .ok (q.1, q.2.1, (k, v) :: q.2.2)

/-- the levels below the version string: `SaidEvent<Event>`, event_message/mod.rs:40-47; `Event`, event/mod.rs:15-25 -/
def desKeyEvent (fs : List (Bytes × JVal)) : Res KeyEvent := do
  let dq ← ownField (desText SelfAddressingPrefix.fromStr) b!"d" fs none
  let d ← need dq.1
  let q ← eventOwn dq.2 none none
  let i ← need q.1
  let s ← need q.2.1
  let data ← desEventData q.2.2
  .ok ⟨d, ⟨i, s, data⟩⟩

/-- `Receipt`, receipt.rs:14-31: a flattened plain struct with fields `d`, `i`, `s` read in text order (`t` is not looked at) -/
def desReceipt : List (Bytes × JVal) → Option SelfAddressingPrefix → Option IdentifierPrefix → Option Nat →
    Res (SelfAddressingPrefix × IdentifierPrefix × Nat)
  | [], d, i, s => do
    let d ← need d
    let i ← need i
    let s ← need s
    .ok (d, i, s)
  | (k, v) :: r, d, i, s =>
    if k = b!"d" then
      match d with
      | some _ => .err (.deserialize "duplicate field")
      | none => do
        let a ← desText SelfAddressingPrefix.fromStr v
        desReceipt r (some a) i s
    else if k = b!"i" then
      match i with
      | some _ => .err (.deserialize "duplicate field")
      | none => do
        let a ← desText IdentifierPrefix.fromStr v
        desReceipt r d (some a) s
    else if k = b!"s" then
      match s with
      | some _ => .err (.deserialize "duplicate field")
      | none => do
        let a ← desHex v
        desReceipt r d i (some a)
    else desReceipt r d i s

/-- `EventMessage<D>`, event_message/mod.rs:84-94: the version string is read when its member is met, the rest of the text is
checked after that, then the remaining members are given to `D`. -/
def desMessage {α : Type} (inner : List (Bytes × JVal) → Res α) (top : List (Bytes × JVal) × Option Bytes) :
    Res (SerInfo × α × Bytes) := do
  let q ← ownField (desText SerInfo.fromStr) b!"v" top.1 none
  let rest ← Res.ofOption top.2 .jsonSerialization
  let info ← need q.1
  let e ← inner q.2
  .ok (info, e, rest)

/-- `json_message`, message.rs:26-34: any error is a recoverable parser error -/
def jsonMessage {α : Type} (inner : List (Bytes × JVal) → Res α) (s : Bytes) : IRes (SerInfo × α) :=
  match desMessage inner (jsonTop s) with
  | .ok (info, e, rest) => .ok rest (info, e)
  | .err _ => .error
  | .panic => .panic

/-- nom 5 `alt` -/
def altP {α : Type} (p q : Bytes → IRes α) (s : Bytes) : IRes α :=
  match p s with
  | .error => q s
  | r => r

/-- The binary readers tried after JSON (`cbor_message`, `mgpk_message`, message.rs:36-50): external crates, kept abstract. -/
structure Binary where
  event : Bytes → IRes (SerInfo × KeyEvent)
  receipt : Bytes → IRes (SerInfo × (SelfAddressingPrefix × IdentifierPrefix × Nat))

/-- `EventType`, event_parsing/mod.rs:136-144 -/
inductive EventType where
  | keyEvent (m : EventMessage)
  | receipt (r : ReceiptMsg)
  deriving DecidableEq, Repr

/-- `key_event_message`, message.rs:58-60 -/
def keyEventMessageP (bin : Binary) (s : Bytes) : IRes EventType :=
  (altP (jsonMessage desKeyEvent) bin.event s).andThen fun r p => .ok r (.keyEvent ⟨p.1, p.2⟩)

/-- `receipt_message`, message.rs:62-64 -/
def receiptMessageP (bin : Binary) (s : Bytes) : IRes EventType :=
  (altP (jsonMessage fun fs => desReceipt fs none none none) bin.receipt s).andThen fun r p =>
    .ok r (.receipt ⟨p.1, p.2.1, p.2.2.1, p.2.2.2⟩)

/-- `SignedEventData`, event_parsing/mod.rs:130-134 -/
structure SignedEventData where
  event : EventType
  attachments : List Attachment

/-- `signed_message` without the `query` feature, message.rs:87-110 -/
def signedMessageP (bin : Binary) (s : Bytes) : IRes SignedEventData :=
  (altP (keyEventMessageP bin) (receiptMessageP bin) s).andThen fun rest e =>
    (many0P attachmentP (rest.length + 1) rest).andThen fun rest atts => .ok rest ⟨e, atts⟩

/-- `signed_event_stream`, message.rs:112-114 -/
def signedEventStreamP (bin : Binary) (s : Bytes) : IRes (List SignedEventData) := many0P (signedMessageP bin) (s.length + 1) s

/-- the two attachments of a delegated event, in either order, event_parsing/mod.rs:324-340 -/
def delegatedAtts (m : EventMessage) : Attachment → Attachment → Res Message
  | .sealSourceCouplets [sl], .attachedSignatures sigs => .ok (.event ⟨m, sigs, some sl⟩)
  | .attachedSignatures sigs, .sealSourceCouplets [sl] => .ok (.event ⟨m, sigs, some sl⟩)
  | .sealSourceCouplets [], .attachedSignatures _ => .err (.semantic "Missing delegator seal")
  | .attachedSignatures _, .sealSourceCouplets [] => .err (.semantic "Missing delegator seal")
  | .sealSourceCouplets _, .attachedSignatures _ => .err (.semantic "Too many seals")
  | .attachedSignatures _, .sealSourceCouplets _ => .err (.semantic "Too many seals")
  | _, _ => .err (.semantic "Improper attachment type")

/-- the last two attachments, event_parsing/mod.rs:314-322 -/
def lastTwo (m : EventMessage) : List Attachment → Res Message
  | [a, b] => delegatedAtts m b a
  | _ :: b :: c :: r => lastTwo m (b :: c :: r)
  | _ => .err (.semantic "Missing attachment")

/-- `signed_key_event`, event_parsing/mod.rs:309-365 -/
def signedKeyEvent (m : EventMessage) (atts : List Attachment) : Res Message :=
  match m.event.content.data with
  | .dip _ | .drt _ => lastTwo m atts
  | _ =>
    match atts with
    | .attachedSignatures sigs :: _ => .ok (.event ⟨m, sigs, none⟩)
    | _ :: _ => .err (.semantic "Improper attachment type")
    | [] => .err (.semantic "Missing attachment")

/-- `signed_receipt`, event_parsing/mod.rs:367-399 (the last attachment; a frame is opened).  The fuel bounds the nesting of frames. -/
def signedReceipt : Nat → ReceiptMsg → List Attachment → Res Message
  | 0, _, _ => .panic
  | n + 1, r, atts =>
    match atts.getLast? with
    | none => .err (.semantic "Missing attachment")
    | some (.receiptCouplets cs) => .ok (.rctNt ⟨r, cs⟩)
    | some (.sealSignaturesGroups gs) =>
      match gs.getLast? with
      | some (sl, sigs) => .ok (.rctT ⟨r, sl, sigs⟩)
      | none => .err (.semantic "More than one seal")
    | some (.frame as) => signedReceipt n r as
    | some _ => .err (.semantic "Improper payload type")

mutual
/-- nesting depth of frames, enough fuel for `signedReceipt` -/
def Attachment.depth : Attachment → Nat
  | .frame as => 1 + Attachment.depths as
  | _ => 0
/-- the deepest -/
def Attachment.depths : List Attachment → Nat
  | [] => 0
  | a :: as => max a.depth (Attachment.depths as)
end

/-- `TryFrom<SignedEventData> for Message`, event_parsing/mod.rs:231-244 -/
def SignedEventData.toMessage (d : SignedEventData) : Res Message :=
  match d.event with
  | .keyEvent m => signedKeyEvent m d.attachments
  | .receipt r => signedReceipt (Attachment.depths d.attachments + 2) r d.attachments

/-- `From<&SignedEventMessage> for SignedEventData`, event_parsing/mod.rs:171-187 -/
def SignedEvent.toData (e : SignedEvent) : SignedEventData :=
  ⟨.keyEvent e.msg, match e.delegatorSeal with
    | some sl => [.sealSourceCouplets [sl], .attachedSignatures e.sigs]
    | none => [.attachedSignatures e.sigs]⟩

/-- `From<SignedNontransferableReceipt>`, event_parsing/mod.rs:189-197 -/
def NtReceipt.toData (r : NtReceipt) : SignedEventData := ⟨.receipt r.body, [.receiptCouplets r.couplets]⟩

/-- `From<SignedTransferableReceipt>`, event_parsing/mod.rs:199-211 -/
def TReceipt.toData (r : TReceipt) : SignedEventData := ⟨.receipt r.body, [.sealSignaturesGroups [(r.validatorSeal, r.sigs)]]⟩

/-- `EventType::serialize`, event_parsing/mod.rs:146-157 -/
def EventType.serialize (env : Env) : EventType → Res Bytes
  | .keyEvent m => m.serialize env
  | .receipt r => r.info.kind.encode env r.sval

/-- `SignedEventData::to_cesr`, event_parsing/mod.rs:159-169 -/
def SignedEventData.toCesr (env : Env) (d : SignedEventData) : Res Bytes := do
  let atts ← Attachment.toCesrList d.attachments
  let b ← d.event.serialize env
  .ok (b ++ atts)

end Keriox
