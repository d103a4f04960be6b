import Verif.Keri
/-!
# Replies and queries on the wire (feature `query`) — `/repo/src/query/{mod,reply,query,key_state_notice}.rs`, `/repo/src/state/mod.rs`,
`/repo/src/event_parsing/{message,mod}.rs`

Flattened structs are read from buffered members in text order: an own member is read where it occurs, a repeated own member is an error,
missing own members are noticed at the end, and the other members are handed on.
Not modelled: RFC 3339 texts (`chrono`): the reader of timestamps is a parameter.
Simplification: `SerHex::<Compact>` numbers are read by `u64::from_str_radix(_, 16)`, as in `Wire`.
-/
namespace Keriox
variable {σ : Type}

/-- own members read where they occur; a repeated one is an error; `seen` are those already met (derived `visit_map`) -/
def ownWalk (rs : List (Bytes × (JVal → Res Unit))) : List (Bytes × JVal) → List Bytes → Res Unit
  | [], _ => .ok ()
  | (k, v) :: r, seen =>
    match rs.lookup k with
    | none => ownWalk rs r seen
    | some p =>
      if k ∈ seen then .err (.deserialize "duplicate field")
      else do
        p v
        ownWalk rs r (k :: seen)

/-- the members that are not own members -/
def others (rs : List (Bytes × (JVal → Res Unit))) (fs : List (Bytes × JVal)) : List (Bytes × JVal) :=
  fs.filter fun f => (rs.lookup f.1).isNone

/-- `DateTime<FixedOffset>::deserialize` of `chrono` -/
def desTime (time : Bytes → Option Timestamp) (v : JVal) : Res Timestamp := desText (fun s => Res.ofOption (time s) (.deserialize "time")) v

/-- the text of a route, `/repo/src/query/mod.rs:86-103`; the identifier of a reply route is unwrapped -/
def Route.fromStr (s : Bytes) : Res Route :=
  if b!"/ksn/".isPrefixOf s then
    match IdentifierPrefix.fromStr (s.drop 5) with
    | .ok id => .ok (.replyKsn id)
    | _ => .panic
  else if s = b!"ksn" then .ok .ksn
  else if s = b!"log" then .ok .log
  else .err (.deserialize "")

/-- `Option<T>`: null is none (a missing member too) -/
def desOption {α : Type} (p : JVal → Res α) (v : JVal) : Res (Option α) :=
  match v with
  | .null => .ok none
  | v => do
    let a ← p v
    .ok (some a)

/-- `EventTypeTag` with the `query` feature, event_message/mod.rs:26-39 -/
def tagOfQ (s : Bytes) : Res EventTypeTag :=
  if s = b!"rpy" then .ok .rpy
  else if s = b!"qry" then .ok .qry
  else tagOf s

/-- a unit variant, as `desTag` -/
def desTagQ (v : JVal) : Res EventTypeTag :=
  match v with
  | .str s => tagOfQ s
  | .obj [(k, .null)] => tagOfQ k
  | _ => .err (.deserialize "invalid type")

/-- readers of the types that occur -/
def desSA : JVal → Res SelfAddressingPrefix := desText SelfAddressingPrefix.fromStr
/-- identifiers -/
def desId : JVal → Res IdentifierPrefix := desText IdentifierPrefix.fromStr
/-- lists of keys -/
def desKeys : JVal → Res (List BasicPrefix) := desVec (desText BasicPrefix.fromStr)

/-- fields of `LastEstablishmentData`, state/mod.rs:10-18 -/
def estFields : List (Bytes × (JVal → Res Unit)) :=
  [(b!"s", tried desHex), (b!"d", tried desSA), (b!"br", tried desKeys), (b!"ba", tried desKeys)]

/-- `LastEstablishmentData`, state/mod.rs:10-18 (a plain struct) -/
def desLastEst (v : JVal) : Res LastEst := do
  let fs ← structFields estFields v
  ownWalk estFields fs []
  let s ← optField desHex b!"s" fs
  let d ← optField desSA b!"d" fs
  let br ← optField desKeys b!"br" fs
  let ba ← optField desKeys b!"ba" fs
  let s ← need s
  let d ← need d
  let br ← need br
  let ba ← need ba
  .ok ⟨s, d, br, ba⟩

/-- fields of `KeyConfig`, key_config.rs:11-21 -/
def configFields : List (Bytes × (JVal → Res Unit)) := [(b!"kt", tried desThreshold), (b!"k", tried desKeys), (b!"n", tried desNext)]

/-- `KeyConfig` flattened into the state: unlike in events (which go through `serde_json::Value`) repeated members are errors -/
def desKeyConfigQ (fs : List (Bytes × JVal)) : Res KeyConfig := do
  ownWalk configFields fs []
  desKeyConfig fs

/-- own fields of `IdentifierState`, state/mod.rs:23-53 -/
def stateFields : List (Bytes × (JVal → Res Unit)) :=
  [(b!"i", tried desId), (b!"s", tried desHex), (b!"d", tried desSA), (b!"p", tried (desOption desSA)), (b!"et", tried (desOption desTagQ)),
    (b!"bt", tried desHex), (b!"b", tried desKeys), (b!"di", tried (desOption desId)), (b!"ee", tried desLastEst)]

/-- `IdentifierState`, state/mod.rs:23-53 -/
def desState (fs : List (Bytes × JVal)) : Res IdState := do
  ownWalk stateFields fs []
  let i ← optField desId b!"i" fs
  let s ← optField desHex b!"s" fs
  let d ← optField desSA b!"d" fs
  let p ← optField (desOption desSA) b!"p" fs
  let et ← optField (desOption desTagQ) b!"et" fs
  let bt ← optField desHex b!"bt" fs
  let b ← optField desKeys b!"b" fs
  let di ← optField (desOption desId) b!"di" fs
  let ee ← optField desLastEst b!"ee" fs
  let i ← need i
  let s ← need s
  let d ← need d
  let bt ← need bt
  let b ← need b
  let ee ← need ee
  let kc ← desKeyConfigQ (others stateFields fs)
  .ok { «prefix» := i, sn := s, lastDigest := d, lastPrevious := p.join, lastType := et.join, current := kc, tally := bt, witnesses := b,
        delegator := di.join, lastEst := ee }

/-- own fields of `KeyStateNotice`, key_state_notice.rs:10-27 -/
def ksnFields (time : Bytes → Option Timestamp) : List (Bytes × (JVal → Res Unit)) :=
  [(b!"v", tried (desText SerInfo.fromStr)), (b!"f", tried desHex), (b!"dt", tried (desTime time)), (b!"c", tried (desVec (desText Res.ok)))]

/-- the members of a notice, key_state_notice.rs:10-27 -/
def desKsnMembers (time : Bytes → Option Timestamp) (fs : List (Bytes × JVal)) : Res Ksn := do
  ownWalk (ksnFields time) fs []
  let v ← optField (desText SerInfo.fromStr) b!"v" fs
  let f ← optField desHex b!"f" fs
  let dt ← optField (desTime time) b!"dt" fs
  let c ← optField (desVec (desText Res.ok)) b!"c" fs
  let v ← need v
  let f ← need f
  let dt ← need dt
  let c ← need c
  let st ← desState (others (ksnFields time) fs)
  .ok ⟨v, st, f, dt, c⟩

/-- `KeyStateNotice`, key_state_notice.rs:10-27 (a flattened struct: only an object) -/
def desKsn (time : Bytes → Option Timestamp) (v : JVal) : Res Ksn :=
  match v with
  | .obj fs => desKsnMembers time fs
  | _ => .err (.deserialize "invalid type")

/-- own fields of `Envelope`, query/mod.rs:22-32 -/
def envelopeFields (time : Bytes → Option Timestamp) : List (Bytes × (JVal → Res Unit)) :=
  [(b!"dt", tried (desTime time)), (b!"r", tried (desText Route.fromStr))]

/-- `SaidEvent<Envelope<D>>`, event_message/mod.rs:40-47, query/mod.rs:22-32 -/
def desEnvelope {α : Type} (time : Bytes → Option Timestamp) (data : List (Bytes × JVal) → Res α) (fs : List (Bytes × JVal)) :
    Res (SelfAddressingPrefix × Timestamp × Route × α) := do
  let dq ← ownField desSA b!"d" fs none
  let d ← need dq.1
  ownWalk (envelopeFields time) dq.2 []
  let t ← optField (desTime time) b!"dt" dq.2
  let r ← optField (desText Route.fromStr) b!"r" dq.2
  let t ← need t
  let r ← need r
  let a ← data (others (envelopeFields time) dq.2)
  .ok (d, t, r, a)

/-- `ReplyData`, query/reply.rs:18-22 -/
def desReplyData (time : Bytes → Option Timestamp) (fs : List (Bytes × JVal)) : Res Ksn := do
  ownWalk [(b!"a", tried (desKsn time))] fs []
  let a ← optField (desKsn time) b!"a" fs
  need a

/-- `QueryArgs`, query/query.rs:22-25 (a plain struct) -/
def desQueryArgs (v : JVal) : Res IdentifierPrefix := do
  let fs ← structFields [(b!"i", tried desId)] v
  ownWalk [(b!"i", tried desId)] fs []
  let i ← optField desId b!"i" fs
  need i

/-- `QueryData`, query/query.rs:13-20 -/
def desQueryData (fs : List (Bytes × JVal)) : Res (Bytes × IdentifierPrefix) := do
  ownWalk [(b!"rr", tried (desText Res.ok)), (b!"q", tried desQueryArgs)] fs []
  let rr ← optField (desText Res.ok) b!"rr" fs
  let q ← optField desQueryArgs b!"q" fs
  let rr ← need rr
  let q ← need q
  .ok (rr, q)

/-- `EventMessage<QueryEvent>`, query/query.rs:27 -/
structure QueryMsg where
  info : SerInfo
  digest : SelfAddressingPrefix
  timestamp : Timestamp
  route : Route
  replyRoute : Bytes
  id : IdentifierPrefix
  deriving DecidableEq, Repr

/-- the query with its signatures, query/query.rs:62-67 -/
def QueryMsg.signed (q : QueryMsg) (signer : IdentifierPrefix) (sigs : List AttachedSignaturePrefix) : SignedQuery :=
  ⟨q.info, q.digest, q.timestamp, q.route, q.replyRoute, q.id, signer, sigs⟩

/-- the readers of external crates: RFC 3339 timestamps (`chrono`) and the binary formats (`serde_cbor`, `rmp_serde`) -/
structure Readers extends Binary where
  time : Bytes → Option Timestamp
  reply : Bytes → IRes ReplyMsg
  query : Bytes → IRes QueryMsg

/-- `EventType` with the `query` feature, event_parsing/mod.rs:136-144 -/
inductive EventTypeQ where
  | plain (e : EventType)
  | reply (r : ReplyMsg)
  | query (q : QueryMsg)
  deriving DecidableEq, Repr

/-- the JSON reader of replies, message.rs:26-34, 66-71, 80-85 -/
def jsonReply (time : Bytes → Option Timestamp) (s : Bytes) : IRes ReplyMsg :=
  (jsonMessage (desEnvelope time (desReplyData time)) s).andThen fun r p => .ok r ⟨p.1, p.2.1, p.2.2.1, p.2.2.2.1, p.2.2.2.2⟩

/-- the JSON reader of queries, message.rs:26-34, 66-78 -/
def jsonQuery (time : Bytes → Option Timestamp) (s : Bytes) : IRes QueryMsg :=
  (jsonMessage (desEnvelope time desQueryData) s).andThen fun r p =>
    .ok r ⟨p.1, p.2.1, p.2.2.1, p.2.2.2.1, p.2.2.2.2.1, p.2.2.2.2.2⟩

/-- `reply_message`, message.rs:80-85 -/
def replyMessageP (rd : Readers) (s : Bytes) : IRes EventTypeQ :=
  (altP (jsonReply rd.time) rd.reply s).andThen fun r p => .ok r (.reply p)

/-- `query_message`, message.rs:73-78 -/
def queryMessageP (rd : Readers) (s : Bytes) : IRes EventTypeQ :=
  (altP (jsonQuery rd.time) rd.query s).andThen fun r p => .ok r (.query p)

/-- a parser of key events or receipts, among the four kinds -/
def plainP (p : Bytes → IRes EventType) (s : Bytes) : IRes EventTypeQ := (p s).andThen fun r e => .ok r (.plain e)

/-- the four kinds of messages in the order they are tried, message.rs:88-94 -/
def anyMessageP (rd : Readers) (s : Bytes) : IRes EventTypeQ :=
  altP (plainP (keyEventMessageP rd.toBinary)) (altP (replyMessageP rd) (altP (queryMessageP rd) (plainP (receiptMessageP rd.toBinary)))) s

/-- `SignedEventData` with the `query` feature, event_parsing/mod.rs:130-134 -/
structure SignedDataQ where
  event : EventTypeQ
  attachments : List Attachment

/-- `signed_message` with the `query` feature, message.rs:87-110 -/
def signedMessageQ (rd : Readers) (s : Bytes) : IRes SignedDataQ :=
  (anyMessageP rd s).andThen fun rest e => (many0P attachmentP (rest.length + 1) rest).andThen fun rest atts => .ok rest ⟨e, atts⟩

/-- `signed_event_stream`, message.rs:112-114 -/
def signedStreamQ (rd : Readers) (s : Bytes) : IRes (List SignedDataQ) := many0P (signedMessageQ rd) (s.length + 1) s

/-- `signed_reply`, event_parsing/mod.rs:246-279 (the last attachment; a frame is opened; `couplets[0]` panics on none).  The fuel bounds
the nesting of frames. -/
def signedReply : Nat → ReplyMsg → List Attachment → Res Message
  | 0, _, _ => .panic
  | n + 1, r, atts =>
    match atts.getLast? with
    | none => .err (.semantic "Missing attachment")
    | some (.receiptCouplets (c :: _)) => .ok (.reply ⟨r, .nonTransferable c.1 c.2⟩)
    | some (.receiptCouplets []) => .panic
    | some (.sealSignaturesGroups gs) =>
      match gs.getLast? with
      | some (sl, sigs) => .ok (.reply ⟨r, .transferable sl sigs⟩)
      | none => .err (.semantic "More than one seal")
    | some (.frame as) => signedReply n r as
    | some _ => .err (.semantic "Improper payload type")

/-- `signed_query`, event_parsing/mod.rs:281-307 (`groups[0]` panics on none) -/
def signedQuery : Nat → QueryMsg → List Attachment → Res Message
  | 0, _, _ => .panic
  | n + 1, q, atts =>
    match atts.getLast? with
    | none => .err (.semantic "Missing attachment")
    | some (.lastEstSignaturesGroups (g :: _)) => .ok (.query (q.signed g.1 g.2))
    | some (.lastEstSignaturesGroups []) => .panic
    | some (.frame as) => signedQuery n q as
    | some _ => .err (.semantic "Improper attachments for query message")

/-- `TryFrom<SignedEventData> for Message`, event_parsing/mod.rs:231-244 -/
def SignedDataQ.toMessage (d : SignedDataQ) : Res Message :=
  match d.event with
  | .plain e => (SignedEventData.mk e d.attachments).toMessage
  | .reply r => signedReply (Attachment.depths d.attachments + 2) r d.attachments
  | .query q => signedQuery (Attachment.depths d.attachments + 2) q d.attachments

/-- `From<SignedReply> for SignedEventData`, event_parsing/mod.rs:213-229 -/
def SignedReply.toData (r : SignedReply) : SignedDataQ :=
  ⟨.reply r.reply, [match r.signature with
    | .transferable sl sigs => .sealSignaturesGroups [(sl, sigs)]
    | .nonTransferable k s => .receiptCouplets [(k, s)]]⟩

/-- `EventType::serialize`, event_parsing/mod.rs:146-157 -/
def EventTypeQ.serialize (env : Env) : EventTypeQ → Res Bytes
  | .plain e => e.serialize env
  | .reply r => r.serialize env
  | .query q => (q.signed IdentifierPrefix.default []).serialize env

/-- `SignedEventData::to_cesr`, event_parsing/mod.rs:159-169 -/
def SignedDataQ.toCesr (env : Env) (d : SignedDataQ) : Res Bytes := do
  let atts ← Attachment.toCesrList d.attachments
  let b ← d.event.serialize env
  .ok (b ++ atts)

/-- one message of `respond`'s first pass with the `query` feature, keri/mod.rs:334-337 -/
def respondOneQ (o : Ops σ) (env : Env) (d : SignedDataQ) : StM σ Message := do
  let m ← StM.lift d.toMessage
  let _ ← process o env m
  pure m

/-- the messages that were processed without error, in order, keri/mod.rs:332-338 -/
def respondAllQ (o : Ops σ) (env : Env) : List SignedDataQ → StM σ (List Message)
  | [] => pure []
  | d :: ds => do
    let r ← (respondOneQ o env d).result
    let ms ← respondAllQ o env ds
    match r with
    | .ok m => pure (m :: ms)
    | .error _ => pure ms

/-- `respond` with the `query` feature, keri/mod.rs:327-373 -/
def Controller.respondQ (rd : Readers) (o : Ops σ) (env : Env) (sg : SignFn) (c : Controller) (msg : Bytes) : StM σ Bytes := do
  let ds ← StM.lift (parsed (signedStreamQ rd msg))
  let ms ← respondAllQ o env ds
  c.answers o env sg ms

end Keriox
