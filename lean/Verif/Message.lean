import Verif.Event
import Verif.Nom
/-!
# Receipts, replies, queries and the `Message` sum —
`/repo/src/event/receipt.rs`, `/repo/src/event_message/{signature,signed_event_message}.rs`, `/repo/src/query/*`
-/
namespace Keriox

/-- `SignedEventMessage::serialize`, `signed_event_message.rs:158-160` with `Serialize` 44-64: the
`KeriJsonSerializer` text of the event followed by its attached signatures -/
def SignedEvent.serialize (e : SignedEvent) : Res Bytes := do
  let cesr ← sigsToCesr e.sigs
  .ok (keriStruct [([], e.msg.sval), (b!"-", .str cesr)] [])

/-- `EventMessage<Receipt>`, `/repo/src/event/receipt.rs:14-31` -/
structure ReceiptMsg where
  info : SerInfo
  digest : SelfAddressingPrefix
  «prefix» : IdentifierPrefix
  sn : Nat
  deriving DecidableEq, Repr

/-- `Serialize for EventMessage<Receipt>`, `/repo/src/event_message/mod.rs:102-134`, receipt.rs:14-31 -/
def ReceiptMsg.sval (r : ReceiptMsg) : SVal :=
  .map [(b!"v", .str r.info.toStr), (b!"t", .str EventTypeTag.rct.toStr), (b!"d", .str r.digest.toStr),
    (b!"i", .str r.prefix.toStr), (b!"s", .str (hexStr r.sn))]

/-- `SignedNontransferableReceipt`, `signed_event_message.rs:205-209` -/
structure NtReceipt where
  body : ReceiptMsg
  couplets : List (BasicPrefix × SelfSigningPrefix)
  deriving DecidableEq, Repr

/-- `SignedTransferableReceipt`, `signed_event_message.rs:175-180` -/
structure TReceipt where
  body : ReceiptMsg
  validatorSeal : EventSeal
  sigs : List AttachedSignaturePrefix
  deriving DecidableEq, Repr

/-- `Route`, `/repo/src/query/mod.rs:66-71` -/
inductive Route where
  | log
  | ksn
  | replyKsn (id : IdentifierPrefix)
  deriving DecidableEq, Repr

/-- `Serialize for Route`, `/repo/src/query/mod.rs:73-84` -/
def Route.toStr : Route → Bytes
  | .log => b!"log"
  | .ksn => b!"ksn"
  | .replyKsn id => b!"/ksn/" ++ id.toStr

/-- `DateTime<FixedOffset>`: the instant in microseconds and the offset it is written with.
Simplification: microsecond resolution (the code writes microseconds). `PartialOrd`/`Eq` of `DateTime`
compare the instant only. -/
structure Timestamp where
  micros : Int
  offset : Int
  deriving DecidableEq, Repr

/-- `KeyStateNotice`, `/repo/src/query/key_state_notice.rs:10-27` -/
structure Ksn where
  info : SerInfo
  state : IdState
  firstSeen : Nat
  timestamp : Timestamp
  config : List Bytes
  deriving DecidableEq, Repr

/-- `Serialize for LastEstablishmentData`, `/repo/src/state/mod.rs:10-18` -/
def LastEst.sval (l : LastEst) : SVal :=
  .struct [(b!"s", .str (hexStr l.sn)), (b!"d", .str l.digest.toStr), (b!"br", keysSval l.br), (b!"ba", keysSval l.ba)]

/-- `Serialize for KeyStateNotice`, `/repo/src/query/key_state_notice.rs:29-63`; `n` is unwrapped (panics without a
next-key commitment), `s`, `f` and `bt` are written in decimal -/
def Ksn.sval (env : Env) (k : Ksn) : Res SVal := do
  let n ← Res.unwrap k.state.current.nextDigest
  .ok (.struct [
    (b!"v", .str k.info.toStr),
    (b!"i", .str k.state.prefix.toStr),
    (b!"s", .str (decStr k.state.sn)),
    (b!"p", match k.state.lastPrevious with | some p => .str p.toStr | none => .null),
    (b!"d", .str k.state.lastDigest.toStr),
    (b!"f", .str (decStr k.firstSeen)),
    (b!"dt", .str (env.timeText k.timestamp.micros k.timestamp.offset)),
    (b!"et", match k.state.lastType with | some t => .str t.toStr | none => .null),
    (b!"kt", k.state.current.threshold.sval),
    (b!"k", keysSval k.state.current.publicKeys),
    (b!"n", .str n.toStr),
    (b!"bt", .str (decStr k.state.tally)),
    (b!"b", keysSval k.state.witnesses),
    (b!"c", .seq (k.config.map .str)),
    (b!"ee", k.state.lastEst.sval),
    (b!"di", .str (match k.state.delegator with | some d => d.toStr | none => []))])

/-- `EventMessage<ReplyEvent>` = `EventMessage<SaidEvent<Envelope<ReplyData>>>`, `/repo/src/query/reply.rs:18-24`,
`/repo/src/query/mod.rs:22-32` -/
structure ReplyMsg where
  info : SerInfo
  digest : SelfAddressingPrefix
  timestamp : Timestamp
  route : Route
  ksn : Ksn
  deriving DecidableEq, Repr

/-- `Serialize` of the reply with a given version info and digest text: `/repo/src/event_message/mod.rs:102-134`,
dummy_event.rs:87-97, query/mod.rs:22-32 -/
def ReplyMsg.svalWith (env : Env) (info : SerInfo) (dig : Bytes) (r : ReplyMsg) : Res SVal := do
  let a ← r.ksn.sval env
  .ok (.map [(b!"v", .str info.toStr), (b!"t", .str EventTypeTag.rpy.toStr), (b!"d", .str dig),
    (b!"dt", .str (env.timeText r.timestamp.micros r.timestamp.offset)), (b!"r", .str r.route.toStr), (b!"a", a)])

/-- `EventMessage::serialize` of a reply, `/repo/src/event_message/mod.rs:202-204` -/
def ReplyMsg.serialize (env : Env) (r : ReplyMsg) : Res Bytes := do
  let v ← r.svalWith env r.info r.digest.toStr
  r.info.kind.encode env v

/-- `DummyEventMessage::dummy_event(reply).serialize()`, dummy_event.rs:100-132 -/
def ReplyMsg.dummyBytes (env : Env) (f : Fmt) (c : SelfAddressing) (r : ReplyMsg) : Res Bytes := do
  let v0 ← r.svalWith env (SerInfo.new f 0) (dummyPrefix c)
  let b ← f.encode env v0
  let v1 ← r.svalWith env (SerInfo.new f b.length) (dummyPrefix c)
  f.encode env v1

/-- `EventMessage<ReplyEvent>::check_digest`, `/repo/src/query/reply.rs:57-71` -/
def ReplyMsg.checkDigest (env : Env) (r : ReplyMsg) : Res Unit := do
  let d ← r.dummyBytes env r.info.kind r.digest.derivation
  if r.digest.verifyBinding env d then .ok () else .err .incorrectDigest

/-- `Signature`, `/repo/src/event_message/signature.rs:8-12` -/
inductive Signature where
  | transferable (sl : EventSeal) (sigs : List AttachedSignaturePrefix)
  | nonTransferable (key : BasicPrefix) (sig : SelfSigningPrefix)
  deriving DecidableEq, Repr

/-- `Signature::get_signer`, `/repo/src/event_message/signature.rs:14-21` -/
def Signature.signer : Signature → IdentifierPrefix
  | .transferable sl _ => sl.prefix
  | .nonTransferable k _ => .basic k

/-- `SignedReply`, `/repo/src/query/reply.rs:80-84` -/
structure SignedReply where
  reply : ReplyMsg
  signature : Signature
  deriving DecidableEq, Repr

/-- `ReplyEvent::get_prefix`, `/repo/src/query/reply.rs:42-44`: the subject of the notice -/
abbrev SignedReply.pre (r : SignedReply) : IdentifierPrefix := r.reply.ksn.state.prefix

/-- `SignedQuery` with its `QueryEvent`, `/repo/src/query/query.rs:14-27, 62-67` -/
structure SignedQuery where
  info : SerInfo
  digest : SelfAddressingPrefix
  timestamp : Timestamp
  route : Route
  replyRoute : Bytes
  id : IdentifierPrefix
  signer : IdentifierPrefix
  sigs : List AttachedSignaturePrefix
  deriving DecidableEq, Repr

/-- `EventMessage<QueryEvent>::serialize`, `/repo/src/event_message/mod.rs:102-134`, query.rs:14-27 -/
def SignedQuery.serialize (env : Env) (q : SignedQuery) : Res Bytes :=
  q.info.kind.encode env (.map [(b!"v", .str q.info.toStr), (b!"t", .str EventTypeTag.qry.toStr),
    (b!"d", .str q.digest.toStr), (b!"dt", .str (env.timeText q.timestamp.micros q.timestamp.offset)),
    (b!"r", .str q.route.toStr), (b!"rr", .str q.replyRoute), (b!"q", .struct [(b!"i", .str q.id.toStr)])])

/-- `Message`, `signed_event_message.rs:21-32` -/
inductive Message where
  | event (e : SignedEvent)
  | rctNt (r : NtReceipt)
  | rctT (r : TReceipt)
  | reply (r : SignedReply)
  | query (q : SignedQuery)
  deriving DecidableEq, Repr

end Keriox
