import Verif.KeyConfig
/-!
# Key events, key event messages and identifier state —
`/repo/src/event/**`, `/repo/src/event_message/{mod,key_event_message,dummy_event,signed_event_message}.rs`, `/repo/src/state/mod.rs`
-/
namespace Keriox

/-- `EventTypeTag`, `/repo/src/event_message/mod.rs:26-39` -/
inductive EventTypeTag where
  | icp | rot | ixn | dip | drt | rct | rpy | qry
  deriving DecidableEq, Repr

/-- serde `rename_all = "lowercase"` of the tags, `/repo/src/event_message/mod.rs:27` -/
def EventTypeTag.toStr : EventTypeTag → Bytes
  | .icp => b!"icp" | .rot => b!"rot" | .ixn => b!"ixn" | .dip => b!"dip" | .drt => b!"drt"
  | .rct => b!"rct" | .rpy => b!"rpy" | .qry => b!"qry"

/-- `InceptionEvent` with its `InceptionWitnessConfig`, `/repo/src/event/event_data/inception.rs:19-34`,
`/repo/src/event/sections/mod.rs:22-29`; configuration strings are UTF-8 bytes -/
structure InceptionEvent where
  keyConfig : KeyConfig
  tally : Nat
  initialWitnesses : List BasicPrefix
  config : List Bytes
  data : List Seal
  deriving DecidableEq, Repr

/-- `RotationEvent` with its `WitnessConfig`, `/repo/src/event/event_data/rotation.rs:12-25`,
`/repo/src/event/sections/mod.rs:10-20` -/
structure RotationEvent where
  previous : SelfAddressingPrefix
  keyConfig : KeyConfig
  tally : Nat
  prune : List BasicPrefix
  graft : List BasicPrefix
  data : List Seal
  deriving DecidableEq, Repr

/-- `InteractionEvent`, `/repo/src/event/event_data/interaction.rs:7-14` -/
structure InteractionEvent where
  previous : SelfAddressingPrefix
  data : List Seal
  deriving DecidableEq, Repr

/-- `DelegatedInceptionEvent`, `/repo/src/event/event_data/delegated/mod.rs:15-22` -/
structure DelegatedInceptionEvent where
  inception : InceptionEvent
  delegator : IdentifierPrefix
  deriving DecidableEq, Repr

/-- `EventData`, `/repo/src/event/event_data/mod.rs:21-30` -/
inductive EventData where
  | icp (e : InceptionEvent)
  | rot (e : RotationEvent)
  | ixn (e : InteractionEvent)
  | dip (e : DelegatedInceptionEvent)
  | drt (e : RotationEvent)
  deriving DecidableEq, Repr

/-- `From<&EventData> for EventTypeTag`, `/repo/src/state/mod.rs:64-74` -/
def EventData.type : EventData → EventTypeTag
  | .icp _ => .icp
  | .rot _ => .rot
  | .ixn _ => .ixn
  | .dip _ => .dip
  | .drt _ => .drt

/-- `Event`, `/repo/src/event/mod.rs:15-25` -/
structure Event where
  «prefix» : IdentifierPrefix
  sn : Nat
  data : EventData
  deriving DecidableEq, Repr

/-- `SaidEvent<Event>` = `KeyEvent`, `/repo/src/event_message/mod.rs:40-47`, `key_event_message.rs:14` -/
structure KeyEvent where
  digest : SelfAddressingPrefix
  content : Event
  deriving DecidableEq, Repr

/-- `EventMessage<KeyEvent>`, `/repo/src/event_message/mod.rs:84-94` -/
structure EventMessage where
  info : SerInfo
  event : KeyEvent
  deriving DecidableEq, Repr

/-- `SignedEventMessage`, `/repo/src/event_message/signed_event_message.rs:34-42` -/
structure SignedEvent where
  msg : EventMessage
  sigs : List AttachedSignaturePrefix
  delegatorSeal : Option SourceSeal
  deriving DecidableEq, Repr

/-- `PartialEq for SignedEventMessage` (and for the timestamped wrapper),
`signed_event_message.rs:66-70, 104-108`: the delegator seal and the timestamp are ignored -/
def SignedEvent.same (a b : SignedEvent) : Bool := a.msg = b.msg && a.sigs = b.sigs

/-- `LastEstablishmentData`, `/repo/src/state/mod.rs:10-18` -/
structure LastEst where
  sn : Nat
  digest : SelfAddressingPrefix
  br : List BasicPrefix
  ba : List BasicPrefix
  deriving DecidableEq, Repr

/-- `IdentifierState`, `/repo/src/state/mod.rs:23-53` -/
structure IdState where
  «prefix» : IdentifierPrefix
  sn : Nat
  lastDigest : SelfAddressingPrefix
  lastPrevious : Option SelfAddressingPrefix
  lastType : Option EventTypeTag
  current : KeyConfig
  tally : Nat
  witnesses : List BasicPrefix
  delegator : Option IdentifierPrefix
  lastEst : LastEst
  deriving DecidableEq, Repr

/-- `IdentifierState::default()` (derived) -/
def IdState.default : IdState :=
  ⟨IdentifierPrefix.default, 0, SelfAddressingPrefix.default, none, none, KeyConfig.default, 0, [], none,
    ⟨0, SelfAddressingPrefix.default, [], []⟩⟩

/-- The key state carried by an identifier: everything in `IdentifierState`. -/
abbrev EventSemantics := IdState → Res IdState

/-! ## Serialization -/

/-- `Serialize for Seal`, `/repo/src/event/sections/seal.rs:5-52` (untagged) -/
def Seal.sval : Seal → SVal
  | .location s => .struct [(b!"i", .str s.prefix.toStr), (b!"s", .str (hexStr s.sn)), (b!"t", .str s.ilk),
      (b!"p", .str s.priorDigest.toStr)]
  | .event s => .struct [(b!"i", .str s.prefix.toStr), (b!"s", .str (hexStr s.sn)), (b!"d", .str s.eventDigest.toStr)]
  | .digest d => .struct [(b!"d", .str d.toStr)]
  | .root r => .struct [(b!"rd", .str r.toStr)]

/-- a list of prefixes as a sequence of strings -/
def keysSval (ks : List BasicPrefix) : SVal := .seq (ks.map fun k => .str k.toStr)

/-- `Serialize for InceptionEvent`, `/repo/src/event/event_data/inception.rs:19-34` -/
def InceptionEvent.fields (e : InceptionEvent) : List (Bytes × SVal) :=
  e.keyConfig.fields ++
  [(b!"bt", .str (hexStr e.tally)), (b!"b", keysSval e.initialWitnesses),
   (b!"c", .seq (e.config.map .str)), (b!"a", .seq (e.data.map Seal.sval))]

/-- `Serialize for RotationEvent`, `/repo/src/event/event_data/rotation.rs:12-25` -/
def RotationEvent.fields (e : RotationEvent) : List (Bytes × SVal) :=
  [(b!"p", .str e.previous.toStr)] ++ e.keyConfig.fields ++
  [(b!"bt", .str (hexStr e.tally)), (b!"br", keysSval e.prune), (b!"ba", keysSval e.graft),
   (b!"a", .seq (e.data.map Seal.sval))]

/-- `Serialize for InteractionEvent`, `/repo/src/event/event_data/interaction.rs:7-14` -/
def InteractionEvent.fields (e : InteractionEvent) : List (Bytes × SVal) :=
  [(b!"p", .str e.previous.toStr), (b!"a", .seq (e.data.map Seal.sval))]

/-- `Serialize for EventData` (untagged), `/repo/src/event/event_data/mod.rs:21-30` -/
def EventData.fields : EventData → List (Bytes × SVal)
  | .icp e => e.fields
  | .rot e => e.fields
  | .ixn e => e.fields
  | .dip e => e.inception.fields ++ [(b!"di", .str e.delegator.toStr)]
  | .drt e => e.fields

/-- `Serialize for Event`, `/repo/src/event/mod.rs:15-25` -/
def Event.fields (e : Event) : List (Bytes × SVal) :=
  [(b!"i", .str e.prefix.toStr), (b!"s", .str (hexStr e.sn))] ++ e.data.fields

/-- `Serialize for EventMessage`, `/repo/src/event_message/mod.rs:102-134` -/
def EventMessage.sval (m : EventMessage) : SVal :=
  .map ([(b!"v", .str m.info.toStr), (b!"t", .str m.event.content.data.type.toStr),
    (b!"d", .str m.event.digest.toStr)] ++ m.event.content.fields)

/-- `EventMessage::serialize`, `/repo/src/event_message/mod.rs` (`serialization_info.kind.encode(self)`) -/
def EventMessage.serialize (env : Env) (m : EventMessage) : Res Bytes := m.info.kind.encode env m.sval

/-- `dummy_prefix`, `/repo/src/event_message/dummy_event.rs:14-16` -/
def dummyPrefix (c : SelfAddressing) : Bytes := List.replicate (c.codeLen + c.b64Len) 35

/-- `Serialize for DummyInceptionEvent`, `/repo/src/event_message/dummy_event.rs:21-36` -/
def dummyInceptionSval (info : SerInfo) (c : SelfAddressing) (d : EventData) : SVal :=
  .map ([(b!"v", .str info.toStr), (b!"t", .str d.type.toStr), (b!"d", .str (dummyPrefix c)),
    (b!"i", .str (dummyPrefix c)), (b!"s", .str b!"0")] ++ d.fields)

/-- `DummyInceptionEvent::derive_data`, `/repo/src/event_message/dummy_event.rs:54-80`: the serialization info -/
def dummyInceptionInfo (env : Env) (d : EventData) (c : SelfAddressing) (f : Fmt) : Res SerInfo := do
  let b ← f.encode env (dummyInceptionSval (SerInfo.new f 0) c d)
  .ok (SerInfo.new f b.length)

/-- the bytes of the dummy inception event, `dummy_event.rs:39-84` -/
def dummyInceptionBytes (env : Env) (d : EventData) (c : SelfAddressing) (f : Fmt) : Res Bytes := do
  let info ← dummyInceptionInfo env d c f
  info.kind.encode env (dummyInceptionSval info c d)

/-- `Serialize for DummyEventMessage<Event>`, `/repo/src/event_message/dummy_event.rs:87-97` -/
def dummyEventSval (info : SerInfo) (c : SelfAddressing) (e : Event) : SVal :=
  .map ([(b!"v", .str info.toStr), (b!"t", .str e.data.type.toStr), (b!"d", .str (dummyPrefix c))] ++ e.fields)

/-- `DummyEventMessage::dummy_event` + `get_size`, `/repo/src/event_message/dummy_event.rs:100-128` -/
def dummyEventInfo (env : Env) (e : Event) (f : Fmt) (c : SelfAddressing) : Res SerInfo := do
  let b ← f.encode env (dummyEventSval (SerInfo.new f 0) c e)
  .ok (SerInfo.new f b.length)

/-- `EventMessage::to_derivation_data`, `/repo/src/event_message/key_event_message.rs:63-82` -/
def EventMessage.toDerivationData (env : Env) (m : EventMessage) : Res Bytes :=
  match m.event.content.data with
  | .icp e => dummyInceptionBytes env (.icp e) m.event.digest.derivation m.info.kind
  | .dip e => dummyInceptionBytes env (.dip e) m.event.digest.derivation m.info.kind
  | _ => m.info.kind.encode env (dummyEventSval m.info m.event.digest.derivation m.event.content)

/-- `EventMessage::check_digest`, `/repo/src/event_message/key_event_message.rs:54-61` -/
def EventMessage.checkDigest (env : Env) (m : EventMessage) (sai : SelfAddressingPrefix) : Res Bool :=
  if m.event.digest.derivation = sai.derivation then .ok (m.event.digest = sai)
  else do
    let d ← m.toDerivationData env
    .ok (sai.verifyBinding env d)

/-! ## Semantics -/

/-- `InceptionEvent::apply_to`, `/repo/src/event/event_data/inception.rs:75-91` -/
def InceptionEvent.applyTo (e : InceptionEvent) (s : IdState) : IdState :=
  { s with
    current := e.keyConfig
    witnesses := e.initialWitnesses
    tally := e.tally
    lastEst := ⟨s.sn, s.lastDigest, [], []⟩ }

/-- witness list after a rotation, `/repo/src/event/event_data/rotation.rs:31-42` -/
def rotateWitnesses (ws prune graft : List BasicPrefix) : List BasicPrefix :=
  if !prune.isEmpty || !graft.isEmpty then (ws.filter fun w => !prune.contains w) ++ graft else ws

/-- `RotationEvent::apply_to`, `/repo/src/event/event_data/rotation.rs:27-60` -/
def RotationEvent.applyTo (env : Env) (e : RotationEvent) (s : IdState) : Res IdState :=
  if s.current.verifyNext env e.keyConfig then
    .ok { s with
      current := e.keyConfig
      tally := e.tally
      witnesses := rotateWitnesses s.witnesses e.prune e.graft
      lastEst := ⟨s.sn, s.lastDigest, e.graft, e.prune⟩ }
  else .err (.semantic "Incorrect Key Config binding")

/-- `EventData::apply_to`, `/repo/src/event/event_data/mod.rs:67-77`, interaction.rs:25-29, delegated/mod.rs:50-57 -/
def EventData.applyTo (env : Env) (d : EventData) (s : IdState) : Res IdState :=
  match d with
  | .icp e => .ok (e.applyTo s)
  | .rot e => e.applyTo env s
  | .ixn _ => .ok s
  | .dip e => .ok { e.inception.applyTo s with delegator := some e.delegator }
  | .drt e => e.applyTo env s

/-- `Event::apply_to`, `/repo/src/event/mod.rs:59-90` -/
def Event.applyTo (env : Env) (e : Event) (s : IdState) : Res IdState :=
  match e.data with
  | .icp _ | .dip _ =>
    if s.prefix ≠ IdentifierPrefix.default then .err .eventDuplicate
    else if e.sn ≠ 0 then .err (.semantic "SN is not correct")
    else e.data.applyTo env { s with sn := e.sn, «prefix» := e.prefix }
  | _ =>
    if e.prefix ≠ s.prefix then .err (.semantic "Prefix does not match")
    else if e.sn < s.sn + 1 then .err .eventDuplicate
    else if s.sn + 1 < e.sn then .err .eventOutOfOrder
    else e.data.applyTo env { s with sn := e.sn, «prefix» := e.prefix }

/-- `verify_identifier_binding`, `/repo/src/event_message/key_event_message.rs:167-184`; `todo!()` panics -/
def verifyIdentifierBinding (env : Env) (m : EventMessage) : Res Bool :=
  match m.event.content.data with
  | .icp e =>
    match m.event.content.prefix with
    | .basic bp => .ok (e.keyConfig.publicKeys = [bp])
    | .selfAddressing sap => do
      let b ← m.checkDigest env sap
      .ok (b && m.event.digest = sap)
    | .selfSigning _ => .panic
  | .dip _ =>
    match m.event.content.prefix with
    | .selfAddressing sap => m.checkDigest env sap
    | _ => .panic
  | _ => .err (.semantic "Not an ICP or DIP event")

/-- the `check_event_digest` closure, `/repo/src/event_message/key_event_message.rs:86-90` -/
def checkEventDigest (env : Env) (m : EventMessage) : Res Unit := do
  let b ← m.checkDigest env m.event.digest
  if b then .ok () else .err .incorrectDigest

/-- the chaining step shared by the rotation and interaction branches, key_event_message.rs:117-129,134-152,155-166 -/
def chain (m : EventMessage) (prev : SelfAddressingPrefix) (s next : IdState) : Res IdState :=
  if prev = s.lastDigest then .ok { next with lastDigest := m.event.digest }
  else .err (.semantic "Last event does not match previous event")

/-- `EventMessage<KeyEvent>::apply_to`, `/repo/src/event_message/key_event_message.rs:85-165` -/
def EventMessage.applyTo (env : Env) (m : EventMessage) (s : IdState) : Res IdState :=
  match m.event.content.data with
  | .icp _ | .dip _ => do
    let b ← verifyIdentifierBinding env m
    if b then m.event.content.applyTo env { s with lastDigest := m.event.digest }
    else .err (.semantic "Invalid Identifier Prefix Binding")
  | .rot r => do
    checkEventDigest env m
    if s.delegator.isSome then .err (.semantic "Applying non-delegated rotation to delegated state.")
    else do
      let next ← m.event.content.applyTo env s
      chain m r.previous s next
  | .drt r => do
    let next ← m.event.content.applyTo env s
    checkEventDigest env m
    if s.delegator.isNone then .err (.semantic "Applying delegated rotation to non-delegated state.")
    else chain m r.previous s next
  | .ixn i => do
    checkEventDigest env m
    let next ← m.event.content.applyTo env s
    chain m i.previous s next

/-- `SignedEventMessage::apply_to`, `signed_event_message.rs:173-177` -/
def SignedEvent.applyTo (env : Env) (e : SignedEvent) (s : IdState) : Res IdState := e.msg.applyTo env s

/-! ## Accessors -/
/-- identifier of an event (`get_prefix`) -/
abbrev SignedEvent.pre (e : SignedEvent) : IdentifierPrefix := e.msg.event.content.prefix
/-- sequence number of an event (`get_sn`) -/
abbrev SignedEvent.sn (e : SignedEvent) : Nat := e.msg.event.content.sn
/-- claimed digest of an event (`get_digest`) -/
abbrev SignedEvent.dig (e : SignedEvent) : SelfAddressingPrefix := e.msg.event.digest
/-- event data (`get_event_data`) -/
abbrev SignedEvent.data (e : SignedEvent) : EventData := e.msg.event.content.data

end Keriox
