import Verif.Message
/-!
# Building events — `/repo/src/event_message/{mod,event_msg_builder}.rs`, `/repo/src/event/**`
-/
namespace Keriox

/-- `SaidEvent::<Event>::to_message`, `/repo/src/event_message/mod.rs:53-68` -/
def Event.saidMessage (env : Env) (e : Event) (f : Fmt) (c : SelfAddressing) : Res EventMessage := do
  let info ← dummyEventInfo env e f c
  let bytes ← f.encode env (dummyEventSval info c e)
  .ok ⟨info, ⟨env.derive c bytes, e⟩⟩

/-- `InceptionEvent::incept_self_addressing`, `/repo/src/event/event_data/inception.rs:55-72`, and
`DelegatedInceptionEvent::incept_self_addressing`, `/repo/src/event/event_data/delegated/mod.rs:30-47` (`d` is the
`icp` or `dip` data) -/
def inceptSelfAddressing (env : Env) (d : EventData) (c : SelfAddressing) (f : Fmt) : Res EventMessage := do
  let info ← dummyInceptionInfo env d c f
  let bytes ← f.encode env (dummyInceptionSval info c d)
  .ok ⟨info, ⟨env.derive c bytes, ⟨.selfAddressing (env.derive c bytes), 0, d⟩⟩⟩

/-- `Event::to_message`, `/repo/src/event/mod.rs:37-52` -/
def Event.toMessage (env : Env) (e : Event) (f : Fmt) (c : SelfAddressing) : Res EventMessage :=
  match e.prefix, e.data with
  | .selfAddressing _, .icp i => inceptSelfAddressing env (.icp i) c f
  | .selfAddressing _, .dip d => inceptSelfAddressing env (.dip d) c f
  | _, _ => e.saidMessage env f c

/-- `EventMsgBuilder`, `/repo/src/event_message/event_msg_builder.rs:29-46`; `new` fills in random keys (48-73), which the
model takes from the caller -/
structure Builder where
  type : EventTypeTag
  «prefix» : IdentifierPrefix
  sn : Nat
  threshold : Threshold
  nextThreshold : Threshold
  keys : List BasicPrefix
  nextKeys : List BasicPrefix
  prev : SelfAddressingPrefix
  data : List Seal
  delegator : IdentifierPrefix
  tally : Nat
  witnesses : List BasicPrefix
  add : List BasicPrefix
  remove : List BasicPrefix
  fmt : Fmt
  derivation : SelfAddressing

/-- `EventMsgBuilder::new`, event_msg_builder.rs:48-73 -/
def Builder.new (env : Env) (t : EventTypeTag) (k nk : BasicPrefix) : Builder :=
  ⟨t, IdentifierPrefix.default, 1, Threshold.default, Threshold.default, [k], [nk],
    env.derive .blake3_256 (List.replicate 32 0), [], IdentifierPrefix.default, 0, [], [], [], .json, .blake3_256⟩

/-- the key configuration of `build`, event_msg_builder.rs:149-151 -/
def Builder.keyConfig (env : Env) (b : Builder) : KeyConfig :=
  KeyConfig.new b.keys (some (KeyConfig.nxtCommitment env b.nextThreshold b.nextKeys b.derivation)) (some b.threshold)

/-- the prefix of `build`, event_msg_builder.rs:152-162 -/
def Builder.pre (env : Env) (b : Builder) : Res IdentifierPrefix :=
  if b.prefix = IdentifierPrefix.default then
    match b.keys with
    | [k] => .ok (.basic k)
    | _ => do
      let m ← inceptSelfAddressing env (.icp ⟨b.keyConfig env, 0, [], [], []⟩) b.derivation b.fmt
      .ok m.event.content.prefix
  else .ok b.prefix

/-- `EventMsgBuilder::build`, event_msg_builder.rs:148-235; `todo!()` panics -/
def Builder.build (env : Env) (b : Builder) : Res EventMessage := do
  let pre ← b.pre env
  match b.type with
  | .icp =>
    let icp : InceptionEvent := ⟨b.keyConfig env, b.tally, b.witnesses, [], []⟩
    match pre with
    | .basic _ => (Event.mk pre 0 (.icp icp)).toMessage env b.fmt b.derivation
    | .selfAddressing _ => inceptSelfAddressing env (.icp icp) b.derivation b.fmt
    | _ => .panic
  | .rot => (Event.mk pre b.sn (.rot ⟨b.prev, b.keyConfig env, b.tally, b.remove, b.add, b.data⟩)).toMessage env b.fmt b.derivation
  | .ixn => (Event.mk pre b.sn (.ixn ⟨b.prev, b.data⟩)).toMessage env b.fmt b.derivation
  | .dip => inceptSelfAddressing env (.dip ⟨⟨b.keyConfig env, 0, [], [], []⟩, b.delegator⟩) b.derivation b.fmt
  | .drt => (Event.mk pre b.sn (.drt ⟨b.prev, b.keyConfig env, 0, [], [], b.data⟩)).toMessage env b.fmt b.derivation
  | _ => .err (.semantic "Not key event")

/-- `Receipt::to_message`, `/repo/src/event/receipt.rs:33-47` -/
def ReceiptMsg.toMessage (env : Env) (d : SelfAddressingPrefix) (pre : IdentifierPrefix) (sn : Nat) (f : Fmt) : Res ReceiptMsg := do
  let b ← f.encode env (ReceiptMsg.mk (SerInfo.new f 0) d pre sn).sval
  .ok ⟨SerInfo.new f b.length, d, pre, sn⟩

/-- `ReceiptBuilder::build`, event_msg_builder.rs:270-281: the digest is that of the whole serialized event -/
def receiptFor (env : Env) (m : EventMessage) (f : Fmt) (c : SelfAddressing) : Res ReceiptMsg := do
  let bytes ← m.serialize env
  ReceiptMsg.toMessage env (env.derive c bytes) m.event.content.prefix m.event.content.sn f

end Keriox
