import Verif.Processor
/-!
# Timestamped events — `/repo/src/event_message/mod.rs:133-197`, `/repo/src/event_message/signed_event_message.rs:66-145`
-/
namespace Keriox

/-- `TimestampedEventMessage`, event_message/mod.rs:133-137; the time is a number of nanoseconds.  `derive(PartialEq)` compares both members. -/
structure StampedEvent where
  timestamp : Int
  msg : EventMessage
  deriving DecidableEq

/-- `TimestampedSignedEventMessage`, signed_event_message.rs:72-76 -/
structure StampedSigned where
  timestamp : Int
  event : SignedEvent

/-- `From<EventMessage<KeyEvent>> for TimestampedEventMessage`, event_message/mod.rs:140-146, 189-194; the clock reading is an argument -/
def StampedEvent.ofMsg (now : Int) (m : EventMessage) : StampedEvent := ⟨now, m⟩
/-- `From<SignedEventMessage> for TimestampedSignedEventMessage`, signed_event_message.rs:78-103 -/
def StampedSigned.ofEvent (now : Int) (e : SignedEvent) : StampedSigned := ⟨now, e⟩

/-- comparison of two sequence numbers as in `cmp` and `partial_cmp`: equal, else greater, else less -/
def cmpSn (a b : Nat) : Ordering := if a = b then .eq else if a > b then .gt else .lt

/-- `Ord for TimestampedEventMessage`, event_message/mod.rs:165-175 -/
def StampedEvent.cmp (a b : StampedEvent) : Ordering := cmpSn a.msg.event.content.sn b.msg.event.content.sn
/-- `PartialOrd for TimestampedEventMessage`, event_message/mod.rs:148-163 -/
def StampedEvent.partialCmp (a b : StampedEvent) : Option Ordering := some (cmpSn a.msg.event.content.sn b.msg.event.content.sn)
/-- `PartialEq for SignedEventMessage` and for `TimestampedSignedEventMessage`, signed_event_message.rs:66-70, 105-109: neither the time nor
the source seal is compared -/
def StampedSigned.eq (a b : StampedSigned) : Bool := a.event.same b.event
/-- `Ord for TimestampedSignedEventMessage`, signed_event_message.rs:130-145 -/
def StampedSigned.cmp (a b : StampedSigned) : Ordering := cmpSn a.event.sn b.event.sn
/-- `PartialOrd for TimestampedSignedEventMessage`, signed_event_message.rs:111-128 -/
def StampedSigned.partialCmp (a b : StampedSigned) : Option Ordering := some (cmpSn a.event.sn b.event.sn)

end Keriox
