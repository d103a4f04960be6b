import Verif.Refine
import Verif.Props.KeyCfg
/-!
# Specification vocabulary for key event logs

Small definitions, independent of the processor, in which the properties are stated.
-/
namespace Keriox

/-- inception or delegated inception -/
def EventData.isInception : EventData → Bool
  | .icp _ => true
  | .dip _ => true
  | _ => false

/-- the prior-event digest an event names -/
def EventData.previous? : EventData → Option SelfAddressingPrefix
  | .rot e => some e.previous
  | .ixn e => some e.previous
  | .drt e => some e.previous
  | _ => none

/-- the rotation content of a plain or delegated rotation -/
def EventData.rotation? : EventData → Option RotationEvent
  | .rot e => some e
  | .drt e => some e
  | _ => none

/-- an event of one of the four kinds that set keys -/
def EventData.isEstablishment (d : EventData) : Bool := d.keyConfig?.isSome

/-- the key configuration in force after a log: that of its last establishment event -/
def keysInForce : List SignedEvent → Option KeyConfig
  | [] => none
  | e :: es => (keysInForce es).or e.data.keyConfig?

/-- the last establishment event of a log -/
def lastEstablishment : List SignedEvent → Option SignedEvent
  | [] => none
  | e :: es => (lastEstablishment es).or (if e.data.isEstablishment then some e else none)

/-- `sigs` is a valid signature set of `bytes` for the configuration `kc`: pairwise distinct indices, each signature
valid for the key it indexes, and the threshold met -/
structure ValidSigs (env : Env) (kc : KeyConfig) (bytes : Bytes) (sigs : List AttachedSignaturePrefix) : Prop where
  distinct : (sigs.map (·.index)).Nodup
  valid : ∀ s ∈ sigs, ∃ k, kc.publicKeys[s.index]? = some k ∧ SigValid env k bytes s.signature
  threshold : kc.threshold.MetBy sigs

/-- event `i` of the log is signed with the keys in force once it is applied -/
def SignedInForce (env : Env) (l : List SignedEvent) (i : Nat) : Prop :=
  ∃ e kc bytes, l[i]? = some e ∧ keysInForce (l.take (i + 1)) = some kc ∧ e.msg.serialize env = .ok bytes ∧
    ValidSigs env kc bytes e.sigs

/-- the events of a log stored for an identifier (absent and empty are both "no events") -/
def Db.kel (db : Db) (id : IdentifierPrefix) : List SignedEvent := (db.vec .kels id.toStr).getD []

/-- every text of every event of the log parses back, i.e. the log can be read back from the database -/
def Readable (l : List SignedEvent) : Prop := ∀ e ∈ l, e.rt = true

/-- the key state described by a log: its events applied in order to the empty state -/
def stateAfter (env : Env) (l : List SignedEvent) : Res IdState :=
  l.foldlM (fun s e => e.msg.applyTo env s) IdState.default

/-- witnesses an event adds -/
def EventData.added : EventData → List BasicPrefix
  | .icp e => e.initialWitnesses
  | .dip e => e.inception.initialWitnesses
  | .rot e => e.graft
  | .drt e => e.graft
  | .ixn _ => []

/-- witnesses an event cuts -/
def EventData.cut : EventData → List BasicPrefix
  | .rot e => e.prune
  | .drt e => e.prune
  | _ => []

/-- the delegator named by a delegated inception -/
def EventData.delegator? : EventData → Option IdentifierPrefix
  | .dip e => some e.delegator
  | _ => none

/-- the seals an event carries -/
def EventData.seals : EventData → List Seal
  | .icp e => e.data
  | .rot e => e.data
  | .ixn e => e.data
  | .dip e => e.inception.data
  | .drt e => e.data

/-- `d` names the event message: it is its digest field or, under another algorithm, the digest of its content -/
def NamesEvent (env : Env) (m : EventMessage) (d : SelfAddressingPrefix) : Prop :=
  m.event.digest = d ∨
  (m.event.digest.derivation ≠ d.derivation ∧ ∃ data, m.toDerivationData env = .ok data ∧ d.verifyBinding env data = true)

/-- event `n` of the log carries an event seal whose digest names `m` -/
def AnchoredAt (env : Env) (l : List SignedEvent) (n : Nat) (m : EventMessage) : Prop :=
  ∃ a es, l[n]? = some a ∧ a.data.isInception = false ∧ .event es ∈ a.data.seals ∧ NamesEvent env m es.eventDigest

/-- a delegated inception or rotation -/
def EventData.isDelegated : EventData → Bool
  | .dip _ => true
  | .drt _ => true
  | _ => false

end Keriox
