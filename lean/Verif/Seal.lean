import Verif.Prefix
/-!
# Seals — `/repo/src/event/sections/seal.rs`
-/
namespace Keriox

/-- `EventSeal`, seal.rs:27-37 -/
structure EventSeal where
  «prefix» : IdentifierPrefix
  sn : Nat
  eventDigest : SelfAddressingPrefix
  deriving DecidableEq, Repr

/-- `LocationSeal`, seal.rs:39-52; the `ilk` string is UTF-8 bytes -/
structure LocationSeal where
  «prefix» : IdentifierPrefix
  sn : Nat
  ilk : Bytes
  priorDigest : SelfAddressingPrefix
  deriving DecidableEq, Repr

/-- `Seal`, seal.rs:5-25 (`DigestSeal` and `RootSeal` have one field each) -/
inductive Seal where
  | location (s : LocationSeal)
  | event (s : EventSeal)
  | digest (dig : SelfAddressingPrefix)
  | root (treeRoot : SelfAddressingPrefix)
  deriving DecidableEq, Repr

/-- `SourceSeal`, seal.rs:63-73 -/
structure SourceSeal where
  sn : Nat
  digest : SelfAddressingPrefix
  deriving DecidableEq, Repr

end Keriox
