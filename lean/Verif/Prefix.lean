import Verif.Codes
/-!
# Prefixes and their text form — `/repo/src/prefix/*`
-/
namespace Keriox

/-- `/repo/src/prefix/basic.rs` `BasicPrefix` (key bytes are `keys::PublicKey`). -/
structure BasicPrefix where
  derivation : Basic
  publicKey : Bytes
  deriving DecidableEq, Repr

/-- `/repo/src/prefix/self_addressing.rs` -/
structure SelfAddressingPrefix where
  derivation : SelfAddressing
  digest : Bytes
  deriving DecidableEq, Repr

/-- `/repo/src/prefix/self_signing.rs` -/
structure SelfSigningPrefix where
  derivation : SelfSigning
  signature : Bytes
  deriving DecidableEq, Repr

/-- `/repo/src/prefix/attached_signature.rs` -/
structure AttachedSignaturePrefix where
  index : Nat
  signature : SelfSigningPrefix
  deriving DecidableEq, Repr

/-- `/repo/src/prefix/mod.rs:36-41` -/
inductive IdentifierPrefix where
  | basic (p : BasicPrefix)
  | selfAddressing (p : SelfAddressingPrefix)
  | selfSigning (p : SelfSigningPrefix)
  deriving DecidableEq, Repr

/-- `/repo/src/prefix/self_addressing.rs` `Default` -/
def SelfAddressingPrefix.default : SelfAddressingPrefix := ⟨.blake3_256, []⟩
/-- `/repo/src/prefix/mod.rs:96-100` -/
def IdentifierPrefix.default : IdentifierPrefix := .selfAddressing SelfAddressingPrefix.default

/-- `Prefix::to_str`, `/repo/src/prefix/mod.rs:21-34` -/
def prefixText (code derivative : Bytes) : Bytes :=
  if derivative.length = 0 then [] else code ++ b64Encode derivative

def BasicPrefix.toStr (p : BasicPrefix) : Bytes := prefixText p.derivation.toStr p.publicKey
def SelfAddressingPrefix.toStr (p : SelfAddressingPrefix) : Bytes := prefixText p.derivation.toStr p.digest
def SelfSigningPrefix.toStr (p : SelfSigningPrefix) : Bytes := prefixText p.derivation.toStr p.signature
/-- `/repo/src/prefix/attached_signature.rs` `derivation_code` -/
def AttachedSignaturePrefix.toStr (p : AttachedSignaturePrefix) : Bytes :=
  prefixText (p.signature.derivation.attToStr p.index) p.signature.signature
/-- `/repo/src/prefix/mod.rs:57-72` -/
def IdentifierPrefix.toStr : IdentifierPrefix → Bytes
  | .basic p => p.toStr
  | .selfAddressing p => p.toStr
  | .selfSigning p => p.toStr

/-- The common tail of every `from_str` in `/repo/src/prefix`: check the length, decode the part after the code.
(The slice bounds are within the string and on char boundaries there: the code is ASCII and the end is the length.) -/
def decodeBody (s : Bytes) (codeLen prefixLen : Nat) : Res Bytes :=
  if s.length = prefixLen then
    do
      let body ← strSlice s codeLen prefixLen
      Res.ofOption (b64Decode body) .base64Decoding
  else .err (.semantic "Incorrect Prefix Length")

/-- `/repo/src/prefix/basic.rs` `FromStr` -/
def BasicPrefix.fromStr (s : Bytes) : Res BasicPrefix := do
  let code ← Basic.fromStr s
  let k ← decodeBody s code.codeLen code.prefixLen
  .ok ⟨code, k⟩

/-- `/repo/src/prefix/self_addressing.rs` `FromStr` -/
def SelfAddressingPrefix.fromStr (s : Bytes) : Res SelfAddressingPrefix := do
  let code ← SelfAddressing.fromStr s
  let k ← decodeBody s code.codeLen code.prefixLen
  .ok ⟨code, k⟩

/-- `/repo/src/prefix/self_signing.rs` `FromStr` -/
def SelfSigningPrefix.fromStr (s : Bytes) : Res SelfSigningPrefix := do
  let code ← SelfSigning.fromStr s
  let k ← decodeBody s code.codeLen code.prefixLen
  .ok ⟨code, k⟩

/-- `/repo/src/prefix/attached_signature.rs` `FromStr` -/
def AttachedSignaturePrefix.fromStr (s : Bytes) : Res AttachedSignaturePrefix := do
  let (code, index) ← SelfSigning.attFromStr s
  let k ← decodeBody s code.attCodeLen (code.attCodeLen + code.b64Len)
  .ok ⟨index, ⟨code, k⟩⟩

/-- `/repo/src/prefix/mod.rs:43-55`: basic, then self-addressing, then self-signing; a panic propagates. -/
def IdentifierPrefix.fromStr (s : Bytes) : Res IdentifierPrefix :=
  match BasicPrefix.fromStr s with
  | .ok p => .ok (.basic p)
  | .panic => .panic
  | .err _ =>
    match SelfAddressingPrefix.fromStr s with
    | .ok p => .ok (.selfAddressing p)
    | .panic => .panic
    | .err _ => do
      let p ← SelfSigningPrefix.fromStr s
      .ok (.selfSigning p)

/-- `/repo/src/prefix/seed.rs` `SeedPrefix` -/
inductive SeedPrefix where
  | rand128 (b : Bytes)
  | ed25519 (b : Bytes)
  | ecdsa (b : Bytes)
  | rand448 (b : Bytes)
  deriving DecidableEq, Repr

/-- `/repo/src/prefix/seed.rs` `derivative`/`derivation_code` through `Prefix::to_str` -/
def SeedPrefix.toStr : SeedPrefix → Bytes
  | .ed25519 b => prefixText b!"A" b
  | .ecdsa b => prefixText b!"J" b
  | .rand448 b => prefixText b!"K" b
  | .rand128 b => prefixText b!"0A" b

/-- `/repo/src/prefix/seed.rs` `FromStr` -/
def SeedPrefix.fromStr (s : Bytes) : Res SeedPrefix := do
  let h ← strSlice s 0 1
  let dec (k : Nat) (f : Bytes → SeedPrefix) : Res SeedPrefix := do
    let body ← strSlice s k s.length
    let b ← Res.ofOption (b64Decode body) .base64Decoding
    .ok (f b)
  if h = b!"A" then dec 1 .ed25519
  else if h = b!"J" then dec 1 .ecdsa
  else if h = b!"K" then dec 1 .rand448
  else if h = b!"0" then do
    let t ← strSlice s 1 2
    if t = b!"A" then dec 2 .rand128 else .err (.deserialize "Unknown seed prefix cod")
  else .err (.deserialize "Unknown seed prefix cod")

end Keriox
