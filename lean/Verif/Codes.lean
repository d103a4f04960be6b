import Verif.Base64
/-!
# Derivation codes — `/repo/src/derivation/*`
-/
namespace Keriox

/-- `/repo/src/derivation/basic.rs:9-19` -/
inductive Basic where
  | ecdsaNT | ecdsa | ed25519NT | ed25519 | ed448NT | ed448 | x25519 | x448
  deriving DecidableEq, Repr

namespace Basic
/-- `/repo/src/derivation/basic.rs:28-40` -/
def toStr : Basic → Bytes
  | ed25519NT => b!"B"
  | x25519 => b!"C"
  | ed25519 => b!"D"
  | x448 => b!"L"
  | ecdsaNT => b!"1AAA"
  | ecdsa => b!"1AAB"
  | ed448NT => b!"1AAC"
  | ed448 => b!"1AAD"

/-- `/repo/src/derivation/basic.rs:42-47` -/
def codeLen : Basic → Nat
  | ed25519NT | ed25519 | x25519 | x448 => 1
  | ecdsaNT | ecdsa | ed448NT | ed448 => 4

/-- `/repo/src/derivation/basic.rs:49-56` -/
def b64Len : Basic → Nat
  | ed25519NT | ed25519 | x25519 => 43
  | x448 => 75
  | ecdsaNT | ecdsa => 47
  | ed448NT | ed448 => 76

/-- `prefix_b64_len`, `/repo/src/derivation/mod.rs:9-11` -/
def prefixLen (c : Basic) : Nat := c.codeLen + c.b64Len

/-- `/repo/src/derivation/basic.rs:59-81` -/
def fromStr (s : Bytes) : Res Basic :=
  match strGet s 0 1 with
  | none => .err (.deserialize "Empty prefix")
  | some h =>
    if h = b!"B" then .ok ed25519NT
    else if h = b!"C" then .ok x25519
    else if h = b!"D" then .ok ed25519
    else if h = b!"L" then .ok x448
    else if h = b!"1" then do
      let t ← strSlice s 1 4
      if t = b!"AAA" then .ok ecdsaNT
      else if t = b!"AAB" then .ok ecdsa
      else if t = b!"AAC" then .ok ed448NT
      else if t = b!"AAD" then .ok ed448
      else .err (.deserialize "Unknown signature code")
    else .err (.deserialize "Unknown prefix code")

/-- Non-transferable codes (names `*NT`, `/repo/src/derivation/basic.rs:9-19`). -/
def isNT : Basic → Bool
  | ecdsaNT | ed25519NT | ed448NT => true
  | _ => false
end Basic

/-- `/repo/src/derivation/self_addressing.rs:18-29` -/
inductive SelfAddressing where
  | blake3_256
  | blake2b256 (key : Bytes)
  | blake2s256 (key : Bytes)
  | sha3_256
  | sha2_256
  | blake3_512
  | sha3_512
  | blake2b512
  | sha2_512
  deriving DecidableEq, Repr

namespace SelfAddressing
/-- `/repo/src/derivation/self_addressing.rs:52-65` -/
def toStr : SelfAddressing → Bytes
  | blake3_256 => b!"E"
  | blake2b256 _ => b!"F"
  | blake2s256 _ => b!"G"
  | sha3_256 => b!"H"
  | sha2_256 => b!"I"
  | blake3_512 => b!"0D"
  | sha3_512 => b!"0E"
  | blake2b512 => b!"0F"
  | sha2_512 => b!"0G"

/-- `/repo/src/derivation/self_addressing.rs:67-76` -/
def codeLen : SelfAddressing → Nat
  | blake3_256 | blake2b256 _ | blake2s256 _ | sha3_256 | sha2_256 => 1
  | blake3_512 | sha3_512 | blake2b512 | sha2_512 => 2

/-- `/repo/src/derivation/self_addressing.rs:78-87` -/
def b64Len : SelfAddressing → Nat
  | blake3_256 | blake2b256 _ | blake2s256 _ | sha3_256 | sha2_256 => 43
  | blake3_512 | sha3_512 | blake2b512 | sha2_512 => 86

def prefixLen (c : SelfAddressing) : Nat := c.codeLen + c.b64Len

/-- `/repo/src/derivation/self_addressing.rs:90-115` -/
def fromStr (s : Bytes) : Res SelfAddressing :=
  match strGet s 0 1 with
  | none => .err (.deserialize "Empty prefix")
  | some h =>
    if h = b!"E" then .ok blake3_256
    else if h = b!"F" then .ok (blake2b256 [])
    else if h = b!"G" then .ok (blake2s256 [])
    else if h = b!"H" then .ok sha3_256
    else if h = b!"I" then .ok sha2_256
    else if h = b!"0" then do
      let t ← strSlice s 1 2
      if t = b!"D" then .ok blake3_512
      else if t = b!"E" then .ok sha3_512
      else if t = b!"F" then .ok blake2b512
      else if t = b!"G" then .ok sha2_512
      else .err (.deserialize "Unknown hash code")
    else .err (.deserialize "Unknown hash algorithm code")

/-- The Blake2 key that the text form does not carry is empty. -/
def keyless : SelfAddressing → Bool
  | blake2b256 k | blake2s256 k => k.isEmpty
  | _ => true
end SelfAddressing

/-- `/repo/src/derivation/self_signing.rs:8-13` -/
inductive SelfSigning where
  | ed25519Sha512 | ecdsaSha256 | ed448
  deriving DecidableEq, Repr

namespace SelfSigning
/-- `/repo/src/derivation/self_signing.rs:22-29` -/
def toStr : SelfSigning → Bytes
  | ed25519Sha512 => b!"0B"
  | ecdsaSha256 => b!"0C"
  | ed448 => b!"1AAE"

/-- `/repo/src/derivation/self_signing.rs:31-36` -/
def codeLen : SelfSigning → Nat
  | ed25519Sha512 | ecdsaSha256 => 2
  | ed448 => 4

/-- `/repo/src/derivation/self_signing.rs:38-43` -/
def b64Len : SelfSigning → Nat
  | ed25519Sha512 | ecdsaSha256 => 86
  | ed448 => 152

def prefixLen (c : SelfSigning) : Nat := c.codeLen + c.b64Len

/-- `/repo/src/derivation/self_signing.rs:46-73`.  The error message of the last branch carries the
input text; the model keeps only its fixed part. -/
def fromStr (s : Bytes) : Res SelfSigning :=
  match strGet s 0 1 with
  | none => .err (.deserialize "Empty prefix")
  | some h =>
    if h = b!"0" then do
      let t ← strSlice s 1 2
      if t = b!"B" then .ok ed25519Sha512
      else if t = b!"C" then .ok ecdsaSha256
      else .err (.deserialize "Unknown signature type code")
    else if h = b!"1" then do
      let t ← strSlice s 1 4
      if t = b!"AAE" then .ok ed448
      else .err (.deserialize "Unknown signature type code")
    else .err (.deserialize "Unknown master code")
end SelfSigning

/-- `num_to_b64`, `/repo/src/derivation/attached_signature_code.rs:96-104`.  The argument is a
`u16`: only its two low bytes are used. -/
def numToB64 (n : Nat) : Bytes :=
  if n < 63 then (b64Encode [UInt8.ofNat (n % 256 * 4)]).take 1
  else if n < 4095 then (b64Encode (beBytes 2 n)).take 2
  else b64Encode (beBytes 2 n)

/-- `b64_to_num`, `/repo/src/derivation/attached_signature_code.rs:77-94` -/
def b64ToNum (b : Bytes) : Res Nat :=
  let txt := match b.length with
    | 1 => b!"AAA" ++ b
    | 2 => b!"AA" ++ b
    | _ => b
  match b64Decode txt with
  | none => .err .base64Decoding
  | some sl =>
    .ok (match sl.length with
      | 0 => 0
      | 1 => beVal sl
      | k => beVal (sl.drop (k - 2)))

namespace SelfSigning
/-- `AttachedSignatureCode::to_str`, `/repo/src/derivation/attached_signature_code.rs:23-34` -/
def attToStr (c : SelfSigning) (index : Nat) : Bytes :=
  (match c with
    | ed25519Sha512 => b!"A"
    | ecdsaSha256 => b!"B"
    | ed448 => b!"0AA") ++ numToB64 index

/-- `AttachedSignatureCode::code_len`, `/repo/src/derivation/attached_signature_code.rs:36-41` -/
def attCodeLen : SelfSigning → Nat
  | ed25519Sha512 | ecdsaSha256 => 2
  | ed448 => 4

/-- `AttachedSignatureCode::from_str`, `/repo/src/derivation/attached_signature_code.rs:51-73` -/
def attFromStr (s : Bytes) : Res (SelfSigning × Nat) := do
  let h ← strSlice s 0 1
  if h = b!"A" then do
    let i ← byteSlice s 1 2
    let n ← b64ToNum i
    .ok (ed25519Sha512, n)
  else if h = b!"B" then do
    let i ← byteSlice s 1 2
    let n ← b64ToNum i
    .ok (ecdsaSha256, n)
  else if h = b!"0" then do
    let t ← strSlice s 1 3
    if t = b!"AA" then do
      let i ← byteSlice s 3 4
      let n ← b64ToNum i
      .ok (ed448, n)
    else .err (.deserialize "Unknows signature code")
  else .err (.deserialize "Unknown attachment code")
end SelfSigning

end Keriox
