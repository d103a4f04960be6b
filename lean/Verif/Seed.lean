import Verif.Serde
/-!
# Key pairs from seeds — `/repo/src/prefix/seed.rs:20-40`, `/repo/src/prefix/mod.rs:128-143`, `/repo/src/keys/mod.rs:66-84`

The curve arithmetic (`ed25519_dalek`, `k256`) is a parameter, as signature checking is in `Env`.  The kind of the library error is
not kept (`other`).
-/
namespace Keriox

/-- What the two curve libraries compute: the public key of a private key (`none`: the bytes are no private key) and signatures. -/
structure Curves where
  /-- `ed25519_dalek::SecretKey::from_bytes` followed by `PublicKey::from` -/
  edPub : Bytes → Option Bytes
  /-- `k256::ecdsa::SigningKey::from_bytes` followed by `VerifyingKey::from` and `to_bytes` -/
  k1Pub : Bytes → Option Bytes
  /-- `ExpandedSecretKey::from(&sk).sign(msg, &pk)` -/
  edSign : Bytes → Bytes → Bytes
  /-- `EcdsaSigner::sign(&SigningKey, msg)` -/
  k1Sign : Bytes → Bytes → Bytes

/-- `SeedPrefix::derive_key_pair`, `/repo/src/prefix/seed.rs:20-40`: public key, then private key.  `to_bytes` of a private key gives
back the bytes it was made from. -/
def SeedPrefix.deriveKeyPair (cv : Curves) : SeedPrefix → Res (Bytes × Bytes)
  | .ed25519 seed => do
    let pk ← Res.ofOption (cv.edPub seed) .other
    .ok (pk, seed)
  | .ecdsa seed => do
    let pk ← Res.ofOption (cv.k1Pub seed) .other
    .ok (pk, seed)
  | _ => .err .improperPrefixType

/-- `derive`, `/repo/src/prefix/mod.rs:131-143` -/
def SeedPrefix.derive (cv : Curves) (seed : SeedPrefix) (transferable : Bool) : Res BasicPrefix := do
  let kp ← seed.deriveKeyPair cv
  match seed with
  | .ed25519 _ => .ok ⟨if transferable then .ed25519 else .ed25519NT, kp.1⟩
  | .ecdsa _ => .ok ⟨if transferable then .ecdsa else .ecdsaNT, kp.1⟩
  | _ => .err .improperPrefixType

/-- `PrivateKey::sign_ed`, `/repo/src/keys/mod.rs:76-83` -/
def Curves.signEd (cv : Curves) (key msg : Bytes) : Res Bytes := do
  let _ ← Res.ofOption (cv.edPub key) .other
  .ok (cv.edSign key msg)

/-- `PrivateKey::sign_ecdsa`, `/repo/src/keys/mod.rs:71-74` -/
def Curves.signEcdsa (cv : Curves) (key msg : Bytes) : Res Bytes := do
  let _ ← Res.ofOption (cv.k1Pub key) .other
  .ok (cv.k1Sign key msg)

end Keriox
