import Verif.Threshold
/-!
# Key configuration — `/repo/src/event/sections/key_config.rs`
-/
namespace Keriox

/-- `KeyConfig`, key_config.rs:11-21 -/
structure KeyConfig where
  threshold : Threshold
  publicKeys : List BasicPrefix
  nextDigest : Option SelfAddressingPrefix
  deriving DecidableEq, Repr

namespace KeyConfig

/-- `Default` (derived), key_config.rs:11 -/
def default : KeyConfig := ⟨Threshold.default, [], none⟩

/-- `KeyConfig::new`, key_config.rs:24-37 -/
def new (keys : List BasicPrefix) (next : Option SelfAddressingPrefix) (t : Option Threshold) : KeyConfig :=
  ⟨match t with
    | none => .simple (keys.length / 2 + 1)
    | some t => t, keys, next⟩

/-- The counting vector of `KeyConfig::verify`, key_config.rs:53-58: `acc[sig.index] += 1`, panics
when the index is not below the vector's length. -/
def countIdx (counts : List Nat) : List AttachedSignaturePrefix → Res (List Nat)
  | [] => .ok counts
  | s :: ss =>
    match counts[s.index]? with
    | none => .panic
    | some n => countIdx (counts.set s.index (n + 1)) ss

/-- One step of the verification fold of `KeyConfig::verify`, key_config.rs:62-71.  After a failing
signature the remaining ones are not looked at (`acc? && …`); an error stops the fold. -/
def sigStep (env : Env) (keys : List BasicPrefix) (msg : Bytes) (s : AttachedSignaturePrefix) :
    Res Bool → Res Bool
  | .ok true =>
    match keys[s.index]? with
    | none => .err (.semantic "Key index not present in set")
    | some k => k.verify env msg s.signature
  | acc => acc

/-- The verification fold of `KeyConfig::verify`, key_config.rs:60-72. -/
def verifySigs (env : Env) (keys : List BasicPrefix) (msg : Bytes) :
    List AttachedSignaturePrefix → Res Bool → Res Bool
  | [], acc => acc
  | s :: ss, acc => verifySigs env keys msg ss (sigStep env keys msg s acc)

/-- The second condition of `KeyConfig::verify`, key_config.rs:48-59: not more signatures than keys
(`&&` short-circuits), and no index twice. -/
def validSet (kc : KeyConfig) (sigs : List AttachedSignaturePrefix) : Res Bool :=
  if sigs.length ≤ kc.publicKeys.length then do
    let counts ← countIdx (List.replicate kc.publicKeys.length 0) sigs
    .ok (counts.all fun n => n ≤ 1)
  else .ok false

/-- `KeyConfig::verify`, key_config.rs:43-75 -/
def verify (env : Env) (kc : KeyConfig) (msg : Bytes) (sigs : List AttachedSignaturePrefix) : Res Bool := do
  let enough ← kc.threshold.enough sigs
  if !enough then .err .notEnoughSigs
  else do
    let valid ← kc.validSet sigs
    if valid then verifySigs env kc.publicKeys msg sigs (.ok true)
    else .err (.semantic "Invalid signatures set")

/-- byte-wise exclusive or, the `zip`/`map` of `nxt_commitment`, key_config.rs:115-119 -/
def xorBytes (a b : Bytes) : Bytes := List.zipWith (· ^^^ ·) a b

/-- `nxt_commitment`, key_config.rs:101-122 -/
def nxtCommitment (env : Env) (t : Threshold) (keys : List BasicPrefix) (c : SelfAddressing) :
    SelfAddressingPrefix :=
  keys.foldl (fun acc pk => ⟨c, xorBytes acc.digest (env.derive c pk.toStr).digest⟩)
    (env.derive c t.commitText)

/-- `KeyConfig::commit`, key_config.rs:92-94 -/
def commit (env : Env) (kc : KeyConfig) (c : SelfAddressing) : SelfAddressingPrefix :=
  nxtCommitment env kc.threshold kc.publicKeys c

/-- `KeyConfig::verify_next`, key_config.rs:81-86 -/
def verifyNext (env : Env) (kc next : KeyConfig) : Bool :=
  match kc.nextDigest with
  | some n => n = next.commit env n.derivation
  | none => false

/-- `Serialize for KeyConfig`, key_config.rs:11-21 with `empty_string_as_none`, 124-151 -/
def fields (kc : KeyConfig) : List (Bytes × SVal) :=
  [(b!"kt", kc.threshold.sval),
   (b!"k", .seq (kc.publicKeys.map fun k => .str k.toStr)),
   (b!"n", .str (match kc.nextDigest with | some n => n.toStr | none => []))]

end KeyConfig
end Keriox
