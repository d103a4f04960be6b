import Verif.Seal
/-!
# The serde data model used by the messages, JSON text, version strings, and the environment

`serde`'s data model restricted to what the modelled `Serialize` implementations emit: strings,
sequences and maps (structs are maps with their field names as keys).
-/
namespace Keriox

/-- What a `Serialize` implementation of `/repo/src` hands to a serializer (serde data model,
only the cases that occur).  `struct` is a plain derived struct (`serialize_struct`), `map` is what
`#[serde(flatten)]` produces (`serialize_map`); `null` is `serialize_none`. -/
inductive SVal where
  | null
  | str (s : Bytes)
  | seq (xs : List SVal)
  | map (fs : List (Bytes × SVal))
  | struct (fs : List (Bytes × SVal))
  deriving Repr

/-- serde_json's string escaping (`format_escaped_str`): `"`, `\` and control characters. -/
def jsonEscapeByte (b : UInt8) : Bytes :=
  if b = 34 then b!"\\\""
  else if b = 92 then b!"\\\\"
  else if b = 8 then b!"\\b"
  else if b = 9 then b!"\\t"
  else if b = 10 then b!"\\n"
  else if b = 12 then b!"\\f"
  else if b = 13 then b!"\\r"
  else if b < 32 then b!"\\u00" ++ [hexDigit (b.toNat / 16), hexDigit (b.toNat % 16)]
  else [b]

/-- a JSON string literal as serde_json writes it -/
def jsonStr (s : Bytes) : Bytes := [34] ++ s.flatMap jsonEscapeByte ++ [34]

mutual
/-- `serde_json::to_vec` (compact formatter); used by `SerializationFormats::encode`,
`/repo/src/event_message/serialization_info.rs:14-21`. -/
def jsonText : SVal → Bytes
  | .null => b!"null"
  | .str s => jsonStr s
  | .seq xs => [91] ++ jsonElems xs ++ [93]
  | .map fs => [123] ++ jsonFields fs ++ [125]
  | .struct fs => [123] ++ jsonFields fs ++ [125]
/-- comma-separated elements -/
def jsonElems : List SVal → Bytes
  | [] => []
  | x :: xs => jsonText x ++ jsonElemsTail xs
/-- the elements after the first, each with its leading comma -/
def jsonElemsTail : List SVal → Bytes
  | [] => []
  | x :: xs => [44] ++ jsonText x ++ jsonElemsTail xs
/-- comma-separated `"key":value` pairs -/
def jsonFields : List (Bytes × SVal) → Bytes
  | [] => []
  | (k, x) :: xs => jsonStr k ++ [58] ++ jsonText x ++ jsonFieldsTail xs
/-- the pairs after the first, each with its leading comma -/
def jsonFieldsTail : List (Bytes × SVal) → Bytes
  | [] => []
  | (k, x) :: xs => [44] ++ jsonStr k ++ [58] ++ jsonText x ++ jsonFieldsTail xs
end

mutual
/-- `KeriJsonSerializer`, `/repo/src/event_message/serializer.rs`: appends to the output written so far.
A string beginning with `-` is written raw, others are quoted but not escaped (82-91); sequence elements are
preceded by a comma unless the output ends with `[` (202-217); map keys by a comma unless it ends with `{`
(279-307); struct fields: 324-353. -/
def keriSer : SVal → Bytes → Bytes
  | .null, out => out ++ b!"null"
  | .str s, out => keriStr s out
  | .seq xs, out => keriSeq xs (out ++ [91]) ++ [93]
  | .map fs, out => keriMap fs (out ++ [123]) ++ [125]
  | .struct fs, out => keriStruct fs out
/-- elements of a sequence, serializer.rs:202-212 -/
def keriSeq : List SVal → Bytes → Bytes
  | [], out => out
  | x :: xs, out => keriSeq xs (keriSer x (if out.getLast? = some 91 then out else out ++ [44]))
/-- entries of a map, serializer.rs:279-302 -/
def keriMap : List (Bytes × SVal) → Bytes → Bytes
  | [], out => out
  | (k, x) :: xs, out =>
    keriMap xs (keriSer x (keriStr k (if out.getLast? = some 123 then out else out ++ [44]) ++ [58]))
/-- fields of a struct, serializer.rs:324-353 -/
def keriStruct : List (Bytes × SVal) → Bytes → Bytes
  | [], out => out
  | (k, x) :: xs, out =>
    if k.head? = some 45 then keriStruct xs (keriSer x out)
    else
      let o1 := if out.getLast? ≠ some 123 ∧ out ≠ [] then out ++ [44, 123] else out
      let o2 := if k = [] then o1 else keriStr k o1
      let o3 := keriSer x o2
      keriStruct xs (if o3.getLast? = some 125 then o3 else o3 ++ [125])
/-- `serialize_str`, serializer.rs:82-91 -/
def keriStr (s out : Bytes) : Bytes :=
  if s.head? = some 45 then out ++ s else out ++ [34] ++ s ++ [34]
end

/-- `SerializationFormats`, `/repo/src/event_message/serialization_info.rs:6-11` -/
inductive Fmt where
  | json | mgpk | cbor
  deriving DecidableEq, Repr

/-- `SerializationFormats::to_str`, `/repo/src/event_message/serialization_info.rs:23-30` -/
def Fmt.toStr : Fmt → Bytes
  | .json => b!"JSON"
  | .cbor => b!"CBOR"
  | .mgpk => b!"MGPK"

/-- `SerializationFormats::from_str`, `/repo/src/event_message/serialization_info.rs:33-43` -/
def Fmt.fromStr (s : Bytes) : Res Fmt :=
  if s = b!"JSON" then .ok .json
  else if s = b!"MGPK" then .ok .mgpk
  else if s = b!"CBOR" then .ok .cbor
  else .err (.deserialize "Unknown format")

/-- `SerializationInfo`, `/repo/src/event_message/serialization_info.rs:45-51` -/
structure SerInfo where
  major : Nat
  minor : Nat
  size : Nat
  kind : Fmt
  deriving DecidableEq, Repr

/-- `SerializationInfo::new`, `/repo/src/event_message/serialization_info.rs:54-61` -/
def SerInfo.new (kind : Fmt) (size : Nat) : SerInfo := ⟨1, 0, size, kind⟩

/-- `SerializationInfo::to_str`, `/repo/src/event_message/serialization_info.rs:62-70` -/
def SerInfo.toStr (i : SerInfo) : Bytes :=
  b!"KERI" ++ hexStr i.major ++ hexStr i.minor ++ i.kind.toStr ++ padZero 6 (hexStr i.size) ++ b!"_"

/-- `SerializationInfo::from_str`, `/repo/src/event_message/serialization_info.rs:73-87`.  The
`&s[a..b]` slices panic when out of range or not on a char boundary. -/
def SerInfo.fromStr (s : Bytes) : Res SerInfo := do
  let h ← strSlice s 0 4
  if h = b!"KERI" then do
    let maS ← strSlice s 4 5
    let ma ← Res.ofOption (fromStrRadix 16 255 maS) .intParse
    let miS ← strSlice s 5 6
    let mi ← Res.ofOption (fromStrRadix 16 255 miS) .intParse
    let kS ← strSlice s 6 10
    let k ← Fmt.fromStr kS
    let szS ← strSlice s 10 16
    let sz ← Res.ofOption (fromStrRadix 16 u16max szS) .intParse
    .ok ⟨ma, mi, sz, k⟩
  else .err (.deserialize "Metadata parsing error")

/-- The parts of the world that are parameters of the model: hash functions, signature
verification, and the two binary codecs (external crates).  Theorems are for every `Env`. -/
structure Env where
  /-- `SelfAddressing::digest`, `/repo/src/derivation/self_addressing.rs:32-44` -/
  digest : SelfAddressing → Bytes → Bytes
  /-- `PublicKey::verify_ed key msg sig`, `/repo/src/keys/mod.rs:26-40` -/
  ed : Bytes → Bytes → Bytes → Bool
  /-- `PublicKey::verify_ecdsa key msg sig`, `/repo/src/keys/mod.rs:42-58` -/
  ecdsa : Bytes → Bytes → Bytes → Bool
  /-- `serde_cbor::to_vec` (`none`: serialization error) -/
  cbor : SVal → Option Bytes
  /-- `rmp_serde::to_vec` (`none`: serialization error) -/
  mgpk : SVal → Option Bytes
  /-- `DateTime::to_rfc3339_opts(Micros, false)` of the instant (µs) at an offset, chrono -/
  timeText : Int → Int → Bytes

/-- `SerializationFormats::encode`, `/repo/src/event_message/serialization_info.rs:14-21`.
JSON never fails on this data. -/
def Fmt.encode (env : Env) (f : Fmt) (v : SVal) : Res Bytes :=
  match f with
  | .json => .ok (jsonText v)
  | .cbor => Res.ofOption (env.cbor v) .serialization
  | .mgpk => Res.ofOption (env.mgpk v) .serialization

/-- `SelfAddressing::derive`, `/repo/src/derivation/self_addressing.rs:46-48` -/
def Env.derive (env : Env) (c : SelfAddressing) (data : Bytes) : SelfAddressingPrefix :=
  ⟨c, env.digest c data⟩

/-- `SelfAddressingPrefix::verify_binding`, `/repo/src/prefix/self_addressing.rs:22-24` -/
def SelfAddressingPrefix.verifyBinding (env : Env) (p : SelfAddressingPrefix) (sed : Bytes) : Bool :=
  env.digest p.derivation sed = p.digest

/-- `verify`, `/repo/src/prefix/mod.rs:106-126` (`BasicPrefix::verify` delegates to it,
`/repo/src/prefix/basic.rs`). -/
def BasicPrefix.verify (env : Env) (key : BasicPrefix) (data : Bytes) (sig : SelfSigningPrefix) : Res Bool :=
  match key.derivation with
  | .ed25519 | .ed25519NT =>
    match sig.derivation with
    | .ed25519Sha512 => .ok (env.ed key.publicKey data sig.signature)
    | _ => .err (.semantic "wrong sig type")
  | .ecdsa | .ecdsaNT =>
    match sig.derivation with
    | .ecdsaSha256 => .ok (env.ecdsa key.publicKey data sig.signature)
    | _ => .err (.semantic "wrong sig type")
  | _ => .err (.semantic "inelligable key type")

end Keriox
