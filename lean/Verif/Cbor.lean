import Verif.Wire
/-!
# CBOR — the `serde_cbor` crate as used by `SerializationFormats::encode` and `cbor_message`

`/repo/src/event_message/serialization_info.rs:17` writes messages with `serde_cbor::to_vec`, `/repo/src/event_parsing/message.rs:36-42`
reads them with `serde_cbor::Deserializer::from_slice`.  The crate (0.11) is not in the sandbox: writer and reader are modelled from RFC 8949 and
its documented behaviour.

* Writer: text strings, arrays of known length, maps of indefinite length for `serialize_map(None)` (which is what `#[serde(flatten)]`
  produces), maps of known length for plain structs, null.
* Reader: text, arrays and maps of both kinds, null, booleans, integers (which carry no value, as in `Json.lean`), recursion limit 128.
  Byte strings, chunked text, tags and floating-point numbers are treated as malformed; the crate reads them.  Theorems that
  speak of the program's reader (`Binary.ReadsCbor`) therefore only use inputs this reader accepts.
-/
namespace Keriox

/-- the head of a data item: major type and argument in the shortest form (`Serializer::write_u64`) -/
def cborHead (major n : Nat) : Bytes :=
  if n < 24 then [UInt8.ofNat (major * 32 + n)]
  else if n < 2 ^ 8 then UInt8.ofNat (major * 32 + 24) :: beBytes 1 n
  else if n < 2 ^ 16 then UInt8.ofNat (major * 32 + 25) :: beBytes 2 n
  else if n < 2 ^ 32 then UInt8.ofNat (major * 32 + 26) :: beBytes 4 n
  else UInt8.ofNat (major * 32 + 27) :: beBytes 8 n

mutual
/-- `serde_cbor::to_vec`, used at `/repo/src/event_message/serialization_info.rs:17` -/
def cborText : SVal → Bytes
  | .null => [0xf6]
  | .str s => cborHead 3 s.length ++ s
  | .seq xs => cborHead 4 xs.length ++ cborItems xs
  | .map fs => [0xbf] ++ cborFields fs ++ [0xff]
  | .struct fs => cborHead 5 fs.length ++ cborFields fs
/-- the elements of an array -/
def cborItems : List SVal → Bytes
  | [] => []
  | x :: xs => cborText x ++ cborItems xs
/-- the pairs of a map -/
def cborFields : List (Bytes × SVal) → Bytes
  | [] => []
  | (k, x) :: xs => cborHead 3 k.length ++ k ++ cborText x ++ cborFields xs
end

/-- the number of bytes that hold the argument of a head, by its additional information -/
def cborWidth (info : Nat) : Option Nat :=
  if info < 24 then some 0
  else if info = 24 then some 1
  else if info = 25 then some 2
  else if info = 26 then some 4
  else if info = 27 then some 8
  else none

/-- the argument of a head -/
def cborArg (info : Nat) (r : Bytes) : Option (Nat × Bytes) :=
  match cborWidth info with
  | none => none
  | some 0 => some (info, r)
  | some k => if r.length < k then none else some (beVal (r.take k), r.drop k)

/-- a text string of known length after its initial byte -/
def cborStr (info : Nat) (r : Bytes) : Option (Bytes × Bytes) :=
  match cborArg info r with
  | none => none
  | some (n, r) => if r.length < n then none else if utf8Valid (r.take n) then some (r.take n, r.drop n) else none

/-- the key of a pair: a text string -/
def cborKey (s : Bytes) : Option (Bytes × Bytes) :=
  match s with
  | [] => none
  | b :: r => if b.toNat / 32 = 3 then cborStr (b.toNat % 32) r else none

mutual
/-- one data item; `depth` as for JSON, the fuel bounds the recursive calls -/
def cborValue : Nat → Nat → Bytes → Option (JVal × Bytes)
  | 0, _, _ => none
  | _ + 1, _, [] => none
  | n + 1, depth, b :: r =>
    if b.toNat / 32 = 3 then (cborStr (b.toNat % 32) r).map fun p => (.str p.1, p.2)
    else if b.toNat / 32 = 4 then
      if depth ≤ 1 then none
      else if b.toNat % 32 = 31 then (cborElemsI n (depth - 1) r).map fun p => (.arr p.1, p.2)
      else match cborArg (b.toNat % 32) r with
        | none => none
        | some (k, r) => (cborElems n (depth - 1) k r).map fun p => (.arr p.1, p.2)
    else if b.toNat / 32 = 5 then
      if depth ≤ 1 then none
      else if b.toNat % 32 = 31 then
        match cborMembersI n (depth - 1) r with
        | (fs, some r) => some (.obj fs, r)
        | (_, none) => none
      else match cborArg (b.toNat % 32) r with
        | none => none
        | some (k, r) =>
          match cborMembers n (depth - 1) k r with
          | (fs, some r) => some (.obj fs, r)
          | (_, none) => none
    else if b = 0xf6 then some (.null, r)
    else if b = 0xf4 then some (.bool false, r)
    else if b = 0xf5 then some (.bool true, r)
    else if b.toNat / 32 ≤ 1 then (cborArg (b.toNat % 32) r).map fun p => (.num, p.2)
    else none
/-- a known number of elements -/
def cborElems : Nat → Nat → Nat → Bytes → Option (List JVal × Bytes)
  | 0, _, _, _ => none
  | _ + 1, _, 0, s => some ([], s)
  | n + 1, depth, k + 1, s =>
    match cborValue n depth s with
    | none => none
    | some (x, r) => (cborElems n depth k r).map fun p => (x :: p.1, p.2)
/-- elements up to the break byte -/
def cborElemsI : Nat → Nat → Bytes → Option (List JVal × Bytes)
  | 0, _, _ => none
  | _ + 1, _, [] => none
  | n + 1, depth, b :: r =>
    if b = 0xff then some ([], r)
    else match cborValue n depth (b :: r) with
      | none => none
      | some (x, r) => (cborElemsI n depth r).map fun p => (x :: p.1, p.2)
/-- a known number of pairs: those read, and the rest of the input unless malformed -/
def cborMembers : Nat → Nat → Nat → Bytes → List (Bytes × JVal) × Option Bytes
  | 0, _, _, _ => ([], none)
  | _ + 1, _, 0, s => ([], some s)
  | n + 1, depth, k + 1, s =>
    match cborKey s with
    | none => ([], none)
    | some (key, r) =>
      match cborValue n depth r with
      | none => ([], none)
      | some (x, r) =>
        let rest := cborMembers n depth k r
        ((key, x) :: rest.1, rest.2)
/-- pairs up to the break byte -/
def cborMembersI : Nat → Nat → Bytes → List (Bytes × JVal) × Option Bytes
  | 0, _, _ => ([], none)
  | _ + 1, _, [] => ([], none)
  | n + 1, depth, b :: r =>
    if b = 0xff then ([], some r)
    else match cborKey (b :: r) with
      | none => ([], none)
      | some (key, r) =>
        match cborValue n depth r with
        | none => ([], none)
        | some (x, r) =>
          let rest := cborMembersI n depth r
          ((key, x) :: rest.1, rest.2)
end

/-- the pairs of a top-level map and what follows it (`none`: malformed, or not a map) -/
def cborTop (s : Bytes) : List (Bytes × JVal) × Option Bytes :=
  match s with
  | [] => ([], none)
  | b :: r =>
    if b.toNat / 32 = 5 then
      if b.toNat % 32 = 31 then cborMembersI (4 * s.length + 4) 127 r
      else match cborArg (b.toNat % 32) r with
        | none => ([], none)
        | some (k, r) => cborMembers (4 * s.length + 4) 127 k r
    else ([], none)

/-- `cbor_message`, `/repo/src/event_parsing/message.rs:36-42`, on what `cborTop` reads: any error is a recoverable parser error -/
def cborMessage {α : Type} (inner : List (Bytes × JVal) → Res α) (s : Bytes) : IRes (SerInfo × α) :=
  match desMessage inner (cborTop s) with
  | .ok (info, e, rest) => .ok rest (info, e)
  | .err _ => .error
  | .panic => .panic

/-- The binary readers of the program agree with this CBOR reader wherever it finds a complete map.  (For these inputs the MessagePack
reader, tried when the CBOR reader fails, meets a text string and fails as well: CBOR maps begin with 0xa0–0xbf.) -/
structure Binary.ReadsCbor (bin : Binary) : Prop where
  event : ∀ s, (cborTop s).2 ≠ none → bin.event s = cborMessage desKeyEvent s
  receipt : ∀ s, (cborTop s).2 ≠ none → bin.receipt s = cborMessage (fun fs => desReceipt fs none none none) s

/-- the environment writes CBOR like this writer -/
def Env.WritesCbor (env : Env) : Prop := ∀ v, env.cbor v = some (cborText v)

end Keriox
