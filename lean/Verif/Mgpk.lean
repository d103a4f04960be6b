import Verif.Wire
/-!
# MessagePack — the `rmp_serde` crate as used by `SerializationFormats::encode` and `mgpk_message`

`/repo/src/event_message/serialization_info.rs:18` writes messages with `rmp_serde::to_vec`, `/repo/src/event_parsing/message.rs:44-50`
reads them with `rmp_serde::Deserializer::new`.  The crate (0.15) is not in the sandbox: writer and reader are modelled from the
MessagePack specification and its documented behaviour.

* Writer: strings, arrays and maps with the shortest head; nil; **structs as arrays of their fields, without names** (the default of
  `rmp_serde::to_vec`); what `#[serde(flatten)]` produces as a map.
* Reader: strings, arrays, maps, nil, booleans, integers (which carry no value, as in `Json.lean`), recursion limit 1024.
  Floating-point numbers, binary data and extensions are treated as malformed; the crate reads some of them.  Theorems that speak of the
  program's reader (`Binary.ReadsMgpk`) only use inputs this reader accepts.
-/
namespace Keriox

/-- head of a string (`rmp::encode::write_str_len`) -/
def mgpkStrHead (n : Nat) : Bytes :=
  if n < 32 then [UInt8.ofNat (0xa0 + n)]
  else if n < 256 then 0xd9 :: beBytes 1 n
  else if n < 65536 then 0xda :: beBytes 2 n
  else 0xdb :: beBytes 4 n

/-- head of an array (`rmp::encode::write_array_len`) -/
def mgpkArrHead (n : Nat) : Bytes :=
  if n < 16 then [UInt8.ofNat (0x90 + n)]
  else if n < 65536 then 0xdc :: beBytes 2 n
  else 0xdd :: beBytes 4 n

/-- head of a map (`rmp::encode::write_map_len`) -/
def mgpkMapHead (n : Nat) : Bytes :=
  if n < 16 then [UInt8.ofNat (0x80 + n)]
  else if n < 65536 then 0xde :: beBytes 2 n
  else 0xdf :: beBytes 4 n

mutual
/-- `rmp_serde::to_vec`, used at `/repo/src/event_message/serialization_info.rs:18` -/
def mgpkText : SVal → Bytes
  | .null => [0xc0]
  | .str s => mgpkStrHead s.length ++ s
  | .seq xs => mgpkArrHead xs.length ++ mgpkItems xs
  | .map fs => mgpkMapHead fs.length ++ mgpkFields fs
  | .struct fs => mgpkArrHead fs.length ++ mgpkUnnamed fs
/-- the elements of an array -/
def mgpkItems : List SVal → Bytes
  | [] => []
  | x :: xs => mgpkText x ++ mgpkItems xs
/-- the pairs of a map -/
def mgpkFields : List (Bytes × SVal) → Bytes
  | [] => []
  | (k, x) :: xs => mgpkStrHead k.length ++ k ++ mgpkText x ++ mgpkFields xs
/-- the fields of a struct, without their names -/
def mgpkUnnamed : List (Bytes × SVal) → Bytes
  | [] => []
  | (_, x) :: xs => mgpkText x ++ mgpkUnnamed xs
end

/-- a big-endian number of `k` bytes -/
def mgpkNum (k : Nat) (r : Bytes) : Option (Nat × Bytes) := if r.length < k then none else some (beVal (r.take k), r.drop k)

/-- the length of a string and what follows its head (`none`: not a string) -/
def mgpkStrLen (b : UInt8) (r : Bytes) : Option (Nat × Bytes) :=
  if b.toNat / 32 = 5 then some (b.toNat % 32, r)
  else if b = 0xd9 then mgpkNum 1 r
  else if b = 0xda then mgpkNum 2 r
  else if b = 0xdb then mgpkNum 4 r
  else none

/-- the length of an array (`none`: not an array) -/
def mgpkArrLen (b : UInt8) (r : Bytes) : Option (Nat × Bytes) :=
  if b.toNat / 16 = 9 then some (b.toNat % 16, r)
  else if b = 0xdc then mgpkNum 2 r
  else if b = 0xdd then mgpkNum 4 r
  else none

/-- the number of pairs of a map (`none`: not a map) -/
def mgpkMapLen (b : UInt8) (r : Bytes) : Option (Nat × Bytes) :=
  if b.toNat / 16 = 8 then some (b.toNat % 16, r)
  else if b = 0xde then mgpkNum 2 r
  else if b = 0xdf then mgpkNum 4 r
  else none

/-- a string -/
def mgpkStr (s : Bytes) : Option (Bytes × Bytes) :=
  match s with
  | [] => none
  | b :: r =>
    match mgpkStrLen b r with
    | none => none
    | some (n, r) => if r.length < n then none else if utf8Valid (r.take n) then some (r.take n, r.drop n) else none

/-- the number of bytes of an integer after its first (`none`: not an integer) -/
def mgpkIntWidth (b : UInt8) : Option Nat :=
  if b.toNat < 0x80 ∨ 0xe0 ≤ b.toNat then some 0
  else if b = 0xcc ∨ b = 0xd0 then some 1
  else if b = 0xcd ∨ b = 0xd1 then some 2
  else if b = 0xce ∨ b = 0xd2 then some 4
  else if b = 0xcf ∨ b = 0xd3 then some 8
  else none

mutual
/-- one value; `depth` as for JSON, the fuel bounds the recursive calls -/
def mgpkValue : Nat → Nat → Bytes → Option (JVal × Bytes)
  | 0, _, _ => none
  | _ + 1, _, [] => none
  | n + 1, depth, b :: r =>
    if b = 0xc0 then some (.null, r)
    else if b = 0xc2 then some (.bool false, r)
    else if b = 0xc3 then some (.bool true, r)
    else match mgpkStr (b :: r) with
      | some (x, r) => some (.str x, r)
      | none =>
        match mgpkArrLen b r with
        | some (k, r) => if depth ≤ 1 then none else (mgpkElems n (depth - 1) k r).map fun p => (.arr p.1, p.2)
        | none =>
          match mgpkMapLen b r with
          | some (k, r) =>
            if depth ≤ 1 then none
            else match mgpkMembers n (depth - 1) k r with
              | (fs, some r) => some (.obj fs, r)
              | (_, none) => none
          | none =>
            match mgpkIntWidth b with
            | some k => (mgpkNum k r).map fun p => (.num, p.2)
            | none => none
/-- a known number of elements -/
def mgpkElems : Nat → Nat → Nat → Bytes → Option (List JVal × Bytes)
  | 0, _, _, _ => none
  | _ + 1, _, 0, s => some ([], s)
  | n + 1, depth, k + 1, s =>
    match mgpkValue n depth s with
    | none => none
    | some (x, r) => (mgpkElems n depth k r).map fun p => (x :: p.1, p.2)
/-- a known number of pairs: those read, and the rest of the input unless malformed -/
def mgpkMembers : Nat → Nat → Nat → Bytes → List (Bytes × JVal) × Option Bytes
  | 0, _, _, _ => ([], none)
  | _ + 1, _, 0, s => ([], some s)
  | n + 1, depth, k + 1, s =>
    match mgpkStr s with
    | none => ([], none)
    | some (key, r) =>
      match mgpkValue n depth r with
      | none => ([], none)
      | some (x, r) =>
        let rest := mgpkMembers n depth k r
        ((key, x) :: rest.1, rest.2)
end

/-- the pairs of a top-level map and what follows it (`none`: malformed, or not a map) -/
def mgpkTop (s : Bytes) : List (Bytes × JVal) × Option Bytes :=
  match s with
  | [] => ([], none)
  | b :: r =>
    match mgpkMapLen b r with
    | none => ([], none)
    | some (k, r) => mgpkMembers (2 * s.length + 2) 1023 k r

/-- `mgpk_message`, `/repo/src/event_parsing/message.rs:44-50`, on what `mgpkTop` reads: any error is a recoverable parser error -/
def mgpkMessage {α : Type} (inner : List (Bytes × JVal) → Res α) (s : Bytes) : IRes (SerInfo × α) :=
  match desMessage inner (mgpkTop s) with
  | .ok (info, e, rest) => .ok rest (info, e)
  | .err _ => .error
  | .panic => .panic

/-- The binary readers of the program agree with this MessagePack reader wherever it finds a complete map.  (The CBOR reader, tried
before, fails on these inputs: 0x80–0x8f are CBOR arrays, where a message needs a map, and 0xde, 0xdf are malformed tags.) -/
structure Binary.ReadsMgpk (bin : Binary) : Prop where
  event : ∀ s, (mgpkTop s).2 ≠ none → bin.event s = mgpkMessage desKeyEvent s
  receipt : ∀ s, (mgpkTop s).2 ≠ none → bin.receipt s = mgpkMessage (fun fs => desReceipt fs none none none) s

/-- the environment writes MessagePack like this writer -/
def Env.WritesMgpk (env : Env) : Prop := ∀ v, env.mgpk v = some (mgpkText v)

mutual
/-- what a MessagePack reader sees of a written value: structs have become arrays -/
def SVal.toM : SVal → JVal
  | .null => .null
  | .str s => .str s
  | .seq xs => .arr (SVal.toMs xs)
  | .map fs => .obj (SVal.toMFields fs)
  | .struct fs => .arr (SVal.toMValues fs)
/-- element-wise -/
def SVal.toMs : List SVal → List JVal
  | [] => []
  | x :: xs => x.toM :: SVal.toMs xs
/-- field-wise -/
def SVal.toMFields : List (Bytes × SVal) → List (Bytes × JVal)
  | [] => []
  | (k, x) :: xs => (k, x.toM) :: SVal.toMFields xs
/-- field-wise, without names -/
def SVal.toMValues : List (Bytes × SVal) → List JVal
  | [] => []
  | (_, x) :: xs => x.toM :: SVal.toMValues xs
end

end Keriox
