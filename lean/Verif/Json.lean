import Verif.Serde
import Verif.Nom
/-!
# Reading JSON — the `serde_json` crate as used by `/repo/src/event_parsing/message.rs:26-34`

`serde_json::Deserializer::from_slice(..).into_iter()`: compact or spaced JSON, UTF-8 checked strings, recursion limit 128.
Simplifications: numbers are recognised by the JSON grammar and carry no value (no field of any message is a number; the
crate also rejects numbers outside the `f64` range), and errors carry no message or position.
-/
namespace Keriox

/-- A JSON value as the crate sees it; members in the order of the text. -/
inductive JVal where
  | null
  | bool (b : Bool)
  | num
  | str (s : Bytes)
  | arr (xs : List JVal)
  | obj (fs : List (Bytes × JVal))
  deriving Repr

/-- `parse_whitespace` -/
def isWs (c : UInt8) : Bool := c = 32 || c = 10 || c = 9 || c = 13

/-- skip white space -/
def skipWs (s : Bytes) : Bytes := s.dropWhile isWs

/-- UTF-8 encoding of a code point -/
def utf8Enc (c : Nat) : Bytes :=
  if c < 0x80 then [UInt8.ofNat c]
  else if c < 0x800 then [UInt8.ofNat (0xC0 + c / 64), UInt8.ofNat (0x80 + c % 64)]
  else if c < 0x10000 then
    [UInt8.ofNat (0xE0 + c / 4096), UInt8.ofNat (0x80 + c / 64 % 64), UInt8.ofNat (0x80 + c % 64)]
  else [UInt8.ofNat (0xF0 + c / 262144), UInt8.ofNat (0x80 + c / 4096 % 64), UInt8.ofNat (0x80 + c / 64 % 64),
    UInt8.ofNat (0x80 + c % 64)]

/-- four hexadecimal digits -/
def hex4 (s : Bytes) : Option (Nat × Bytes) :=
  match s with
  | a :: b :: c :: d :: r =>
    match digitVal 16 a, digitVal 16 b, digitVal 16 c, digitVal 16 d with
    | some a, some b, some c, some d => some (((a * 16 + b) * 16 + c) * 16 + d, r)
    | _, _, _, _ => none
  | _ => none

/-- `\u` escapes: a high surrogate must be followed by an escaped low one, lone surrogates are errors -/
def unicodeEscape (s : Bytes) : Option (Bytes × Bytes) :=
  match hex4 s with
  | none => none
  | some (n, r) =>
    if 0xDC00 ≤ n ∧ n ≤ 0xDFFF then none
    else if 0xD800 ≤ n ∧ n ≤ 0xDBFF then
      match r with
      | 92 :: 117 :: r' =>
        match hex4 r' with
        | some (n2, r'') =>
          if 0xDC00 ≤ n2 ∧ n2 ≤ 0xDFFF then some (utf8Enc (0x10000 + (n - 0xD800) * 1024 + (n2 - 0xDC00)), r'') else none
        | none => none
      | _ => none
    else some (utf8Enc n, r)

/-- what follows a backslash -/
def escapeSeq (s : Bytes) : Option (Bytes × Bytes) :=
  match s with
  | [] => none
  | c :: r =>
    if c = 34 then some ([34], r)
    else if c = 92 then some ([92], r)
    else if c = 47 then some ([47], r)
    else if c = 98 then some ([8], r)
    else if c = 102 then some ([12], r)
    else if c = 110 then some ([10], r)
    else if c = 114 then some ([13], r)
    else if c = 116 then some ([9], r)
    else if c = 117 then unicodeEscape r
    else none

/-- the characters of a string up to its closing quote (fuel: a bound on their number) -/
def strBody : Nat → Bytes → Option (Bytes × Bytes)
  | 0, _ => none
  | n + 1, s =>
    match s with
    | [] => none
    | c :: r =>
      if c = 34 then some ([], r)
      else if c = 92 then
        match escapeSeq r with
        | none => none
        | some (bs, r') => (strBody n r').map fun p => (bs ++ p.1, p.2)
      else if c < 32 then none
      else (strBody n r).map fun p => (c :: p.1, p.2)

/-- `parse_str` after the opening quote -/
def jsonString (s : Bytes) : Option (Bytes × Bytes) :=
  match strBody (s.length + 1) s with
  | some (b, r) => if utf8Valid b then some (b, r) else none
  | none => none

/-- one or more digits -/
def digits1 (s : Bytes) : Option Bytes :=
  match s with
  | c :: r => if 48 ≤ c ∧ c ≤ 57 then some (r.dropWhile fun c => 48 ≤ c && c ≤ 57) else none
  | [] => none

/-- an optional exponent -/
def expPart (s : Bytes) : Option Bytes :=
  match s with
  | c :: r =>
    if c = 101 ∨ c = 69 then
      match r with
      | d :: r' => if d = 43 ∨ d = 45 then digits1 r' else digits1 r
      | [] => none
    else some s
  | [] => some s

/-- an optional fraction, then an optional exponent -/
def fracPart (s : Bytes) : Option Bytes :=
  match s with
  | c :: r =>
    if c = 46 then
      match digits1 r with
      | some r' => expPart r'
      | none => none
    else expPart s
  | [] => some s

/-- a number without sign: no leading zeros -/
def unsignedNum (s : Bytes) : Option Bytes :=
  match s with
  | c :: r =>
    if c = 48 then
      match r with
      | d :: _ => if 48 ≤ d ∧ d ≤ 57 then none else fracPart r
      | [] => some r
    else
      match digits1 s with
      | some r' => fracPart r'
      | none => none
  | [] => none

/-- an identifier (`null`, `true`, `false`) -/
def ident (w s : Bytes) : Option Bytes := if s.take w.length = w then some (s.drop w.length) else none

mutual
/-- one value.  `depth` is `remaining_depth` (128 at first): entering an array or object fails when it drops to zero; the fuel bounds
the number of recursive calls. -/
def jsonValue : Nat → Nat → Bytes → Option (JVal × Bytes)
  | 0, _, _ => none
  | n + 1, depth, s =>
    match skipWs s with
    | [] => none
    | c :: r =>
      if c = 110 then (ident b!"ull" r).map fun r => (.null, r)
      else if c = 116 then (ident b!"rue" r).map fun r => (.bool true, r)
      else if c = 102 then (ident b!"alse" r).map fun r => (.bool false, r)
      else if c = 34 then (jsonString r).map fun p => (.str p.1, p.2)
      else if c = 91 then
        if depth ≤ 1 then none else (jsonElements n (depth - 1) r).map fun p => (.arr p.1, p.2)
      else if c = 123 then
        if depth ≤ 1 then none
        else match jsonMembers n (depth - 1) r with
          | (fs, some r) => some (.obj fs, r)
          | (_, none) => none
      else if c = 45 then (unsignedNum r).map fun r => (.num, r)
      else (unsignedNum (c :: r)).map fun r => (.num, r)
/-- the elements of an array after `[` -/
def jsonElements : Nat → Nat → Bytes → Option (List JVal × Bytes)
  | 0, _, _ => none
  | n + 1, depth, s =>
    match skipWs s with
    | [] => none
    | c :: r =>
      if c = 93 then some ([], r)
      else match jsonValue n depth (c :: r) with
        | some (x, r) => (jsonElementsTail n depth r).map fun p => (x :: p.1, p.2)
        | none => none
/-- the elements after the first -/
def jsonElementsTail : Nat → Nat → Bytes → Option (List JVal × Bytes)
  | 0, _, _ => none
  | n + 1, depth, s =>
    match skipWs s with
    | [] => none
    | c :: r =>
      if c = 93 then some ([], r)
      else if c = 44 then
        match jsonValue n depth r with
        | some (x, r) => (jsonElementsTail n depth r).map fun p => (x :: p.1, p.2)
        | none => none
      else none
/-- the members of an object after `{`: those read, and the rest of the input unless malformed -/
def jsonMembers : Nat → Nat → Bytes → List (Bytes × JVal) × Option Bytes
  | 0, _, _ => ([], none)
  | n + 1, depth, s =>
    match skipWs s with
    | [] => ([], none)
    | c :: r => if c = 125 then ([], some r) else jsonMember n depth (c :: r)
/-- a member and those after it -/
def jsonMember : Nat → Nat → Bytes → List (Bytes × JVal) × Option Bytes
  | 0, _, _ => ([], none)
  | n + 1, depth, s =>
    match skipWs s with
    | [] => ([], none)
    | c :: r =>
      if c = 34 then
        match jsonString r with
        | none => ([], none)
        | some (k, r) =>
          match skipWs r with
          | [] => ([], none)
          | c :: r =>
            if c = 58 then
              match jsonValue n depth r with
              | none => ([], none)
              | some (x, r) =>
                let rest := jsonMembersTail n depth r
                ((k, x) :: rest.1, rest.2)
            else ([], none)
      else ([], none)
/-- after a member -/
def jsonMembersTail : Nat → Nat → Bytes → List (Bytes × JVal) × Option Bytes
  | 0, _, _ => ([], none)
  | n + 1, depth, s =>
    match skipWs s with
    | [] => ([], none)
    | c :: r =>
      if c = 125 then ([], some r)
      else if c = 44 then jsonMember n depth r
      else ([], none)
end

/-- the members of a top-level object and what follows it (`none`: malformed, or not an object) -/
def jsonTop (s : Bytes) : List (Bytes × JVal) × Option Bytes :=
  match skipWs s with
  | [] => ([], none)
  | c :: r => if c = 123 then jsonMembers (4 * r.length + 4) 127 r else ([], none)

mutual
/-- the JSON value of a serialized value -/
def SVal.toJ : SVal → JVal
  | .null => .null
  | .str s => .str s
  | .seq xs => .arr (SVal.toJs xs)
  | .map fs => .obj (SVal.toJFields fs)
  | .struct fs => .obj (SVal.toJFields fs)
/-- element-wise -/
def SVal.toJs : List SVal → List JVal
  | [] => []
  | x :: xs => x.toJ :: SVal.toJs xs
/-- field-wise -/
def SVal.toJFields : List (Bytes × SVal) → List (Bytes × JVal)
  | [] => []
  | (k, x) :: xs => (k, x.toJ) :: SVal.toJFields xs
end

mutual
/-- strings are UTF-8 (as every Rust string is) and nesting stays within the reader's limit -/
def SVal.Fits : Nat → SVal → Prop
  | _, .null => True
  | _, .str s => utf8Valid s = true
  | d, .seq xs => 2 ≤ d ∧ SVal.FitsL (d - 1) xs
  | d, .map fs => 2 ≤ d ∧ SVal.FitsF (d - 1) fs
  | d, .struct fs => 2 ≤ d ∧ SVal.FitsF (d - 1) fs
/-- element-wise -/
def SVal.FitsL : Nat → List SVal → Prop
  | _, [] => True
  | d, x :: xs => SVal.Fits d x ∧ SVal.FitsL d xs
/-- field-wise -/
def SVal.FitsF : Nat → List (Bytes × SVal) → Prop
  | _, [] => True
  | d, (k, x) :: xs => utf8Valid k = true ∧ SVal.Fits d x ∧ SVal.FitsF d xs
end

end Keriox
