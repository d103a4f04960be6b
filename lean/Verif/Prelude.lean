/-!
# Prelude: results, errors, bytes and Rust string slices

Models the conventions shared by all of `/repo/src`.
-/

namespace Keriox

/-- Bytes.  Rust `Vec<u8>`, `&[u8]` and also `String`/`&str` (as UTF-8 bytes). -/
abbrev Bytes := List UInt8

/-- `b!"abc"` is the list of UTF-8 bytes of the literal (a readable byte-string literal;
models Rust string literals such as `"KERI"`). -/
macro:max "b!" s:str : term => do
  let elems := s.getString.toUTF8.toList.map fun b => Lean.Syntax.mkNumLit (toString b.toNat)
  let arr := elems.toArray
  `(([$arr,*] : List UInt8))

/-- `/repo/src/query/mod.rs:103-123` (`QueryError`), only the variants; messages kept where the code carries them. -/
inductive QueryErr where
  | outOfOrder
  | staleKsn
  | staleRpy
  | noSavedReply
  | other (msg : String)
  deriving DecidableEq, Repr

/-- `/repo/src/error/mod.rs:11-113`.  Variants whose payload is a foreign error are kept without payload. -/
inductive Error where
  | semantic (msg : String)
  | deserialize (msg : String)
  | serialization
  | jsonSerialization
  | intParse
  | eventOutOfOrder
  | eventDuplicate
  | notEnoughSigs
  | signatureVerification
  | faultySignatureVerification
  | base64Decoding
  | improperPrefixType
  | storage
  | invalidIdentifierStat
  | incorrectDigest
  | mutexPoisoned
  | mutArcKeyVault
  | query (e : QueryErr)
  | other
  deriving DecidableEq, Repr

/-- Outcome of a Rust function returning `Result<T, Error>` that may also panic. -/
inductive Res (α : Type) where
  | ok (a : α)
  | err (e : Error)
  | panic
  deriving DecidableEq, Repr

namespace Res

/-- `?` operator: errors and panics propagate. -/
@[inline] def bind {α β : Type} (x : Res α) (f : α → Res β) : Res β :=
  match x with
  | .ok a => f a
  | .err e => .err e
  | .panic => .panic

instance : Monad Res where
  pure := Res.ok
  bind := Res.bind

def isOk {α} : Res α → Bool
  | .ok _ => true
  | _ => false

@[simp] theorem pure_def {α} (a : α) : (pure a : Res α) = .ok a := rfl
@[simp] theorem ok_bind {α β} (a : α) (f : α → Res β) : (Res.ok a >>= f) = f a := rfl
@[simp] theorem err_bind {α β} (e : Error) (f : α → Res β) : ((Res.err e : Res α) >>= f) = .err e := rfl
@[simp] theorem panic_bind {α β} (f : α → Res β) : ((Res.panic : Res α) >>= f) = .panic := rfl

theorem bind_eq_ok {α β} {x : Res α} {f : α → Res β} {b : β} :
    (x >>= f) = .ok b ↔ ∃ a, x = .ok a ∧ f a = .ok b := by
  cases x <;> simp

/-- An `Option` turned into a result with `ok_or`. -/
def ofOption {α} (o : Option α) (e : Error) : Res α :=
  match o with
  | some a => .ok a
  | none => .err e

/-- An `Option` that is unwrapped: `None` panics. -/
def unwrap {α} (o : Option α) : Res α :=
  match o with
  | some a => .ok a
  | none => .panic

end Res

/-- A byte that continues a UTF-8 sequence (so a `str` index pointing at it is not a char boundary). -/
def isCont (b : UInt8) : Bool := 0x80 ≤ b && b < 0xC0

/-- `str::is_char_boundary`. -/
def isBoundary (s : Bytes) (i : Nat) : Bool :=
  i == 0 || (match s[i]? with
    | none => i == s.length
    | some b => !isCont b)

/-- `s.get(a..b)` for a `&str`. -/
def strGet (s : Bytes) (a b : Nat) : Option Bytes :=
  if a ≤ b && b ≤ s.length && isBoundary s a && isBoundary s b then some ((s.take b).drop a) else none

/-- `&s[a..b]` for a `&str`: panics when out of range or not on char boundaries. -/
def strSlice (s : Bytes) (a b : Nat) : Res Bytes := Res.unwrap (strGet s a b)

/-- `&bs[a..b]` for `&[u8]`: panics when out of range. -/
def byteSlice (s : Bytes) (a b : Nat) : Res Bytes :=
  if a ≤ b && b ≤ s.length then .ok ((s.take b).drop a) else .panic

theorem isBoundary_length (s : Bytes) : isBoundary s s.length = true := by
  simp [isBoundary]

/-- Big-endian bytes of a number, `n` bytes wide (`to_be_bytes`). -/
def beBytes : Nat → Nat → Bytes
  | 0, _ => []
  | n + 1, x => beBytes n (x / 256) ++ [UInt8.ofNat (x % 256)]

/-- Big-endian value of bytes (`from_be_bytes`). -/
def beVal (bs : Bytes) : Nat := bs.foldl (fun acc b => acc * 256 + b.toNat) 0

theorem beBytes_length (n x : Nat) : (beBytes n x).length = n := by
  induction n generalizing x with
  | zero => rfl
  | succ n ih => simp [beBytes, ih]

theorem beVal_append (a : Bytes) (b : UInt8) : beVal (a ++ [b]) = beVal a * 256 + b.toNat := by
  simp [beVal]

theorem beVal_beBytes (n x : Nat) (h : x < 256 ^ n) : beVal (beBytes n x) = x := by
  induction n generalizing x with
  | zero => simp at h; subst h; rfl
  | succ n ih =>
    have h' : x / 256 < 256 ^ n := by
      apply Nat.div_lt_of_lt_mul; rw [Nat.pow_succ] at h; omega
    rw [beBytes, beVal_append, ih _ h']
    have : (UInt8.ofNat (x % 256)).toNat = x % 256 := by
      simp
    rw [this]; omega

/-- Leading zero bytes do not change the value. -/
theorem beVal_replicate_zero (k : Nat) (bs : Bytes) :
    beVal (List.replicate k 0 ++ bs) = beVal bs := by
  induction k with
  | zero => rfl
  | succ k ih =>
    rw [List.replicate_succ]
    simpa [beVal] using ih

/-- Lower-case hexadecimal digit (the `{:x}` formatter). -/
def hexDigit (n : Nat) : UInt8 :=
  if n < 10 then UInt8.ofNat (48 + n) else UInt8.ofNat (87 + n)

/-- digits of `n` in base `b`, most significant first, no leading zeros; `"0"` for zero
(the `{:x}` formatter with `b = 16`, `{}` with `b = 10`). -/
def toBase (b : Nat) (n : Nat) : Bytes :=
  if _h : n < b ∨ b < 2 then [hexDigit n] else toBase b (n / b) ++ [hexDigit (n % b)]
termination_by n
decreasing_by
  have : 2 ≤ b := by omega
  have : 0 < n := by omega
  exact Nat.div_lt_self (by omega) (by omega)

/-- `format!("{:x}", n)` -/
def hexStr (n : Nat) : Bytes := toBase 16 n
/-- `n.to_string()` -/
def decStr (n : Nat) : Bytes := toBase 10 n

/-- Left-pad with ASCII zero to width `w` (the `{:06x}` formatter). -/
def padZero (w : Nat) (s : Bytes) : Bytes := List.replicate (w - s.length) 48 ++ s

/-- value of one digit, as `char::to_digit(radix)` for radix ≤ 16: both letter cases accepted -/
def digitVal (b : Nat) (c : UInt8) : Option Nat :=
  let n := c.toNat
  let v? := if 48 ≤ n ∧ n ≤ 57 then some (n - 48)
    else if 97 ≤ n ∧ n ≤ 102 then some (n - 87)
    else if 65 ≤ n ∧ n ≤ 70 then some (n - 55)
    else none
  match v? with
  | some v => if v < b then some v else none
  | none => none

/-- digits to number, no sign -/
def parseDigits (b : Nat) : Bytes → Nat → Option Nat
  | [], acc => some acc
  | c :: cs, acc =>
    match digitVal b c with
    | some v => parseDigits b cs (acc * b + v)
    | none => none

/-- `uN::from_str_radix(s, b)` for an unsigned type with `max` as largest value: an optional `+`
sign, at least one digit, error on overflow (core::num). -/
def fromStrRadix (b max : Nat) (s : Bytes) : Option Nat :=
  match s with
  | [] => none
  | [43] => none
  | [45] => none
  | c :: cs =>
    let ds := if c = 43 then cs else c :: cs
    match parseDigits b ds 0 with
    | some v => if v ≤ max then some v else none
    | none => none

def u64max : Nat := 2 ^ 64 - 1
def u16max : Nat := 2 ^ 16 - 1

end Keriox
