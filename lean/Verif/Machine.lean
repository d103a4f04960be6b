import Verif.KeyConfig
/-!
# Threshold arithmetic in machine words

`Threshold.lean` adds weights as exact rational numbers and lays clauses over unbounded indices.  The
program uses `u64` numerators and denominators (`fraction::Fraction`) and `u16` indices.  Here the same
functions are modelled with those words, for both ways Rust treats an overflow.
-/
namespace Keriox

/-- what an arithmetic overflow does: `checked` builds (the `dev` and `test` profiles) panic, `wrapping` builds
(the `release` profile) reduce modulo the word size; `/repo/Cargo.toml` sets neither. -/
inductive Overflow where
  | checked
  | wrapping
  deriving DecidableEq, Repr

/-- one machine word below `size` -/
def Overflow.word (o : Overflow) (size x : Nat) : Res Nat :=
  if x < size then .ok x
  else match o with
    | .checked => .panic
    | .wrapping => .ok (x % size)

/-- `2^64` -/
def W64 : Nat := 18446744073709551616
/-- `2^16` -/
def W16 : Nat := 65536

namespace Frac
/-- `Ratio::new` of `num-rational` 0.4: panics on a zero denominator, then reduces.  The crate is not in the sandbox: this
and `ratioAdd` are written from its published source. -/
def ratioNew (n d : Nat) : Res Frac := if d = 0 then .panic else .ok (reduce n d)

/-- `Ratio<u64> + Ratio<u64>` of `num-rational` 0.4 (`arith_impl!`): with equal denominators the numerators are added,
otherwise both are brought over the least common multiple, computed as `b * (d / gcd b d)`. -/
def ratioAdd (o : Overflow) (a b c d : Nat) : Res Frac :=
  if b = d then do
    let n ← o.word W64 (a + c)
    ratioNew n d
  else do
    let l ← o.word W64 (b * (d / Nat.gcd b d))
    let x ← o.word W64 (a * (l / b))
    let y ← o.word W64 (c * (l / d))
    let n ← o.word W64 (x + y)
    ratioNew n l

/-- `Fraction + Fraction` with `u64` words, used at threshold.rs:160-162 -/
def addM (o : Overflow) : Frac → Frac → Res Frac
  | .nan, _ => .ok .nan
  | _, .nan => .ok .nan
  | .inf, _ => .ok .inf
  | _, .inf => .ok .inf
  | .rat a b, .rat c d => ratioAdd o a b c d
end Frac

namespace Threshold
/-- the fold of `ThresholdClause::enough_signatures`, threshold.rs:155-163, in machine words -/
def clauseSumM (o : Overflow) (clause : List Frac) (start : Nat) : List AttachedSignaturePrefix → Frac → Res Frac
  | [], acc => .ok acc
  | s :: ss, acc =>
    match clause[s.index - start]? with
    | none => .panic
    | some w => (acc.addM o w).bind fun acc => clauseSumM o clause start ss acc

/-- `ThresholdClause::enough_signatures`, threshold.rs:155-163.  The comparison with one does no arithmetic that can
overflow. -/
def clauseEnoughM (o : Overflow) (clause : List Frac) (start : Nat) (sigs : List AttachedSignaturePrefix) : Res Bool :=
  (clauseSumM o clause start sigs Frac.zero).bind fun s => .ok s.geOne

/-- the fold of `MultiClauses::enough_signatures`, threshold.rs:192-209: `clause.0.len() as u16` truncates, adding it to
`start` overflows.  Simplification: the sum is formed once per clause; the program forms it again for every signature at or
above `start`, which with overflow checks panics in the same cases. -/
def multiEnoughM (o : Overflow) (sigs : List AttachedSignaturePrefix) : List (List Frac) → Nat → Bool → Res Bool
  | [], _, enough => .ok enough
  | c :: cs, start, enough =>
    (o.word W16 (start + c.length % W16)).bind fun stop =>
    if enough then
      (clauseEnoughM o c start (sigs.filter fun s => start ≤ s.index && s.index < stop)).bind fun e =>
      multiEnoughM o sigs cs stop e
    else multiEnoughM o sigs cs stop false

/-- `SignatureThreshold::enough_signatures`, threshold.rs:123-128, 81-87, in machine words -/
def enoughM (o : Overflow) (t : Threshold) (sigs : List AttachedSignaturePrefix) : Res Bool :=
  match t with
  | .simple n => .ok (n ≤ sigs.length)
  | .single c => clauseEnoughM o c 0 sigs
  | .multi cs => multiEnoughM o sigs cs 0 true
end Threshold

/-- `KeyConfig::verify`, key_config.rs:43-75, in machine words -/
def KeyConfig.verifyM (o : Overflow) (env : Env) (kc : KeyConfig) (msg : Bytes) (sigs : List AttachedSignaturePrefix) : Res Bool :=
  (kc.threshold.enoughM o sigs).bind fun enough =>
  if !enough then .err .notEnoughSigs
  else (kc.validSet sigs).bind fun valid =>
    if valid then verifySigs env kc.publicKeys msg sigs (.ok true)
    else .err (.semantic "Invalid signatures set")

end Keriox
