import Verif.Serde
/-!
# Signing thresholds — `/repo/src/event/sections/threshold.rs`
-/
namespace Keriox

/-- `fraction::Fraction` restricted to the values that `Fraction::new(u64, u64)` and sums of them
produce.  Simplification: numerators and denominators are unbounded (the crate uses `u64`, so very
large weights overflow there: `Machine.lean` models that and C80 relates the two). -/
inductive Frac where
  | rat (n d : Nat)
  | inf
  | nan
  deriving DecidableEq, Repr

namespace Frac
/-- reduced fraction, as kept by `num::rational::Ratio` -/
def reduce (n d : Nat) : Frac := .rat (n / Nat.gcd n d) (d / Nat.gcd n d)

/-- `Fraction::new`: a zero denominator gives infinity, or NaN for 0/0 -/
def new (n d : Nat) : Frac :=
  if d = 0 then (if n = 0 then .nan else .inf) else reduce n d

/-- `Zero::zero()` -/
def zero : Frac := .rat 0 1

/-- `Fraction + Fraction` -/
def add : Frac → Frac → Frac
  | .nan, _ => .nan
  | _, .nan => .nan
  | .inf, _ => .inf
  | _, .inf => .inf
  | .rat a b, .rat c d => reduce (a * d + c * b) (b * d)

/-- `>= One::one()` -/
def geOne : Frac → Bool
  | .nan => false
  | .inf => true
  | .rat n d => d ≤ n

/-- `Display` of `fraction::Fraction`: `n` when the denominator is one, else `n/d` -/
def toStr : Frac → Bytes
  | .nan => b!"NaN"
  | .inf => b!"inf"
  | .rat n d => if d = 1 then decStr n else decStr n ++ [47] ++ decStr d
end Frac

/-- split at `/` (`str::split('/')`) -/
def splitSlash : Bytes → List Bytes
  | [] => [[]]
  | c :: cs =>
    if c = 47 then [] :: splitSlash cs
    else match splitSlash cs with
      | [] => [[c]]
      | w :: ws => (c :: w) :: ws

/-- `ThresholdFraction::from_str`, threshold.rs:27-45 -/
def Frac.fromStr (s : Bytes) : Res Frac :=
  match splitSlash s with
  | [a] => do
    let n ← Res.ofOption (fromStrRadix 10 u64max a) .intParse
    .ok (Frac.new n 1)
  | [a, b] => do
    let n ← Res.ofOption (fromStrRadix 10 u64max a) .intParse
    let d ← Res.ofOption (fromStrRadix 10 u64max b) .intParse
    .ok (Frac.new n d)
  | _ => .err (.semantic "Improper threshold fraction")

/-- `SignatureThreshold`, `WeightedThreshold`, `ThresholdClause`, `MultiClauses`,
threshold.rs:66-79,139,171 -/
inductive Threshold where
  | simple (t : Nat)
  | single (clause : List Frac)
  | multi (clauses : List (List Frac))
  deriving DecidableEq, Repr

namespace Threshold

/-- `SignatureThreshold::default`, threshold.rs:132-136 -/
def default : Threshold := .simple 1

/-- `SignatureThreshold::single_weighted`, threshold.rs:111-115, 147-153 -/
def singleWeighted (ws : List (Nat × Nat)) : Threshold :=
  .single (ws.map fun p => Frac.new p.1 p.2)

/-- `SignatureThreshold::multi_weighted`, threshold.rs:117-121, 184-190 -/
def multiWeighted (ws : List (List (Nat × Nat))) : Threshold :=
  .multi (ws.map fun c => c.map fun p => Frac.new p.1 p.2)

/-- the fold of `ThresholdClause::enough_signatures`, threshold.rs:155-163:
`self.0[(sig.index - start) as usize]` panics when out of range (callers guarantee
`start ≤ sig.index`). -/
def clauseSum (clause : List Frac) (start : Nat) : List AttachedSignaturePrefix → Frac → Res Frac
  | [], acc => .ok acc
  | s :: ss, acc =>
    match clause[s.index - start]? with
    | none => .panic
    | some w => clauseSum clause start ss (acc.add w)

/-- `ThresholdClause::enough_signatures`, threshold.rs:155-163 -/
def clauseEnough (clause : List Frac) (start : Nat) (sigs : List AttachedSignaturePrefix) : Res Bool := do
  let s ← clauseSum clause start sigs Frac.zero
  .ok s.geOne

/-- the fold of `MultiClauses::enough_signatures`, threshold.rs:192-209; `enough &&` short-circuits.
Simplification: the `u16` running start index does not wrap (`Machine.lean` models it, C80). -/
def multiEnough (sigs : List AttachedSignaturePrefix) : List (List Frac) → Nat → Bool → Res Bool
  | [], _, enough => .ok enough
  | c :: cs, start, enough =>
    let ss := sigs.filter fun s => start ≤ s.index && s.index < start + c.length
    if enough then do
      let e ← clauseEnough c start ss
      multiEnough sigs cs (start + c.length) e
    else multiEnough sigs cs (start + c.length) false

/-- `SignatureThreshold::enough_signatures`, threshold.rs:123-128, 81-87 -/
def enough (t : Threshold) (sigs : List AttachedSignaturePrefix) : Res Bool :=
  match t with
  | .simple n => .ok (n ≤ sigs.length)
  | .single c => clauseEnough c 0 sigs
  | .multi cs => multiEnough sigs cs 0 true

/-- `ThresholdClause::extract_threshold`, threshold.rs:165-171 -/
def clauseText (c : List Frac) : Bytes := List.intercalate [44] (c.map Frac.toStr)

/-- the threshold text that is hashed into a next-key commitment: `nxt_commitment`,
`/repo/src/event/sections/key_config.rs:106-109` with `extract_threshold`, threshold.rs:89-103,211-217 -/
def commitText : Threshold → Bytes
  | .simple n => hexStr n
  | .single c => clauseText c
  | .multi cs => List.intercalate [38] (cs.map clauseText)

/-- `Serialize for SignatureThreshold`, threshold.rs:57-79,139,171 (untagged) -/
def sval : Threshold → SVal
  | .simple n => .str (hexStr n)
  | .single c => .seq (c.map fun f => .str f.toStr)
  | .multi cs => .seq (cs.map fun c => .seq (c.map fun f => .str f.toStr))

end Threshold
end Keriox
