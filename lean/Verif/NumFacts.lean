import Verif.PrefixFacts
import Verif.Serde
/-!
# Numbers in texts (helper lemmas)
-/
namespace Keriox

theorem digitVal_hexDigit (b : Nat) (hb : b ≤ 16) (n : Nat) (hn : n < b) : digitVal b (hexDigit n) = some n := by
  have key : ∀ b : Fin 17, ∀ n : Fin 16, n.val < b.val → digitVal b.val (hexDigit n.val) = some n.val := by decide
  exact key ⟨b, by omega⟩ ⟨n, by omega⟩ hn

theorem parseDigits_append (b : Nat) (s t : Bytes) (acc : Nat) :
    parseDigits b (s ++ t) acc = (parseDigits b s acc).bind fun a => parseDigits b t a := by
  induction s generalizing acc with
  | nil => rfl
  | cons c cs ih =>
    simp only [List.cons_append, parseDigits]
    cases digitVal b c with
    | none => rfl
    | some v => exact ih _

theorem parseDigits_zeros (b : Nat) (hb : 1 ≤ b) (k : Nat) (s : Bytes) : parseDigits b (List.replicate k 48 ++ s) 0 = parseDigits b s 0 := by
  induction k with
  | zero => rfl
  | succ k ih =>
    rw [List.replicate_succ, List.cons_append]
    have h0 : digitVal b 48 = some 0 := by
      unfold digitVal; simp; omega
    simp only [parseDigits, h0]
    simpa using ih

theorem toBase_unfold (b n : Nat) : toBase b n = if n < b ∨ b < 2 then [hexDigit n] else toBase b (n / b) ++ [hexDigit (n % b)] := by
  conv => lhs; unfold toBase
  split <;> rfl

theorem parseDigits_toBase (b : Nat) (hb : 2 ≤ b) (hb' : b ≤ 16) (n : Nat) : parseDigits b (toBase b n) 0 = some n := by
  induction n using Nat.strongRecOn with
  | ind n ih =>
    rw [toBase_unfold]
    by_cases h : n < b ∨ b < 2
    · rw [if_pos h]
      have hn : n < b := by omega
      simp [parseDigits, digitVal_hexDigit b hb' n hn]
    · rw [if_neg h]
      have hn : b ≤ n := by omega
      rw [parseDigits_append, ih (n / b) (Nat.div_lt_self (by omega) (by omega))]
      simp only [Option.bind_some, parseDigits]
      rw [digitVal_hexDigit b hb' _ (Nat.mod_lt _ (by omega))]
      simp only [Option.some.injEq]
      rw [Nat.mul_comm]; exact Nat.div_add_mod n b

theorem toBase_ne_nil (b n : Nat) : toBase b n ≠ [] := by
  rw [toBase_unfold]; split <;> simp

/-- the characters of a number: decimal and lower-case hexadecimal digits -/
def hexChars : Bytes := b!"0123456789abcdef"

theorem hexDigit_mem : ∀ n, n < 16 → hexDigit n ∈ hexChars := by decide

theorem toBase_chars (b : Nat) (hb : 2 ≤ b) (hb' : b ≤ 16) (n : Nat) : ∀ c ∈ toBase b n, c ∈ hexChars := by
  induction n using Nat.strongRecOn with
  | ind n ih =>
    rw [toBase_unfold]
    by_cases h : n < b ∨ b < 2
    · rw [if_pos h]
      intro c hc
      simp only [List.mem_singleton] at hc
      subst hc
      exact hexDigit_mem n (by omega)
    · rw [if_neg h]
      intro c hc
      rcases List.mem_append.1 hc with hc | hc
      · exact ih (n / b) (Nat.div_lt_self (by omega) (by omega)) c hc
      · simp only [List.mem_singleton] at hc
        subst hc
        exact hexDigit_mem _ (Nat.lt_of_lt_of_le (Nat.mod_lt _ (by omega)) hb')

theorem hexChars_ascii : ∀ c ∈ hexChars, c < 128 ∧ c ≠ 43 ∧ c ≠ 45 := by decide

theorem fromStrRadix_digits (b max : Nat) (s : Bytes) (hne : s ≠ []) (hs : ∀ c ∈ s, c ∈ hexChars) :
    fromStrRadix b max s = (parseDigits b s 0).bind fun v => if v ≤ max then some v else none := by
  cases s with
  | nil => exact absurd rfl hne
  | cons c cs =>
    have hc := hexChars_ascii c (hs c List.mem_cons_self)
    unfold fromStrRadix
    split
    · rename_i h; cases h
    · rename_i h; simp only [List.cons.injEq] at h; exact absurd h.1 hc.2.1
    · rename_i h; simp only [List.cons.injEq] at h; exact absurd h.1 hc.2.2
    · rename_i c' cs' _ _ h
      simp only [List.cons.injEq] at h
      obtain ⟨rfl, rfl⟩ := h
      dsimp only
      rw [if_neg hc.2.1]
      cases parseDigits b (c :: cs) 0 <;> rfl

/-- reading a number written in the same base -/
theorem fromStrRadix_toBase (b max : Nat) (hb : 2 ≤ b) (hb' : b ≤ 16) (n : Nat) :
    fromStrRadix b max (toBase b n) = if n ≤ max then some n else none := by
  rw [fromStrRadix_digits b max _ (toBase_ne_nil b n) (toBase_chars b hb hb' n), parseDigits_toBase b hb hb']
  rfl

theorem toBase_length_le (b : Nat) (hb : 2 ≤ b) (w n : Nat) (hw : 1 ≤ w) : (toBase b n).length ≤ w ↔ n < b ^ w := by
  induction w generalizing n with
  | zero => omega
  | succ w ih =>
    rw [toBase_unfold]
    by_cases h : n < b ∨ b < 2
    · rw [if_pos h]
      have : n < b := by omega
      have h2 : b ^ 1 ≤ b ^ (w + 1) := Nat.pow_le_pow_right (by omega) (by omega)
      simp only [List.length_singleton, Nat.pow_one] at *
      constructor
      · intro _; omega
      · intro _; omega
    · rw [if_neg h]
      simp only [List.length_append, List.length_singleton]
      by_cases hw0 : w = 0
      · subst hw0
        have hl : 1 ≤ (toBase b (n / b)).length := by
          have := toBase_ne_nil b (n / b)
          cases hh : toBase b (n / b) with
          | nil => exact absurd hh this
          | cons _ _ => simp
        simp only [Nat.zero_add, Nat.pow_one]
        omega
      · have := ih (n / b) (by omega)
        rw [Nat.add_le_add_iff_right, this, Nat.pow_succ, Nat.div_lt_iff_lt_mul (by omega)]

theorem padZero_length (w : Nat) (s : Bytes) (h : s.length ≤ w) : (padZero w s).length = w := by
  simp [padZero]; omega

theorem padZero_chars (w : Nat) (s : Bytes) (hs : ∀ c ∈ s, c ∈ hexChars) : ∀ c ∈ padZero w s, c ∈ hexChars := by
  intro c hc
  unfold padZero at hc
  rcases List.mem_append.1 hc with hc | hc
  · rw [List.eq_of_mem_replicate hc]; decide
  · exact hs c hc

end Keriox
