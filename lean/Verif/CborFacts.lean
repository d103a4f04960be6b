import Verif.Cbor
/-!
# Reading what `serde_cbor` writes (helper lemmas)
-/
namespace Keriox

theorem cborArg_wide (info k n : Nat) (rest : Bytes) (hw : cborWidth info = some k) (hk : k ≠ 0) (hn : n < 256 ^ k) :
    cborArg info (beBytes k n ++ rest) = some (n, rest) := by
  have hl := beBytes_length k n
  unfold cborArg
  rw [hw]
  have key : (if (beBytes k n ++ rest).length < k then none else some (beVal ((beBytes k n ++ rest).take k), (beBytes k n ++ rest).drop k))
      = some (n, rest) := by
    rw [if_neg (by rw [List.length_append]; omega), List.take_append_of_le_length (by omega), List.take_of_length_le (by omega),
      List.drop_append_of_le_length (by omega), List.drop_of_length_le (by omega), beVal_beBytes k n hn]
    rfl
  cases k with
  | zero => exact absurd rfl hk
  | succ k => exact key

/-- a head announces its major type and its argument -/
theorem cborHead_spec (major n : Nat) (hm : major ≤ 7) (hn : n < 2 ^ 64) : ∃ b r, cborHead major n = b :: r ∧ b.toNat / 32 = major ∧
    b.toNat % 32 ≠ 31 ∧ ∀ rest, cborArg (b.toNat % 32) (r ++ rest) = some (n, rest) := by
  have hb : ∀ i : Nat, i < 32 → (UInt8.ofNat (major * 32 + i)).toNat = major * 32 + i := fun i hi => by
    simp; omega
  unfold cborHead
  split
  · rename_i h
    refine ⟨_, [], rfl, by rw [hb n (by omega)]; omega, by rw [hb n (by omega)]; omega, fun rest => ?_⟩
    rw [hb n (by omega)]
    have : (major * 32 + n) % 32 = n := by omega
    rw [this]
    unfold cborArg cborWidth
    rw [if_pos h]; rfl
  · split
    · refine ⟨_, _, rfl, by rw [hb 24 (by omega)]; omega, by rw [hb 24 (by omega)]; omega, fun rest => ?_⟩
      rw [hb 24 (by omega)]
      have : (major * 32 + 24) % 32 = 24 := by omega
      rw [this]
      exact cborArg_wide 24 1 n rest rfl (by omega) (by omega)
    · split
      · refine ⟨_, _, rfl, by rw [hb 25 (by omega)]; omega, by rw [hb 25 (by omega)]; omega, fun rest => ?_⟩
        rw [hb 25 (by omega)]
        have : (major * 32 + 25) % 32 = 25 := by omega
        rw [this]
        exact cborArg_wide 25 2 n rest rfl (by omega) (by omega)
      · split
        · refine ⟨_, _, rfl, by rw [hb 26 (by omega)]; omega, by rw [hb 26 (by omega)]; omega, fun rest => ?_⟩
          rw [hb 26 (by omega)]
          have : (major * 32 + 26) % 32 = 26 := by omega
          rw [this]
          exact cborArg_wide 26 4 n rest rfl (by omega) (by omega)
        · refine ⟨_, _, rfl, by rw [hb 27 (by omega)]; omega, by rw [hb 27 (by omega)]; omega, fun rest => ?_⟩
          rw [hb 27 (by omega)]
          have : (major * 32 + 27) % 32 = 27 := by omega
          rw [this]
          exact cborArg_wide 27 8 n rest rfl (by omega) (by omega)

theorem cborHead_length (major n : Nat) : 1 ≤ (cborHead major n).length := by
  unfold cborHead
  repeat' split
  all_goals simp

theorem cborStr_written (s : Bytes) (b : UInt8) (r rest : Bytes) (hu : utf8Valid s = true)
    (ha : ∀ rest, cborArg (b.toNat % 32) (r ++ rest) = some (s.length, rest)) :
    cborStr (b.toNat % 32) (r ++ (s ++ rest)) = some (s, rest) := by
  unfold cborStr
  rw [ha]
  dsimp only
  rw [if_neg (by rw [List.length_append]; omega), List.take_append_of_le_length (Nat.le_refl _), List.take_length,
    if_pos hu, List.drop_left]

theorem cborKey_written (k rest : Bytes) (hu : utf8Valid k = true) (hl : k.length < 2 ^ 64) :
    cborKey (cborHead 3 k.length ++ (k ++ rest)) = some (k, rest) := by
  obtain ⟨b, r, he, hm, -, ha⟩ := cborHead_spec 3 k.length (by omega) hl
  rw [he]
  unfold cborKey
  rw [List.cons_append]
  dsimp only
  rw [if_pos hm]
  exact cborStr_written k b r rest hu ha

theorem cborText_length (v : SVal) : 1 ≤ (cborText v).length := by
  cases v with
  | null => simp [cborText]
  | str s => have := cborHead_length 3 s.length; simp only [cborText, List.length_append]; omega
  | seq xs => have := cborHead_length 4 xs.length; simp only [cborText, List.length_append]; omega
  | map fs => simp [cborText]
  | struct fs => have := cborHead_length 5 fs.length; simp only [cborText, List.length_append]; omega

theorem cborItems_length : ∀ xs : List SVal, xs.length ≤ (cborItems xs).length
  | [] => by simp [cborItems]
  | x :: xs => by
    have := cborItems_length xs; have := cborText_length x
    simp only [cborItems, List.length_append, List.length_cons]; omega

theorem cborFields_length : ∀ fs : List (Bytes × SVal), fs.length ≤ (cborFields fs).length
  | [] => by simp [cborFields]
  | (k, x) :: xs => by
    have := cborFields_length xs; have := cborText_length x
    simp only [cborFields, List.length_append, List.length_cons]; omega

mutual
theorem cborValue_written : ∀ (v : SVal) (d : Nat) (rest : Bytes) (n : Nat), v.Fits d → 2 * (cborText v).length ≤ n → (cborText v).length < 2 ^ 64 →
    cborValue n d (cborText v ++ rest) = some (v.toJ, rest)
  | .null, d, rest, n, _, hn, _ => by
    have : (cborText .null).length = 1 := rfl
    obtain ⟨n, rfl⟩ : ∃ k, n = k + 1 := ⟨n - 1, by omega⟩
    unfold cborValue
    rfl
  | .str s, d, rest, n, hf, hn, hb => by
    have h1 := cborText_length (.str s)
    obtain ⟨n, rfl⟩ : ∃ k, n = k + 1 := ⟨n - 1, by omega⟩
    simp only [cborText, List.length_append] at hb
    obtain ⟨b, r, he, hm, -, ha⟩ := cborHead_spec 3 s.length (by omega) (by omega)
    simp only [cborText, he, List.append_assoc, List.cons_append]
    unfold cborValue
    rw [if_pos hm, cborStr_written s b r rest (by simpa [SVal.Fits] using hf) ha]
    rfl
  | .seq xs, d, rest, n, hf, hn, hb => by
    have h1 := cborText_length (.seq xs)
    obtain ⟨n, rfl⟩ : ∃ k, n = k + 1 := ⟨n - 1, by omega⟩
    unfold SVal.Fits at hf
    simp only [cborText, List.length_append] at hb hn
    have hl := cborItems_length xs
    have hh := cborHead_length 4 xs.length
    obtain ⟨b, r, he, hm, h31, ha⟩ := cborHead_spec 4 xs.length (by omega) (by omega)
    simp only [cborText, he, List.append_assoc, List.cons_append]
    unfold cborValue
    rw [if_neg (by omega), if_pos hm, if_neg (by omega), if_neg h31, ha]
    dsimp only
    rw [cborElems_written xs (d - 1) rest n hf.2 (by omega) (by omega)]
    rfl
  | .map fs, d, rest, n, hf, hn, hb => by
    have h1 := cborText_length (.map fs)
    obtain ⟨n, rfl⟩ : ∃ k, n = k + 1 := ⟨n - 1, by omega⟩
    unfold SVal.Fits at hf
    simp only [cborText, List.length_append, List.length_cons, List.length_nil] at hb hn
    simp only [cborText, List.append_assoc, List.cons_append, List.nil_append]
    unfold cborValue
    rw [if_neg (by decide), if_neg (by decide), if_pos (by decide), if_neg (by omega), if_pos (by decide)]
    rw [cborMembersI_written fs (d - 1) rest n hf.2 (by omega) (by omega)]
    rfl
  | .struct fs, d, rest, n, hf, hn, hb => by
    have h1 := cborText_length (.struct fs)
    obtain ⟨n, rfl⟩ : ∃ k, n = k + 1 := ⟨n - 1, by omega⟩
    unfold SVal.Fits at hf
    simp only [cborText, List.length_append] at hb hn
    have hl := cborFields_length fs
    have hh := cborHead_length 5 fs.length
    obtain ⟨b, r, he, hm, h31, ha⟩ := cborHead_spec 5 fs.length (by omega) (by omega)
    simp only [cborText, he, List.append_assoc, List.cons_append]
    unfold cborValue
    rw [if_neg (by omega), if_neg (by omega), if_pos hm, if_neg (by omega), if_neg h31, ha]
    dsimp only
    rw [cborMembers_written fs (d - 1) rest n hf.2 (by omega) (by omega)]
    rfl
theorem cborElems_written : ∀ (xs : List SVal) (d : Nat) (rest : Bytes) (n : Nat), SVal.FitsL d xs → 2 * (cborItems xs).length + 1 ≤ n →
    (cborItems xs).length < 2 ^ 64 → cborElems n d xs.length (cborItems xs ++ rest) = some (SVal.toJs xs, rest)
  | [], d, rest, n, _, hn, _ => by
    obtain ⟨n, rfl⟩ : ∃ k, n = k + 1 := ⟨n - 1, by omega⟩
    unfold cborElems
    rfl
  | x :: xs, d, rest, n, hf, hn, hb => by
    obtain ⟨n, rfl⟩ : ∃ k, n = k + 1 := ⟨n - 1, by omega⟩
    unfold SVal.FitsL at hf
    have h1 := cborText_length x
    simp only [cborItems, List.length_append] at hn hb
    simp only [cborItems, List.append_assoc, List.length_cons]
    unfold cborElems
    rw [cborValue_written x d _ n hf.1 (by omega) (by omega)]
    dsimp only
    rw [cborElems_written xs d rest n hf.2 (by omega) (by omega)]
    rfl
theorem cborMembers_written : ∀ (fs : List (Bytes × SVal)) (d : Nat) (rest : Bytes) (n : Nat), SVal.FitsF d fs → 2 * (cborFields fs).length + 1 ≤ n →
    (cborFields fs).length < 2 ^ 64 → cborMembers n d fs.length (cborFields fs ++ rest) = (SVal.toJFields fs, some rest)
  | [], d, rest, n, _, hn, _ => by
    obtain ⟨n, rfl⟩ : ∃ k, n = k + 1 := ⟨n - 1, by omega⟩
    unfold cborMembers
    rfl
  | (k, x) :: fs, d, rest, n, hf, hn, hb => by
    obtain ⟨n, rfl⟩ : ∃ k, n = k + 1 := ⟨n - 1, by omega⟩
    unfold SVal.FitsF at hf
    have h1 := cborText_length x
    simp only [cborFields, List.length_append] at hn hb
    simp only [cborFields, List.append_assoc, List.length_cons]
    unfold cborMembers
    rw [cborKey_written k _ hf.1 (by omega)]
    dsimp only
    rw [cborValue_written x d _ n hf.2.1 (by omega) (by omega)]
    dsimp only
    rw [cborMembers_written fs d rest n hf.2.2 (by omega) (by omega)]
    rfl
theorem cborMembersI_written : ∀ (fs : List (Bytes × SVal)) (d : Nat) (rest : Bytes) (n : Nat), SVal.FitsF d fs → 2 * (cborFields fs).length + 1 ≤ n →
    (cborFields fs).length < 2 ^ 64 → cborMembersI n d (cborFields fs ++ 0xff :: rest) = (SVal.toJFields fs, some rest)
  | [], d, rest, n, _, hn, _ => by
    obtain ⟨n, rfl⟩ : ∃ k, n = k + 1 := ⟨n - 1, by omega⟩
    unfold cborMembersI
    rfl
  | (k, x) :: fs, d, rest, n, hf, hn, hb => by
    obtain ⟨n, rfl⟩ : ∃ k, n = k + 1 := ⟨n - 1, by omega⟩
    unfold SVal.FitsF at hf
    have h1 := cborText_length x
    simp only [cborFields, List.length_append] at hn hb
    have hkey := cborKey_written k (cborText x ++ (cborFields fs ++ 0xff :: rest)) hf.1 (by omega)
    obtain ⟨b, r, he, hm, -, -⟩ := cborHead_spec 3 k.length (by omega) (by omega)
    simp only [cborFields, List.append_assoc]
    rw [he, List.cons_append] at hkey ⊢
    unfold cborMembersI
    have hff : b ≠ 0xff := fun h => by subst h; revert hm; decide
    rw [if_neg hff, hkey]
    dsimp only
    rw [cborValue_written x d _ n hf.2.1 (by omega) (by omega)]
    dsimp only
    rw [cborMembersI_written fs d rest n hf.2.2 (by omega) (by omega)]
    rfl
end

/-- reading a written top-level map -/
theorem cborTop_written (fs : List (Bytes × SVal)) (rest : Bytes) (hf : SVal.FitsF 127 fs) (hl : (cborText (.map fs)).length < 2 ^ 64) :
    cborTop (cborText (.map fs) ++ rest) = (SVal.toJFields fs, some rest) := by
  simp only [cborText, List.length_append, List.length_cons, List.length_nil] at hl
  unfold cborTop
  simp only [cborText, List.append_assoc, List.cons_append, List.nil_append]
  rw [if_pos (by decide), if_pos (by decide),
    cborMembersI_written fs 127 rest _ hf (by simp only [List.length_append, List.length_cons]; omega) (by omega)]

end Keriox
