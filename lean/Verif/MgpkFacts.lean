import Verif.Mgpk
/-!
# Reading what `rmp_serde` writes (helper lemmas)
-/
namespace Keriox

theorem mgpkNum_written (k n : Nat) (rest : Bytes) (hn : n < 256 ^ k) : mgpkNum k (beBytes k n ++ rest) = some (n, rest) := by
  have hl := beBytes_length k n
  unfold mgpkNum
  rw [if_neg (by rw [List.length_append]; omega), List.take_append_of_le_length (by omega), List.take_of_length_le (by omega),
    List.drop_append_of_le_length (by omega), List.drop_of_length_le (by omega), beVal_beBytes k n hn]
  rfl

private theorem toNat_small (n : Nat) (h : n < 256) : (UInt8.ofNat n).toNat = n := by simp; omega

theorem mgpkStrHead_spec (n : Nat) (hn : n < 2 ^ 32) : ∃ b r, mgpkStrHead n = b :: r ∧ b ≠ 0xc0 ∧ b ≠ 0xc2 ∧ b ≠ 0xc3 ∧
    ∀ rest, mgpkStrLen b (r ++ rest) = some (n, rest) := by
  have ne : ∀ m, m < 32 → UInt8.ofNat (0xa0 + m) ≠ 0xc0 ∧ UInt8.ofNat (0xa0 + m) ≠ 0xc2 ∧ UInt8.ofNat (0xa0 + m) ≠ 0xc3 := by decide
  unfold mgpkStrHead
  split
  · refine ⟨_, [], rfl, (ne n ‹_›).1, (ne n ‹_›).2.1, (ne n ‹_›).2.2, fun rest => ?_⟩
    unfold mgpkStrLen
    rw [toNat_small _ (by omega), if_pos (by omega)]
    simp; omega
  · split
    · exact ⟨_, _, rfl, by decide, by decide, by decide, fun rest => mgpkNum_written 1 n rest (by omega)⟩
    · split
      · exact ⟨_, _, rfl, by decide, by decide, by decide, fun rest => mgpkNum_written 2 n rest (by omega)⟩
      · exact ⟨_, _, rfl, by decide, by decide, by decide, fun rest => mgpkNum_written 4 n rest (by omega)⟩

theorem mgpkArrHead_spec (n : Nat) (hn : n < 2 ^ 32) : ∃ b r, mgpkArrHead n = b :: r ∧ b ≠ 0xc0 ∧ b ≠ 0xc2 ∧ b ≠ 0xc3 ∧
    (∀ rest, mgpkStrLen b rest = none) ∧ ∀ rest, mgpkArrLen b (r ++ rest) = some (n, rest) := by
  have ne : ∀ m, m < 16 → UInt8.ofNat (0x90 + m) ≠ 0xc0 ∧ UInt8.ofNat (0x90 + m) ≠ 0xc2 ∧ UInt8.ofNat (0x90 + m) ≠ 0xc3 ∧
      UInt8.ofNat (0x90 + m) ≠ 0xd9 ∧ UInt8.ofNat (0x90 + m) ≠ 0xda ∧ UInt8.ofNat (0x90 + m) ≠ 0xdb := by decide
  unfold mgpkArrHead
  split
  · obtain ⟨h1, h2, h3, h4, h5, h6⟩ := ne n ‹_›
    refine ⟨_, [], rfl, h1, h2, h3, fun rest => ?_, fun rest => ?_⟩
    · unfold mgpkStrLen
      rw [toNat_small _ (by omega), if_neg (by omega), if_neg h4, if_neg h5, if_neg h6]
    · unfold mgpkArrLen
      rw [toNat_small _ (by omega), if_pos (by omega)]
      simp; omega
  · split
    · exact ⟨_, _, rfl, by decide, by decide, by decide, fun _ => rfl, fun rest => mgpkNum_written 2 n rest (by omega)⟩
    · exact ⟨_, _, rfl, by decide, by decide, by decide, fun _ => rfl, fun rest => mgpkNum_written 4 n rest (by omega)⟩

theorem mgpkMapHead_spec (n : Nat) (hn : n < 2 ^ 32) : ∃ b r, mgpkMapHead n = b :: r ∧ b ≠ 0xc0 ∧ b ≠ 0xc2 ∧ b ≠ 0xc3 ∧
    (∀ rest, mgpkStrLen b rest = none) ∧ (∀ rest, mgpkArrLen b rest = none) ∧ ∀ rest, mgpkMapLen b (r ++ rest) = some (n, rest) := by
  have ne : ∀ m, m < 16 → UInt8.ofNat (0x80 + m) ≠ 0xc0 ∧ UInt8.ofNat (0x80 + m) ≠ 0xc2 ∧ UInt8.ofNat (0x80 + m) ≠ 0xc3 ∧
      UInt8.ofNat (0x80 + m) ≠ 0xd9 ∧ UInt8.ofNat (0x80 + m) ≠ 0xda ∧ UInt8.ofNat (0x80 + m) ≠ 0xdb ∧
      UInt8.ofNat (0x80 + m) ≠ 0xdc ∧ UInt8.ofNat (0x80 + m) ≠ 0xdd := by decide
  unfold mgpkMapHead
  split
  · obtain ⟨h1, h2, h3, h4, h5, h6, h7, h8⟩ := ne n ‹_›
    refine ⟨_, [], rfl, h1, h2, h3, fun rest => ?_, fun rest => ?_, fun rest => ?_⟩
    · unfold mgpkStrLen
      rw [toNat_small _ (by omega), if_neg (by omega), if_neg h4, if_neg h5, if_neg h6]
    · unfold mgpkArrLen
      rw [toNat_small _ (by omega), if_neg (by omega), if_neg h7, if_neg h8]
    · unfold mgpkMapLen
      rw [toNat_small _ (by omega), if_pos (by omega)]
      simp; omega
  · split
    · exact ⟨_, _, rfl, by decide, by decide, by decide, fun _ => rfl, fun _ => rfl, fun rest => mgpkNum_written 2 n rest (by omega)⟩
    · exact ⟨_, _, rfl, by decide, by decide, by decide, fun _ => rfl, fun _ => rfl, fun rest => mgpkNum_written 4 n rest (by omega)⟩

theorem mgpkStr_written (s rest : Bytes) (hu : utf8Valid s = true) (hl : s.length < 2 ^ 32) :
    mgpkStr (mgpkStrHead s.length ++ (s ++ rest)) = some (s, rest) := by
  obtain ⟨b, r, he, -, -, -, ha⟩ := mgpkStrHead_spec s.length hl
  rw [he, List.cons_append]
  unfold mgpkStr
  dsimp only
  rw [ha]
  dsimp only
  rw [if_neg (by rw [List.length_append]; omega), List.take_append_of_le_length (Nat.le_refl _), List.take_length,
    if_pos hu, List.drop_left]

theorem mgpkText_length (v : SVal) : 1 ≤ (mgpkText v).length := by
  have h1 : ∀ n, 1 ≤ (mgpkStrHead n).length := fun n => by unfold mgpkStrHead; repeat' split
                                                           all_goals simp
  have h2 : ∀ n, 1 ≤ (mgpkArrHead n).length := fun n => by unfold mgpkArrHead; repeat' split
                                                           all_goals simp
  have h3 : ∀ n, 1 ≤ (mgpkMapHead n).length := fun n => by unfold mgpkMapHead; repeat' split
                                                           all_goals simp
  cases v with
  | null => simp [mgpkText]
  | str s => have := h1 s.length; simp only [mgpkText, List.length_append]; omega
  | seq xs => have := h2 xs.length; simp only [mgpkText, List.length_append]; omega
  | map fs => have := h3 fs.length; simp only [mgpkText, List.length_append]; omega
  | struct fs => have := h2 fs.length; simp only [mgpkText, List.length_append]; omega

theorem mgpkItems_length : ∀ xs : List SVal, xs.length ≤ (mgpkItems xs).length
  | [] => by simp [mgpkItems]
  | x :: xs => by
    have := mgpkItems_length xs; have := mgpkText_length x
    simp only [mgpkItems, List.length_append, List.length_cons]; omega
theorem mgpkFields_length : ∀ fs : List (Bytes × SVal), fs.length ≤ (mgpkFields fs).length
  | [] => by simp [mgpkFields]
  | (k, x) :: xs => by
    have := mgpkFields_length xs; have := mgpkText_length x
    simp only [mgpkFields, List.length_append, List.length_cons]; omega
theorem mgpkUnnamed_length : ∀ fs : List (Bytes × SVal), fs.length ≤ (mgpkUnnamed fs).length
  | [] => by simp [mgpkUnnamed]
  | (k, x) :: xs => by
    have := mgpkUnnamed_length xs; have := mgpkText_length x
    simp only [mgpkUnnamed, List.length_append, List.length_cons]; omega

mutual
theorem mgpkValue_written : ∀ (v : SVal) (d : Nat) (rest : Bytes) (n : Nat), v.Fits d → 2 * (mgpkText v).length ≤ n → (mgpkText v).length < 2 ^ 32 →
    mgpkValue n d (mgpkText v ++ rest) = some (v.toM, rest)
  | .null, d, rest, n, _, hn, _ => by
    have : (mgpkText .null).length = 1 := rfl
    obtain ⟨n, rfl⟩ : ∃ k, n = k + 1 := ⟨n - 1, by omega⟩
    unfold mgpkValue
    rfl
  | .str s, d, rest, n, hf, hn, hb => by
    have h1 := mgpkText_length (.str s)
    obtain ⟨n, rfl⟩ : ∃ k, n = k + 1 := ⟨n - 1, by omega⟩
    simp only [mgpkText, List.length_append] at hb
    have hs := mgpkStr_written s rest (by simpa [SVal.Fits] using hf) (by omega)
    obtain ⟨b, r, he, hm, h2, h3, -⟩ := mgpkStrHead_spec s.length (by omega)
    simp only [mgpkText, he, List.append_assoc, List.cons_append] at hs ⊢
    unfold mgpkValue
    rw [if_neg hm, if_neg h2, if_neg h3, hs]
    rfl
  | .seq xs, d, rest, n, hf, hn, hb => by
    have h1 := mgpkText_length (.seq xs)
    obtain ⟨n, rfl⟩ : ∃ k, n = k + 1 := ⟨n - 1, by omega⟩
    unfold SVal.Fits at hf
    simp only [mgpkText, List.length_append] at hb hn
    have hl := mgpkItems_length xs
    obtain ⟨b, r, he, hm, h2, h3, hs, ha⟩ := mgpkArrHead_spec xs.length (by omega)
    rw [he, List.length_cons] at hn
    simp only [mgpkText, he, List.append_assoc, List.cons_append]
    unfold mgpkValue
    rw [if_neg hm, if_neg h2, if_neg h3]
    simp only [mgpkStr, hs, ha]
    rw [if_neg (by omega), mgpkElems_written xs (d - 1) rest n hf.2 (by omega) (by omega)]
    rfl
  | .map fs, d, rest, n, hf, hn, hb => by
    have h1 := mgpkText_length (.map fs)
    obtain ⟨n, rfl⟩ : ∃ k, n = k + 1 := ⟨n - 1, by omega⟩
    unfold SVal.Fits at hf
    simp only [mgpkText, List.length_append] at hb hn
    have hl := mgpkFields_length fs
    obtain ⟨b, r, he, hm, h2, h3, hs, hr, ha⟩ := mgpkMapHead_spec fs.length (by omega)
    rw [he, List.length_cons] at hn
    simp only [mgpkText, he, List.append_assoc, List.cons_append]
    unfold mgpkValue
    rw [if_neg hm, if_neg h2, if_neg h3]
    simp only [mgpkStr, hs, hr, ha]
    rw [if_neg (by omega), mgpkMembers_written fs (d - 1) rest n hf.2 (by omega) (by omega)]
    rfl
  | .struct fs, d, rest, n, hf, hn, hb => by
    have h1 := mgpkText_length (.struct fs)
    obtain ⟨n, rfl⟩ : ∃ k, n = k + 1 := ⟨n - 1, by omega⟩
    unfold SVal.Fits at hf
    simp only [mgpkText, List.length_append] at hb hn
    have hl := mgpkUnnamed_length fs
    obtain ⟨b, r, he, hm, h2, h3, hs, ha⟩ := mgpkArrHead_spec fs.length (by omega)
    rw [he, List.length_cons] at hn
    simp only [mgpkText, he, List.append_assoc, List.cons_append]
    unfold mgpkValue
    rw [if_neg hm, if_neg h2, if_neg h3]
    simp only [mgpkStr, hs, ha]
    rw [if_neg (by omega), mgpkUnnamed_written fs (d - 1) rest n hf.2 (by omega) (by omega)]
    rfl
theorem mgpkElems_written : ∀ (xs : List SVal) (d : Nat) (rest : Bytes) (n : Nat), SVal.FitsL d xs → 2 * (mgpkItems xs).length + 1 ≤ n →
    (mgpkItems xs).length < 2 ^ 32 → mgpkElems n d xs.length (mgpkItems xs ++ rest) = some (SVal.toMs xs, rest)
  | [], d, rest, n, _, hn, _ => by
    obtain ⟨n, rfl⟩ : ∃ k, n = k + 1 := ⟨n - 1, by omega⟩
    unfold mgpkElems
    rfl
  | x :: xs, d, rest, n, hf, hn, hb => by
    obtain ⟨n, rfl⟩ : ∃ k, n = k + 1 := ⟨n - 1, by omega⟩
    unfold SVal.FitsL at hf
    have h1 := mgpkText_length x
    simp only [mgpkItems, List.length_append] at hn hb
    simp only [mgpkItems, List.append_assoc, List.length_cons]
    unfold mgpkElems
    rw [mgpkValue_written x d _ n hf.1 (by omega) (by omega)]
    dsimp only
    rw [mgpkElems_written xs d rest n hf.2 (by omega) (by omega)]
    rfl
theorem mgpkUnnamed_written : ∀ (fs : List (Bytes × SVal)) (d : Nat) (rest : Bytes) (n : Nat), SVal.FitsF d fs → 2 * (mgpkUnnamed fs).length + 1 ≤ n →
    (mgpkUnnamed fs).length < 2 ^ 32 → mgpkElems n d fs.length (mgpkUnnamed fs ++ rest) = some (SVal.toMValues fs, rest)
  | [], d, rest, n, _, hn, _ => by
    obtain ⟨n, rfl⟩ : ∃ k, n = k + 1 := ⟨n - 1, by omega⟩
    unfold mgpkElems
    rfl
  | (k, x) :: fs, d, rest, n, hf, hn, hb => by
    obtain ⟨n, rfl⟩ : ∃ k, n = k + 1 := ⟨n - 1, by omega⟩
    unfold SVal.FitsF at hf
    have h1 := mgpkText_length x
    simp only [mgpkUnnamed, List.length_append] at hn hb
    simp only [mgpkUnnamed, List.append_assoc, List.length_cons]
    unfold mgpkElems
    rw [mgpkValue_written x d _ n hf.2.1 (by omega) (by omega)]
    dsimp only
    rw [mgpkUnnamed_written fs d rest n hf.2.2 (by omega) (by omega)]
    rfl
theorem mgpkMembers_written : ∀ (fs : List (Bytes × SVal)) (d : Nat) (rest : Bytes) (n : Nat), SVal.FitsF d fs → 2 * (mgpkFields fs).length + 1 ≤ n →
    (mgpkFields fs).length < 2 ^ 32 → mgpkMembers n d fs.length (mgpkFields fs ++ rest) = (SVal.toMFields fs, some rest)
  | [], d, rest, n, _, hn, _ => by
    obtain ⟨n, rfl⟩ : ∃ k, n = k + 1 := ⟨n - 1, by omega⟩
    unfold mgpkMembers
    rfl
  | (k, x) :: fs, d, rest, n, hf, hn, hb => by
    obtain ⟨n, rfl⟩ : ∃ k, n = k + 1 := ⟨n - 1, by omega⟩
    unfold SVal.FitsF at hf
    have h1 := mgpkText_length x
    simp only [mgpkFields, List.length_append] at hn hb
    simp only [mgpkFields, List.append_assoc, List.length_cons]
    unfold mgpkMembers
    rw [mgpkStr_written k _ hf.1 (by omega)]
    dsimp only
    rw [mgpkValue_written x d _ n hf.2.1 (by omega) (by omega)]
    dsimp only
    rw [mgpkMembers_written fs d rest n hf.2.2 (by omega) (by omega)]
    rfl
end

/-- reading a written top-level map -/
theorem mgpkTop_written (fs : List (Bytes × SVal)) (rest : Bytes) (hf : SVal.FitsF 1023 fs) (hl : (mgpkText (.map fs)).length < 2 ^ 32) :
    mgpkTop (mgpkText (.map fs) ++ rest) = (SVal.toMFields fs, some rest) := by
  simp only [mgpkText, List.length_append] at hl
  have hk := mgpkFields_length fs
  obtain ⟨b, r, he, -, -, -, -, -, ha⟩ := mgpkMapHead_spec fs.length (by omega)
  unfold mgpkTop
  simp only [mgpkText, he, List.append_assoc, List.cons_append]
  rw [ha]
  dsimp only
  rw [mgpkMembers_written fs 1023 rest _ hf (by simp only [List.length_append, List.length_cons]; omega) (by omega)]

end Keriox
