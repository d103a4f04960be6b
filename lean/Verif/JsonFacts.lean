import Verif.Json
import Verif.NumFacts
/-!
# Reading what `serde_json` writes (helper lemmas)
-/
namespace Keriox

theorem hex4_cons (a b c d : UInt8) (r : Bytes) (w x y z : Nat) (h1 : digitVal 16 a = some w) (h2 : digitVal 16 b = some x)
    (h3 : digitVal 16 c = some y) (h4 : digitVal 16 d = some z) :
    hex4 (a :: b :: c :: d :: r) = some (((w * 16 + x) * 16 + y) * 16 + z, r) := by
  simp only [hex4, h1, h2, h3, h4]

/-- reading one written character -/
theorem strBody_escape (n : Nat) (b : UInt8) (t : Bytes) :
    strBody (n + 1) (jsonEscapeByte b ++ t) = (strBody n t).map fun p => (b :: p.1, p.2) := by
  have esc : ∀ (c : UInt8) (bs t' : Bytes), escapeSeq (c :: t') = some (bs, t) → bs = [b] →
      strBody (n + 1) (92 :: c :: t') = (strBody n t).map fun p => (b :: p.1, p.2) := by
    intro c bs t' h hbs
    conv => lhs; unfold strBody
    dsimp only
    rw [if_neg (by decide), if_pos rfl, h]
    subst hbs
    rfl
  unfold jsonEscapeByte
  split
  · rename_i h; subst h; exact esc 34 [34] t rfl rfl
  · split
    · rename_i h; subst h; exact esc 92 [92] t rfl rfl
    · split
      · rename_i h; subst h; exact esc 98 [8] t rfl rfl
      · split
        · rename_i h; subst h; exact esc 116 [9] t rfl rfl
        · split
          · rename_i h; subst h; exact esc 110 [10] t rfl rfl
          · split
            · rename_i h; subst h; exact esc 102 [12] t rfl rfl
            · split
              · rename_i h; subst h; exact esc 114 [13] t rfl rfl
              · split
                · rename_i hlt
                  have hn : b.toNat < 32 := UInt8.lt_iff_toNat_lt.mp hlt
                  refine esc 117 [b] _ ?_ rfl
                  have h4 := hex4_cons 48 48 (hexDigit (b.toNat / 16)) (hexDigit (b.toNat % 16)) t 0 0 _ _ rfl rfl
                    (digitVal_hexDigit 16 (by omega) (b.toNat / 16) (by omega)) (digitVal_hexDigit 16 (by omega) (b.toNat % 16) (by omega))
                  have hv : ((0 * 16 + 0) * 16 + b.toNat / 16) * 16 + b.toNat % 16 = b.toNat := by omega
                  rw [hv] at h4
                  show unicodeEscape (48 :: 48 :: hexDigit (b.toNat / 16) :: hexDigit (b.toNat % 16) :: t) = some ([b], t)
                  unfold unicodeEscape
                  rw [h4]
                  dsimp only
                  rw [if_neg (by omega), if_neg (by omega)]
                  unfold utf8Enc
                  rw [if_pos (by omega), UInt8.ofNat_toNat]
                · rename_i h1 h2 _ _ _ _ _ h3
                  show strBody (n + 1) (b :: t) = _
                  conv => lhs; unfold strBody
                  simp only [h1, h2, h3, if_false]

/-- reading a written string -/
theorem strBody_written (s rest : Bytes) : ∀ n, s.length + 1 ≤ n →
    strBody n (s.flatMap jsonEscapeByte ++ 34 :: rest) = some (s, rest) := by
  induction s with
  | nil =>
    intro n hn
    obtain ⟨n, rfl⟩ : ∃ k, n = k + 1 := ⟨n - 1, by omega⟩
    unfold strBody
    rfl
  | cons b s ih =>
    intro n hn
    obtain ⟨n, rfl⟩ : ∃ k, n = k + 1 := ⟨n - 1, by omega⟩
    rw [List.flatMap_cons, List.append_assoc, strBody_escape, ih n (by simp at hn; omega)]
    rfl

theorem jsonEscapeByte_length (b : UInt8) : 1 ≤ (jsonEscapeByte b).length := by
  unfold jsonEscapeByte
  repeat' split
  all_goals simp

theorem flatMap_escape_length (s : Bytes) : s.length ≤ (s.flatMap jsonEscapeByte).length := by
  induction s with
  | nil => simp
  | cons b s ih =>
    have := jsonEscapeByte_length b
    rw [List.flatMap_cons, List.length_append, List.length_cons]
    omega

theorem jsonString_written (s rest : Bytes) (h : utf8Valid s = true) :
    jsonString (s.flatMap jsonEscapeByte ++ 34 :: rest) = some (s, rest) := by
  unfold jsonString
  rw [strBody_written s rest _ ?_]
  · dsimp only; rw [if_pos h]
  · have := flatMap_escape_length s
    simp only [List.length_append, List.length_cons]
    omega

theorem skipWs_cons (c : UInt8) (r : Bytes) (h : isWs c = false) : skipWs (c :: r) = c :: r := by
  unfold skipWs
  rw [List.dropWhile_cons_of_neg (by simp [h])]

theorem jsonText_head (v : SVal) : ∃ c r, jsonText v = c :: r ∧ isWs c = false ∧ c ≠ 93 ∧ c ≠ 125 := by
  cases v with
  | null => exact ⟨_, _, rfl, by decide, by decide, by decide⟩
  | str s => exact ⟨34, s.flatMap jsonEscapeByte ++ [34], by simp [jsonText, jsonStr], by decide, by decide, by decide⟩
  | seq xs => exact ⟨91, jsonElems xs ++ [93], by simp [jsonText], by decide, by decide, by decide⟩
  | map fs => exact ⟨123, jsonFields fs ++ [125], by simp [jsonText], by decide, by decide, by decide⟩
  | struct fs => exact ⟨123, jsonFields fs ++ [125], by simp [jsonText], by decide, by decide, by decide⟩

mutual
theorem jsonValue_written : ∀ (v : SVal) (d : Nat) (rest : Bytes) (n : Nat), v.Fits d → 2 * (jsonText v).length + 2 ≤ n →
    jsonValue n d (jsonText v ++ rest) = some (v.toJ, rest)
  | .null, d, rest, n, _, hn => by
    obtain ⟨n, rfl⟩ : ∃ k, n = k + 1 := ⟨n - 1, by omega⟩
    unfold jsonValue
    rfl
  | .str s, d, rest, n, hf, hn => by
    obtain ⟨n, rfl⟩ : ∃ k, n = k + 1 := ⟨n - 1, by omega⟩
    unfold jsonValue
    simp only [jsonText, jsonStr, List.append_assoc, List.cons_append, List.nil_append]
    rw [skipWs_cons _ _ (by decide)]
    dsimp only
    rw [if_neg (by decide), if_neg (by decide), if_neg (by decide), if_pos rfl]
    rw [jsonString_written s rest (by simpa [SVal.Fits] using hf)]
    rfl
  | .seq xs, d, rest, n, hf, hn => by
    obtain ⟨n, rfl⟩ : ∃ k, n = k + 1 := ⟨n - 1, by omega⟩
    unfold SVal.Fits at hf
    unfold jsonValue
    simp only [jsonText, List.append_assoc, List.cons_append, List.nil_append]
    rw [skipWs_cons _ _ (by decide)]
    dsimp only
    rw [if_neg (by decide), if_neg (by decide), if_neg (by decide), if_neg (by decide), if_pos rfl, if_neg (by omega)]
    rw [jsonElements_written xs (d - 1) rest n hf.2 (by simp only [jsonText, List.length_append, List.length_cons, List.length_nil] at hn; omega)]
    rfl
  | .map fs, d, rest, n, hf, hn => by
    obtain ⟨n, rfl⟩ : ∃ k, n = k + 1 := ⟨n - 1, by omega⟩
    unfold SVal.Fits at hf
    unfold jsonValue
    simp only [jsonText, List.append_assoc, List.cons_append, List.nil_append]
    rw [skipWs_cons _ _ (by decide)]
    dsimp only
    rw [if_neg (by decide), if_neg (by decide), if_neg (by decide), if_neg (by decide), if_neg (by decide), if_pos rfl, if_neg (by omega)]
    rw [jsonMembers_written fs (d - 1) rest n hf.2 (by simp only [jsonText, List.length_append, List.length_cons, List.length_nil] at hn; omega)]
    rfl
  | .struct fs, d, rest, n, hf, hn => by
    obtain ⟨n, rfl⟩ : ∃ k, n = k + 1 := ⟨n - 1, by omega⟩
    unfold SVal.Fits at hf
    unfold jsonValue
    simp only [jsonText, List.append_assoc, List.cons_append, List.nil_append]
    rw [skipWs_cons _ _ (by decide)]
    dsimp only
    rw [if_neg (by decide), if_neg (by decide), if_neg (by decide), if_neg (by decide), if_neg (by decide), if_pos rfl, if_neg (by omega)]
    rw [jsonMembers_written fs (d - 1) rest n hf.2 (by simp only [jsonText, List.length_append, List.length_cons, List.length_nil] at hn; omega)]
    rfl
theorem jsonElements_written : ∀ (xs : List SVal) (d : Nat) (rest : Bytes) (n : Nat), SVal.FitsL d xs → 2 * (jsonElems xs).length + 3 ≤ n →
    jsonElements n d (jsonElems xs ++ 93 :: rest) = some (SVal.toJs xs, rest)
  | [], d, rest, n, _, hn => by
    obtain ⟨n, rfl⟩ : ∃ k, n = k + 1 := ⟨n - 1, by omega⟩
    unfold jsonElements
    rfl
  | x :: xs, d, rest, n, hf, hn => by
    obtain ⟨n, rfl⟩ : ∃ k, n = k + 1 := ⟨n - 1, by omega⟩
    unfold SVal.FitsL at hf
    simp only [jsonElems, List.length_append] at hn
    unfold jsonElements
    obtain ⟨c, r, hx, hc, h93, _⟩ := jsonText_head x
    have hl : 1 ≤ (jsonText x).length := by rw [hx]; simp
    have hv := jsonValue_written x d (jsonElemsTail xs ++ 93 :: rest) n hf.1 (by omega)
    simp only [jsonElems, List.append_assoc]
    rw [hx, List.cons_append] at hv ⊢
    rw [skipWs_cons _ _ hc]
    dsimp only
    rw [if_neg h93, hv]
    dsimp only
    rw [jsonElementsTail_written xs d rest n hf.2 (by omega)]
    rfl
theorem jsonElementsTail_written : ∀ (xs : List SVal) (d : Nat) (rest : Bytes) (n : Nat), SVal.FitsL d xs → 2 * (jsonElemsTail xs).length + 3 ≤ n →
    jsonElementsTail n d (jsonElemsTail xs ++ 93 :: rest) = some (SVal.toJs xs, rest)
  | [], d, rest, n, _, hn => by
    obtain ⟨n, rfl⟩ : ∃ k, n = k + 1 := ⟨n - 1, by omega⟩
    unfold jsonElementsTail
    rfl
  | x :: xs, d, rest, n, hf, hn => by
    obtain ⟨n, rfl⟩ : ∃ k, n = k + 1 := ⟨n - 1, by omega⟩
    unfold SVal.FitsL at hf
    simp only [jsonElemsTail, List.length_append, List.length_cons, List.length_nil] at hn
    unfold jsonElementsTail
    simp only [jsonElemsTail, List.append_assoc, List.cons_append, List.nil_append]
    rw [skipWs_cons _ _ (by decide)]
    dsimp only
    rw [if_neg (by decide), if_pos rfl, jsonValue_written x d _ n hf.1 (by omega)]
    dsimp only
    rw [jsonElementsTail_written xs d rest n hf.2 (by omega)]
    rfl
theorem jsonMembers_written : ∀ (fs : List (Bytes × SVal)) (d : Nat) (rest : Bytes) (n : Nat), SVal.FitsF d fs → 2 * (jsonFields fs).length + 3 ≤ n →
    jsonMembers n d (jsonFields fs ++ 125 :: rest) = (SVal.toJFields fs, some rest)
  | [], d, rest, n, _, hn => by
    obtain ⟨n, rfl⟩ : ∃ k, n = k + 1 := ⟨n - 1, by omega⟩
    unfold jsonMembers
    rfl
  | (k, x) :: fs, d, rest, n, hf, hn => by
    obtain ⟨n, rfl⟩ : ∃ k, n = k + 1 := ⟨n - 1, by omega⟩
    unfold SVal.FitsF at hf
    unfold jsonMembers
    have hk : 2 ≤ (jsonStr k).length := by simp [jsonStr]
    simp only [jsonFields, List.length_append, List.length_cons, List.length_nil] at hn
    obtain ⟨n, rfl⟩ : ∃ k, n = k + 1 := ⟨n - 1, by omega⟩
    simp only [jsonFields, jsonStr, List.append_assoc, List.cons_append, List.nil_append]
    rw [skipWs_cons _ _ (by decide)]
    dsimp only
    rw [if_neg (by decide)]
    unfold jsonMember
    rw [skipWs_cons _ _ (by decide)]
    dsimp only
    rw [if_pos rfl, jsonString_written k _ hf.1]
    dsimp only
    rw [skipWs_cons _ _ (by decide)]
    dsimp only
    rw [if_pos rfl, jsonValue_written x d _ n hf.2.1 (by omega)]
    dsimp only
    rw [jsonMembersTail_written fs d rest n hf.2.2 (by omega)]
    rfl
theorem jsonMembersTail_written : ∀ (fs : List (Bytes × SVal)) (d : Nat) (rest : Bytes) (n : Nat), SVal.FitsF d fs → 2 * (jsonFieldsTail fs).length + 3 ≤ n →
    jsonMembersTail n d (jsonFieldsTail fs ++ 125 :: rest) = (SVal.toJFields fs, some rest)
  | [], d, rest, n, _, hn => by
    obtain ⟨n, rfl⟩ : ∃ k, n = k + 1 := ⟨n - 1, by omega⟩
    unfold jsonMembersTail
    rfl
  | (k, x) :: fs, d, rest, n, hf, hn => by
    obtain ⟨n, rfl⟩ : ∃ k, n = k + 1 := ⟨n - 1, by omega⟩
    unfold SVal.FitsF at hf
    unfold jsonMembersTail
    have hk : 2 ≤ (jsonStr k).length := by simp [jsonStr]
    simp only [jsonFieldsTail, List.length_append, List.length_cons, List.length_nil] at hn
    obtain ⟨n, rfl⟩ : ∃ k, n = k + 1 := ⟨n - 1, by omega⟩
    simp only [jsonFieldsTail, jsonStr, List.append_assoc, List.cons_append, List.nil_append]
    rw [skipWs_cons _ _ (by decide)]
    dsimp only
    rw [if_neg (by decide), if_pos rfl]
    unfold jsonMember
    rw [skipWs_cons _ _ (by decide)]
    dsimp only
    rw [if_pos rfl, jsonString_written k _ hf.1]
    dsimp only
    rw [skipWs_cons _ _ (by decide)]
    dsimp only
    rw [if_pos rfl, jsonValue_written x d _ n hf.2.1 (by omega)]
    dsimp only
    rw [jsonMembersTail_written fs d rest n hf.2.2 (by omega)]
    rfl
end

/-- reading a written top-level map -/
theorem jsonTop_written (fs : List (Bytes × SVal)) (rest : Bytes) (hf : SVal.FitsF 127 fs) :
    jsonTop (jsonText (.map fs) ++ rest) = (SVal.toJFields fs, some rest) := by
  unfold jsonTop
  simp only [jsonText, List.append_assoc, List.cons_append, List.nil_append]
  rw [skipWs_cons _ _ (by decide)]
  dsimp only
  rw [if_pos rfl, jsonMembers_written fs 127 rest _ hf (by simp only [List.length_append, List.length_cons]; omega)]

end Keriox
