import Verif.Props.Format
import Verif.WireFacts
/-!
# Facts about `KeriJsonSerializer`
-/
namespace Keriox

/-- a string the custom serializer writes as serde_json does: nothing to escape, no leading `-` -/
def rawStr (s : Bytes) : Bool := plainStr s && s.head? != some 45

mutual
/-- a value without structs all of whose strings are written alike by both serializers -/
def SVal.raw : SVal → Bool
  | .null => true
  | .str s => rawStr s
  | .seq xs => SVal.rawL xs
  | .map fs => SVal.rawF fs
  | .struct _ => false
/-- all elements -/
def SVal.rawL : List SVal → Bool
  | [] => true
  | x :: xs => x.raw && SVal.rawL xs
/-- all members -/
def SVal.rawF : List (Bytes × SVal) → Bool
  | [] => true
  | (k, x) :: fs => rawStr k && x.raw && SVal.rawF fs
end

theorem keriStr_raw {s : Bytes} (h : rawStr s = true) (out : Bytes) : keriStr s out = out ++ jsonStr s := by
  simp only [rawStr, Bool.and_eq_true, bne_iff_ne] at h
  rw [keriStr, if_neg h.2, jsonStr_plain h.1]
  simp

/-- the last byte of a written value opens nothing -/
theorem jsonText_last (v : SVal) : ∃ t c, jsonText v = t ++ [c] ∧ c ≠ 91 ∧ c ≠ 123 := by
  cases v with
  | null => exact ⟨b!"nul", 108, by decide, by decide, by decide⟩
  | str s => exact ⟨[34] ++ s.flatMap jsonEscapeByte, 34, by rw [jsonText, jsonStr], by decide, by decide⟩
  | seq xs => exact ⟨[91] ++ jsonElems xs, 93, by rw [jsonText], by decide, by decide⟩
  | map fs => exact ⟨[123] ++ jsonFields fs, 125, by rw [jsonText], by decide, by decide⟩
  | struct fs => exact ⟨[123] ++ jsonFields fs, 125, by rw [jsonText], by decide, by decide⟩

theorem jsonText_getLast (out : Bytes) (v : SVal) : (out ++ jsonText v).getLast? ≠ some 91 ∧ (out ++ jsonText v).getLast? ≠ some 123 := by
  obtain ⟨t, c, h, h1, h2⟩ := jsonText_last v
  rw [h, ← List.append_assoc, List.getLast?_append]
  simp [h1, h2]

theorem getLast_snoc (out : Bytes) (c : UInt8) : (out ++ [c]).getLast? = some c := by simp

mutual
theorem keriSer_raw : ∀ (v : SVal) (out : Bytes), v.raw = true → keriSer v out = out ++ jsonText v
  | .null, out, _ => by rw [keriSer, jsonText]
  | .str s, out, h => by rw [SVal.raw] at h; rw [keriSer, jsonText, keriStr_raw h]
  | .seq [], out, _ => by rw [keriSer, keriSeq, jsonText, jsonElems]; simp
  | .seq (x :: xs), out, h => by
    rw [SVal.raw, SVal.rawL, Bool.and_eq_true] at h
    rw [keriSer, keriSeq, if_pos (getLast_snoc _ _), keriSer_raw x _ h.1, keriSeq_raw xs _ h.2 (jsonText_getLast _ _).1, jsonText, jsonElems]
    simp
  | .map [], out, _ => by rw [keriSer, keriMap, jsonText, jsonFields]; simp
  | .map ((k, x) :: fs), out, h => by
    rw [SVal.raw, SVal.rawF, Bool.and_eq_true, Bool.and_eq_true] at h
    rw [keriSer, keriMap, if_pos (getLast_snoc _ _), keriStr_raw h.1.1, keriSer_raw x _ h.1.2, keriMap_raw fs _ h.2 (jsonText_getLast _ _).2,
      jsonText, jsonFields]
    simp
  | .struct _, _, h => by rw [SVal.raw] at h; cases h
theorem keriSeq_raw : ∀ (xs : List SVal) (out : Bytes), SVal.rawL xs = true → out.getLast? ≠ some 91 → keriSeq xs out = out ++ jsonElemsTail xs
  | [], out, _, _ => by rw [keriSeq, jsonElemsTail, List.append_nil]
  | x :: xs, out, h, hl => by
    rw [SVal.rawL, Bool.and_eq_true] at h
    rw [keriSeq, if_neg hl, keriSer_raw x _ h.1, keriSeq_raw xs _ h.2 (jsonText_getLast _ _).1, jsonElemsTail]
    simp
theorem keriMap_raw : ∀ (fs : List (Bytes × SVal)) (out : Bytes), SVal.rawF fs = true → out.getLast? ≠ some 123 →
    keriMap fs out = out ++ jsonFieldsTail fs
  | [], out, _, _ => by rw [keriMap, jsonFieldsTail, List.append_nil]
  | (k, x) :: fs, out, h, hl => by
    rw [SVal.rawF, Bool.and_eq_true, Bool.and_eq_true] at h
    rw [keriMap, if_neg hl, keriStr_raw h.1.1, keriSer_raw x _ h.1.2, keriMap_raw fs _ h.2 (jsonText_getLast _ _).2, jsonFieldsTail]
    simp
end

/-- output only grows -/
theorem keriStr_grows (s out : Bytes) : ∃ t, keriStr s out = out ++ t := by
  unfold keriStr; split
  · exact ⟨_, rfl⟩
  · exact ⟨[34] ++ s ++ [34], by simp⟩

theorem grows_trans {a b c : Bytes} (h1 : ∃ t, b = a ++ t) (h2 : ∃ t, c = b ++ t) : ∃ t, c = a ++ t := by
  obtain ⟨t, rfl⟩ := h1; obtain ⟨u, rfl⟩ := h2; exact ⟨t ++ u, by simp⟩

mutual
theorem keriSer_grows : ∀ (v : SVal) (out : Bytes), ∃ t, keriSer v out = out ++ t
  | .null, out => ⟨_, by rw [keriSer]⟩
  | .str s, out => by rw [keriSer]; exact keriStr_grows s out
  | .seq xs, out => by
    rw [keriSer]
    exact grows_trans (grows_trans ⟨_, rfl⟩ (keriSeq_grows xs (out ++ [91]))) ⟨_, rfl⟩
  | .map fs, out => by
    rw [keriSer]
    exact grows_trans (grows_trans ⟨_, rfl⟩ (keriMap_grows fs (out ++ [123]))) ⟨_, rfl⟩
  | .struct fs, out => by rw [keriSer]; exact keriStruct_grows fs out
theorem keriSeq_grows : ∀ (xs : List SVal) (out : Bytes), ∃ t, keriSeq xs out = out ++ t
  | [], out => ⟨[], by rw [keriSeq]; simp⟩
  | x :: xs, out => by
    rw [keriSeq]
    have h0 : ∃ t, (if out.getLast? = some 91 then out else out ++ [44]) = out ++ t := by
      split
      · exact ⟨[], by simp⟩
      · exact ⟨_, rfl⟩
    exact grows_trans (grows_trans h0 (keriSer_grows x _)) (keriSeq_grows xs _)
theorem keriMap_grows : ∀ (fs : List (Bytes × SVal)) (out : Bytes), ∃ t, keriMap fs out = out ++ t
  | [], out => ⟨[], by rw [keriMap]; simp⟩
  | (k, x) :: fs, out => by
    rw [keriMap]
    have h0 : ∃ t, (if out.getLast? = some 123 then out else out ++ [44]) = out ++ t := by
      split
      · exact ⟨[], by simp⟩
      · exact ⟨_, rfl⟩
    exact grows_trans (grows_trans (grows_trans (grows_trans h0 (keriStr_grows k _)) ⟨_, rfl⟩) (keriSer_grows x _)) (keriMap_grows fs _)
theorem keriStruct_grows : ∀ (fs : List (Bytes × SVal)) (out : Bytes), ∃ t, keriStruct fs out = out ++ t
  | [], out => ⟨[], by rw [keriStruct]; simp⟩
  | (k, x) :: fs, out => by
    rw [keriStruct]
    split
    · exact grows_trans (keriSer_grows x _) (keriStruct_grows fs _)
    · dsimp only
      have h1 : ∃ t, (if out.getLast? ≠ some 123 ∧ out ≠ [] then out ++ [44, 123] else out) = out ++ t := by
        split
        · exact ⟨_, rfl⟩
        · exact ⟨[], by simp⟩
      generalize (if out.getLast? ≠ some 123 ∧ out ≠ [] then out ++ [44, 123] else out) = o1 at h1
      have h2 : ∃ t, (if k = [] then o1 else keriStr k o1) = o1 ++ t := by
        split
        · exact ⟨[], by simp⟩
        · exact keriStr_grows k _
      generalize (if k = [] then o1 else keriStr k o1) = o2 at h2
      have h3 := keriSer_grows x o2
      generalize keriSer x o2 = o3 at h3
      have h4 : ∃ t, (if o3.getLast? = some 125 then o3 else o3 ++ [125]) = o3 ++ t := by
        split
        · exact ⟨[], by simp⟩
        · exact ⟨_, rfl⟩
      exact grows_trans (grows_trans (grows_trans (grows_trans h1 h2) h3) h4) (keriStruct_grows fs _)
end

/-- a member after raw ones -/
theorem keriMap_append (fs gs : List (Bytes × SVal)) (out : Bytes) : keriMap (fs ++ gs) out = keriMap gs (keriMap fs out) := by
  induction fs generalizing out with
  | nil => rw [List.nil_append, keriMap]
  | cons f fs ih => obtain ⟨k, x⟩ := f; rw [List.cons_append, keriMap, keriMap, ih]

/-! ## Strings of events -/

theorem rawStr_append {s t : Bytes} (h : rawStr s = true) (h0 : s ≠ []) (ht : plainStr t = true) : rawStr (s ++ t) = true := by
  cases s with
  | nil => exact absurd rfl h0
  | cons c s =>
    simp only [rawStr, Bool.and_eq_true, bne_iff_ne] at h ⊢
    exact ⟨plainStr_append h.1 ht, h.2⟩

theorem rawStr_prefixText {c : Bytes} (hc : rawStr c = true) (h0 : c ≠ []) (d : Bytes) : rawStr (prefixText c d) = true := by
  unfold prefixText
  split
  · rfl
  · exact rawStr_append hc h0 (plainStr_b64 d)

theorem rawStr_basic (p : BasicPrefix) : rawStr p.toStr = true := by
  apply rawStr_prefixText <;> cases p.derivation <;> decide
theorem rawStr_selfAddressing (p : SelfAddressingPrefix) : rawStr p.toStr = true := by
  apply rawStr_prefixText
  · have : ∀ c : SelfAddressing, rawStr c.toStr = true := by intro c; cases c <;> rfl
    exact this _
  · have : ∀ c : SelfAddressing, c.toStr ≠ [] := by intro c; cases c <;> exact List.cons_ne_nil _ _
    exact this _
theorem rawStr_selfSigning (p : SelfSigningPrefix) : rawStr p.toStr = true := by
  apply rawStr_prefixText <;> cases p.derivation <;> decide
theorem rawStr_identifier (p : IdentifierPrefix) : rawStr p.toStr = true := by
  cases p with
  | basic p => exact rawStr_basic p
  | selfAddressing p => exact rawStr_selfAddressing p
  | selfSigning p => exact rawStr_selfSigning p

theorem rawStr_hexChars {s : Bytes} (h : ∀ c ∈ s, c ∈ hexChars) : rawStr s = true := by
  simp only [rawStr, Bool.and_eq_true, bne_iff_ne]
  refine ⟨plainStr_hex h, fun hh => ?_⟩
  exact absurd (h 45 (List.mem_of_mem_head? hh)) (by decide)
theorem rawStr_hex (n : Nat) : rawStr (hexStr n) = true := rawStr_hexChars (toBase_chars 16 (by omega) (by omega) n)
theorem rawStr_dec (n : Nat) : rawStr (decStr n) = true := rawStr_hexChars (toBase_chars 10 (by omega) (by omega) n)

theorem plain_of_raw {s : Bytes} (h : rawStr s = true) : plainStr s = true := by
  simp only [rawStr, Bool.and_eq_true] at h; exact h.1

theorem rawStr_frac (f : Frac) : rawStr f.toStr = true := by
  cases f with
  | nan => decide
  | inf => decide
  | rat n d =>
    show rawStr (if d = 1 then decStr n else decStr n ++ [47] ++ decStr d) = true
    split
    · exact rawStr_dec n
    · have hp : plainStr (decStr n ++ [47] ++ decStr d) = true :=
        plainStr_append (plainStr_append (plain_of_raw (rawStr_dec n)) (by decide)) (plain_of_raw (rawStr_dec d))
      have hn := rawStr_dec n
      simp only [rawStr, Bool.and_eq_true, bne_iff_ne] at hn ⊢
      refine ⟨hp, ?_⟩
      cases hd : decStr n with
      | nil => simp
      | cons c t => rw [hd] at hn; exact hn.2

theorem rawStr_info (i : SerInfo) : rawStr i.toStr = true := by
  have hk : plainStr i.kind.toStr = true := by cases i.kind <;> decide
  have hp : plainStr (padZero 6 (hexStr i.size)) = true := plainStr_hex (padZero_chars 6 _ (toBase_chars 16 (by omega) (by omega) _))
  unfold SerInfo.toStr
  simp only [List.append_assoc]
  refine rawStr_append (by decide) (by decide) ?_
  exact plainStr_append (plain_of_raw (rawStr_hex _)) (plainStr_append (plain_of_raw (rawStr_hex _))
    (plainStr_append hk (plainStr_append hp (by decide))))

theorem rawL_map {α : Type} (g : α → SVal) (xs : List α) (h : ∀ x ∈ xs, (g x).raw = true) : SVal.rawL (xs.map g) = true := by
  induction xs with
  | nil => rw [List.map_nil, SVal.rawL]
  | cons x xs ih =>
    rw [List.map_cons, SVal.rawL, h x (by simp), ih fun y hy => h y (by simp [hy])]
    rfl

theorem rawF_append (fs gs : List (Bytes × SVal)) : SVal.rawF (fs ++ gs) = (SVal.rawF fs && SVal.rawF gs) := by
  induction fs with
  | nil => rw [List.nil_append, SVal.rawF]; simp
  | cons f fs ih => obtain ⟨k, x⟩ := f; rw [List.cons_append, SVal.rawF, SVal.rawF, ih]; simp [Bool.and_assoc]

theorem raw_keys (ks : List BasicPrefix) : (keysSval ks).raw = true := by
  rw [keysSval, SVal.raw]
  exact rawL_map _ _ fun k _ => by rw [SVal.raw]; exact rawStr_basic k

theorem raw_threshold (t : Threshold) : t.sval.raw = true := by
  cases t with
  | simple n => rw [Threshold.sval, SVal.raw]; exact rawStr_hex n
  | single c => rw [Threshold.sval, SVal.raw]; exact rawL_map _ _ fun k _ => by rw [SVal.raw]; exact rawStr_frac k
  | multi cs =>
    rw [Threshold.sval, SVal.raw]
    exact rawL_map _ _ fun c _ => by
      rw [SVal.raw]; exact rawL_map _ _ fun k _ => by rw [SVal.raw]; exact rawStr_frac k

theorem raw_keyConfig (kc : KeyConfig) : SVal.rawF kc.fields = true := by
  unfold KeyConfig.fields
  simp only [SVal.rawF, raw_threshold, SVal.raw, Bool.and_true, Bool.and_eq_true]
  refine ⟨by decide, ⟨by decide, raw_keys kc.publicKeys⟩, by decide, ?_⟩
  split
  · exact rawStr_selfAddressing _
  · rfl

end Keriox
