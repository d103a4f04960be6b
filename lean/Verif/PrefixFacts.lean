import Verif.Prefix
/-!
# Facts about prefix text forms (helper lemmas; the property theorems are in `Props`)
-/
namespace Keriox

def Ascii (s : Bytes) : Prop := ∀ c ∈ s, c < 0x80

theorem Ascii.boundary {s : Bytes} (h : Ascii s) (i : Nat) (hi : i ≤ s.length) : isBoundary s i = true := by
  unfold isBoundary
  rcases Nat.lt_or_eq_of_le hi with hlt | rfl
  · rw [List.getElem?_eq_getElem hlt]
    have := h s[i] (List.getElem_mem hlt)
    simp only [isCont, Bool.or_eq_true, Bool.not_eq_true', Bool.and_eq_false_iff, decide_eq_false_iff_not]
    right; left
    exact UInt8.not_le.mpr this
  · simp

theorem Ascii.strGet {s : Bytes} (h : Ascii s) {a b : Nat} (hab : a ≤ b) (hb : b ≤ s.length) :
    strGet s a b = some ((s.take b).drop a) := by
  unfold Keriox.strGet
  simp [hab, hb, h.boundary a (by omega), h.boundary b hb]

theorem Ascii.strSlice {s : Bytes} (h : Ascii s) {a b : Nat} (hab : a ≤ b) (hb : b ≤ s.length) :
    strSlice s a b = .ok ((s.take b).drop a) := by
  unfold Keriox.strSlice; rw [h.strGet hab hb]; rfl

theorem Ascii.append {s t : Bytes} (hs : Ascii s) (ht : Ascii t) : Ascii (s ++ t) := by
  intro c hc; rcases List.mem_append.mp hc with h | h
  · exact hs c h
  · exact ht c h

theorem b64Val_ascii (c : UInt8) (h : (b64Val c).isSome) : c < 0x80 := by
  obtain ⟨v, hv⟩ := Option.isSome_iff_exists.mp h
  have hlt := b64Val_lt _ _ hv
  rw [← b64Char_val _ _ hv]
  have : ∀ v : Fin 64, b64Char v.val < 0x80 := by decide +kernel
  exact this ⟨v, hlt⟩

theorem b64Encode_ascii (bs : Bytes) : Ascii (b64Encode bs) := fun c hc =>
  b64Val_ascii c (b64Encode_alpha bs c hc)

theorem Basic.toStr_ascii (c : Basic) : Ascii c.toStr := by
  cases c <;> simp only [Ascii, Basic.toStr] <;> decide

theorem SelfAddressing.toStr_ascii (c : SelfAddressing) : Ascii c.toStr := by
  cases c <;> simp only [Ascii, SelfAddressing.toStr] <;> decide

theorem SelfSigning.toStr_ascii (c : SelfSigning) : Ascii c.toStr := by
  cases c <;> simp only [Ascii, SelfSigning.toStr] <;> decide

theorem Basic.toStr_length (c : Basic) : c.toStr.length = c.codeLen := by cases c <;> rfl
theorem SelfAddressing.toStr_length (c : SelfAddressing) : c.toStr.length = c.codeLen := by cases c <;> rfl
theorem SelfSigning.toStr_length (c : SelfSigning) : c.toStr.length = c.codeLen := by cases c <;> rfl

theorem Basic.fromStr_append (c : Basic) (r : Bytes) (hr : Ascii r) : Basic.fromStr (c.toStr ++ r) = .ok c := by
  have ha := (Basic.toStr_ascii c).append hr
  unfold Basic.fromStr
  rw [ha.strGet (by omega) (by cases c <;> simp [Basic.toStr])]
  cases c
  all_goals first
    | rfl
    | (rw [ha.strSlice (by omega) (by simp [Basic.toStr])]; rfl)

theorem SelfAddressing.fromStr_append (c : SelfAddressing) (r : Bytes) (hr : Ascii r) (hk : c.keyless = true) :
    SelfAddressing.fromStr (c.toStr ++ r) = .ok c := by
  have ha := (SelfAddressing.toStr_ascii c).append hr
  unfold SelfAddressing.fromStr
  rw [ha.strGet (by omega) (by cases c <;> simp [SelfAddressing.toStr])]
  cases c
  all_goals first
    | rfl
    | (rw [ha.strSlice (by omega) (by simp [SelfAddressing.toStr])]; rfl)
    | (simp only [SelfAddressing.keyless, List.isEmpty_iff] at hk; subst hk; rfl)

theorem SelfSigning.fromStr_append (c : SelfSigning) (r : Bytes) (hr : Ascii r) :
    SelfSigning.fromStr (c.toStr ++ r) = .ok c := by
  have ha := (SelfSigning.toStr_ascii c).append hr
  unfold SelfSigning.fromStr
  rw [ha.strGet (by omega) (by cases c <;> simp [SelfSigning.toStr])]
  cases c
  all_goals first
    | rfl
    | (rw [ha.strSlice (a := 1) (b := 2) (by omega) (by simp [SelfSigning.toStr])]; rfl)
    | (rw [ha.strSlice (a := 1) (b := 4) (by omega) (by simp [SelfSigning.toStr])]; rfl)

theorem prefixText_nonempty (code k : Bytes) (hk : k ≠ []) : prefixText code k = code ++ b64Encode k := by
  unfold prefixText
  rw [if_neg]
  intro h; exact hk (List.length_eq_zero_iff.mp h)

theorem decodeBody_text (code k : Bytes) (hc : Ascii code) (n : Nat) (hn : n = code.length + (b64Encode k).length) :
    decodeBody (code ++ b64Encode k) code.length n = .ok k := by
  subst hn
  have ha := hc.append (b64Encode_ascii k)
  unfold decodeBody
  rw [if_pos (by simp), ha.strSlice (by omega) (by simp)]
  rw [← List.length_append, List.take_length]
  simp [b64Decode_encode, Res.ofOption]

/-! ### Inversion: what a successful parse says about the text -/

theorem strGet_some {s t : Bytes} {a b : Nat} (h : strGet s a b = some t) :
    a ≤ b ∧ b ≤ s.length ∧ t = (s.take b).drop a := by
  unfold strGet at h
  split at h
  · rename_i hc
    simp only [Bool.and_eq_true, decide_eq_true_eq] at hc
    exact ⟨hc.1.1.1, hc.1.1.2, by simpa using h.symm⟩
  · cases h

theorem strSlice_ok {s t : Bytes} {a b : Nat} (h : strSlice s a b = .ok t) :
    a ≤ b ∧ b ≤ s.length ∧ t = (s.take b).drop a := by
  unfold strSlice Res.unwrap at h
  split at h
  · rename_i x hx; cases h; exact strGet_some hx
  · cases h

theorem take_of_head {s : Bytes} {h t : Bytes} {m : Nat} (h1 : h = (s.take 1).drop 0) (h2 : t = (s.take m).drop 1)
    (hm : 1 ≤ m) (hl : m ≤ s.length) : s.take m = h ++ t := by
  subst h1 h2
  rcases s with _ | ⟨a, s⟩
  · simp
  · cases m with
    | zero => omega
    | succ m => simp

theorem Basic.fromStr_inv {s : Bytes} {c : Basic} (h : Basic.fromStr s = .ok c) :
    s.take c.codeLen = c.toStr ∧ c.codeLen ≤ s.length := by
  unfold Basic.fromStr at h
  split at h
  · cases h
  · rename_i hd hhd
    obtain ⟨-, hl, he⟩ := strGet_some hhd
    have he' : hd = s.take 1 := by simpa using he
    split at h; · cases h; exact ⟨by rw [Basic.codeLen, ← he']; assumption, hl⟩
    split at h; · cases h; exact ⟨by rw [Basic.codeLen, ← he']; assumption, hl⟩
    split at h; · cases h; exact ⟨by rw [Basic.codeLen, ← he']; assumption, hl⟩
    split at h; · cases h; exact ⟨by rw [Basic.codeLen, ← he']; assumption, hl⟩
    split at h
    · rename_i h1
      obtain ⟨t, ht, h⟩ := Res.bind_eq_ok.mp h
      obtain ⟨-, hl4, het⟩ := strSlice_ok ht
      have key := take_of_head he het (by omega) hl4
      split at h; · rename_i h2; cases h; refine ⟨?_, hl4⟩; rw [Basic.codeLen, key, h1, h2]; rfl
      split at h; · rename_i h2; cases h; refine ⟨?_, hl4⟩; rw [Basic.codeLen, key, h1, h2]; rfl
      split at h; · rename_i h2; cases h; refine ⟨?_, hl4⟩; rw [Basic.codeLen, key, h1, h2]; rfl
      split at h; · rename_i h2; cases h; refine ⟨?_, hl4⟩; rw [Basic.codeLen, key, h1, h2]; rfl
      cases h
    · cases h

theorem SelfAddressing.fromStr_inv {s : Bytes} {c : SelfAddressing} (h : SelfAddressing.fromStr s = .ok c) :
    s.take c.codeLen = c.toStr ∧ c.codeLen ≤ s.length ∧ c.keyless = true := by
  unfold SelfAddressing.fromStr at h
  split at h
  · cases h
  · rename_i hd hhd
    obtain ⟨-, hl, he⟩ := strGet_some hhd
    have he' : hd = s.take 1 := by simpa using he
    split at h; · cases h; exact ⟨by rw [SelfAddressing.codeLen, ← he']; assumption, hl, rfl⟩
    split at h; · cases h; exact ⟨by rw [SelfAddressing.codeLen, ← he']; assumption, hl, rfl⟩
    split at h; · cases h; exact ⟨by rw [SelfAddressing.codeLen, ← he']; assumption, hl, rfl⟩
    split at h; · cases h; exact ⟨by rw [SelfAddressing.codeLen, ← he']; assumption, hl, rfl⟩
    split at h; · cases h; exact ⟨by rw [SelfAddressing.codeLen, ← he']; assumption, hl, rfl⟩
    split at h
    · rename_i h1
      obtain ⟨t, ht, h⟩ := Res.bind_eq_ok.mp h
      obtain ⟨-, hl4, het⟩ := strSlice_ok ht
      have key := take_of_head he het (by omega) hl4
      split at h; · rename_i h2; cases h; refine ⟨?_, hl4, rfl⟩; rw [SelfAddressing.codeLen, key, h1, h2]; rfl
      split at h; · rename_i h2; cases h; refine ⟨?_, hl4, rfl⟩; rw [SelfAddressing.codeLen, key, h1, h2]; rfl
      split at h; · rename_i h2; cases h; refine ⟨?_, hl4, rfl⟩; rw [SelfAddressing.codeLen, key, h1, h2]; rfl
      split at h; · rename_i h2; cases h; refine ⟨?_, hl4, rfl⟩; rw [SelfAddressing.codeLen, key, h1, h2]; rfl
      cases h
    · cases h

theorem SelfSigning.fromStr_inv {s : Bytes} {c : SelfSigning} (h : SelfSigning.fromStr s = .ok c) :
    s.take c.codeLen = c.toStr ∧ c.codeLen ≤ s.length := by
  unfold SelfSigning.fromStr at h
  split at h
  · cases h
  · rename_i hd hhd
    obtain ⟨-, hl, he⟩ := strGet_some hhd
    have he' : hd = s.take 1 := by simpa using he
    split at h
    · rename_i h1
      obtain ⟨t, ht, h⟩ := Res.bind_eq_ok.mp h
      obtain ⟨-, hl4, het⟩ := strSlice_ok ht
      have key := take_of_head he het (by omega) hl4
      split at h; · rename_i h2; cases h; refine ⟨?_, hl4⟩; rw [SelfSigning.codeLen, key, h1, h2]; rfl
      split at h; · rename_i h2; cases h; refine ⟨?_, hl4⟩; rw [SelfSigning.codeLen, key, h1, h2]; rfl
      cases h
    split at h
    · rename_i h1
      obtain ⟨t, ht, h⟩ := Res.bind_eq_ok.mp h
      obtain ⟨-, hl4, het⟩ := strSlice_ok ht
      have key := take_of_head he het (by omega) hl4
      split at h; · rename_i h2; cases h; refine ⟨?_, hl4⟩; rw [SelfSigning.codeLen, key, h1, h2]; rfl
      cases h
    · cases h

theorem decodeBody_inv {s k : Bytes} {c n : Nat} (h : decodeBody s c n = .ok k) :
    s.length = n ∧ c ≤ n ∧ b64Decode (s.drop c) = some k := by
  unfold decodeBody at h
  split at h
  · rename_i hl
    obtain ⟨b, hb, h⟩ := Res.bind_eq_ok.mp h
    obtain ⟨hcn, -, rfl⟩ := strSlice_ok hb
    refine ⟨hl, hcn, ?_⟩
    rw [← hl, List.take_length] at h
    unfold Res.ofOption at h
    split at h
    · cases h; assumption
    · cases h
  · cases h

theorem b64Decode_ne_nil {s k : Bytes} (h : b64Decode s = some k) (hs : s ≠ []) : k ≠ [] := by
  rintro rfl
  rcases s with _ | ⟨a, _ | ⟨b, _ | ⟨c, _ | ⟨d, r⟩⟩⟩⟩
  · exact hs rfl
  · simp [b64Decode] at h
  · simp only [b64Decode, b64Pair] at h; split at h <;> simp at h
  · simp only [b64Decode, b64Pair, b64Trip] at h
    split at h <;> split at h <;> simp at h
  · simp only [b64Decode] at h
    split at h
    · split at h
      · split at h
        · simp only [b64Pair] at h; split at h <;> simp at h
        · simp only [b64Trip] at h; split at h <;> simp at h
      · simp only [b64Quad] at h; split at h <;> simp at h
    · split at h
      · rename_i q r hq hr
        simp only [Option.some.injEq, List.append_eq_nil_iff] at h
        obtain ⟨rfl, -⟩ := h
        simp only [b64Quad] at hq; split at hq <;> simp at hq
      · cases h

/-- A successful decode of the body gives back the whole text, if it has no padding. -/
theorem decodeBody_text_inv {s k code : Bytes} {n : Nat} (hcode : s.take code.length = code)
    (h : decodeBody s code.length n = .ok k) (hn : code.length < n) (hp : (61 : UInt8) ∉ s) :
    prefixText code k = s := by
  obtain ⟨hl, hcn, hd⟩ := decodeBody_inv h
  have hne : s.drop code.length ≠ [] := by
    intro h0
    have := congrArg List.length h0
    simp at this; omega
  rw [prefixText_nonempty _ _ (b64Decode_ne_nil hd hne)]
  rw [b64Encode_decode _ _ hd (fun hm => hp (List.mem_of_mem_drop hm))]
  conv => rhs; rw [← List.take_append_drop code.length s, hcode]

end Keriox
