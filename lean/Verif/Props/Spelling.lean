import Verif.Props.SealReader
/-!
# C118 — how a JSON text is spelled does not matter

The specification: a JSON grammar, independent of the reader.
-/
namespace Keriox

/-! ## The grammar -/

/-- white space: spaces, line feeds, tabs and carriage returns -/
def Blank (w : Bytes) : Prop := ∀ c ∈ w, c = 32 ∨ c = 10 ∨ c = 9 ∨ c = 13

/-- a hexadecimal digit, in upper or lower case, and its value -/
def HexIs (c : UInt8) (n : Nat) : Prop :=
  (48 ≤ c.toNat ∧ c.toNat ≤ 57 ∧ n = c.toNat - 48) ∨ (97 ≤ c.toNat ∧ c.toNat ≤ 102 ∧ n = c.toNat - 97 + 10) ∨
  (65 ≤ c.toNat ∧ c.toNat ≤ 70 ∧ n = c.toNat - 65 + 10)

/-- four hexadecimal digits and their value -/
def Hex4 (n : Nat) (h : Bytes) : Prop :=
  ∃ a b c d w x y z, h = [a, b, c, d] ∧ HexIs a w ∧ HexIs b x ∧ HexIs c y ∧ HexIs d z ∧ n = w * 4096 + x * 256 + y * 16 + z

/-- the short escapes: a character and the letter that stands for it after a backslash -/
def shortEscapes : List (UInt8 × UInt8) :=
  [(34, 34), (92, 92), (47, 47), (8, 98), (12, 102), (10, 110), (13, 114), (9, 116)]

/-- `Chars v t`: the characters of `t`, between quotes, stand for the bytes `v` -/
inductive Chars : Bytes → Bytes → Prop
  | done : Chars [] []
  | plain {c : UInt8} {v t : Bytes} (h1 : 32 ≤ c) (h2 : c ≠ 34) (h3 : c ≠ 92) (h : Chars v t) : Chars (c :: v) (c :: t)
  | short {c e : UInt8} {v t : Bytes} (h1 : (c, e) ∈ shortEscapes) (h : Chars v t) : Chars (c :: v) (92 :: e :: t)
  | code {n : Nat} {x v t : Bytes} (h1 : Hex4 n x) (h2 : n < 0xD800 ∨ 0xDFFF < n) (h : Chars v t) :
      Chars (utf8Enc n ++ v) (92 :: 117 :: (x ++ t))
  | pair {m n : Nat} {x y v t : Bytes} (h1 : Hex4 m x) (h2 : Hex4 n y) (h3 : 0xD800 ≤ m ∧ m ≤ 0xDBFF) (h4 : 0xDC00 ≤ n ∧ n ≤ 0xDFFF)
      (h : Chars v t) :
      Chars (utf8Enc (0x10000 + (m - 0xD800) * 1024 + (n - 0xDC00)) ++ v) (92 :: 117 :: (x ++ 92 :: 117 :: (y ++ t)))

/-- a quoted string -/
def Quoted (v t : Bytes) : Prop := utf8Valid v = true ∧ ∃ u, t = 34 :: (u ++ [34]) ∧ Chars v u

/-- decimal digits -/
def Digits (t : Bytes) : Prop := ∀ c ∈ t, 48 ≤ c ∧ c ≤ 57
/-- the integer part of a number: no leading zeros -/
def IntPart (t : Bytes) : Prop := t = [48] ∨ (t ≠ [] ∧ Digits t ∧ t.head? ≠ some 48)
/-- the fraction of a number -/
def Fraction (t : Bytes) : Prop := t = [] ∨ ∃ u, t = 46 :: u ∧ u ≠ [] ∧ Digits u
/-- the exponent of a number -/
def Exponent (t : Bytes) : Prop :=
  t = [] ∨ ∃ c s u, t = c :: (s ++ u) ∧ (c = 101 ∨ c = 69) ∧ (s = [] ∨ s = [43] ∨ s = [45]) ∧ u ≠ [] ∧ Digits u
/-- a number -/
def Number (t : Bytes) : Prop := ∃ s i f e, t = s ++ (i ++ (f ++ e)) ∧ (s = [] ∨ s = [45]) ∧ IntPart i ∧ Fraction f ∧ Exponent e

mutual
/-- the text `t` spells the value, without surrounding white space -/
def Spells : JVal → Bytes → Prop
  | .null, t => t = b!"null"
  | .bool true, t => t = b!"true"
  | .bool false, t => t = b!"false"
  | .num, t => Number t
  | .str v, t => Quoted v t
  | .arr xs, t => ∃ u, t = 91 :: (u ++ [93]) ∧ Elements xs u
  | .obj fs, t => ∃ u, t = 123 :: (u ++ [125]) ∧ Members fs u
/-- what stands between the brackets of an array -/
def Elements : List JVal → Bytes → Prop
  | [], u => Blank u
  | x :: xs, u => ∃ w t w' u', u = w ++ (t ++ (w' ++ u')) ∧ Blank w ∧ Spells x t ∧ Blank w' ∧ MoreElements xs u'
/-- the elements after the first, each after a comma -/
def MoreElements : List JVal → Bytes → Prop
  | [], u => u = []
  | x :: xs, u => ∃ w t w' u', u = 44 :: (w ++ (t ++ (w' ++ u'))) ∧ Blank w ∧ Spells x t ∧ Blank w' ∧ MoreElements xs u'
/-- what stands between the braces of an object -/
def Members : List (Bytes × JVal) → Bytes → Prop
  | [], u => Blank u
  | (k, x) :: fs, u => ∃ w q w' w'' t v u', u = w ++ (q ++ (w' ++ 58 :: (w'' ++ (t ++ (v ++ u'))))) ∧ Blank w ∧ Quoted k q ∧ Blank w' ∧ Blank w'' ∧
      Spells x t ∧ Blank v ∧ MoreMembers fs u'
/-- the members after the first, each after a comma -/
def MoreMembers : List (Bytes × JVal) → Bytes → Prop
  | [], u => u = []
  | (k, x) :: fs, u => ∃ w q w' w'' t v u', u = 44 :: (w ++ (q ++ (w' ++ 58 :: (w'' ++ (t ++ (v ++ u')))))) ∧ Blank w ∧ Quoted k q ∧ Blank w' ∧
      Blank w'' ∧ Spells x t ∧ Blank v ∧ MoreMembers fs u'
end

mutual
/-- how deeply arrays and objects are nested -/
def JVal.depth : JVal → Nat
  | .arr xs => depthL xs + 1
  | .obj fs => depthF fs + 1
  | _ => 0
/-- of the elements -/
def depthL : List JVal → Nat
  | [] => 0
  | x :: xs => max x.depth (depthL xs)
/-- of the members -/
def depthF : List (Bytes × JVal) → Nat
  | [] => 0
  | (_, x) :: fs => max x.depth (depthF fs)
end

/-! ## Strings -/

theorem digitVal_iff (c : UInt8) (n : Nat) : digitVal 16 c = some n ↔ HexIs c n := by
  unfold digitVal HexIs
  simp only
  split
  · rename_i h
    split at h
    · cases h; rw [if_pos (by omega)]; simp only [Option.some.injEq]; omega
    · split at h
      · cases h; rw [if_pos (by omega)]; simp only [Option.some.injEq]; omega
      · split at h
        · cases h; rw [if_pos (by omega)]; simp only [Option.some.injEq]; omega
        · cases h
  · rename_i h
    split at h
    · cases h
    · split at h
      · cases h
      · split at h
        · cases h
        · simp; omega

theorem hex4_iff (s r : Bytes) (n : Nat) : hex4 s = some (n, r) ↔ ∃ h, s = h ++ r ∧ Hex4 n h := by
  constructor
  · intro hs
    unfold hex4 at hs
    split at hs
    · rename_i a b c d r'
      split at hs
      · rename_i w x y z h1 h2 h3 h4
        cases hs
        refine ⟨[a, b, c, d], rfl, a, b, c, d, w, x, y, z, rfl, (digitVal_iff _ _).1 h1, (digitVal_iff _ _).1 h2, (digitVal_iff _ _).1 h3, (digitVal_iff _ _).1 h4, by omega⟩
      · cases hs
    · cases hs
  · rintro ⟨h, rfl, a, b, c, d, w, x, y, z, rfl, h1, h2, h3, h4, rfl⟩
    have := hex4_cons a b c d r w x y z ((digitVal_iff _ _).2 h1) ((digitVal_iff _ _).2 h2) ((digitVal_iff _ _).2 h3) ((digitVal_iff _ _).2 h4)
    show hex4 (a :: b :: c :: d :: r) = _
    rw [this]
    have e : ((w * 16 + x) * 16 + y) * 16 + z = w * 4096 + x * 256 + y * 16 + z := by omega
    rw [e]

theorem hex4_append {n : Nat} {h : Bytes} (hh : Hex4 n h) (r : Bytes) : hex4 (h ++ r) = some (n, r) := (hex4_iff _ _ _).2 ⟨h, rfl, hh⟩

theorem strBody_complete {v t : Bytes} (h : Chars v t) (rest : Bytes) : ∀ n, t.length + 1 ≤ n → strBody n (t ++ 34 :: rest) = some (v, rest) := by
  induction h with
  | done => intro n hn; obtain ⟨n, rfl⟩ : ∃ k, n = k + 1 := ⟨n - 1, by omega⟩; rfl
  | @plain c v t h1 h2 h3 h ih =>
    intro n hn
    obtain ⟨n, rfl⟩ : ∃ k, n = k + 1 := ⟨n - 1, by omega⟩
    have hlt : ¬ c < 32 := by
      intro h
      have h' := UInt8.lt_iff_toNat_lt.1 h
      have h1' := UInt8.le_iff_toNat_le.1 h1
      simp at h' h1'
      omega
    simp only [List.cons_append, strBody, if_neg h2, if_neg h3, if_neg hlt]
    rw [ih n (by simp only [List.length_cons] at hn; omega)]
    rfl
  | @short c e v t h1 h ih =>
    intro n hn
    obtain ⟨n, rfl⟩ : ∃ k, n = k + 1 := ⟨n - 1, by omega⟩
    have he : escapeSeq (e :: (t ++ 34 :: rest)) = some ([c], t ++ 34 :: rest) := by
      simp only [shortEscapes, List.mem_cons, Prod.mk.injEq, List.not_mem_nil, or_false] at h1
      rcases h1 with ⟨rfl, rfl⟩ | ⟨rfl, rfl⟩ | ⟨rfl, rfl⟩ | ⟨rfl, rfl⟩ | ⟨rfl, rfl⟩ | ⟨rfl, rfl⟩ | ⟨rfl, rfl⟩ | ⟨rfl, rfl⟩ <;> rfl
    simp only [List.cons_append, strBody]
    rw [if_neg (by decide), if_pos trivial, he]
    dsimp only
    rw [ih n (by simp only [List.length_cons] at hn; omega)]
    rfl
  | @code m x v t h1 h2 h ih =>
    intro n hn
    obtain ⟨n, rfl⟩ : ∃ k, n = k + 1 := ⟨n - 1, by omega⟩
    have he : escapeSeq (117 :: ((x ++ t) ++ 34 :: rest)) = some (utf8Enc m, t ++ 34 :: rest) := by
      show unicodeEscape _ = _
      unfold unicodeEscape
      rw [List.append_assoc, hex4_append h1]
      dsimp only
      rw [if_neg (by omega), if_neg (by omega)]
    simp only [List.cons_append, strBody]
    rw [if_neg (by decide), if_pos trivial, he]
    dsimp only
    rw [ih n (by simp only [List.length_cons, List.length_append] at hn; omega)]
    rfl
  | @pair m k x y v t h1 h2 h3 h4 h ih =>
    intro n hn
    obtain ⟨n, rfl⟩ : ∃ k, n = k + 1 := ⟨n - 1, by omega⟩
    have he : escapeSeq (117 :: ((x ++ 92 :: 117 :: (y ++ t)) ++ 34 :: rest)) =
        some (utf8Enc (0x10000 + (m - 0xD800) * 1024 + (k - 0xDC00)), t ++ 34 :: rest) := by
      show unicodeEscape _ = _
      unfold unicodeEscape
      rw [List.append_assoc, hex4_append h1]
      dsimp only
      rw [if_neg (by omega), if_pos (by omega)]
      simp only [List.cons_append]
      rw [List.append_assoc, hex4_append h2]
      dsimp only
      rw [if_pos (by omega)]
    simp only [List.cons_append, strBody]
    rw [if_neg (by decide), if_pos trivial, he]
    dsimp only
    rw [ih n (by simp only [List.length_cons, List.length_append] at hn; omega)]
    rfl

theorem escape_sound {s bs r : Bytes} (h : escapeSeq s = some (bs, r)) :
    ∃ t, s = t ++ r ∧ ∀ v u, Chars v u → Chars (bs ++ v) (92 :: (t ++ u)) := by
  unfold escapeSeq at h
  split at h
  · cases h
  · rename_i c s'
    have sh : ∀ (e a : UInt8), (a, e) ∈ shortEscapes → c = e → some (([a] : Bytes), s') = some (bs, r) → ∃ t, c :: s' = t ++ r ∧ ∀ v u, Chars v u → Chars (bs ++ v) (92 :: (t ++ u)) := by
      rintro e a he rfl hh
      cases hh
      exact ⟨[c], rfl, fun v u hc => .short he hc⟩
    split at h
    · rename_i hc; exact sh 34 34 (by decide) hc h
    split at h
    · rename_i hc; exact sh 92 92 (by decide) hc h
    split at h
    · rename_i hc; exact sh 47 47 (by decide) hc h
    split at h
    · rename_i hc; exact sh 98 8 (by decide) hc h
    split at h
    · rename_i hc; exact sh 102 12 (by decide) hc h
    split at h
    · rename_i hc; exact sh 110 10 (by decide) hc h
    split at h
    · rename_i hc; exact sh 114 13 (by decide) hc h
    split at h
    · rename_i hc; exact sh 116 9 (by decide) hc h
    split at h
    · rename_i hc
      subst hc
      unfold unicodeEscape at h
      split at h
      · cases h
      · rename_i n r1 hx0
        obtain ⟨x, rfl, hx⟩ := (hex4_iff _ _ _).1 hx0
        clear hx0
        split at h
        · cases h
        · split at h
          · split at h
            · rename_i r2
              split at h
              · rename_i n2 r3 hy0
                obtain ⟨y, rfl, hy⟩ := (hex4_iff _ _ _).1 hy0
                clear hy0
                split at h
                · simp only [Option.some.injEq, Prod.mk.injEq] at h
                  obtain ⟨rfl, rfl⟩ := h
                  refine ⟨117 :: (x ++ 92 :: 117 :: y), by simp, fun v u hc => ?_⟩
                  have := Chars.pair hx hy (by omega) (by omega) hc
                  simpa using this
                · cases h
              · cases h
            · cases h
          · simp only [Option.some.injEq, Prod.mk.injEq] at h
            obtain ⟨rfl, rfl⟩ := h
            refine ⟨117 :: x, by simp, fun v u hc => ?_⟩
            have := Chars.code hx (by omega) hc
            simpa using this
    · cases h

theorem strBody_sound : ∀ (n : Nat) (s v r : Bytes), strBody n s = some (v, r) → ∃ t, s = t ++ 34 :: r ∧ Chars v t
  | 0, _, _, _, h => by cases h
  | n + 1, s, v, r, h => by
    unfold strBody at h
    split at h
    · cases h
    · rename_i c s'
      split at h
      · rename_i hc
        cases h
        exact ⟨[], by simp [hc], .done⟩
      · split at h
        · rename_i hc1 hc
          subst hc
          split at h
          · cases h
          · rename_i bs r' he
            obtain ⟨t, rfl, ht⟩ := escape_sound he
            cases hb : strBody n r' with
            | none => rw [hb] at h; cases h
            | some p =>
              rw [hb] at h
              cases h
              obtain ⟨u, rfl, hu⟩ := strBody_sound n r' p.1 p.2 hb
              exact ⟨92 :: (t ++ u), by simp, ht _ _ hu⟩
        · split at h
          · cases h
          · rename_i h1 h2 h3
            cases hb : strBody n s' with
            | none => rw [hb] at h; cases h
            | some p =>
              rw [hb] at h
              cases h
              obtain ⟨u, rfl, hu⟩ := strBody_sound n s' p.1 p.2 hb
              refine ⟨c :: u, rfl, .plain ?_ h1 h2 hu⟩
              refine UInt8.le_iff_toNat_le.2 ?_
              have : ¬ c.toNat < (32 : UInt8).toNat := fun hh => h3 (UInt8.lt_iff_toNat_lt.2 hh)
              omega

theorem jsonString_complete {v q : Bytes} (h : Quoted v q) (rest : Bytes) : ∃ u, q ++ rest = 34 :: u ∧ jsonString u = some (v, rest) := by
  obtain ⟨hu, u, rfl, hc⟩ := h
  refine ⟨u ++ 34 :: rest, by simp, ?_⟩
  unfold jsonString
  rw [strBody_complete hc rest _ (by simp only [List.length_append, List.length_cons]; omega)]
  dsimp only
  rw [if_pos hu]

theorem jsonString_sound {s v r : Bytes} (h : jsonString s = some (v, r)) : ∃ q, 34 :: s = q ++ r ∧ Quoted v q := by
  unfold jsonString at h
  split at h
  · rename_i b r' hb
    split at h
    · rename_i hu
      cases h
      obtain ⟨t, rfl, ht⟩ := strBody_sound _ _ _ _ hb
      exact ⟨34 :: (t ++ [34]), by simp, hu, t, rfl, ht⟩
    · cases h
  · cases h

/-! ## White space -/

theorem isWs_iff (c : UInt8) : isWs c = true ↔ c = 32 ∨ c = 10 ∨ c = 9 ∨ c = 13 := by simp [isWs, or_assoc]

theorem skipWs_blank {w : Bytes} (h : Blank w) (s : Bytes) : skipWs (w ++ s) = skipWs s := by
  induction w with
  | nil => rfl
  | cons c w ih =>
    have hc : isWs c = true := (isWs_iff c).2 (h c (by simp))
    show (c :: (w ++ s)).dropWhile isWs = _
    rw [List.dropWhile_cons_of_pos hc]
    exact ih fun x hx => h x (by simp [hx])

theorem skipWs_split (s : Bytes) : ∃ w, Blank w ∧ s = w ++ skipWs s := by
  induction s with
  | nil => exact ⟨[], fun _ h => (by cases h), rfl⟩
  | cons c s ih =>
    by_cases hc : isWs c = true
    · obtain ⟨w, hw, he⟩ := ih
      refine ⟨c :: w, ?_, ?_⟩
      · intro x hx
        rcases List.mem_cons.1 hx with rfl | hx
        · exact (isWs_iff _).1 hc
        · exact hw x hx
      · have : skipWs (c :: s) = skipWs s := List.dropWhile_cons_of_pos hc
        rw [this, List.cons_append, ← he]
    · exact ⟨[], fun _ h => (by cases h), by rw [skipWs_cons _ _ (by simpa using hc)]; rfl⟩

/-! ## Numbers -/

/-- the text does not go on with a character of a number -/
def Stops (r : Bytes) : Prop := ∀ c, r.head? = some c → ¬ (48 ≤ c ∧ c ≤ 57) ∧ c ≠ 46 ∧ c ≠ 101 ∧ c ≠ 69

theorem dropDigits {t r : Bytes} (h : Digits t) (hr : ∀ c, r.head? = some c → ¬ (48 ≤ c ∧ c ≤ 57)) :
    (t ++ r).dropWhile (fun c => 48 ≤ c && c ≤ 57) = r := by
  induction t with
  | nil =>
    cases r with
    | nil => rfl
    | cons c r => exact List.dropWhile_cons_of_neg (by simpa using hr c rfl)
  | cons c t ih =>
    have := h c (by simp)
    rw [List.cons_append, List.dropWhile_cons_of_pos (by simpa using this)]
    exact ih fun x hx => h x (by simp [hx])

theorem digits1_complete {t r : Bytes} (h : Digits t) (h0 : t ≠ []) (hr : ∀ c, r.head? = some c → ¬ (48 ≤ c ∧ c ≤ 57)) : digits1 (t ++ r) = some r := by
  cases t with
  | nil => exact absurd rfl h0
  | cons c t =>
    unfold digits1
    simp only [List.cons_append]
    rw [if_pos (h c (by simp)), dropDigits (fun x hx => h x (by simp [hx])) hr]

theorem digits_split (s : Bytes) : ∃ t, Digits t ∧ s = t ++ s.dropWhile fun c => 48 ≤ c && c ≤ 57 := by
  induction s with
  | nil => exact ⟨[], fun _ h => (by cases h), rfl⟩
  | cons c s ih =>
    by_cases hc : 48 ≤ c ∧ c ≤ 57
    · obtain ⟨t, ht, he⟩ := ih
      refine ⟨c :: t, ?_, ?_⟩
      · intro x hx
        rcases List.mem_cons.1 hx with rfl | hx
        · exact hc
        · exact ht x hx
      · rw [List.dropWhile_cons_of_pos (by simpa using hc), List.cons_append, ← he]
    · exact ⟨[], fun _ h => (by cases h), by rw [List.dropWhile_cons_of_neg (by simpa using hc)]; rfl⟩

theorem digits1_sound {s r : Bytes} (h : digits1 s = some r) : ∃ t, s = t ++ r ∧ t ≠ [] ∧ Digits t := by
  unfold digits1 at h
  split at h
  · rename_i c s'
    split at h
    · rename_i hc
      cases h
      obtain ⟨t, ht, he⟩ := digits_split s'
      refine ⟨c :: t, by rw [List.cons_append, ← he], by simp, ?_⟩
      intro x hx
      rcases List.mem_cons.1 hx with rfl | hx
      · exact hc
      · exact ht x hx
    · cases h
  · cases h

theorem expPart_complete {e r : Bytes} (h : Exponent e) (hr : Stops r) : expPart (e ++ r) = some r := by
  rcases h with rfl | ⟨c, s, u, rfl, hc, hs, h0, hu⟩
  · cases r with
    | nil => rfl
    | cons d r =>
      have := hr d rfl
      unfold expPart
      simp only [List.nil_append]
      rw [if_neg (by simp [this.2.2.1, this.2.2.2])]
  · have hd := digits1_complete hu h0 (fun c hc => (hr c hc).1)
    unfold expPart
    simp only [List.cons_append, List.append_assoc]
    rw [if_pos hc]
    rcases hs with rfl | rfl | rfl
    · cases u with
      | nil => exact absurd rfl h0
      | cons d u =>
        simp only [List.nil_append, List.cons_append]
        have := hu d (by simp)
        rw [if_neg (by rintro (rfl | rfl) <;> exact absurd this (by decide))]
        exact hd
    · simp only [List.cons_append, List.nil_append]
      rw [if_pos (.inl trivial)]; exact hd
    · simp only [List.cons_append, List.nil_append]
      rw [if_pos (.inr trivial)]; exact hd

theorem expPart_sound {s r : Bytes} (h : expPart s = some r) : ∃ e, s = e ++ r ∧ Exponent e := by
  unfold expPart at h
  split at h
  · rename_i c s'
    split at h
    · rename_i hc
      split at h
      · rename_i d s''
        split at h
        · rename_i hd
          obtain ⟨t, rfl, h0, ht⟩ := digits1_sound h
          exact ⟨c :: d :: t, by simp, .inr ⟨c, [d], t, rfl, hc, by rcases hd with rfl | rfl <;> simp, h0, ht⟩⟩
        · obtain ⟨t, he, h0, ht⟩ := digits1_sound h
          exact ⟨c :: t, by rw [he]; simp, .inr ⟨c, [], t, rfl, hc, .inl rfl, h0, ht⟩⟩
      · cases h
    · cases h; exact ⟨[], rfl, .inl rfl⟩
  · cases h; exact ⟨[], rfl, .inl rfl⟩

/-- the first character of an exponent and what follows it is not a digit and not a point -/
theorem exponent_head {e r : Bytes} (he : Exponent e) (hr : Stops r) (c : UInt8) (h : (e ++ r).head? = some c) : ¬ (48 ≤ c ∧ c ≤ 57) ∧ c ≠ 46 := by
  rcases he with rfl | ⟨d, s, u, rfl, hd, -, -, -⟩
  · exact ⟨(hr c h).1, (hr c h).2.1⟩
  · simp only [List.cons_append, List.head?_cons, Option.some.injEq] at h
    subst h
    rcases hd with rfl | rfl <;> decide

theorem fracPart_complete {f e r : Bytes} (hf : Fraction f) (he : Exponent e) (hr : Stops r) : fracPart (f ++ (e ++ r)) = some r := by
  rcases hf with rfl | ⟨u, rfl, h0, hu⟩
  · have hx := expPart_complete he hr
    rw [List.nil_append]
    cases her : e ++ r with
    | nil => rw [her] at hx; exact hx
    | cons c s =>
      have := exponent_head he hr c (by rw [her]; rfl)
      unfold fracPart
      simp only
      rw [if_neg this.2, ← her]
      exact hx
  · unfold fracPart
    simp only [List.cons_append]
    rw [if_pos trivial, digits1_complete hu h0 fun c hc => (exponent_head he hr c hc).1]
    exact expPart_complete he hr

theorem fracPart_sound {s r : Bytes} (h : fracPart s = some r) : ∃ f e, s = f ++ (e ++ r) ∧ Fraction f ∧ Exponent e := by
  unfold fracPart at h
  split at h
  · rename_i c s'
    split at h
    · rename_i hc
      subst hc
      split at h
      · rename_i r' hd
        obtain ⟨t, rfl, h0, ht⟩ := digits1_sound hd
        obtain ⟨e, rfl, he⟩ := expPart_sound h
        exact ⟨46 :: t, e, by simp, .inr ⟨t, rfl, h0, ht⟩, he⟩
      · cases h
    · obtain ⟨e, he, hx⟩ := expPart_sound h
      exact ⟨[], e, he, .inl rfl, hx⟩
  · cases h; exact ⟨[], [], rfl, .inl rfl, .inl rfl⟩

/-- the first character after an integer part is not a digit -/
theorem fraction_head {f e r : Bytes} (hf : Fraction f) (he : Exponent e) (hr : Stops r) (c : UInt8) (h : (f ++ (e ++ r)).head? = some c) :
    ¬ (48 ≤ c ∧ c ≤ 57) := by
  rcases hf with rfl | ⟨u, rfl, -, -⟩
  · exact (exponent_head he hr c h).1
  · simp only [List.cons_append, List.head?_cons, Option.some.injEq] at h
    subst h
    decide

theorem unsignedNum_complete {i f e r : Bytes} (hi : IntPart i) (hf : Fraction f) (he : Exponent e) (hr : Stops r) :
    unsignedNum (i ++ (f ++ (e ++ r))) = some r := by
  have hfr := fracPart_complete hf he hr
  have hh := fraction_head hf he hr
  generalize f ++ (e ++ r) = s at hfr hh ⊢
  rcases hi with rfl | ⟨h0, hd, h48⟩
  · unfold unsignedNum
    simp only [List.cons_append, List.nil_append, if_true]
    cases s with
    | nil => exact hfr
    | cons d s => dsimp only; rw [if_neg (hh d rfl)]; exact hfr
  · have := digits1_complete hd h0 hh
    cases i with
    | nil => exact absurd rfl h0
    | cons c i =>
      unfold unsignedNum
      simp only [List.cons_append]
      rw [if_neg (by intro hc; exact h48 (by rw [hc]; rfl))]
      rw [List.cons_append] at this
      rw [this]
      exact hfr

theorem unsignedNum_sound {s r : Bytes} (h : unsignedNum s = some r) : ∃ i f e, s = i ++ (f ++ (e ++ r)) ∧ IntPart i ∧ Fraction f ∧ Exponent e := by
  unfold unsignedNum at h
  split at h
  · rename_i c s'
    split at h
    · rename_i hc
      subst hc
      split at h
      · rename_i d s''
        split at h
        · cases h
        · obtain ⟨f, e, he, h1, h2⟩ := fracPart_sound h
          exact ⟨[48], f, e, by rw [he]; rfl, .inl rfl, h1, h2⟩
      · cases h; exact ⟨[48], [], [], rfl, .inl rfl, .inl rfl, .inl rfl⟩
    · rename_i hc
      split at h
      · rename_i r' hd
        obtain ⟨t, ht, h0, hdg⟩ := digits1_sound hd
        obtain ⟨f, e, rfl, h1, h2⟩ := fracPart_sound h
        refine ⟨t, f, e, ht, .inr ⟨h0, hdg, fun hh => ?_⟩, h1, h2⟩
        cases t with
        | nil => exact h0 rfl
        | cons a t =>
          simp only [List.cons_append, List.cons.injEq] at ht
          simp only [List.head?_cons, Option.some.injEq] at hh
          exact hc (ht.1.trans hh)
      · cases h
  · cases h

/-! ## Values -/

theorem blank_nil : Blank [] := fun _ h => by cases h
theorem blank_append {a b : Bytes} (ha : Blank a) (hb : Blank b) : Blank (a ++ b) := fun c hc => (List.mem_append.1 hc).elim (ha c) (hb c)

theorem stops_blank {w r : Bytes} (hw : Blank w) (hr : Stops r) : Stops (w ++ r) := by
  cases w with
  | nil => exact hr
  | cons c w =>
    intro d hd
    simp only [List.cons_append, List.head?_cons, Option.some.injEq] at hd
    subst hd
    rcases hw c (by simp) with rfl | rfl | rfl | rfl <;> decide

theorem stops_cons {c : UInt8} (h : ¬ (48 ≤ c ∧ c ≤ 57) ∧ c ≠ 46 ∧ c ≠ 101 ∧ c ≠ 69) (r : Bytes) : Stops (c :: r) := by
  intro d hd
  simp only [List.head?_cons, Option.some.injEq] at hd
  exact hd ▸ h

/-- the first character of a value -/
theorem Spells.head {v : JVal} {t : Bytes} (h : Spells v t) : ∃ c r, t = c :: r ∧ isWs c = false ∧ c ≠ 93 ∧ c ≠ 125 := by
  cases v with
  | null => rw [Spells] at h; exact ⟨110, b!"ull", h, by decide, by decide, by decide⟩
  | bool b =>
    cases b with
    | true => rw [Spells] at h; exact ⟨116, b!"rue", h, by decide, by decide, by decide⟩
    | false => rw [Spells] at h; exact ⟨102, b!"alse", h, by decide, by decide, by decide⟩
  | num =>
    rw [Spells] at h
    obtain ⟨s, i, f, e, rfl, hs, hi, -, -⟩ := h
    rcases hs with rfl | rfl
    · rcases hi with rfl | ⟨h0, hd, -⟩
      · exact ⟨48, f ++ e, rfl, by decide, by decide, by decide⟩
      · cases i with
        | nil => exact absurd rfl h0
        | cons c i =>
          have hc := hd c (by simp)
          refine ⟨c, i ++ (f ++ e), rfl, ?_, ?_, ?_⟩
          · cases hw : isWs c with
            | false => rfl
            | true => rcases (isWs_iff c).1 hw with rfl | rfl | rfl | rfl <;> exact absurd hc (by decide)
          · rintro rfl; exact absurd hc (by decide)
          · rintro rfl; exact absurd hc (by decide)
    · exact ⟨45, i ++ (f ++ e), rfl, by decide, by decide, by decide⟩
  | str v => rw [Spells] at h; obtain ⟨-, u, rfl, -⟩ := h; exact ⟨34, u ++ [34], rfl, by decide, by decide, by decide⟩
  | arr xs => rw [Spells] at h; obtain ⟨u, rfl, -⟩ := h; exact ⟨91, u ++ [93], rfl, by decide, by decide, by decide⟩
  | obj fs => rw [Spells] at h; obtain ⟨u, rfl, -⟩ := h; exact ⟨123, u ++ [125], rfl, by decide, by decide, by decide⟩

theorem skip_value {v : JVal} {t : Bytes} (h : Spells v t) {w : Bytes} (hw : Blank w) (rest : Bytes) : skipWs (w ++ (t ++ rest)) = t ++ rest := by
  obtain ⟨c, r, rfl, hc, -, -⟩ := h.head
  rw [skipWs_blank hw]
  exact skipWs_cons c _ hc

/-- a number is read -/
theorem jsonValue_num (n d : Nat) {w t rest : Bytes} (hw : Blank w) (h : Number t) (hr : Stops rest) :
    jsonValue (n + 1) d (w ++ (t ++ rest)) = some (.num, rest) := by
  have hsp : Spells .num t := by rw [Spells]; exact h
  unfold jsonValue
  rw [skip_value hsp hw]
  obtain ⟨s, i, f, e, rfl, hs, hi, hf, he⟩ := h
  have hu := unsignedNum_complete hi hf he hr
  rcases hs with rfl | rfl
  · have hc : ∃ c r, i = c :: r ∧ (48 ≤ c ∧ c ≤ 57) := by
      rcases hi with rfl | ⟨h0, hd, -⟩
      · exact ⟨48, [], rfl, by decide⟩
      · cases i with
        | nil => exact absurd rfl h0
        | cons c i => exact ⟨c, i, rfl, hd c (by simp)⟩
    obtain ⟨c, r, rfl, hc⟩ := hc
    have ne : ∀ x : UInt8, ¬ (48 ≤ x ∧ x ≤ 57) → c ≠ x := fun x hx he => hx (he ▸ hc)
    simp only [List.nil_append, List.append_assoc, List.cons_append] at hu ⊢
    rw [if_neg (ne _ (by decide)), if_neg (ne _ (by decide)), if_neg (ne _ (by decide)), if_neg (ne _ (by decide)), if_neg (ne _ (by decide)),
      if_neg (ne _ (by decide)), if_neg (ne _ (by decide)), hu]
    rfl
  · simp only [List.nil_append, List.append_assoc, List.cons_append]
    rw [hu]
    rfl

theorem more_stops (xs : List JVal) (u rest : Bytes) (h : MoreElements xs u) {w : Bytes} (hw : Blank w) : Stops (w ++ (u ++ 93 :: rest)) := by
  refine stops_blank hw ?_
  cases xs with
  | nil => rw [MoreElements] at h; subst h; exact stops_cons (by decide) _
  | cons x xs => rw [MoreElements] at h; obtain ⟨w, t, w', u', rfl, -⟩ := h; exact stops_cons (by decide) _

theorem moreM_stops (fs : List (Bytes × JVal)) (u rest : Bytes) (h : MoreMembers fs u) {w : Bytes} (hw : Blank w) : Stops (w ++ (u ++ 125 :: rest)) := by
  refine stops_blank hw ?_
  cases fs with
  | nil => rw [MoreMembers] at h; subst h; exact stops_cons (by decide) _
  | cons f fs => obtain ⟨k, x⟩ := f; rw [MoreMembers] at h; obtain ⟨w, q, w', w'', t, v, u', rfl, -⟩ := h; exact stops_cons (by decide) _

/-- one member and those after it -/
theorem member_step {k : Bytes} {x : JVal} {fs : List (Bytes × JVal)} {d n : Nat} {q w' w'' t s rest : Bytes} (hq : Quoted k q) (hw' : Blank w')
    (h1 : jsonValue n d (w'' ++ (t ++ s)) = some (x, s)) (h2 : jsonMembersTail n d s = (fs, some rest)) :
    jsonMember (n + 1) d (q ++ (w' ++ 58 :: (w'' ++ (t ++ s)))) = ((k, x) :: fs, some rest) := by
  obtain ⟨u, hu, hs⟩ := jsonString_complete hq (w' ++ 58 :: (w'' ++ (t ++ s)))
  unfold jsonMember
  rw [hu, skipWs_cons 34 _ (by decide)]
  dsimp only
  rw [if_pos rfl, hs]
  dsimp only
  rw [skipWs_blank hw', skipWs_cons 58 _ (by decide)]
  dsimp only
  rw [if_pos rfl, h1]
  dsimp only
  rw [h2]

mutual
theorem value_complete : ∀ (v : JVal) (d : Nat) (w t rest : Bytes) (n : Nat), Blank w → Spells v t → v.depth < d → Stops rest →
    2 * t.length + 2 ≤ n → jsonValue n d (w ++ (t ++ rest)) = some (v, rest)
  | .null, d, w, t, rest, n, hw, h, _, _, hn => by
    obtain ⟨n, rfl⟩ : ∃ k, n = k + 1 := ⟨n - 1, by omega⟩
    unfold jsonValue
    rw [skip_value h hw]
    rw [Spells] at h
    subst h
    rfl
  | .bool true, d, w, t, rest, n, hw, h, _, _, hn => by
    obtain ⟨n, rfl⟩ : ∃ k, n = k + 1 := ⟨n - 1, by omega⟩
    unfold jsonValue
    rw [skip_value h hw]
    rw [Spells] at h
    subst h
    rfl
  | .bool false, d, w, t, rest, n, hw, h, _, _, hn => by
    obtain ⟨n, rfl⟩ : ∃ k, n = k + 1 := ⟨n - 1, by omega⟩
    unfold jsonValue
    rw [skip_value h hw]
    rw [Spells] at h
    subst h
    rfl
  | .num, d, w, t, rest, n, hw, h, _, hr, hn => by
    obtain ⟨n, rfl⟩ : ∃ k, n = k + 1 := ⟨n - 1, by omega⟩
    rw [Spells] at h
    exact jsonValue_num n d hw h hr
  | .str v, d, w, t, rest, n, hw, h, _, _, hn => by
    obtain ⟨n, rfl⟩ : ∃ k, n = k + 1 := ⟨n - 1, by omega⟩
    unfold jsonValue
    rw [skip_value h hw]
    rw [Spells] at h
    obtain ⟨u, hu, hs⟩ := jsonString_complete h rest
    rw [hu]
    dsimp only
    rw [if_neg (by decide), if_neg (by decide), if_neg (by decide), if_pos rfl, hs]
    rfl
  | .arr xs, d, w, t, rest, n, hw, h, hd, _, hn => by
    obtain ⟨n, rfl⟩ : ∃ k, n = k + 1 := ⟨n - 1, by omega⟩
    unfold jsonValue
    rw [skip_value h hw]
    rw [Spells] at h
    obtain ⟨u, rfl, hu⟩ := h
    rw [JVal.depth] at hd
    simp only [List.length_cons, List.length_append, List.length_nil] at hn
    have := elements_complete xs (d - 1) u rest n hu (by omega) (by omega)
    simp only [List.cons_append, List.append_assoc, List.nil_append]
    rw [if_neg (by decide), if_neg (by decide), if_neg (by decide), if_neg (by decide), if_pos trivial, if_neg (by omega), this]
    rfl
  | .obj fs, d, w, t, rest, n, hw, h, hd, _, hn => by
    obtain ⟨n, rfl⟩ : ∃ k, n = k + 1 := ⟨n - 1, by omega⟩
    unfold jsonValue
    rw [skip_value h hw]
    rw [Spells] at h
    obtain ⟨u, rfl, hu⟩ := h
    rw [JVal.depth] at hd
    simp only [List.length_cons, List.length_append, List.length_nil] at hn
    have := members_complete fs (d - 1) u rest n hu (by omega) (by omega)
    simp only [List.cons_append, List.append_assoc, List.nil_append]
    rw [if_neg (by decide), if_neg (by decide), if_neg (by decide), if_neg (by decide), if_neg (by decide), if_pos trivial, if_neg (by omega), this]
theorem elements_complete : ∀ (xs : List JVal) (d : Nat) (u rest : Bytes) (n : Nat), Elements xs u → depthL xs < d →
    2 * u.length + 3 ≤ n → jsonElements n d (u ++ 93 :: rest) = some (xs, rest)
  | [], d, u, rest, n, h, hd, hn => by
    obtain ⟨n, rfl⟩ : ∃ k, n = k + 1 := ⟨n - 1, by omega⟩
    rw [Elements] at h
    unfold jsonElements
    rw [skipWs_blank h, skipWs_cons 93 _ (by decide)]
    rfl
  | x :: xs, d, u, rest, n, h, hd, hn => by
    obtain ⟨n, rfl⟩ : ∃ k, n = k + 1 := ⟨n - 1, by omega⟩
    rw [Elements] at h
    obtain ⟨w, t, w', u', rfl, hw, ht, hw', hu'⟩ := h
    rw [depthL] at hd
    obtain ⟨hd1, hd2⟩ := Nat.max_lt.1 hd
    simp only [List.length_append] at hn
    obtain ⟨c, r, hcr, hc, hc93, -⟩ := ht.head
    have hlen : 1 ≤ t.length := by rw [hcr]; simp
    have hstop : Stops (w' ++ (u' ++ 93 :: rest)) := more_stops xs u' rest hu' hw'
    have h1 := value_complete x d [] t (w' ++ (u' ++ 93 :: rest)) n blank_nil ht hd1 hstop (by omega)
    have h2 := moreElements_complete xs d w' u' rest n hw' hu' hd2 (by omega)
    unfold jsonElements
    have hsk : skipWs (w ++ (t ++ (w' ++ u')) ++ 93 :: rest) = t ++ (w' ++ (u' ++ 93 :: rest)) := by
      simp only [List.append_assoc]
      exact skip_value ht hw _
    rw [hsk]
    rw [List.nil_append] at h1
    subst hcr
    simp only [List.cons_append] at h1 ⊢
    rw [if_neg hc93, h1]
    dsimp only
    rw [h2]
    rfl
theorem moreElements_complete : ∀ (xs : List JVal) (d : Nat) (w u rest : Bytes) (n : Nat), Blank w → MoreElements xs u → depthL xs < d →
    2 * u.length + 3 ≤ n → jsonElementsTail n d (w ++ (u ++ 93 :: rest)) = some (xs, rest)
  | [], d, w, u, rest, n, hw, h, hd, hn => by
    obtain ⟨n, rfl⟩ : ∃ k, n = k + 1 := ⟨n - 1, by omega⟩
    rw [MoreElements] at h
    subst h
    unfold jsonElementsTail
    rw [skipWs_blank hw, List.nil_append, skipWs_cons 93 _ (by decide)]
    rfl
  | x :: xs, d, w, u, rest, n, hw, h, hd, hn => by
    obtain ⟨n, rfl⟩ : ∃ k, n = k + 1 := ⟨n - 1, by omega⟩
    rw [MoreElements] at h
    obtain ⟨w1, t, w', u', rfl, hw1, ht, hw', hu'⟩ := h
    rw [depthL] at hd
    obtain ⟨hd1, hd2⟩ := Nat.max_lt.1 hd
    simp only [List.length_append, List.length_cons] at hn
    have hstop : Stops (w' ++ (u' ++ 93 :: rest)) := more_stops xs u' rest hu' hw'
    have h1 := value_complete x d w1 t (w' ++ (u' ++ 93 :: rest)) n hw1 ht hd1 hstop (by omega)
    have h2 := moreElements_complete xs d w' u' rest n hw' hu' hd2 (by omega)
    unfold jsonElementsTail
    rw [skipWs_blank hw]
    simp only [List.cons_append, List.append_assoc]
    rw [skipWs_cons 44 _ (by decide)]
    dsimp only
    rw [if_neg (by decide), if_pos rfl, h1]
    dsimp only
    rw [h2]
    rfl
theorem members_complete : ∀ (fs : List (Bytes × JVal)) (d : Nat) (u rest : Bytes) (n : Nat), Members fs u → depthF fs < d →
    2 * u.length + 4 ≤ n → jsonMembers n d (u ++ 125 :: rest) = (fs, some rest)
  | [], d, u, rest, n, h, hd, hn => by
    obtain ⟨n, rfl⟩ : ∃ k, n = k + 1 := ⟨n - 1, by omega⟩
    rw [Members] at h
    unfold jsonMembers
    rw [skipWs_blank h, skipWs_cons 125 _ (by decide)]
    rfl
  | (k, x) :: fs, d, u, rest, n, h, hd, hn => by
    obtain ⟨n, rfl⟩ : ∃ k, n = k + 1 := ⟨n - 1, by omega⟩
    rw [Members] at h
    obtain ⟨w, q, w', w'', t, v, u', rfl, hw, hq, hw', hw'', ht, hv, hu'⟩ := h
    rw [depthF] at hd
    obtain ⟨hd1, hd2⟩ := Nat.max_lt.1 hd
    simp only [List.length_append, List.length_cons] at hn
    obtain ⟨n, rfl⟩ : ∃ k, n = k + 1 := ⟨n - 1, by omega⟩
    have hm := member_step hq hw' (value_complete x d w'' t (v ++ (u' ++ 125 :: rest)) n hw'' ht hd1 (moreM_stops fs u' rest hu' hv) (by omega))
      (moreMembers_complete fs d v u' rest n hv hu' hd2 (by omega))
    unfold jsonMembers
    simp only [List.append_assoc, List.cons_append]
    rw [skipWs_blank hw]
    obtain ⟨-, q', rfl, -⟩ := hq
    simp only [List.cons_append] at hm ⊢
    rw [skipWs_cons 34 _ (by decide)]
    dsimp only
    rw [if_neg (by decide)]
    exact hm
theorem moreMembers_complete : ∀ (fs : List (Bytes × JVal)) (d : Nat) (w u rest : Bytes) (n : Nat), Blank w → MoreMembers fs u → depthF fs < d →
    2 * u.length + 4 ≤ n → jsonMembersTail n d (w ++ (u ++ 125 :: rest)) = (fs, some rest)
  | [], d, w, u, rest, n, hw, h, hd, hn => by
    obtain ⟨n, rfl⟩ : ∃ k, n = k + 1 := ⟨n - 1, by omega⟩
    rw [MoreMembers] at h
    subst h
    unfold jsonMembersTail
    rw [skipWs_blank hw, List.nil_append, skipWs_cons 125 _ (by decide)]
    rfl
  | (k, x) :: fs, d, w, u, rest, n, hw, h, hd, hn => by
    obtain ⟨n, rfl⟩ : ∃ k, n = k + 1 := ⟨n - 1, by omega⟩
    rw [MoreMembers] at h
    obtain ⟨w1, q, w', w'', t, v, u', rfl, hw1, hq, hw', hw'', ht, hv, hu'⟩ := h
    rw [depthF] at hd
    obtain ⟨hd1, hd2⟩ := Nat.max_lt.1 hd
    simp only [List.length_append, List.length_cons] at hn
    obtain ⟨n, rfl⟩ : ∃ k, n = k + 1 := ⟨n - 1, by omega⟩
    have hm := member_step hq hw' (value_complete x d w'' t (v ++ (u' ++ 125 :: rest)) n hw'' ht hd1 (moreM_stops fs u' rest hu' hv) (by omega))
      (moreMembers_complete fs d v u' rest n hv hu' hd2 (by omega))
    unfold jsonMembersTail
    rw [skipWs_blank hw]
    simp only [List.append_assoc, List.cons_append]
    rw [skipWs_cons 44 _ (by decide)]
    dsimp only
    rw [if_neg (by decide), if_pos rfl]
    unfold jsonMember at hm ⊢
    rw [skipWs_blank hw1]
    exact hm
end

/-! ### nothing else is read -/

theorem ident_sound {w s r : Bytes} (h : ident w s = some r) : s = w ++ r := by
  unfold ident at h
  split at h
  · rename_i ht
    cases h
    calc s = s.take w.length ++ s.drop w.length := (List.take_append_drop _ _).symm
      _ = w ++ s.drop w.length := by rw [ht]
  · cases h

/-- all readers up to some fuel read the grammar only -/
structure Sound (n : Nat) : Prop where
  value : ∀ d s v r, 1 ≤ d → jsonValue n d s = some (v, r) → ∃ w t, s = w ++ (t ++ r) ∧ Blank w ∧ Spells v t ∧ v.depth < d
  elements : ∀ d s xs r, 1 ≤ d → jsonElements n d s = some (xs, r) → ∃ u, s = u ++ 93 :: r ∧ Elements xs u ∧ depthL xs < d
  more : ∀ d s xs r, 1 ≤ d → jsonElementsTail n d s = some (xs, r) → ∃ w u, s = w ++ (u ++ 93 :: r) ∧ Blank w ∧ MoreElements xs u ∧ depthL xs < d
  members : ∀ d s fs r, 1 ≤ d → jsonMembers n d s = (fs, some r) → ∃ u, s = u ++ 125 :: r ∧ Members fs u ∧ depthF fs < d
  member : ∀ d s fs r, 1 ≤ d → jsonMember n d s = (fs, some r) → ∃ u, s = u ++ 125 :: r ∧ Members fs u ∧ fs ≠ [] ∧ depthF fs < d
  moreM : ∀ d s fs r, 1 ≤ d → jsonMembersTail n d s = (fs, some r) → ∃ w u, s = w ++ (u ++ 125 :: r) ∧ Blank w ∧ MoreMembers fs u ∧ depthF fs < d

theorem sound_value {n : Nat} (ih : Sound n) : ∀ d s v r, 1 ≤ d → jsonValue (n + 1) d s = some (v, r) →
    ∃ w t, s = w ++ (t ++ r) ∧ Blank w ∧ Spells v t ∧ v.depth < d := by
  intro d s v r hd h
  unfold jsonValue at h
  obtain ⟨w, hw, hs⟩ := skipWs_split s
  have word : ∀ (c : UInt8) (rest cs : Bytes) (v0 : JVal), v0.depth = 0 → Spells v0 (c :: cs) → skipWs s = c :: rest →
      (ident cs rest).map (fun r => (v0, r)) = some (v, r) → ∃ w t, s = w ++ (t ++ r) ∧ Blank w ∧ Spells v t ∧ v.depth < d := by
    intro c rest cs v0 h0 hsp hsk hh
    cases hi : ident cs rest with
    | none => rw [hi] at hh; cases hh
    | some r' =>
      rw [hi] at hh
      cases hh
      exact ⟨w, c :: cs, by rw [hs, hsk, ident_sound hi]; simp, hw, hsp, by omega⟩
  split at h
  · cases h
  · rename_i c rest hsk
    rw [hsk] at hs
    split at h
    · rename_i hc; subst hc
      exact word 110 rest b!"ull" .null rfl (by rw [Spells]) hsk h
    split at h
    · rename_i hc; subst hc
      exact word 116 rest b!"rue" (.bool true) rfl (by rw [Spells]) hsk h
    split at h
    · rename_i hc; subst hc
      exact word 102 rest b!"alse" (.bool false) rfl (by rw [Spells]) hsk h
    split at h
    · rename_i hc; subst hc
      cases hj : jsonString rest with
      | none => rw [hj] at h; cases h
      | some p =>
        rw [hj] at h
        cases h
        obtain ⟨q, hq, hqq⟩ := jsonString_sound (v := p.1) (r := p.2) hj
        exact ⟨w, q, by rw [hs, hq], hw, by rw [Spells]; exact hqq, by simp only [JVal.depth]; omega⟩
    split at h
    · rename_i hc; subst hc
      split at h
      · cases h
      · cases hj : jsonElements n (d - 1) rest with
        | none => rw [hj] at h; cases h
        | some p =>
          rw [hj] at h
          cases h
          obtain ⟨u, hu, hx, hdp⟩ := ih.elements _ _ p.1 p.2 (by omega) hj
          exact ⟨w, 91 :: (u ++ [93]), by rw [hs, hu]; simp, hw, by rw [Spells]; exact ⟨u, rfl, hx⟩, by rw [JVal.depth]; omega⟩
    split at h
    · rename_i hc; subst hc
      split at h
      · cases h
      · split at h
        · rename_i fs r' hj
          cases h
          obtain ⟨u, hu, hx, hdp⟩ := ih.members _ _ _ _ (by omega) hj
          exact ⟨w, 123 :: (u ++ [125]), by rw [hs, hu]; simp, hw, by rw [Spells]; exact ⟨u, rfl, hx⟩, by rw [JVal.depth]; omega⟩
        · cases h
    split at h
    · rename_i hc; subst hc
      cases hj : unsignedNum rest with
      | none => rw [hj] at h; cases h
      | some r' =>
        rw [hj] at h
        cases h
        obtain ⟨i, f, e, rfl, hi, hf, he⟩ := unsignedNum_sound hj
        exact ⟨w, [45] ++ (i ++ (f ++ e)), by rw [hs]; simp, hw, by rw [Spells]; exact ⟨[45], i, f, e, rfl, .inr rfl, hi, hf, he⟩,
          by simp only [JVal.depth]; omega⟩
    · cases hj : unsignedNum (c :: rest) with
      | none => rw [hj] at h; cases h
      | some r' =>
        rw [hj] at h
        cases h
        obtain ⟨i, f, e, hx, hi, hf, he⟩ := unsignedNum_sound hj
        exact ⟨w, [] ++ (i ++ (f ++ e)), by rw [hs, hx]; simp, hw, by rw [Spells]; exact ⟨[], i, f, e, rfl, .inl rfl, hi, hf, he⟩,
          by simp only [JVal.depth]; omega⟩

theorem sound_all : ∀ n, Sound n
  | 0 => by
    constructor <;> intro d s v r hd h
    · unfold jsonValue at h; cases h
    · unfold jsonElements at h; cases h
    · unfold jsonElementsTail at h; cases h
    · unfold jsonMembers at h; cases h
    · unfold jsonMember at h; cases h
    · unfold jsonMembersTail at h; cases h
  | n + 1 => by
    have ih := sound_all n
    refine ⟨sound_value ih, ?_, ?_, ?_, ?_, ?_⟩
    · intro d s xs r hd h
      obtain ⟨w, hw, hs⟩ := skipWs_split s
      unfold jsonElements at h
      split at h
      · cases h
      · rename_i c rest hsk
        rw [hsk] at hs
        split at h
        · rename_i hc
          subst hc
          cases h
          exact ⟨w, hs, by rw [Elements]; exact hw, by rw [depthL]; omega⟩
        · split at h
          · rename_i x r1 hv
            cases hj : jsonElementsTail n d r1 with
            | none => rw [hj] at h; cases h
            | some p =>
              rw [hj] at h
              cases h
              obtain ⟨w1, t, h1, hw1, ht, hdt⟩ := ih.value _ _ _ _ hd hv
              obtain ⟨w2, u, h2, hw2, hu, hdu⟩ := ih.more _ _ p.1 p.2 hd hj
              refine ⟨(w ++ w1) ++ (t ++ (w2 ++ u)), by rw [hs, h1, h2]; simp, ?_, by rw [depthL]; exact Nat.max_lt.2 ⟨hdt, hdu⟩⟩
              rw [Elements]
              exact ⟨w ++ w1, t, w2, u, rfl, blank_append hw hw1, ht, hw2, hu⟩
          · cases h
    · intro d s xs r hd h
      obtain ⟨w, hw, hs⟩ := skipWs_split s
      unfold jsonElementsTail at h
      split at h
      · cases h
      · rename_i c rest hsk
        rw [hsk] at hs
        split at h
        · rename_i hc
          subst hc
          cases h
          exact ⟨w, [], hs, hw, by rw [MoreElements], by rw [depthL]; omega⟩
        · split at h
          · rename_i hc
            subst hc
            split at h
            · rename_i x r1 hv
              cases hj : jsonElementsTail n d r1 with
              | none => rw [hj] at h; cases h
              | some p =>
                rw [hj] at h
                cases h
                obtain ⟨w1, t, h1, hw1, ht, hdt⟩ := ih.value _ _ _ _ hd hv
                obtain ⟨w2, u, h2, hw2, hu, hdu⟩ := ih.more _ _ p.1 p.2 hd hj
                refine ⟨w, 44 :: (w1 ++ (t ++ (w2 ++ u))), by rw [hs, h1, h2]; simp, hw, ?_, by rw [depthL]; exact Nat.max_lt.2 ⟨hdt, hdu⟩⟩
                rw [MoreElements]
                exact ⟨w1, t, w2, u, rfl, hw1, ht, hw2, hu⟩
            · cases h
          · cases h
    · intro d s fs r hd h
      obtain ⟨w, hw, hs⟩ := skipWs_split s
      unfold jsonMembers at h
      split at h
      · cases h
      · rename_i c rest hsk
        rw [hsk] at hs
        split at h
        · rename_i hc
          subst hc
          cases h
          exact ⟨w, hs, by rw [Members]; exact hw, by rw [depthF]; omega⟩
        · obtain ⟨u, hu, hm, hne, hdu⟩ := ih.member _ _ _ _ hd h
          refine ⟨w ++ u, by rw [hs, hu]; simp, ?_, hdu⟩
          cases fs with
          | nil => exact absurd rfl hne
          | cons f fs =>
            obtain ⟨k, x⟩ := f
            rw [Members] at hm ⊢
            obtain ⟨w1, q, w', w'', t, v, u', rfl, hw1, hrest⟩ := hm
            exact ⟨w ++ w1, q, w', w'', t, v, u', by simp, blank_append hw hw1, hrest⟩
    · intro d s fs r hd h
      obtain ⟨w, hw, hs⟩ := skipWs_split s
      unfold jsonMember at h
      split at h
      · cases h
      · rename_i c rest hsk
        rw [hsk] at hs
        split at h
        · rename_i hc
          subst hc
          split at h
          · cases h
          · rename_i k r1 hk
            obtain ⟨q, hq, hqq⟩ := jsonString_sound hk
            obtain ⟨w', hw', hs'⟩ := skipWs_split r1
            split at h
            · cases h
            · rename_i c' r2 hsk'
              rw [hsk'] at hs'
              split at h
              · rename_i hc'
                subst hc'
                split at h
                · cases h
                · rename_i x r3 hv
                  cases hj : jsonMembersTail n d r3 with
                  | mk gs o =>
                    rw [hj] at h
                    dsimp only at h
                    cases h
                    obtain ⟨w'', t, h1, hw'', ht, hdt⟩ := ih.value _ _ _ _ hd hv
                    obtain ⟨v, u, h2, hv', hu, hdu⟩ := ih.moreM _ _ gs r hd hj
                    refine ⟨w ++ (q ++ (w' ++ 58 :: (w'' ++ (t ++ (v ++ u))))), by rw [hs, hq, hs', h1, h2]; simp, ?_, by simp, by
                      rw [depthF]; exact Nat.max_lt.2 ⟨hdt, hdu⟩⟩
                    rw [Members]
                    exact ⟨w, q, w', w'', t, v, u, rfl, hw, hqq, hw', hw'', ht, hv', hu⟩
              · cases h
        · cases h
    · intro d s fs r hd h
      obtain ⟨w, hw, hs⟩ := skipWs_split s
      unfold jsonMembersTail at h
      split at h
      · cases h
      · rename_i c rest hsk
        rw [hsk] at hs
        split at h
        · rename_i hc
          subst hc
          cases h
          exact ⟨w, [], hs, hw, by rw [MoreMembers], by rw [depthF]; omega⟩
        · split at h
          · rename_i hc
            subst hc
            obtain ⟨u, hu, hm, hne, hdu⟩ := ih.member _ _ _ _ hd h
            refine ⟨w, 44 :: u, by rw [hs, hu]; simp, hw, ?_, hdu⟩
            cases fs with
            | nil => exact absurd rfl hne
            | cons f fs =>
              obtain ⟨k, x⟩ := f
              rw [Members] at hm
              rw [MoreMembers]
              obtain ⟨w1, q, w', w'', t, v, u', rfl, hrest⟩ := hm
              exact ⟨w1, q, w', w'', t, v, u', rfl, hrest⟩
          · cases h

/-! ## The property -/

/-- **C118**: the top-level reader accepts exactly the JSON objects, however spelled, nested less than 128 deep, at the start of the input after
optional white space; it returns the members, in their order, and everything after the closing brace. -/
theorem C118_reader_exact (s rest : Bytes) (fs : List (Bytes × JVal)) :
    jsonTop s = (fs, some rest) ↔ ∃ w t, s = w ++ (t ++ rest) ∧ Blank w ∧ Spells (.obj fs) t ∧ (JVal.obj fs).depth < 128 := by
  constructor
  · intro h
    unfold jsonTop at h
    obtain ⟨w, hw, hs⟩ := skipWs_split s
    split at h
    · cases h
    · rename_i c r hsk
      rw [hsk] at hs
      split at h
      · rename_i hc
        subst hc
        obtain ⟨u, rfl, hm, hd⟩ := (sound_all _).members _ _ _ _ (by omega) h
        exact ⟨w, 123 :: (u ++ [125]), by rw [hs]; simp, hw, by rw [Spells]; exact ⟨u, rfl, hm⟩, by rw [JVal.depth]; omega⟩
      · cases h
  · rintro ⟨w, t, rfl, hw, ht, hd⟩
    rw [Spells] at ht
    obtain ⟨u, rfl, hm⟩ := ht
    rw [JVal.depth] at hd
    unfold jsonTop
    rw [skipWs_blank hw]
    simp only [List.cons_append, List.append_assoc, List.nil_append]
    rw [skipWs_cons 123 _ (by decide)]
    dsimp only
    rw [if_pos rfl]
    exact members_complete fs 127 u rest _ hm (by omega) (by simp only [List.length_append, List.length_cons]; omega)

/-- **C118**: a message means the same however its JSON text is spelled: texts of the same object are read alike, up to the same place. -/
theorem C118_spelling (fs : List (Bytes × JVal)) (w w' t t' rest : Bytes) (hw : Blank w) (hw' : Blank w') (ht : Spells (.obj fs) t)
    (ht' : Spells (.obj fs) t') (hd : (JVal.obj fs).depth < 128) :
    jsonMessage desKeyEvent (w ++ (t ++ rest)) = jsonMessage desKeyEvent (w' ++ (t' ++ rest)) ∧
    jsonMessage (fun fs => desReceipt fs none none none) (w ++ (t ++ rest)) = jsonMessage (fun fs => desReceipt fs none none none) (w' ++ (t' ++ rest)) := by
  have h1 := (C118_reader_exact _ rest fs).2 ⟨w, t, rfl, hw, ht, hd⟩
  have h2 := (C118_reader_exact _ rest fs).2 ⟨w', t', rfl, hw', ht', hd⟩
  unfold jsonMessage
  rw [h1, h2]
  exact ⟨rfl, rfl⟩

/-- **C118** for events, from the characters to the meaning: a text is read as an event exactly if it is a spelling of an object whose members denote it. -/
theorem C118_event_text (s rest : Bytes) (info : SerInfo) (e : KeyEvent) :
    jsonMessage desKeyEvent s = .ok rest (info, e) ↔
      ∃ w t fs, s = w ++ (t ++ rest) ∧ Blank w ∧ Spells (.obj fs) t ∧ (JVal.obj fs).depth < 128 ∧ MessageOf (fun v sl => desSeal v = .ok sl) fs info e := by
  rw [C75_event_reader_exact]
  constructor
  · rintro ⟨h1, h2⟩
    obtain ⟨w, t, h3, h4, h5, h6⟩ := (C118_reader_exact s rest (jsonTop s).1).1 (by rw [← h1])
    exact ⟨w, t, _, h3, h4, h5, h6, h2⟩
  · rintro ⟨w, t, fs, h3, h4, h5, h6, h7⟩
    have := (C118_reader_exact s rest fs).2 ⟨w, t, h3, h4, h5, h6⟩
    rw [this]
    exact ⟨rfl, h7⟩

/-- **C118** for receipts. -/
theorem C118_receipt_text (s rest : Bytes) (info : SerInfo) (d : SelfAddressingPrefix) (i : IdentifierPrefix) (n : Nat) :
    jsonMessage (fun fs => desReceipt fs none none none) s = .ok rest (info, d, i, n) ↔
      ∃ w t fs, s = w ++ (t ++ rest) ∧ Blank w ∧ Spells (.obj fs) t ∧ (JVal.obj fs).depth < 128 ∧ ReceiptOf fs info d i n := by
  rw [C75_receipt_reader_exact]
  constructor
  · rintro ⟨h1, h2⟩
    obtain ⟨w, t, h3, h4, h5, h6⟩ := (C118_reader_exact s rest (jsonTop s).1).1 (by rw [← h1])
    exact ⟨w, t, _, h3, h4, h5, h6, h2⟩
  · rintro ⟨w, t, fs, h3, h4, h5, h6, h7⟩
    have := (C118_reader_exact s rest fs).2 ⟨w, t, h3, h4, h5, h6⟩
    rw [this]
    exact ⟨rfl, h7⟩

/-- **C118** for signed events: a signed event that is read is read with the same signatures, up to the same place, in any other spelling.  Hence all that
happens to it, acceptance included, is the same: the signatures are not those of the text that was sent (C02 says of which text they are). -/
theorem C118_signed (bin : Binary) (fs : List (Bytes × JVal)) (w w' t t' rest rest' : Bytes) (x : SerInfo × KeyEvent) (hw : Blank w) (hw' : Blank w')
    (ht : Spells (.obj fs) t) (ht' : Spells (.obj fs) t') (hd : (JVal.obj fs).depth < 128)
    (h : jsonMessage desKeyEvent (w ++ (t ++ rest)) = .ok rest' x) :
    signedMessageP bin (w ++ (t ++ rest)) = signedMessageP bin (w' ++ (t' ++ rest)) := by
  have h2 := (C118_spelling fs w w' t t' rest hw hw' ht ht' hd).1.symm.trans h
  unfold signedMessageP altP keyEventMessageP altP
  rw [h, h2]
  rfl

/-- a text with white space, escapes and a number -/
def Ex.spaced : Bytes := b!" { \"a\" :\n[ -1.50E+3 , \"\\u0041\\/\\ud83d\\ude00\" ],\t\"b\":{ } }"
/-- its members -/
def Ex.isSpaced : List (Bytes × JVal) × Option Bytes → Bool
  | ([(k, .arr [.num, .str v]), (k', .obj [])], some r) => k = b!"a" && k' = b!"b" && v = [65, 47, 240, 159, 152, 128] && r = b!"rest"
  | _ => false

example : Ex.isSpaced (jsonTop (Ex.spaced ++ b!"rest")) = true := by decide +kernel
/- leading zeros, lone surrogates, trailing commas and control characters are refused -/
example : (jsonTop b!"{\"a\":01}").2 = none ∧ (jsonTop b!"{\"a\":\"\\ud83d\"}").2 = none ∧ (jsonTop b!"{\"a\":\"x\",}").2 = none ∧
    (jsonTop b!"{\"a\":\"\n\"}").2 = none := by decide +kernel
/-- both read, with the same result -/
def Ex.alike : IRes (SerInfo × KeyEvent) → IRes (SerInfo × KeyEvent) → Bool
  | .ok r x, .ok r' x' => decide (r = r') && decide (x.1 = x'.1) && decide (x.2 = x'.2)
  | _, _ => false

/- the interaction event of the examples, with white space after the opening brace: another text of the same event -/
example : Ex.alike (jsonMessage desKeyEvent (b!"{ \n" ++ (jsonText Ex.ixn.msg.sval).drop 1 ++ b!"-AAB")) (jsonMessage desKeyEvent (jsonText Ex.ixn.msg.sval ++ b!"-AAB")) = true := by
  decide +kernel

end Keriox
