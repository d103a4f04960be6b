import Verif.Prelude
/-!
# The `base64` crate (0.13), URL-safe alphabet

`encode_config(x, URL_SAFE_NO_PAD)` and `decode_config(s, URL_SAFE)` as used throughout
`/repo/src/prefix`, `/repo/src/derivation`, `/repo/src/event_parsing`.
-/
namespace Keriox

/-- Alphabet of `URL_SAFE`: value to character. -/
def b64Char (v : Nat) : UInt8 :=
  if v < 26 then UInt8.ofNat (65 + v)
  else if v < 52 then UInt8.ofNat (71 + v)
  else if v < 62 then UInt8.ofNat (v - 4)
  else if v = 62 then 45
  else 95

/-- Inverse table; `none` is `INVALID_VALUE`. -/
def b64Val (c : UInt8) : Option Nat :=
  let n := c.toNat
  if 65 ≤ n ∧ n ≤ 90 then some (n - 65)
  else if 97 ≤ n ∧ n ≤ 122 then some (n - 71)
  else if 48 ≤ n ∧ n ≤ 57 then some (n + 4)
  else if n = 45 then some 62
  else if n = 95 then some 63
  else none

/-- `base64::encode_config(_, URL_SAFE_NO_PAD)`. -/
def b64Encode : Bytes → Bytes
  | a :: b :: c :: rest =>
    let a' := a.toNat; let b' := b.toNat; let c' := c.toNat
    b64Char (a' / 4) :: b64Char (a' % 4 * 16 + b' / 16) :: b64Char (b' % 16 * 4 + c' / 64) ::
      b64Char (c' % 64) :: b64Encode rest
  | [a, b] =>
    let a' := a.toNat; let b' := b.toNat
    [b64Char (a' / 4), b64Char (a' % 4 * 16 + b' / 16), b64Char (b' % 16 * 4)]
  | [a] => let a' := a.toNat; [b64Char (a' / 4), b64Char (a' % 4 * 16)]
  | [] => []

/-- Four symbols to three bytes. -/
def b64Quad (a b c d : UInt8) : Option Bytes :=
  match b64Val a, b64Val b, b64Val c, b64Val d with
  | some a, some b, some c, some d =>
    some [UInt8.ofNat (a * 4 + b / 16), UInt8.ofNat (b % 16 * 16 + c / 4), UInt8.ofNat (c % 4 * 64 + d)]
  | _, _, _, _ => none

/-- Three symbols to two bytes; non-zero trailing bits are `InvalidLastSymbol`. -/
def b64Trip (a b c : UInt8) : Option Bytes :=
  match b64Val a, b64Val b, b64Val c with
  | some a, some b, some c =>
    if c % 4 = 0 then some [UInt8.ofNat (a * 4 + b / 16), UInt8.ofNat (b % 16 * 16 + c / 4)] else none
  | _, _, _ => none

/-- Two symbols to one byte; non-zero trailing bits are `InvalidLastSymbol`. -/
def b64Pair (a b : UInt8) : Option Bytes :=
  match b64Val a, b64Val b with
  | some a, some b => if b % 16 = 0 then some [UInt8.ofNat (a * 4 + b / 16)] else none
  | _, _ => none

/-- `base64::decode_config(_, URL_SAFE)`: padding optional, only in the last quad and only in its
third/fourth place; a length of 1 modulo 4 is an error; trailing bits must be zero. -/
def b64Decode : Bytes → Option Bytes
  | a :: b :: c :: d :: rest =>
    if rest.isEmpty then
      if d = 61 then (if c = 61 then b64Pair a b else b64Trip a b c)
      else b64Quad a b c d
    else
      match b64Quad a b c d, b64Decode rest with
      | some q, some r => some (q ++ r)
      | _, _ => none
  | [a, b, c] => if c = 61 then b64Pair a b else b64Trip a b c
  | [a, b] => b64Pair a b
  | [_] => none
  | [] => some []

/-! ## Facts -/

theorem UInt8.ofNat_toNat_lt (n : Nat) (h : n < 256) : (UInt8.ofNat n).toNat = n := by
  simp [Nat.mod_eq_of_lt h]

theorem b64Val_char (v : Nat) (h : v < 64) : b64Val (b64Char v) = some v := by
  have : ∀ v : Fin 64, b64Val (b64Char v.val) = some v.val := by decide +kernel
  exact this ⟨v, h⟩

theorem b64Val_lt (c : UInt8) (v : Nat) (h : b64Val c = some v) : v < 64 := by
  have := c.toNat_lt
  unfold b64Val at h
  simp only at h
  split at h
  · simp at h; omega
  split at h
  · simp at h; omega
  split at h
  · simp at h; omega
  split at h
  · simp at h; omega
  split at h
  · simp at h; omega
  · simp at h

theorem b64Char_val (c : UInt8) (v : Nat) (h : b64Val c = some v) : b64Char v = c := by
  have : ∀ n : Fin 256, ∀ v, b64Val (UInt8.ofNat n.val) = some v → b64Char v = UInt8.ofNat n.val := by
    intro n v hv
    have hlt := b64Val_lt _ _ hv
    have key : ∀ n : Fin 256, (b64Val (UInt8.ofNat n.val)).elim true
        (fun v => b64Char v == UInt8.ofNat n.val) = true := by decide +kernel
    have := key n
    rw [hv] at this
    simpa using this
  have hc := this ⟨c.toNat, c.toNat_lt⟩ v
  simp only [UInt8.ofNat_toNat] at hc
  exact hc h

theorem b64Char_ne_pad (v : Nat) (h : v < 64) : b64Char v ≠ 61 := by
  have : ∀ v : Fin 64, b64Char v.val ≠ 61 := by decide +kernel
  exact this ⟨v, h⟩

private theorem UInt8.eq_of_nat (n : Nat) (a : UInt8) (h : n = a.toNat) : UInt8.ofNat n = a := by
  subst h; simp

theorem b64Quad_enc (a b c : UInt8) :
    b64Quad (b64Char (a.toNat / 4)) (b64Char (a.toNat % 4 * 16 + b.toNat / 16))
      (b64Char (b.toNat % 16 * 4 + c.toNat / 64)) (b64Char (c.toNat % 64)) = some [a, b, c] := by
  have ha := a.toNat_lt; have hb := b.toNat_lt; have hc := c.toNat_lt
  unfold b64Quad
  rw [b64Val_char _ (by omega), b64Val_char _ (by omega), b64Val_char _ (by omega), b64Val_char _ (by omega)]
  simp only [Option.some.injEq, List.cons.injEq, and_true]
  refine ⟨UInt8.eq_of_nat _ _ ?_, UInt8.eq_of_nat _ _ ?_, UInt8.eq_of_nat _ _ ?_⟩ <;> omega

theorem b64Trip_enc (a b : UInt8) :
    b64Trip (b64Char (a.toNat / 4)) (b64Char (a.toNat % 4 * 16 + b.toNat / 16))
      (b64Char (b.toNat % 16 * 4)) = some [a, b] := by
  have ha := a.toNat_lt; have hb := b.toNat_lt
  unfold b64Trip
  rw [b64Val_char _ (by omega), b64Val_char _ (by omega), b64Val_char _ (by omega)]
  simp only
  rw [if_pos (by omega)]
  simp only [Option.some.injEq, List.cons.injEq, and_true]
  refine ⟨UInt8.eq_of_nat _ _ ?_, UInt8.eq_of_nat _ _ ?_⟩ <;> omega

theorem b64Pair_enc (a : UInt8) :
    b64Pair (b64Char (a.toNat / 4)) (b64Char (a.toNat % 4 * 16)) = some [a] := by
  have ha := a.toNat_lt
  unfold b64Pair
  rw [b64Val_char _ (by omega), b64Val_char _ (by omega)]
  simp only
  rw [if_pos (by omega)]
  simp only [Option.some.injEq, List.cons.injEq, and_true]
  refine UInt8.eq_of_nat _ _ ?_; omega

theorem b64Encode_isEmpty (bs : Bytes) : (b64Encode bs).isEmpty = bs.isEmpty := by
  rcases bs with _ | ⟨a, _ | ⟨b, _ | ⟨c, r⟩⟩⟩ <;> rfl

/-- Decoding what was encoded gives the bytes back. -/
theorem b64Decode_encode (bs : Bytes) : b64Decode (b64Encode bs) = some bs := by
  induction bs using b64Encode.induct with
  | case1 a b c rest ih =>
    have hc := c.toNat_lt
    rw [b64Encode, b64Decode]
    simp only [b64Encode_isEmpty]
    rw [b64Quad_enc, ih]
    cases rest with
    | nil => rw [if_neg (b64Char_ne_pad _ (by omega))]; rfl
    | cons x xs => rfl
  | case2 a b =>
    have hb := b.toNat_lt
    rw [b64Encode, b64Decode, if_neg (b64Char_ne_pad _ (by omega)), b64Trip_enc]
  | case3 a => rw [b64Encode, b64Decode, b64Pair_enc]
  | case4 => rfl

theorem b64Encode_length (bs : Bytes) : (b64Encode bs).length = (bs.length * 4 + 2) / 3 := by
  induction bs using b64Encode.induct with
  | case1 a b c rest ih => simp only [b64Encode, List.length_cons, ih]; omega
  | case2 a b => simp [b64Encode]
  | case3 a => simp [b64Encode]
  | case4 => rfl

/-- The characters produced are all in the URL-safe alphabet. -/
theorem b64Encode_alpha (bs : Bytes) : ∀ c ∈ b64Encode bs, (b64Val c).isSome := by
  induction bs using b64Encode.induct with
  | case1 a b c rest ih =>
    have ha := a.toNat_lt; have hb := b.toNat_lt; have hc := c.toNat_lt
    simp only [b64Encode, List.mem_cons]
    rintro x (rfl | rfl | rfl | rfl | h)
    · rw [b64Val_char _ (by omega)]; rfl
    · rw [b64Val_char _ (by omega)]; rfl
    · rw [b64Val_char _ (by omega)]; rfl
    · rw [b64Val_char _ (by omega)]; rfl
    · exact ih x h
  | case2 a b =>
    have ha := a.toNat_lt; have hb := b.toNat_lt
    simp only [b64Encode, List.mem_cons, List.not_mem_nil, or_false]
    rintro x (rfl | rfl | rfl)
    · rw [b64Val_char _ (by omega)]; rfl
    · rw [b64Val_char _ (by omega)]; rfl
    · rw [b64Val_char _ (by omega)]; rfl
  | case3 a =>
    have ha := a.toNat_lt
    simp only [b64Encode, List.mem_cons, List.not_mem_nil, or_false]
    rintro x (rfl | rfl)
    · rw [b64Val_char _ (by omega)]; rfl
    · rw [b64Val_char _ (by omega)]; rfl
  | case4 => simp [b64Encode]

theorem b64Encode_injective {a b : Bytes} (h : b64Encode a = b64Encode b) : a = b := by
  have := congrArg b64Decode h
  simpa [b64Decode_encode] using this

theorem b64Val_pad : b64Val 61 = none := by decide

private theorem quad_inv {a b c d : UInt8} {q : Bytes} (h : b64Quad a b c d = some q) :
    ∃ x y z, q = [x, y, z] ∧ a = b64Char (x.toNat / 4) ∧ b = b64Char (x.toNat % 4 * 16 + y.toNat / 16)
      ∧ c = b64Char (y.toNat % 16 * 4 + z.toNat / 64) ∧ d = b64Char (z.toNat % 64) := by
  unfold b64Quad at h
  split at h
  · rename_i va vb vc vd ha hb hc hd
    have := b64Val_lt _ _ ha; have := b64Val_lt _ _ hb; have := b64Val_lt _ _ hc; have := b64Val_lt _ _ hd
    cases h
    refine ⟨_, _, _, rfl, ?_, ?_, ?_, ?_⟩
    · rw [UInt8.ofNat_toNat_lt _ (by omega), ← b64Char_val _ _ ha]; congr 1; omega
    · rw [UInt8.ofNat_toNat_lt _ (by omega), UInt8.ofNat_toNat_lt _ (by omega), ← b64Char_val _ _ hb]
      congr 1; omega
    · rw [UInt8.ofNat_toNat_lt _ (by omega), UInt8.ofNat_toNat_lt _ (by omega), ← b64Char_val _ _ hc]
      congr 1; omega
    · rw [UInt8.ofNat_toNat_lt _ (by omega), ← b64Char_val _ _ hd]; congr 1; omega
  · cases h

private theorem trip_inv {a b c : UInt8} {q : Bytes} (h : b64Trip a b c = some q) :
    b64Encode q = [a, b, c] := by
  unfold b64Trip at h
  split at h
  · rename_i va vb vc ha hb hc
    have := b64Val_lt _ _ ha; have := b64Val_lt _ _ hb; have := b64Val_lt _ _ hc
    split at h
    · cases h
      simp only [b64Encode]
      rw [UInt8.ofNat_toNat_lt _ (by omega), UInt8.ofNat_toNat_lt _ (by omega)]
      rw [← b64Char_val _ _ ha, ← b64Char_val _ _ hb, ← b64Char_val _ _ hc]
      congr 1
      · congr 1; omega
      · congr 1
        · congr 1; omega
        · congr 1; congr 1; omega
    · cases h
  · cases h

private theorem pair_inv {a b : UInt8} {q : Bytes} (h : b64Pair a b = some q) :
    b64Encode q = [a, b] := by
  unfold b64Pair at h
  split at h
  · rename_i va vb ha hb
    have := b64Val_lt _ _ ha; have := b64Val_lt _ _ hb
    split at h
    · cases h
      simp only [b64Encode]
      rw [UInt8.ofNat_toNat_lt _ (by omega)]
      rw [← b64Char_val _ _ ha, ← b64Char_val _ _ hb]
      congr 1
      · congr 1; omega
      · congr 1; congr 1; omega
    · cases h
  · cases h

/-- A text without padding is accepted only if it is exactly the canonical encoding of the bytes it decodes to. -/
theorem b64Encode_decode (s bs : Bytes) (h : b64Decode s = some bs) (hp : (61 : UInt8) ∉ s) : b64Encode bs = s := by
  induction s using b64Decode.induct generalizing bs with
  | case1 a b rest h' => simp at hp
  | case2 a b c rest h' h1 => simp at hp
  | case3 a b c d rest h' h1 => 
    rw [b64Decode, if_pos h', if_neg h1] at h
    obtain ⟨x, y, z, rfl, rfl, rfl, rfl, rfl⟩ := quad_inv h
    have : rest = [] := by simpa using h'
    subst this
    rfl
  | case4 a b c d rest h' q r hr hq ih =>
    rw [b64Decode, if_neg h', hq, hr] at h
    cases h
    obtain ⟨x, y, z, rfl, rfl, rfl, rfl, rfl⟩ := quad_inv hq
    simp only [List.mem_cons, not_or] at hp
    simp only [List.cons_append, List.nil_append, b64Encode, ih _ hr hp.2.2.2.2]
  | case5 a b c d rest h' hh ih =>
    rw [b64Decode, if_neg h'] at h
    split at h
    · rename_i q r hq hr
      exact absurd hr (hh q r hq)
    · cases h
  | case6 a b => simp at hp
  | case7 a b c h' => rw [b64Decode, if_neg h'] at h; exact trip_inv h
  | case8 a b => exact pair_inv (by simpa [b64Decode] using h)
  | case9 a => simp [b64Decode] at h
  | case10 => simp [b64Decode] at h; subst h; rfl

/-- Unpadded texts that decode alike are equal. -/
theorem b64Decode_injective {s t bs : Bytes} (hs : b64Decode s = some bs) (ht : b64Decode t = some bs)
    (ps : (61 : UInt8) ∉ s) (pt : (61 : UInt8) ∉ t) : s = t := by
  rw [← b64Encode_decode s bs hs ps, ← b64Encode_decode t bs ht pt]

end Keriox
