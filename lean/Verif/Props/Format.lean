import Verif.NumFacts
import Verif.Props.Codec
import Verif.Example
/-!
# Properties C41–C43: version strings, declared sizes, digests of built events
-/
namespace Keriox

/-! ## C41: version strings -/

private theorem hex1 (n : Nat) (h : n ≤ 15) : hexStr n = [hexDigit n] := by
  unfold hexStr; rw [toBase_unfold, if_pos (by omega)]

private theorem hexDigit_ascii (n : Nat) (h : n ≤ 15) : Ascii [hexDigit n] := by
  intro c hc
  rw [List.mem_singleton] at hc; subst hc
  exact (hexChars_ascii _ (hexDigit_mem n (by omega))).1

private theorem ascii_of_hex {s : Bytes} (h : ∀ c ∈ s, c ∈ hexChars) : Ascii s := fun c hc => (hexChars_ascii c (h c hc)).1

theorem Fmt.toStr_ascii (k : Fmt) : Ascii k.toStr := by cases k <;> simp only [Ascii, Fmt.toStr] <;> decide
theorem Fmt.toStr_length (k : Fmt) : k.toStr.length = 4 := by cases k <;> rfl
theorem Fmt.fromStr_toStr (k : Fmt) : Fmt.fromStr k.toStr = .ok k := by cases k <;> rfl

theorem Fmt.fromStr_ok {s : Bytes} {k : Fmt} (h : Fmt.fromStr s = .ok k) : s = k.toStr := by
  unfold Fmt.fromStr at h
  split at h
  · cases h; rename_i hh; exact hh
  · split at h
    · cases h; rename_i hh; exact hh
    · split at h
      · cases h; rename_i hh; exact hh
      · cases h

theorem fromStrRadix_le {b max n : Nat} {s : Bytes} (hv : fromStrRadix b max s = some n) : n ≤ max := by
  unfold fromStrRadix at hv
  split at hv
  · cases hv
  · cases hv
  · cases hv
  · dsimp only at hv
    split at hv
    · split at hv
      · cases hv; assumption
      · cases hv
    · cases hv

/-- the text of a version string whose version digits are single: header, digits, format, padded size -/
private theorem info_text (i : SerInfo) (hma : i.major ≤ 15) (hmi : i.minor ≤ 15) :
    i.toStr = [75, 69, 82, 73] ++ ([hexDigit i.major] ++ ([hexDigit i.minor] ++ (i.kind.toStr ++ (padZero 6 (hexStr i.size) ++ [95])))) := by
  unfold SerInfo.toStr
  rw [hex1 _ hma, hex1 _ hmi]
  simp [List.append_assoc]

private theorem padZero_len_ge (w : Nat) (s : Bytes) : w ≤ (padZero w s).length := by
  simp [padZero]; omega

private theorem one_digit (n : Nat) (h : n ≤ 15) : fromStrRadix 16 255 [hexDigit n] = some n := by
  have := fromStrRadix_toBase 16 255 (by omega) (by omega) n
  rw [if_pos (by omega), show toBase 16 n = [hexDigit n] from hex1 n h] at this
  exact this

/-- reading the text of a version string: everything but the size comes back, the size is read from six digits -/
private theorem info_read (i : SerInfo) (hma : i.major ≤ 15) (hmi : i.minor ≤ 15) :
    SerInfo.fromStr i.toStr = (do
      let sz ← Res.ofOption (fromStrRadix 16 u16max ((padZero 6 (hexStr i.size)).take 6)) .intParse
      .ok ⟨i.major, i.minor, sz, i.kind⟩) := by
  have hp := padZero_len_ge 6 (hexStr i.size)
  have hpa : Ascii (padZero 6 (hexStr i.size)) := ascii_of_hex (padZero_chars 6 _ (toBase_chars 16 (by omega) (by omega) _))
  have hA : Ascii i.toStr := by
    rw [info_text i hma hmi]
    refine Ascii.append (by unfold Ascii; decide) (Ascii.append (hexDigit_ascii _ hma) (Ascii.append (hexDigit_ascii _ hmi)
      (Ascii.append (Fmt.toStr_ascii _) (Ascii.append hpa (by unfold Ascii; decide)))))
  have hlen : 16 ≤ i.toStr.length := by
    rw [info_text i hma hmi]
    simp only [List.length_append, List.length_cons, List.length_nil, Fmt.toStr_length]
    omega
  unfold SerInfo.fromStr
  rw [hA.strSlice (a := 0) (b := 4) (by omega) (by omega), hA.strSlice (a := 4) (b := 5) (by omega) (by omega),
    hA.strSlice (a := 5) (b := 6) (by omega) (by omega), hA.strSlice (a := 6) (b := 10) (by omega) (by omega),
    hA.strSlice (a := 10) (b := 16) (by omega) (by omega)]
  have h4 : (i.toStr.take 4).drop 0 = [75, 69, 82, 73] := by rw [info_text i hma hmi]; rfl
  have h5 : (i.toStr.take 5).drop 4 = [hexDigit i.major] := by rw [info_text i hma hmi]; rfl
  have h6 : (i.toStr.take 6).drop 5 = [hexDigit i.minor] := by rw [info_text i hma hmi]; rfl
  have hk : (i.toStr.take 10).drop 6 = i.kind.toStr := by
    rw [info_text i hma hmi]
    cases i.kind <;> rfl
  have hs : (i.toStr.take 16).drop 10 = (padZero 6 (hexStr i.size)).take 6 := by
    rw [info_text i hma hmi, List.drop_take]
    have h10 : ∀ k : Fmt, ∀ r : Bytes, List.drop 10 ([75, 69, 82, 73] ++ ([hexDigit i.major] ++ ([hexDigit i.minor] ++ (k.toStr ++ r)))) = r := by
      intro k r; cases k <;> rfl
    rw [h10]
    rw [List.take_append_of_le_length (by omega)]
  simp only [Res.ok_bind, h4, h5, h6, hk, hs, one_digit _ hma, one_digit _ hmi, Res.ofOption, Fmt.fromStr_toStr]
  rfl

private theorem fromStrRadix_pad (s : Bytes) (hne : s ≠ []) (hs : ∀ c ∈ s, c ∈ hexChars) (w max : Nat) :
    fromStrRadix 16 max (padZero w s) = (parseDigits 16 s 0).bind fun v => if v ≤ max then some v else none := by
  rw [fromStrRadix_digits 16 max _ (by unfold padZero; simp [hne]) (padZero_chars w s hs)]
  unfold padZero
  rw [parseDigits_zeros 16 (by omega)]

/-- C41: writing and reading a version string.  A declared size of at most 65535 comes back with everything else; from 65536 up to
the six hexadecimal digits that are written, reading is an error. -/
theorem C41_version_string (i : SerInfo) (hma : i.major ≤ 15) (hmi : i.minor ≤ 15) (hs : i.size < 2 ^ 24) :
    SerInfo.fromStr i.toStr = if i.size ≤ 65535 then .ok i else .err .intParse := by
  rw [info_read i hma hmi]
  have hl : (hexStr i.size).length ≤ 6 := (toBase_length_le 16 (by omega) 6 i.size (by omega)).2 (by simpa using hs)
  rw [List.take_of_length_le (by rw [padZero_length 6 _ hl]; omega),
    fromStrRadix_pad (hexStr i.size) (toBase_ne_nil 16 _) (toBase_chars 16 (by omega) (by omega) _)]
  unfold hexStr
  rw [parseDigits_toBase 16 (by omega) (by omega)]
  simp only [Option.bind_some]
  by_cases h : i.size ≤ 65535
  · rw [if_pos (show i.size ≤ u16max from h), if_pos h]; rfl
  · rw [if_neg (show ¬ i.size ≤ u16max from h), if_neg h]; rfl

/-- C41, exact: a version string reads back as what was written exactly when the size is at most 65535 (whatever the size). -/
theorem C41_exact (i : SerInfo) (hma : i.major ≤ 15) (hmi : i.minor ≤ 15) :
    SerInfo.fromStr i.toStr = .ok i ↔ i.size ≤ 65535 := by
  by_cases hs : i.size < 2 ^ 24
  · rw [C41_version_string i hma hmi hs]
    by_cases h : i.size ≤ 65535
    · simp [h]
    · simp [h]
  · constructor
    · intro h
      rw [info_read i hma hmi] at h
      obtain ⟨sz, h1, h2⟩ := Res.bind_eq_ok.1 h
      have hsz : sz ≤ u16max := by
        unfold Res.ofOption at h1
        split at h1
        · rename_i v hv
          cases h1
          exact fromStrRadix_le hv
        · cases h1
      simp only [Res.ok.injEq] at h2
      rw [← h2]
      exact hsz
    · intro h; omega

/-- a version string of fewer than four bytes crashes the reader instead of being rejected -/
theorem C41_short_panics (s : Bytes) (h : s.length < 4) : SerInfo.fromStr s = .panic := by
  unfold SerInfo.fromStr strSlice strGet
  rw [if_neg (by simp; intros; omega)]
  rfl

/-- a version string is accepted only with the header, a known format and a size below 65536 -/
theorem C41_accepted (s : Bytes) (i : SerInfo) (h : SerInfo.fromStr s = .ok i) :
    s.take 4 = b!"KERI" ∧ (s.take 10).drop 6 = i.kind.toStr ∧ i.size ≤ 65535 ∧ 16 ≤ s.length := by
  unfold SerInfo.fromStr at h
  obtain ⟨hd, h1, h⟩ := Res.bind_eq_ok.1 h
  split at h
  · rename_i hk
    obtain ⟨maS, h2, h⟩ := Res.bind_eq_ok.1 h
    obtain ⟨ma, h3, h⟩ := Res.bind_eq_ok.1 h
    obtain ⟨miS, h4, h⟩ := Res.bind_eq_ok.1 h
    obtain ⟨mi, h5, h⟩ := Res.bind_eq_ok.1 h
    obtain ⟨kS, h6, h⟩ := Res.bind_eq_ok.1 h
    obtain ⟨k, h7, h⟩ := Res.bind_eq_ok.1 h
    obtain ⟨szS, h8, h⟩ := Res.bind_eq_ok.1 h
    obtain ⟨sz, h9, h⟩ := Res.bind_eq_ok.1 h
    simp only [Res.ok.injEq] at h
    subst h
    have e1 := strSlice_ok h1
    have e6 := strSlice_ok h6
    have e8 := strSlice_ok h8
    refine ⟨?_, ?_, ?_, e8.2.1⟩
    · rw [← hk, e1.2.2]; rfl
    · rw [← e6.2.2]
      exact Fmt.fromStr_ok h7
    · unfold Res.ofOption at h9
      split at h9
      · rename_i v hv
        cases h9
        exact fromStrRadix_le hv
      · cases h9
  · cases h

example : (SerInfo.new .json 0x1a3).toStr = b!"KERI10JSON0001a3_" ∧
    SerInfo.fromStr b!"KERI10JSON0001a3_" = .ok (SerInfo.new .json 0x1a3) := by decide +kernel
/-- one byte too many for the reader -/
example : (SerInfo.new .cbor 65536).toStr = b!"KERI10CBOR010000_" ∧
    SerInfo.fromStr b!"KERI10CBOR010000_" = .err .intParse := by decide +kernel
example : SerInfo.fromStr b!"KER" = .panic := by decide +kernel

/-! ## C42: declared sizes

### Specification -/

/-- a string that serde_json writes without escaping -/
def plainStr (s : Bytes) : Bool := s.all fun c => c ≠ 34 && c ≠ 92 && 32 ≤ c

mutual
/-- A value with the contents of its unescaped strings blotted out (only their lengths remain). -/
def SVal.shape : SVal → SVal
  | .null => .null
  | .str s => .str (if plainStr s then List.replicate s.length 35 else s)
  | .seq xs => .seq (SVal.shapes xs)
  | .map fs => .map (SVal.shapeFields fs)
  | .struct fs => .struct (SVal.shapeFields fs)
/-- element-wise -/
def SVal.shapes : List SVal → List SVal
  | [] => []
  | x :: xs => x.shape :: SVal.shapes xs
/-- field-wise, keys kept -/
def SVal.shapeFields : List (Bytes × SVal) → List (Bytes × SVal)
  | [] => []
  | (k, x) :: xs => (k, x.shape) :: SVal.shapeFields xs
end

/-- The two binary formats write a string as a header that depends on its length and its bytes, so the size of an encoding depends
only on the shape of the value (for JSON this is proved, `jsonText_shape`). -/
def Env.SizesByShape (env : Env) : Prop :=
  (∀ v w : SVal, v.shape = w.shape → (env.cbor v).map List.length = (env.cbor w).map List.length) ∧
  (∀ v w : SVal, v.shape = w.shape → (env.mgpk v).map List.length = (env.mgpk w).map List.length)

/-- The hash functions return digests of their nominal sizes. -/
def Env.DigestSizes (env : Env) : Prop := ∀ c d, (env.digest c d).length = c.rawBytes

theorem jsonEscape_plain {s : Bytes} (h : plainStr s = true) : s.flatMap jsonEscapeByte = s := by
  induction s with
  | nil => rfl
  | cons c cs ih =>
    unfold plainStr at h ih
    simp only [List.all_cons, Bool.and_eq_true, decide_eq_true_eq] at h
    obtain ⟨⟨⟨h1, h2⟩, h3⟩, h4⟩ := h
    rw [List.flatMap_cons, ih h4]
    have hc : jsonEscapeByte c = [c] := by
      have key : ∀ c : Fin 256, (UInt8.ofNat c.val ≠ 34) → (UInt8.ofNat c.val ≠ 92) → (32 ≤ UInt8.ofNat c.val) →
          jsonEscapeByte (UInt8.ofNat c.val) = [UInt8.ofNat c.val] := by decide +kernel
      have := key ⟨c.toNat, c.toNat_lt⟩
      simp only [UInt8.ofNat_toNat] at this
      exact this h1 h2 h3
    rw [hc]; rfl

theorem jsonStr_plain {s : Bytes} (h : plainStr s = true) : jsonStr s = [34] ++ s ++ [34] := by
  unfold jsonStr; rw [jsonEscape_plain h]

theorem plainStr_hashes (n : Nat) : plainStr (List.replicate n 35) = true := by
  unfold plainStr
  rw [List.all_eq_true]
  intro c hc
  rw [List.eq_of_mem_replicate hc]; decide

mutual
theorem jsonText_shape : ∀ v : SVal, (jsonText v.shape).length = (jsonText v).length
  | .null => rfl
  | .str s => by
    unfold SVal.shape
    by_cases h : plainStr s = true
    · rw [if_pos h]
      simp only [jsonText, jsonStr_plain h, jsonStr_plain (plainStr_hashes _), List.length_append, List.length_replicate]
    · rw [if_neg h]
  | .seq xs => by
    simp only [SVal.shape, jsonText, List.length_append, jsonElems_shape xs]
  | .map fs => by
    simp only [SVal.shape, jsonText, List.length_append, jsonFields_shape fs]
  | .struct fs => by
    simp only [SVal.shape, jsonText, List.length_append, jsonFields_shape fs]
theorem jsonElems_shape : ∀ xs : List SVal, (jsonElems (SVal.shapes xs)).length = (jsonElems xs).length
  | [] => rfl
  | x :: xs => by
    simp only [SVal.shapes, jsonElems, List.length_append, jsonText_shape x, jsonElemsTail_shape xs]
theorem jsonElemsTail_shape : ∀ xs : List SVal, (jsonElemsTail (SVal.shapes xs)).length = (jsonElemsTail xs).length
  | [] => rfl
  | x :: xs => by
    simp only [SVal.shapes, jsonElemsTail, List.length_append, jsonText_shape x, jsonElemsTail_shape xs]
theorem jsonFields_shape : ∀ fs : List (Bytes × SVal), (jsonFields (SVal.shapeFields fs)).length = (jsonFields fs).length
  | [] => rfl
  | (k, x) :: xs => by
    simp only [SVal.shapeFields, jsonFields, List.length_append, jsonText_shape x, jsonFieldsTail_shape xs]
theorem jsonFieldsTail_shape : ∀ fs : List (Bytes × SVal), (jsonFieldsTail (SVal.shapeFields fs)).length = (jsonFieldsTail fs).length
  | [] => rfl
  | (k, x) :: xs => by
    simp only [SVal.shapeFields, jsonFieldsTail, List.length_append, jsonText_shape x, jsonFieldsTail_shape xs]
end

/-- encodings of values of one shape have one size, in every format -/
theorem encode_shape (env : Env) (henv : env.SizesByShape) (f : Fmt) (v w : SVal) (h : v.shape = w.shape) (b : Bytes)
    (hb : f.encode env v = .ok b) : ∃ b', f.encode env w = .ok b' ∧ b'.length = b.length := by
  have opt : ∀ (a a' : Option Bytes), a.map List.length = a'.map List.length → Res.ofOption a .serialization = .ok b →
      ∃ b', Res.ofOption a' .serialization = .ok b' ∧ b'.length = b.length := by
    intro a a' hl ha
    cases a with
    | none => cases ha
    | some x =>
      cases a' with
      | none => simp at hl
      | some y =>
        simp only [Res.ofOption, Res.ok.injEq] at ha
        subst ha
        simp only [Option.map_some, Option.some.injEq] at hl
        exact ⟨y, rfl, hl.symm⟩
  cases f with
  | json =>
    simp only [Fmt.encode, Res.ok.injEq] at hb ⊢
    exact ⟨_, rfl, by rw [← hb, ← jsonText_shape w, ← h, jsonText_shape v]⟩
  | cbor => exact opt _ _ (henv.1 v w h) hb
  | mgpk => exact opt _ _ (henv.2 v w h) hb

theorem shapeFields_append (a b : List (Bytes × SVal)) : SVal.shapeFields (a ++ b) = SVal.shapeFields a ++ SVal.shapeFields b := by
  induction a with
  | nil => rfl
  | cons x a ih => obtain ⟨k, v⟩ := x; simp only [List.cons_append, SVal.shapeFields, ih]

/-- two unescaped strings of one length have one shape -/
theorem shape_str {s t : Bytes} (hs : plainStr s = true) (ht : plainStr t = true) (hl : s.length = t.length) :
    (SVal.str s).shape = (SVal.str t).shape := by
  simp only [SVal.shape, if_pos hs, if_pos ht, hl]

theorem plainStr_append {s t : Bytes} (hs : plainStr s = true) (ht : plainStr t = true) : plainStr (s ++ t) = true := by
  unfold plainStr at *; rw [List.all_append, hs, ht]; rfl

theorem plainStr_hex {s : Bytes} (h : ∀ c ∈ s, c ∈ hexChars) : plainStr s = true := by
  unfold plainStr
  rw [List.all_eq_true]
  intro c hc
  have key : ∀ c ∈ hexChars, (c ≠ 34 && c ≠ 92 && 32 ≤ c) = true := by decide
  exact key c (h c hc)

theorem plainStr_b64 (bs : Bytes) : plainStr (b64Encode bs) = true := by
  unfold plainStr
  rw [List.all_eq_true]
  intro c hc
  have h := b64Encode_alpha bs c hc
  obtain ⟨v, hv⟩ := Option.isSome_iff_exists.mp h
  have hlt := b64Val_lt _ _ hv
  rw [← b64Char_val _ _ hv]
  have : ∀ v : Fin 64, (b64Char v.val ≠ 34 && b64Char v.val ≠ 92 && 32 ≤ b64Char v.val) = true := by decide +kernel
  exact this ⟨v, hlt⟩

theorem plainStr_info (f : Fmt) (n : Nat) : plainStr (SerInfo.new f n).toStr = true := by
  have e1 : plainStr (b!"KERI" ++ hexStr 1 ++ hexStr 0) = true := by decide +kernel
  have e2 : plainStr f.toStr = true := by cases f <;> decide
  exact plainStr_append (plainStr_append (plainStr_append e1 e2)
    (plainStr_hex (padZero_chars 6 _ (toBase_chars 16 (by omega) (by omega) _)))) (by decide)

theorem info_length (f : Fmt) (n : Nat) (h : n < 2 ^ 24) : (SerInfo.new f n).toStr.length = 17 := by
  unfold SerInfo.toStr SerInfo.new
  have hl : (hexStr n).length ≤ 6 := (toBase_length_le 16 (by omega) 6 n (by omega)).2 (by simpa using h)
  have h1 : (hexStr 1).length = 1 := by decide +kernel
  have h0 : (hexStr 0).length = 1 := by decide +kernel
  simp only [List.length_append, padZero_length 6 _ hl, Fmt.toStr_length, h1, h0, List.length_cons, List.length_nil]

theorem shape_info (f : Fmt) (n : Nat) (h : n < 2 ^ 24) :
    (SVal.str (SerInfo.new f 0).toStr).shape = (SVal.str (SerInfo.new f n).toStr).shape :=
  shape_str (plainStr_info f 0) (plainStr_info f n) (by rw [info_length f 0 (by omega), info_length f n h])

theorem derive_text (env : Env) (henv : env.DigestSizes) (c : SelfAddressing) (d : Bytes) :
    (env.derive c d).toStr = c.toStr ++ b64Encode (env.digest c d) ∧
    (c.toStr ++ b64Encode (env.digest c d)).length = c.codeLen + c.b64Len := by
  have hl := henv c d
  have hne : env.digest c d ≠ [] := by
    intro h; rw [h] at hl; cases c <;> cases hl
  constructor
  · unfold SelfAddressingPrefix.toStr Env.derive; exact prefixText_nonempty _ _ hne
  · rw [List.length_append, SelfAddressing.toStr_length, b64Encode_length, hl]
    cases c <;> simp [SelfAddressing.rawBytes, SelfAddressing.b64Len]

theorem plainStr_code (c : SelfAddressing) : plainStr c.toStr = true := by
  cases c <;> simp only [SelfAddressing.toStr] <;> decide

/-- the placeholder has the shape of the digest it stands for -/
theorem shape_dummy (env : Env) (henv : env.DigestSizes) (c : SelfAddressing) (d : Bytes) :
    (SVal.str (dummyPrefix c)).shape = (SVal.str (env.derive c d).toStr).shape := by
  obtain ⟨h1, h2⟩ := derive_text env henv c d
  rw [h1]
  exact shape_str (plainStr_hashes _) (plainStr_append (plainStr_code c) (plainStr_b64 _)) (by rw [h2]; simp [dummyPrefix])

/-- C42 for events of any kind sealed with their own digest (`SaidEvent::to_message`). -/
theorem saidMessage_size (env : Env) (h1 : env.DigestSizes) (h2 : env.SizesByShape) (e : Event) (f : Fmt) (c : SelfAddressing)
    (m : EventMessage) (hm : e.saidMessage env f c = .ok m) (hs : m.info.size < 2 ^ 24) :
    ∃ b, m.serialize env = .ok b ∧ b.length = m.info.size := by
  unfold Event.saidMessage at hm
  obtain ⟨info, hi, hm⟩ := Res.bind_eq_ok.1 hm
  obtain ⟨bytes, hb, hm⟩ := Res.bind_eq_ok.1 hm
  simp only [Res.ok.injEq] at hm
  subst hm
  unfold dummyEventInfo at hi
  obtain ⟨b0, hb0, hi⟩ := Res.bind_eq_ok.1 hi
  simp only [Res.ok.injEq] at hi
  subst hi
  unfold EventMessage.serialize
  refine encode_shape env h2 f _ _ ?_ b0 hb0
  unfold dummyEventSval EventMessage.sval
  simp only [SVal.shape, shapeFields_append, SVal.shapeFields]
  have e1 := shape_info f b0.length hs
  have e2 := shape_dummy env h1 c bytes
  simp only [SVal.shape] at e1 e2
  rw [e1, e2]

/-- C42 for self-addressing inceptions, plain and delegated. -/
theorem incept_size (env : Env) (h1 : env.DigestSizes) (h2 : env.SizesByShape) (d : EventData) (f : Fmt) (c : SelfAddressing)
    (m : EventMessage) (hm : inceptSelfAddressing env d c f = .ok m) (hs : m.info.size < 2 ^ 24) :
    ∃ b, m.serialize env = .ok b ∧ b.length = m.info.size := by
  unfold inceptSelfAddressing at hm
  obtain ⟨info, hi, hm⟩ := Res.bind_eq_ok.1 hm
  obtain ⟨bytes, hb, hm⟩ := Res.bind_eq_ok.1 hm
  simp only [Res.ok.injEq] at hm
  subst hm
  unfold dummyInceptionInfo at hi
  obtain ⟨b0, hb0, hi⟩ := Res.bind_eq_ok.1 hi
  simp only [Res.ok.injEq] at hi
  subst hi
  unfold EventMessage.serialize
  refine encode_shape env h2 f _ _ ?_ b0 hb0
  unfold dummyInceptionSval EventMessage.sval Event.fields
  simp only [SVal.shape, shapeFields_append, SVal.shapeFields]
  have e1 := shape_info f b0.length hs
  have e2 := shape_dummy env h1 c bytes
  simp only [SVal.shape] at e1 e2
  have e3 : hexStr 0 = b!"0" := by decide +kernel
  simp only [IdentifierPrefix.toStr, e3]
  rw [e1, e2]
  simp only [List.cons_append, List.nil_append]
  rfl

/-- C42: every event message the library builds (`Event::to_message`, all event kinds, formats and digest algorithms) declares the
exact number of bytes of its serialization, below the 2^24 that six hexadecimal digits can express. -/
theorem C42_declared_size (env : Env) (h1 : env.DigestSizes) (h2 : env.SizesByShape) (e : Event) (f : Fmt) (c : SelfAddressing)
    (m : EventMessage) (hm : e.toMessage env f c = .ok m) (hs : m.info.size < 2 ^ 24) :
    ∃ b, m.serialize env = .ok b ∧ b.length = m.info.size := by
  unfold Event.toMessage at hm
  split at hm
  · exact incept_size env h1 h2 _ f c m hm hs
  · exact incept_size env h1 h2 _ f c m hm hs
  · exact saidMessage_size env h1 h2 _ f c m hm hs

/-- C42 for the message builder. -/
theorem C42_builder (env : Env) (h1 : env.DigestSizes) (h2 : env.SizesByShape) (bl : Builder)
    (m : EventMessage) (hm : bl.build env = .ok m) (hs : m.info.size < 2 ^ 24) :
    ∃ b, m.serialize env = .ok b ∧ b.length = m.info.size := by
  unfold Builder.build at hm
  obtain ⟨pre, _, hm⟩ := Res.bind_eq_ok.1 hm
  cases ht : bl.type <;> rw [ht] at hm <;> dsimp only at hm
  · cases hp : pre <;> rw [hp] at hm <;> dsimp only at hm
    · exact C42_declared_size env h1 h2 _ _ _ m hm hs
    · exact incept_size env h1 h2 _ _ _ m hm hs
    · cases hm
  · exact C42_declared_size env h1 h2 _ _ _ m hm hs
  · exact C42_declared_size env h1 h2 _ _ _ m hm hs
  · exact incept_size env h1 h2 _ _ _ m hm hs
  · exact C42_declared_size env h1 h2 _ _ _ m hm hs
  · cases hm
  · cases hm
  · cases hm

/-- C42 for receipts. -/
theorem C42_receipt (env : Env) (h2 : env.SizesByShape) (d : SelfAddressingPrefix) (pre : IdentifierPrefix)
    (sn : Nat) (f : Fmt) (m : ReceiptMsg) (hm : ReceiptMsg.toMessage env d pre sn f = .ok m) (hs : m.info.size < 2 ^ 24) :
    ∃ b, m.info.kind.encode env m.sval = .ok b ∧ b.length = m.info.size := by
  unfold ReceiptMsg.toMessage at hm
  obtain ⟨b0, hb0, hm⟩ := Res.bind_eq_ok.1 hm
  simp only [Res.ok.injEq] at hm
  subst hm
  refine encode_shape env h2 f _ _ ?_ b0 hb0
  unfold ReceiptMsg.sval
  simp only [SVal.shape, SVal.shapeFields]
  have e1 := shape_info f b0.length hs
  simp only [SVal.shape] at e1
  rw [e1]

/-- the example environment meets the hypotheses -/
example : Ex.env.SizesByShape := by
  have : ∀ v w : SVal, v.shape = w.shape → (some (jsonText v)).map List.length = (some (jsonText w)).map List.length := by
    intro v w h
    simp only [Option.map_some]
    rw [← jsonText_shape v, h, jsonText_shape w]
  exact ⟨this, this⟩
/-- 32-byte digests -/
example (d : Bytes) : (Ex.env.digest .blake3_256 d).length = SelfAddressing.rawBytes .blake3_256 := by
  show (Ex.dig d).length = 32
  simp [Ex.dig, beBytes_length]
/-- a rotation and the 527 bytes of its text -/
example : ∃ n, Ex.rot.msg.serialize Ex.env = .ok n ∧ n.length = Ex.rot.msg.info.size ∧ n.length = 527 :=
  ⟨jsonText Ex.rot.msg.sval, rfl, by decide +kernel, by decide +kernel⟩

/-! ## C43: digests of built events -/

/-- A text with one of its parts replaced by a placeholder of the same length. -/
def Masked (text part mask masked : Bytes) : Prop :=
  ∃ pre post, text = pre ++ part ++ post ∧ masked = pre ++ mask ++ post ∧ mask.length = part.length

/-- C43 for everything but inceptions: the digest field is the digest of the derivation data. -/
theorem said_digest (env : Env) (e : Event) (f : Fmt) (c : SelfAddressing) (m : EventMessage)
    (hne : ∀ i, e.data ≠ .icp i) (hnd : ∀ i, e.data ≠ .dip i) (hm : e.saidMessage env f c = .ok m) :
    ∃ data, m.toDerivationData env = .ok data ∧ m.event.digest = env.derive c data ∧ m.event.content = e ∧ m.info.kind = f ∧
      f.encode env (dummyEventSval m.info c e) = .ok data := by
  unfold Event.saidMessage at hm
  obtain ⟨info, hi, hm⟩ := Res.bind_eq_ok.1 hm
  obtain ⟨bytes, hb, hm⟩ := Res.bind_eq_ok.1 hm
  simp only [Res.ok.injEq] at hm
  subst hm
  unfold dummyEventInfo at hi
  obtain ⟨b0, hb0, hi⟩ := Res.bind_eq_ok.1 hi
  simp only [Res.ok.injEq] at hi
  subst hi
  refine ⟨bytes, ?_, rfl, rfl, rfl, hb⟩
  unfold EventMessage.toDerivationData
  cases hd : e.data with
  | icp i => exact absurd hd (hne i)
  | dip i => exact absurd hd (hnd i)
  | rot _ => exact hb
  | ixn _ => exact hb
  | drt _ => exact hb

/-- C43 for self-addressing inceptions. -/
theorem incept_digest (env : Env) (d : EventData) (hd : (∃ i, d = .icp i) ∨ ∃ i, d = .dip i) (f : Fmt) (c : SelfAddressing)
    (m : EventMessage) (hm : inceptSelfAddressing env d c f = .ok m) :
    ∃ data, m.toDerivationData env = .ok data ∧ m.event.digest = env.derive c data ∧
      m.event.content = ⟨.selfAddressing (env.derive c data), 0, d⟩ ∧ m.info.kind = f ∧
      f.encode env (dummyInceptionSval m.info c d) = .ok data := by
  unfold inceptSelfAddressing at hm
  obtain ⟨info, hi, hm⟩ := Res.bind_eq_ok.1 hm
  obtain ⟨bytes, hb, hm⟩ := Res.bind_eq_ok.1 hm
  simp only [Res.ok.injEq] at hm
  subst hm
  have hk : info.kind = f := by
    unfold dummyInceptionInfo at hi
    obtain ⟨b0, hb0, hi⟩ := Res.bind_eq_ok.1 hi
    simp only [Res.ok.injEq] at hi
    rw [← hi]; rfl
  refine ⟨bytes, ?_, rfl, rfl, hk, hb⟩
  have : dummyInceptionBytes env d c f = .ok bytes := by
    unfold dummyInceptionBytes
    rw [hi, Res.ok_bind, hk, hb]
  unfold EventMessage.toDerivationData
  rcases hd with ⟨i, rfl⟩ | ⟨i, rfl⟩
  · simp only [hk]; exact this
  · simp only [hk]; exact this

/-- An event whose digest field the library computes from the whole event: not the inception of a basic or self-signing identifier. -/
def Event.selfConsistent (e : Event) : Bool :=
  match e.data, e.prefix with
  | .icp _, .selfAddressing _ => true
  | .dip _, .selfAddressing _ => true
  | .icp _, _ => false
  | .dip _, _ => false
  | _, _ => true

/-- C43 (all but inceptions of basic identifiers, for which it is false, `C43_fails`): the digest field of a built event is
the digest, with the chosen algorithm, of the derivation data that a verifier recomputes from the message, and for a self-addressing
inception the identifier is that digest too. -/
theorem C43_built_digest (env : Env) (e : Event) (f : Fmt) (c : SelfAddressing) (m : EventMessage)
    (hsc : e.selfConsistent = true) (hm : e.toMessage env f c = .ok m) :
    ∃ data, m.toDerivationData env = .ok data ∧ m.event.digest = ⟨c, env.digest c data⟩ ∧
      m.event.digest.verifyBinding env data = true ∧
      ((∃ i, e.data = .icp i) ∨ (∃ i, e.data = .dip i) → m.event.content.prefix = .selfAddressing m.event.digest) ∧
      m.event.content.data = e.data := by
  have key : (∃ data, m.toDerivationData env = .ok data ∧ m.event.digest = env.derive c data ∧
      ((∃ i, e.data = .icp i) ∨ (∃ i, e.data = .dip i) → m.event.content.prefix = .selfAddressing m.event.digest) ∧
      m.event.content.data = e.data) := by
    unfold Event.toMessage at hm
    split at hm
    · rename_i p i hp hi
      obtain ⟨data, k1, k2, k3, _, _⟩ := incept_digest env _ (.inl ⟨i, rfl⟩) f c m hm
      exact ⟨data, k1, k2, fun _ => by rw [k3, k2], by rw [k3, hi]⟩
    · rename_i p i hp hi
      obtain ⟨data, k1, k2, k3, _, _⟩ := incept_digest env _ (.inr ⟨i, rfl⟩) f c m hm
      exact ⟨data, k1, k2, fun _ => by rw [k3, k2], by rw [k3, hi]⟩
    · rename_i hn1 hn2
      have n1 : ∀ i, e.data ≠ .icp i := by
        intro i hi
        unfold Event.selfConsistent at hsc
        rw [hi] at hsc
        cases hp : e.prefix with
        | selfAddressing p => exact hn1 p i hp hi
        | basic p => rw [hp] at hsc; cases hsc
        | selfSigning p => rw [hp] at hsc; cases hsc
      have n2 : ∀ i, e.data ≠ .dip i := by
        intro i hi
        unfold Event.selfConsistent at hsc
        rw [hi] at hsc
        cases hp : e.prefix with
        | selfAddressing p => exact hn2 p i hp hi
        | basic p => rw [hp] at hsc; cases hsc
        | selfSigning p => rw [hp] at hsc; cases hsc
      obtain ⟨data, k1, k2, k3, _, _⟩ := said_digest env e f c m n1 n2 hm
      refine ⟨data, k1, k2, ?_, by rw [k3]⟩
      rintro (⟨i, hi⟩ | ⟨i, hi⟩)
      · exact absurd hi (n1 i)
      · exact absurd hi (n2 i)
  obtain ⟨data, k1, k2, k3, k4⟩ := key
  refine ⟨data, k1, k2, ?_, k3, k4⟩
  rw [k2]
  simp [SelfAddressingPrefix.verifyBinding, Env.derive]

/-- C43, what the derivation data is: for a JSON event that is not an inception, the serialized message with the text of the digest
field replaced by as many `#`. -/
theorem C43_derivation_data (env : Env) (h1 : env.DigestSizes) (e : Event) (c : SelfAddressing) (m : EventMessage)
    (hne : ∀ i, e.data ≠ .icp i) (hnd : ∀ i, e.data ≠ .dip i) (hm : e.toMessage env .json c = .ok m) :
    ∃ text data, m.serialize env = .ok text ∧ m.toDerivationData env = .ok data ∧ m.event.digest = ⟨c, env.digest c data⟩ ∧
      Masked text m.event.digest.toStr (List.replicate m.event.digest.toStr.length 35) data := by
  have hm' : e.saidMessage env .json c = .ok m := by
    unfold Event.toMessage at hm
    split at hm
    · rename_i p i hp hi; exact absurd hi (hne i)
    · rename_i p i hp hi; exact absurd hi (hnd i)
    · exact hm
  obtain ⟨data, k1, k2, k3, k4, k5⟩ := said_digest env e .json c m hne hnd hm'
  simp only [Fmt.encode, Res.ok.injEq] at k5
  refine ⟨jsonText m.sval, data, by unfold EventMessage.serialize; rw [k4]; rfl, k1, k2, ?_⟩
  obtain ⟨t1, t2⟩ := derive_text env h1 c data
  have hpl : plainStr (c.toStr ++ b64Encode (env.digest c data)) = true := plainStr_append (plainStr_code c) (plainStr_b64 _)
  have hmask : dummyPrefix c = List.replicate m.event.digest.toStr.length 35 := by
    rw [k2, t1, t2]; rfl
  rw [← hmask]
  refine ⟨[123] ++ jsonStr b!"v" ++ [58] ++ jsonStr m.info.toStr ++ ([44] ++ jsonStr b!"t" ++ [58] ++ jsonStr e.data.type.toStr) ++
      ([44] ++ jsonStr b!"d" ++ [58] ++ [34]), [34] ++ jsonFieldsTail e.fields ++ [125], ?_, ?_, ?_⟩
  · unfold EventMessage.sval
    simp only [k3, List.cons_append, List.nil_append, jsonText, jsonFields, jsonFieldsTail]
    rw [k2, t1, jsonStr_plain hpl]
    simp only [List.append_assoc, List.cons_append, List.nil_append]
  · rw [← k5]
    unfold dummyEventSval
    simp only [List.cons_append, List.nil_append, jsonText, jsonFields, jsonFieldsTail]
    rw [jsonStr_plain (s := dummyPrefix c) (plainStr_hashes _)]
    simp only [List.append_assoc, List.cons_append, List.nil_append]
  · rw [hmask, List.length_replicate]

/-- C43 is false for the inception of a basic identifier: the digest is computed over a text containing the identifier, while the
derivation data a verifier recomputes has a placeholder in its place. -/
theorem C43_fails :
    ∃ data, Ex.icpFinal.msg.toDerivationData Ex.env = .ok data ∧ Ex.icpFinal.dig.verifyBinding Ex.env data = false ∧
      (Event.mk (.basic (Ex.key 9)) 0 (.icp ⟨⟨.simple 1, [Ex.key 9], none⟩, 0, [], [], []⟩)).toMessage Ex.env .json .blake3_256 =
        .ok Ex.icpFinal.msg :=
  ⟨jsonText (dummyInceptionSval (SerInfo.new .json 244) .blake3_256 Ex.icpFinal.data), by decide +kernel, by decide +kernel, by decide +kernel⟩

example : (Event.mk Ex.id 1 Ex.rot.data).selfConsistent = true ∧ Ex.rot.msg.event.content = Event.mk Ex.id 1 Ex.rot.data ∧
    (Event.mk Ex.id 1 Ex.rot.data).toMessage Ex.env .json .blake3_256 = .ok Ex.rot.msg := by decide +kernel
example : (Event.mk Ex.id 0 Ex.icp.data).selfConsistent = true ∧
    (Event.mk Ex.id 0 Ex.icp.data).toMessage Ex.env .json .blake3_256 = .ok Ex.icp.msg := by decide +kernel

/-- an environment with digests of the advertised lengths exists, so the hypothesis of C42/C43 is not empty -/
example : ({ Ex.env with digest := fun c _ => List.replicate c.rawBytes 7 } : Env).DigestSizes := fun c _ => by
  simp only [List.length_replicate]

end Keriox
