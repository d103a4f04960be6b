import Verif.Nom
import Verif.PrefixFacts
/-!
# Facts about the stream parsers (helper lemmas)
-/
namespace Keriox

theorem Ascii.utf8 : ∀ {s : Bytes}, Ascii s → utf8Valid s = true
  | [], _ => rfl
  | a :: r, h => by
    rw [utf8Valid.eq_def]; simp only; rw [if_pos (h a (by simp))]
    exact Ascii.utf8 (fun c hc => h c (List.mem_cons_of_mem _ hc))

theorem takeN_append (a b : Bytes) (n : Nat) (h : n = a.length) : takeN n (a ++ b) = .ok b a := by
  subst h; simp [takeN]

/-- Number of raw bytes a code's payload has when its text length table entry is right. -/
theorem b64Len_of_bytes (k : Bytes) (n m : Nat) (h : k.length = n) (hm : (n * 4 + 2) / 3 = m) :
    (b64Encode k).length = m := by
  rw [b64Encode_length, h, hm]

theorem b64DecodeRes_encode (k : Bytes) : b64DecodeRes (b64Encode k) = .ok k := by
  simp [b64DecodeRes, b64Decode_encode, Res.ofOption]

theorem takeN_ok_append {n : Nat} {s r a : Bytes} (h : takeN n s = .ok r a) : s = a ++ r ∧ a.length = n := by
  unfold takeN at h
  split at h
  · cases h; exact ⟨(List.take_append_drop n s).symm, by simp; omega⟩
  · cases h

theorem Basic.fromStr_toStr (c : Basic) : Basic.fromStr c.toStr = .ok c := by
  simpa using Basic.fromStr_append c [] (by simp [Ascii])
theorem SelfAddressing.fromStr_toStr (c : SelfAddressing) (h : c.keyless = true) :
    SelfAddressing.fromStr c.toStr = .ok c := by
  simpa using SelfAddressing.fromStr_append c [] (by simp [Ascii]) h
theorem SelfSigning.fromStr_toStr (c : SelfSigning) : SelfSigning.fromStr c.toStr = .ok c := by
  simpa using SelfSigning.fromStr_append c [] (by simp [Ascii])

theorem codeParse_ok {α} (f : Bytes → Res α) (code rest : Bytes) (a : α) (hc : Ascii code) (h : f code = .ok a) :
    codeParse f code rest = .ok rest a := by
  simp [codeParse, hc.utf8, h, IRes.ofResFailure]

theorem basicPrefixP_text (c : Basic) (k rest : Bytes) (h : (b64Encode k).length = c.b64Len) :
    basicPrefixP (c.toStr ++ (b64Encode k ++ rest)) = .ok rest ⟨c, k⟩ := by
  unfold basicPrefixP
  have h1 : takeN 1 (c.toStr ++ (b64Encode k ++ rest)) =
      .ok ((c.toStr ++ (b64Encode k ++ rest)).drop 1) ((c.toStr ++ (b64Encode k ++ rest)).take 1) := by
    unfold takeN; rw [if_pos]; cases c <;> simp [Basic.toStr]
  rw [h1, IRes.andThen_ok]
  have h2 : (if (c.toStr ++ (b64Encode k ++ rest)).take 1 = b!"1" then 4 else 1) = c.toStr.length := by
    cases c <;> rfl
  rw [takeN_append _ _ _ h2, IRes.andThen_ok, codeParse_ok _ _ _ _ (Basic.toStr_ascii c) (Basic.fromStr_toStr c),
    IRes.andThen_ok, takeN_append _ _ _ h.symm, IRes.andThen_ok, b64DecodeRes_encode]
  rfl

theorem selfAddressingPrefixP_text (c : SelfAddressing) (k rest : Bytes) (h : (b64Encode k).length = c.b64Len)
    (hk : c.keyless = true) :
    selfAddressingPrefixP (c.toStr ++ (b64Encode k ++ rest)) = .ok rest ⟨c, k⟩ := by
  unfold selfAddressingPrefixP
  have h1 : takeN 1 (c.toStr ++ (b64Encode k ++ rest)) =
      .ok ((c.toStr ++ (b64Encode k ++ rest)).drop 1) ((c.toStr ++ (b64Encode k ++ rest)).take 1) := by
    unfold takeN; rw [if_pos]; cases c <;> simp [SelfAddressing.toStr]
  rw [h1, IRes.andThen_ok]
  have h2 : (if (c.toStr ++ (b64Encode k ++ rest)).take 1 = b!"0" then 2 else 1) = c.toStr.length := by
    cases c <;> rfl
  rw [takeN_append _ _ _ h2, IRes.andThen_ok,
    codeParse_ok _ _ _ _ (SelfAddressing.toStr_ascii c) (SelfAddressing.fromStr_toStr c hk),
    IRes.andThen_ok, takeN_append _ _ _ h.symm, IRes.andThen_ok]
  apply codeParse_ok
  · exact (SelfAddressing.toStr_ascii c).append (b64Encode_ascii k)
  · unfold SelfAddressingPrefix.fromStr
    rw [SelfAddressing.fromStr_append c _ (b64Encode_ascii k) hk, Res.ok_bind, ← SelfAddressing.toStr_length,
      decodeBody_text _ _ (SelfAddressing.toStr_ascii c)]
    · rfl
    · simp [SelfAddressing.prefixLen, SelfAddressing.toStr_length, h]

theorem selfSigningPrefixP_text (c : SelfSigning) (k rest : Bytes) (h : (b64Encode k).length = c.b64Len) :
    selfSigningPrefixP (c.toStr ++ (b64Encode k ++ rest)) = .ok rest ⟨c, k⟩ := by
  unfold selfSigningPrefixP
  have h1 : takeN 1 (c.toStr ++ (b64Encode k ++ rest)) =
      .ok ((c.toStr ++ (b64Encode k ++ rest)).drop 1) ((c.toStr ++ (b64Encode k ++ rest)).take 1) := by
    unfold takeN; rw [if_pos]; cases c <;> simp [SelfSigning.toStr]
  rw [h1, IRes.andThen_ok]
  have h2 : (if (c.toStr ++ (b64Encode k ++ rest)).take 1 = b!"1" then 4 else 2) = c.toStr.length := by
    cases c <;> rfl
  rw [takeN_append _ _ _ h2, IRes.andThen_ok,
    codeParse_ok _ _ _ _ (SelfSigning.toStr_ascii c) (SelfSigning.fromStr_toStr c),
    IRes.andThen_ok, takeN_append _ _ _ h.symm, IRes.andThen_ok, b64DecodeRes_encode]
  rfl

/-- A text that starts with a basic code is not read as a self-addressing prefix (a failure, not a panic). -/
theorem selfAddressingPrefixP_basic (c : Basic) (t : Bytes) : selfAddressingPrefixP (c.toStr ++ t) = .failure := by
  unfold selfAddressingPrefixP
  cases c <;> rfl

/-! ### Index and count codes -/

theorem numToB64_small (n : Nat) (h : n < 63) : numToB64 n = [b64Char n] := by
  have : ∀ n : Fin 63, numToB64 n.val = [b64Char n.val] := by decide +kernel
  exact this ⟨n, h⟩

theorem b64ToNum_one (n : Nat) (h : n < 64) : b64ToNum [b64Char n] = .ok n := by
  have : ∀ n : Fin 64, b64ToNum [b64Char n.val] = .ok n.val := by decide +kernel
  exact this ⟨n, h⟩

theorem b64ToNum_two (n : Nat) (h : n < 64) : b64ToNum [65, b64Char n] = .ok n := by
  have : ∀ n : Fin 64, b64ToNum [65, b64Char n.val] = .ok n.val := by decide +kernel
  exact this ⟨n, h⟩

theorem b64CountP_small (n : Nat) (h : n < 63) (rest : Bytes) :
    b64CountP (65 :: b64Char n :: rest) = .ok rest n := by
  unfold b64CountP
  rw [show (65 :: b64Char n :: rest) = [65, b64Char n] ++ rest from rfl, takeN_append [65, b64Char n] _ 2 rfl, IRes.andThen_ok,
    b64ToNum_two n (by omega)]
  rfl

theorem attachedSignatureP_text (c : SelfSigning) (i : Nat) (k rest : Bytes) (hi : i < 63)
    (h : (b64Encode k).length = c.b64Len) :
    attachedSignatureP (c.attToStr i ++ (b64Encode k ++ rest)) = .ok rest ⟨i, ⟨c, k⟩⟩ := by
  unfold attachedSignatureP SelfSigning.attToStr
  rw [numToB64_small i hi]
  cases c
  · simp only [SelfSigning.b64Len] at h
    simp only [List.cons_append, List.nil_append]
    rw [show (65 :: b64Char i :: (b64Encode k ++ rest)) = [65] ++ ([b64Char i] ++ (b64Encode k ++ rest)) from rfl,
      takeN_append [65] _ 1 rfl, IRes.andThen_ok, if_pos rfl, takeN_append [b64Char i] _ 1 rfl, IRes.andThen_ok,
      b64ToNum_one i (by omega)]
    simp only [IRes.ofResError, IRes.andThen_ok]
    rw [takeN_append _ _ _ h.symm, IRes.andThen_ok, b64DecodeRes_encode]
    rfl
  · simp only [SelfSigning.b64Len] at h
    simp only [List.cons_append, List.nil_append]
    rw [show (66 :: b64Char i :: (b64Encode k ++ rest)) = [66] ++ ([b64Char i] ++ (b64Encode k ++ rest)) from rfl,
      takeN_append [66] _ 1 rfl, IRes.andThen_ok, if_neg (by decide), if_pos rfl, takeN_append [b64Char i] _ 1 rfl, IRes.andThen_ok,
      b64ToNum_one i (by omega)]
    simp only [IRes.ofResError, IRes.andThen_ok]
    rw [takeN_append _ _ _ h.symm, IRes.andThen_ok, b64DecodeRes_encode]
    rfl
  · simp only [SelfSigning.b64Len] at h
    simp only [List.cons_append, List.nil_append]
    rw [show (48 :: 65 :: 65 :: b64Char i :: (b64Encode k ++ rest)) =
        [48] ++ ([65] ++ ([65, b64Char i] ++ (b64Encode k ++ rest))) from rfl,
      takeN_append [48] _ 1 rfl, IRes.andThen_ok, if_neg (by decide), if_neg (by decide), if_pos rfl,
      takeN_append [65] _ 1 rfl, IRes.andThen_ok, if_pos rfl, takeN_append [65, b64Char i] _ 2 rfl, IRes.andThen_ok,
      b64ToNum_two i (by omega)]
    simp only [IRes.ofResError, IRes.andThen_ok]
    rw [takeN_append _ _ _ h.symm, IRes.andThen_ok, b64DecodeRes_encode]
    rfl

theorem attachedSnP_packSn (sn : Nat) (h : sn < 2 ^ 64) (rest : Bytes) :
    attachedSnP (packSn sn ++ rest) = .ok rest sn := by
  unfold attachedSnP packSn
  have hl : (b64Encode (List.replicate 8 0 ++ beBytes 8 sn)).length = 22 := by
    rw [b64Encode_length]; simp [beBytes_length]
  rw [List.append_assoc, takeN_append [48, 65] _ 2 rfl, IRes.andThen_ok, if_pos rfl, takeN_append _ _ _ hl.symm,
    IRes.andThen_ok, b64DecodeRes_encode]
  simp only [IRes.ofResFailure, IRes.andThen_ok]
  rw [if_pos (by simp [beBytes_length])]
  congr 1
  rw [List.drop_append_of_le_length (by simp)]
  simpa using beVal_beBytes 8 sn (by simpa using h)

theorem countP_map {α β} (p : Bytes → IRes α) (enc : β → Bytes) (dec : β → α) (l : List β) (rest : Bytes)
    (h : ∀ x ∈ l, ∀ r, p (enc x ++ r) = .ok r (dec x)) :
    countP p l.length ((l.map enc).flatten ++ rest) = .ok rest (l.map dec) := by
  induction l with
  | nil => rfl
  | cons x l ih =>
    simp only [List.map_cons, List.flatten_cons, List.length_cons, List.append_assoc, countP]
    rw [h x (by simp), IRes.andThen_ok, ih (fun y hy => h y (by simp [hy])), IRes.andThen_ok]

/-- Two characters of the 18-bit encoding of a 16-bit number carry its upper 12 bits. -/
theorem b64ToNum_hi12 (n : Nat) (h : n < 65536) :
    b64ToNum [b64Char (n / 256 / 4), b64Char (n / 256 % 4 * 16 + n % 256 / 16)] = .ok (n / 16) := by
  unfold b64ToNum
  simp only [List.length_cons, List.length_nil, List.cons_append, List.nil_append]
  have hd : b64Decode [65, 65, b64Char (n / 256 / 4), b64Char (n / 256 % 4 * 16 + n % 256 / 16)] =
      some [0, UInt8.ofNat (n / 256 / 4 / 4), UInt8.ofNat (n / 256 / 4 % 4 * 64 + (n / 256 % 4 * 16 + n % 256 / 16))] := by
    rw [b64Decode, if_pos (show ([] : Bytes).isEmpty = true from rfl), if_neg (b64Char_ne_pad _ (by omega))]
    unfold b64Quad
    rw [b64Val_char _ (by omega), b64Val_char _ (by omega), show b64Val 65 = some 0 from rfl]
    simp
  rw [hd]
  simp only [List.length_cons, List.length_nil, Nat.zero_add, Nat.reduceAdd, Nat.reduceSub, List.drop_succ_cons,
    List.drop_zero, beVal, List.foldl]
  rw [UInt8.ofNat_toNat_lt _ (by omega), UInt8.ofNat_toNat_lt _ (by omega)]
  congr 1; omega

theorem adjust_small (t : PayloadType) (n : Nat) (h : n < 63) (code : Bytes)
    (ht : (t = .MA ∧ code = b!"-A") ∨ (t = .MC ∧ code = b!"-C") ∨ (t = .MF ∧ code = b!"-F") ∨
      (t = .MG ∧ code = b!"-G") ∨ (t = .MV ∧ code = b!"-V")) :
    adjustWithNum t (n % 65536) = .ok (code ++ [65, b64Char n]) := by
  rw [Nat.mod_eq_of_lt (by omega)]
  rcases ht with ⟨rfl, rfl⟩ | ⟨rfl, rfl⟩ | ⟨rfl, rfl⟩ | ⟨rfl, rfl⟩ | ⟨rfl, rfl⟩ <;>
    simp [adjustWithNum, numToB64_small n h]

end Keriox
