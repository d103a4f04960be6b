import Verif.Payload
import Verif.Props.Codec2
/-!
# C103: payload codes
-/
namespace Keriox

/-! ## The abbreviated code tables of the stream parsers agree with the full one -/

/-- the codes the attachment parser distinguishes -/
def Payload.short : Payload → PayloadType
  | .MA => .MA | .MC => .MC | .MF => .MF | .MG => .MG | .MH => .MH | .MV => .MV
  | _ => .other

theorem payload_lookup_mem {s : Bytes} {p : Payload} : ∀ {l : List (Bytes × Payload)}, l.lookup s = some p → (s, p) ∈ l
  | [], h => by cases h
  | (a, q) :: l, h => by
    rw [List.lookup_cons] at h
    split at h
    · rename_i hs
      have : s = a := by simpa using hs
      cases h; rw [this]; exact List.mem_cons_self
    · exact List.mem_cons_of_mem _ (payload_lookup_mem h)

theorem tryFrom_np (s : Bytes) : Payload.tryFrom s ≠ .panic := by
  unfold Payload.tryFrom; split <;> simp

theorem tryFrom_inv {s : Bytes} {p : Payload} (h : Payload.tryFrom s = .ok p) : s = (if p = .E then b!"E" else p.toStr) := by
  have key : ∀ r ∈ Payload.table, r.1 = (if r.2 = .E then b!"E" else r.2.toStr) := by decide +kernel
  unfold Payload.tryFrom at h
  split at h
  · rename_i q hq
    cases h
    exact key _ (payload_lookup_mem hq)
  · cases h

/-- on two-character texts the table of the attachment parser is the full table -/
theorem short_tryFrom (s : Bytes) (hl : s.length = 2) :
    PayloadType.tryFrom s = match Payload.tryFrom s with | .ok p => some p.short | _ => none := by
  cases h : Payload.tryFrom s with
  | ok p =>
    have := tryFrom_inv h
    subst this
    cases p <;> first | rfl | (exfalso; revert hl; decide)
  | err e =>
    dsimp only
    cases h2 : PayloadType.tryFrom s with
    | none => rfl
    | some q =>
      exfalso
      unfold PayloadType.tryFrom at h2
      repeat' split at h2
      all_goals first
        | (cases h2; done)
        | (rename_i hs; subst hs; cases h; done)
        | (rename_i hs; simp only [List.mem_cons, List.not_mem_nil, or_false] at hs
           rcases hs with rfl | rfl | rfl | rfl | rfl | rfl | rfl | rfl | rfl | rfl | rfl | rfl | rfl | rfl | rfl | rfl <;> cases h)
  | panic => exact absurd h (tryFrom_np s)

/-- … and so is the table of the asynchronous reader -/
theorem async_payload (s : Bytes) (hl : s.length = 2) :
    Async.payload s = match Payload.tryFrom s with | .ok p => some (p.size, p.masterCodeSize false) | _ => none := by
  cases h : Payload.tryFrom s with
  | ok p =>
    have := tryFrom_inv h
    subst this
    cases p <;> first | rfl | (exfalso; revert hl; decide)
  | err e =>
    dsimp only
    cases h2 : Async.payload s with
    | none => rfl
    | some q =>
      exfalso
      unfold Async.payload at h2
      repeat' split at h2
      all_goals first
        | (cases h2; done)
        | (rename_i hs; subst hs; cases h; done)
        | (rename_i hs; simp only [List.mem_cons, List.not_mem_nil, or_false] at hs
           rcases hs with rfl | rfl | rfl | rfl | rfl | rfl | rfl | rfl | rfl | rfl | rfl <;> cases h)
        | (rename_i hs; simp only [List.mem_cons, List.not_mem_nil, or_false] at hs
           rcases hs with rfl | rfl | rfl | rfl | rfl <;> cases h)
        | (rename_i hs; simp only [List.mem_cons, List.not_mem_nil, or_false] at hs
           rcases hs with rfl | rfl <;> cases h)
  | panic => exact absurd h (tryFrom_np s)

/-- writing a count, by the abbreviated table -/
theorem short_adjust (p : Payload) (n : Nat) (h : p.short ≠ .other) : p.adjustWithNum n = adjustWithNum p.short n := by
  have key : ∀ c : Bytes, (if (numToB64 n).length < 2 then (Res.ok (c ++ List.replicate (2 - (numToB64 n).length) 65 ++ numToB64 n) : Res Bytes)
      else .ok (c ++ numToB64 n)) = .ok (c ++ List.replicate (2 - (numToB64 n).length) 65 ++ numToB64 n) := by
    intro c
    split
    · rfl
    · rw [show 2 - (numToB64 n).length = 0 by omega]; simp
  cases p <;> first
    | exact key _
    | rfl
    | exact absurd rfl h

/-! ## C103 -/

/-- C103: the text of a code is read back as the same code — except that `E` is written like `D`, and so becomes `D` -/
theorem C103_code_text (p : Payload) : Payload.tryFrom p.toStr = .ok (if p = .E then .D else p) := by
  cases p <;> rfl

/-- C103: only the texts of the codes are read; two different texts are never the same code -/
theorem C103_only_codes (s : Bytes) (p : Payload) :
    Payload.tryFrom s = .ok p ↔ s = (if p = .E then b!"E" else p.toStr) := by
  refine ⟨tryFrom_inv, ?_⟩
  rintro rfl
  cases p <;> rfl

/-- C103: what is written for a count below 63 is the code and two characters that are read back as the count; from 63 on the two characters after the code are
read back as a sixteenth of the count, and from 4095 on a third one is left over -/
theorem C103_count (p : Payload) (hp : p.indexLength = .ok 2) (n : Nat) (hn : n < 65536) :
    ∃ digits left, p.adjustWithNum n = .ok (p.toStr ++ digits ++ left) ∧ p.toStr.length = 2 ∧ digits.length = 2 ∧
      left.length = (if n < 4095 then 0 else 1) ∧
      ∀ rest, b64CountP (digits ++ left ++ rest) = .ok (left ++ rest) (if n < 63 then n else n / 16) := by
  have ht : p.toStr.length = 2 := by cases p <;> first | rfl | cases hp
  have hadj : p.adjustWithNum n = if (numToB64 n).length < 2 then .ok (p.toStr ++ List.replicate (2 - (numToB64 n).length) 65 ++ numToB64 n)
      else .ok (p.toStr ++ numToB64 n) := by
    unfold Payload.adjustWithNum
    rw [hp]; rfl
  have count : ∀ d l rest : Bytes, d.length = 2 → ∀ v, b64ToNum d = .ok v → b64CountP (d ++ l ++ rest) = .ok (l ++ rest) v := by
    intro d l rest hd v hv
    unfold b64CountP
    rw [List.append_assoc, takeN_append _ _ 2 hd.symm, IRes.andThen_ok, hv]
    rfl
  by_cases h1 : n < 63
  · rw [numToB64_small n h1] at hadj
    refine ⟨[65, b64Char n], [], by rw [hadj]; simp, ht, rfl, by rw [if_pos (by omega)]; rfl, fun rest => ?_⟩
    rw [if_pos h1]
    exact count _ _ _ rfl _ (b64ToNum_two n (by omega))
  · have hb : beBytes 2 n = [UInt8.ofNat (n / 256), UInt8.ofNat (n % 256)] := by
      simp [beBytes]; rw [Nat.mod_eq_of_lt (by omega)]
    have henc : b64Encode (beBytes 2 n) = [b64Char (n / 256 / 4), b64Char (n / 256 % 4 * 16 + n % 256 / 16)] ++ [b64Char (n % 256 % 16 * 4)] := by
      rw [hb]
      simp only [b64Encode]
      rw [UInt8.ofNat_toNat_lt _ (by omega), UInt8.ofNat_toNat_lt _ (by omega)]
      rfl
    rw [if_neg h1]
    by_cases h2 : n < 4095
    · have hnum : numToB64 n = [b64Char (n / 256 / 4), b64Char (n / 256 % 4 * 16 + n % 256 / 16)] := by
        unfold numToB64; rw [if_neg h1, if_pos h2, henc]; rfl
      rw [hnum] at hadj
      refine ⟨_, [], by rw [hadj]; simp; rfl, ht, rfl, by rw [if_pos h2]; rfl, fun rest => ?_⟩
      exact count _ _ _ rfl _ (b64ToNum_hi12 n hn)
    · have hnum : numToB64 n = [b64Char (n / 256 / 4), b64Char (n / 256 % 4 * 16 + n % 256 / 16)] ++ [b64Char (n % 256 % 16 * 4)] := by
        unfold numToB64; rw [if_neg h1, if_neg h2, henc]
      rw [hnum] at hadj
      refine ⟨[b64Char (n / 256 / 4), b64Char (n / 256 % 4 * 16 + n % 256 / 16)], [b64Char (n % 256 % 16 * 4)], by rw [hadj]; simp, ht, rfl, by rw [if_neg h2]; rfl, fun rest => ?_⟩
      exact count _ _ _ rfl _ (b64ToNum_hi12 n hn)

/-- C103: so counts are written faithfully exactly below 63 -/
theorem C103_faithful_iff (p : Payload) (hp : p.indexLength = .ok 2) (n : Nat) (hn : n < 65536) :
    (∃ digits, p.adjustWithNum n = .ok (p.toStr ++ digits) ∧ ∀ rest, b64CountP (digits ++ rest) = .ok rest n) ↔ n < 63 := by
  obtain ⟨d, l, h1, _, h3, h4, h5⟩ := C103_count p hp n hn
  constructor
  · rintro ⟨digits, g1, g2⟩
    rw [h1] at g1
    simp only [Res.ok.injEq, List.append_assoc, List.append_cancel_left_eq] at g1
    subst g1
    have := g2 []
    rw [h5 []] at this
    simp only [IRes.ok.injEq] at this
    obtain ⟨_, hv⟩ := this
    split at hv <;> omega
  · intro h
    rw [if_pos (by omega)] at h4
    have : l = [] := List.eq_nil_of_length_eq_zero h4
    subst this
    refine ⟨d, by rw [h1]; simp, fun rest => ?_⟩
    have := h5 rest
    rw [if_pos h] at this
    simpa using this

/-- C103: codes without a count ignore the number; for `0G`, `-H` and the four-character codes the call panics -/
theorem C103_no_count (p : Payload) (n : Nat) :
    (p.indexLength = .ok 0 → p.adjustWithNum n = .ok p.toStr) ∧
    (p.indexLength = .panic → p.adjustWithNum n = .panic) ∧
    (p.indexLength = .panic ↔ p ∈ [.OG, .MH, .IAAA, .IAAB, .IAAC, .IAAD, .IAAE, .IAAF, .IAAG]) := by
  refine ⟨fun h => ?_, fun h => ?_, ?_⟩
  · unfold Payload.adjustWithNum; rw [h]; rfl
  · unfold Payload.adjustWithNum; rw [h]; rfl
  · cases p <;> simp [Payload.indexLength]

/-- C103: the size of a code in the table is the length of its text with its count — except for these nine codes, where the table says 0 -/
theorem C103_sizes (p : Payload) : (∀ k, p.indexLength = .ok k → p.masterCodeSize false = p.toStr.length + k) ∧
    (p.indexLength = .panic → p.masterCodeSize false = 0 ∧ p.toStr.length ≠ 0) := by
  constructor
  · intro k hk
    cases p <;> simp only [Payload.indexLength, Res.ok.injEq] at hk <;> first | (subst hk; rfl) | cases hk
  · intro h
    cases p <;> first | (cases h; done) | exact ⟨rfl, by decide⟩

/-- the hypotheses are met by `-A`, and the boundary is there: 62 members are read back, 63 are read as 3 -/
example : Payload.MA.indexLength = .ok 2 ∧ Payload.MA.adjustWithNum 62 = .ok b!"-AA-" ∧ b64CountP b!"A-xyz" = .ok b!"xyz" 62 ∧
    Payload.MA.adjustWithNum 63 = .ok b!"-AAD" ∧ b64CountP b!"ADxyz" = .ok b!"xyz" 3 ∧
    Payload.MA.adjustWithNum 4095 = .ok b!"-AD_8" := by decide +kernel

/-- The specification of the sizes: how many bytes of material a code stands for, after the KERI table of codes — 32 for seeds, keys and
256-bit digests, 56 for X448 keys, 2 and 4 for short numbers, 16 for a salt, 64 for 512-bit digests and signatures, 33 for compressed
secp256k1 keys, 57 and 114 for Ed448, 3 for a tag, 24 for a time stamp; counters stand for no material of their own -/
def Payload.material : Payload → Option Nat
  | .A | .B | .C | .D | .E | .F | .G | .H | .I | .J => some 32
  | .K | .L => some 56
  | .M => some 2
  | .OA => some 16
  | .OB | .OC | .OD | .OE | .OF | .OG => some 64
  | .OH => some 4
  | .IAAA | .IAAB => some 33
  | .IAAC | .IAAD => some 57
  | .IAAE => some 114
  | .IAAF => some 3
  | .IAAG => some 24
  | _ => none

/-- C103: the size the table gives for a code is the length of the code followed by the text of that many bytes; a member of a `-A` or `-B`
group is two characters followed by 64 bytes of signature; for every other counter the table says 0 -/
theorem C103_material (p : Payload) :
    (∀ (n : Nat) (raw : Bytes), p.material = some n → raw.length = n → p.size = (p.toStr ++ b64Encode raw).length) ∧
    (p.material = none → p.size = if p = .MA ∨ p = .MB then 2 + (b64Encode (List.replicate 64 0)).length else 0) := by
  constructor
  · intro n raw h hl
    rw [List.length_append, b64Encode_length, hl]
    cases p <;> simp only [Payload.material, Option.some.injEq, reduceCtorEq] at h <;> subst h <;> rfl
  · intro h
    rw [b64Encode_length, List.length_replicate]
    cases p <;> first | (cases h; done) | rfl

/-- … so the texts of keys, digests and signatures have the length the table gives for their codes -/
theorem C103_prefixes (p : Payload) :
    (∀ q : BasicPrefix, q.Sized → p.toStr = q.derivation.toStr → q.toStr.length = p.size) ∧
    (∀ q : SelfAddressingPrefix, q.Sized → p.toStr = q.derivation.toStr → q.toStr.length = p.size) ∧
    (∀ q : SelfSigningPrefix, q.Sized → p.toStr = q.derivation.toStr → q.toStr.length = p.size) := by
  refine ⟨fun q hs ht => ?_, fun q hs ht => ?_, fun q hs ht => ?_⟩
  · have hm : p.material = some q.publicKey.length := by
      rw [hs]; revert ht; cases p <;> cases q.derivation <;> decide
    have hne : q.publicKey.length ≠ 0 := by rw [hs]; cases q.derivation <;> decide
    rw [(C103_material p).1 _ q.publicKey hm rfl, ht]
    unfold BasicPrefix.toStr prefixText
    rw [if_neg hne]
  · have hm : p.material = some q.digest.length := by
      rw [hs.1]; revert ht; cases p <;> cases q.derivation <;> first | decide | (intro h; exfalso; revert h; change ¬ (_ = [_]); decide) | (intro _; rfl)
    have hne : q.digest.length ≠ 0 := by rw [hs.1]; cases q.derivation <;> first | exact (by decide : (32 : Nat) ≠ 0) | exact (by decide : (64 : Nat) ≠ 0)
    rw [(C103_material p).1 _ q.digest hm rfl, ht]
    unfold SelfAddressingPrefix.toStr prefixText
    rw [if_neg hne]
  · have hm : p.material = some q.signature.length := by
      rw [hs]; revert ht; cases p <;> cases q.derivation <;> decide
    have hne : q.signature.length ≠ 0 := by rw [hs]; cases q.derivation <;> decide
    rw [(C103_material p).1 _ q.signature hm rfl, ht]
    unfold SelfSigningPrefix.toStr prefixText
    rw [if_neg hne]

/-- C103: the reader of streams uses the same table: for every code of two characters that begins an attachment -/
theorem C103_async (s : Bytes) (hl : s.length = 2) :
    Async.payload s = match Payload.tryFrom s with | .ok p => some (p.size, p.masterCodeSize false) | _ => none := async_payload s hl

/-- a key, and the table -/
example : Payload.B.material = some 32 ∧ Payload.B.size = 44 ∧ (b!"B" ++ b64Encode (List.replicate 32 7)).length = 44 ∧
    Async.payload b!"0A" = some (24, 2) := by decide +kernel

end Keriox
