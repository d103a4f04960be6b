import Verif.NomFacts
/-!
# Properties C34–C40: text codecs of prefixes, indices, sequence numbers and attachments

## Specification: what a well-sized prefix is
The raw sizes below are those of the primitives themselves (Ed25519 key 32 bytes, compressed secp256k1 point 33 bytes,
X448 56, Ed448 57; digests 256/512 bits; signatures 64/64/114 bytes), not the library's text length table.
-/
namespace Keriox

/-- Raw public key size of each algorithm. -/
def Basic.rawBytes : Basic → Nat
  | .ed25519 | .ed25519NT | .x25519 => 32
  | .x448 => 56
  | .ecdsa | .ecdsaNT => 33
  | .ed448 | .ed448NT => 57

/-- Raw digest size of each algorithm. -/
def SelfAddressing.rawBytes : SelfAddressing → Nat
  | .blake3_256 | .blake2b256 _ | .blake2s256 _ | .sha3_256 | .sha2_256 => 32
  | .blake3_512 | .sha3_512 | .blake2b512 | .sha2_512 => 64

/-- Raw signature size of each algorithm. -/
def SelfSigning.rawBytes : SelfSigning → Nat
  | .ed25519Sha512 | .ecdsaSha256 => 64
  | .ed448 => 114

def BasicPrefix.Sized (p : BasicPrefix) : Prop := p.publicKey.length = p.derivation.rawBytes
def SelfSigningPrefix.Sized (p : SelfSigningPrefix) : Prop := p.signature.length = p.derivation.rawBytes
/-- The text form carries no Blake2 key, so only the unkeyed algorithms can round-trip. -/
def SelfAddressingPrefix.Sized (p : SelfAddressingPrefix) : Prop :=
  p.digest.length = p.derivation.rawBytes ∧ p.derivation.keyless = true
def BasicPrefix.IsSecp (p : BasicPrefix) : Prop := p.derivation = .ecdsa ∨ p.derivation = .ecdsaNT

def IdentifierPrefix.Sized : IdentifierPrefix → Prop
  | .basic p => p.Sized
  | .selfAddressing p => p.Sized
  | .selfSigning p => p.Sized
def IdentifierPrefix.IsSecp : IdentifierPrefix → Prop
  | .basic p => p.IsSecp
  | _ => False

/-! ## C34 -/

/-- C34, first half. -/
theorem C34_base64_roundtrip (bs : Bytes) : b64Decode (b64Encode bs) = some bs := b64Decode_encode bs

/-- C34, second half: an accepted unpadded text is the encoding of what it decodes to. -/
theorem C34_base64_canonical (s bs : Bytes) (h : b64Decode s = some bs) (hp : (61 : UInt8) ∉ s) : s = b64Encode bs :=
  (b64Encode_decode s bs h hp).symm

example : b64Decode b!"AAEC_w" = some [0, 1, 2, 255] ∧ (61 : UInt8) ∉ b!"AAEC_w" := by decide
/-- The padding hypothesis is needed: a padded text decodes as well. -/
example : b64Decode b!"AAEC_w==" = some [0, 1, 2, 255] := by decide
/-- The decoder is not total: wrong length, foreign character and stray bits are rejected. -/
example : b64Decode b!"AAECA" = none ∧ b64Decode b!"AA+C" = none ∧ b64Decode b!"AAEC_x" = none := by decide

/-! ## C35 -/

private theorem Basic.b64Len_raw (p : BasicPrefix) (h : p.Sized) (hs : ¬ p.IsSecp) :
    (b64Encode p.publicKey).length = p.derivation.b64Len := by
  obtain ⟨c, k⟩ := p
  simp only [BasicPrefix.IsSecp, not_or] at hs
  cases c <;> first
    | exact absurd rfl hs.1
    | exact absurd rfl hs.2
    | exact b64Len_of_bytes k _ _ h (by simp [Basic.rawBytes, Basic.b64Len])

private theorem SelfSigning.b64Len_raw (p : SelfSigningPrefix) (h : p.Sized) :
    (b64Encode p.signature).length = p.derivation.b64Len := by
  obtain ⟨c, k⟩ := p
  cases c <;> exact b64Len_of_bytes k _ _ h (by simp [SelfSigning.rawBytes, SelfSigning.b64Len])

private theorem SelfAddressing.b64Len_raw (p : SelfAddressingPrefix) (h : p.Sized) :
    (b64Encode p.digest).length = p.derivation.b64Len := by
  obtain ⟨c, k⟩ := p
  cases c <;> exact b64Len_of_bytes k _ _ h.1 (by simp [SelfAddressing.rawBytes, SelfAddressing.b64Len])

private theorem ne_nil_of_length {k : Bytes} {n : Nat} (h : k.length = n) (hn : 0 < n) : k ≠ [] := by
  rintro rfl; simp at h; omega

private theorem Basic.rawBytes_pos (c : Basic) : 0 < c.rawBytes := by cases c <;> decide
private theorem SelfAddressing.rawBytes_pos (c : SelfAddressing) : 0 < c.rawBytes := by
  cases c <;> simp [SelfAddressing.rawBytes]
private theorem SelfSigning.rawBytes_pos (c : SelfSigning) : 0 < c.rawBytes := by cases c <;> decide

theorem BasicPrefix.toStr_sized (p : BasicPrefix) (h : p.Sized) :
    p.toStr = p.derivation.toStr ++ b64Encode p.publicKey :=
  prefixText_nonempty _ _ (ne_nil_of_length h (Basic.rawBytes_pos _))
theorem SelfAddressingPrefix.toStr_sized (p : SelfAddressingPrefix) (h : p.Sized) :
    p.toStr = p.derivation.toStr ++ b64Encode p.digest :=
  prefixText_nonempty _ _ (ne_nil_of_length h.1 (SelfAddressing.rawBytes_pos _))
theorem SelfSigningPrefix.toStr_sized (p : SelfSigningPrefix) (h : p.Sized) :
    p.toStr = p.derivation.toStr ++ b64Encode p.signature :=
  prefixText_nonempty _ _ (ne_nil_of_length h (SelfSigning.rawBytes_pos _))
theorem AttachedSignaturePrefix.toStr_sized (p : AttachedSignaturePrefix) (h : p.signature.Sized) :
    p.toStr = p.signature.derivation.attToStr p.index ++ b64Encode p.signature.signature :=
  prefixText_nonempty _ _ (ne_nil_of_length h (SelfSigning.rawBytes_pos _))

/-- C35 for public keys.  Exceptions: the two secp256k1 codes are excluded, see `C35_secp_never_parses`. -/
theorem C35_basic_roundtrip (p : BasicPrefix) (h : p.Sized) (hs : ¬ p.IsSecp) :
    BasicPrefix.fromStr p.toStr = .ok p := by
  rw [p.toStr_sized h]
  unfold BasicPrefix.fromStr
  rw [Basic.fromStr_append _ _ (b64Encode_ascii _), Res.ok_bind, ← Basic.toStr_length,
    decodeBody_text _ _ (Basic.toStr_ascii _)]
  · rfl
  · simp [Basic.prefixLen, Basic.toStr_length, Basic.b64Len_raw p h hs]

example : BasicPrefix.Sized ⟨.ed25519, List.replicate 32 7⟩ ∧ ¬ BasicPrefix.IsSecp ⟨.ed25519, List.replicate 32 7⟩ := by
  simp [BasicPrefix.Sized, BasicPrefix.IsSecp, Basic.rawBytes]

/-- The excluded case of C35: *no* secp256k1 public key parses back (the length table says 47 characters where 33 bytes take
44), so events with such keys cannot be read. -/
theorem C35_secp_never_parses (p : BasicPrefix) (h : p.Sized) (hs : p.IsSecp) :
    BasicPrefix.fromStr p.toStr = .err (.semantic "Incorrect Prefix Length") := by
  rw [p.toStr_sized h]
  unfold BasicPrefix.fromStr
  rw [Basic.fromStr_append _ _ (b64Encode_ascii _), Res.ok_bind]
  have hl : (b64Encode p.publicKey).length = 44 := by
    obtain ⟨c, k⟩ := p
    rcases hs with hs | hs <;> simp only at hs <;> subst hs <;> exact b64Len_of_bytes k _ _ h (by simp [Basic.rawBytes])
  unfold decodeBody
  rw [if_neg]
  · rfl
  · rw [List.length_append, hl]
    rcases hs with hs | hs <;> rw [hs] <;> decide

example : BasicPrefix.Sized ⟨.ecdsa, List.replicate 33 2⟩ ∧ BasicPrefix.IsSecp ⟨.ecdsa, List.replicate 33 2⟩ := by
  simp [BasicPrefix.Sized, BasicPrefix.IsSecp, Basic.rawBytes]

/-- C35 for digests. -/
theorem C35_selfAddressing_roundtrip (p : SelfAddressingPrefix) (h : p.Sized) :
    SelfAddressingPrefix.fromStr p.toStr = .ok p := by
  rw [p.toStr_sized h]
  unfold SelfAddressingPrefix.fromStr
  rw [SelfAddressing.fromStr_append _ _ (b64Encode_ascii _) h.2, Res.ok_bind, ← SelfAddressing.toStr_length,
    decodeBody_text _ _ (SelfAddressing.toStr_ascii _)]
  · rfl
  · simp [SelfAddressing.prefixLen, SelfAddressing.toStr_length, SelfAddressing.b64Len_raw p h]

example : SelfAddressingPrefix.Sized ⟨.blake2b256 [], List.replicate 32 9⟩ := by
  simp [SelfAddressingPrefix.Sized, SelfAddressing.rawBytes, SelfAddressing.keyless]

/-- Keyed Blake2 digests lose their key in the text form: the keyless hypothesis is needed. -/
theorem C35_keyed_blake2_loses_key (key d : Bytes) (hk : key ≠ []) :
    SelfAddressingPrefix.fromStr (SelfAddressingPrefix.toStr ⟨.blake2b256 key, d⟩) ≠ .ok ⟨.blake2b256 key, d⟩ := by
  intro hc
  unfold SelfAddressingPrefix.fromStr at hc
  obtain ⟨c, h1, h2⟩ := Res.bind_eq_ok.mp hc
  obtain ⟨k, -, h3⟩ := Res.bind_eq_ok.mp h2
  cases h3
  have := (SelfAddressing.fromStr_inv h1).2.2
  simp [SelfAddressing.keyless] at this
  exact hk this

/-- C35 for signatures. -/
theorem C35_selfSigning_roundtrip (p : SelfSigningPrefix) (h : p.Sized) :
    SelfSigningPrefix.fromStr p.toStr = .ok p := by
  rw [p.toStr_sized h]
  unfold SelfSigningPrefix.fromStr
  rw [SelfSigning.fromStr_append _ _ (b64Encode_ascii _), Res.ok_bind, ← SelfSigning.toStr_length,
    decodeBody_text _ _ (SelfSigning.toStr_ascii _)]
  · rfl
  · simp [SelfSigning.prefixLen, SelfSigning.toStr_length, SelfSigning.b64Len_raw p h]

example : SelfSigningPrefix.Sized ⟨.ed448, List.replicate 114 1⟩ := by
  simp [SelfSigningPrefix.Sized, SelfSigning.rawBytes]

private theorem attToStr_ascii (c : SelfSigning) (i : Nat) (hi : i < 63) : Ascii (c.attToStr i) := by
  unfold SelfSigning.attToStr
  rw [numToB64_small i hi]
  have hb : b64Char i < 0x80 := b64Val_ascii _ (by rw [b64Val_char i (by omega)]; rfl)
  intro x hx
  cases c <;> simp only [List.cons_append, List.nil_append, List.mem_cons, List.not_mem_nil, or_false] at hx
  · rcases hx with rfl | rfl
    · decide
    · exact hb
  · rcases hx with rfl | rfl
    · decide
    · exact hb
  · rcases hx with rfl | rfl | rfl | rfl
    · decide
    · decide
    · decide
    · exact hb

private theorem attToStr_length (c : SelfSigning) (i : Nat) (hi : i < 63) : (c.attToStr i).length = c.attCodeLen := by
  unfold SelfSigning.attToStr
  rw [numToB64_small i hi]; cases c <;> rfl

private theorem attFromStr_append (c : SelfSigning) (i : Nat) (hi : i < 63) (r : Bytes) (hr : Ascii r) :
    SelfSigning.attFromStr (c.attToStr i ++ r) = .ok (c, i) := by
  have ha := (attToStr_ascii c i hi).append hr
  have hn := b64ToNum_one i (by omega)
  have hl : ∀ n ≤ c.attCodeLen, n ≤ (c.attToStr i ++ r).length := by
    intro n hn; rw [List.length_append, attToStr_length c i hi]; omega
  unfold SelfSigning.attFromStr
  rw [ha.strSlice (a := 0) (b := 1) (by omega) (hl 1 (by cases c <;> decide))]
  have hbs : ∀ a b, a ≤ b → b ≤ c.attCodeLen → byteSlice (c.attToStr i ++ r) a b =
      .ok (((c.attToStr i ++ r).take b).drop a) := by
    intro a b hab hb
    unfold byteSlice; simp only [hab, hl b hb, decide_true, Bool.and_self, if_true]
  cases c
  · rw [hbs 1 2 (by omega) (by decide)]
    simp only [SelfSigning.attToStr, numToB64_small i hi, Res.ok_bind, List.cons_append, List.nil_append,
      List.take_succ_cons, List.take_zero, List.drop_zero, List.drop_succ_cons, if_true, hn]
  · rw [hbs 1 2 (by omega) (by decide)]
    simp only [SelfSigning.attToStr, numToB64_small i hi, Res.ok_bind, List.cons_append, List.nil_append,
      List.take_succ_cons, List.take_zero, List.drop_zero, List.drop_succ_cons, hn]
    rfl
  · rw [hbs 3 4 (by omega) (by decide), ha.strSlice (a := 1) (b := 3) (by omega) (hl 3 (by decide))]
    simp only [SelfSigning.attToStr, numToB64_small i hi, Res.ok_bind, List.cons_append, List.nil_append,
      List.take_succ_cons, List.take_zero, List.drop_zero, List.drop_succ_cons, hn]
    rfl

/-- C35 for attached signatures.  Exceptions: key indices below 63, see `C35_attached_large_index_never_parses`. -/
theorem C35_attached_roundtrip (p : AttachedSignaturePrefix) (h : p.signature.Sized) (hi : p.index < 63) :
    AttachedSignaturePrefix.fromStr p.toStr = .ok p := by
  rw [p.toStr_sized h]
  unfold AttachedSignaturePrefix.fromStr
  rw [attFromStr_append _ _ hi _ (b64Encode_ascii _), Res.ok_bind]
  simp only
  rw [← attToStr_length _ p.index hi, decodeBody_text _ _ (attToStr_ascii _ _ hi)]
  · rfl
  · rw [SelfSigning.b64Len_raw _ h]

example : (⟨62, ⟨.ed25519Sha512, List.replicate 64 5⟩⟩ : AttachedSignaturePrefix).signature.Sized := by
  simp [SelfSigningPrefix.Sized, SelfSigning.rawBytes]

private theorem numToB64_large (n : Nat) (h : 63 ≤ n) : 2 ≤ (numToB64 n).length := by
  unfold numToB64
  rw [if_neg (by omega)]
  have hl : (b64Encode (beBytes 2 n)).length = 3 := by rw [b64Encode_length, beBytes_length]
  split
  · rw [List.length_take, hl]; decide
  · rw [hl]; decide

/-- The excluded case of C35: an attached signature with key index 63 or more never parses back. -/
theorem C35_attached_large_index_never_parses (p : AttachedSignaturePrefix) (h : p.signature.Sized) (hi : 63 ≤ p.index) :
    ∀ q, AttachedSignaturePrefix.fromStr p.toStr ≠ .ok q := by
  intro q hq
  unfold AttachedSignaturePrefix.fromStr at hq
  obtain ⟨⟨c, i⟩, h1, h2⟩ := Res.bind_eq_ok.mp hq
  obtain ⟨k, h3, -⟩ := Res.bind_eq_ok.mp h2
  obtain ⟨hlen, -, -⟩ := decodeBody_inv h3
  have hlen2 := SelfSigning.b64Len_raw _ h
  have hnl := numToB64_large p.index hi
  have hc : c = p.signature.derivation := by
    unfold SelfSigning.attFromStr at h1
    obtain ⟨hd, hhd, h1⟩ := Res.bind_eq_ok.mp h1
    obtain ⟨-, -, hd'⟩ := strSlice_ok hhd
    rw [p.toStr_sized h] at hd'
    have hcase : ∀ d : SelfSigning, hd = ((d.attToStr p.index ++ b64Encode p.signature.signature).take 1).drop 0 →
        p.signature.derivation = d → c = d := by
      intro d hdd hpd
      cases d
      · have : hd = b!"A" := hdd
        rw [if_pos this] at h1
        obtain ⟨_, _, h1⟩ := Res.bind_eq_ok.mp h1
        obtain ⟨_, _, h1⟩ := Res.bind_eq_ok.mp h1
        cases h1; rfl
      · have : hd = b!"B" := hdd
        subst this
        rw [if_neg (by decide), if_pos rfl] at h1
        obtain ⟨_, _, h1⟩ := Res.bind_eq_ok.mp h1
        obtain ⟨_, _, h1⟩ := Res.bind_eq_ok.mp h1
        cases h1; rfl
      · have : hd = b!"0" := hdd
        subst this
        rw [if_neg (by decide), if_neg (by decide), if_pos rfl] at h1
        obtain ⟨_, _, h1⟩ := Res.bind_eq_ok.mp h1
        split at h1
        · obtain ⟨_, _, h1⟩ := Res.bind_eq_ok.mp h1
          obtain ⟨_, _, h1⟩ := Res.bind_eq_ok.mp h1
          cases h1; rfl
        · cases h1
    exact hcase _ hd' rfl
  subst hc
  rw [p.toStr_sized h, List.length_append, hlen2] at hlen
  unfold SelfSigning.attToStr at hlen
  rw [List.length_append] at hlen
  cases hd : p.signature.derivation <;> rw [hd] at hlen <;>
    simp only [SelfSigning.attCodeLen, List.length_cons, List.length_nil] at hlen <;> omega

example : (⟨63, ⟨.ed25519Sha512, List.replicate 64 5⟩⟩ : AttachedSignaturePrefix).signature.Sized := by
  simp [SelfSigningPrefix.Sized, SelfSigning.rawBytes]

private theorem Basic_rejects_SA (c : SelfAddressing) (r : Bytes) (hr : Ascii r) :
    ∃ e, Basic.fromStr (c.toStr ++ r) = .err e := by
  have ha := (SelfAddressing.toStr_ascii c).append hr
  unfold Basic.fromStr
  rw [ha.strGet (by omega) (by cases c <;> simp [SelfAddressing.toStr])]
  cases c <;> exact ⟨_, rfl⟩

private theorem Basic_rejects_SS (c : SelfSigning) (r : Bytes) (hr : Ascii r) :
    ∃ e, Basic.fromStr (c.toStr ++ r) = .err e := by
  have ha := (SelfSigning.toStr_ascii c).append hr
  unfold Basic.fromStr
  rw [ha.strGet (by omega) (by cases c <;> simp [SelfSigning.toStr])]
  cases c
  · exact ⟨_, rfl⟩
  · exact ⟨_, rfl⟩
  · rw [ha.strSlice (by omega) (by simp [SelfSigning.toStr])]; exact ⟨_, rfl⟩

private theorem SA_rejects_SS (c : SelfSigning) (r : Bytes) (hr : Ascii r) :
    ∃ e, SelfAddressing.fromStr (c.toStr ++ r) = .err e := by
  have ha := (SelfSigning.toStr_ascii c).append hr
  unfold SelfAddressing.fromStr
  rw [ha.strGet (by omega) (by cases c <;> simp [SelfSigning.toStr])]
  rw [ha.strSlice (by omega) (by cases c <;> simp [SelfSigning.toStr])]
  cases c <;> exact ⟨_, rfl⟩

/-- C35 for identifier prefixes.  Exceptions: secp256k1 basic identifiers excluded. -/
theorem C35_identifier_roundtrip (p : IdentifierPrefix) (h : p.Sized) (hs : ¬ p.IsSecp) :
    IdentifierPrefix.fromStr p.toStr = .ok p := by
  unfold IdentifierPrefix.fromStr
  cases p with
  | basic p =>
    have := C35_basic_roundtrip p h hs
    simp only [IdentifierPrefix.toStr, this]
  | selfAddressing p =>
    have hrt := C35_selfAddressing_roundtrip p h
    have hb : ∃ e, BasicPrefix.fromStr p.toStr = .err e := by
      obtain ⟨e, he⟩ := Basic_rejects_SA p.derivation _ (b64Encode_ascii p.digest)
      refine ⟨e, ?_⟩
      unfold BasicPrefix.fromStr; rw [p.toStr_sized h, he]; rfl
    obtain ⟨e, he⟩ := hb
    simp only [IdentifierPrefix.toStr, he, hrt]
  | selfSigning p =>
    have hrt := C35_selfSigning_roundtrip p h
    have hb : ∃ e, BasicPrefix.fromStr p.toStr = .err e := by
      obtain ⟨e, he⟩ := Basic_rejects_SS p.derivation _ (b64Encode_ascii p.signature)
      refine ⟨e, ?_⟩
      unfold BasicPrefix.fromStr; rw [p.toStr_sized h, he]; rfl
    have ha : ∃ e, SelfAddressingPrefix.fromStr p.toStr = .err e := by
      obtain ⟨e, he⟩ := SA_rejects_SS p.derivation _ (b64Encode_ascii p.signature)
      refine ⟨e, ?_⟩
      unfold SelfAddressingPrefix.fromStr; rw [p.toStr_sized h, he]; rfl
    obtain ⟨e, he⟩ := hb
    obtain ⟨e', he'⟩ := ha
    simp only [IdentifierPrefix.toStr, he, he', hrt, Res.ok_bind]

example : IdentifierPrefix.Sized (.selfSigning ⟨.ed25519Sha512, List.replicate 64 5⟩) ∧
    ¬ IdentifierPrefix.IsSecp (.selfSigning ⟨.ed25519Sha512, List.replicate 64 5⟩) := by
  simp [IdentifierPrefix.Sized, IdentifierPrefix.IsSecp, SelfSigningPrefix.Sized, SelfSigning.rawBytes]

end Keriox
