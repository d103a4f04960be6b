import Verif.Props.Codec
/-!
# Properties C36–C40
-/
namespace Keriox

/-! ## C36: text is canonical and injective -/

/-- C36 (canonical), public keys: an accepted text without padding is the text form of what it parsed to.
Exceptions: padded texts, see `C36_padded_key_not_canonical`. -/
theorem C36_basic_canonical (s : Bytes) (p : BasicPrefix) (h : BasicPrefix.fromStr s = .ok p)
    (hp : (61 : UInt8) ∉ s) : p.toStr = s := by
  unfold BasicPrefix.fromStr at h
  obtain ⟨c, h1, h2⟩ := Res.bind_eq_ok.mp h
  obtain ⟨k, h3, h4⟩ := Res.bind_eq_ok.mp h2
  cases h4
  obtain ⟨hc, -⟩ := Basic.fromStr_inv h1
  rw [← Basic.toStr_length] at hc h3
  exact decodeBody_text_inv hc h3 (by rw [Basic.toStr_length]; show c.codeLen < c.prefixLen; cases c <;> decide) hp

theorem C36_selfAddressing_canonical (s : Bytes) (p : SelfAddressingPrefix)
    (h : SelfAddressingPrefix.fromStr s = .ok p) (hp : (61 : UInt8) ∉ s) : p.toStr = s := by
  unfold SelfAddressingPrefix.fromStr at h
  obtain ⟨c, h1, h2⟩ := Res.bind_eq_ok.mp h
  obtain ⟨k, h3, h4⟩ := Res.bind_eq_ok.mp h2
  cases h4
  obtain ⟨hc, -⟩ := SelfAddressing.fromStr_inv h1
  rw [← SelfAddressing.toStr_length] at hc h3
  exact decodeBody_text_inv hc h3 (by
    rw [SelfAddressing.prefixLen, SelfAddressing.toStr_length]
    cases c <;> simp [SelfAddressing.b64Len]) hp

theorem C36_selfSigning_canonical (s : Bytes) (p : SelfSigningPrefix)
    (h : SelfSigningPrefix.fromStr s = .ok p) (hp : (61 : UInt8) ∉ s) : p.toStr = s := by
  unfold SelfSigningPrefix.fromStr at h
  obtain ⟨c, h1, h2⟩ := Res.bind_eq_ok.mp h
  obtain ⟨k, h3, h4⟩ := Res.bind_eq_ok.mp h2
  cases h4
  obtain ⟨hc, -⟩ := SelfSigning.fromStr_inv h1
  rw [← SelfSigning.toStr_length] at hc h3
  exact decodeBody_text_inv hc h3 (by rw [SelfSigning.toStr_length]; show c.codeLen < c.prefixLen; cases c <;> decide) hp

/-- C36 (canonical) for identifiers: an accepted text without padding is the text form of what it parsed to. -/
theorem C36_identifier_canonical (s : Bytes) (p : IdentifierPrefix)
    (h : IdentifierPrefix.fromStr s = .ok p) (hp : (61 : UInt8) ∉ s) : p.toStr = s := by
  unfold IdentifierPrefix.fromStr at h
  split at h
  · rename_i q hq; cases h; exact C36_basic_canonical s q hq hp
  · cases h
  · split at h
    · rename_i q hq; cases h; exact C36_selfAddressing_canonical s q hq hp
    · cases h
    · obtain ⟨q, hq, h⟩ := Res.bind_eq_ok.mp h
      cases h; exact C36_selfSigning_canonical s q hq hp

theorem b64Encode_no_pad (bs : Bytes) : (61 : UInt8) ∉ b64Encode bs := by
  intro h
  have := b64Encode_alpha bs _ h
  rw [b64Val_pad] at this
  simp at this

theorem identifier_no_pad (p : IdentifierPrefix) : (61 : UInt8) ∉ p.toStr := by
  have ht : ∀ code d, (61 : UInt8) ∉ code → (61 : UInt8) ∉ prefixText code d := by
    intro code d hc
    unfold prefixText
    split
    · simp
    · simp [hc, b64Encode_no_pad]
  cases p with
  | basic p => exact ht _ _ (by cases p.derivation <;> decide)
  | selfAddressing p => exact ht _ _ (by cases p.derivation <;> simp [SelfAddressing.toStr])
  | selfSigning p => exact ht _ _ (by cases p.derivation <;> decide)

/-- C36: a text that parses as an identifier is the text form of that identifier exactly when it contains no padding character. -/
theorem C36_canonical_iff (s : Bytes) (p : IdentifierPrefix) (h : IdentifierPrefix.fromStr s = .ok p) : p.toStr = s ↔ (61 : UInt8) ∉ s :=
  ⟨fun e => e ▸ identifier_no_pad p, C36_identifier_canonical s p h⟩

example : ∃ p, IdentifierPrefix.fromStr b!"BAAAAAAAAAAAAAAAAAAAAAAAAAAAAAAAAAAAAAAAAAAA" = .ok p ∧
    (61 : UInt8) ∉ b!"BAAAAAAAAAAAAAAAAAAAAAAAAAAAAAAAAAAAAAAAAAAA" :=
  ⟨.basic ⟨.ed25519NT, List.replicate 32 0⟩, by decide +kernel, by decide⟩

/-- C36 fails for padded texts: a 44-character text ending in `=` is accepted as an Ed25519 key of 31 bytes, whose text form is
a different, shorter string that does not parse. -/
theorem C36_padded_key_not_canonical :
    ∃ s p, IdentifierPrefix.fromStr s = .ok p ∧ p.toStr ≠ s ∧ (∀ q, IdentifierPrefix.fromStr p.toStr ≠ .ok q) := by
  refine ⟨b!"BAAAAAAAAAAAAAAAAAAAAAAAAAAAAAAAAAAAAAAAAAA=", .basic ⟨.ed25519NT, List.replicate 31 0⟩,
    by decide +kernel, by decide +kernel, ?_⟩
  have : IdentifierPrefix.fromStr (IdentifierPrefix.toStr (.basic ⟨.ed25519NT, List.replicate 31 0⟩)) =
    .err (.deserialize "Unknown master code") := by decide +kernel
  intro q; rw [this]; simp

/-- An identifier that the text form can represent: a non-empty derivative, no Blake2 key. -/
def IdentifierPrefix.WF : IdentifierPrefix → Prop
  | .basic p => p.publicKey ≠ []
  | .selfAddressing p => p.digest ≠ [] ∧ p.derivation.keyless = true
  | .selfSigning p => p.signature ≠ []

instance : DecidablePred IdentifierPrefix.WF := fun p => by
  cases p <;> simp only [IdentifierPrefix.WF] <;> infer_instance

/-- Every identifier that was read from text is representable. -/
theorem wf_of_fromStr (s : Bytes) (p : IdentifierPrefix) (h : IdentifierPrefix.fromStr s = .ok p) : p.WF := by
  have nn : ∀ {c n : Nat} {k : Bytes}, decodeBody s c n = .ok k → c < n → k ≠ [] := by
    intro c n k hd hcn
    obtain ⟨hl, -, hd⟩ := decodeBody_inv hd
    refine b64Decode_ne_nil hd ?_
    intro h0; have := congrArg List.length h0; simp at this; omega
  unfold IdentifierPrefix.fromStr at h
  split at h
  · rename_i q hq; cases h
    obtain ⟨c, h1, h2⟩ := Res.bind_eq_ok.mp hq
    obtain ⟨k, h3, h4⟩ := Res.bind_eq_ok.mp h2
    cases h4
    exact nn h3 (by cases c <;> decide)
  · cases h
  · split at h
    · rename_i q hq; cases h
      obtain ⟨c, h1, h2⟩ := Res.bind_eq_ok.mp hq
      obtain ⟨k, h3, h4⟩ := Res.bind_eq_ok.mp h2
      cases h4
      exact ⟨nn h3 (by rw [SelfAddressing.prefixLen]; cases c <;> simp [SelfAddressing.b64Len]),
        (SelfAddressing.fromStr_inv h1).2.2⟩
    · cases h
    · obtain ⟨q, hq, h⟩ := Res.bind_eq_ok.mp h
      cases h
      obtain ⟨c, h1, h2⟩ := Res.bind_eq_ok.mp hq
      obtain ⟨k, h3, h4⟩ := Res.bind_eq_ok.mp h2
      cases h4
      exact nn h3 (by cases c <;> decide)

private theorem code_append_inj {a b x y : Bytes} (h : a ++ x = b ++ y) (hl : a.length = b.length) : a = b ∧ x = y :=
  List.append_inj h hl

private theorem text_first {c : Bytes} {x : Bytes} (n : Nat) (hn : n ≤ c.length) : (c ++ x).take n = c.take n := by
  rw [List.take_append_of_le_length hn]

/-- C36 (injective): two different representable identifiers never have the same text form. -/
theorem C36_identifier_text_injective (p q : IdentifierPrefix) (hp : p.WF) (hq : q.WF) (h : p.toStr = q.toStr) : p = q := by
  -- the codes are recognised on any ASCII continuation, so equal texts have equal codes
  cases p with
  | basic p =>
    have tp : p.toStr = p.derivation.toStr ++ b64Encode p.publicKey := prefixText_nonempty _ _ hp
    have hb : Basic.fromStr p.toStr = .ok p.derivation := by
      rw [tp]; exact Basic.fromStr_append _ _ (b64Encode_ascii _)
    cases q with
    | basic q =>
      have tq : q.toStr = q.derivation.toStr ++ b64Encode q.publicKey := prefixText_nonempty _ _ hq
      have hb' : Basic.fromStr q.toStr = .ok q.derivation := by
        rw [tq]; exact Basic.fromStr_append _ _ (b64Encode_ascii _)
      simp only [IdentifierPrefix.toStr] at h
      rw [h, hb'] at hb
      have hd : q.derivation = p.derivation := by injection hb
      rw [tp, tq, hd] at h
      have hk := b64Encode_injective (List.append_cancel_left h)
      cases p; cases q; simp_all
    | selfAddressing q =>
      have tq : q.toStr = q.derivation.toStr ++ b64Encode q.digest := prefixText_nonempty _ _ hq.1
      obtain ⟨e, he⟩ : ∃ e, Basic.fromStr (q.derivation.toStr ++ b64Encode q.digest) = .err e := by
        have ha := (SelfAddressing.toStr_ascii q.derivation).append (b64Encode_ascii q.digest)
        unfold Basic.fromStr
        rw [ha.strGet (by omega) (by cases q.derivation <;> simp [SelfAddressing.toStr])]
        cases q.derivation <;> exact ⟨_, rfl⟩
      simp only [IdentifierPrefix.toStr] at h
      rw [h, tq, he] at hb; cases hb
    | selfSigning q =>
      have tq : q.toStr = q.derivation.toStr ++ b64Encode q.signature := prefixText_nonempty _ _ hq
      obtain ⟨e, he⟩ : ∃ e, Basic.fromStr (q.derivation.toStr ++ b64Encode q.signature) = .err e := by
        have ha := (SelfSigning.toStr_ascii q.derivation).append (b64Encode_ascii q.signature)
        unfold Basic.fromStr
        rw [ha.strGet (by omega) (by cases q.derivation <;> simp [SelfSigning.toStr])]
        cases hc : q.derivation
        · exact ⟨_, rfl⟩
        · exact ⟨_, rfl⟩
        · rw [hc] at ha
          rw [ha.strSlice (by omega) (by simp [SelfSigning.toStr])]; exact ⟨_, rfl⟩
      simp only [IdentifierPrefix.toStr] at h
      rw [h, tq, he] at hb; cases hb
  | selfAddressing p =>
    have tp : p.toStr = p.derivation.toStr ++ b64Encode p.digest := prefixText_nonempty _ _ hp.1
    have hb : SelfAddressing.fromStr p.toStr = .ok p.derivation := by
      rw [tp]; exact SelfAddressing.fromStr_append _ _ (b64Encode_ascii _) hp.2
    cases q with
    | basic q =>
      have tq : q.toStr = q.derivation.toStr ++ b64Encode q.publicKey := prefixText_nonempty _ _ hq
      obtain ⟨e, he⟩ : ∃ e, SelfAddressing.fromStr (q.derivation.toStr ++ b64Encode q.publicKey) = .err e := by
        have ha := (Basic.toStr_ascii q.derivation).append (b64Encode_ascii q.publicKey)
        unfold SelfAddressing.fromStr
        rw [ha.strGet (by omega) (by cases q.derivation <;> simp [Basic.toStr])]
        cases q.derivation <;> exact ⟨_, rfl⟩
      simp only [IdentifierPrefix.toStr] at h
      rw [h, tq, he] at hb; cases hb
    | selfAddressing q =>
      have tq : q.toStr = q.derivation.toStr ++ b64Encode q.digest := prefixText_nonempty _ _ hq.1
      have hb' : SelfAddressing.fromStr q.toStr = .ok q.derivation := by
        rw [tq]; exact SelfAddressing.fromStr_append _ _ (b64Encode_ascii _) hq.2
      simp only [IdentifierPrefix.toStr] at h
      rw [h, hb'] at hb
      have hd : q.derivation = p.derivation := by injection hb
      rw [tp, tq, hd] at h
      have hk := b64Encode_injective (List.append_cancel_left h)
      cases p; cases q; simp_all
    | selfSigning q =>
      have tq : q.toStr = q.derivation.toStr ++ b64Encode q.signature := prefixText_nonempty _ _ hq
      obtain ⟨e, he⟩ : ∃ e, SelfAddressing.fromStr (q.derivation.toStr ++ b64Encode q.signature) = .err e := by
        have ha := (SelfSigning.toStr_ascii q.derivation).append (b64Encode_ascii q.signature)
        unfold SelfAddressing.fromStr
        rw [ha.strGet (by omega) (by cases q.derivation <;> simp [SelfSigning.toStr])]
        rw [ha.strSlice (by omega) (by cases q.derivation <;> simp [SelfSigning.toStr])]
        cases q.derivation <;> exact ⟨_, rfl⟩
      simp only [IdentifierPrefix.toStr] at h
      rw [h, tq, he] at hb; cases hb
  | selfSigning p =>
    have tp : p.toStr = p.derivation.toStr ++ b64Encode p.signature := prefixText_nonempty _ _ hp
    have hb : SelfSigning.fromStr p.toStr = .ok p.derivation := by
      rw [tp]; exact SelfSigning.fromStr_append _ _ (b64Encode_ascii _)
    cases q with
    | basic q =>
      have tq : q.toStr = q.derivation.toStr ++ b64Encode q.publicKey := prefixText_nonempty _ _ hq
      obtain ⟨e, he⟩ : ∃ e, SelfSigning.fromStr (q.derivation.toStr ++ b64Encode q.publicKey) = .err e := by
        have ha := (Basic.toStr_ascii q.derivation).append (b64Encode_ascii q.publicKey)
        unfold SelfSigning.fromStr
        rw [ha.strGet (by omega) (by cases q.derivation <;> simp [Basic.toStr])]
        cases hc : q.derivation <;> rw [hc] at ha <;> first
          | exact ⟨_, rfl⟩
          | (rw [ha.strSlice (a := 1) (b := 4) (by omega) (by simp [Basic.toStr])]; exact ⟨_, rfl⟩)
      simp only [IdentifierPrefix.toStr] at h
      rw [h, tq, he] at hb; cases hb
    | selfAddressing q =>
      have tq : q.toStr = q.derivation.toStr ++ b64Encode q.digest := prefixText_nonempty _ _ hq.1
      obtain ⟨e, he⟩ : ∃ e, SelfSigning.fromStr (q.derivation.toStr ++ b64Encode q.digest) = .err e := by
        have ha := (SelfAddressing.toStr_ascii q.derivation).append (b64Encode_ascii q.digest)
        unfold SelfSigning.fromStr
        rw [ha.strGet (by omega) (by cases q.derivation <;> simp [SelfAddressing.toStr])]
        cases hc : q.derivation <;> rw [hc] at ha <;> first
          | exact ⟨_, rfl⟩
          | (rw [ha.strSlice (a := 1) (b := 2) (by omega) (by simp [SelfAddressing.toStr])]; exact ⟨_, rfl⟩)
      simp only [IdentifierPrefix.toStr] at h
      rw [h, tq, he] at hb; cases hb
    | selfSigning q =>
      have tq : q.toStr = q.derivation.toStr ++ b64Encode q.signature := prefixText_nonempty _ _ hq
      have hb' : SelfSigning.fromStr q.toStr = .ok q.derivation := by
        rw [tq]; exact SelfSigning.fromStr_append _ _ (b64Encode_ascii _)
      simp only [IdentifierPrefix.toStr] at h
      rw [h, hb'] at hb
      have hd : q.derivation = p.derivation := by injection hb
      rw [tp, tq, hd] at h
      have hk := b64Encode_injective (List.append_cancel_left h)
      cases p; cases q; simp_all

example : IdentifierPrefix.WF (.basic ⟨.ed25519, [1, 2]⟩) ∧ IdentifierPrefix.WF (.selfAddressing ⟨.blake3_256, [1, 2]⟩) := by
  decide

/-- Without representability it fails: all prefixes with an empty derivative have the empty text. -/
theorem C36_empty_derivative_collide : ∃ p q : IdentifierPrefix, p ≠ q ∧ p.toStr = q.toStr :=
  ⟨.basic ⟨.ed25519, []⟩, .selfSigning ⟨.ed448, []⟩, by decide, by decide⟩

/-! ## C37: stream parsers agree with string parsers -/

private theorem Basic_len (p : BasicPrefix) (h : p.Sized) (hs : ¬ p.IsSecp) :
    (b64Encode p.publicKey).length = p.derivation.b64Len := by
  obtain ⟨c, k⟩ := p
  simp only [BasicPrefix.IsSecp, not_or] at hs
  cases c <;> first
    | exact absurd rfl hs.1
    | exact absurd rfl hs.2
    | exact b64Len_of_bytes k _ _ h (by simp [Basic.rawBytes, Basic.b64Len])

private theorem SS_len (p : SelfSigningPrefix) (h : p.Sized) :
    (b64Encode p.signature).length = p.derivation.b64Len := by
  obtain ⟨c, k⟩ := p
  cases c <;> exact b64Len_of_bytes k _ _ h (by simp [SelfSigning.rawBytes, SelfSigning.b64Len])

private theorem SA_len (p : SelfAddressingPrefix) (h : p.Sized) :
    (b64Encode p.digest).length = p.derivation.b64Len := by
  obtain ⟨c, k⟩ := p
  cases c <;> exact b64Len_of_bytes k _ _ h.1 (by simp [SelfAddressing.rawBytes, SelfAddressing.b64Len])

/-- C37, public keys.  Exceptions: not secp256k1 (C35). -/
theorem C37_basic_stream (p : BasicPrefix) (h : p.Sized) (hs : ¬ p.IsSecp) (rest : Bytes) :
    basicPrefixP (p.toStr ++ rest) = .ok rest p := by
  rw [p.toStr_sized h, List.append_assoc]
  exact basicPrefixP_text _ _ _ (Basic_len p h hs)

theorem C37_selfAddressing_stream (p : SelfAddressingPrefix) (h : p.Sized) (rest : Bytes) :
    selfAddressingPrefixP (p.toStr ++ rest) = .ok rest p := by
  rw [p.toStr_sized h, List.append_assoc]
  exact selfAddressingPrefixP_text _ _ _ (SA_len p h) h.2

theorem C37_selfSigning_stream (p : SelfSigningPrefix) (h : p.Sized) (rest : Bytes) :
    selfSigningPrefixP (p.toStr ++ rest) = .ok rest p := by
  rw [p.toStr_sized h, List.append_assoc]
  exact selfSigningPrefixP_text _ _ _ (SS_len p h)

/-- C37, attached signatures.  Exceptions: index below 63 (C35). -/
theorem C37_attached_stream (p : AttachedSignaturePrefix) (h : p.signature.Sized) (hi : p.index < 63) (rest : Bytes) :
    attachedSignatureP (p.toStr ++ rest) = .ok rest p := by
  rw [p.toStr_sized h, List.append_assoc]
  exact attachedSignatureP_text _ _ _ _ hi (SS_len _ h)

/-- C37, identifiers in attachments.  Exceptions: basic and self-addressing ones only (not secp256k1);
the stream parser does not know self-signing identifiers, see `C37_selfSigning_identifier_not_streamable`. -/
theorem C37_identifier_stream (p : IdentifierPrefix) (h : p.Sized) (hs : ¬ p.IsSecp)
    (hn : ∀ q, p ≠ .selfSigning q) (rest : Bytes) : prefixP (p.toStr ++ rest) = .ok rest p := by
  unfold prefixP
  cases p with
  | basic p =>
    simp only [IdentifierPrefix.toStr]
    have h1 : selfAddressingPrefixP (p.toStr ++ rest) = .failure := by
      rw [p.toStr_sized h, List.append_assoc]; exact selfAddressingPrefixP_basic _ _
    rw [h1, C37_basic_stream p h hs]; rfl
  | selfAddressing p =>
    simp only [IdentifierPrefix.toStr]
    rw [C37_selfAddressing_stream p h]
  | selfSigning q => exact absurd rfl (hn q)

theorem C37_selfSigning_identifier_not_streamable (p : SelfSigningPrefix) (h : p.Sized) (rest : Bytes) :
    ∀ r q, prefixP (p.toStr ++ rest) ≠ .ok r q := by
  intro r q
  have h1 : selfAddressingPrefixP (p.toStr ++ rest) = .failure := by
    rw [p.toStr_sized h, List.append_assoc]; unfold selfAddressingPrefixP; cases p.derivation <;> rfl
  have h2 : basicPrefixP (p.toStr ++ rest) = .failure := by
    rw [p.toStr_sized h, List.append_assoc]; unfold basicPrefixP; cases p.derivation <;> rfl
  unfold prefixP
  rw [h1, h2]; simp [IRes.andThen]

theorem b64Decode_ascii : ∀ (s : Bytes) (k : Bytes), b64Decode s = some k → Ascii s := by
  have hv : ∀ {c : UInt8} {v}, b64Val c = some v → c < 0x80 := fun {c v} h => b64Val_ascii c (by rw [h]; rfl)
  have hq : ∀ {a b c d : UInt8} {q}, b64Quad a b c d = some q → a < 0x80 ∧ b < 0x80 ∧ c < 0x80 ∧ d < 0x80 := by
    intro a b c d q h; unfold b64Quad at h; split at h
    · rename_i ha hb hc hd; exact ⟨hv ha, hv hb, hv hc, hv hd⟩
    · cases h
  have ht : ∀ {a b c : UInt8} {q}, b64Trip a b c = some q → a < 0x80 ∧ b < 0x80 ∧ c < 0x80 := by
    intro a b c q h; unfold b64Trip at h; split at h
    · rename_i ha hb hc; exact ⟨hv ha, hv hb, hv hc⟩
    · cases h
  have hp : ∀ {a b : UInt8} {q}, b64Pair a b = some q → a < 0x80 ∧ b < 0x80 := by
    intro a b q h; unfold b64Pair at h; split at h
    · rename_i ha hb; exact ⟨hv ha, hv hb⟩
    · cases h
  intro s
  induction s using b64Decode.induct with
  | case1 a b rest h' =>
    intro k h
    have hr : rest = [] := by simpa using h'
    subst hr
    have := hp (by simpa [b64Decode] using h)
    intro x hx; simp at hx; rcases hx with rfl | rfl | rfl
    · exact this.1
    · exact this.2
    · decide
  | case2 a b c rest h' h1 =>
    intro k h
    have hr : rest = [] := by simpa using h'
    subst hr
    have := ht (by simpa [b64Decode, h1] using h)
    intro x hx; simp at hx; rcases hx with rfl | rfl | rfl | rfl
    · exact this.1
    · exact this.2.1
    · exact this.2.2
    · decide
  | case3 a b c d rest h' h1 =>
    intro k h
    have hr : rest = [] := by simpa using h'
    subst hr
    have := hq (by simpa [b64Decode, h1] using h)
    intro x hx; simp at hx; rcases hx with rfl | rfl | rfl | rfl
    · exact this.1
    · exact this.2.1
    · exact this.2.2.1
    · exact this.2.2.2
  | case4 a b c d rest h' q r hr hqq ih =>
    intro k h
    have := hq hqq
    have ih := ih r hr
    intro x hx; simp only [List.mem_cons] at hx; rcases hx with rfl | rfl | rfl | rfl | hx
    · exact this.1
    · exact this.2.1
    · exact this.2.2.1
    · exact this.2.2.2
    · exact ih x hx
  | case5 a b c d rest h' hh ih =>
    intro k h
    rw [b64Decode, if_neg h'] at h
    split at h
    · rename_i q r hq' hr
      exact absurd hr (hh q r hq')
    · cases h
  | case6 a b =>
    intro k h
    have := hp (by simpa [b64Decode] using h)
    intro x hx; simp at hx; rcases hx with rfl | rfl | rfl
    · exact this.1
    · exact this.2
    · decide
  | case7 a b c h' =>
    intro k h
    rw [b64Decode, if_neg h'] at h
    have := ht h
    intro x hx; simp at hx; rcases hx with rfl | rfl | rfl
    · exact this.1
    · exact this.2.1
    · exact this.2.2
  | case8 a b =>
    intro k h
    have := hp (by simpa [b64Decode] using h)
    intro x hx; simp at hx; rcases hx with rfl | rfl
    · exact this.1
    · exact this.2
  | case9 a => intro k h; simp [b64Decode] at h
  | case10 => intro k _; simp [Ascii]

theorem andThen_ok_inv {α β} {x : IRes α} {f : Bytes → α → IRes β} {r : Bytes} {b : β}
    (h : x.andThen f = .ok r b) : ∃ r' a, x = .ok r' a ∧ f r' a = .ok r b := by
  cases x <;> simp [IRes.andThen] at h
  exact ⟨_, _, rfl, h⟩

theorem codeParse_inv {α} {f : Bytes → Res α} {code rest r : Bytes} {a : α} (h : codeParse f code rest = .ok r a) :
    utf8Valid code = true ∧ f code = .ok a ∧ r = rest := by
  unfold codeParse at h
  split at h
  · rename_i hu
    refine ⟨hu, ?_⟩
    cases hf : f code <;> rw [hf] at h <;> simp [IRes.ofResFailure] at h
    exact ⟨by rw [h.2], h.1.symm⟩
  · cases h

theorem ofResError_inv {α} {x : Res α} {rest r : Bytes} {a : α} (h : IRes.ofResError x rest = .ok r a) :
    x = .ok a ∧ r = rest := by
  cases x <;> simp [IRes.ofResError] at h
  exact ⟨by rw [h.2], h.1.symm⟩

theorem b64DecodeRes_inv {b k : Bytes} (h : b64DecodeRes b = .ok k) : b64Decode b = some k := by
  unfold b64DecodeRes Res.ofOption at h
  split at h
  · cases h; assumption
  · cases h

/-- C37, converse: whatever the stream parser accepts as a public key is a text that the string parser reads as the same key. -/
theorem C37_basic_stream_sound (s rest : Bytes) (p : BasicPrefix) (h : basicPrefixP s = .ok rest p) :
    ∃ t, s = t ++ rest ∧ BasicPrefix.fromStr t = .ok p := by
  unfold basicPrefixP at h
  obtain ⟨_, ty, h1, h⟩ := andThen_ok_inv h
  obtain ⟨r1, codeStr, h2, h⟩ := andThen_ok_inv h
  obtain ⟨r2, code, h3, h⟩ := andThen_ok_inv h
  obtain ⟨r3, b, h4, h⟩ := andThen_ok_inv h
  obtain ⟨r4, pk, h5, h⟩ := andThen_ok_inv h
  cases h
  obtain ⟨hs1, hl1⟩ := takeN_ok_append h1
  obtain ⟨hs2, hl2⟩ := takeN_ok_append h2
  obtain ⟨-, hf, rfl⟩ := codeParse_inv h3
  obtain ⟨hs3, hl3⟩ := takeN_ok_append h4
  obtain ⟨hd, rfl⟩ := ofResError_inv h5
  have hd := b64DecodeRes_inv hd
  have hba := b64Decode_ascii _ _ hd
  obtain ⟨hcs, hcl⟩ := Basic.fromStr_inv hf
  have hcode : codeStr = code.toStr := by
    have hty : ty = codeStr.take 1 := by
      have : s.take 1 = ty := by rw [hs1, ← hl1, List.take_left]
      have h2' : s.take 1 = codeStr.take 1 := by
        rw [hs2, List.take_append_of_le_length]
        rw [hl2]; split <;> omega
      rw [← this, h2']
    have hlen : codeStr.length = code.codeLen := by
      rw [hl2]
      have hty2 : ty = code.toStr.take 1 := by
        rw [hty, ← hcs, List.take_take]; congr 1
        cases code <;> rfl
      rw [hty2]; cases code <;> rfl
    rw [← hcs, ← hlen, List.take_length]
  refine ⟨codeStr ++ b, by rw [hs2, hs3, List.append_assoc], ?_⟩
  unfold BasicPrefix.fromStr
  rw [hcode, Basic.fromStr_append _ _ hba, Res.ok_bind]
  have ha := (Basic.toStr_ascii code).append hba
  unfold decodeBody
  rw [if_pos (by rw [List.length_append, Basic.toStr_length, hl3]; rfl)]
  rw [ha.strSlice (by unfold Basic.prefixLen; omega) (by rw [List.length_append, Basic.toStr_length, hl3]; exact Nat.le_refl _)]
  have : (code.toStr ++ b).take code.prefixLen = code.toStr ++ b := by
    rw [List.take_of_length_le]
    rw [List.length_append, Basic.toStr_length, hl3]; exact Nat.le_refl _
  rw [this, ← Basic.toStr_length, List.drop_left]
  simp [Res.ofOption, hd]

/-- C37, converse for digests. -/
theorem C37_selfAddressing_stream_sound (s rest : Bytes) (p : SelfAddressingPrefix)
    (h : selfAddressingPrefixP s = .ok rest p) :
    ∃ t, s = t ++ rest ∧ SelfAddressingPrefix.fromStr t = .ok p := by
  unfold selfAddressingPrefixP at h
  obtain ⟨_, ty, h1, h⟩ := andThen_ok_inv h
  obtain ⟨r1, codeStr, h2, h⟩ := andThen_ok_inv h
  obtain ⟨r2, code, h3, h⟩ := andThen_ok_inv h
  obtain ⟨r3, b, h4, h⟩ := andThen_ok_inv h
  obtain ⟨-, hf', rfl⟩ := codeParse_inv h
  obtain ⟨-, hf, rfl⟩ := codeParse_inv h3
  obtain ⟨hs2, -⟩ := takeN_ok_append h2
  obtain ⟨hs3, -⟩ := takeN_ok_append h4
  exact ⟨codeStr ++ b, by rw [hs2, hs3, List.append_assoc], hf'⟩

example : basicPrefixP (b!"BAAAAAAAAAAAAAAAAAAAAAAAAAAAAAAAAAAAAAAAAAAA" ++ b!"more") =
    .ok b!"more" ⟨.ed25519NT, List.replicate 32 0⟩ := by decide +kernel

/-! ## C38: count and index codes -/

/-- What the count/index codec really does, for every `u16`: numbers from 63 to 4094 come back divided by 16. -/
theorem C38_exact (n : Nat) (h : n < 65536) :
    b64ToNum (numToB64 n) = .ok (if 63 ≤ n ∧ n < 4095 then n / 16 else n) := by
  by_cases h1 : n < 63
  · rw [numToB64_small n h1, b64ToNum_one n (by omega), if_neg (by omega)]
  · have hb : beBytes 2 n = [UInt8.ofNat (n / 256), UInt8.ofNat (n % 256)] := by
      simp [beBytes]; rw [Nat.mod_eq_of_lt (by omega)]
    by_cases h2 : n < 4095
    · rw [if_pos (by omega)]
      unfold numToB64
      rw [if_neg h1, if_pos h2, hb]
      simp only [b64Encode, List.take_succ_cons, List.take_zero]
      rw [UInt8.ofNat_toNat_lt _ (by omega), UInt8.ofNat_toNat_lt _ (by omega)]
      exact b64ToNum_hi12 n h
    · rw [if_neg (by omega)]
      unfold numToB64
      rw [if_neg h1, if_neg h2]
      have hl : (b64Encode (beBytes 2 n)).length = 3 := by rw [b64Encode_length, beBytes_length]
      unfold b64ToNum
      rw [hl]
      simp only
      rw [b64Decode_encode]
      simp only [beBytes_length, List.drop_zero, Nat.sub_self]
      rw [beVal_beBytes 2 n (by omega)]

/-- C38.  Exceptions: the property holds exactly outside 63..4094. -/
theorem C38_roundtrip (n : Nat) (h : n < 63 ∨ (4095 ≤ n ∧ n < 65536)) : b64ToNum (numToB64 n) = .ok n := by
  rw [C38_exact n (by omega), if_neg (by omega)]

/-- C38 fails for every number from 63 to 4094. -/
theorem C38_fails (n : Nat) (h : 63 ≤ n ∧ n < 4095) : b64ToNum (numToB64 n) ≠ .ok n := by
  rw [C38_exact n (by omega), if_pos h]
  intro hc; injection hc; omega

/-! ## C39: attached sequence numbers -/

/-- C39. -/
theorem C39_sn_roundtrip (sn : Nat) (h : sn < 2 ^ 64) (rest : Bytes) : attachedSnP (packSn sn ++ rest) = .ok rest sn :=
  attachedSnP_packSn sn h rest

example : attachedSnP (packSn (2 ^ 64 - 1) ++ b!"xyz") = .ok b!"xyz" (2 ^ 64 - 1) := by decide +kernel

/-! ## C40: attachment groups -/

def SigOk (p : AttachedSignaturePrefix) : Prop := p.signature.Sized ∧ p.index < 63
def SigsOk (l : List AttachedSignaturePrefix) : Prop := l.length < 63 ∧ ∀ p ∈ l, SigOk p
def EventSealOk (s : EventSeal) : Prop :=
  s.prefix.Sized ∧ ¬ s.prefix.IsSecp ∧ (∀ q, s.prefix ≠ .selfSigning q) ∧ s.sn < 2 ^ 64 ∧ s.eventDigest.Sized

/-- Specification of the attachment groups covered: members well sized, fewer than 63 of them. -/
def Attachment.Ok : Attachment → Prop
  | .sealSourceCouplets l => l.length < 63 ∧ ∀ s ∈ l, s.sn < 2 ^ 64 ∧ s.digest.Sized
  | .attachedSignatures l => SigsOk l
  | .receiptCouplets l => l.length < 63 ∧ ∀ x ∈ l, x.1.Sized ∧ ¬ x.1.IsSecp ∧ x.2.Sized
  | .sealSignaturesGroups l => l.length < 63 ∧ ∀ x ∈ l, EventSealOk x.1 ∧ SigsOk x.2
  | .lastEstSignaturesGroups _ => False
  | .frame _ => False

private theorem takeN2 (a b : UInt8) (t : Bytes) : takeN 2 (a :: b :: t) = .ok t [a, b] := by
  rw [show a :: b :: t = [a, b] ++ t from rfl]; exact takeN_append [a, b] t 2 rfl

theorem sigsToCesr_text (l : List AttachedSignaturePrefix) (h : l.length < 63) :
    sigsToCesr l = .ok (b!"-A" ++ [65, b64Char l.length] ++ (l.map AttachedSignaturePrefix.toStr).flatten) := by
  unfold sigsToCesr
  rw [adjust_small .MA l.length h b!"-A" (Or.inl ⟨rfl, rfl⟩)]
  rfl

theorem attachmentF_sigs (n : Nat) (l : List AttachedSignaturePrefix) (h : SigsOk l) (rest : Bytes) :
    attachmentF (n + 1) (b!"-A" ++ [65, b64Char l.length] ++ (l.map AttachedSignaturePrefix.toStr).flatten ++ rest) =
      .ok rest (.attachedSignatures l) := by
  rw [attachmentF]
  simp only [List.cons_append, List.nil_append]
  rw [takeN2, IRes.andThen_ok]
  have hu : (!utf8Valid [45, 65]) = false := by decide
  rw [hu]
  simp only [Bool.false_eq_true, if_false]
  rw [show PayloadType.tryFrom [45, 65] = some .MA from by decide]
  simp only [signaturesP]
  rw [b64CountP_small _ h.1, IRes.andThen_ok]
  have := countP_map attachedSignatureP AttachedSignaturePrefix.toStr id l rest
    (fun x hx r => C37_attached_stream x (h.2 x hx).1 (h.2 x hx).2 r)
  rw [this]
  simp

/-- C40.  Exceptions: group types `-A`, `-C`, `-F`, `-G`; the two other types are covered by the failures below. Every such group is
written without error and reads back as itself, leaving exactly the bytes that follow. -/
theorem C40_attachment_roundtrip (a : Attachment) (h : a.Ok) :
    ∃ t, a.toCesr = .ok t ∧ ∀ rest, attachmentP (t ++ rest) = .ok rest a := by
  have fuel : ∀ {t : Bytes}, 1 ≤ t.length → ∀ {rest : Bytes}, (∀ n, attachmentF (n + 2) (t ++ rest) = .ok rest a) →
      attachmentP (t ++ rest) = .ok rest a := by
    intro t ht rest hf
    unfold attachmentP
    have : (t ++ rest).length + 1 = ((t ++ rest).length - 1) + 2 := by simp; omega
    rw [this]; exact hf _
  cases a with
  | lastEstSignaturesGroups l => exact absurd h (by simp [Attachment.Ok])
  | frame l => exact absurd h (by simp [Attachment.Ok])
  | attachedSignatures l =>
    refine ⟨_, by rw [Attachment.toCesr]; exact sigsToCesr_text l h.1, fun rest => fuel (by simp) fun n => ?_⟩
    exact attachmentF_sigs (n + 1) l h rest
  | sealSourceCouplets l =>
    refine ⟨_, by
      rw [Attachment.toCesr, adjust_small .MG l.length h.1 b!"-G" (by simp)]; rfl, fun rest => fuel (by simp) fun n => ?_⟩
    rw [attachmentF]
    simp only [List.cons_append, List.nil_append]
    rw [takeN2, IRes.andThen_ok]
    rw [show (!utf8Valid [45, 71]) = false by decide]
    simp only [Bool.false_eq_true, if_false]
    rw [show PayloadType.tryFrom [45, 71] = some .MG from by decide]
    simp only [sourceSealP]
    rw [b64CountP_small _ h.1, IRes.andThen_ok]
    have := countP_map (pairP attachedSnP selfAddressingPrefixP) (fun s : SourceSeal => packSn s.sn ++ s.digest.toStr)
      (fun s => (s.sn, s.digest)) l rest (by
        intro x hx r
        have hx := h.2 x hx
        simp only [pairP, List.append_assoc]
        rw [attachedSnP_packSn _ hx.1, IRes.andThen_ok, C37_selfAddressing_stream _ hx.2]; rfl)
    rw [this]
    simp [Function.comp_def]
  | receiptCouplets l =>
    refine ⟨_, by
      rw [Attachment.toCesr, adjust_small .MC l.length h.1 b!"-C" (by simp)]; rfl, fun rest => fuel (by simp) fun n => ?_⟩
    rw [attachmentF]
    simp only [List.cons_append, List.nil_append]
    rw [takeN2, IRes.andThen_ok]
    rw [show (!utf8Valid [45, 67]) = false by decide]
    simp only [Bool.false_eq_true, if_false]
    rw [show PayloadType.tryFrom [45, 67] = some .MC from by decide]
    simp only [coupletsP]
    rw [b64CountP_small _ h.1, IRes.andThen_ok]
    have := countP_map (pairP basicPrefixP selfSigningPrefixP)
      (fun x : BasicPrefix × SelfSigningPrefix => x.1.toStr ++ x.2.toStr) id l rest (by
        intro x hx r
        have hx := h.2 x hx
        simp only [pairP, List.append_assoc]
        rw [C37_basic_stream _ hx.1 hx.2.1, IRes.andThen_ok, C37_selfSigning_stream _ hx.2.2]; rfl)
    rw [this]
    simp
  | sealSignaturesGroups l =>
    let enc : EventSeal × List AttachedSignaturePrefix → Bytes := fun x =>
      x.1.prefix.toStr ++ packSn x.1.sn ++ x.1.eventDigest.toStr ++
        (b!"-A" ++ [65, b64Char x.2.length] ++ (x.2.map AttachedSignaturePrefix.toStr).flatten)
    have hbody : ∀ l : List (EventSeal × List AttachedSignaturePrefix), (∀ x ∈ l, x.2.length < 63) →
        sealGroupsToCesr l = .ok (l.map enc).flatten := by
      intro l hl
      induction l with
      | nil => rfl
      | cons x l ih =>
        obtain ⟨sl, sigs⟩ := x
        rw [sealGroupsToCesr, sigsToCesr_text sigs (hl (sl, sigs) (by simp)), Res.ok_bind, ih (fun y hy => hl y (by simp [hy])),
          Res.ok_bind]
        simp [enc]
    refine ⟨_, by
      rw [Attachment.toCesr, hbody l (fun x hx => (h.2 x hx).2.1), Res.ok_bind,
        adjust_small .MF l.length h.1 b!"-F" (by simp)]; rfl, fun rest => fuel (by simp) fun n => ?_⟩
    rw [attachmentF]
    simp only [List.cons_append, List.nil_append]
    rw [takeN2, IRes.andThen_ok]
    rw [show (!utf8Valid [45, 70]) = false by decide]
    simp only [Bool.false_eq_true, if_false]
    rw [show PayloadType.tryFrom [45, 70] = some .MF from by decide]
    simp only
    rw [b64CountP_small _ h.1, IRes.andThen_ok]
    rw [countP_map _ enc id l rest]
    · simp
    · intro x hx r
      have hx := h.2 x hx
      obtain ⟨⟨h1, h2, h3, h4, h5⟩, h6⟩ := hx
      simp only [pairP, eventSealP, enc, List.append_assoc]
      rw [C37_identifier_stream _ h1 h2 h3, IRes.andThen_ok, attachedSnP_packSn _ h4, IRes.andThen_ok,
        C37_selfAddressing_stream _ h5, IRes.andThen_ok, IRes.andThen_ok]
      have := attachmentF_sigs n x.2 h6 r
      simp only [List.append_assoc] at this
      rw [this]
      rfl

example : (Attachment.sealSignaturesGroups [(⟨.selfAddressing ⟨.blake3_256, List.replicate 32 1⟩, 3, ⟨.blake3_256, List.replicate 32 2⟩⟩,
    [⟨0, ⟨.ed25519Sha512, List.replicate 64 3⟩⟩])]).Ok := by
  simp [Attachment.Ok, EventSealOk, IdentifierPrefix.Sized, IdentifierPrefix.IsSecp, SelfAddressingPrefix.Sized,
    SelfAddressing.rawBytes, SelfAddressing.keyless, SigsOk, SigOk, SelfSigningPrefix.Sized, SelfSigning.rawBytes]

/-- C40 fails for `-H` groups: writing any of them panics. -/
theorem C40_lastEst_write_panics (l : List (IdentifierPrefix × List AttachedSignaturePrefix)) :
    (Attachment.lastEstSignaturesGroups l).toCesr = .panic := by
  have hb : ∃ b, lastEstToCesr l = .ok b := by
    induction l with
    | nil => exact ⟨_, rfl⟩
    | cons x l ih =>
      obtain ⟨b, hb⟩ := ih
      obtain ⟨p, sigs⟩ := x
      have hs : ∃ s, sigsToCesr sigs = .ok s := ⟨_, rfl⟩
      obtain ⟨s, hs⟩ := hs
      exact ⟨_, by rw [lastEstToCesr, hs, Res.ok_bind, hb, Res.ok_bind]⟩
  obtain ⟨b, hb⟩ := hb
  rw [Attachment.toCesr, hb]; rfl

/-- C40 fails for every non-empty frame: what is written never reads back as that frame with nothing left over. -/
theorem C40_frame_never_roundtrips (l : List Attachment) (t body : Bytes) (hb : Attachment.toCesrList l = .ok body)
    (hne : body ≠ []) (ht : (Attachment.frame l).toCesr = .ok t) (a : Attachment) : attachmentP t ≠ .ok [] a := by
  have hpos : 0 < body.length := List.length_pos_iff.mpr hne
  rw [Attachment.toCesr, hb, Res.ok_bind] at ht
  generalize hn : body.length % 65536 = n at ht
  have hn' : n < 65536 := by omega
  -- a count that is read and a number of bytes after it
  have key : ∃ c d : Nat, ∃ u : Bytes, ∃ tail : Bytes, t = 45 :: 86 :: tail ∧ b64CountP tail = .ok u c ∧
      u.length = body.length + d ∧ (c * 4 > u.length ∨ c * 4 < u.length) := by
    by_cases h1 : n < 63
    · have hadj : adjustWithNum .MV n = .ok (b!"-V" ++ [65, b64Char n]) := by
        have := adjust_small .MV n h1 b!"-V" (by simp)
        rwa [Nat.mod_eq_of_lt hn'] at this
      rw [hadj, Res.ok_bind] at ht
      cases ht
      refine ⟨n, 0, body, _, rfl, b64CountP_small n h1 body, rfl, ?_⟩
      by_cases hbl : body.length < 65536
      · rw [Nat.mod_eq_of_lt hbl] at hn; left; omega
      · right; omega
    · have hE : ∃ x y z : UInt8, b64Encode (beBytes 2 n) = [x, y, z] ∧ b64ToNum [x, y] = .ok (n / 16) := by
        have hbb : beBytes 2 n = [UInt8.ofNat (n / 256), UInt8.ofNat (n % 256)] := by
          simp [beBytes]; rw [Nat.mod_eq_of_lt (by omega)]
        rw [hbb]
        refine ⟨_, _, _, rfl, ?_⟩
        rw [UInt8.ofNat_toNat_lt _ (by omega), UInt8.ofNat_toNat_lt _ (by omega)]
        exact b64ToNum_hi12 n hn'
      obtain ⟨x, y, z, hE, hnum⟩ := hE
      have hcount : ∀ u, b64CountP (x :: y :: u) = .ok u (n / 16) := by
        intro u; unfold b64CountP; rw [takeN2, IRes.andThen_ok, hnum]; rfl
      by_cases h2 : n < 4095
      · have hN : numToB64 n = [x, y] := by unfold numToB64; rw [if_neg h1, if_pos h2, hE]; rfl
        have : adjustWithNum .MV n = .ok (b!"-V" ++ [x, y]) := by simp [adjustWithNum, hN]
        rw [this, Res.ok_bind] at ht
        cases ht
        refine ⟨n / 16, 0, body, _, rfl, hcount _, rfl, ?_⟩
        have := Nat.mod_le body.length 65536
        right; omega
      · have hN : numToB64 n = [x, y, z] := by unfold numToB64; rw [if_neg h1, if_neg h2, hE]
        have : adjustWithNum .MV n = .ok (b!"-V" ++ [x, y, z]) := by simp [adjustWithNum, hN]
        rw [this, Res.ok_bind] at ht
        cases ht
        refine ⟨n / 16, 1, z :: body, _, rfl, hcount _, rfl, ?_⟩
        have := Nat.mod_le body.length 65536
        right; simp only [List.length_cons]; omega
  obtain ⟨c, d, u, tail, rfl, hcnt, hu, hlt⟩ := key
  unfold attachmentP
  rw [attachmentF, takeN2, IRes.andThen_ok]
  rw [show (!utf8Valid [45, 86]) = false by decide]
  simp only [Bool.false_eq_true, if_false]
  rw [show PayloadType.tryFrom [45, 86] = some .MV from by decide]
  simp only
  rw [hcnt, IRes.andThen_ok]
  rcases hlt with hlt | hlt
  · rw [show takeN (c * 4) u = .error by unfold takeN; rw [if_neg (by omega)]]
    simp
  · rw [show takeN (c * 4) u = .ok (u.drop (c * 4)) (u.take (c * 4)) by unfold takeN; rw [if_pos (by omega)]]
    simp only
    intro hc
    obtain ⟨ex, at', -, hc⟩ := andThen_ok_inv hc
    split at hc
    · injection hc with h1 h2
      have := congrArg List.length h1
      simp at this; omega
    · split at hc <;> cases hc

example : ∃ t body, Attachment.toCesrList [.attachedSignatures []] = .ok body ∧ body ≠ [] ∧
    (Attachment.frame [.attachedSignatures []]).toCesr = .ok t := ⟨b!"-VAE-AAA", b!"-AAA", by decide, by decide, by decide⟩

/-- The attachment parser can be crashed from the wire: any of sixteen other two-character codes reaches `todo!()`. -/
theorem attachment_parser_panics (rest : Bytes) : attachmentP (b!"-B" ++ rest) = .panic := by
  unfold attachmentP
  rw [attachmentF]
  simp only [List.cons_append, List.nil_append]
  rw [takeN2, IRes.andThen_ok]
  rfl

end Keriox
