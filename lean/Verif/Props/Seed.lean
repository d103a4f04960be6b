import Verif.Seed
import Verif.PrefixFacts
import Verif.Props.Codec
/-!
# C74: seeds

Specification: `SeedPrefix.bytes` and `SeedPrefix.code` are the secret and the derivation code of a seed, written from the KERI code
table: `A` (ed25519), `J` (secp256k1), `K` (448 bits), `0A` (128 bits).
-/
namespace Keriox

/-- the secret of a seed -/
def SeedPrefix.bytes : SeedPrefix → Bytes
  | .rand128 b | .ed25519 b | .ecdsa b | .rand448 b => b

/-- the derivation code of a seed -/
def SeedPrefix.code : SeedPrefix → Bytes
  | .rand128 _ => b!"0A"
  | .ed25519 _ => b!"A"
  | .ecdsa _ => b!"J"
  | .rand448 _ => b!"K"

/-- The text of a seed is its code followed by the base64url text of the secret; an empty secret is written as the empty text. -/
theorem C74_seed_text (p : SeedPrefix) :
    p.toStr = if p.bytes = [] then [] else p.code ++ b64Encode p.bytes := by
  cases p <;> rename_i b <;> by_cases h : b = [] <;>
    simp [SeedPrefix.toStr, SeedPrefix.bytes, SeedPrefix.code, prefixText, h]

private theorem seed_code_ascii (p : SeedPrefix) : Ascii p.code := by
  cases p <;> simp only [Ascii, SeedPrefix.code] <;> decide

private theorem slice_one (c : UInt8) (t : Bytes) (h : Ascii (c :: t)) : strSlice (c :: t) 0 1 = .ok [c] := by
  rw [h.strSlice (by omega) (by simp)]; simp

private theorem slice_rest (s : Bytes) (h : Ascii s) (k : Nat) (hk : k ≤ s.length) :
    strSlice s k s.length = .ok (s.drop k) := by
  rw [h.strSlice hk (Nat.le_refl _)]; simp

/-- Every seed with a secret, of whatever length, reads back from its text. -/
theorem C74_seed_roundtrip (p : SeedPrefix) (h : p.bytes ≠ []) : SeedPrefix.fromStr p.toStr = .ok p := by
  rw [C74_seed_text, if_neg h]
  have ha : Ascii (p.code ++ b64Encode p.bytes) := (seed_code_ascii p).append (b64Encode_ascii _)
  cases p with
  | ed25519 b =>
    change SeedPrefix.fromStr (65 :: b64Encode b) = _
    change Ascii (65 :: b64Encode b) at ha
    unfold SeedPrefix.fromStr
    rw [slice_one _ _ ha, Res.ok_bind]
    simp only
    rw [if_pos trivial, slice_rest _ ha 1 (by simp)]
    simp [b64Decode_encode, Res.ofOption]
  | ecdsa b =>
    change SeedPrefix.fromStr (74 :: b64Encode b) = _
    change Ascii (74 :: b64Encode b) at ha
    unfold SeedPrefix.fromStr
    rw [slice_one _ _ ha, Res.ok_bind]
    simp only
    rw [if_neg (by decide), if_pos trivial, slice_rest _ ha 1 (by simp)]
    simp [b64Decode_encode, Res.ofOption]
  | rand448 b =>
    change SeedPrefix.fromStr (75 :: b64Encode b) = _
    change Ascii (75 :: b64Encode b) at ha
    unfold SeedPrefix.fromStr
    rw [slice_one _ _ ha, Res.ok_bind]
    simp only
    rw [if_neg (by decide), if_neg (by decide), if_pos trivial, slice_rest _ ha 1 (by simp)]
    simp [b64Decode_encode, Res.ofOption]
  | rand128 b =>
    change SeedPrefix.fromStr (48 :: 65 :: b64Encode b) = _
    change Ascii (48 :: 65 :: b64Encode b) at ha
    unfold SeedPrefix.fromStr
    rw [slice_one _ _ ha, Res.ok_bind]
    simp only
    rw [if_neg (by decide), if_neg (by decide), if_neg (by decide), if_pos trivial,
      ha.strSlice (by omega) (by simp), Res.ok_bind, if_pos (by simp), slice_rest _ ha 2 (by simp)]
    simp [b64Decode_encode, Res.ofOption]

example : SeedPrefix.bytes (.ed25519 (List.replicate 32 7)) ≠ [] := by decide
example : SeedPrefix.toStr (.rand128 [0, 1, 2]) = b!"0AAAEC" := by decide
/-- The secret must not be empty: the empty seed is written as the empty text, and reading that panics. -/
example : SeedPrefix.fromStr (SeedPrefix.toStr (.ed25519 [])) = .panic := by decide

/-- Different seeds (of any lengths) have different texts. -/
theorem C74_seed_texts_differ (p q : SeedPrefix) (hp : p.bytes ≠ []) (hq : q.bytes ≠ []) (h : p.toStr = q.toStr) : p = q := by
  have h1 := C74_seed_roundtrip p hp
  rw [h, C74_seed_roundtrip q hq] at h1
  exact (Res.ok.inj h1).symm

private theorem take_one {s h : Bytes} (hh : strSlice s 0 1 = .ok h) : h = s.take 1 := by
  have := (strSlice_ok hh).2.2
  simpa using this

private theorem rest_eq {s b : Bytes} {k : Nat} (hh : strSlice s k s.length = .ok b) : b = s.drop k := by
  have := (strSlice_ok hh).2.2
  simpa using this

/-- What the reader accepts is a code followed by base64 text of the secret it returns — and nothing else. -/
theorem C74_seed_reader_exact (s : Bytes) (p : SeedPrefix) (h : SeedPrefix.fromStr s = .ok p) :
    s.take p.code.length = p.code ∧ b64Decode (s.drop p.code.length) = some p.bytes := by
  unfold SeedPrefix.fromStr at h
  obtain ⟨hd, h1, h⟩ := Res.bind_eq_ok.mp h
  have e1 := take_one h1
  simp only at h
  have dec : ∀ k (f : Bytes → SeedPrefix),
      ((strSlice s k s.length).bind fun body => (Res.ofOption (b64Decode body) .base64Decoding).bind fun b => Res.ok (f b)) = .ok p →
        ∃ b, b64Decode (s.drop k) = some b ∧ p = f b := by
    intro k f h
    obtain ⟨body, h3, h⟩ := Res.bind_eq_ok.mp h
    obtain ⟨b, h4, h⟩ := Res.bind_eq_ok.mp h
    rw [rest_eq h3] at h4
    refine ⟨b, ?_, (Res.ok.inj h).symm⟩
    unfold Res.ofOption at h4
    split at h4
    · rename_i x hx; cases h4; exact hx
    · cases h4
  split at h
  · rename_i hA; obtain ⟨b, hb, rfl⟩ := dec 1 _ h; exact ⟨e1.symm.trans hA, hb⟩
  · split at h
    · rename_i hA; obtain ⟨b, hb, rfl⟩ := dec 1 _ h; exact ⟨e1.symm.trans hA, hb⟩
    · split at h
      · rename_i hA; obtain ⟨b, hb, rfl⟩ := dec 1 _ h; exact ⟨e1.symm.trans hA, hb⟩
      · split at h
        · rename_i h0
          obtain ⟨t, h2, h⟩ := Res.bind_eq_ok.mp h
          obtain ⟨-, hl, e2⟩ := strSlice_ok h2
          split at h
          · rename_i hA
            obtain ⟨b, hb, rfl⟩ := dec 2 _ h
            refine ⟨?_, hb⟩
            match s, hl with
            | x :: y :: s, _ =>
              simp at e1 e2
              subst e1 e2
              have : x = 48 := by simpa using h0
              have : y = 65 := by simpa using hA
              subst_vars; rfl
          · cases h
        · cases h

example : SeedPrefix.fromStr b!"J_w" = .ok (.ecdsa [255]) := by decide

/-- An accepted unpadded text whose secret is not empty is the text of what it was read as. -/
theorem C74_seed_canonical (s : Bytes) (p : SeedPrefix) (h : SeedPrefix.fromStr s = .ok p) (hp : (61 : UInt8) ∉ s)
    (hb : p.bytes ≠ []) : p.toStr = s := by
  obtain ⟨h1, h2⟩ := C74_seed_reader_exact s p h
  rw [C74_seed_text, if_neg hb, b64Encode_decode _ _ h2 (fun hm => hp (List.mem_of_mem_drop hm))]
  have h3 := List.take_append_drop p.code.length s
  rwa [h1] at h3

/-- No length is checked: three bytes are read as an ed25519 seed, and the bare code as an empty one. -/
theorem C74_seed_length_unchecked :
    SeedPrefix.fromStr b!"AAAEC" = .ok (.ed25519 [0, 1, 2]) ∧ SeedPrefix.fromStr b!"A" = .ok (.ed25519 []) := by decide

/-- The reader panics exactly on: the empty text; a text whose first character is not ASCII; and `0` alone or followed by a
non-ASCII character (`isBoundary s i = false`: position `i` is not between two characters). -/
theorem C74_seed_panics_iff (s : Bytes) :
    SeedPrefix.fromStr s = .panic ↔
      s = [] ∨ isBoundary s 1 = false ∨ (s.take 1 = b!"0" ∧ (s.length = 1 ∨ isBoundary s 2 = false)) := by
  have dec : ∀ (k : Nat), k ≤ s.length → isBoundary s k = true → ∀ f : Bytes → SeedPrefix,
      ((strSlice s k s.length).bind fun body => (Res.ofOption (b64Decode body) .base64Decoding).bind fun b => Res.ok (f b)) ≠ .panic := by
    intro k hk hb f
    have : strSlice s k s.length = .ok (s.drop k) := by
      simp [strSlice, strGet, hk, hb, isBoundary_length, Res.unwrap]
    rw [this]
    simp only [Res.bind]
    cases b64Decode (s.drop k) <;> simp [Res.ofOption]
  cases hs : s with
  | nil => simp [SeedPrefix.fromStr, strSlice, strGet, Res.unwrap]
  | cons c t =>
    rw [← hs]
    have hlen : 1 ≤ s.length := by rw [hs]; simp
    have hne : s ≠ [] := by rw [hs]; simp
    cases hb : isBoundary s 1 with
    | false =>
      have : strSlice s 0 1 = .panic := by simp [strSlice, strGet, hb, Res.unwrap]
      simp only [SeedPrefix.fromStr, this, true_or, or_true, iff_true]; rfl
    | true =>
      have h1 : strSlice s 0 1 = .ok (s.take 1) := by
        simp [strSlice, strGet, hb, Res.unwrap, hlen]; simp [isBoundary]
      unfold SeedPrefix.fromStr
      rw [h1, Res.ok_bind]
      simp only [hne, false_or, Bool.true_eq_false]
      have D := dec 1 hlen hb
      split
      · rename_i hA; exact ⟨fun h => absurd h (D _), fun h => by rw [hA] at h; exact absurd h.1 (by decide)⟩
      split
      · rename_i hA; exact ⟨fun h => absurd h (D _), fun h => by rw [hA] at h; exact absurd h.1 (by decide)⟩
      split
      · rename_i hA; exact ⟨fun h => absurd h (D _), fun h => by rw [hA] at h; exact absurd h.1 (by decide)⟩
      split
      · rename_i h0
        rw [h0]
        simp only [true_and]
        by_cases hl : s.length = 1
        · have : strSlice s 1 2 = .panic := by simp [strSlice, strGet, hl, Res.unwrap]
          rw [this]; simp [hl]
        · have hl2 : 2 ≤ s.length := by omega
          cases hb2 : isBoundary s 2 with
          | false =>
            have : strSlice s 1 2 = .panic := by simp [strSlice, strGet, hb2, Res.unwrap]
            rw [this]; simp
          | true =>
            have : strSlice s 1 2 = .ok ((s.take 2).drop 1) := by simp [strSlice, strGet, hb, hb2, hl2, Res.unwrap]
            rw [this, Res.ok_bind]
            simp only [hl, Bool.true_eq_false, or_self, iff_false]
            split
            · exact dec 2 hl2 hb2 _
            · intro h; cases h
      · rename_i h0
        refine ⟨fun h => ?_, fun h => absurd h.1 h0⟩
        cases h

example : SeedPrefix.fromStr b!"0" = .panic ∧ SeedPrefix.fromStr [0xC3, 0xA9] = .panic ∧
    SeedPrefix.fromStr b!"0B" ≠ .panic ∧ SeedPrefix.fromStr b!"Z" ≠ .panic := by decide

/-! ## Key pairs derived from seeds -/

/-- The curve libraries are honest: what a private key signs, its public key verifies. -/
structure Curves.Honest (cv : Curves) (env : Env) : Prop where
  ed : ∀ sk pk msg, cv.edPub sk = some pk → env.ed pk msg (cv.edSign sk msg) = true
  k1 : ∀ sk pk msg, cv.k1Pub sk = some pk → env.ecdsa pk msg (cv.k1Sign sk msg) = true

/-- `derive` succeeds exactly for ed25519 and secp256k1 seeds whose secret is a private key of that curve; the prefix it returns is the
public key of that secret under the code of that curve, transferable exactly when asked. -/
theorem C74_derive_exact (cv : Curves) (seed : SeedPrefix) (t : Bool) (p : BasicPrefix) :
    seed.derive cv t = .ok p ↔
      (∃ b, seed = .ed25519 b ∧ cv.edPub b = some p.publicKey ∧ p.derivation = if t then .ed25519 else .ed25519NT) ∨
      (∃ b, seed = .ecdsa b ∧ cv.k1Pub b = some p.publicKey ∧ p.derivation = if t then .ecdsa else .ecdsaNT) := by
  obtain ⟨d, k⟩ := p
  cases seed with
  | ed25519 b =>
    cases hk : cv.edPub b <;> cases t <;>
      simp [SeedPrefix.derive, SeedPrefix.deriveKeyPair, hk, Res.ofOption, and_comm, eq_comm]
  | ecdsa b =>
    cases hk : cv.k1Pub b <;> cases t <;>
      simp [SeedPrefix.derive, SeedPrefix.deriveKeyPair, hk, Res.ofOption, and_comm, eq_comm]
  | rand128 b => simp [SeedPrefix.derive, SeedPrefix.deriveKeyPair]
  | rand448 b => simp [SeedPrefix.derive, SeedPrefix.deriveKeyPair]

/-- The prefix and the private key derived from one seed belong together: with honest curve libraries, a signature made with the
private key, under the signature code of the curve, verifies against the prefix — transferable or not. -/
theorem C74_derived_keys_match (cv : Curves) (env : Env) (H : cv.Honest env) (seed : SeedPrefix) (t : Bool) (p : BasicPrefix)
    (pub priv msg : Bytes) (hp : seed.derive cv t = .ok p) (hk : seed.deriveKeyPair cv = .ok (pub, priv)) :
    p.publicKey = pub ∧ priv = seed.bytes ∧
    ((∃ b sig, seed = .ed25519 b ∧ cv.signEd priv msg = .ok sig ∧ p.verify env msg ⟨.ed25519Sha512, sig⟩ = .ok true) ∨
     (∃ b sig, seed = .ecdsa b ∧ cv.signEcdsa priv msg = .ok sig ∧ p.verify env msg ⟨.ecdsaSha256, sig⟩ = .ok true)) := by
  obtain ⟨d, k⟩ := p
  rcases (C74_derive_exact cv seed t _).mp hp with ⟨b, rfl, h1, h2⟩ | ⟨b, rfl, h1, h2⟩
  · simp only at h1 h2
    simp only [SeedPrefix.deriveKeyPair, h1, Res.ofOption, Res.ok_bind, Res.ok.injEq, Prod.mk.injEq] at hk
    obtain ⟨rfl, rfl⟩ := hk
    refine ⟨rfl, rfl, .inl ⟨b, cv.edSign b msg, rfl, by simp [Curves.signEd, h1, Res.ofOption], ?_⟩⟩
    subst h2
    cases t <;> simp [BasicPrefix.verify, H.ed b k msg h1]
  · simp only at h1 h2
    simp only [SeedPrefix.deriveKeyPair, h1, Res.ofOption, Res.ok_bind, Res.ok.injEq, Prod.mk.injEq] at hk
    obtain ⟨rfl, rfl⟩ := hk
    refine ⟨rfl, rfl, .inr ⟨b, cv.k1Sign b msg, rfl, by simp [Curves.signEcdsa, h1, Res.ofOption], ?_⟩⟩
    subst h2
    cases t <;> simp [BasicPrefix.verify, H.k1 b k msg h1]

/-- A toy curve: the public key is the reversed secret, the signature the secret followed by the message. -/
private def toy : Curves := ⟨fun b => if b.length = 2 then some b.reverse else none, fun _ => none, fun b m => b ++ m, fun _ _ => []⟩
private def toyEnv (env : Env) : Env := { env with ed := fun k m s => s == k.reverse ++ m }

example (env : Env) : toy.Honest (toyEnv env) ∧ SeedPrefix.derive toy (.ed25519 [1, 2]) false = .ok ⟨.ed25519NT, [2, 1]⟩ := by
  refine ⟨⟨?_, ?_⟩, by decide⟩
  · intro sk pk msg h
    simp only [toy] at h
    split at h
    · cases h; simp [toy, toyEnv]
    · cases h
  · intro sk pk msg h; cases h
example : SeedPrefix.derive toy (.rand448 [1, 2]) true = .err .improperPrefixType ∧
    SeedPrefix.derive toy (.ed25519 [1]) true = .err .other := by decide

end Keriox
