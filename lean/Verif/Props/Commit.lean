import Verif.Props.KeyCfg
/-!
# C06: does a next-key commitment bind the next key list?

`nxt_commitment` is `digest(threshold) xor digest(key_1) xor … xor digest(key_n)`.
-/
namespace Keriox
namespace KeyConfig

/-- digests of one algorithm all have the same length (true of every hash function used) -/
def FixedLen (env : Env) (c : SelfAddressing) (n : Nat) : Prop := ∀ d, (env.digest c d).length = n

theorem xorBytes_right_comm (a b c : Bytes) : xorBytes (xorBytes a b) c = xorBytes (xorBytes a c) b := by
  unfold xorBytes
  induction a generalizing b c with
  | nil => simp
  | cons x a ih =>
    cases b with
    | nil => cases c <;> simp
    | cons y b =>
      cases c with
      | nil => simp
      | cons z c =>
        simp only [List.zipWith_cons_cons, ih b c, List.cons.injEq, and_true]
        rw [UInt8.xor_assoc, UInt8.xor_comm y z, ← UInt8.xor_assoc]

theorem xorBytes_assoc (a b c : Bytes) : xorBytes (xorBytes a b) c = xorBytes a (xorBytes b c) := by
  unfold xorBytes
  induction a generalizing b c with
  | nil => simp
  | cons x a ih =>
    cases b with
    | nil => cases c <;> simp
    | cons y b =>
      cases c with
      | nil => simp
      | cons z c => simp [ih b c, UInt8.xor_assoc]

theorem xorBytes_comm (a b : Bytes) : xorBytes a b = xorBytes b a := by
  unfold xorBytes
  induction a generalizing b with
  | nil => cases b <;> simp
  | cons x a ih => cases b <;> simp [ih, UInt8.xor_comm]

theorem xorBytes_length (a b : Bytes) (n : Nat) (ha : a.length = n) (hb : b.length = n) :
    (xorBytes a b).length = n := by
  simp [xorBytes, ha, hb]

theorem xorBytes_cancel (a b : Bytes) (h : a.length ≤ b.length) : xorBytes (xorBytes a b) b = a := by
  unfold xorBytes
  induction a generalizing b with
  | nil => simp
  | cons x a ih =>
    cases b with
    | nil => simp at h
    | cons y b =>
      simp only [List.length_cons] at h
      simp [ih b (by omega), UInt8.xor_assoc]

/-- byte string of zeros -/
def zeros (n : Nat) : Bytes := List.replicate n 0

theorem xorBytes_zeros (a : Bytes) (n : Nat) (h : a.length = n) : xorBytes a (zeros n) = a := by
  subst h
  unfold xorBytes zeros
  induction a with
  | nil => simp
  | cons x a ih => simp [List.replicate_succ, ih]

theorem xorBytes_self (a : Bytes) (n : Nat) (h : a.length = n) : xorBytes a a = zeros n := by
  subst h
  unfold xorBytes zeros
  induction a with
  | nil => simp
  | cons x a ih => rw [List.zipWith_cons_cons, ih, UInt8.xor_self, List.length_cons, List.replicate_succ]

/-- xor of the digests of the texts of a key list -/
def keyXor (env : Env) (c : SelfAddressing) (n : Nat) (keys : List BasicPrefix) : Bytes :=
  keys.foldl (fun acc k => xorBytes acc (env.digest c k.toStr)) (zeros n)

theorem foldl_xor_shift (env : Env) (c : SelfAddressing) (n : Nat) (hl : FixedLen env c n) (keys : List BasicPrefix)
    (a : Bytes) (ha : a.length = n) :
    keys.foldl (fun acc k => xorBytes acc (env.digest c k.toStr)) a = xorBytes a (keyXor env c n keys) := by
  induction keys generalizing a with
  | nil => simp [keyXor, xorBytes_zeros a n ha]
  | cons k ks ih =>
    have hz : (zeros n).length = n := by simp [zeros]
    simp only [List.foldl_cons, keyXor]
    rw [ih _ (xorBytes_length _ _ n ha (hl _)), ih _ (xorBytes_length _ _ n hz (hl _)),
      xorBytes_assoc, xorBytes_comm (zeros n), xorBytes_zeros _ n (hl _)]

theorem nxtCommitment_fold (env : Env) (t : Threshold) (keys : List BasicPrefix) (c : SelfAddressing) :
    nxtCommitment env t keys c =
      ⟨c, keys.foldl (fun acc k => xorBytes acc (env.digest c k.toStr)) (env.digest c t.commitText)⟩ := by
  unfold nxtCommitment Env.derive
  generalize env.digest c t.commitText = a
  induction keys generalizing a with
  | nil => rfl
  | cons k ks ih => simp only [List.foldl_cons]; exact ih _

theorem nxtCommitment_closed (env : Env) (t : Threshold) (keys : List BasicPrefix) (c : SelfAddressing) (n : Nat)
    (hl : FixedLen env c n) :
    nxtCommitment env t keys c = ⟨c, xorBytes (env.digest c t.commitText) (keyXor env c n keys)⟩ := by
  rw [nxtCommitment_fold, foldl_xor_shift env c n hl keys _ (hl _)]

theorem keyXor_append (env : Env) (c : SelfAddressing) (n : Nat) (hl : FixedLen env c n) (a b : List BasicPrefix) :
    keyXor env c n (a ++ b) = xorBytes (keyXor env c n a) (keyXor env c n b) := by
  have hlen : ∀ (ks : List BasicPrefix) (x : Bytes), x.length = n →
      (ks.foldl (fun acc k => xorBytes acc (env.digest c k.toStr)) x).length = n := by
    intro ks
    induction ks with
    | nil => intro x hx; exact hx
    | cons k ks ih => intro x hx; exact ih _ (xorBytes_length _ _ n hx (hl _))
  unfold keyXor
  rw [List.foldl_append, foldl_xor_shift env c n hl b _ (hlen _ _ (by simp [zeros]))]
  rfl

theorem keyXor_length (env : Env) (c : SelfAddressing) (n : Nat) (hl : FixedLen env c n) (ks : List BasicPrefix) :
    (keyXor env c n ks).length = n := by
  have hlen : ∀ (ks : List BasicPrefix) (x : Bytes), x.length = n →
      (ks.foldl (fun acc k => xorBytes acc (env.digest c k.toStr)) x).length = n := by
    intro ks
    induction ks with
    | nil => intro x hx; exact hx
    | cons k ks ih => intro x hx; exact ih _ (xorBytes_length _ _ n hx (hl _))
  exact hlen _ _ (by simp [zeros])

end KeyConfig

open KeyConfig

/-- C06: a next configuration passes `verify_next` iff there is a commitment and its digest is the xor, byte by byte, of the digest
of the threshold text and the digests of the key texts, all taken with the algorithm of the commitment. -/
theorem C06_verify_next_iff (env : Env) (cur next : KeyConfig) :
    cur.verifyNext env next = true ↔
      ∃ n, cur.nextDigest = some n ∧ n.digest =
        (next.publicKeys.map fun k => env.digest n.derivation k.toStr).foldl (List.zipWith fun a b => a ^^^ b)
          (env.digest n.derivation next.threshold.commitText) := by
  unfold KeyConfig.verifyNext KeyConfig.commit
  cases cur.nextDigest with
  | none => simp
  | some n =>
    simp only [decide_eq_true_eq, nxtCommitment_fold, Option.some.injEq, exists_eq_left']
    rw [List.foldl_map]
    obtain ⟨d, b⟩ := n
    simp only [SelfAddressingPrefix.mk.injEq, true_and]
    rfl

/-- C06, what holds: with a single next key and the same threshold, another single key passes only by a hash collision
on the key's text form (for digests of fixed length). -/
theorem C06_single_key_binds (env : Env) (c : SelfAddressing) (n : Nat) (hl : FixedLen env c n)
    (t : Threshold) (k k' : BasicPrefix)
    (h : nxtCommitment env t [k] c = nxtCommitment env t [k'] c) :
    env.digest c k.toStr = env.digest c k'.toStr := by
  rw [nxtCommitment_fold, nxtCommitment_fold] at h
  simp only [List.foldl_cons, List.foldl_nil, SelfAddressingPrefix.mk.injEq, true_and] at h
  have h2 := congrArg (fun x => xorBytes x (env.digest c t.commitText)) h
  rw [xorBytes_comm (env.digest c t.commitText), xorBytes_comm (env.digest c t.commitText),
    xorBytes_cancel _ _ (by rw [hl, hl]; exact Nat.le_refl _), xorBytes_cancel _ _ (by rw [hl, hl]; exact Nat.le_refl _)] at h2
  exact h2

/-- C06 fails: reordering the next keys never changes the commitment, for every digest function.  (The order decides
which key an index means, and which weight a key has.) -/
theorem C06_fails_order (env : Env) (t : Threshold) (ks ks' : List BasicPrefix) (c : SelfAddressing)
    (hp : ks.Perm ks') : nxtCommitment env t ks c = nxtCommitment env t ks' c := by
  rw [nxtCommitment_fold, nxtCommitment_fold]
  congr 1
  generalize env.digest c t.commitText = a
  induction hp generalizing a with
  | nil => rfl
  | cons x _ ih => exact ih _
  | swap x y l => simp only [List.foldl_cons]; rw [xorBytes_right_comm]
  | trans _ _ h1 h2 => rw [h1, h2]

/-- C06 fails: adding any key twice never changes the commitment, so a stranger's key can be added to a rotation. -/
theorem C06_fails_pairs (env : Env) (c : SelfAddressing) (n : Nat) (hl : FixedLen env c n)
    (t : Threshold) (ks : List BasicPrefix) (x : BasicPrefix) :
    nxtCommitment env t (ks ++ [x, x]) c = nxtCommitment env t ks c := by
  rw [nxtCommitment_closed env t _ c n hl, nxtCommitment_closed env t _ c n hl, keyXor_append env c n hl]
  have : keyXor env c n [x, x] = zeros n := by
    simp only [keyXor, List.foldl_cons, List.foldl_nil]
    rw [xorBytes_assoc, xorBytes_self _ n (hl _), xorBytes_zeros _ n (by simp [zeros])]
  rw [this, xorBytes_zeros _ n (keyXor_length env c n hl ks)]

/-- every byte is an xor of powers of two -/
theorem byte_span (P : UInt8 → Prop) (h0 : P 0) (hx : ∀ a b, P a → P b → P (a ^^^ b))
    (hb : ∀ j, j < 8 → P (UInt8.ofNat (2 ^ j))) : ∀ b, P b := by
  have hbit : ∀ (b : UInt8) (j : Nat), j < 8 → P (b &&& UInt8.ofNat (2 ^ j)) := by
    intro b j hj
    have hcase : b &&& UInt8.ofNat (2 ^ j) = 0 ∨ b &&& UInt8.ofNat (2 ^ j) = UInt8.ofNat (2 ^ j) := by
      have : ∀ (j : Fin 8) (n : Fin 256), UInt8.ofNat n.val &&& UInt8.ofNat (2 ^ j.val) = 0 ∨
          UInt8.ofNat n.val &&& UInt8.ofNat (2 ^ j.val) = UInt8.ofNat (2 ^ j.val) := by decide +kernel
      have h := this ⟨j, hj⟩ ⟨b.toNat, UInt8.toNat_lt b⟩
      simpa using h
    rcases hcase with h | h
    · rw [h]; exact h0
    · rw [h]; exact hb j hj
  intro b
  have hdec : b = (b &&& UInt8.ofNat (2 ^ 0)) ^^^ (b &&& UInt8.ofNat (2 ^ 1)) ^^^ (b &&& UInt8.ofNat (2 ^ 2)) ^^^
      (b &&& UInt8.ofNat (2 ^ 3)) ^^^ (b &&& UInt8.ofNat (2 ^ 4)) ^^^ (b &&& UInt8.ofNat (2 ^ 5)) ^^^
      (b &&& UInt8.ofNat (2 ^ 6)) ^^^ (b &&& UInt8.ofNat (2 ^ 7)) := by
    have : ∀ (n : Fin 256), UInt8.ofNat n.val = (UInt8.ofNat n.val &&& UInt8.ofNat (2 ^ 0)) ^^^ (UInt8.ofNat n.val &&& UInt8.ofNat (2 ^ 1)) ^^^ (UInt8.ofNat n.val &&& UInt8.ofNat (2 ^ 2)) ^^^
      (UInt8.ofNat n.val &&& UInt8.ofNat (2 ^ 3)) ^^^ (UInt8.ofNat n.val &&& UInt8.ofNat (2 ^ 4)) ^^^ (UInt8.ofNat n.val &&& UInt8.ofNat (2 ^ 5)) ^^^
      (UInt8.ofNat n.val &&& UInt8.ofNat (2 ^ 6)) ^^^ (UInt8.ofNat n.val &&& UInt8.ofNat (2 ^ 7)) := by decide +kernel
    have h := this ⟨b.toNat, UInt8.toNat_lt b⟩
    simpa using h
  rw [hdec]
  exact hx _ _ (hx _ _ (hx _ _ (hx _ _ (hx _ _ (hx _ _ (hx _ _ (hbit b 0 (by omega)) (hbit b 1 (by omega)))
    (hbit b 2 (by omega))) (hbit b 3 (by omega))) (hbit b 4 (by omega))) (hbit b 5 (by omega)))
    (hbit b 6 (by omega))) (hbit b 7 (by omega))

/-- the byte string of length `n` with byte `b` at position `i` and zeros elsewhere -/
def unitAt (n i : Nat) (b : UInt8) : Bytes := zeros i ++ b :: zeros (n - 1 - i)

theorem xor_unitAt (n i : Nat) (a b : UInt8) :
    xorBytes (unitAt n i a) (unitAt n i b) = unitAt n i (a ^^^ b) := by
  unfold xorBytes unitAt
  rw [List.zipWith_append rfl]
  have h1 := xorBytes_self (zeros i) i (by simp [zeros])
  have h2 := xorBytes_self (zeros (n - 1 - i)) (n - 1 - i) (by simp [zeros])
  unfold xorBytes at h1 h2
  rw [h1, List.zipWith_cons_cons, h2]

/-- C06 fails completely against chosen keys.  Let `mine` be keys of a stranger whose digests span the digest space
(every single-bit string is an xor of some of them; 256-bit digests of a few hundred random keys do).  Then for
every commitment whatsoever, and any threshold text, some list of the stranger's own keys (with repetitions)
opens it — the owner's next keys are not needed. -/
theorem C06_fails_chosen_keys (env : Env) (c : SelfAddressing) (n : Nat) (hl : FixedLen env c n)
    (mine : List BasicPrefix)
    (hspan : ∀ i, i < n → ∀ j, j < 8 → ∃ ks, (∀ k ∈ ks, k ∈ mine) ∧ keyXor env c n ks = unitAt n i (UInt8.ofNat (2 ^ j)))
    (target : Bytes) (ht : target.length = n) (t : Threshold) :
    ∃ ks, (∀ k ∈ ks, k ∈ mine) ∧ nxtCommitment env t ks c = ⟨c, target⟩ := by
  let Ach : Bytes → Prop := fun b => ∃ ks, (∀ k ∈ ks, k ∈ mine) ∧ keyXor env c n ks = b
  have hz : Ach (zeros n) := ⟨[], by simp, rfl⟩
  have hx : ∀ a b, Ach a → Ach b → Ach (xorBytes a b) := by
    rintro a b ⟨ka, h1, h2⟩ ⟨kb, h3, h4⟩
    refine ⟨ka ++ kb, ?_, by rw [keyXor_append env c n hl, h2, h4]⟩
    intro k hk
    rcases List.mem_append.1 hk with h | h
    · exact h1 k h
    · exact h3 k h
  have hunit : ∀ i, i < n → ∀ b, Ach (unitAt n i b) := by
    intro i hi
    apply byte_span (fun b => Ach (unitAt n i b))
    · have : unitAt n i 0 = zeros n := by
        unfold unitAt zeros
        rw [← List.replicate_succ, List.replicate_append_replicate]
        congr 1; omega
      rw [this]; exact hz
    · intro a b ha hb
      rw [← xor_unitAt n i]; exact hx _ _ ha hb
    · intro j hj; exact hspan i hi j hj
  have hall : ∀ (k : Nat) (T : Bytes), T.length = n → k ≤ n → Ach (T.take k ++ zeros (n - k)) := by
    intro k T hT
    induction k with
    | zero => intro _; simpa using hz
    | succ k ih =>
      intro hk
      have h1 := ih (by omega)
      have h2 := hunit k (by omega) T[k]
      have h3 := hx _ _ h1 h2
      have : xorBytes (T.take k ++ zeros (n - k)) (unitAt n k T[k]) = T.take (k + 1) ++ zeros (n - (k + 1)) := by
        unfold xorBytes unitAt
        rw [List.zipWith_append (by simp [zeros]; omega)]
        have e1 := xorBytes_zeros (T.take k) k (by simp; omega)
        have e2 : zeros (n - k) = 0 :: zeros (n - 1 - k) := by
          have : n - k = (n - 1 - k) + 1 := by omega
          rw [this]; rfl
        have e3 := xorBytes_zeros (zeros (n - 1 - k)) (n - 1 - k) (by simp [zeros])
        unfold xorBytes at e1 e3
        rw [e1, e2, List.zipWith_cons_cons, e3]
        have e4 : n - (k + 1) = n - 1 - k := by omega
        have e5 : T.take (k + 1) = T.take k ++ [T[k]] := by
          rw [List.take_add_one, List.getElem?_eq_getElem (by omega)]; rfl
        rw [e4, e5, List.append_assoc, List.singleton_append, UInt8.zero_xor]
      rw [this] at h3; exact h3
  obtain ⟨ks, h1, h2⟩ := hall n (xorBytes (env.digest c t.commitText) target)
    (xorBytes_length _ _ n (hl _) ht) (Nat.le_refl n)
  refine ⟨ks, h1, ?_⟩
  rw [nxtCommitment_closed env t ks c n hl, h2]
  have hlen : (xorBytes (env.digest c t.commitText) target).length = n := xorBytes_length _ _ n (hl _) ht
  have e : (xorBytes (env.digest c t.commitText) target).take n ++ zeros (n - n)
      = xorBytes (env.digest c t.commitText) target := by
    rw [List.take_of_length_le (by omega)]; simp [zeros]
  rw [e, xorBytes_comm (env.digest c t.commitText) (xorBytes _ _), xorBytes_comm (env.digest c t.commitText) target,
    xorBytes_cancel _ _ (by rw [hl, ht]; exact Nat.le_refl _)]

/-- Non-vacuity of `FixedLen` and of the attack: with the toy hash, the published commitment to `[key 1]` is
also opened by the different list `[key 1, key 9, key 9]`, signed by key 9 alone. -/
example : FixedLen toyEnv .blake3_256 32 := by intro d; simp [toyEnv]
example :
    let cur : KeyConfig := ⟨.simple 1, [toyKey 5], some (nxtCommitment toyEnv (.simple 1) [toyKey 1] .blake3_256)⟩
    let next : KeyConfig := ⟨.simple 1, [toyKey 1, toyKey 9, toyKey 9], none⟩
    cur.verifyNext toyEnv next = true ∧ next.verify toyEnv b!"rot" [toySig 9 1 b!"rot"] = .ok true := by
  decide +kernel

/-- A one-byte toy hash for which the spanning hypothesis of `C06_fails_chosen_keys` is met by eight keys. -/
def byteEnv : Env := { toyEnv with
  digest := fun _ d => [(List.range 8).foldl
    (fun a j => if d = (toyKey (UInt8.ofNat j)).toStr then UInt8.ofNat (2 ^ j) else a) 0] }
example : FixedLen byteEnv .blake3_256 1 := by intro d; rfl
example : ∀ i, i < 1 → ∀ j, j < 8 → ∃ ks,
    (∀ k ∈ ks, k ∈ (List.range 8).map fun i => toyKey (UInt8.ofNat i)) ∧
    keyXor byteEnv .blake3_256 1 ks = unitAt 1 i (UInt8.ofNat (2 ^ j)) := by
  intro i hi j hj
  obtain rfl : i = 0 := by omega
  refine ⟨[toyKey (UInt8.ofNat j)], ?_, ?_⟩
  · intro k hk
    simp at hk; subst hk
    exact List.mem_map.2 ⟨j, List.mem_range.2 hj, rfl⟩
  · have : ∀ j : Fin 8, keyXor byteEnv .blake3_256 1 [toyKey (UInt8.ofNat j.val)] =
        unitAt 1 0 (UInt8.ofNat (2 ^ j.val)) := by decide +kernel
    exact this ⟨j, hj⟩

end Keriox
