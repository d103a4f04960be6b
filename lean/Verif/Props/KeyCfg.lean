import Verif.ThresholdFacts
/-!
# Properties of key configurations and thresholds: C06, C20, C21, C22, C23, C53
-/
namespace Keriox

/-! ## Specification vocabulary -/

/-- A signature verifies under a key: the algorithms match and the signature predicate holds. -/
def SigValid (env : Env) (k : BasicPrefix) (msg : Bytes) (sig : SelfSigningPrefix) : Prop :=
  ((k.derivation = .ed25519 ∨ k.derivation = .ed25519NT) ∧ sig.derivation = .ed25519Sha512 ∧
      env.ed k.publicKey msg sig.signature = true) ∨
  ((k.derivation = .ecdsa ∨ k.derivation = .ecdsaNT) ∧ sig.derivation = .ecdsaSha256 ∧
      env.ecdsa k.publicKey msg sig.signature = true)

theorem verify_iff_sigValid (env : Env) (k : BasicPrefix) (msg : Bytes) (sig : SelfSigningPrefix) :
    k.verify env msg sig = .ok true ↔ SigValid env k msg sig := by
  obtain ⟨kd, kk⟩ := k
  obtain ⟨sd, ss⟩ := sig
  cases kd <;> cases sd <;> simp [BasicPrefix.verify, SigValid]

/-- The rational weight of key `i` in a clause given by (numerator, denominator) pairs. -/
def weightAt (ws : List (Nat × Nat)) (i : Nat) : Rat :=
  match ws[i]? with
  | some (n, d) => (n : Rat) / d
  | none => 0

/-- Sum of the weights of the signatures falling into the index range `[start, start + ws.length)` owned by a clause. -/
def clauseWeight (ws : List (Nat × Nat)) (start : Nat) (sigs : List AttachedSignaturePrefix) : Rat :=
  ((sigs.filter fun s => start ≤ s.index && s.index < start + ws.length).map
    fun s => weightAt ws (s.index - start)).sum

/-- Declarative meaning of a threshold given by pairs with non-zero denominators. -/
inductive ThresholdSpec where
  | atLeast (n : Nat)
  | clauses (cs : List (List (Nat × Nat)))

/-- when is a signature list enough -/
def ThresholdSpec.Met (t : ThresholdSpec) (sigs : List AttachedSignaturePrefix) : Prop :=
  match t with
  | .atLeast n => n ≤ sigs.length
  | .clauses cs => ∀ pre c post, cs = pre ++ c :: post →
      1 ≤ clauseWeight c (pre.map List.length).sum sigs

/-- the rational value of a weight -/
def Frac.rational : Frac → Rat
  | .rat n d => (n : Rat) / d
  | _ => 0

/-- the weight `n/0` -/
def Frac.Infinite : Frac → Prop
  | .inf => True
  | .rat _ d => d = 0
  | .nan => False

/-- weights add up to at least one: none of them is `0/0`, and one is infinite or the rational sum is at least one -/
def ReachesOne (ws : List Frac) : Prop := .nan ∉ ws ∧ ((∃ w ∈ ws, w.Infinite) ∨ 1 ≤ (ws.map Frac.rational).sum)

/-- what it means that signatures meet a threshold.  A number: at least that many signatures.  One list of weights: every index is in the list and the
weights at the indices reach one.  Several lists, laid end to end over the indices: the weights reach one in each of them. -/
def Threshold.MetBy (t : Threshold) (sigs : List AttachedSignaturePrefix) : Prop :=
  match t with
  | .simple n => n ≤ sigs.length
  | .single c => (∀ s ∈ sigs, s.index < c.length) ∧ ReachesOne (sigs.filterMap fun s => c[s.index]?)
  | .multi cs => ∀ before c rest, cs = before ++ c :: rest →
      ReachesOne (sigs.filterMap fun s => if s.index < before.flatten.length then none else c[s.index - before.flatten.length]?)

/-! ## The model's threshold check means that -/

theorem reachesOne_single (a : Frac) : a.geOne = true ↔ ReachesOne [a] := by
  cases a with
  | nan => simp [Frac.geOne, ReachesOne]
  | inf => simp [Frac.geOne, ReachesOne, Frac.Infinite]
  | rat n d =>
    by_cases hd : d = 0
    · subst hd; simp [Frac.geOne, ReachesOne, Frac.Infinite]
    · rw [Frac.geOne_fin (show (Frac.rat n d).Fin from hd)]
      simp only [ReachesOne, List.mem_singleton, reduceCtorEq, not_false_eq_true, true_and, exists_eq_left, Frac.Infinite, hd,
        false_or, List.map_cons, List.map_nil, List.sum_cons, List.sum_nil, Frac.rational, Frac.val, Rat.add_zero]
      exact decide_eq_true_iff

theorem reachesOne_add (a b : Frac) (ws : List Frac) : ReachesOne (a.add b :: ws) ↔ ReachesOne (a :: b :: ws) := by
  cases a with
  | nan => simp [Frac.add, ReachesOne]
  | inf =>
    cases b with
    | nan => simp [Frac.add, ReachesOne]
    | inf => simp [Frac.add, ReachesOne, Frac.Infinite]
    | rat c d => simp [Frac.add, ReachesOne, Frac.Infinite]
  | rat n m =>
    cases b with
    | nan => simp [Frac.add, ReachesOne]
    | inf => simp [Frac.add, ReachesOne, Frac.Infinite]
    | rat c d =>
      by_cases h0 : m * d = 0
      · have h1 : (Frac.add (.rat n m) (.rat c d)).Infinite := by
          simp only [Frac.add, Frac.reduce, h0, Nat.zero_div, Frac.Infinite]
        have h2 : m = 0 ∨ d = 0 := Nat.mul_eq_zero.1 h0
        have h3 : Frac.add (.rat n m) (.rat c d) ≠ .nan := by simp [Frac.add, Frac.reduce]
        constructor
        · rintro ⟨h, _⟩
          refine ⟨by simpa using fun hx => h (List.mem_cons_of_mem _ hx), .inl ?_⟩
          rcases h2 with h2 | h2
          · exact ⟨.rat n m, by simp, h2⟩
          · exact ⟨.rat c d, by simp, h2⟩
        · rintro ⟨h, _⟩
          refine ⟨?_, .inl ⟨_, List.mem_cons_self, h1⟩⟩
          intro hx
          rcases List.mem_cons.1 hx with hx | hx
          · exact h3 hx.symm
          · exact h (by simp [hx])
      · have hm : m ≠ 0 := fun h => h0 (by simp [h])
        have hd : d ≠ 0 := fun h => h0 (by simp [h])
        have hf : (Frac.add (.rat n m) (.rat c d)).Fin := Frac.add_fin (show (Frac.rat n m).Fin from hm) (show (Frac.rat c d).Fin from hd)
        have hv : (Frac.add (.rat n m) (.rat c d)).val = _ := Frac.add_val (show (Frac.rat n m).Fin from hm) (show (Frac.rat c d).Fin from hd)
        generalize Frac.add (.rat n m) (.rat c d) = f at hf hv
        cases f with
        | nan => cases hf
        | inf => cases hf
        | rat x y =>
          simp only [Frac.val] at hv
          have hy : y ≠ 0 := hf
          simp only [ReachesOne, List.mem_cons, reduceCtorEq, false_or, List.map_cons, List.sum_cons, Frac.rational, hv, exists_eq_or_imp,
            Frac.Infinite, hm, hd, hy, Rat.add_assoc]

theorem reachesOne_zero (ws : List Frac) : ReachesOne (Frac.zero :: ws) ↔ ReachesOne ws := by
  have : (Frac.zero).rational = 0 := by simp [Frac.zero, Frac.rational]; grind
  simp only [ReachesOne, List.mem_cons, exists_eq_or_imp, List.map_cons, List.sum_cons, this, Rat.zero_add]
  simp [Frac.zero, Frac.Infinite]

/-- the model's running sum -/
theorem clauseSum_reaches (c : List Frac) (start : Nat) (sigs : List AttachedSignaturePrefix) (acc : Frac) :
    (∃ f, Threshold.clauseSum c start sigs acc = .ok f ∧ f.geOne = true) ↔
      (∀ s ∈ sigs, s.index - start < c.length) ∧ ReachesOne (acc :: sigs.filterMap fun s => c[s.index - start]?) := by
  induction sigs generalizing acc with
  | nil => simp [Threshold.clauseSum, reachesOne_single]
  | cons s ss ih =>
    rw [Threshold.clauseSum]
    cases hc : c[s.index - start]? with
    | none =>
      have := List.getElem?_eq_none_iff.1 hc
      simp only [reduceCtorEq, false_and, exists_false, false_iff, not_and]
      intro h
      have := h s (by simp)
      omega
    | some w =>
      have hlt : s.index - start < c.length := by
        rw [List.getElem?_eq_some_iff] at hc; exact hc.1
      simp only [ih, List.filterMap_cons, hc, reachesOne_add, List.mem_cons, forall_eq_or_imp, hlt, true_and]

theorem clauseEnough_iff (c : List Frac) (start : Nat) (sigs : List AttachedSignaturePrefix) :
    Threshold.clauseEnough c start sigs = .ok true ↔
      (∀ s ∈ sigs, s.index - start < c.length) ∧ ReachesOne (sigs.filterMap fun s => c[s.index - start]?) := by
  rw [← reachesOne_zero, ← clauseSum_reaches]
  unfold Threshold.clauseEnough
  cases Threshold.clauseSum c start sigs Frac.zero <;> simp

theorem segment_weights (c : List Frac) (start : Nat) (sigs : List AttachedSignaturePrefix) :
    ((sigs.filter fun s => start ≤ s.index && s.index < start + c.length).filterMap fun s => c[s.index - start]?) =
      sigs.filterMap fun s => if s.index < start then none else c[s.index - start]? := by
  induction sigs with
  | nil => rfl
  | cons s ss ih =>
    rw [List.filter_cons]
    by_cases h1 : start ≤ s.index
    · by_cases h2 : s.index < start + c.length
      · rw [if_pos (by simp [h1, h2]), List.filterMap_cons, List.filterMap_cons, ih, if_neg (by omega)]
      · rw [if_neg (by simp [h2]), ih, List.filterMap_cons, if_neg (by omega), List.getElem?_eq_none (by omega)]
    · rw [if_neg (by simp [h1]), ih, List.filterMap_cons, if_pos (by omega)]

theorem multiEnough_iff (sigs : List AttachedSignaturePrefix) (cs : List (List Frac)) (start : Nat) :
    Threshold.multiEnough sigs cs start true = .ok true ↔ ∀ before c rest, cs = before ++ c :: rest →
      ReachesOne (sigs.filterMap fun s => if s.index < start + before.flatten.length then none else c[s.index - (start + before.flatten.length)]?) := by
  induction cs generalizing start with
  | nil => simp [Threshold.multiEnough]
  | cons c cs ih =>
    rw [Threshold.multiEnough]
    simp only [↓reduceIte]
    have hce := clauseEnough_iff c start (sigs.filter fun s => start ≤ s.index && s.index < start + c.length)
    rw [segment_weights] at hce
    have hin : ∀ s ∈ (sigs.filter fun s => start ≤ s.index && s.index < start + c.length), s.index - start < c.length := by
      intro s hs; simp at hs; omega
    simp only [iff_true_intro hin, true_and] at hce
    cases h : Threshold.clauseEnough c start (sigs.filter fun s => start ≤ s.index && s.index < start + c.length) with
    | err e => exact absurd h (by
        unfold Threshold.clauseEnough
        have := Threshold.clauseSum_not_err c start (sigs.filter fun s => start ≤ s.index && s.index < start + c.length) Frac.zero
        intro hx
        cases hy : Threshold.clauseSum c start (sigs.filter fun s => start ≤ s.index && s.index < start + c.length) Frac.zero with
        | ok a => rw [hy] at hx; cases hx
        | panic => rw [hy] at hx; cases hx
        | err e => exact this e hy)
    | panic =>
      rw [Threshold.clauseEnough_panic] at h
      obtain ⟨s, hs, hx⟩ := h
      have := hin s hs
      omega
    | ok b =>
      rw [h] at hce
      simp only [Res.ok_bind]
      cases b with
      | false =>
        rw [Threshold.multiEnough_false]
        simp only [Res.ok.injEq, Bool.false_eq_true, false_iff] at hce ⊢
        intro hall
        exact hce (by simpa using hall [] c cs rfl)
      | true =>
        have hce := hce.1 rfl
        rw [ih]
        constructor
        · intro hall before c' rest e
          cases before with
          | nil => simp at e; obtain ⟨rfl, rfl⟩ := e; simpa using hce
          | cons p before =>
            simp at e; obtain ⟨rfl, rfl⟩ := e
            have := hall before c' rest rfl
            simpa [Nat.add_assoc] using this
        · intro hall before c' rest e
          have := hall (c :: before) c' rest (by simp [e])
          simpa [Nat.add_assoc] using this

/-- `enough_signatures` answers `true` exactly when the threshold is met -/
theorem enough_iff (t : Threshold) (sigs : List AttachedSignaturePrefix) : t.enough sigs = .ok true ↔ t.MetBy sigs := by
  cases t with
  | simple n => simp [Threshold.enough, Threshold.MetBy]
  | single c =>
    rw [Threshold.enough, clauseEnough_iff]
    simp only [Nat.sub_zero]
    exact Iff.rfl
  | multi cs =>
    rw [Threshold.enough, multiEnough_iff]
    simp only [Nat.zero_add]
    exact Iff.rfl

/-- only a zero threshold and an empty list of clauses are met by no signatures at all -/
theorem metBy_nil (t : Threshold) : t.MetBy [] ↔ t = .simple 0 ∨ t = .multi [] := by
  have h0 : ¬ ReachesOne [] := by
    rintro ⟨_, ⟨w, hw, _⟩ | h⟩
    · cases hw
    · exact absurd h (by simp only [List.map_nil, List.sum_nil]; decide)
  cases t with
  | simple n => simp [Threshold.MetBy]
  | single c => simp [Threshold.MetBy, h0]
  | multi cs =>
    simp only [Threshold.MetBy, List.filterMap_nil, h0, reduceCtorEq, false_or, Threshold.multi.injEq]
    constructor
    · intro h
      cases cs with
      | nil => rfl
      | cons c cs => exact (h [] c cs rfl).elim
    · rintro rfl before c rest h
      cases before <;> cases h

/-! ## C20 -/

/-- C20: `KeyConfig::verify` answers `Ok(true)` exactly for: threshold met, indices distinct and in range,
not more signatures than keys, every signature valid under the key it names. -/
theorem C20_verify_exact (env : Env) (kc : KeyConfig) (msg : Bytes) (sigs : List AttachedSignaturePrefix) :
    kc.verify env msg sigs = .ok true ↔
      kc.threshold.MetBy sigs ∧
      (sigs.map (·.index)).Nodup ∧
      sigs.length ≤ kc.publicKeys.length ∧
      ∀ s ∈ sigs, ∃ k, kc.publicKeys[s.index]? = some k ∧ SigValid env k msg s.signature := by
  rw [KeyConfig.verify_true_iff, enough_iff]
  simp only [verify_iff_sigValid]
  constructor
  · rintro ⟨h1, h2, h3⟩
    refine ⟨h1, h2, ?_, h3⟩
    have := KeyConfig.nodup_length_le (sigs.map (·.index)) kc.publicKeys.length h2 (by
      intro x hx
      obtain ⟨s, hs, rfl⟩ := List.mem_map.1 hx
      obtain ⟨k, hk, _⟩ := h3 s hs
      rw [List.getElem?_eq_some_iff] at hk; exact hk.1)
    simpa using this
  · rintro ⟨h1, h2, _, h3⟩; exact ⟨h1, h2, h3⟩

/-- C20, the refusal for lack of signatures: unless it panics (C23), verification reports that signatures are missing exactly when the threshold is
not met. -/
theorem C20_not_enough (env : Env) (kc : KeyConfig) (msg : Bytes) (sigs : List AttachedSignaturePrefix) (hp : kc.verify env msg sigs ≠ .panic) :
    kc.verify env msg sigs = .err .notEnoughSigs ↔ ¬ kc.threshold.MetBy sigs := by
  rw [← enough_iff]
  unfold KeyConfig.verify at hp ⊢
  cases he : kc.threshold.enough sigs with
  | err e => exact absurd he (Threshold.enough_not_err _ _ _)
  | panic => rw [he] at hp; exact absurd rfl hp
  | ok b =>
    cases b with
    | false => simp
    | true =>
      simp only [Res.ok_bind, Bool.not_true, Bool.false_eq_true, if_false, not_true, iff_false]
      cases hv : kc.validSet sigs with
      | panic => simp
      | err e =>
        unfold KeyConfig.validSet at hv
        split at hv
        · cases hc : KeyConfig.countIdx (List.replicate kc.publicKeys.length 0) sigs with
          | ok a => rw [hc] at hv; cases hv
          | panic => rw [hc] at hv; cases hv
          | err e' =>
            exfalso
            clear hv hp he; rename_i hlen; clear hlen
            generalize List.replicate kc.publicKeys.length 0 = cs at hc
            induction sigs generalizing cs with
            | nil => cases hc
            | cons s ss ih =>
              rw [KeyConfig.countIdx] at hc
              split at hc
              · cases hc
              · exact ih _ hc
        · cases hv
      | ok v =>
        cases v with
        | false => simp
        | true =>
          simp only [Res.ok_bind, if_true]
          have hk : ∀ k : BasicPrefix, ∀ sig, k.verify env msg sig ≠ .err .notEnoughSigs := by
            intro k sig
            obtain ⟨kd, kk⟩ := k
            obtain ⟨sd, ss⟩ := sig
            cases kd <;> cases sd <;> simp [BasicPrefix.verify]
          have hstep : ∀ s (r : Res Bool), r ≠ .err .notEnoughSigs → KeyConfig.sigStep env kc.publicKeys msg s r ≠ .err .notEnoughSigs := by
            intro s r hr
            unfold KeyConfig.sigStep
            split
            · split
              · simp
              · exact hk _ _
            · exact hr
          have : ∀ r : Res Bool, r ≠ .err .notEnoughSigs → KeyConfig.verifySigs env kc.publicKeys msg sigs r ≠ .err .notEnoughSigs := by
            clear hv hp he
            induction sigs with
            | nil => exact fun r hr => hr
            | cons s ss ih => exact fun r hr => ih _ (hstep s r hr)
          exact this _ (by simp)

/-- A toy environment in which a signature of `m` by key `k` is `k ++ m`, used for non-vacuity examples. -/
def toyEnv : Env where
  digest := fun _ d => (List.range 32).map fun i => d.foldl (fun a b => a * 31 + b + UInt8.ofNat i) 7
  ed := fun k m s => decide (s = k ++ m)
  ecdsa := fun k m s => decide (s = k ++ m ++ [1])
  cbor := fun v => some (jsonText v)
  mgpk := fun v => some (jsonText v)
  timeText := fun t _ => decStr t.toNat

/-- toy key number `i` -/
def toyKey (i : UInt8) : BasicPrefix := ⟨.ed25519, List.replicate 32 i⟩
/-- toy indexed signature of key `i` at position `idx` -/
def toySig (i : UInt8) (idx : Nat) (m : Bytes) : AttachedSignaturePrefix :=
  ⟨idx, ⟨.ed25519Sha512, List.replicate 32 i ++ m⟩⟩

example : (KeyConfig.mk (.simple 2) [toyKey 1, toyKey 2, toyKey 3] none).verify toyEnv b!"hello"
    [toySig 3 2 b!"hello", toySig 1 0 b!"hello"] = .ok true := by decide +kernel
example : (KeyConfig.mk (.simple 2) [toyKey 1, toyKey 2, toyKey 3] none).verify toyEnv b!"hello"
    [toySig 3 2 b!"hello", toySig 1 1 b!"hello"] = .ok false := by decide +kernel
example : (KeyConfig.mk (.simple 2) [toyKey 1, toyKey 2, toyKey 3] none).verify toyEnv b!"hello"
    [toySig 3 2 b!"hello"] = .err .notEnoughSigs := by decide +kernel

/-! ## C21 -/

theorem cval_weightAt (ws : List (Nat × Nat)) (hd : ∀ p ∈ ws, p.2 ≠ 0) (i : Nat) :
    Threshold.cval (ws.map fun p => Frac.new p.1 p.2) i = weightAt ws i := by
  unfold Threshold.cval weightAt
  rw [List.getElem?_map]
  cases h : ws[i]? with
  | none => rfl
  | some p =>
    simp only [Option.map_some]
    exact Frac.new_val _ _ (hd p (List.mem_of_getElem? h))

theorem map_new_fin (ws : List (Nat × Nat)) (hd : ∀ p ∈ ws, p.2 ≠ 0) :
    ∀ w ∈ (ws.map fun p => Frac.new p.1 p.2), w.Fin := by
  intro w hw
  obtain ⟨p, hp, rfl⟩ := List.mem_map.1 hw
  exact Frac.new_fin _ _ (hd p hp)

/-- C21, C22 of every threshold: `enough_signatures` says yes exactly when the threshold is met. -/
theorem C21_exact (t : Threshold) (sigs : List AttachedSignaturePrefix) : t.enough sigs = .ok true ↔ t.MetBy sigs := enough_iff t sigs

example : (Threshold.simple 2).MetBy [toySig 1 0 [], toySig 1 1 []] ∧ ¬ (Threshold.simple 3).MetBy [toySig 1 0 [], toySig 1 1 []] := by
  simp [Threshold.MetBy]

/-- C21 for one clause: the exact answer, given signatures whose index is in the clause. -/
theorem C21_single_clause (ws : List (Nat × Nat)) (hd : ∀ p ∈ ws, p.2 ≠ 0)
    (sigs : List AttachedSignaturePrefix) (hi : ∀ s ∈ sigs, s.index < ws.length) :
    (Threshold.singleWeighted ws).enough sigs = .ok true ↔ ThresholdSpec.Met (.clauses [ws]) sigs := by
  rw [Threshold.singleWeighted, Threshold.enough,
    Threshold.clauseEnough_fin _ _ (map_new_fin ws hd) _ (by simpa using hi)]
  simp only [Nat.sub_zero, Res.ok.injEq, decide_eq_true_eq, ThresholdSpec.Met]
  have hfil : (sigs.filter fun s => 0 ≤ s.index && s.index < 0 + ws.length) = sigs := by
    rw [List.filter_eq_self]; intro s hs; simpa using hi s hs
  constructor
  · intro h pre c post e
    cases pre with
    | nil =>
      simp at e; obtain ⟨rfl, rfl⟩ := e
      simp only [List.map_nil, List.sum_nil, clauseWeight, hfil, Nat.sub_zero]
      simpa [cval_weightAt ws hd] using h
    | cons p pre => simp at e
  · intro h
    have := h [] ws [] rfl
    simp only [List.map_nil, List.sum_nil, clauseWeight, hfil, Nat.sub_zero] at this
    simpa [cval_weightAt ws hd] using this

/-- C21 for several clauses: clauses own consecutive index ranges, every clause must reach weight one.
No restriction on the indices. -/
theorem C21_multi_clause (wss : List (List (Nat × Nat))) (hd : ∀ ws ∈ wss, ∀ p ∈ ws, p.2 ≠ 0)
    (sigs : List AttachedSignaturePrefix) :
    (Threshold.multiWeighted wss).enough sigs = .ok true ↔ ThresholdSpec.Met (.clauses wss) sigs := by
  rw [Threshold.multiWeighted, Threshold.enough, Threshold.multiEnough_true_iff]
  · simp only [Nat.zero_add, ThresholdSpec.Met]
    have conv : ∀ (pre : List (List (Nat × Nat))) c, (∀ p ∈ c, p.2 ≠ 0) →
        ((sigs.filter (Threshold.inSeg (Threshold.flatLen (pre.map fun c => c.map fun p => Frac.new p.1 p.2))
            (c.map fun p => Frac.new p.1 p.2).length)).map
          fun s => Threshold.cval (c.map fun p => Frac.new p.1 p.2)
            (s.index - Threshold.flatLen (pre.map fun c => c.map fun p => Frac.new p.1 p.2))).sum
        = clauseWeight c (pre.map List.length).sum sigs := by
      intro pre c hc
      have hl : Threshold.flatLen (pre.map fun c => c.map fun p => Frac.new p.1 p.2) = (pre.map List.length).sum := by
        simp [Threshold.flatLen, Function.comp_def]
      rw [hl, clauseWeight]
      simp only [cval_weightAt c hc, List.length_map]
      rfl
    constructor
    · intro h pre c post e
      rw [← conv pre c (hd c (by simp [e]))]
      exact h _ _ (post.map fun c => c.map fun p => Frac.new p.1 p.2) (by simp [e])
    · intro h pre c post e
      obtain ⟨pre', t', rfl, rfl, e2⟩ := List.map_eq_append_iff.1 e
      obtain ⟨c', post', rfl, rfl, rfl⟩ := List.map_eq_cons_iff.1 e2
      rw [conv pre' c' (hd c' (by simp))]
      exact h pre' c' post' rfl
  · intro c hc w hw
    obtain ⟨ws, hws, rfl⟩ := List.mem_map.1 hc
    exact map_new_fin ws (hd ws hws) w hw

/-- C21: the multi-clause check always answers, so "not enough" is the only other answer. -/
theorem C21_multi_total (wss : List (List Frac)) (sigs : List AttachedSignaturePrefix) :
    ∃ b, (Threshold.multi wss).enough sigs = .ok b := Threshold.multiEnough_noPanic _ _ _ _

theorem reachesOne_perm {ws ws' : List Frac} (h : ws.Perm ws') (hr : ReachesOne ws) : ReachesOne ws' := by
  have hsum : ∀ (l l' : List Rat), l.Perm l' → l.sum = l'.sum := by
    intro l l' h
    induction h with
    | nil => rfl
    | cons x _ ih => simp [ih]
    | swap x y l => simp; grind
    | trans _ _ h1 h2 => rw [h1, h2]
  refine ⟨fun hx => hr.1 (h.mem_iff.2 hx), ?_⟩
  rcases hr.2 with ⟨w, hw, hi⟩ | hs
  · exact .inl ⟨w, h.mem_iff.1 hw, hi⟩
  · exact .inr (by rw [← hsum _ _ (h.map _)]; exact hs)

theorem metBy_perm {t : Threshold} {sigs sigs' : List AttachedSignaturePrefix} (hp : sigs.Perm sigs') (h : t.MetBy sigs) : t.MetBy sigs' := by
  cases t with
  | simple n => exact Nat.le_trans h (Nat.le_of_eq hp.length_eq)
  | single c => exact ⟨fun s hs => h.1 s (hp.mem_iff.2 hs), reachesOne_perm (hp.filterMap _) h.2⟩
  | multi cs => exact fun before c rest e => reachesOne_perm (hp.filterMap _) (h before c rest e)

/-- the panic of a single clause, for every threshold -/
theorem enough_panic_iff (t : Threshold) (sigs : List AttachedSignaturePrefix) :
    t.enough sigs = .panic ↔ ∃ c, t = .single c ∧ ∃ s ∈ sigs, c.length ≤ s.index := by
  cases t with
  | simple n => simp [Threshold.enough]
  | single c => simp [Threshold.enough, Threshold.clauseEnough_panic]
  | multi cs =>
    obtain ⟨b, hb⟩ := Threshold.multiEnough_noPanic sigs cs 0 true
    simp [Threshold.enough, hb]

/-- C21: order of the signatures does not matter. -/
theorem C21_order_independent (t : Threshold) (sigs sigs' : List AttachedSignaturePrefix) (hp : sigs.Perm sigs') :
    t.enough sigs = t.enough sigs' := by
  have h1 : t.enough sigs = .ok true ↔ t.enough sigs' = .ok true := by
    rw [enough_iff, enough_iff]; exact ⟨metBy_perm hp, metBy_perm hp.symm⟩
  have h2 : t.enough sigs = .panic ↔ t.enough sigs' = .panic := by
    rw [enough_panic_iff, enough_panic_iff]; simp only [hp.mem_iff]
  have h3 := Threshold.enough_not_err t sigs
  have h4 := Threshold.enough_not_err t sigs'
  cases ha : t.enough sigs with
  | err e => exact absurd ha (h3 e)
  | panic => exact (h2.1 ha).symm
  | ok b =>
    cases hb : t.enough sigs' with
    | err e => exact absurd hb (h4 e)
    | panic => rw [h2.2 hb] at ha; cases ha
    | ok b' => rw [ha, hb] at h1; cases b <;> cases b' <;> simp_all

/-- C21 fails for one clause when an index lies outside it: the check panics instead of answering. -/
theorem C21_fails_single_clause_out_of_range (c : List Frac) (sigs : List AttachedSignaturePrefix)
    (h : ∃ s ∈ sigs, c.length ≤ s.index) : (Threshold.single c).enough sigs = .panic := by
  rw [Threshold.enough, Threshold.clauseEnough_panic]; simpa using h

/-- C21 at the excluded point: a weight with denominator zero ("1/0") is worth infinity: that signer alone suffices. -/
theorem C21_zero_denominator_is_infinite (pre post : List Frac) (n : Nat) (hn : n ≠ 0) (sig : SelfSigningPrefix) :
    (Threshold.single (pre ++ Frac.new n 0 :: post)).enough [⟨pre.length, sig⟩] = .ok true := by
  have h : Frac.new n 0 = .inf := by simp [Frac.new, hn]
  simp [Threshold.enough, Threshold.clauseEnough, Threshold.clauseSum, h, Frac.zero, Frac.add, Frac.geOne]

example : (∀ ws ∈ [[(1, 2), (1, 2), (1, 4)], [(1, 1)]], ∀ p ∈ ws, p.2 ≠ 0) ∧
    (Threshold.multiWeighted [[(1, 2), (1, 2), (1, 4)], [(1, 1)]]).enough
      [toySig 1 0 [], toySig 1 1 [], toySig 1 3 []] = .ok true ∧
    (Threshold.multiWeighted [[(1, 2), (1, 2), (1, 4)], [(1, 1)]]).enough
      [toySig 1 0 [], toySig 1 2 [], toySig 1 3 []] = .ok false := by decide +kernel

/-! ## C22 -/

theorem sum_sublist_le {l l' : List Rat} (h : l.Sublist l') (hn : ∀ x ∈ l', 0 ≤ x) : l.sum ≤ l'.sum := by
  induction h with
  | slnil => exact Rat.le_refl
  | cons a _ ih =>
    have := ih (fun x hx => hn x (by simp [hx]))
    have := hn a (by simp)
    simp; grind
  | cons_cons a _ ih =>
    have := ih (fun x hx => hn x (by simp [hx]))
    simp; grind

theorem weightAt_nonneg (ws : List (Nat × Nat)) (i : Nat) : 0 ≤ weightAt ws i := by
  unfold weightAt
  split
  · rename_i n d _
    exact Frac.val_nonneg (.rat n d)
  · exact Rat.le_refl

/-- the declarative meaning is monotone -/
theorem Met_mono (t : ThresholdSpec) {sigs sigs' : List AttachedSignaturePrefix} (h : sigs.Sublist sigs')
    (hm : t.Met sigs) : t.Met sigs' := by
  cases t with
  | atLeast n => exact Nat.le_trans hm h.length_le
  | clauses cs =>
    intro pre c post e
    refine Rat.le_trans (hm pre c post e) ?_
    apply sum_sublist_le ((h.filter _).map _)
    intro x hx
    obtain ⟨s, _, rfl⟩ := List.mem_map.1 hx
    exact weightAt_nonneg _ _

/-- the weights of a threshold -/
def Threshold.weights : Threshold → List Frac
  | .simple _ => []
  | .single c => c
  | .multi cs => cs.flatten

theorem reachesOne_sublist {ws ws' : List Frac} (h : ws.Sublist ws') (hn : .nan ∉ ws') (hr : ReachesOne ws) : ReachesOne ws' := by
  refine ⟨hn, ?_⟩
  rcases hr.2 with ⟨w, hw, hi⟩ | hs
  · exact .inl ⟨w, h.subset hw, hi⟩
  · refine .inr (Rat.le_trans hs (sum_sublist_le (h.map _) ?_))
    intro x hx
    obtain ⟨w, _, rfl⟩ := List.mem_map.1 hx
    exact Frac.val_nonneg w

/-- C22: if no weight is 0/0 and (for a single clause) every index has a weight, additional signatures never turn a satisfied threshold into an
unsatisfied one. -/
theorem C22_monotone (t : Threshold) (hw : .nan ∉ t.weights) {sigs sigs' : List AttachedSignaturePrefix} (h : sigs.Sublist sigs')
    (hi : ∀ c, t = .single c → ∀ s ∈ sigs', s.index < c.length) (hm : t.enough sigs = .ok true) : t.enough sigs' = .ok true := by
  rw [enough_iff] at *
  cases t with
  | simple n => exact Nat.le_trans hm h.length_le
  | single c =>
    refine ⟨hi c rfl, reachesOne_sublist (h.filterMap _) ?_ hm.2⟩
    intro hx
    obtain ⟨s, _, hs⟩ := List.mem_filterMap.1 hx
    exact hw (List.mem_of_getElem? hs)
  | multi cs =>
    intro before c rest e
    refine reachesOne_sublist (h.filterMap _) ?_ (hm before c rest e)
    intro hx
    obtain ⟨s, _, hs⟩ := List.mem_filterMap.1 hx
    split at hs
    · cases hs
    · exact hw (by rw [e]; exact List.mem_flatten.2 ⟨c, by simp, List.mem_of_getElem? hs⟩)

/-- C22 at the other excluded point: an additional signature whose index has no weight in a single clause stops the check with a panic. -/
theorem C22_fails_out_of_range (c : List Frac) (sigs : List AttachedSignaturePrefix) (i : Nat) (sig : SelfSigningPrefix) (h : c.length ≤ i) :
    (Threshold.single c).enough (sigs ++ [⟨i, sig⟩]) = .panic :=
  (enough_panic_iff _ _).2 ⟨c, rfl, ⟨i, sig⟩, by simp, h⟩

/-- C22 fails for the weight 0/0: an additional signature turns a satisfied threshold into an unsatisfied one. -/
theorem C22_fails_for_zero_over_zero :
    (Threshold.singleWeighted [(1, 1), (0, 0)]).enough [toySig 1 0 []] = .ok true ∧
    (Threshold.singleWeighted [(1, 1), (0, 0)]).enough [toySig 1 0 [], toySig 2 1 []] = .ok false := by
  decide +kernel

example : [toySig 1 0 []].Sublist [toySig 1 0 [], toySig 2 1 []] ∧
    (Threshold.singleWeighted [(1, 1), (1, 3)]).enough [toySig 1 0 []] = .ok true := by
  refine ⟨?_, by decide +kernel⟩
  exact List.Sublist.cons_cons _ (List.Sublist.cons _ List.Sublist.slnil)

/-! ## C23 -/

/-- C23, exact: `KeyConfig::verify` panics iff a signature index lies outside a single-clause weight list, or the
threshold is met by not more signatures than keys while some index is not the position of a key. -/
theorem C23_panic_exact (env : Env) (kc : KeyConfig) (msg : Bytes) (sigs : List AttachedSignaturePrefix) :
    kc.verify env msg sigs = .panic ↔
      (∃ c, kc.threshold = .single c ∧ ∃ s ∈ sigs, c.length ≤ s.index) ∨
      (kc.threshold.MetBy sigs ∧ sigs.length ≤ kc.publicKeys.length ∧
        ∃ s ∈ sigs, kc.publicKeys.length ≤ s.index) := by
  rw [← enough_iff]
  have hen : kc.threshold.enough sigs = .panic ↔ ∃ c, kc.threshold = .single c ∧ ∃ s ∈ sigs, c.length ≤ s.index := by
    cases ht : kc.threshold with
    | simple n => simp [Threshold.enough]
    | single c => simp [Threshold.enough, Threshold.clauseEnough_panic]
    | multi cs =>
      obtain ⟨b, hb⟩ := C21_multi_total cs sigs
      rw [hb]; simp
  rw [← hen]
  unfold KeyConfig.verify
  cases he : kc.threshold.enough sigs with
  | panic => simp
  | err e => exact absurd he (Threshold.enough_not_err _ _ _)
  | ok b =>
    cases b with
    | false => simp
    | true =>
      simp only [Res.ok_bind, Bool.not_true, Bool.false_eq_true, ↓reduceIte, reduceCtorEq, true_and, false_or]
      unfold KeyConfig.validSet
      by_cases hl : sigs.length ≤ kc.publicKeys.length
      · rw [if_pos hl]
        have hp := KeyConfig.countIdx_panic (List.replicate kc.publicKeys.length 0) sigs
        simp only [List.length_replicate] at hp
        simp only [hl, true_and, ← hp]
        cases hc : KeyConfig.countIdx (List.replicate kc.publicKeys.length 0) sigs with
        | panic => simp
        | err e => simp
        | ok c =>
          simp only [Res.ok_bind, reduceCtorEq, iff_false]
          split
          · exact KeyConfig.verifySigs_noPanic _ _ _ _ _ (by simp)
          · simp
      · rw [if_neg hl]; simp [hl]

/-- C23 fails: one attached signature with an out-of-range index panics the verifier of a one-key identifier,
whatever the cryptography and without any valid signature. -/
theorem C23_fails (env : Env) (k : BasicPrefix) (next : Option SelfAddressingPrefix) (msg : Bytes) (sig : SelfSigningPrefix) :
    (KeyConfig.new [k] next none).verify env msg [⟨1, sig⟩] = .panic := by
  rw [C23_panic_exact]
  right
  simp [KeyConfig.new, Threshold.MetBy]

/-- C23, a sufficient condition: no panic when every index names a key and (single clause) a weight. -/
theorem C23_no_panic (env : Env) (kc : KeyConfig) (msg : Bytes) (sigs : List AttachedSignaturePrefix)
    (h : ∀ s ∈ sigs, s.index < kc.publicKeys.length)
    (hc : ∀ c, kc.threshold = .single c → kc.publicKeys.length ≤ c.length) :
    kc.verify env msg sigs ≠ .panic := by
  rw [Ne, C23_panic_exact]
  rintro (⟨c, e, s, hs, hl⟩ | ⟨_, _, s, hs, hl⟩)
  · have := h s hs; have := hc c e; omega
  · have := h s hs; omega

example : (∀ s ∈ [toySig 1 0 b!"m"], s.index < [toyKey 1, toyKey 2].length) := by decide

/-! ## C53 -/

/-- C53: without explicit threshold, more than half of the keys must sign. -/
theorem C53_needs_majority (env : Env) (keys : List BasicPrefix) (next : Option SelfAddressingPrefix) (msg : Bytes)
    (sigs : List AttachedSignaturePrefix) (h : (KeyConfig.new keys next none).verify env msg sigs = .ok true) :
    keys.length < 2 * sigs.length := by
  rw [C20_verify_exact] at h
  have := h.1
  simp [KeyConfig.new, Threshold.MetBy] at this
  omega

/-- C53: any two accepted signature sets (over any two messages) share a signer. -/
theorem C53_quorums_intersect (env : Env) (keys : List BasicPrefix) (next : Option SelfAddressingPrefix) (m1 m2 : Bytes)
    (s1 s2 : List AttachedSignaturePrefix)
    (h1 : (KeyConfig.new keys next none).verify env m1 s1 = .ok true)
    (h2 : (KeyConfig.new keys next none).verify env m2 s2 = .ok true) :
    ∃ a ∈ s1, ∃ b ∈ s2, a.index = b.index := by
  have l1 := C53_needs_majority env keys next m1 s1 h1
  have l2 := C53_needs_majority env keys next m2 s2 h2
  rw [C20_verify_exact] at h1 h2
  obtain ⟨_, n1, _, v1⟩ := h1
  obtain ⟨_, n2, _, v2⟩ := h2
  false_or_by_contra
  rename_i hno
  have hnd : (s1.map (·.index) ++ s2.map (·.index)).Nodup := by
    rw [List.nodup_append]
    refine ⟨n1, n2, ?_⟩
    intro a ha b hb e
    obtain ⟨x, hx, rfl⟩ := List.mem_map.1 ha
    obtain ⟨y, hy, rfl⟩ := List.mem_map.1 hb
    exact hno ⟨x, hx, y, hy, e⟩
  have := KeyConfig.nodup_length_le _ keys.length hnd (by
    intro x hx
    rcases List.mem_append.1 hx with hx | hx
    · obtain ⟨s, hs, rfl⟩ := List.mem_map.1 hx
      obtain ⟨k, hk, _⟩ := v1 s hs
      rw [List.getElem?_eq_some_iff] at hk; exact hk.1
    · obtain ⟨s, hs, rfl⟩ := List.mem_map.1 hx
      obtain ⟨k, hk, _⟩ := v2 s hs
      rw [List.getElem?_eq_some_iff] at hk; exact hk.1)
  simp at this
  omega

/-- C53: satisfiable: any majority of distinct key positions, each with a valid signature, is accepted. -/
theorem C53_any_majority_suffices (env : Env) (keys : List BasicPrefix) (next : Option SelfAddressingPrefix) (msg : Bytes)
    (sigs : List AttachedSignaturePrefix) (hl : keys.length < 2 * sigs.length)
    (hn : (sigs.map (·.index)).Nodup)
    (hv : ∀ s ∈ sigs, ∃ k, keys[s.index]? = some k ∧ SigValid env k msg s.signature) :
    (KeyConfig.new keys next none).verify env msg sigs = .ok true := by
  rw [C20_verify_exact]
  refine ⟨?_, hn, ?_, hv⟩
  · simp [KeyConfig.new, Threshold.MetBy]; omega
  · have := KeyConfig.nodup_length_le (sigs.map (·.index)) keys.length hn (by
      intro x hx
      obtain ⟨s, hs, rfl⟩ := List.mem_map.1 hx
      obtain ⟨k, hk, _⟩ := hv s hs
      rw [List.getElem?_eq_some_iff] at hk; exact hk.1)
    simpa [KeyConfig.new] using this

/-- C53: and a majority exists whenever there is at least one key. -/
theorem C53_threshold_not_above_keys (keys : List BasicPrefix) (next : Option SelfAddressingPrefix) (h : keys ≠ []) :
    ∃ t, (KeyConfig.new keys next none).threshold = .simple t ∧ 1 ≤ t ∧ t ≤ keys.length ∧ keys.length < 2 * t := by
  refine ⟨keys.length / 2 + 1, rfl, by omega, ?_, by omega⟩
  have : 0 < keys.length := List.length_pos_iff.2 h
  omega

example : (KeyConfig.new [toyKey 1, toyKey 2, toyKey 3] none none).verify toyEnv b!"x"
    [toySig 1 0 b!"x", toySig 2 1 b!"x"] = .ok true := by decide +kernel

end Keriox
