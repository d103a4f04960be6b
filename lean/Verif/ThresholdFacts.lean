import Verif.KeyConfig
/-!
# Lemmas about thresholds and key configurations
-/
namespace Keriox

namespace Frac

/-- finite weights: a rational with non-zero denominator -/
def Fin : Frac → Prop
  | .rat _ d => d ≠ 0
  | _ => False

/-- value of a finite weight -/
def val : Frac → Rat
  | .rat n d => (n : Rat) / d
  | _ => 0

theorem natCast_ne_zero {d : Nat} (h : d ≠ 0) : (d : Rat) ≠ 0 := by exact_mod_cast h

theorem reduce_fin (n d : Nat) (h : d ≠ 0) : (reduce n d).Fin := by
  simp only [reduce, Fin]
  have : 0 < Nat.gcd n d := Nat.gcd_pos_of_pos_right _ (by omega)
  have h2 : Nat.gcd n d ≤ d := Nat.gcd_le_right _ (by omega)
  have := Nat.div_pos h2 this
  omega

theorem reduce_val (n d : Nat) (h : d ≠ 0) : (reduce n d).val = (n : Rat) / d := by
  simp only [reduce, val]
  have hg : 0 < Nat.gcd n d := Nat.gcd_pos_of_pos_right _ (by omega)
  obtain ⟨a, ha⟩ := Nat.gcd_dvd_left n d
  obtain ⟨b, hb⟩ := Nat.gcd_dvd_right n d
  generalize Nat.gcd n d = g at *
  have hb0 : b ≠ 0 := by rintro rfl; omega
  have e1 : n / g = a := by rw [ha]; exact Nat.mul_div_cancel_left _ hg
  have e2 : d / g = b := by rw [hb]; exact Nat.mul_div_cancel_left _ hg
  rw [e1, e2, ha, hb]
  have h1 : (g : Rat) ≠ 0 := natCast_ne_zero (by omega)
  have h2 : (b : Rat) ≠ 0 := natCast_ne_zero hb0
  push_cast
  grind

theorem new_fin (n d : Nat) (h : d ≠ 0) : (new n d).Fin := by
  rw [new, if_neg h]; exact reduce_fin n d h

theorem new_val (n d : Nat) (h : d ≠ 0) : (new n d).val = (n : Rat) / d := by
  rw [new, if_neg h]; exact reduce_val n d h

theorem add_fin {a b : Frac} (ha : a.Fin) (hb : b.Fin) : (a.add b).Fin := by
  cases a <;> cases b <;> simp only [Fin] at ha hb
  simp only [add]
  apply reduce_fin
  exact Nat.mul_ne_zero ha hb

theorem add_val {a b : Frac} (ha : a.Fin) (hb : b.Fin) : (a.add b).val = a.val + b.val := by
  cases a <;> cases b <;> simp only [Fin] at ha hb
  rename_i a b c d
  simp only [add]
  rw [reduce_val _ _ (Nat.mul_ne_zero ha hb)]
  simp only [val]
  have := natCast_ne_zero ha
  have := natCast_ne_zero hb
  push_cast
  grind

theorem geOne_fin {a : Frac} (ha : a.Fin) : a.geOne = decide (1 ≤ a.val) := by
  cases a <;> simp only [Fin] at ha
  rename_i n d
  have hv : (rat n d).val = (n : Rat) / d := rfl
  rw [hv]
  show decide (d ≤ n) = _
  have hd : (0 : Rat) < d := by
    have : 0 < d := by omega
    exact_mod_cast this
  rw [decide_eq_decide]
  have key : (1 : Rat) ≤ (n : Rat) / d ↔ (d : Rat) ≤ n := by
    have hm : (n : Rat) / d * d = n := by
      have : (d : Rat) ≠ 0 := by grind
      grind
    constructor
    · intro h
      have := Rat.mul_le_mul_of_nonneg_right h (Rat.le_of_lt hd)
      rw [hm] at this; simpa using this
    · intro h
      rw [← hm] at h
      have h' : 1 * (d : Rat) ≤ (n : Rat) / d * d := by simpa using h
      exact Rat.le_of_mul_le_mul_right h' hd
  rw [key]
  norm_cast

theorem val_nonneg (a : Frac) : 0 ≤ a.val := by
  cases a with
  | rat n d =>
    simp only [val]
    have h1 : (0 : Rat) ≤ n := by exact_mod_cast Nat.zero_le n
    have h2 : (0 : Rat) ≤ d := by exact_mod_cast Nat.zero_le d
    rw [Rat.div_def]
    by_cases hd : (d : Rat) = 0
    · rw [hd]; simp
    · have : (0 : Rat) < d := by grind
      exact Rat.mul_nonneg h1 (Rat.le_of_lt (Rat.inv_pos.2 this))
  | inf => simp [val]
  | nan => simp [val]

theorem zero_fin : zero.Fin := by simp [zero, Fin]
theorem zero_val : zero.val = 0 := by simp [zero, val]; grind

end Frac

namespace Threshold

/-- value of the weight at a position of a clause, zero outside -/
def cval (c : List Frac) (i : Nat) : Rat :=
  match c[i]? with
  | some w => w.val
  | none => 0

theorem cval_nonneg (c : List Frac) (i : Nat) : 0 ≤ cval c i := by
  unfold cval; split
  · exact Frac.val_nonneg _
  · exact Rat.le_refl

theorem clauseSum_panic (c : List Frac) (start : Nat) (sigs : List AttachedSignaturePrefix) (acc : Frac) :
    clauseSum c start sigs acc = .panic ↔ ∃ s ∈ sigs, c.length ≤ s.index - start := by
  induction sigs generalizing acc with
  | nil => simp [clauseSum]
  | cons s ss ih =>
    rw [clauseSum]
    cases hc : c[s.index - start]? with
    | none =>
      have := List.getElem?_eq_none_iff.1 hc
      simp only [true_iff]; exact ⟨s, by simp, this⟩
    | some w =>
      have hlt : s.index - start < c.length := by
        rw [List.getElem?_eq_some_iff] at hc; exact hc.1
      simp only [ih]
      constructor
      · rintro ⟨x, hx, h⟩; exact ⟨x, by simp [hx], h⟩
      · rintro ⟨x, hx, h⟩
        rcases List.mem_cons.1 hx with rfl | hx
        · omega
        · exact ⟨x, hx, h⟩

theorem clauseSum_fin (c : List Frac) (start : Nat) (hc : ∀ w ∈ c, w.Fin)
    (sigs : List AttachedSignaturePrefix) (acc : Frac) (ha : acc.Fin)
    (hi : ∀ s ∈ sigs, s.index - start < c.length) :
    ∃ f, clauseSum c start sigs acc = .ok f ∧ f.Fin ∧
      f.val = acc.val + (sigs.map fun s => cval c (s.index - start)).sum := by
  induction sigs generalizing acc with
  | nil => exact ⟨acc, rfl, ha, by simp; grind⟩
  | cons s ss ih =>
    have hs := hi s (by simp)
    have hg : c[s.index - start]? = some c[s.index - start] := List.getElem?_eq_getElem hs
    have hw : (c[s.index - start]).Fin := hc _ (List.getElem_mem hs)
    obtain ⟨f, h1, h2, h3⟩ := ih (acc.add c[s.index - start]) (Frac.add_fin ha hw)
      (fun x hx => hi x (by simp [hx]))
    refine ⟨f, ?_, h2, ?_⟩
    · rw [clauseSum, hg]; exact h1
    · rw [h3, Frac.add_val ha hw, List.map_cons, List.sum_cons]
      have : cval c (s.index - start) = (c[s.index - start]).val := by simp [cval, hg]
      rw [this]; grind

theorem clauseEnough_fin (c : List Frac) (start : Nat) (hc : ∀ w ∈ c, w.Fin)
    (sigs : List AttachedSignaturePrefix) (hi : ∀ s ∈ sigs, s.index - start < c.length) :
    clauseEnough c start sigs = .ok (decide (1 ≤ (sigs.map fun s => cval c (s.index - start)).sum)) := by
  obtain ⟨f, h1, h2, h3⟩ := clauseSum_fin c start hc sigs Frac.zero Frac.zero_fin hi
  rw [clauseEnough, h1, Res.ok_bind, Frac.geOne_fin h2]
  have : f.val = (sigs.map fun s => cval c (s.index - start)).sum := by
    rw [h3, Frac.zero_val]; grind
  rw [this]

/-- signatures that fall into the index range `[start, start + len)` -/
def inSeg (start len : Nat) (s : AttachedSignaturePrefix) : Bool :=
  start ≤ s.index && s.index < start + len

theorem multiEnough_noPanic (sigs : List AttachedSignaturePrefix) (cs : List (List Frac)) (start : Nat) (e : Bool) :
    ∃ b, multiEnough sigs cs start e = .ok b := by
  induction cs generalizing start e with
  | nil => exact ⟨e, rfl⟩
  | cons c cs ih =>
    rw [multiEnough]
    cases e with
    | false => exact ih _ _
    | true =>
      simp only [↓reduceIte]
      rw [clauseEnough]
      have hnp : clauseSum c start (sigs.filter fun s => start ≤ s.index && s.index < start + c.length) Frac.zero ≠ .panic := by
        rw [Ne, clauseSum_panic]
        rintro ⟨s, hs, h⟩
        simp at hs; omega
      have hne : ∀ (c : List Frac) st ss acc e, clauseSum c st ss acc ≠ .err e := by
        intro c st ss
        induction ss with
        | nil => intro acc e; simp [clauseSum]
        | cons s ss ih =>
          intro acc e; rw [clauseSum]; split
          · simp
          · exact ih _ _
      cases h : clauseSum c start (sigs.filter fun s => start ≤ s.index && s.index < start + c.length) Frac.zero with
      | ok a => simp only [Res.ok_bind]; exact ih _ _
      | err e => exact absurd h (hne _ _ _ _ _)
      | panic => exact absurd h hnp

theorem multiEnough_false (sigs : List AttachedSignaturePrefix) (cs : List (List Frac)) (start : Nat) :
    multiEnough sigs cs start false = .ok false := by
  induction cs generalizing start with
  | nil => rfl
  | cons c cs ih => rw [multiEnough]; simpa using ih _

/-- flat length of a clause list -/
def flatLen {α} (cs : List (List α)) : Nat := (cs.map List.length).sum

theorem multiEnough_true_iff (sigs : List AttachedSignaturePrefix) (cs : List (List Frac))
    (hf : ∀ c ∈ cs, ∀ w ∈ c, w.Fin) (start : Nat) :
    multiEnough sigs cs start true = .ok true ↔
      ∀ pre c post, cs = pre ++ c :: post →
        1 ≤ ((sigs.filter (inSeg (start + flatLen pre) c.length)).map
              fun s => cval c (s.index - (start + flatLen pre))).sum := by
  induction cs generalizing start with
  | nil => simp [multiEnough]
  | cons c cs ih =>
    rw [multiEnough]
    simp only [↓reduceIte]
    have hfl : (sigs.filter fun s => start ≤ s.index && s.index < start + c.length)
        = sigs.filter (inSeg start c.length) := rfl
    rw [hfl, clauseEnough_fin c start (hf c (by simp))]
    · simp only [Res.ok_bind]
      by_cases h : 1 ≤ ((sigs.filter (inSeg start c.length)).map fun s => cval c (s.index - start)).sum
      · rw [decide_eq_true h, ih (fun c hc => hf c (by simp [hc]))]
        constructor
        · intro hall pre c' post e
          cases pre with
          | nil =>
            simp at e; obtain ⟨rfl, rfl⟩ := e
            simpa [flatLen] using h
          | cons p pre =>
            simp at e; obtain ⟨rfl, rfl⟩ := e
            have := hall pre c' post rfl
            simpa [flatLen, Nat.add_assoc] using this
        · intro hall pre c' post e
          have := hall (c :: pre) c' post (by simp [e])
          simpa [flatLen, Nat.add_assoc] using this
      · rw [decide_eq_false h, multiEnough_false]
        simp only [Res.ok.injEq, Bool.false_eq_true, false_iff]
        intro hall
        exact h (by simpa [flatLen] using hall [] c cs rfl)
    · intro s hs
      simp [inSeg] at hs; omega

theorem clauseEnough_panic (c : List Frac) (start : Nat) (sigs : List AttachedSignaturePrefix) :
    clauseEnough c start sigs = .panic ↔ ∃ s ∈ sigs, c.length ≤ s.index - start := by
  rw [clauseEnough, ← clauseSum_panic c start sigs Frac.zero]
  cases clauseSum c start sigs Frac.zero <;> simp

theorem clauseSum_not_err (c : List Frac) (st : Nat) (ss : List AttachedSignaturePrefix) (acc : Frac) (e : Error) :
    clauseSum c st ss acc ≠ .err e := by
  induction ss generalizing acc with
  | nil => simp [clauseSum]
  | cons s ss ih =>
    rw [clauseSum]; split
    · simp
    · exact ih _

theorem enough_not_err (t : Threshold) (sigs : List AttachedSignaturePrefix) (e : Error) :
    t.enough sigs ≠ .err e := by
  cases t with
  | simple n => simp [enough]
  | single c =>
    simp only [enough, clauseEnough]
    have := clauseSum_not_err c 0 sigs Frac.zero e
    cases h : clauseSum c 0 sigs Frac.zero <;> simp_all
  | multi cs =>
    simp only [enough]
    obtain ⟨b, hb⟩ := multiEnough_noPanic sigs cs 0 true
    rw [hb]; simp

end Threshold

namespace KeyConfig

theorem countIdx_panic (counts : List Nat) (sigs : List AttachedSignaturePrefix) :
    countIdx counts sigs = .panic ↔ ∃ s ∈ sigs, counts.length ≤ s.index := by
  induction sigs generalizing counts with
  | nil => simp [countIdx]
  | cons s ss ih =>
    rw [countIdx]
    cases hc : counts[s.index]? with
    | none =>
      have := List.getElem?_eq_none_iff.1 hc
      simp only [true_iff]; exact ⟨s, by simp, this⟩
    | some n =>
      have hlt : s.index < counts.length := by
        rw [List.getElem?_eq_some_iff] at hc; exact hc.1
      simp only [ih, List.length_set]
      constructor
      · rintro ⟨x, hx, h⟩; exact ⟨x, by simp [hx], h⟩
      · rintro ⟨x, hx, h⟩
        rcases List.mem_cons.1 hx with rfl | hx
        · omega
        · exact ⟨x, hx, h⟩

theorem countIdx_ok (counts : List Nat) (sigs : List AttachedSignaturePrefix)
    (h : ∀ s ∈ sigs, s.index < counts.length) :
    ∃ c, countIdx counts sigs = .ok c ∧ c.length = counts.length ∧
      ∀ i, i < counts.length → c[i]? = (counts[i]?).map (· + (sigs.map (·.index)).count i) := by
  induction sigs generalizing counts with
  | nil => exact ⟨counts, rfl, rfl, by intro i hi; simp⟩
  | cons s ss ih =>
    have hs := h s (by simp)
    obtain ⟨c, h1, h2, h3⟩ := ih (counts.set s.index (counts[s.index] + 1)) (by
      intro x hx; simpa using h x (by simp [hx]))
    refine ⟨c, ?_, by simpa using h2, ?_⟩
    · rw [countIdx, List.getElem?_eq_getElem hs]; exact h1
    · intro i hi
      rw [h3 i (by simpa using hi), List.getElem?_set]
      by_cases e : s.index = i
      · subst e
        simp [hs]; omega
      · simp [e]

theorem verifySigs_of_not_true (env : Env) (keys : List BasicPrefix) (msg : Bytes)
    (sigs : List AttachedSignaturePrefix) (acc : Res Bool) (h : acc ≠ .ok true) :
    verifySigs env keys msg sigs acc = acc := by
  induction sigs generalizing acc with
  | nil => rfl
  | cons s ss ih =>
    rw [verifySigs]
    have : sigStep env keys msg s acc = acc := by
      unfold sigStep
      split
      · exact absurd rfl h
      · rfl
    rw [this, ih acc h]

theorem verifySigs_true (env : Env) (keys : List BasicPrefix) (msg : Bytes)
    (sigs : List AttachedSignaturePrefix) :
    verifySigs env keys msg sigs (.ok true) = .ok true ↔
      ∀ s ∈ sigs, ∃ k, keys[s.index]? = some k ∧ k.verify env msg s.signature = .ok true := by
  induction sigs with
  | nil => simp [verifySigs]
  | cons s ss ih =>
    rw [verifySigs, sigStep]
    cases hk : keys[s.index]? with
    | none =>
      rw [verifySigs_of_not_true _ _ _ _ _ (by simp)]
      simp only [reduceCtorEq, false_iff]
      intro h
      obtain ⟨k, h1, _⟩ := h s (by simp)
      simp [hk] at h1
    | some k =>
      by_cases hv : k.verify env msg s.signature = .ok true
      · simp only [hv, ih, List.mem_cons, forall_eq_or_imp]
        constructor
        · intro h; exact ⟨⟨k, hk, hv⟩, h⟩
        · intro h; exact h.2
      · simp only
        rw [verifySigs_of_not_true _ _ _ _ _ hv]
        constructor
        · intro h; exact absurd h hv
        · intro h
          obtain ⟨k', h1, h2⟩ := h s (by simp)
          rw [hk] at h1; cases h1
          exact h2

theorem BasicPrefix_verify_noPanic (env : Env) (k : BasicPrefix) (msg : Bytes) (sig : SelfSigningPrefix) :
    k.verify env msg sig ≠ .panic := by
  unfold BasicPrefix.verify
  split <;> first | (split <;> simp) | simp

theorem verifySigs_noPanic (env : Env) (keys : List BasicPrefix) (msg : Bytes)
    (sigs : List AttachedSignaturePrefix) (acc : Res Bool) (h : acc ≠ .panic) :
    verifySigs env keys msg sigs acc ≠ .panic := by
  induction sigs generalizing acc with
  | nil => exact h
  | cons s ss ih =>
    rw [verifySigs]
    apply ih
    unfold sigStep
    split
    · split
      · simp
      · exact BasicPrefix_verify_noPanic _ _ _ _
    · exact h

theorem nodup_length_le (l : List Nat) (n : Nat) (hn : l.Nodup) (hl : ∀ x ∈ l, x < n) : l.length ≤ n := by
  induction n generalizing l with
  | zero =>
    cases l with
    | nil => simp
    | cons a l => exact absurd (hl a (by simp)) (by omega)
  | succ n ih =>
    have h1 := ih (l.erase n) (hn.erase n) (by
      intro x hx
      have := (hn.mem_erase_iff).1 hx
      have := hl x this.2
      omega)
    have h2 : l.length ≤ (l.erase n).length + 1 := by
      rw [List.length_erase]; split <;> omega
    omega

theorem all_count_le_one {l : List Nat} {n : Nat} (hl : ∀ x ∈ l, x < n) (c : List Nat) (hc : c.length = n)
    (h : ∀ i, i < n → c[i]? = some (l.count i)) : (c.all fun k => k ≤ 1) = true ↔ l.Nodup := by
  rw [List.all_eq_true, List.nodup_iff_count]
  constructor
  · intro ha i
    by_cases hi : i < n
    · have := h i hi
      have hm : l.count i ∈ c := List.mem_of_getElem? this
      simpa using ha _ hm
    · have : i ∉ l := fun hx => hi (hl i hx)
      simp [List.count_eq_zero_of_not_mem this]
  · intro ha x hx
    obtain ⟨i, hi, rfl⟩ := List.mem_iff_getElem.1 hx
    have := h i (by omega)
    rw [List.getElem?_eq_getElem hi] at this
    have e := Option.some.inj this
    rw [e]; simpa using ha i

/-- The first stage of `verify` in closed form. -/
theorem verify_true_iff (env : Env) (kc : KeyConfig) (msg : Bytes) (sigs : List AttachedSignaturePrefix) :
    kc.verify env msg sigs = .ok true ↔
      kc.threshold.enough sigs = .ok true ∧ (sigs.map (·.index)).Nodup ∧
      ∀ s ∈ sigs, ∃ k, kc.publicKeys[s.index]? = some k ∧ k.verify env msg s.signature = .ok true := by
  unfold verify
  rw [Res.bind_eq_ok]
  constructor
  · rintro ⟨b, h1, h2⟩
    cases b with
    | false => simp at h2
    | true =>
      refine ⟨h1, ?_⟩
      simp only [Bool.not_true, Bool.false_eq_true, ↓reduceIte] at h2
      rw [Res.bind_eq_ok] at h2
      obtain ⟨v, h3, h4⟩ := h2
      cases v with
      | false => simp at h4
      | true =>
        simp only [↓reduceIte] at h4
        have h5 := (verifySigs_true _ _ _ _).1 h4
        refine ⟨?_, h5⟩
        have hr : ∀ s ∈ sigs, s.index < kc.publicKeys.length := by
          intro s hs
          obtain ⟨k, hk, _⟩ := h5 s hs
          rw [List.getElem?_eq_some_iff] at hk; exact hk.1
        unfold validSet at h3
        split at h3
        · obtain ⟨c, e1, e2, e3⟩ := countIdx_ok (List.replicate kc.publicKeys.length 0) sigs (by simpa using hr)
          rw [e1] at h3
          simp only [Res.ok_bind, Res.ok.injEq] at h3
          refine (all_count_le_one (n := kc.publicKeys.length) ?_ c (by simpa using e2) ?_).1 h3
          · intro x hx
            obtain ⟨s, hs, rfl⟩ := List.mem_map.1 hx
            exact hr s hs
          · intro i hi
            rw [e3 i (by simpa using hi)]
            simp [hi]
        · simp at h3
  · rintro ⟨h1, h2, h3⟩
    refine ⟨true, h1, ?_⟩
    simp only [Bool.not_true, Bool.false_eq_true, ↓reduceIte]
    have hr : ∀ s ∈ sigs, s.index < kc.publicKeys.length := by
      intro s hs
      obtain ⟨k, hk, _⟩ := h3 s hs
      rw [List.getElem?_eq_some_iff] at hk; exact hk.1
    have hm : ∀ x ∈ sigs.map (·.index), x < kc.publicKeys.length := by
      intro x hx
      obtain ⟨s, hs, rfl⟩ := List.mem_map.1 hx
      exact hr s hs
    have hlen : sigs.length ≤ kc.publicKeys.length := by
      have := nodup_length_le _ _ h2 hm
      simpa using this
    obtain ⟨c, e1, e2, e3⟩ := countIdx_ok (List.replicate kc.publicKeys.length 0) sigs (by simpa using hr)
    have hall : (c.all fun k => k ≤ 1) = true :=
      (all_count_le_one hm c (by simpa using e2) (by
        intro i hi
        rw [e3 i (by simpa using hi)]
        simp [hi])).2 h2
    rw [validSet, if_pos hlen, e1]
    simp only [Res.ok_bind, hall, ↓reduceIte]
    exact (verifySigs_true _ _ _ _).2 h3

end KeyConfig
end Keriox
