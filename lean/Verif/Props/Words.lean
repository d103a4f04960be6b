import Verif.Machine
import Verif.Props.KeyCfg
/-!
# C80: thresholds in machine words
-/
namespace Keriox

/-! ## Specification vocabulary -/

/-- a weight as a multiple of `1/D` -/
def Frac.over (D : Nat) : Frac → Nat
  | .rat n d => n * (D / d)
  | _ => 0

/-- weights whose common denominator and total numerator fit a word: written over `D`, they are whole numbers that together
stay below 2^64 -/
def FitWord (ws : List Frac) : Prop :=
  ∃ D, 0 < D ∧ D < W64 ∧ (∀ n d, Frac.rat n d ∈ ws → d ≠ 0 ∧ d ∣ D) ∧
    (ws.map (Frac.over D)).sum < W64

/-- the weights a list of signatures selects from a clause -/
def selected (c : List Frac) (start : Nat) (sigs : List AttachedSignaturePrefix) : List Frac :=
  sigs.filterMap fun s => c[s.index - start]?

/-- a threshold whose sums over these signatures, and whose indices, fit machine words -/
def Threshold.FitWords (t : Threshold) (sigs : List AttachedSignaturePrefix) : Prop :=
  match t with
  | .simple _ => True
  | .single c => FitWord (selected c 0 sigs)
  | .multi cs => cs.flatten.length < W16 ∧ ∀ before c rest, cs = before ++ c :: rest →
      FitWord (selected c before.flatten.length (sigs.filter fun s =>
        before.flatten.length ≤ s.index && s.index < before.flatten.length + c.length))

/-! ## One addition -/

theorem Overflow.word_lt (o : Overflow) {size x : Nat} (h : x < size) : o.word size x = .ok x := by simp [word, h]

theorem Overflow.word_le (o : Overflow) {size x y : Nat} (h : o.word size x = .ok y) : y ≤ x := by
  unfold word at h
  split at h
  · cases h; exact Nat.le_refl _
  · cases o with
    | checked => cases h
    | wrapping => cases h; exact Nat.mod_le _ _

namespace Frac

/-- equal fractions reduce to the same thing -/
theorem reduce_cross {a b c d : Nat} (hb : b ≠ 0) (hd : d ≠ 0) (h : a * d = c * b) : reduce a b = reduce c d := by
  have e1 : (reduce a b).val = (reduce c d).val := by
    rw [reduce_val _ _ hb, reduce_val _ _ hd]
    have h1 := natCast_ne_zero hb
    have h2 := natCast_ne_zero hd
    have h3 : (a : Rat) * d = c * b := by exact_mod_cast h
    grind
  unfold reduce at e1 ⊢
  simp only [val] at e1
  have gb : 0 < Nat.gcd a b := Nat.gcd_pos_of_pos_right _ (by omega)
  have gd : 0 < Nat.gcd c d := Nat.gcd_pos_of_pos_right _ (by omega)
  have c1 : Nat.Coprime (a / Nat.gcd a b) (b / Nat.gcd a b) := Nat.coprime_div_gcd_div_gcd gb
  have c2 : Nat.Coprime (c / Nat.gcd c d) (d / Nat.gcd c d) := Nat.coprime_div_gcd_div_gcd gd
  have p1 : b / Nat.gcd a b ≠ 0 := by have := reduce_fin a b hb; simpa [reduce, Fin] using this
  have p2 : d / Nat.gcd c d ≠ 0 := by have := reduce_fin c d hd; simpa [reduce, Fin] using this
  generalize a / Nat.gcd a b = x at *
  generalize b / Nat.gcd a b = y at *
  generalize c / Nat.gcd c d = z at *
  generalize d / Nat.gcd c d = w at *
  have hx : x * w = z * y := by
    have h1 := natCast_ne_zero p1
    have h2 := natCast_ne_zero p2
    have : (x : Rat) * w = z * y := by grind
    exact_mod_cast this
  have d1 : y ∣ w := by
    have : y ∣ x * w := ⟨z, by rw [hx, Nat.mul_comm]⟩
    exact (Nat.Coprime.symm c1).dvd_of_dvd_mul_left this
  have d2 : w ∣ y := by
    have : w ∣ z * y := ⟨x, by rw [← hx, Nat.mul_comm]⟩
    exact (Nat.Coprime.symm c2).dvd_of_dvd_mul_left this
  have e : y = w := Nat.dvd_antisymm d1 d2
  subst e
  have : x = z := Nat.eq_of_mul_eq_mul_right (by omega) hx
  rw [this]

/-- no word too small: the machine addition is the exact one -/
theorem ratioAdd_exact (o : Overflow) {a b c d D N : Nat} (hb : b ≠ 0) (hd : d ≠ 0) (hbD : b ∣ D) (hdD : d ∣ D) (hD : D < W64) (hD0 : D ≠ 0)
    (hN : a * (D / b) + c * (D / d) ≤ N) (hNW : N < W64) :
    ratioAdd o a b c d = .ok (reduce (a * d + c * b) (b * d)) := by
  have hlD : Nat.lcm b d ∣ D := Nat.lcm_dvd hbD hdD
  have hl : b * (d / Nat.gcd b d) = Nat.lcm b d := by
    rw [Nat.lcm, Nat.mul_div_assoc _ (Nat.gcd_dvd_right b d)]
  have hl0 : Nat.lcm b d ≠ 0 := Nat.lcm_ne_zero hb hd
  have hlle : Nat.lcm b d ≤ D := Nat.le_of_dvd (by omega) hlD
  have hbl : b ∣ Nat.lcm b d := Nat.dvd_lcm_left b d
  have hdl : d ∣ Nat.lcm b d := Nat.dvd_lcm_right b d
  have h1 : a * (Nat.lcm b d / b) ≤ a * (D / b) := Nat.mul_le_mul_left _ (Nat.div_le_div_right hlle)
  have h2 : c * (Nat.lcm b d / d) ≤ c * (D / d) := Nat.mul_le_mul_left _ (Nat.div_le_div_right hlle)
  unfold ratioAdd
  split
  · rename_i e
    subst e
    have hp : 0 < D / b := Nat.div_pos (Nat.le_of_dvd (by omega) hbD) (by omega)
    have : a ≤ a * (D / b) := Nat.le_mul_of_pos_right _ hp
    have : c ≤ c * (D / b) := Nat.le_mul_of_pos_right _ hp
    rw [Overflow.word_lt o (by omega)]
    simp only [Res.ok_bind, ratioNew, if_neg hb]
    rw [reduce_cross hb (Nat.mul_ne_zero hb hb)]
    rw [← Nat.mul_assoc, Nat.add_mul]
  · rw [hl, Overflow.word_lt o (by omega)]
    simp only [Res.ok_bind]
    rw [Overflow.word_lt o (by omega)]
    simp only [Res.ok_bind]
    rw [Overflow.word_lt o (by omega)]
    simp only [Res.ok_bind]
    rw [Overflow.word_lt o (by omega)]
    simp only [Res.ok_bind, ratioNew, if_neg hl0]
    rw [reduce_cross hl0 (Nat.mul_ne_zero hb hd)]
    obtain ⟨x, hx⟩ := hbl
    obtain ⟨y, hy⟩ := hdl
    have e1 : Nat.lcm b d / b = x := by rw [hx]; exact Nat.mul_div_cancel_left _ (by omega)
    have e2 : Nat.lcm b d / d = y := by rw [hy]; exact Nat.mul_div_cancel_left _ (by omega)
    rw [e1, e2, Nat.add_mul, Nat.add_mul]
    congr 1
    · calc a * x * (b * d) = a * d * (b * x) := by ac_rfl
        _ = _ := by rw [← hx]
    · calc c * y * (b * d) = c * b * (d * y) := by ac_rfl
        _ = _ := by rw [← hy]

/-- what the machine computes, when it computes something, is never more than the exact sum -/
def Below : Frac → Frac → Prop
  | .nan, .nan => True
  | .inf, .inf => True
  | .rat a b, .rat c d => b ≠ 0 ∧ d ≠ 0 ∧ a * d ≤ c * b
  | _, _ => False

theorem reduce_below {a b c d : Nat} (hb : b ≠ 0) (hd : d ≠ 0) (h : a * d ≤ c * b) : Below (reduce a b) (reduce c d) := by
  unfold reduce Below
  have gb : 0 < Nat.gcd a b := Nat.gcd_pos_of_pos_right _ (by omega)
  have gd : 0 < Nat.gcd c d := Nat.gcd_pos_of_pos_right _ (by omega)
  have p1 : b / Nat.gcd a b ≠ 0 := by have := reduce_fin a b hb; simpa [reduce, Fin] using this
  have p2 : d / Nat.gcd c d ≠ 0 := by have := reduce_fin c d hd; simpa [reduce, Fin] using this
  refine ⟨p1, p2, ?_⟩
  obtain ⟨x, hx⟩ := Nat.gcd_dvd_left a b
  obtain ⟨y, hy⟩ := Nat.gcd_dvd_right a b
  obtain ⟨z, hz⟩ := Nat.gcd_dvd_left c d
  obtain ⟨w, hw⟩ := Nat.gcd_dvd_right c d
  generalize Nat.gcd a b = g at *
  generalize Nat.gcd c d = k at *
  subst hx hy hz hw
  rw [Nat.mul_div_cancel_left _ gb, Nat.mul_div_cancel_left _ gb, Nat.mul_div_cancel_left _ gd, Nat.mul_div_cancel_left _ gd]
  have e1 : g * x * (k * w) = g * k * (x * w) := by ac_rfl
  have e2 : k * z * (g * y) = g * k * (z * y) := by ac_rfl
  rw [e1, e2] at h
  exact Nat.le_of_mul_le_mul_left h (Nat.mul_pos gb gd)

theorem ratioAdd_below (o : Overflow) {a b a' b' c d : Nat} {f : Frac} (h : Below (.rat a' b') (.rat a b)) (hd : d ≠ 0)
    (hf : ratioAdd o a' b' c d = .ok f) : Below f (reduce (a * d + c * b) (b * d)) := by
  obtain ⟨hb', hb, hle⟩ := h
  unfold ratioAdd at hf
  split at hf
  · rename_i e
    subst e
    rw [Res.bind_eq_ok] at hf
    obtain ⟨n, hn, hf⟩ := hf
    rw [ratioNew, if_neg hb'] at hf
    cases hf
    have hn := Overflow.word_le o hn
    apply reduce_below hb' (Nat.mul_ne_zero hb hb')
    calc n * (b * b') ≤ (a' + c) * (b * b') := Nat.mul_le_mul_right _ hn
      _ = a' * b * b' + c * b * b' := by rw [Nat.add_mul]; ac_rfl
      _ ≤ a * b' * b' + c * b * b' := Nat.add_le_add_right (Nat.mul_le_mul_right _ hle) _
      _ = (a * b' + c * b) * b' := by rw [Nat.add_mul]
  · rw [Res.bind_eq_ok] at hf
    obtain ⟨l, -, hf⟩ := hf
    rw [Res.bind_eq_ok] at hf
    obtain ⟨x, hx, hf⟩ := hf
    rw [Res.bind_eq_ok] at hf
    obtain ⟨y, hy, hf⟩ := hf
    rw [Res.bind_eq_ok] at hf
    obtain ⟨n, hn, hf⟩ := hf
    unfold ratioNew at hf
    split at hf
    · cases hf
    · rename_i hl
      cases hf
      have hx := Overflow.word_le o hx
      have hy := Overflow.word_le o hy
      have hn := Overflow.word_le o hn
      apply reduce_below hl (Nat.mul_ne_zero hb hd)
      have q1 : l / b' * b' ≤ l := Nat.div_mul_le_self _ _
      have q2 : l / d * d ≤ l := Nat.div_mul_le_self _ _
      calc n * (b * d) ≤ (x + y) * (b * d) := Nat.mul_le_mul_right _ hn
        _ ≤ (a' * (l / b') + c * (l / d)) * (b * d) := Nat.mul_le_mul_right _ (Nat.add_le_add hx hy)
        _ = a' * b * (l / b' * d) + c * b * (l / d * d) := by rw [Nat.add_mul]; congr 1 <;> ac_rfl
        _ ≤ a * b' * (l / b' * d) + c * b * (l / d * d) := Nat.add_le_add_right (Nat.mul_le_mul_right _ hle) _
        _ = a * d * (l / b' * b') + c * b * (l / d * d) := by congr 1; ac_rfl
        _ ≤ a * d * l + c * b * l := Nat.add_le_add (Nat.mul_le_mul_left _ q1) (Nat.mul_le_mul_left _ q2)
        _ = (a * d + c * b) * l := by rw [Nat.add_mul]

/-- weights as the program can hold them: never a finite fraction with a zero denominator -/
def Held : Frac → Prop
  | .rat _ d => d ≠ 0
  | _ => True

theorem addM_below (o : Overflow) {acc' acc w f : Frac} (h : Below acc' acc) (hw : w.Held) (hf : acc'.addM o w = .ok f) :
    Below f (acc.add w) := by
  cases acc' <;> cases acc <;> simp only [Below] at h <;> cases w <;> simp only [addM, Res.ok.injEq] at hf <;>
    first
      | (subst hf; simp [add, Below])
      | exact ratioAdd_below o h hw hf

theorem below_geOne {f g : Frac} (h : Below f g) (hf : f.geOne = true) : g.geOne = true := by
  cases f <;> cases g <;> simp only [Below] at h <;> simp only [geOne, decide_eq_true_eq, Bool.false_eq_true] at hf ⊢
  obtain ⟨h1, h2, h3⟩ := h
  rename_i a b c d
  have : b * d ≤ c * b := Nat.le_trans (Nat.mul_le_mul_right _ hf) h3
  rw [Nat.mul_comm c] at this
  exact Nat.le_of_mul_le_mul_left this (by omega)
end Frac


/-! ## A clause -/

namespace Threshold

theorem clauseSumM_exact (o : Overflow) (c : List Frac) (start : Nat) (D : Nat) (hD0 : 0 < D) (hD : D < W64)
    (sigs : List AttachedSignaturePrefix) (acc : Frac)
    (hacc : ∀ a b, acc = .rat a b → b ≠ 0 ∧ b ∣ D)
    (hw : ∀ n d, Frac.rat n d ∈ selected c start sigs → d ≠ 0 ∧ d ∣ D)
    (hN : acc.over D + ((selected c start sigs).map (Frac.over D)).sum < W64) :
    clauseSumM o c start sigs acc = clauseSum c start sigs acc := by
  induction sigs generalizing acc with
  | nil => rfl
  | cons s ss ih =>
    rw [clauseSumM, clauseSum]
    cases hc : c[s.index - start]? with
    | none => rfl
    | some w =>
      have hsel : selected c start (s :: ss) = w :: selected c start ss := by simp [selected, hc]
      rw [hsel] at hw hN
      simp only [List.map_cons, List.sum_cons] at hN
      have hw' : ∀ n d, Frac.rat n d ∈ selected c start ss → d ≠ 0 ∧ d ∣ D := fun n d h => hw n d (List.mem_cons_of_mem _ h)
      have key : ∃ f, acc.addM o w = .ok f ∧ acc.add w = f ∧ (∀ a b, f = .rat a b → b ≠ 0 ∧ b ∣ D) ∧ f.over D ≤ acc.over D + w.over D := by
        cases acc with
        | nan => exact ⟨.nan, rfl, rfl, by simp, by simp [Frac.over]⟩
        | inf =>
          cases w with
          | nan => exact ⟨.nan, rfl, rfl, by simp, by simp [Frac.over]⟩
          | inf => exact ⟨.inf, rfl, rfl, by simp, by simp [Frac.over]⟩
          | rat n d => exact ⟨.inf, rfl, rfl, by simp, by simp [Frac.over]⟩
        | rat a b =>
          cases w with
          | nan => exact ⟨.nan, rfl, rfl, by simp, by simp [Frac.over]⟩
          | inf => exact ⟨.inf, rfl, rfl, by simp, by simp [Frac.over]⟩
          | rat n d =>
            obtain ⟨hb, hbD⟩ := hacc a b rfl
            obtain ⟨hd, hdD⟩ := hw n d (by simp)
            simp only [Frac.over] at hN
            have e := Frac.ratioAdd_exact o (a := a) (c := n) hb hd hbD hdD hD (by omega) (Nat.le_refl _) (by omega)
            have e2 : Frac.reduce (a * d + n * b) (b * d) = Frac.reduce (a * (D / b) + n * (D / d)) D := by
              apply Frac.reduce_cross (Nat.mul_ne_zero hb hd) (by omega)
              obtain ⟨x, hx⟩ := hbD
              obtain ⟨y, hy⟩ := hdD
              have e1 : D / b = x := by rw [hx]; exact Nat.mul_div_cancel_left _ (by omega)
              have e2 : D / d = y := by rw [hy]; exact Nat.mul_div_cancel_left _ (by omega)
              rw [e1, e2, Nat.add_mul, Nat.add_mul]
              congr 1
              · calc a * d * D = a * d * (b * x) := by rw [← hx]
                  _ = _ := by ac_rfl
              · calc n * b * D = n * b * (d * y) := by rw [← hy]
                  _ = _ := by ac_rfl
            refine ⟨_, e, rfl, ?_, ?_⟩
            · intro a' b' h
              rw [e2] at h
              have hf := Frac.reduce_fin (a * (D / b) + n * (D / d)) D (by omega)
              rw [h] at hf
              refine ⟨hf, ?_⟩
              simp only [Frac.reduce, Frac.rat.injEq] at h
              rw [← h.2]
              exact Nat.div_dvd_of_dvd (Nat.gcd_dvd_right _ _)
            · rw [e2]
              simp only [Frac.reduce, Frac.over]
              generalize a * (D / b) + n * (D / d) = N
              have hg : 0 < Nat.gcd N D := Nat.gcd_pos_of_pos_right _ hD0
              rw [Nat.div_div_self (Nat.gcd_dvd_right N D) (by omega), Nat.div_mul_cancel (Nat.gcd_dvd_left N D)]
              exact Nat.le_refl _
      obtain ⟨f, h1, h2, h3, h4⟩ := key
      simp only [h1, h2]
      exact ih f h3 hw' (by omega)

theorem clauseEnoughM_exact (o : Overflow) (c : List Frac) (start : Nat) (sigs : List AttachedSignaturePrefix)
    (h : FitWord (selected c start sigs)) : clauseEnoughM o c start sigs = clauseEnough c start sigs := by
  obtain ⟨D, h0, h1, h2, h3⟩ := h
  rw [clauseEnoughM, clauseEnough, clauseSumM_exact o c start D h0 h1 sigs Frac.zero ?_ h2 ?_]
  · rfl
  · intro a b e
    simp only [Frac.zero, Frac.rat.injEq] at e
    rw [← e.2]; exact ⟨by decide, Nat.one_dvd D⟩
  · simpa [Frac.zero, Frac.over] using h3

theorem clauseSumM_below (o : Overflow) (c : List Frac) (hc : ∀ w ∈ c, w.Held) (start : Nat) (sigs : List AttachedSignaturePrefix)
    (acc' acc f : Frac) (hb : Frac.Below acc' acc) (h : clauseSumM o c start sigs acc' = .ok f) :
    ∃ g, clauseSum c start sigs acc = .ok g ∧ Frac.Below f g := by
  induction sigs generalizing acc' acc with
  | nil => cases h; exact ⟨acc, rfl, hb⟩
  | cons s ss ih =>
    rw [clauseSumM] at h
    rw [clauseSum]
    cases hs : c[s.index - start]? with
    | none => rw [hs] at h; cases h
    | some w =>
      rw [hs] at h
      simp only at h ⊢
      cases ha : acc'.addM o w with
      | ok a =>
        rw [ha] at h
        exact ih a (acc.add w) (Frac.addM_below o hb (hc w (List.mem_of_getElem? hs)) ha) h
      | err e => rw [ha] at h; cases h
      | panic => rw [ha] at h; cases h

theorem clauseEnoughM_sound (o : Overflow) (c : List Frac) (hc : ∀ w ∈ c, w.Held) (start : Nat) (sigs : List AttachedSignaturePrefix)
    (h : clauseEnoughM o c start sigs = .ok true) : clauseEnough c start sigs = .ok true := by
  rw [clauseEnoughM] at h
  cases hs : clauseSumM o c start sigs Frac.zero with
  | ok f =>
    rw [hs] at h
    obtain ⟨g, h1, h2⟩ := clauseSumM_below o c hc start sigs Frac.zero Frac.zero f (by simp [Frac.zero, Frac.Below]) hs
    rw [clauseEnough, h1, Res.ok_bind, Frac.below_geOne h2 (by simpa [Res.bind] using h)]
  | err e => rw [hs] at h; cases h
  | panic => rw [hs] at h; cases h

/-! ## Several clauses -/

theorem multiEnoughM_exact (o : Overflow) (sigs : List AttachedSignaturePrefix) (cs : List (List Frac)) (start : Nat) (e : Bool)
    (hlen : start + cs.flatten.length < W16)
    (h : ∀ before c rest, cs = before ++ c :: rest → FitWord (selected c (start + before.flatten.length) (sigs.filter fun s =>
        start + before.flatten.length ≤ s.index && s.index < start + before.flatten.length + c.length))) :
    multiEnoughM o sigs cs start e = multiEnough sigs cs start e := by
  induction cs generalizing start e with
  | nil => rfl
  | cons c cs ih =>
    simp only [List.flatten_cons, List.length_append] at hlen
    rw [multiEnoughM, multiEnough, Nat.mod_eq_of_lt (show c.length < W16 by omega), Overflow.word_lt o (show start + c.length < W16 by omega)]
    have ih' := fun e => ih (start + c.length) e (by omega) (by
      intro before c' rest e
      have := h (c :: before) c' rest (by simp [e])
      simpa [Nat.add_assoc] using this)
    simp only [Res.bind]
    cases e with
    | false => simp only [Bool.false_eq_true, ↓reduceIte]; exact ih' false
    | true =>
      simp only [↓reduceIte]
      have h0 := h [] c cs rfl
      simp only [List.flatten_nil, List.length_nil, Nat.add_zero] at h0
      rw [clauseEnoughM_exact o c start _ h0]
      cases clauseEnough c start (sigs.filter fun s => start ≤ s.index && s.index < start + c.length) with
      | ok e => simp only [Res.ok_bind]; exact ih' e
      | err e => rfl
      | panic => rfl

theorem multiEnoughM_false (o : Overflow) (sigs : List AttachedSignaturePrefix) (cs : List (List Frac)) (start : Nat) :
    multiEnoughM o sigs cs start false ≠ .ok true := by
  induction cs generalizing start with
  | nil => simp [multiEnoughM]
  | cons c cs ih =>
    rw [multiEnoughM]
    cases o.word W16 (start + c.length % W16) with
    | ok stop => simpa [Res.bind] using ih stop
    | err e => simp [Res.bind]
    | panic => simp [Res.bind]

theorem multiEnoughM_sound (o : Overflow) (sigs : List AttachedSignaturePrefix) (cs : List (List Frac)) (start : Nat)
    (hc : ∀ c ∈ cs, c.length < W16 ∧ ∀ w ∈ c, w.Held) (hst : start < W16)
    (h : multiEnoughM o sigs cs start true = .ok true) : multiEnough sigs cs start true = .ok true := by
  induction cs generalizing start with
  | nil => rfl
  | cons c cs ih =>
    obtain ⟨hl, hh⟩ := hc c (by simp)
    rw [multiEnoughM, Nat.mod_eq_of_lt hl] at h
    rw [multiEnough]
    cases hw : o.word W16 (start + c.length) with
    | err e => rw [hw] at h; cases h
    | panic => rw [hw] at h; cases h
    | ok stop =>
      rw [hw] at h
      simp only [Res.bind, ↓reduceIte] at h
      cases hcl : clauseEnoughM o c start (sigs.filter fun s => start ≤ s.index && s.index < stop) with
      | err e => rw [hcl] at h; cases h
      | panic => rw [hcl] at h; cases h
      | ok e =>
        rw [hcl] at h
        simp only at h
        cases e with
        | false => exact absurd h (multiEnoughM_false o sigs cs stop)
        | true =>
          by_cases hlt : start + c.length < W16
          · rw [Overflow.word_lt o hlt] at hw
            cases hw
            simp only [↓reduceIte]
            rw [clauseEnoughM_sound o c hh start _ hcl]
            simp only [Res.ok_bind]
            exact ih _ (fun c hx => hc c (by simp [hx])) hlt h
          · exfalso
            unfold Overflow.word at hw
            rw [if_neg hlt] at hw
            cases o with
            | checked => cases hw
            | wrapping =>
              cases hw
              have : (start + c.length) % W16 ≤ start := by
                have : (start + c.length) % W16 = start + c.length - W16 := by
                  rw [Nat.mod_eq_sub_mod (by omega), Nat.mod_eq_of_lt (by omega)]
                omega
              have he : (sigs.filter fun s => start ≤ s.index && s.index < (start + c.length) % W16) = [] := by
                rw [List.filter_eq_nil_iff]
                intro s _ hx
                simp at hx; omega
              rw [he] at hcl
              simp [clauseEnoughM, clauseSumM, Res.bind, Frac.zero, Frac.geOne] at hcl

end Threshold


/-! ## C80 -/

theorem Frac.new_held (n d : Nat) : (Frac.new n d).Held := by
  unfold Frac.new
  split
  · split <;> simp [Frac.Held]
  · rename_i h; exact Frac.reduce_fin n d h

theorem Frac.fromStr_held {s : Bytes} {f : Frac} (h : Frac.fromStr s = .ok f) : f.Held := by
  unfold Frac.fromStr at h
  split at h
  · rw [Res.bind_eq_ok] at h
    obtain ⟨n, -, h⟩ := h
    cases h; exact Frac.new_held _ _
  · rw [Res.bind_eq_ok] at h
    obtain ⟨n, -, h⟩ := h
    rw [Res.bind_eq_ok] at h
    obtain ⟨d, -, h⟩ := h
    cases h; exact Frac.new_held _ _
  · cases h

/-- **C80.** When the weights picked by the signatures fit machine words, the program's threshold check — with or without
overflow checks — is the exact one. -/
theorem C80_exact (o : Overflow) (t : Threshold) (sigs : List AttachedSignaturePrefix) (h : t.FitWords sigs) :
    t.enoughM o sigs = t.enough sigs := by
  cases t with
  | simple n => rfl
  | single c => exact Threshold.clauseEnoughM_exact o c 0 sigs h
  | multi cs =>
    refine Threshold.multiEnoughM_exact o sigs cs 0 true (by simpa using h.1) ?_
    intro before c rest e
    simpa using h.2 before c rest e

/-- so is the verification of signatures by a key configuration -/
theorem C80_verify_exact (o : Overflow) (env : Env) (kc : KeyConfig) (msg : Bytes) (sigs : List AttachedSignaturePrefix)
    (h : kc.threshold.FitWords sigs) : kc.verifyM o env msg sigs = kc.verify env msg sigs := by
  rw [KeyConfig.verifyM, KeyConfig.verify, C80_exact o _ sigs h]
  rfl

/-- **C80.** Weights not above one over a common denominator `D` fit as long as `D` times the number of signatures stays
below 2^64. -/
theorem C80_ordinary_weights (ws : List Frac) (D : Nat) (hD : 0 < D) (hw : ∀ n d, Frac.rat n d ∈ ws → d ≠ 0 ∧ d ∣ D ∧ n ≤ d)
    (hl : D * ws.length < W64) : FitWord ws := by
  cases ws with
  | nil => exact ⟨1, by decide, by decide, by simp, by decide⟩
  | cons w ws =>
    refine ⟨D, hD, ?_, fun n d h => ⟨(hw n d h).1, (hw n d h).2.1⟩, Nat.lt_of_le_of_lt ?_ hl⟩
    · refine Nat.lt_of_le_of_lt (Nat.le_mul_of_pos_right D ?_) hl
      simp
    · generalize w :: ws = l at hw
      clear hl
      induction l with
      | nil => simp
      | cons x xs ih =>
        simp only [List.map_cons, List.sum_cons, List.length_cons, Nat.mul_add, Nat.mul_one]
        have h1 := ih fun n d h => hw n d (List.mem_cons_of_mem _ h)
        have h2 : x.over D ≤ D := by
          cases x with
          | nan => simp [Frac.over]
          | inf => simp [Frac.over]
          | rat n d =>
            obtain ⟨-, h3, h4⟩ := hw n d (by simp)
            simp only [Frac.over]
            calc n * (D / d) ≤ d * (D / d) := Nat.mul_le_mul_right _ h4
              _ = D := Nat.mul_div_cancel' h3
        omega

/-- **C80.** Whatever overflows, the program never takes signatures for enough that are not: if it accepts, the exact check
accepts.  Clauses must have fewer than 2^16 weights. -/
theorem C80_never_more (o : Overflow) (t : Threshold) (sigs : List AttachedSignaturePrefix)
    (hw : ∀ w ∈ t.weights, w.Held) (hl : ∀ cs, t = .multi cs → ∀ c ∈ cs, c.length < W16)
    (h : t.enoughM o sigs = .ok true) : t.enough sigs = .ok true ∧ t.MetBy sigs := by
  have key : t.enough sigs = .ok true := by
    cases t with
    | simple n => exact h
    | single c => exact Threshold.clauseEnoughM_sound o c hw 0 sigs h
    | multi cs =>
      refine Threshold.multiEnoughM_sound o sigs cs 0 (fun c hc => ⟨hl cs rfl c hc, fun w hx => hw w ?_⟩) (by decide) h
      simp only [Threshold.weights, List.mem_flatten]
      exact ⟨c, hc, hx⟩
  exact ⟨key, (enough_iff t sigs).1 key⟩

/-- so every set of signatures a key configuration accepts in machine words, it accepts exactly -/
theorem C80_verify_never_more (o : Overflow) (env : Env) (kc : KeyConfig) (msg : Bytes) (sigs : List AttachedSignaturePrefix)
    (hw : ∀ w ∈ kc.threshold.weights, w.Held) (hl : ∀ cs, kc.threshold = .multi cs → ∀ c ∈ cs, c.length < W16)
    (h : kc.verifyM o env msg sigs = .ok true) : kc.verify env msg sigs = .ok true := by
  rw [KeyConfig.verifyM] at h
  rw [KeyConfig.verify]
  cases he : kc.threshold.enoughM o sigs with
  | err e => rw [he] at h; cases h
  | panic => rw [he] at h; cases h
  | ok b =>
    rw [he] at h
    cases b with
    | false => cases h
    | true => rw [(C80_never_more o kc.threshold sigs hw hl he).1]; exact h

/-- **C80 fails** in the other direction: three weights with ordinary denominators.  The first two signatures are enough; with
the third one added the check panics with overflow checks and refuses without. -/
theorem C80_fails_overflow :
    let t : Threshold := .single [.rat 2147483646 4294967291, .rat 2147483640 4294967279, .rat 1 2]
    let two := [(⟨0, ⟨.ed25519Sha512, []⟩⟩ : AttachedSignaturePrefix), ⟨1, ⟨.ed25519Sha512, []⟩⟩]
    let three := two ++ [⟨2, ⟨.ed25519Sha512, []⟩⟩]
    (∀ o, t.enoughM o two = .ok true) ∧ t.enough three = .ok true ∧
    t.enoughM .checked three = .panic ∧ t.enoughM .wrapping three = .ok false := by
  refine ⟨?_, by decide +kernel, by decide +kernel, by decide +kernel⟩
  intro o; cases o <;> decide +kernel

theorem selected_filter_replicate (n : Nat) (w : Frac) : (List.replicate (n + 1) w)[0]? = some w := by simp

theorem selected_second_replicate (n : Nat) (w : Frac) : (List.replicate (n + 2) w)[0 + 1]? = some w := by simp

/-- **C80 fails** for a clause of 2^16 weights or more: its length is truncated, so it covers fewer keys than it lists and
the next clause covers keys that belong to it. -/
theorem C80_fails_long_clause (o : Overflow) :
    let t : Threshold := .multi [List.replicate 65537 (.rat 1 1), [.rat 1 1]]
    let sigs := [(⟨0, ⟨.ed25519Sha512, []⟩⟩ : AttachedSignaturePrefix), ⟨1, ⟨.ed25519Sha512, []⟩⟩]
    t.enoughM o sigs = .ok true ∧ t.enough sigs = .ok false := by
  refine ⟨?_, ?_⟩
  · simp only [Threshold.enoughM, Threshold.multiEnoughM, List.length_replicate]
    rw [Overflow.word_lt o (by decide)]
    simp only [Res.bind, ↓reduceIte]
    have h1 : (0 + 65537 % W16) = 1 := by decide
    rw [h1]
    have hf : ([(⟨0, ⟨.ed25519Sha512, []⟩⟩ : AttachedSignaturePrefix), ⟨1, ⟨.ed25519Sha512, []⟩⟩].filter fun s =>
      decide (0 ≤ s.index) && decide (s.index < 1)) = [⟨0, ⟨.ed25519Sha512, []⟩⟩] := by decide
    rw [hf]
    have hc : Threshold.clauseEnoughM o (List.replicate 65537 (.rat 1 1)) 0 [⟨0, ⟨.ed25519Sha512, []⟩⟩] = .ok true := by
      rw [Threshold.clauseEnoughM, Threshold.clauseSumM, Nat.sub_self, selected_filter_replicate 65536]
      cases o <;> decide
    rw [hc]
    simp only
    cases o <;> decide
  · simp only [Threshold.enough, Threshold.multiEnough, List.length_replicate, ↓reduceIte]
    have hf : ([(⟨0, ⟨.ed25519Sha512, []⟩⟩ : AttachedSignaturePrefix), ⟨1, ⟨.ed25519Sha512, []⟩⟩].filter fun s =>
      decide (0 ≤ s.index) && decide (s.index < 0 + 65537)) = [⟨0, ⟨.ed25519Sha512, []⟩⟩, ⟨1, ⟨.ed25519Sha512, []⟩⟩] := by decide
    rw [hf]
    have hc : Threshold.clauseEnough (List.replicate 65537 (.rat 1 1)) 0 [⟨0, ⟨.ed25519Sha512, []⟩⟩, ⟨1, ⟨.ed25519Sha512, []⟩⟩] = .ok true := by
      rw [Threshold.clauseEnough, Threshold.clauseSum, Nat.sub_self, selected_filter_replicate 65536]
      simp only
      rw [Threshold.clauseSum]
      rw [show (1 - 0 : Nat) = 0 + 1 from rfl, selected_second_replicate 65535]
      decide
    rw [hc]
    decide

/-- the hypotheses hold for the thresholds of the repository's tests: `[["1"], ["1/2","1/2","1/2"]]` with signatures 0, 1, 3 -/
example : (Threshold.multi [[.rat 1 1], [.rat 1 2, .rat 1 2, .rat 1 2]]).FitWords
    [⟨0, ⟨.ed25519Sha512, []⟩⟩, ⟨1, ⟨.ed25519Sha512, []⟩⟩, ⟨3, ⟨.ed25519Sha512, []⟩⟩] := by
  refine ⟨by decide, ?_⟩
  intro before c rest e
  rcases before with _ | ⟨b1, _ | ⟨b2, bs⟩⟩
  · simp only [List.nil_append, List.cons.injEq] at e
    obtain ⟨rfl, -⟩ := e
    exact C80_ordinary_weights _ 1 (by decide) (by simp [selected]) (by decide)
  · simp only [List.cons_append, List.nil_append, List.cons.injEq] at e
    obtain ⟨rfl, rfl, -⟩ := e
    refine C80_ordinary_weights _ 2 (by decide) ?_ (by decide)
    simp [selected]
  · simp at e

/-- and there the check says yes -/
example (o : Overflow) : (Threshold.multi [[.rat 1 1], [.rat 1 2, .rat 1 2, .rat 1 2]]).enoughM o
    [⟨0, ⟨.ed25519Sha512, []⟩⟩, ⟨1, ⟨.ed25519Sha512, []⟩⟩, ⟨3, ⟨.ed25519Sha512, []⟩⟩] = .ok true := by
  cases o <;> decide +kernel

end Keriox
