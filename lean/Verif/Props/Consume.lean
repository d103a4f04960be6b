import Verif.Props.Panic2
import Verif.QueryWire

/-! C87: what the parsers of streams consume. -/

namespace Keriox

/-! ## Specification -/

/-- what a successful parse leaves over is an end of the input -/
def Suf {α : Type} (s : Bytes) (x : IRes α) : Prop := ∀ r a, x = .ok r a → r <:+ s

/-- what a successful parse leaves over is an end of the input, shorter than it -/
def Eats {α : Type} (s : Bytes) (x : IRes α) : Prop := ∀ r a, x = .ok r a → r <:+ s ∧ r.length < s.length

/-- `p` is applied again and again until it refuses: the values `as` are read off `s`, each from the bytes that the one before left over, and `p` refuses
(recoverably) what is left in the end -/
inductive ReadsOff {α : Type} (p : Bytes → IRes α) : Bytes → List α → Bytes → Prop
  | stop {s} : p s = .error → ReadsOff p s [] s
  | next {s r a as rest} : p s = .ok r a → ReadsOff p r as rest → ReadsOff p s (a :: as) rest

/-! ## Combinators -/

theorem Suf.ok {α : Type} {s r : Bytes} (a : α) (h : r <:+ s) : Suf s (IRes.ok r a) := by rintro _ _ ⟨⟩; exact h
theorem Suf.error {α : Type} {s : Bytes} : Suf s (IRes.error : IRes α) := by rintro _ _ ⟨⟩
theorem Suf.failure {α : Type} {s : Bytes} : Suf s (IRes.failure : IRes α) := by rintro _ _ ⟨⟩
theorem Suf.incomplete {α : Type} {s : Bytes} : Suf s (IRes.incomplete : IRes α) := by rintro _ _ ⟨⟩
theorem Suf.panic {α : Type} {s : Bytes} : Suf s (IRes.panic : IRes α) := by rintro _ _ ⟨⟩

theorem Suf.andThen {α β : Type} {s : Bytes} {x : IRes α} {f : Bytes → α → IRes β} (h : Suf s x) (hf : ∀ r a, x = .ok r a → Suf r (f r a)) :
    Suf s (x.andThen f) := by
  cases x with
  | ok r a => exact fun r' b hb => (hf r a rfl r' b hb).trans (h r a rfl)
  | error => exact .error
  | failure => exact .failure
  | incomplete => exact .incomplete
  | panic => exact .panic

theorem Eats.andThen {α β : Type} {s : Bytes} {x : IRes α} {f : Bytes → α → IRes β} (h : Eats s x) (hf : ∀ r a, x = .ok r a → Suf r (f r a)) :
    Eats s (x.andThen f) := by
  cases x with
  | ok r a =>
    intro r' b hb
    have h1 := hf r a rfl r' b hb
    have h2 := h r a rfl
    exact ⟨h1.trans h2.1, Nat.lt_of_le_of_lt h1.length_le h2.2⟩
  | error => rintro _ _ ⟨⟩
  | failure => rintro _ _ ⟨⟩
  | incomplete => rintro _ _ ⟨⟩
  | panic => rintro _ _ ⟨⟩

theorem Eats.suf {α : Type} {s : Bytes} {x : IRes α} (h : Eats s x) : Suf s x := fun r a hx => (h r a hx).1

theorem Suf.takeN (n : Nat) (s : Bytes) : Suf s (takeN n s) := fun _ _ h => ⟨_, (takeN_ok h).1.symm⟩

theorem Suf.ofResError {α : Type} (x : Res α) (r : Bytes) : Suf r (IRes.ofResError x r) := by
  cases x with
  | ok a => exact .ok a (List.suffix_refl r)
  | err e => exact .error
  | panic => exact .panic

theorem Suf.ofResFailure {α : Type} (x : Res α) (r : Bytes) : Suf r (IRes.ofResFailure x r) := by
  cases x with
  | ok a => exact .ok a (List.suffix_refl r)
  | err e => exact .failure
  | panic => exact .panic

theorem Suf.codeParse {α : Type} (p : Bytes → Res α) (c r : Bytes) : Suf r (codeParse p c r) := by
  unfold Keriox.codeParse
  split
  · exact .ofResFailure _ _
  · exact .failure

theorem Suf.refl {α : Type} (r : Bytes) (a : α) : Suf r (IRes.ok r a) := .ok a (List.suffix_refl r)

theorem Suf.pairP {α β : Type} {p : Bytes → IRes α} {q : Bytes → IRes β} (hp : ∀ s, Suf s (p s)) (hq : ∀ s, Suf s (q s)) (s : Bytes) :
    Suf s (pairP p q s) := (hp s).andThen fun r _ _ => (hq r).andThen fun r' _ _ => .refl r' _

theorem Suf.countP {α : Type} {p : Bytes → IRes α} (hp : ∀ s, Suf s (p s)) : ∀ (n : Nat) (s : Bytes), Suf s (countP p n s)
  | 0, s => .refl s _
  | n + 1, s => (hp s).andThen fun r _ _ => (Suf.countP hp n r).andThen fun r' _ _ => .refl r' _

theorem Suf.many0P {α : Type} {p : Bytes → IRes α} (hp : ∀ s, Suf s (p s)) : ∀ (n : Nat) (s : Bytes), Suf s (many0P p n s)
  | 0, s => .panic
  | n + 1, s => by
    unfold Keriox.many0P
    cases h : p s with
    | ok r a =>
      dsimp only
      split
      · exact .error
      · exact fun r' b hb => ((Suf.many0P hp n r).andThen fun r' _ _ => Suf.refl r' _) r' b hb |>.trans (hp s r a h)
    | error => exact .refl s _
    | failure => exact .failure
    | incomplete => exact .incomplete
    | panic => exact .panic

theorem Suf.altP {α : Type} {p q : Bytes → IRes α} {s : Bytes} (hp : Suf s (p s)) (hq : Suf s (q s)) : Suf s (altP p q s) := by
  unfold Keriox.altP
  split
  · exact hq
  · exact hp

theorem Eats.altP {α : Type} {p q : Bytes → IRes α} {s : Bytes} (hp : Eats s (p s)) (hq : Eats s (q s)) : Eats s (altP p q s) := by
  unfold Keriox.altP
  split
  · exact hq
  · exact hp

/-! ## Attachments -/

theorem basicPrefixP_suf (s : Bytes) : Suf s (basicPrefixP s) := by
  unfold basicPrefixP
  intro r a h
  cases h1 : takeN 1 s with
  | ok r1 t =>
    rw [h1] at h
    exact ((Suf.takeN _ s).andThen fun r _ _ => (Suf.codeParse _ _ r).andThen fun r _ _ => (Suf.takeN _ r).andThen fun r _ _ =>
      (Suf.ofResError _ r).andThen fun r _ _ => .refl r _) r a h
  | error => rw [h1] at h; cases h
  | failure => rw [h1] at h; cases h
  | incomplete => rw [h1] at h; cases h
  | panic => rw [h1] at h; cases h

theorem selfAddressingPrefixP_suf (s : Bytes) : Suf s (selfAddressingPrefixP s) := by
  unfold selfAddressingPrefixP
  intro r a h
  cases h1 : takeN 1 s with
  | ok r1 t =>
    rw [h1] at h
    exact ((Suf.takeN _ s).andThen fun r _ _ => (Suf.codeParse _ _ r).andThen fun r _ _ => (Suf.takeN _ r).andThen fun r _ _ =>
      Suf.codeParse _ _ r) r a h
  | error => rw [h1] at h; cases h
  | failure => rw [h1] at h; cases h
  | incomplete => rw [h1] at h; cases h
  | panic => rw [h1] at h; cases h

theorem selfSigningPrefixP_suf (s : Bytes) : Suf s (selfSigningPrefixP s) := by
  unfold selfSigningPrefixP
  intro r a h
  cases h1 : takeN 1 s with
  | ok r1 t =>
    rw [h1] at h
    exact ((Suf.takeN _ s).andThen fun r _ _ => (Suf.codeParse _ _ r).andThen fun r _ _ => (Suf.takeN _ r).andThen fun r _ _ =>
      (Suf.ofResError _ r).andThen fun r _ _ => .refl r _) r a h
  | error => rw [h1] at h; cases h
  | failure => rw [h1] at h; cases h
  | incomplete => rw [h1] at h; cases h
  | panic => rw [h1] at h; cases h

theorem prefixP_suf (s : Bytes) : Suf s (prefixP s) := by
  unfold prefixP
  have hs := selfAddressingPrefixP_suf s
  cases h : selfAddressingPrefixP s with
  | ok r a => exact .ok _ (hs r a h)
  | panic => exact .panic
  | error => exact (basicPrefixP_suf s).andThen fun r _ _ => .refl r _
  | failure => exact (basicPrefixP_suf s).andThen fun r _ _ => .refl r _
  | incomplete => exact (basicPrefixP_suf s).andThen fun r _ _ => .refl r _

theorem attachedSnP_suf (s : Bytes) : Suf s (attachedSnP s) := by
  refine (Suf.takeN _ s).andThen fun r _ _ => ?_
  split
  · refine (Suf.takeN _ r).andThen fun r _ _ => (Suf.ofResFailure _ r).andThen fun r _ _ => ?_
    split
    · exact .refl r _
    · exact .panic
  · exact .error

theorem attachedSignatureP_suf (s : Bytes) : Suf s (attachedSignatureP s) := by
  refine (Suf.takeN _ s).andThen fun r _ _ => ?_
  dsimp only
  split
  · exact (Suf.takeN _ r).andThen fun r _ _ => (Suf.ofResError _ r).andThen fun r _ _ => (Suf.takeN _ r).andThen fun r _ _ =>
      (Suf.ofResError _ r).andThen fun r _ _ => .refl r _
  · split
    · exact (Suf.takeN _ r).andThen fun r _ _ => (Suf.ofResError _ r).andThen fun r _ _ => (Suf.takeN _ r).andThen fun r _ _ =>
        (Suf.ofResError _ r).andThen fun r _ _ => .refl r _
    · split
      · refine (Suf.takeN _ r).andThen fun r _ _ => ?_
        split
        · exact (Suf.takeN _ r).andThen fun r _ _ => (Suf.ofResError _ r).andThen fun r _ _ => (Suf.takeN _ r).andThen fun r _ _ =>
            (Suf.ofResError _ r).andThen fun r _ _ => .refl r _
        · exact .error
      · exact .error

theorem b64CountP_suf (s : Bytes) : Suf s (b64CountP s) := (Suf.takeN _ s).andThen fun r _ _ => Suf.ofResFailure _ r

theorem attachmentF_suf : ∀ (n : Nat) (s : Bytes), Suf s (attachmentF n s)
  | 0, s => .panic
  | n + 1, s => by
    rw [attachmentF_step]
    unfold attStep
    refine (Suf.takeN _ s).andThen fun r pt _ => ?_
    split
    · exact .failure
    · have hsig : ∀ t, Suf t (sigsOf (attachmentF n) t) := by
        intro t
        unfold sigsOf
        refine (attachmentF_suf n t).andThen fun r a _ => ?_
        split
        · exact .refl r _
        · exact .error
      split
      · exact .error
      · unfold codeStep
        split
        · exact ((b64CountP_suf r).andThen fun r _ _ => (Suf.countP (Suf.pairP attachedSnP_suf selfAddressingPrefixP_suf) _ r).andThen fun r _ _ => .refl r _).andThen
            fun r _ _ => .refl r _
        · exact (b64CountP_suf r).andThen fun r _ _ => (Suf.countP (Suf.pairP (fun t => (prefixP_suf t).andThen fun r _ _ =>
            (attachedSnP_suf r).andThen fun r _ _ => (selfAddressingPrefixP_suf r).andThen fun r _ _ => .refl r _) hsig) _ r).andThen fun r _ _ => .refl r _
        · exact ((b64CountP_suf r).andThen fun r _ _ => Suf.countP attachedSignatureP_suf _ r).andThen fun r _ _ => .refl r _
        · exact ((b64CountP_suf r).andThen fun r _ _ => Suf.countP (Suf.pairP basicPrefixP_suf selfSigningPrefixP_suf) _ r).andThen fun r _ _ => .refl r _
        · exact (b64CountP_suf r).andThen fun r _ _ => (Suf.countP (Suf.pairP prefixP_suf hsig) _ r).andThen fun r _ _ => .refl r _
        · refine (b64CountP_suf r).andThen fun r sc _ => ?_
          unfold frameStep
          cases ht : takeN (sc * 4) r with
          | ok r' total =>
            intro x a hx
            dsimp only at hx
            cases hm : many0P (attachmentF n) (total.length + 1) total with
            | ok extra atts =>
              rw [hm, IRes.andThen_ok] at hx
              split at hx
              · cases hx; exact Suf.takeN _ r _ _ ht
              · split at hx <;> cases hx
            | error => rw [hm] at hx; cases hx
            | failure => rw [hm] at hx; cases hx
            | incomplete => rw [hm] at hx; cases hx
            | panic => rw [hm] at hx; cases hx
          | error => exact .incomplete
          | failure => exact .failure
          | incomplete => exact .incomplete
          | panic => exact .panic
        · exact .panic

theorem attachmentP_eats (s : Bytes) : Eats s (attachmentP s) := fun r a h => ⟨attachmentF_suf _ s r a h, attachmentP_consumes h⟩

/-! ## JSON -/

/-- `r` is an end of `s`, shorter than it -/
def Cut (s r : Bytes) : Prop := r <:+ s ∧ r.length < s.length

theorem Cut.cons {c : UInt8} {s r : Bytes} (h : r <:+ s) : Cut (c :: s) r :=
  ⟨h.trans (List.suffix_cons c s), by have := h.length_le; simp only [List.length_cons]; omega⟩

theorem Cut.of {s t r : Bytes} (h : Cut t r) (hs : t <:+ s) : Cut s r := ⟨h.1.trans hs, Nat.lt_of_lt_of_le h.2 hs.length_le⟩

theorem Cut.then {s t r : Bytes} (h : Cut s t) (hr : r <:+ t) : Cut s r := ⟨hr.trans h.1, Nat.lt_of_le_of_lt hr.length_le h.2⟩

theorem skipWs_suf (s : Bytes) : skipWs s <:+ s := List.dropWhile_suffix _

theorem hex4_suf {s r : Bytes} {n : Nat} (h : hex4 s = some (n, r)) : r <:+ s := by
  unfold hex4 at h
  split at h
  · split at h
    · cases h
      exact ⟨[_, _, _, _], rfl⟩
    · cases h
  · cases h

theorem unicodeEscape_suf {s r b : Bytes} (h : unicodeEscape s = some (b, r)) : r <:+ s := by
  unfold unicodeEscape at h
  cases h4 : hex4 s with
  | none => rw [h4] at h; cases h
  | some p =>
    obtain ⟨n, t⟩ := p
    rw [h4] at h
    dsimp only at h
    split at h
    · cases h
    · split at h
      · split at h
        · rename_i r' 
          cases h5 : hex4 r' with
          | none => rw [h5] at h; cases h
          | some q =>
            obtain ⟨m, t'⟩ := q
            rw [h5] at h
            dsimp only at h
            split at h
            · simp only [Option.some.injEq, Prod.mk.injEq] at h
              obtain ⟨_, rfl⟩ := h
              exact (hex4_suf h5).trans (List.IsSuffix.trans ⟨[92, 117], rfl⟩ (hex4_suf h4))
            · cases h
        · cases h
      · cases h; exact hex4_suf h4

theorem escapeSeq_suf {s r b : Bytes} (h : escapeSeq s = some (b, r)) : r <:+ s := by
  unfold escapeSeq at h
  split at h
  · cases h
  · rename_i c t
    have hc := List.suffix_cons c t
    split at h
    · cases h; exact hc
    split at h
    · cases h; exact hc
    split at h
    · cases h; exact hc
    split at h
    · cases h; exact hc
    split at h
    · cases h; exact hc
    split at h
    · cases h; exact hc
    split at h
    · cases h; exact hc
    split at h
    · cases h; exact hc
    split at h
    · exact (unicodeEscape_suf h).trans hc
    · cases h

theorem strBody_cut : ∀ (n : Nat) {s b r : Bytes}, strBody n s = some (b, r) → Cut s r
  | 0, _, _, _, h => by cases h
  | n + 1, s, b, r, h => by
    unfold strBody at h
    split at h
    · cases h
    · rename_i c t
      split at h
      · cases h; exact .cons (List.suffix_refl _)
      · split at h
        · cases he : escapeSeq t with
          | none => rw [he] at h; cases h
          | some p =>
            obtain ⟨bs, r'⟩ := p
            rw [he] at h
            dsimp only at h
            cases hb : strBody n r' with
            | none => rw [hb] at h; cases h
            | some q =>
              rw [hb] at h
              cases h
              exact .cons ((strBody_cut n hb).1.trans (escapeSeq_suf he))
        · split at h
          · cases h
          · cases hb : strBody n t with
            | none => rw [hb] at h; cases h
            | some q =>
              rw [hb] at h
              cases h
              exact .cons (strBody_cut n hb).1

theorem jsonString_cut {s b r : Bytes} (h : jsonString s = some (b, r)) : Cut s r := by
  unfold jsonString at h
  cases hb : strBody (s.length + 1) s with
  | none => rw [hb] at h; cases h
  | some p =>
    obtain ⟨b', r'⟩ := p
    rw [hb] at h
    dsimp only at h
    split at h
    · cases h; exact strBody_cut _ hb
    · cases h

theorem digits1_cut {s r : Bytes} (h : digits1 s = some r) : Cut s r := by
  unfold digits1 at h
  split at h
  · split at h
    · cases h; exact .cons (List.dropWhile_suffix _)
    · cases h
  · cases h

theorem expPart_suf {s r : Bytes} (h : expPart s = some r) : r <:+ s := by
  unfold expPart at h
  split at h
  · split at h
    · split at h
      · rename_i c _ _ d r'
        split at h
        · exact (digits1_cut h).1.trans ⟨[c, d], rfl⟩
        · exact (digits1_cut h).1.trans (List.suffix_cons c _)
      · cases h
    · cases h; exact List.suffix_refl _
  · cases h; exact List.suffix_refl _

theorem fracPart_suf {s r : Bytes} (h : fracPart s = some r) : r <:+ s := by
  unfold fracPart at h
  split at h
  · rename_i c t
    split at h
    · cases hd : digits1 t with
      | none => rw [hd] at h; cases h
      | some r' =>
        rw [hd] at h
        exact (expPart_suf h).trans ((digits1_cut hd).1.trans (List.suffix_cons c t))
    · exact expPart_suf h
  · cases h; exact List.suffix_refl _

theorem unsignedNum_cut {s r : Bytes} (h : unsignedNum s = some r) : Cut s r := by
  unfold unsignedNum at h
  split at h
  · rename_i c t
    split at h
    · split at h
      · split at h
        · cases h
        · exact .cons (fracPart_suf h)
      · cases h; exact .cons (List.suffix_refl _)
    · cases hd : digits1 (c :: t) with
      | none => rw [hd] at h; cases h
      | some r' =>
        rw [hd] at h
        exact (digits1_cut hd).then (fracPart_suf h)
  · cases h

theorem ident_suf {w s r : Bytes} (h : ident w s = some r) : r <:+ s := by
  unfold ident at h
  split at h
  · cases h; exact List.drop_suffix _ _
  · cases h

theorem json_cut : ∀ (n : Nat),
    (∀ d s v r, jsonValue n d s = some (v, r) → Cut s r) ∧ (∀ d s v r, jsonElements n d s = some (v, r) → Cut s r) ∧
    (∀ d s v r, jsonElementsTail n d s = some (v, r) → Cut s r) ∧ (∀ d s fs r, jsonMembers n d s = (fs, some r) → Cut s r) ∧
    (∀ d s fs r, jsonMember n d s = (fs, some r) → Cut s r) ∧ (∀ d s fs r, jsonMembersTail n d s = (fs, some r) → Cut s r)
  | 0 => by
    refine ⟨?_, ?_, ?_, ?_, ?_, ?_⟩ <;> intro d s v r h <;> simp [jsonValue, jsonElements, jsonElementsTail, jsonMembers, jsonMember, jsonMembersTail] at h
  | n + 1 => by
    obtain ⟨iv, ie, iet, ims, im, imt⟩ := json_cut n
    refine ⟨?_, ?_, ?_, ?_, ?_, ?_⟩ <;> intro d s v r h
    · rw [jsonValue.eq_2] at h
      have hw := skipWs_suf s
      cases hs : skipWs s with
      | nil => rw [hs] at h; cases h
      | cons c t =>
        rw [hs] at h hw
        refine Cut.of ?_ hw
        dsimp only at h
        have aux : ∀ {α β : Type} {o : Option α} {f : α → β} {y : β}, o.map f = some y → ∃ x, o = some x ∧ f x = y :=
          fun h => Option.map_eq_some_iff.1 h
        split at h
        · obtain ⟨x, h1, h2⟩ := aux h; cases h2; exact .cons (ident_suf h1)
        split at h
        · obtain ⟨x, h1, h2⟩ := aux h; cases h2; exact .cons (ident_suf h1)
        split at h
        · obtain ⟨x, h1, h2⟩ := aux h; cases h2; exact .cons (ident_suf h1)
        split at h
        · obtain ⟨x, h1, h2⟩ := aux h; cases h2; exact .cons (jsonString_cut h1).1
        split at h
        · split at h
          · cases h
          · obtain ⟨x, h1, h2⟩ := aux h; cases h2; exact .cons (ie _ _ _ _ h1).1
        split at h
        · split at h
          · cases h
          · cases hm : jsonMembers n (d - 1) t with
            | mk fs o =>
              rw [hm] at h
              cases o with
              | none => cases h
              | some r' => cases h; exact .cons (ims _ _ _ _ hm).1
        split at h
        · obtain ⟨x, h1, h2⟩ := aux h; cases h2; exact .cons (unsignedNum_cut h1).1
        · obtain ⟨x, h1, h2⟩ := aux h; cases h2; exact unsignedNum_cut h1
    · rw [jsonElements.eq_2] at h
      have hw := skipWs_suf s
      cases hs : skipWs s with
      | nil => rw [hs] at h; cases h
      | cons c t =>
        rw [hs] at h hw
        refine Cut.of ?_ hw
        dsimp only at h
        split at h
        · cases h; exact .cons (List.suffix_refl _)
        · cases hv : jsonValue n d (c :: t) with
          | none => rw [hv] at h; cases h
          | some p =>
            obtain ⟨x, r1⟩ := p
            rw [hv] at h
            obtain ⟨y, h1, h2⟩ := Option.map_eq_some_iff.1 h
            cases h2
            exact (iv _ _ _ _ hv).then (iet _ _ _ _ h1).1
    · rw [jsonElementsTail.eq_2] at h
      have hw := skipWs_suf s
      cases hs : skipWs s with
      | nil => rw [hs] at h; cases h
      | cons c t =>
        rw [hs] at h hw
        refine Cut.of ?_ hw
        dsimp only at h
        split at h
        · cases h; exact .cons (List.suffix_refl _)
        · split at h
          · cases hv : jsonValue n d t with
            | none => rw [hv] at h; cases h
            | some p =>
              obtain ⟨x, r1⟩ := p
              rw [hv] at h
              obtain ⟨y, h1, h2⟩ := Option.map_eq_some_iff.1 h
              cases h2
              exact .cons ((iet _ _ _ _ h1).1.trans (iv _ _ _ _ hv).1)
          · cases h
    · rw [jsonMembers.eq_2] at h
      have hw := skipWs_suf s
      cases hs : skipWs s with
      | nil => rw [hs] at h; cases h
      | cons c t =>
        rw [hs] at h hw
        refine Cut.of ?_ hw
        dsimp only at h
        split at h
        · cases h; exact .cons (List.suffix_refl _)
        · exact im _ _ _ _ h
    · rw [jsonMember.eq_2] at h
      have hw := skipWs_suf s
      cases hs : skipWs s with
      | nil => rw [hs] at h; cases h
      | cons c t =>
        rw [hs] at h hw
        refine Cut.of ?_ hw
        dsimp only at h
        split at h
        · cases hj : jsonString t with
          | none => rw [hj] at h; cases h
          | some p =>
            obtain ⟨k, r1⟩ := p
            rw [hj] at h
            dsimp only at h
            have hw1 := skipWs_suf r1
            cases hs1 : skipWs r1 with
            | nil => rw [hs1] at h; cases h
            | cons c' t' =>
              rw [hs1] at h hw1
              dsimp only at h
              split at h
              · cases hv : jsonValue n d t' with
                | none => rw [hv] at h; cases h
                | some q =>
                  obtain ⟨x, r2⟩ := q
                  rw [hv] at h
                  dsimp only at h
                  cases hm : jsonMembersTail n d r2 with
                  | mk fs o =>
                    rw [hm] at h
                    cases h
                    exact .cons ((imt _ _ _ _ hm).1.trans ((iv _ _ _ _ hv).1.trans ((List.suffix_cons c' t').trans (hw1.trans (jsonString_cut hj).1))))
              · cases h
        · cases h
    · rw [jsonMembersTail.eq_2] at h
      have hw := skipWs_suf s
      cases hs : skipWs s with
      | nil => rw [hs] at h; cases h
      | cons c t =>
        rw [hs] at h hw
        refine Cut.of ?_ hw
        dsimp only at h
        split at h
        · cases h; exact .cons (List.suffix_refl _)
        · split at h
          · exact .cons (im _ _ _ _ h).1
          · cases h

theorem jsonTop_cut {s r : Bytes} {fs : List (Bytes × JVal)} (h : jsonTop s = (fs, some r)) : Cut s r := by
  unfold jsonTop at h
  have hw := skipWs_suf s
  cases hs : skipWs s with
  | nil => rw [hs] at h; cases h
  | cons c t =>
    rw [hs] at h hw
    dsimp only at h
    split at h
    · exact Cut.of (.cons ((json_cut _).2.2.2.1 _ _ _ _ h).1) hw
    · cases h

theorem jsonMessage_eats {α : Type} (inner : List (Bytes × JVal) → Res α) (s : Bytes) : Eats s (jsonMessage inner s) := by
  intro r a h
  unfold jsonMessage desMessage at h
  cases ht : jsonTop s with
  | mk fs o =>
    rw [ht] at h
    cases o with
    | none =>
      cases hq : ownField (desText SerInfo.fromStr) b!"v" fs none <;> rw [hq] at h <;> cases h
    | some r' =>
      cases hq : ownField (desText SerInfo.fromStr) b!"v" fs none with
      | err e => rw [hq] at h; cases h
      | panic => rw [hq] at h; cases h
      | ok q =>
        rw [hq] at h
        simp only [Res.ok_bind, Res.ofOption] at h
        cases hn : need q.1 with
        | err e => rw [hn] at h; cases h
        | panic => rw [hn] at h; cases h
        | ok info =>
          rw [hn] at h
          simp only [Res.ok_bind] at h
          cases hi : inner q.2 with
          | err e => rw [hi] at h; cases h
          | panic => rw [hi] at h; cases h
          | ok e =>
            rw [hi] at h
            cases h
            exact jsonTop_cut ht

theorem json_fuel : ∀ (n m : Nat),
    (∀ d s, 4 * s.length + 1 ≤ n → 4 * s.length + 1 ≤ m → jsonValue n d s = jsonValue m d s) ∧
    (∀ d s, 4 * s.length + 2 ≤ n → 4 * s.length + 2 ≤ m → jsonElements n d s = jsonElements m d s) ∧
    (∀ d s, 4 * s.length + 2 ≤ n → 4 * s.length + 2 ≤ m → jsonElementsTail n d s = jsonElementsTail m d s) ∧
    (∀ d s, 4 * s.length + 2 ≤ n → 4 * s.length + 2 ≤ m → jsonMembers n d s = jsonMembers m d s) ∧
    (∀ d s, 4 * s.length + 1 ≤ n → 4 * s.length + 1 ≤ m → jsonMember n d s = jsonMember m d s) ∧
    (∀ d s, 4 * s.length + 2 ≤ n → 4 * s.length + 2 ≤ m → jsonMembersTail n d s = jsonMembersTail m d s)
  | 0, _ => by refine ⟨?_, ?_, ?_, ?_, ?_, ?_⟩ <;> intro d s h <;> omega
  | _ + 1, 0 => by refine ⟨?_, ?_, ?_, ?_, ?_, ?_⟩ <;> intro d s _ h <;> omega
  | n + 1, m + 1 => by
    obtain ⟨iv, ie, iet, ims, im, imt⟩ := json_fuel n m
    refine ⟨?_, ?_, ?_, ?_, ?_, ?_⟩ <;> intro d s hn hm
    · rw [jsonValue.eq_2, jsonValue.eq_2]
      have hw := (skipWs_suf s).length_le
      cases hs : skipWs s with
      | nil => rfl
      | cons c t =>
        rw [hs] at hw
        simp only [List.length_cons] at hw
        dsimp only
        rw [ie _ t (by omega) (by omega), ims _ t (by omega) (by omega)]
    · rw [jsonElements.eq_2, jsonElements.eq_2]
      have hw := (skipWs_suf s).length_le
      cases hs : skipWs s with
      | nil => rfl
      | cons c t =>
        rw [hs] at hw
        dsimp only
        rw [iv d (c :: t) (by omega) (by omega)]
        cases hv : jsonValue m d (c :: t) with
        | none => rfl
        | some p =>
          obtain ⟨x, r⟩ := p
          have := ((json_cut m).1 _ _ _ _ hv).2
          dsimp only
          rw [iet d r (by omega) (by omega)]
    · rw [jsonElementsTail.eq_2, jsonElementsTail.eq_2]
      have hw := (skipWs_suf s).length_le
      cases hs : skipWs s with
      | nil => rfl
      | cons c t =>
        rw [hs] at hw
        simp only [List.length_cons] at hw
        dsimp only
        rw [iv d t (by omega) (by omega)]
        cases hv : jsonValue m d t with
        | none => rfl
        | some p =>
          obtain ⟨x, r⟩ := p
          have := ((json_cut m).1 _ _ _ _ hv).2
          dsimp only
          rw [iet d r (by omega) (by omega)]
    · rw [jsonMembers.eq_2, jsonMembers.eq_2]
      have hw := (skipWs_suf s).length_le
      cases hs : skipWs s with
      | nil => rfl
      | cons c t =>
        rw [hs] at hw
        dsimp only
        rw [im d (c :: t) (by omega) (by omega)]
    · rw [jsonMember.eq_2, jsonMember.eq_2]
      have hw := (skipWs_suf s).length_le
      cases hs : skipWs s with
      | nil => rfl
      | cons c t =>
        rw [hs] at hw
        simp only [List.length_cons] at hw
        dsimp only
        cases hj : jsonString t with
        | none => rfl
        | some p =>
          obtain ⟨k, r⟩ := p
          have h1 := (jsonString_cut hj).2
          have h2 := (skipWs_suf r).length_le
          dsimp only
          cases hs' : skipWs r with
          | nil => rfl
          | cons c' t' =>
            rw [hs'] at h2
            simp only [List.length_cons] at h2
            dsimp only
            rw [iv d t' (by omega) (by omega)]
            cases hv : jsonValue m d t' with
            | none => rfl
            | some q =>
              obtain ⟨x, r2⟩ := q
              have h3 := ((json_cut m).1 _ _ _ _ hv).2
              dsimp only
              rw [imt d r2 (by omega) (by omega)]
    · rw [jsonMembersTail.eq_2, jsonMembersTail.eq_2]
      have hw := (skipWs_suf s).length_le
      cases hs : skipWs s with
      | nil => rfl
      | cons c t =>
        rw [hs] at hw
        simp only [List.length_cons] at hw
        dsimp only
        rw [im d t (by omega) (by omega)]

theorem strBody_fuel : ∀ (n m : Nat) (s : Bytes), s.length < n → s.length < m → strBody n s = strBody m s
  | 0, _, _, h, _ => by omega
  | _ + 1, 0, _, _, h => by omega
  | n + 1, m + 1, s, hn, hm => by
    unfold strBody
    cases s with
    | nil => rfl
    | cons c r =>
      simp only [List.length_cons] at hn hm
      dsimp only
      rw [strBody_fuel n m r (by omega) (by omega)]
      cases he : escapeSeq r with
      | none => rfl
      | some p =>
        obtain ⟨bs, r'⟩ := p
        have := (escapeSeq_suf he).length_le
        dsimp only
        rw [strBody_fuel n m r' (by omega) (by omega)]

/-! ## Messages -/

/-- the binary readers, which are not modelled, consume input from the front -/
structure Binary.Eats (bin : Binary) : Prop where
  event : ∀ s, Keriox.Eats s (bin.event s)
  receipt : ∀ s, Keriox.Eats s (bin.receipt s)

/-- the binary readers, which are not modelled, consume input from the front -/
structure Readers.Eats (rd : Readers) : Prop extends Binary.Eats rd.toBinary where
  reply : ∀ s, Keriox.Eats s (rd.reply s)
  query : ∀ s, Keriox.Eats s (rd.query s)

theorem keyEventMessageP_eats {bin : Binary} (hb : bin.Eats) (s : Bytes) : Eats s (keyEventMessageP bin s) :=
  (Eats.altP (jsonMessage_eats _ s) (hb.event s)).andThen fun r _ _ => .refl r _

theorem receiptMessageP_eats {bin : Binary} (hb : bin.Eats) (s : Bytes) : Eats s (receiptMessageP bin s) :=
  (Eats.altP (jsonMessage_eats _ s) (hb.receipt s)).andThen fun r _ _ => .refl r _

theorem attachments_suf (s : Bytes) : Suf s (many0P attachmentP (s.length + 1) s) := Suf.many0P (fun t => (attachmentP_eats t).suf) _ s

theorem signedMessageP_eats {bin : Binary} (hb : bin.Eats) (s : Bytes) : Eats s (signedMessageP bin s) :=
  (Eats.altP (keyEventMessageP_eats hb s) (receiptMessageP_eats hb s)).andThen fun r _ _ => (attachments_suf r).andThen fun r _ _ => .refl r _

theorem anyMessageP_eats {rd : Readers} (hr : rd.Eats) (s : Bytes) : Eats s (anyMessageP rd s) :=
  Eats.altP ((keyEventMessageP_eats hr.toEats s).andThen fun r _ _ => .refl r _)
    (Eats.altP ((Eats.altP ((jsonMessage_eats _ s).andThen fun r _ _ => .refl r _) (hr.reply s)).andThen fun r _ _ => .refl r _)
      (Eats.altP ((Eats.altP ((jsonMessage_eats _ s).andThen fun r _ _ => .refl r _) (hr.query s)).andThen fun r _ _ => .refl r _)
        ((receiptMessageP_eats hr.toEats s).andThen fun r _ _ => .refl r _)))

theorem signedMessageQ_eats {rd : Readers} (hr : rd.Eats) (s : Bytes) : Eats s (signedMessageQ rd s) :=
  (anyMessageP_eats hr s).andThen fun r _ _ => (attachments_suf r).andThen fun r _ _ => .refl r _

/-! ## Repetition -/

theorem many0P_reads {α : Type} {p : Bytes → IRes α} (hp : ∀ s, Eats s (p s)) : ∀ (n : Nat) (s : Bytes), s.length < n → ∀ as rest,
    (many0P p n s = .ok rest as ↔ ReadsOff p s as rest)
  | 0, s, h => by omega
  | n + 1, s, h => by
    intro as rest
    rw [many0P.eq_2]
    cases hs : p s with
    | error =>
      constructor
      · intro h; cases h; exact .stop hs
      · intro h
        cases h with
        | stop => rfl
        | next h' => rw [hs] at h'; cases h'
    | ok r a =>
      have hlt := (hp s r a hs).2
      dsimp only
      rw [if_neg (by omega)]
      have ih := many0P_reads hp n r (by omega)
      constructor
      · intro h
        cases hm : many0P p n r with
        | ok r' as' => rw [hm] at h; cases h; exact .next hs ((ih _ _).1 hm)
        | error => rw [hm] at h; cases h
        | failure => rw [hm] at h; cases h
        | incomplete => rw [hm] at h; cases h
        | panic => rw [hm] at h; cases h
      · intro h
        cases h with
        | stop h' => rw [hs] at h'; cases h'
        | next h' h'' =>
          rw [hs] at h'
          cases h'
          rw [(ih _ _).2 h'']
          rfl
    | failure =>
      refine ⟨(nomatch ·), fun h => ?_⟩
      cases h with
      | stop h' => rw [hs] at h'; cases h'
      | next h' => rw [hs] at h'; cases h'
    | incomplete =>
      refine ⟨(nomatch ·), fun h => ?_⟩
      cases h with
      | stop h' => rw [hs] at h'; cases h'
      | next h' => rw [hs] at h'; cases h'
    | panic =>
      refine ⟨(nomatch ·), fun h => ?_⟩
      cases h with
      | stop h' => rw [hs] at h'; cases h'
      | next h' => rw [hs] at h'; cases h'

/-- the text is cut into one non-empty piece for each value and what is left over -/
theorem ReadsOff.pieces {α : Type} {p : Bytes → IRes α} (hp : ∀ s, Eats s (p s)) {s : Bytes} {as : List α} {rest : Bytes} (h : ReadsOff p s as rest) :
    ∃ ts : List Bytes, s = ts.flatten ++ rest ∧ ts.length = as.length ∧ ∀ t ∈ ts, t ≠ [] := by
  induction h with
  | stop => exact ⟨[], rfl, rfl, by simp⟩
  | @next s r a as rest h1 _ ih =>
    obtain ⟨ts, h2, h3, h4⟩ := ih
    obtain ⟨⟨t, ht⟩, hl⟩ := hp _ _ _ h1
    refine ⟨t :: ts, by rw [← ht, h2]; simp, by simp [h3], ?_⟩
    intro x hx
    rcases List.mem_cons.1 hx with rfl | hx
    · rintro rfl
      rw [List.nil_append] at ht
      rw [ht] at hl
      omega
    · exact h4 x hx

/-! ## C87 -/

/-- C87, the bounds of recursion in the model are no bounds: with any larger ones the readers of attachments, of JSON objects and of JSON strings give the same. -/
theorem C87_no_bounds (s : Bytes) (k : Nat) :
    attachmentP s = attachmentF (s.length + 1 + k) s ∧
    jsonTop s = (match skipWs s with
      | [] => ([], none)
      | c :: r => if c = 123 then jsonMembers (4 * r.length + 4 + k) 127 r else ([], none)) ∧
    jsonString s = (match strBody (s.length + 1 + k) s with
      | some (b, r) => if utf8Valid b then some (b, r) else none
      | none => none) := by
  refine ⟨attachmentF_fuel _ _ s (by omega) (by omega), ?_, ?_⟩
  · unfold jsonTop
    cases skipWs s with
    | nil => rfl
    | cons c r =>
      dsimp only
      rw [(json_fuel (4 * r.length + 4) (4 * r.length + 4 + k)).2.2.2.1 127 r (by omega) (by omega)]
  · unfold jsonString
    rw [strBody_fuel (s.length + 1) (s.length + 1 + k) s (by omega) (by omega)]
    cases strBody (s.length + 1 + k) s <;> rfl

/-- C87: a signed message, when one is read, takes at least one byte from the front of the input and leaves the rest untouched; with the `query` feature too. -/
theorem C87_message (bin : Binary) (hb : bin.Eats) (rd : Readers) (hr : rd.Eats) (s : Bytes) :
    (∀ rest d, signedMessageP bin s = .ok rest d → ∃ t, t ≠ [] ∧ s = t ++ rest) ∧
    (∀ rest d, signedMessageQ rd s = .ok rest d → ∃ t, t ≠ [] ∧ s = t ++ rest) := by
  have aux : ∀ rest : Bytes, (rest <:+ s ∧ rest.length < s.length) → ∃ t, t ≠ [] ∧ s = t ++ rest := by
    rintro rest ⟨⟨t, ht⟩, hl⟩
    refine ⟨t, ?_, ht.symm⟩
    rintro rfl
    rw [List.nil_append] at ht
    rw [ht] at hl
    omega
  exact ⟨fun rest d h => aux rest (signedMessageP_eats hb s rest d h), fun rest d h => aux rest (signedMessageQ_eats hr s rest d h)⟩

/-- C87: a stream parse succeeds exactly when the messages can be read off one after the other up to a point where reading a message is refused recoverably, and
then its result is those messages and the bytes from that point on. -/
theorem C87_stream (bin : Binary) (hb : bin.Eats) (s : Bytes) (ds : List SignedEventData) (rest : Bytes) :
    signedEventStreamP bin s = .ok rest ds ↔ ReadsOff (signedMessageP bin) s ds rest :=
  many0P_reads (signedMessageP_eats hb) _ s (Nat.lt_succ_self _) ds rest

/-- C87: the same with the `query` feature. -/
theorem C87_stream_query (rd : Readers) (hr : rd.Eats) (s : Bytes) (ds : List SignedDataQ) (rest : Bytes) :
    signedStreamQ rd s = .ok rest ds ↔ ReadsOff (signedMessageQ rd) s ds rest :=
  many0P_reads (signedMessageQ_eats hr) _ s (Nat.lt_succ_self _) ds rest

/-- C87: no byte is lost or read twice: the input of a successful stream parse is cut into one non-empty piece per message, in order, and the
bytes left over; so there are no more messages than bytes. -/
theorem C87_pieces (bin : Binary) (hb : bin.Eats) (s : Bytes) (ds : List SignedEventData) (rest : Bytes)
    (h : signedEventStreamP bin s = .ok rest ds) :
    (∃ ts : List Bytes, s = ts.flatten ++ rest ∧ ts.length = ds.length ∧ ∀ t ∈ ts, t ≠ []) ∧ ds.length ≤ s.length := by
  obtain ⟨ts, h1, h2, h3⟩ := ((C87_stream bin hb s ds rest).1 h).pieces (signedMessageP_eats hb)
  refine ⟨⟨ts, h1, h2, h3⟩, ?_⟩
  have : ts.length ≤ ts.flatten.length := by
    clear h1 h2
    induction ts with
    | nil => exact Nat.le_refl _
    | cons t ts ih =>
      have h4 := ih fun x hx => h3 x (List.mem_cons_of_mem _ hx)
      have h5 : 0 < t.length := List.length_pos_iff.2 (h3 t (by simp))
      simp only [List.length_cons, List.flatten_cons, List.length_append]
      omega
  rw [h1, List.length_append]
  omega

/-- the hypotheses are met by readers that read JSON only -/
example : (⟨fun _ => .error, fun _ => .error⟩ : Binary).Eats :=
  { event := fun s => by rintro _ _ ⟨⟩
    receipt := fun s => by rintro _ _ ⟨⟩ }

/-- a stream of two signed interactions and a stray byte: two messages, the stray byte is left over -/
example : (match signedEventStreamP ⟨fun _ => .error, fun _ => .error⟩ (Ex.ixnText ++ Ex.ixnText ++ b!"?") with
    | .ok rest ds => decide (rest = b!"?") && decide (ds.length = 2)
    | _ => false) = true := by decide +kernel

end Keriox
