import Verif.Props.Panic
import Verif.Props.Kerl
/-!
# Property C63, second part: what follows the JSON message

The attachment parser crashes exactly when it comes to read, as an attachment, a text that begins with one of sixteen codes it does
not handle, or a frame with unread bytes at its end that is followed by more bytes than it holds.
-/
namespace Keriox

/-! ## Specification -/

/-- the payload codes `attachment` does not handle (`todo!()`, event_parsing/attachment.rs:166) -/
def unsupportedCodes : List Bytes :=
  [b!"0A", b!"0B", b!"0C", b!"0D", b!"0E", b!"0F", b!"0G", b!"0H", b!"-B", b!"-D", b!"-E", b!"-U", b!"-W", b!"-X", b!"-Y", b!"-Z"]

/-- the text begins with a code the attachment parser does not handle -/
def Unsupported (t : Bytes) : Prop := ∃ c r, t = c ++ r ∧ c ∈ unsupportedCodes

/-- a text that begins with `code` and a count `k` -/
def Counted (code : Bytes) (t : Bytes) (k : Nat) (r : Bytes) : Prop :=
  ∃ c, t = code ++ c ++ r ∧ c.length = 2 ∧ b64ToNum c = .ok k

/-- as many attachments as there are -/
def attachmentsP (s : Bytes) : IRes (List Attachment) := many0P attachmentP (s.length + 1) s

/-- a group of signatures -/
def sigGroupP (s : Bytes) : IRes (List AttachedSignaturePrefix) :=
  (attachmentP s).andThen fun r a => match a with
    | .attachedSignatures sigs => .ok r sigs
    | _ => .error

/-- a frame that ends in bytes that are no attachment and is followed by more bytes than it holds -/
def LeakyFrame (t : Bytes) : Prop :=
  ∃ k r extra atts, Counted b!"-V" t k r ∧ k * 4 ≤ r.length ∧ attachmentsP (r.take (k * 4)) = .ok extra atts ∧ extra ≠ [] ∧
    k * 4 < (r.drop (k * 4)).length

mutual
/-- reading `s` as one attachment the parser comes to read an attachment at `t` -/
inductive Meets : Bytes → Bytes → Prop
  | here (s : Bytes) : Meets s s
  /-- after `j` groups and one more event seal of a `-F` attachment -/
  | sealGroup {s t r r' r'' : Bytes} {k j : Nat} {gs : List (EventSeal × List AttachedSignaturePrefix)} {es : EventSeal} :
      Counted b!"-F" s k r → j < k → countP (pairP eventSealP sigGroupP) j r = .ok r' gs → eventSealP r' = .ok r'' es → Meets r'' t → Meets s t
  /-- after `j` groups and one more identifier of a `-H` attachment -/
  | lastEstGroup {s t r r' r'' : Bytes} {k j : Nat} {gs : List (IdentifierPrefix × List AttachedSignaturePrefix)} {p : IdentifierPrefix} :
      Counted b!"-H" s k r → j < k → countP (pairP prefixP sigGroupP) j r = .ok r' gs → prefixP r' = .ok r'' p → Meets r'' t → Meets s t
  /-- inside a frame -/
  | inFrame {s t r : Bytes} {k : Nat} : Counted b!"-V" s k r → k * 4 ≤ r.length → MeetsAny (r.take (k * 4)) t → Meets s t
/-- reading `s` as a sequence of attachments the parser comes to read an attachment at `t` -/
inductive MeetsAny : Bytes → Bytes → Prop
  | first {s t : Bytes} : Meets s t → MeetsAny s t
  | next {s r t : Bytes} {a : Attachment} : attachmentP s = .ok r a → MeetsAny r t → MeetsAny s t
end

/-! ## Proof: parsers that never crash and never lengthen the input -/

/-- no panic, and what is left is at most `L` long -/
def ParseFine {α : Type} (L : Nat) (x : IRes α) : Prop := x ≠ .panic ∧ ∀ r a, x = .ok r a → r.length ≤ L

/-- what is left is at most `L` long -/
def Shr {α : Type} (L : Nat) (x : IRes α) : Prop := ∀ r a, x = .ok r a → r.length ≤ L

theorem ParseFine.ok {α : Type} {L : Nat} {r : Bytes} (a : α) (h : r.length ≤ L) : ParseFine L (IRes.ok r a) :=
  ⟨by simp, fun r' a' he => by cases he; exact h⟩
theorem ParseFine.error {α : Type} {L : Nat} : ParseFine L (IRes.error : IRes α) := ⟨by simp, fun _ _ h => by cases h⟩
theorem ParseFine.failure {α : Type} {L : Nat} : ParseFine L (IRes.failure : IRes α) := ⟨by simp, fun _ _ h => by cases h⟩

theorem ParseFine.andThen {α β : Type} {L : Nat} {x : IRes α} {f : Bytes → α → IRes β} (h : ParseFine L x)
    (hf : ∀ r a, r.length ≤ L → x = .ok r a → ParseFine L (f r a)) : ParseFine L (x.andThen f) := by
  cases x with
  | ok r a => exact hf r a (h.2 r a rfl) rfl
  | error => exact ParseFine.error
  | failure => exact ParseFine.failure
  | incomplete => exact ⟨by simp [IRes.andThen], fun _ _ h => by cases h⟩
  | panic => exact absurd rfl h.1

theorem Shr.andThen {α β : Type} {L : Nat} {x : IRes α} {f : Bytes → α → IRes β} (h : Shr L x)
    (hf : ∀ r a, r.length ≤ L → Shr L (f r a)) : Shr L (x.andThen f) := by
  cases x with
  | ok r a => exact hf r a (h r a rfl)
  | error => intro _ _ h; cases h
  | failure => intro _ _ h; cases h
  | incomplete => intro _ _ h; cases h
  | panic => intro _ _ h; cases h

theorem ParseFine.takeN {L n : Nat} {s : Bytes} (h : s.length ≤ L) : ParseFine L (takeN n s) := by
  unfold Keriox.takeN
  split
  · exact ParseFine.ok _ (by simp; omega)
  · exact ParseFine.error

theorem takeN_ok {n : Nat} {s r a : Bytes} (h : takeN n s = .ok r a) : s = a ++ r ∧ a.length = n := by
  unfold takeN at h
  split at h
  · rename_i hn
    cases h
    exact ⟨(List.take_append_drop n s).symm, by simp; omega⟩
  · cases h

theorem ParseFine.ofResError {α : Type} {L : Nat} {x : Res α} {r : Bytes} (h : NP x) (hr : r.length ≤ L) : ParseFine L (IRes.ofResError x r) := by
  cases x with
  | ok a => exact ParseFine.ok _ hr
  | err e => exact ParseFine.error
  | panic => exact absurd rfl h

theorem ParseFine.ofResFailure {α : Type} {L : Nat} {x : Res α} {r : Bytes} (h : NP x) (hr : r.length ≤ L) : ParseFine L (IRes.ofResFailure x r) := by
  cases x with
  | ok a => exact ParseFine.ok _ hr
  | err e => exact ParseFine.failure
  | panic => exact absurd rfl h

theorem b64ToNum_np (b : Bytes) : NP (b64ToNum b) := by
  unfold b64ToNum
  simp only
  split <;> simp [NP]

theorem b64DecodeRes_np (b : Bytes) : NP (b64DecodeRes b) := NP.ofOption _ _

/-! ### UTF-8 and slices -/

theorem utf8_head {b : UInt8} {r : Bytes} (h : utf8Valid (b :: r) = true) : isCont b = false := by
  unfold utf8Valid at h
  unfold isCont
  by_cases h1 : b < 0x80
  · have : ¬ (0x80 ≤ b) := by simpa using h1
    simp [this]
  · rw [if_neg h1] at h
    by_cases h2 : b < 0xC0
    · exfalso
      have a1 : ¬ (0xC2 ≤ b) := by
        intro h3
        exact absurd (UInt8.lt_of_lt_of_le h2 (UInt8.le_trans (by decide) h3)) (UInt8.lt_irrefl _)
      have a2 : ¬ (0xE0 ≤ b) := by
        intro h3
        exact absurd (UInt8.lt_of_lt_of_le h2 (UInt8.le_trans (by decide) h3)) (UInt8.lt_irrefl _)
      have a3 : ¬ (0xF0 ≤ b) := by
        intro h3
        exact absurd (UInt8.lt_of_lt_of_le h2 (UInt8.le_trans (by decide) h3)) (UInt8.lt_irrefl _)
      simp only [a1, a2, a3, decide_false, Bool.false_and, if_false, Bool.false_eq_true] at h
      cases r with
      | nil => simp at h
      | cons _ r =>
        cases r with
        | nil => simp at h
        | cons _ r => cases r <;> simp at h
    · simp [h2]

theorem utf8_ascii_cons {a : UInt8} {r : Bytes} (ha : a < 0x80) (h : utf8Valid (a :: r) = true) : utf8Valid r = true := by
  unfold utf8Valid at h
  rwa [if_pos ha] at h

theorem utf8_boundary : ∀ {a b : Bytes}, Ascii a → utf8Valid (a ++ b) = true → isBoundary (a ++ b) a.length = true
  | [], b, _, _ => by simp [isBoundary]
  | x :: xs, b, h, hv => by
    have hx : x < 0x80 := h x (by simp)
    have hxs : Ascii xs := fun y hy => h y (by simp [hy])
    have hv' := utf8_ascii_cons hx hv
    cases b with
    | nil => simp [isBoundary]
    | cons y ys =>
      have : utf8Valid (y :: ys) = true := by
        clear hv
        induction xs with
        | nil => exact hv'
        | cons z zs ih =>
          refine ih (fun w hw => ?_) (fun w hw => hxs w (by simp [hw])) (utf8_ascii_cons (hxs z (by simp)) hv')
          rcases List.mem_cons.1 hw with rfl | hw
          · exact hx
          · exact hxs w (by simp [hw])
      unfold isBoundary
      simp [utf8_head this]

theorem strSlice_tail {a b : Bytes} {n : Nat} (ha : Ascii a) (hv : utf8Valid (a ++ b) = true) (hn : n = (a ++ b).length) :
    strSlice (a ++ b) a.length n = .ok b := by
  subst hn
  unfold strSlice strGet
  rw [if_pos, List.take_length]
  · simp [Res.unwrap]
  · simp only [utf8_boundary ha hv, isBoundary_length]
    simp

theorem strGet_head {s : Bytes} {c : UInt8} (h : strGet s 0 1 = some [c]) : ∃ t, s = c :: t := by
  unfold strGet at h
  split at h
  · cases s with
    | nil => simp at h
    | cons x xs => simp at h; exact ⟨xs, by rw [h]⟩
  · cases h

private theorem one_ascii {c : UInt8} (h : c < 0x80) : Ascii [c] := fun b hb => by simp at hb; rw [hb]; exact h

theorem Basic.fromStr_code {s : Bytes} (hv : utf8Valid s = true) (hs : s.length = 1 ∧ s ≠ b!"1" ∨ s.length = 4) : NP (Basic.fromStr s) := by
  unfold Basic.fromStr
  split
  · exact NP.err _
  · rename_i h hh
    repeat' split
    all_goals first | exact NP.ok _ | exact NP.err _ | skip
    rename_i h1
    subst h1
    obtain ⟨t, rfl⟩ := strGet_head hh
    rcases hs with ⟨a, b⟩ | a
    · cases t with
      | nil => exact absurd rfl b
      | cons _ _ => simp at a
    · have := strSlice_tail (a := [49]) (b := t) (n := 4) (one_ascii (by decide)) hv a.symm
      rw [show strSlice (49 :: t) 1 4 = .ok t from this, Res.ok_bind]
      repeat' split
      all_goals first | exact NP.ok _ | exact NP.err _

theorem SelfSigning.fromStr_code {s : Bytes} (hv : utf8Valid s = true) (hs : s.length = 2 ∧ s.head? ≠ some 49 ∨ s.length = 4 ∧ s.head? = some 49) :
    NP (SelfSigning.fromStr s) := by
  unfold SelfSigning.fromStr
  split
  · exact NP.err _
  · rename_i h hh
    repeat' split
    all_goals first | exact NP.ok _ | exact NP.err _ | skip
    · rename_i h1
      subst h1
      obtain ⟨t, rfl⟩ := strGet_head hh
      rcases hs with ⟨a, b⟩ | ⟨a, b⟩
      · have := strSlice_tail (a := [48]) (b := t) (n := 2) (one_ascii (by decide)) hv a.symm
        rw [show strSlice (48 :: t) 1 2 = .ok t from this, Res.ok_bind]
        repeat' split
        all_goals first | exact NP.ok _ | exact NP.err _
      · simp at b
    · rename_i h1
      subst h1
      obtain ⟨t, rfl⟩ := strGet_head hh
      rcases hs with ⟨a, b⟩ | ⟨a, b⟩
      · simp at b
      · have := strSlice_tail (a := [49]) (b := t) (n := 4) (one_ascii (by decide)) hv a.symm
        rw [show strSlice (49 :: t) 1 4 = .ok t from this, Res.ok_bind]
        repeat' split
        all_goals first | exact NP.ok _ | exact NP.err _

theorem SelfAddressing.fromStr_code {s : Bytes} (hv : utf8Valid s = true) (hs : s.length = 1 ∧ s ≠ b!"0" ∨ s.length = 2) :
    NP (SelfAddressing.fromStr s) := by
  unfold SelfAddressing.fromStr
  split
  · exact NP.err _
  · rename_i h hh
    repeat' split
    all_goals first | exact NP.ok _ | exact NP.err _ | skip
    rename_i h1
    subst h1
    obtain ⟨t, rfl⟩ := strGet_head hh
    rcases hs with ⟨a, b⟩ | a
    · cases t with
      | nil => exact absurd rfl b
      | cons _ _ => simp at a
    · have := strSlice_tail (a := [48]) (b := t) (n := 2) (one_ascii (by decide)) hv a.symm
      rw [show strSlice (48 :: t) 1 2 = .ok t from this, Res.ok_bind]
      repeat' split
      all_goals first | exact NP.ok _ | exact NP.err _

theorem utf8_append : ∀ {a b : Bytes}, Ascii a → utf8Valid (a ++ b) = true → utf8Valid b = true
  | [], _, _, h => h
  | _ :: _, _, ha, h => utf8_append (fun y hy => ha y (by simp [hy])) (utf8_ascii_cons (ha _ (by simp)) h)

theorem strGet_split {a b c : Bytes} (ha : Ascii a) (hb : Ascii b) (hv : utf8Valid (a ++ (b ++ c)) = true) :
    strGet (a ++ (b ++ c)) a.length (a ++ b).length = some b := by
  unfold strGet
  have h1 := utf8_boundary ha hv
  have hab : Ascii (a ++ b) := fun y hy => (List.mem_append.1 hy).elim (ha y) (hb y)
  rw [← List.append_assoc] at hv h1 ⊢
  have h2 := utf8_boundary hab hv
  rw [if_pos, List.take_left, List.drop_left]
  rw [h1, h2]
  simp

theorem SelfAddressing.fromStr_codes {c : Bytes} {code : SelfAddressing} (hl : c.length = 1 ∨ c.length = 2 ∧ c.head? = some 48)
    (h : SelfAddressing.fromStr c = .ok code) : Ascii c ∧ c.length = code.codeLen ∧
      ∀ b, utf8Valid (c ++ b) = true → SelfAddressing.fromStr (c ++ b) = .ok code := by
  have key : ∀ (x : UInt8) (b : Bytes), x < 0x80 → utf8Valid ([x] ++ b) = true → strGet ([x] ++ b) 0 1 = some [x] := by
    intro x b hx hv
    exact strGet_split (a := []) (b := [x]) (c := b) (fun _ h => by cases h) (one_ascii hx) hv
  rcases hl with hl | ⟨hl, hh⟩
  · obtain ⟨x, rfl⟩ := List.length_eq_one_iff.1 hl
    unfold SelfAddressing.fromStr at h
    split at h
    · cases h
    · rename_i g hg
      obtain ⟨rfl⟩ : g = [x] := by
        unfold strGet at hg
        split at hg
        · simpa using hg.symm
        · cases hg
      repeat' split at h
      all_goals first | cases h; done | skip
      all_goals first
        | (rename_i hx; simp at hx; subst hx; cases h
           refine ⟨one_ascii (by decide), rfl, fun b hv => ?_⟩
           unfold SelfAddressing.fromStr
           rw [key _ b (by decide) hv]; rfl)
        | skip
      all_goals
        rename_i hx; simp at hx; subst hx
        exact absurd h (by decide)
  · match c, hl with
    | [x, y], _ =>
      simp at hh
      subst hh
      unfold SelfAddressing.fromStr at h
      split at h
      · cases h
      · rename_i g hg
        obtain ⟨rfl⟩ : g = [48] := by
          unfold strGet at hg
          split at hg
          · simpa using hg.symm
          · cases hg
        rw [if_neg (by decide), if_neg (by decide), if_neg (by decide), if_neg (by decide), if_neg (by decide), if_pos rfl] at h
        by_cases hb : isBoundary [48, y] 1 = true
        · have hs : strSlice [48, y] 1 2 = .ok [y] := by
            unfold strSlice strGet
            rw [hb, if_pos (by simp [isBoundary])]
            rfl
          rw [hs, Res.ok_bind] at h
          have key2 : y < 0x80 → ∀ b, utf8Valid ([48, y] ++ b) = true → strGet ([48, y] ++ b) 0 1 = some [48] ∧ strSlice ([48, y] ++ b) 1 2 = .ok [y] := by
            intro hy b hv
            refine ⟨key 48 ([y] ++ b) (by decide) hv, ?_⟩
            unfold strSlice
            rw [show strGet ([48, y] ++ b) 1 2 = some [y] from
              strGet_split (a := [48]) (b := [y]) (c := b) (one_ascii (by decide)) (one_ascii hy) hv]
            rfl
          have two : ∀ z : UInt8, z < 0x80 → Ascii [48, z] := fun z hz w hw => by
            rcases List.mem_cons.1 hw with rfl | hw
            · decide
            · exact one_ascii hz w hw
          repeat' split at h
          all_goals first
            | cases h; done
            | (rename_i hx; simp at hx; subst hx; cases h
               refine ⟨two _ (by decide), rfl, fun b hv => ?_⟩
               obtain ⟨k1, k2⟩ := key2 (by decide) b hv
               unfold SelfAddressing.fromStr
               rw [k1]
               simp only [k2]
               rfl)
        · have hs : strSlice [48, y] 1 2 = .panic := by
            unfold strSlice strGet
            rw [if_neg (by simp [hb])]
            rfl
          rw [hs] at h
          cases h

theorem selfAddressing_body_np {c b : Bytes} {code : SelfAddressing} (hl : c.length = 1 ∨ c.length = 2 ∧ c.head? = some 48)
    (h : SelfAddressing.fromStr c = .ok code) (hv : utf8Valid (c ++ b) = true) : NP (SelfAddressingPrefix.fromStr (c ++ b)) := by
  obtain ⟨ha, hc, hf⟩ := SelfAddressing.fromStr_codes hl h
  unfold SelfAddressingPrefix.fromStr
  rw [hf b hv, Res.ok_bind]
  refine NP.bind ?_ fun _ _ => NP.ok _
  unfold decodeBody
  split
  · rename_i hb
    rw [← hc, strSlice_tail ha hv hb.symm]
    exact NP.ofOption _ _
  · exact NP.err _

/-! ### The stream parsers of prefixes -/

theorem codeParse_fine {α : Type} {L : Nat} {p : Bytes → Res α} {c r : Bytes} (h : utf8Valid c = true → NP (p c)) (hr : r.length ≤ L) :
    ParseFine L (codeParse p c r) := by
  unfold codeParse
  split
  · rename_i hv; exact ParseFine.ofResFailure (h hv) hr
  · exact ParseFine.failure

theorem basicPrefixP_fine {L : Nat} {s : Bytes} (hs : s.length ≤ L) : ParseFine L (basicPrefixP s) := by
  unfold basicPrefixP
  refine ParseFine.andThen (ParseFine.takeN hs) fun r1 t _ h1 => ?_
  refine ParseFine.andThen (ParseFine.takeN hs) fun r2 c hr2 h2 => ?_
  obtain ⟨e1, l1⟩ := takeN_ok h1
  obtain ⟨e2, l2⟩ := takeN_ok h2
  refine ParseFine.andThen (codeParse_fine (fun hv => ?_) hr2) fun r3 code hr3 _ => ?_
  · refine Basic.fromStr_code hv ?_
    split at l2
    · exact Or.inr l2
    · rename_i ht
      refine Or.inl ⟨l2, ?_⟩
      have : c = t := by
        rw [e1] at e2
        exact (List.append_inj_left e2 (by rw [l1, l2])).symm
      rwa [this]
  · refine ParseFine.andThen (ParseFine.takeN hr3) fun r4 b hr4 _ => ?_
    exact ParseFine.andThen (ParseFine.ofResError (b64DecodeRes_np _) hr4) fun r5 k hr5 _ => ParseFine.ok _ hr5

theorem selfSigningPrefixP_fine {L : Nat} {s : Bytes} (hs : s.length ≤ L) : ParseFine L (selfSigningPrefixP s) := by
  unfold selfSigningPrefixP
  refine ParseFine.andThen (ParseFine.takeN hs) fun r1 t _ h1 => ?_
  refine ParseFine.andThen (ParseFine.takeN hs) fun r2 c hr2 h2 => ?_
  obtain ⟨e1, l1⟩ := takeN_ok h1
  obtain ⟨e2, l2⟩ := takeN_ok h2
  obtain ⟨x, rfl⟩ := List.length_eq_one_iff.1 l1
  have hx : c.head? = some x := by
    cases c with
    | nil => simp at l2; split at l2 <;> omega
    | cons y ys => rw [e1] at e2; simp at e2; simp [e2.1]
  refine ParseFine.andThen (codeParse_fine (fun hv => ?_) hr2) fun r3 code hr3 _ => ?_
  · refine SelfSigning.fromStr_code hv ?_
    rw [hx]
    split at l2
    · rename_i ht; exact Or.inr ⟨l2, by simpa using ht⟩
    · rename_i ht; exact Or.inl ⟨l2, by simpa using ht⟩
  · refine ParseFine.andThen (ParseFine.takeN hr3) fun r4 b hr4 _ => ?_
    exact ParseFine.andThen (ParseFine.ofResError (b64DecodeRes_np _) hr4) fun r5 k hr5 _ => ParseFine.ok _ hr5

theorem selfAddressingPrefixP_fine {L : Nat} {s : Bytes} (hs : s.length ≤ L) : ParseFine L (selfAddressingPrefixP s) := by
  unfold selfAddressingPrefixP
  refine ParseFine.andThen (ParseFine.takeN hs) fun r1 t _ h1 => ?_
  refine ParseFine.andThen (ParseFine.takeN hs) fun r2 c hr2 h2 => ?_
  obtain ⟨e1, l1⟩ := takeN_ok h1
  obtain ⟨e2, l2⟩ := takeN_ok h2
  obtain ⟨x, rfl⟩ := List.length_eq_one_iff.1 l1
  have hx : c.head? = some x := by
    cases c with
    | nil => simp at l2; split at l2 <;> omega
    | cons y ys => rw [e1] at e2; simp at e2; simp [e2.1]
  refine ParseFine.andThen (codeParse_fine (fun hv => ?_) hr2) fun r3 code hr3 h3 => ?_
  · refine SelfAddressing.fromStr_code hv ?_
    split at l2
    · exact Or.inr l2
    · rename_i ht
      refine Or.inl ⟨l2, fun hc => ht ?_⟩
      subst hc
      simp at hx
      simp [hx]
  · refine ParseFine.andThen (ParseFine.takeN hr3) fun r4 b hr4 _ => ?_
    refine codeParse_fine (fun hv => selfAddressing_body_np ?_ (codeParse_inv h3).2.1 hv) hr4
    rw [hx]
    split at l2
    · rename_i ht; exact Or.inr ⟨l2, by simpa using ht⟩
    · exact Or.inl l2

theorem prefixP_fine {L : Nat} {s : Bytes} (hs : s.length ≤ L) : ParseFine L (prefixP s) := by
  have h := selfAddressingPrefixP_fine hs
  unfold prefixP
  split
  · rename_i r p hp; exact ParseFine.ok _ (h.2 _ _ hp)
  · rename_i hp; exact absurd hp h.1
  · exact ParseFine.andThen (basicPrefixP_fine hs) fun r p hr _ => ParseFine.ok _ hr

/-- 22 characters decode to sixteen bytes or not at all -/
theorem b64Decode_22 {p d : Bytes} (hp : p.length = 22) (h : b64Decode p = some d) : d.length = 16 := by
  have quad : ∀ {a b c e : UInt8} {q : Bytes}, b64Quad a b c e = some q → q.length = 3 := by
    intro a b c e q hq
    unfold b64Quad at hq
    split at hq
    · cases hq; rfl
    · cases hq
  have step : ∀ {a b c e : UInt8} {r q : Bytes}, r ≠ [] → b64Decode (a :: b :: c :: e :: r) = some q →
      ∃ x, b64Decode r = some x ∧ q.length = 3 + x.length := by
    intro a b c e r q hr hq
    unfold b64Decode at hq
    rw [if_neg (by simpa using hr)] at hq
    split at hq
    · rename_i q1 r1 h1 h2
      cases hq
      exact ⟨r1, h2, by simp [quad h1]⟩
    · cases hq
  match p, hp with
  | [a1, a2, a3, a4, b1, b2, b3, b4, c1, c2, c3, c4, d1, d2, d3, d4, e1, e2, e3, e4, f1, f2], _ =>
    obtain ⟨x1, h1, l1⟩ := step (by simp) h
    obtain ⟨x2, h2, l2⟩ := step (by simp) h1
    obtain ⟨x3, h3, l3⟩ := step (by simp) h2
    obtain ⟨x4, h4, l4⟩ := step (by simp) h3
    obtain ⟨x5, h5, l5⟩ := step (by simp) h4
    have : x5.length = 1 := by
      unfold b64Decode b64Pair at h5
      split at h5
      · split at h5
        · cases h5; rfl
        · cases h5
      · cases h5
    omega

theorem attachedSnP_fine {L : Nat} {s : Bytes} (hs : s.length ≤ L) : ParseFine L (attachedSnP s) := by
  unfold attachedSnP
  refine ParseFine.andThen (ParseFine.takeN hs) fun r1 t hr1 _ => ?_
  split
  · refine ParseFine.andThen (ParseFine.takeN hr1) fun r2 p hr2 h2 => ?_
    refine ParseFine.andThen (ParseFine.ofResFailure (b64DecodeRes_np _) hr2) fun r3 d hr3 h3 => ?_
    have : d.length = 16 := by
      unfold b64DecodeRes IRes.ofResFailure Res.ofOption at h3
      cases hd : b64Decode p with
      | none => rw [hd] at h3; cases h3
      | some d' => rw [hd] at h3; cases h3; exact b64Decode_22 (takeN_ok h2).2 hd
    rw [if_pos this]
    exact ParseFine.ok _ hr3
  · exact ParseFine.error

theorem attachedSignatureP_fine {L : Nat} {s : Bytes} (hs : s.length ≤ L) : ParseFine L (attachedSignatureP s) := by
  unfold attachedSignatureP
  refine ParseFine.andThen (ParseFine.takeN hs) fun r1 t hr1 _ => ?_
  have sig : ∀ (code : SelfSigning) (ni ns : Nat) (inp : Bytes), inp.length ≤ L →
      ParseFine L ((takeN ni inp).andThen fun maybeSig indexC =>
        (IRes.ofResError (b64ToNum indexC) maybeSig).andThen fun maybeSig index =>
          (takeN ns maybeSig).andThen fun rest sigS =>
            (IRes.ofResError (b64DecodeRes sigS) rest).andThen fun rest sg => .ok rest (⟨index, ⟨code, sg⟩⟩ : AttachedSignaturePrefix)) := by
    intro code ni ns inp hi
    refine ParseFine.andThen (ParseFine.takeN hi) fun r2 _ hr2 _ => ?_
    refine ParseFine.andThen (ParseFine.ofResError (b64ToNum_np _) hr2) fun r3 _ hr3 _ => ?_
    refine ParseFine.andThen (ParseFine.takeN hr3) fun r4 _ hr4 _ => ?_
    exact ParseFine.andThen (ParseFine.ofResError (b64DecodeRes_np _) hr4) fun r5 _ hr5 _ => ParseFine.ok _ hr5
  split
  · exact sig _ _ _ _ hr1
  split
  · exact sig _ _ _ _ hr1
  split
  · refine ParseFine.andThen (ParseFine.takeN hr1) fun r2 t2 hr2 _ => ?_
    split
    · exact sig _ _ _ _ hr2
    · exact ParseFine.error
  · exact ParseFine.error

theorem b64CountP_fine {L : Nat} {s : Bytes} (hs : s.length ≤ L) : ParseFine L (b64CountP s) :=
  ParseFine.andThen (ParseFine.takeN hs) fun _ _ hr _ => ParseFine.ofResFailure (b64ToNum_np _) hr

theorem pairP_fine {α β : Type} {L : Nat} {p : Bytes → IRes α} {q : Bytes → IRes β} (hp : ∀ s, s.length ≤ L → ParseFine L (p s))
    (hq : ∀ s, s.length ≤ L → ParseFine L (q s)) {s : Bytes} (hs : s.length ≤ L) : ParseFine L (pairP p q s) :=
  ParseFine.andThen (hp s hs) fun _ _ hr _ => ParseFine.andThen (hq _ hr) fun _ _ hr _ => ParseFine.ok _ hr

theorem countP_fine {α : Type} {L : Nat} {p : Bytes → IRes α} (hp : ∀ s, s.length ≤ L → ParseFine L (p s)) :
    ∀ (n : Nat) {s : Bytes}, s.length ≤ L → ParseFine L (countP p n s)
  | 0, _, hs => ParseFine.ok _ hs
  | n + 1, _, hs => ParseFine.andThen (hp _ hs) fun _ _ hr _ => ParseFine.andThen (countP_fine hp n hr) fun _ _ hr _ => ParseFine.ok _ hr

theorem sourceSealP_fine {L : Nat} {s : Bytes} (hs : s.length ≤ L) : ParseFine L (sourceSealP s) :=
  ParseFine.andThen (b64CountP_fine hs) fun _ _ hr _ =>
    ParseFine.andThen (countP_fine (fun _ h => pairP_fine (fun _ h => attachedSnP_fine h) (fun _ h => selfAddressingPrefixP_fine h) h) _ hr)
      fun _ _ hr _ => ParseFine.ok _ hr

theorem eventSealP_fine {L : Nat} {s : Bytes} (hs : s.length ≤ L) : ParseFine L (eventSealP s) :=
  ParseFine.andThen (prefixP_fine hs) fun _ _ hr _ => ParseFine.andThen (attachedSnP_fine hr) fun _ _ hr _ =>
    ParseFine.andThen (selfAddressingPrefixP_fine hr) fun _ _ hr _ => ParseFine.ok _ hr

theorem signaturesP_fine {L : Nat} {s : Bytes} (hs : s.length ≤ L) : ParseFine L (signaturesP s) :=
  ParseFine.andThen (b64CountP_fine hs) fun _ _ hr _ => countP_fine (fun _ h => attachedSignatureP_fine h) _ hr

theorem coupletsP_fine {L : Nat} {s : Bytes} (hs : s.length ≤ L) : ParseFine L (coupletsP s) :=
  ParseFine.andThen (b64CountP_fine hs) fun _ _ hr _ =>
    countP_fine (fun _ h => pairP_fine (fun _ h => basicPrefixP_fine h) (fun _ h => selfSigningPrefixP_fine h) h) _ hr

/-! ### Attachments -/

/-- signatures read with `f` -/
def sigsOf (f : Bytes → IRes Attachment) (inp : Bytes) : IRes (List AttachedSignaturePrefix) :=
  (f inp).andThen fun r a => match a with
    | .attachedSignatures sigs => .ok r sigs
    | _ => .error

/-- the frame case: the attachments of the frame are read with `f` -/
def frameStep (f : Bytes → IRes Attachment) (r : Bytes) (sc : Nat) : IRes Attachment :=
  match takeN (sc * 4) r with
  | .ok r' total =>
    (many0P f (total.length + 1) total).andThen fun extra atts =>
      if extra.isEmpty then .ok r' (.frame atts)
      else if r'.length ≤ sc * 4 then .incomplete else .panic
  | .error => .incomplete
  | .failure => .failure
  | .incomplete => .incomplete
  | .panic => .panic

/-- what follows the code -/
def codeStep (f : Bytes → IRes Attachment) (rest : Bytes) : PayloadType → IRes Attachment
  | .MG => (sourceSealP rest).andThen fun r l => .ok r (.sealSourceCouplets l)
  | .MF => (b64CountP rest).andThen fun r sc => (countP (pairP eventSealP (sigsOf f)) sc r).andThen fun r l => .ok r (.sealSignaturesGroups l)
  | .MA => (signaturesP rest).andThen fun r l => .ok r (.attachedSignatures l)
  | .MC => (coupletsP rest).andThen fun r l => .ok r (.receiptCouplets l)
  | .MH => (b64CountP rest).andThen fun r sc => (countP (pairP prefixP (sigsOf f)) sc r).andThen fun r l => .ok r (.lastEstSignaturesGroups l)
  | .MV => (b64CountP rest).andThen fun r sc => frameStep f r sc
  | .other => .panic

/-- one level of the attachment parser -/
def attStep (f : Bytes → IRes Attachment) (s : Bytes) : IRes Attachment :=
  (takeN 2 s).andThen fun rest pt =>
    if !utf8Valid pt then .failure
    else match PayloadType.tryFrom pt with
      | none => .error
      | some c => codeStep f rest c

theorem attachmentF_step (n : Nat) (s : Bytes) : attachmentF (n + 1) s = attStep (attachmentF n) s := by
  unfold attachmentF attStep
  congr 1
  funext rest pt
  split
  · rfl
  · cases PayloadType.tryFrom pt with
    | none => rfl
    | some c => cases c <;> rfl

theorem Shr.of {α : Type} {L : Nat} {x : IRes α} (h : ParseFine L x) : Shr L x := h.2
theorem Shr.ok {α : Type} {L : Nat} {r : Bytes} (a : α) (h : r.length ≤ L) : Shr L (IRes.ok r a) := (ParseFine.ok a h).2

theorem sigsOf_shr {f : Bytes → IRes Attachment} {L : Nat} (hf : ∀ s, s.length ≤ L → Shr L (f s)) {s : Bytes} (hs : s.length ≤ L) :
    Shr L (sigsOf f s) := by
  refine Shr.andThen (hf s hs) fun r a hr => ?_
  split
  · exact Shr.ok _ hr
  · intro _ _ h; cases h

theorem pairP_shr {α β : Type} {L : Nat} {p : Bytes → IRes α} {q : Bytes → IRes β} (hp : ∀ s, s.length ≤ L → Shr L (p s))
    (hq : ∀ s, s.length ≤ L → Shr L (q s)) {s : Bytes} (hs : s.length ≤ L) : Shr L (pairP p q s) :=
  Shr.andThen (hp s hs) fun _ _ hr => Shr.andThen (hq _ hr) fun _ _ hr => Shr.ok _ hr

theorem countP_shr {α : Type} {L : Nat} {p : Bytes → IRes α} (hp : ∀ s, s.length ≤ L → Shr L (p s)) :
    ∀ (n : Nat) {s : Bytes}, s.length ≤ L → Shr L (countP p n s)
  | 0, _, hs => Shr.ok _ hs
  | n + 1, _, hs => Shr.andThen (hp _ hs) fun _ _ hr => Shr.andThen (countP_shr hp n hr) fun _ _ hr => Shr.ok _ hr

theorem frameStep_shr {f : Bytes → IRes Attachment} {L : Nat} {r : Bytes} (hr : r.length ≤ L) (sc : Nat) : Shr L (frameStep f r sc) := by
  unfold frameStep
  split
  · rename_i r' total h
    have h1 := (ParseFine.takeN hr).2 _ _ h
    cases hm : many0P f (total.length + 1) total with
    | ok extra atts =>
      rw [IRes.andThen_ok]
      split
      · exact Shr.ok _ h1
      · split <;> intro _ _ h <;> cases h
    | error => intro _ _ h; cases h
    | failure => intro _ _ h; cases h
    | incomplete => intro _ _ h; cases h
    | panic => intro _ _ h; cases h
  all_goals intro _ _ h; cases h

theorem codeStep_shr {f : Bytes → IRes Attachment} {L : Nat} (hf : ∀ s, s.length ≤ L → Shr L (f s)) {rest : Bytes} (hr : rest.length ≤ L)
    (c : PayloadType) : Shr L (codeStep f rest c) := by
  cases c with
  | MA => exact Shr.andThen (Shr.of (signaturesP_fine hr)) fun _ _ h => Shr.ok _ h
  | MC => exact Shr.andThen (Shr.of (coupletsP_fine hr)) fun _ _ h => Shr.ok _ h
  | MG => exact Shr.andThen (Shr.of (sourceSealP_fine hr)) fun _ _ h => Shr.ok _ h
  | MF =>
    exact Shr.andThen (Shr.of (b64CountP_fine hr)) fun _ _ h =>
      Shr.andThen (countP_shr (fun _ h => pairP_shr (fun _ h => Shr.of (eventSealP_fine h)) (fun _ h => sigsOf_shr hf h) h) _ h) fun _ _ h => Shr.ok _ h
  | MH =>
    exact Shr.andThen (Shr.of (b64CountP_fine hr)) fun _ _ h =>
      Shr.andThen (countP_shr (fun _ h => pairP_shr (fun _ h => Shr.of (prefixP_fine h)) (fun _ h => sigsOf_shr hf h) h) _ h) fun _ _ h => Shr.ok _ h
  | MV => exact Shr.andThen (Shr.of (b64CountP_fine hr)) fun _ _ h => frameStep_shr h _
  | other => intro _ _ h; cases h

/-- an attachment takes at least its code -/
theorem attStep_shr {f : Bytes → IRes Attachment} (hf : ∀ s, Shr s.length (f s)) (s : Bytes) : Shr (s.length - 2) (attStep f s) ∧ (∀ r a, attStep f s = .ok r a → 2 ≤ s.length) := by
  unfold attStep
  by_cases h2 : 2 ≤ s.length
  · refine ⟨?_, fun _ _ _ => h2⟩
    rw [show takeN 2 s = .ok (s.drop 2) (s.take 2) from by unfold takeN; rw [if_pos h2], IRes.andThen_ok]
    split
    · intro _ _ h; cases h
    · split
      · intro _ _ h; cases h
      · exact codeStep_shr (fun t ht r a h => Nat.le_trans (hf t r a h) ht) (by simp) _
  · rw [show takeN 2 s = .error from by unfold takeN; rw [if_neg h2]]
    exact ⟨fun _ _ h => (by cases h), fun _ _ h => (by cases h)⟩

theorem attachmentF_shr : ∀ (n : Nat) (s : Bytes), Shr s.length (attachmentF n s)
  | 0, _ => fun _ _ h => by cases h
  | n + 1, s => fun r a h => by
    rw [attachmentF_step] at h
    have := (attStep_shr (attachmentF_shr n) s).1 r a h
    omega

theorem countP_congr {α : Type} {L : Nat} {p q : Bytes → IRes α} (h : ∀ t, t.length ≤ L → p t = q t) (hp : ∀ t, t.length ≤ L → Shr L (p t)) :
    ∀ (n : Nat) {s : Bytes}, s.length ≤ L → countP p n s = countP q n s
  | 0, _, _ => rfl
  | n + 1, s, hs => by
    unfold countP
    rw [← h s hs]
    cases hq : p s with
    | ok r a =>
      have := hp s hs r a hq
      simp only [IRes.andThen_ok]
      rw [countP_congr h hp n this]
    | error => rfl
    | failure => rfl
    | incomplete => rfl
    | panic => rfl

theorem many0P_congr {α : Type} {L : Nat} {p q : Bytes → IRes α} (h : ∀ t, t.length ≤ L → p t = q t) (hp : ∀ t, t.length ≤ L → Shr L (p t)) :
    ∀ (n : Nat) {s : Bytes}, s.length ≤ L → many0P p n s = many0P q n s
  | 0, _, _ => rfl
  | n + 1, s, hs => by
    unfold many0P
    rw [← h s hs]
    cases hq : p s with
    | ok r a =>
      have := hp s hs r a hq
      simp only
      rw [many0P_congr h hp n this]
    | error => rfl
    | failure => rfl
    | incomplete => rfl
    | panic => rfl

theorem many0P_fuel {α : Type} {p : Bytes → IRes α} (hp : ∀ t, Shr t.length (p t)) :
    ∀ (n m : Nat) {s : Bytes}, s.length < n → s.length < m → many0P p n s = many0P p m s
  | 0, _, _, h, _ => by omega
  | _ + 1, 0, _, _, h => by omega
  | n + 1, m + 1, s, hn, hm => by
    unfold many0P
    cases hq : p s with
    | ok r a =>
      have := hp s r a hq
      simp only
      split
      · rfl
      · rw [many0P_fuel hp n m (by omega) (by omega)]
    | error => rfl
    | failure => rfl
    | incomplete => rfl
    | panic => rfl

theorem andThen_congr {α β : Type} {x : IRes α} {f g : Bytes → α → IRes β} (h : ∀ r a, x = .ok r a → f r a = g r a) : x.andThen f = x.andThen g := by
  cases x with
  | ok r a => exact h r a rfl
  | error => rfl
  | failure => rfl
  | incomplete => rfl
  | panic => rfl

theorem attStep_congr {f g : Bytes → IRes Attachment} {s : Bytes} (h : ∀ t, t.length + 2 ≤ s.length → f t = g t) (hf : ∀ t, Shr t.length (f t)) :
    attStep f s = attStep g s := by
  unfold attStep
  refine andThen_congr fun rest pt h1 => ?_
  obtain ⟨e1, l1⟩ := takeN_ok h1
  have hs : rest.length + 2 = s.length := by rw [e1]; simp; omega
  split
  · rfl
  · have hfg : ∀ t, t.length ≤ rest.length → f t = g t := fun t ht => h t (by omega)
    have hfL : ∀ t, t.length ≤ rest.length → Shr rest.length (f t) := fun t ht r a e => Nat.le_trans (hf t r a e) ht
    have hsig : ∀ t, t.length ≤ rest.length → sigsOf f t = sigsOf g t := fun t ht => by unfold sigsOf; rw [hfg t ht]
    have hpair : ∀ {α : Type} {p : Bytes → IRes α}, (∀ t, t.length ≤ rest.length → Shr rest.length (p t)) →
        ∀ t, t.length ≤ rest.length → pairP p (sigsOf f) t = pairP p (sigsOf g) t := by
      intro α p hp t ht
      unfold pairP
      refine andThen_congr fun r a e => ?_
      rw [hsig r (hp t ht r a e)]
    cases PayloadType.tryFrom pt with
    | none => rfl
    | some c =>
      cases c with
      | MF =>
        refine andThen_congr fun r sc e => ?_
        have hr := (b64CountP_fine (Nat.le_refl rest.length)).2 _ _ e
        rw [countP_congr (hpair fun t ht => Shr.of (eventSealP_fine ht))
          (fun t ht => pairP_shr (fun _ h => Shr.of (eventSealP_fine h)) (fun _ h => sigsOf_shr hfL h) ht) sc hr]
      | MH =>
        refine andThen_congr fun r sc e => ?_
        have hr := (b64CountP_fine (Nat.le_refl rest.length)).2 _ _ e
        rw [countP_congr (hpair fun t ht => Shr.of (prefixP_fine ht))
          (fun t ht => pairP_shr (fun _ h => Shr.of (prefixP_fine h)) (fun _ h => sigsOf_shr hfL h) ht) sc hr]
      | MV =>
        refine andThen_congr fun r sc e => ?_
        have hr := (b64CountP_fine (Nat.le_refl rest.length)).2 _ _ e
        unfold frameStep
        cases ht : takeN (sc * 4) r with
        | ok r' total =>
          have hl : total.length ≤ rest.length := by
            have := (takeN_ok ht).1
            have : r.length = total.length + r'.length := by rw [this]; simp
            omega
          simp only
          rw [many0P_congr hfg hfL _ hl]
        | error => rfl
        | failure => rfl
        | incomplete => rfl
        | panic => rfl
      | _ => rfl

theorem attachmentF_fuel : ∀ (n m : Nat) (s : Bytes), s.length < n → s.length < m → attachmentF n s = attachmentF m s
  | 0, _, _, h, _ => by omega
  | _ + 1, 0, _, _, h => by omega
  | n + 1, m + 1, s, hn, hm => by
    rw [attachmentF_step, attachmentF_step]
    exact attStep_congr (fun t ht => attachmentF_fuel n m t (by omega) (by omega)) (attachmentF_shr n)

theorem attachmentP_shr (s : Bytes) : Shr s.length (attachmentP s) := attachmentF_shr _ s

theorem attachmentP_step (s : Bytes) : attachmentP s = attStep attachmentP s := by
  unfold attachmentP
  rw [attachmentF_step]
  exact attStep_congr (fun t ht => attachmentF_fuel _ _ t (by omega) (by omega)) (attachmentF_shr _)

theorem attachmentP_consumes {s r : Bytes} {a : Attachment} (h : attachmentP s = .ok r a) : r.length < s.length := by
  rw [attachmentP_step] at h
  have h1 := (attStep_shr attachmentP_shr s).1 r a h
  have h2 := (attStep_shr attachmentP_shr s).2 r a h
  omega

theorem attachmentsP_step (s : Bytes) : attachmentsP s = match attachmentP s with
    | .error => .ok s []
    | .ok r a => (attachmentsP r).andThen fun r' as => .ok r' (a :: as)
    | .failure => .failure
    | .incomplete => .incomplete
    | .panic => .panic := by
  unfold attachmentsP
  conv => lhs; unfold many0P
  cases h : attachmentP s with
  | ok r a =>
    have := attachmentP_consumes h
    simp only
    rw [if_neg (by omega), many0P_fuel attachmentP_shr s.length (r.length + 1) this (by omega)]
  | error => rfl
  | failure => rfl
  | incomplete => rfl
  | panic => rfl

/-! ### When it crashes -/

theorem andThen_panic {α β : Type} {x : IRes α} {f : Bytes → α → IRes β} :
    x.andThen f = .panic ↔ x = .panic ∨ ∃ r a, x = .ok r a ∧ f r a = .panic := by
  cases x with
  | ok r a =>
    rw [IRes.andThen_ok]
    exact ⟨fun h => Or.inr ⟨r, a, rfl, h⟩, fun h => by
      rcases h with h | ⟨_, _, h, g⟩
      · cases h
      · cases h; exact g⟩
  | error => simp [IRes.andThen]
  | failure => simp [IRes.andThen]
  | incomplete => simp [IRes.andThen]
  | panic => simp [IRes.andThen]

theorem andThen_panic_ok {α β : Type} {x : IRes α} {g : Bytes → α → β} :
    x.andThen (fun r a => .ok r (g r a)) = .panic ↔ x = .panic := by
  rw [andThen_panic]; simp

theorem pairP_panic {α β : Type} {p : Bytes → IRes α} {q : Bytes → IRes β} {s : Bytes} (hp : p s ≠ .panic) :
    pairP p q s = .panic ↔ ∃ r a, p s = .ok r a ∧ q r = .panic := by
  unfold pairP
  rw [andThen_panic]
  simp only [hp, false_or, andThen_panic_ok]

theorem countP_panic {α : Type} {p : Bytes → IRes α} : ∀ {n : Nat} {s : Bytes},
    countP p n s = .panic ↔ ∃ j r gs, j < n ∧ countP p j s = .ok r gs ∧ p r = .panic
  | 0, s => by simp [countP]
  | n + 1, s => by
    rw [countP.eq_2 p s n, andThen_panic]
    simp only [andThen_panic_ok]
    constructor
    · rintro (h | ⟨r, a, h1, h2⟩)
      · exact ⟨0, s, [], by omega, rfl, h⟩
      · obtain ⟨j, r', gs, hj, hc, hp⟩ := countP_panic.1 h2
        refine ⟨j + 1, r', a :: gs, by omega, ?_, hp⟩
        rw [countP.eq_2, h1, IRes.andThen_ok, hc, IRes.andThen_ok]
    · rintro ⟨j, r', gs, hj, hc, hp⟩
      cases j with
      | zero => cases hc; exact Or.inl hp
      | succ j =>
        rw [countP.eq_2] at hc
        cases h1 : p s with
        | ok r a =>
          rw [h1, IRes.andThen_ok] at hc
          cases h2 : countP p j r with
          | ok r2 gs2 =>
            rw [h2] at hc
            cases hc
            exact Or.inr ⟨r, a, rfl, countP_panic.2 ⟨j, _, _, by omega, h2, hp⟩⟩
          | error => rw [h2] at hc; cases hc
          | failure => rw [h2] at hc; cases hc
          | incomplete => rw [h2] at hc; cases hc
          | panic => rw [h2] at hc; cases hc
        | error => rw [h1] at hc; cases hc
        | failure => rw [h1] at hc; cases hc
        | incomplete => rw [h1] at hc; cases hc
        | panic => rw [h1] at hc; cases hc

theorem b64CountP_ok {s r : Bytes} {k : Nat} : b64CountP s = .ok r k ↔ ∃ c, s = c ++ r ∧ c.length = 2 ∧ b64ToNum c = .ok k := by
  unfold b64CountP
  constructor
  · intro h
    cases ht : takeN 2 s with
    | ok r' c =>
      rw [ht, IRes.andThen_ok] at h
      obtain ⟨e, l⟩ := takeN_ok ht
      cases hb : b64ToNum c with
      | ok k' => rw [hb] at h; cases h; exact ⟨c, e, l, hb⟩
      | err _ => rw [hb] at h; cases h
      | panic => rw [hb] at h; cases h
    | error => rw [ht] at h; cases h
    | failure => rw [ht] at h; cases h
    | incomplete => rw [ht] at h; cases h
    | panic => rw [ht] at h; cases h
  · rintro ⟨c, rfl, l, hb⟩
    rw [show takeN 2 (c ++ r) = .ok r c from by unfold takeN; rw [if_pos (by simp; omega), ← l, List.drop_left, List.take_left], IRes.andThen_ok, hb]
    rfl

theorem tryFrom_other {pt : Bytes} (h : PayloadType.tryFrom pt = some .other) : pt ∈ unsupportedCodes := by
  unfold PayloadType.tryFrom at h
  repeat' split at h
  all_goals first | cases h; done | assumption

theorem tryFrom_code {pt : Bytes} {c : PayloadType} (h : PayloadType.tryFrom pt = some c) :
    (c = .MF → pt = b!"-F") ∧ (c = .MH → pt = b!"-H") ∧ (c = .MV → pt = b!"-V") := by
  unfold PayloadType.tryFrom at h
  repeat' split at h
  all_goals first | cases h; done | skip
  all_goals
    cases h
    simp_all

theorem attStep_code {f : Bytes → IRes Attachment} (pt rest : Bytes) (hl : pt.length = 2) (hv : utf8Valid pt = true) {c : PayloadType}
    (h : PayloadType.tryFrom pt = some c) : attStep f (pt ++ rest) = codeStep f rest c := by
  unfold attStep
  rw [show takeN 2 (pt ++ rest) = .ok rest pt from by
    unfold takeN; rw [if_pos (by simp; omega), ← hl, List.drop_left, List.take_left], IRes.andThen_ok, hv, h]
  rfl

theorem attStep_panic {f : Bytes → IRes Attachment} {s : Bytes} (h : attStep f s = .panic) :
    Unsupported s ∨
    (∃ k r, Counted b!"-F" s k r ∧ countP (pairP eventSealP (sigsOf f)) k r = .panic) ∨
    (∃ k r, Counted b!"-H" s k r ∧ countP (pairP prefixP (sigsOf f)) k r = .panic) ∨
    (∃ k r, Counted b!"-V" s k r ∧ frameStep f r k = .panic) := by
  unfold attStep at h
  rcases andThen_panic.1 h with h | ⟨rest, pt, h1, h⟩
  · exact absurd h (ParseFine.takeN (Nat.le_refl _)).1
  obtain ⟨e, l⟩ := takeN_ok h1
  split at h
  · cases h
  · split at h
    · cases h
    · rename_i c hc
      obtain ⟨k1, k2, k3⟩ := tryFrom_code hc
      have cnt : ∀ {r : Bytes} {k : Nat}, b64CountP rest = .ok r k → Counted pt s k r := by
        intro r k hk
        obtain ⟨c, e1, l1, b1⟩ := b64CountP_ok.1 hk
        exact ⟨c, by rw [e, e1, List.append_assoc], l1, b1⟩
      cases c with
      | MA => exact absurd (andThen_panic_ok.1 h) (signaturesP_fine (Nat.le_refl _)).1
      | MC => exact absurd (andThen_panic_ok.1 h) (coupletsP_fine (Nat.le_refl _)).1
      | MG => exact absurd (andThen_panic_ok.1 h) (sourceSealP_fine (Nat.le_refl _)).1
      | MF =>
        rcases andThen_panic.1 h with h | ⟨r, k, h2, h⟩
        · exact absurd h (b64CountP_fine (Nat.le_refl _)).1
        · exact Or.inr (Or.inl ⟨k, r, k1 rfl ▸ cnt h2, andThen_panic_ok.1 h⟩)
      | MH =>
        rcases andThen_panic.1 h with h | ⟨r, k, h2, h⟩
        · exact absurd h (b64CountP_fine (Nat.le_refl _)).1
        · exact Or.inr (Or.inr (Or.inl ⟨k, r, k2 rfl ▸ cnt h2, andThen_panic_ok.1 h⟩))
      | MV =>
        rcases andThen_panic.1 h with h | ⟨r, k, h2, h⟩
        · exact absurd h (b64CountP_fine (Nat.le_refl _)).1
        · exact Or.inr (Or.inr (Or.inr ⟨k, r, k3 rfl ▸ cnt h2, h⟩))
      | other => exact Or.inl ⟨pt, rest, e, tryFrom_other hc⟩

theorem sigsOf_panic {f : Bytes → IRes Attachment} {s : Bytes} : sigsOf f s = .panic ↔ f s = .panic := by
  unfold sigsOf
  rw [andThen_panic]
  constructor
  · rintro (h | ⟨r, a, _, h⟩)
    · exact h
    · split at h <;> cases h
  · exact Or.inl

theorem frameStep_panic {r : Bytes} {k : Nat} : frameStep attachmentP r k = .panic ↔
    k * 4 ≤ r.length ∧ (attachmentsP (r.take (k * 4)) = .panic ∨
      ∃ extra atts, attachmentsP (r.take (k * 4)) = .ok extra atts ∧ extra ≠ [] ∧ k * 4 < (r.drop (k * 4)).length) := by
  unfold frameStep
  by_cases hk : k * 4 ≤ r.length
  · rw [show takeN (k * 4) r = .ok (r.drop (k * 4)) (r.take (k * 4)) from by unfold takeN; rw [if_pos hk]]
    simp only
    rw [andThen_panic]
    refine ⟨fun h => ⟨hk, ?_⟩, fun h => ?_⟩
    · rcases h with h | ⟨ex, as, h1, h2⟩
      · exact Or.inl h
      · refine Or.inr ⟨ex, as, h1, ?_⟩
        split at h2
        · cases h2
        · rename_i hne
          split at h2
          · cases h2
          · exact ⟨by simpa using hne, by omega⟩
    · rcases h.2 with h | ⟨ex, as, h1, h2, h3⟩
      · exact Or.inl h
      · refine Or.inr ⟨ex, as, h1, ?_⟩
        rw [if_neg (by simpa using h2), if_neg (by omega)]
  · rw [show takeN (k * 4) r = .error from by unfold takeN; rw [if_neg hk]]
    simp [hk]

/-- what makes the parser crash at `t` -/
def CrashesAt (t : Bytes) : Prop := Unsupported t ∨ LeakyFrame t

theorem Counted.length {code t r : Bytes} {k : Nat} (h : Counted code t k r) : r.length + 2 ≤ t.length := by
  obtain ⟨c, rfl, l, _⟩ := h
  simp; omega

/-- forward: a crash has its reason -/
theorem crash_reason : ∀ (L : Nat) (s : Bytes), s.length = L →
    (attachmentP s = .panic → ∃ t, Meets s t ∧ CrashesAt t) ∧ (attachmentsP s = .panic → ∃ t, MeetsAny s t ∧ CrashesAt t) := by
  intro L
  induction L using Nat.strongRecOn with
  | _ L ih =>
    intro s hs
    have one : attachmentP s = .panic → ∃ t, Meets s t ∧ CrashesAt t := by
      intro h
      rw [attachmentP_step] at h
      rcases attStep_panic h with h | ⟨k, r, hc, h⟩ | ⟨k, r, hc, h⟩ | ⟨k, r, hc, h⟩
      · exact ⟨s, .here s, Or.inl h⟩
      · obtain ⟨j, r', gs, hj, h1, h2⟩ := countP_panic.1 h
        have hl := hc.length
        have hr' : r'.length ≤ r.length :=
          countP_shr (L := r.length) (fun _ h => pairP_shr (fun _ h => Shr.of (eventSealP_fine h))
            (fun _ h => sigsOf_shr (fun t ht r a e => Nat.le_trans (attachmentP_shr t r a e) ht) h) h) j (Nat.le_refl _) r' gs h1
        obtain ⟨r'', es, h3, h4⟩ := (pairP_panic (eventSealP_fine (Nat.le_refl _)).1).1 h2
        have hr'' := (eventSealP_fine (Nat.le_refl r'.length)).2 _ _ h3
        obtain ⟨t, m, w⟩ := (ih r''.length (by omega) r'' rfl).1 (sigsOf_panic.1 h4)
        exact ⟨t, .sealGroup hc hj h1 h3 m, w⟩
      · obtain ⟨j, r', gs, hj, h1, h2⟩ := countP_panic.1 h
        have hl := hc.length
        have hr' : r'.length ≤ r.length :=
          countP_shr (L := r.length) (fun _ h => pairP_shr (fun _ h => Shr.of (prefixP_fine h))
            (fun _ h => sigsOf_shr (fun t ht r a e => Nat.le_trans (attachmentP_shr t r a e) ht) h) h) j (Nat.le_refl _) r' gs h1
        obtain ⟨r'', p, h3, h4⟩ := (pairP_panic (prefixP_fine (Nat.le_refl _)).1).1 h2
        have hr'' := (prefixP_fine (Nat.le_refl r'.length)).2 _ _ h3
        obtain ⟨t, m, w⟩ := (ih r''.length (by omega) r'' rfl).1 (sigsOf_panic.1 h4)
        exact ⟨t, .lastEstGroup hc hj h1 h3 m, w⟩
      · have hl := hc.length
        obtain ⟨hk, h | ⟨ex, as, h1, h2, h3⟩⟩ := frameStep_panic.1 h
        · obtain ⟨t, m, w⟩ := (ih (r.take (k * 4)).length (by simp; omega) _ rfl).2 h
          exact ⟨t, .inFrame hc hk m, w⟩
        · exact ⟨s, .here s, Or.inr ⟨k, r, ex, as, hc, hk, h1, h2, h3⟩⟩
    refine ⟨one, fun h => ?_⟩
    rw [attachmentsP_step] at h
    cases hp : attachmentP s with
    | ok r a =>
      rw [hp] at h
      have hl := attachmentP_consumes hp
      obtain ⟨t, m, w⟩ := (ih r.length (by omega) r rfl).2 (andThen_panic_ok.1 h)
      exact ⟨t, .next hp m, w⟩
    | panic =>
      obtain ⟨t, m, w⟩ := one hp
      exact ⟨t, .first m, w⟩
    | error => rw [hp] at h; cases h
    | failure => rw [hp] at h; cases h
    | incomplete => rw [hp] at h; cases h

theorem unsupported_panics {t : Bytes} (h : Unsupported t) : attachmentP t = .panic := by
  obtain ⟨c, r, rfl, hc⟩ := h
  have key : ∀ c ∈ unsupportedCodes, c.length = 2 ∧ utf8Valid c = true ∧ PayloadType.tryFrom c = some .other := by decide
  obtain ⟨h1, h2, h3⟩ := key c hc
  rw [attachmentP_step, attStep_code c r h1 h2 h3]
  rfl

theorem counted_step {code s r : Bytes} {k : Nat} {c : PayloadType} (h : Counted code s k r) (hl : code.length = 2) (hv : utf8Valid code = true)
    (hc : PayloadType.tryFrom code = some c) : ∃ rest, b64CountP rest = .ok r k ∧ attachmentP s = codeStep attachmentP rest c := by
  obtain ⟨x, rfl, l, b⟩ := h
  refine ⟨x ++ r, b64CountP_ok.2 ⟨x, rfl, l, b⟩, ?_⟩
  rw [List.append_assoc, attachmentP_step, attStep_code code _ hl hv hc]

theorem leaky_panics {t : Bytes} (h : LeakyFrame t) : attachmentP t = .panic := by
  obtain ⟨k, r, ex, as, hc, hk, h1, h2, h3⟩ := h
  obtain ⟨rest, g1, g2⟩ := counted_step hc rfl rfl (c := .MV) rfl
  rw [g2]
  unfold codeStep
  rw [g1, IRes.andThen_ok]
  exact frameStep_panic.2 ⟨hk, Or.inr ⟨ex, as, h1, h2, h3⟩⟩

theorem here_crash {t : Bytes} (w : CrashesAt t) : attachmentP t = .panic := w.elim unsupported_panics leaky_panics

theorem sealGroup_crash {s r r' r'' : Bytes} {k j : Nat} {gs : List (EventSeal × List AttachedSignaturePrefix)} {es : EventSeal}
    (hc : Counted b!"-F" s k r) (hj : j < k) (h1 : countP (pairP eventSealP sigGroupP) j r = .ok r' gs) (h3 : eventSealP r' = .ok r'' es)
    (h : attachmentP r'' = .panic) : attachmentP s = .panic := by
  obtain ⟨rest, g1, g2⟩ := counted_step hc rfl rfl (c := .MF) rfl
  rw [g2]
  simp only [codeStep]
  rw [g1, IRes.andThen_ok, andThen_panic_ok]
  exact countP_panic.2 ⟨_, _, _, hj, h1, (pairP_panic (eventSealP_fine (Nat.le_refl _)).1).2 ⟨_, _, h3, sigsOf_panic.2 h⟩⟩

theorem lastEstGroup_crash {s r r' r'' : Bytes} {k j : Nat} {gs : List (IdentifierPrefix × List AttachedSignaturePrefix)} {p : IdentifierPrefix}
    (hc : Counted b!"-H" s k r) (hj : j < k) (h1 : countP (pairP prefixP sigGroupP) j r = .ok r' gs) (h3 : prefixP r' = .ok r'' p)
    (h : attachmentP r'' = .panic) : attachmentP s = .panic := by
  obtain ⟨rest, g1, g2⟩ := counted_step hc rfl rfl (c := .MH) rfl
  rw [g2]
  simp only [codeStep]
  rw [g1, IRes.andThen_ok, andThen_panic_ok]
  exact countP_panic.2 ⟨_, _, _, hj, h1, (pairP_panic (prefixP_fine (Nat.le_refl _)).1).2 ⟨_, _, h3, sigsOf_panic.2 h⟩⟩

theorem frame_crash {s r : Bytes} {k : Nat} (hc : Counted b!"-V" s k r) (hk : k * 4 ≤ r.length) (h : attachmentsP (r.take (k * 4)) = .panic) :
    attachmentP s = .panic := by
  obtain ⟨rest, g1, g2⟩ := counted_step hc rfl rfl (c := .MV) rfl
  rw [g2]
  simp only [codeStep]
  rw [g1, IRes.andThen_ok]
  exact frameStep_panic.2 ⟨hk, Or.inl h⟩

/-- backward: at a reason the parser crashes -/
theorem MeetsAny.crash {s t : Bytes} (m : MeetsAny s t) : CrashesAt t → attachmentsP s = .panic := by
  refine MeetsAny.rec (motive_1 := fun s t _ => CrashesAt t → attachmentP s = .panic) (motive_2 := fun s t _ => CrashesAt t → attachmentsP s = .panic)
    ?_ ?_ ?_ ?_ ?_ ?_ m
  · intro s w; exact here_crash w
  · intro s t r r' r'' k j gs es hc hj h1 h3 _ ih w; exact sealGroup_crash hc hj h1 h3 (ih w)
  · intro s t r r' r'' k j gs es hc hj h1 h3 _ ih w; exact lastEstGroup_crash hc hj h1 h3 (ih w)
  · intro s t r k hc hk _ ih w; exact frame_crash hc hk (ih w)
  · intro s t _ ih w
    rw [attachmentsP_step, ih w]
  · intro s r t a h _ ih w
    rw [attachmentsP_step, h]
    exact andThen_panic_ok.2 (ih w)

/-- C63, what follows the message: the attachment parser crashes exactly when it comes to read, as an attachment, a text that begins with
one of sixteen codes it does not handle, or a frame with unread bytes at its end that is followed by more bytes than it holds. -/
theorem C63_attachments (s : Bytes) : attachmentsP s = .panic ↔ ∃ t, MeetsAny s t ∧ CrashesAt t :=
  ⟨(crash_reason s.length s rfl).2, fun ⟨_, m, w⟩ => m.crash w⟩

/-- C63: parsing any bytes as a signed message crashes only if a version string in the JSON text is not ASCII or shorter than sixteen
characters, or a text in the place of a prefix is not ASCII or shorter than four characters, or a binary reader crashes, or the bytes after
the message bring the attachment parser to one of the texts of `C63_attachments`; in the last case it always crashes. -/
theorem C63_crashes (bin : Binary) (s : Bytes) (hj : SafeMembers (jsonTop s).1) (he : bin.event s ≠ .panic) (hr : bin.receipt s ≠ .panic) :
    signedMessageP bin s = .panic ↔
      ∃ rest e, altP (keyEventMessageP bin) (receiptMessageP bin) s = .ok rest e ∧ ∃ t, MeetsAny rest t ∧ CrashesAt t := by
  obtain ⟨j1, j2⟩ := C63_json s hj
  have alt_np : ∀ {α : Type} {p q : Bytes → IRes α}, p s ≠ .panic → q s ≠ .panic → altP p q s ≠ .panic := by
    intro α p q h1 h2
    unfold altP
    split
    · exact h2
    · exact h1
  have h0 : altP (keyEventMessageP bin) (receiptMessageP bin) s ≠ .panic := by
    refine alt_np ?_ ?_
    · unfold keyEventMessageP
      rw [Ne, andThen_panic_ok]
      exact alt_np j1 he
    · unfold receiptMessageP
      rw [Ne, andThen_panic_ok]
      exact alt_np j2 hr
  unfold signedMessageP
  rw [andThen_panic]
  simp only [h0, false_or]
  constructor
  · rintro ⟨r, e, h1, h2⟩
    exact ⟨r, e, h1, (C63_attachments r).1 (andThen_panic_ok.1 h2)⟩
  · rintro ⟨r, e, h1, h2⟩
    exact ⟨r, e, h1, andThen_panic_ok.2 ((C63_attachments r).2 h2)⟩

/-! ### Examples -/

mutual
/-- a decision procedure for `JVal.Safe` -/
def JVal.safeB : JVal → Bool
  | .str s => s.isEmpty || (s.all (· < 0x80) && 4 ≤ s.length)
  | .arr xs => JVal.safeLB xs
  | .obj fs => JVal.safeFB fs
  | _ => true
/-- element-wise -/
def JVal.safeLB : List JVal → Bool
  | [] => true
  | x :: xs => x.safeB && JVal.safeLB xs
/-- member-wise -/
def JVal.safeFB : List (Bytes × JVal) → Bool
  | [] => true
  | (k, v) :: r => (plainKeys.contains k || v.safeB) && JVal.safeFB r
end

mutual
theorem JVal.safe_of : ∀ (v : JVal), v.safeB = true → v.Safe
  | .str s, h => by
    simp only [JVal.safeB, Bool.or_eq_true, Bool.and_eq_true, List.isEmpty_iff, decide_eq_true_eq, List.all_eq_true] at h
    exact h
  | .arr xs, h => JVal.safeL_of xs h
  | .obj fs, h => JVal.safeF_of fs h
  | .null, _ => trivial
  | .num, _ => trivial
  | .bool _, _ => trivial
theorem JVal.safeL_of : ∀ (xs : List JVal), JVal.safeLB xs = true → JVal.SafeL xs
  | [], _ => trivial
  | x :: xs, h => by
    simp only [JVal.safeLB, Bool.and_eq_true] at h
    exact ⟨JVal.safe_of x h.1, JVal.safeL_of xs h.2⟩
theorem JVal.safeF_of : ∀ (fs : List (Bytes × JVal)), JVal.safeFB fs = true → JVal.SafeF fs
  | [], _ => trivial
  | (k, v) :: r, h => by
    simp only [JVal.safeFB, Bool.and_eq_true, Bool.or_eq_true] at h
    refine ⟨fun hk => ?_, JVal.safeF_of r h.2⟩
    rcases h.1 with h1 | h1
    · exact absurd (by simpa using h1) hk
    · exact JVal.safe_of v h1
end

/-- a decision procedure for `SafeMembers` -/
def safeMembersB (fs : List (Bytes × JVal)) : Bool :=
  (fs.all fun f => match f with
    | (k, .str v) => k ≠ b!"v" || (v.all (· < 0x80) && 16 ≤ v.length)
    | _ => true) && JVal.safeFB (fs.filter fun f => f.1 ≠ b!"v")

theorem safeMembers_of {fs : List (Bytes × JVal)} (h : safeMembersB fs = true) : SafeMembers fs := by
  simp only [safeMembersB, Bool.and_eq_true, List.all_eq_true] at h
  refine ⟨fun v hv => ?_, JVal.safeF_of _ h.2⟩
  have := h.1 _ hv
  simp only [ne_eq, not_true_eq_false, decide_false, Bool.false_or, Bool.and_eq_true, decide_eq_true_eq, List.all_eq_true] at this
  exact this

/-- the text of the example interaction event with its attached signatures -/
def Ex.ixnText : Bytes := match (SignedEvent.toData Ex.ixn).toCesr Ex.env with
  | .ok t => t
  | _ => []

/-- `C63_crashes` says of a real event with its signatures that it does not crash the parser … -/
example : Ex.ixnText.length > 100 ∧ SafeMembers (jsonTop Ex.ixnText).1 ∧ signedMessageP Ex.noBin Ex.ixnText ≠ .panic := by
  refine ⟨by decide +kernel, safeMembers_of (by decide +kernel), ?_⟩
  have h : (match signedMessageP Ex.noBin Ex.ixnText with | .panic => false | _ => true) = true := by decide +kernel
  intro hp
  rw [hp] at h
  cases h

/-- … a code that is not handled, inside a frame and behind another attachment, crashes it, and so does a frame with unread bytes … -/
example : attachmentsP b!"-AAA-VAC-AAA-BAArest" = .panic ∧ attachmentsP b!"-AAA-VABxxxxyyyyy" = .panic := by
  constructor
  · refine (C63_attachments _).2 ⟨b!"-BAA", .next (r := b!"-VAC-AAA-BAArest") (a := .attachedSignatures []) rfl (.first (.inFrame (k := 2)
      (r := b!"-AAA-BAArest") ⟨b!"AC", rfl, rfl, rfl⟩ (by decide) (.next (r := b!"-BAA") (a := .attachedSignatures []) rfl (.first (.here _))))), Or.inl
      ⟨b!"-B", b!"AA", rfl, by decide⟩⟩
  · refine (C63_attachments _).2 ⟨b!"-VABxxxxyyyyy", .next (r := b!"-VABxxxxyyyyy") (a := .attachedSignatures []) rfl (.first (.here _)), Or.inr
      ⟨1, b!"xxxxyyyyy", b!"xxxx", [], ⟨b!"AB", rfl, rfl, rfl⟩, by decide, rfl, by decide, by decide⟩⟩

/-- … but the same codes inside the text of a sequence number do not -/
example : attachmentsP b!"-GAB0AAAAAAAAAAAAAAAAAAAAAAAEAAAAAAAAAAAAAAAAAAAAAAAAAAAAAAAAAAAAAAAAAAAAAAA" ≠ .panic := by
  intro h
  have : (match attachmentsP b!"-GAB0AAAAAAAAAAAAAAAAAAAAAAAEAAAAAAAAAAAAAAAAAAAAAAAAAAAAAAAAAAAAAAAAAAAAAAA" with | .panic => false | _ => true) = true := by
    decide +kernel
  rw [h] at this
  cases this

end Keriox
