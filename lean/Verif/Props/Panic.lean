import Verif.Props.Wire
/-!
# Property C63: parsing untrusted bytes and crashes
-/
namespace Keriox

/-! ## Specification -/

/-- a text no prefix parser can crash on: empty, or ASCII of at least four characters -/
def SafeText (s : Bytes) : Prop := s = [] ∨ (Ascii s ∧ 4 ≤ s.length)

/-- members whose strings are never read as prefixes: sequence numbers, tags and ilks, thresholds, tallies, traits; and, in replies and
queries, event types, first-seen numbers, timestamps and routes -/
def plainKeys : List Bytes := [b!"s", b!"t", b!"kt", b!"bt", b!"c", b!"et", b!"f", b!"dt", b!"r", b!"rr"]

mutual
/-- every string of a JSON value that may be read as a prefix is safe -/
def JVal.Safe : JVal → Prop
  | .str s => SafeText s
  | .arr xs => JVal.SafeL xs
  | .obj fs => JVal.SafeF fs
  | _ => True
/-- element-wise -/
def JVal.SafeL : List JVal → Prop
  | [] => True
  | x :: xs => x.Safe ∧ JVal.SafeL xs
/-- member-wise -/
def JVal.SafeF : List (Bytes × JVal) → Prop
  | [] => True
  | (k, v) :: r => (k ∉ plainKeys → v.Safe) ∧ JVal.SafeF r
end

/-- the version string is ASCII of at least sixteen characters, and strings read as prefixes are safe -/
def SafeMembers (fs : List (Bytes × JVal)) : Prop :=
  (∀ v, (b!"v", JVal.str v) ∈ fs → Ascii v ∧ 16 ≤ v.length) ∧ JVal.SafeF (fs.filter fun f => f.1 ≠ b!"v")

/-! ## Proof -/

/-- not a panic -/
abbrev NP {α : Type} (x : Res α) : Prop := x ≠ .panic

theorem NP.bind {α β : Type} {x : Res α} {f : α → Res β} (h1 : NP x) (h2 : ∀ a, x = .ok a → NP (f a)) : NP (x >>= f) := by
  cases x with
  | ok a => exact h2 a rfl
  | err e => simp [NP]
  | panic => exact absurd rfl h1

theorem NP.ok {α : Type} (a : α) : NP (Res.ok a) := by simp [NP]
theorem NP.err {α : Type} (e : Error) : NP (Res.err e : Res α) := by simp [NP]
theorem NP.ofOption {α : Type} (o : Option α) (e : Error) : NP (Res.ofOption o e) := by cases o <;> simp [NP, Res.ofOption]
theorem NP.need {α : Type} (o : Option α) : NP (need o) := NP.ofOption o _
theorem NP.orTry {α : Type} {x y : Res α} (h1 : NP x) (h2 : NP y) : NP (orTry x y) := by
  cases x with
  | ok a => exact NP.ok a
  | err e => exact h2
  | panic => exact absurd rfl h1

theorem slice_np {s : Bytes} (h : Ascii s) {a b : Nat} (hab : a ≤ b) (hb : b ≤ s.length) : NP (strSlice s a b) := by
  rw [h.strSlice hab hb]; exact NP.ok _

theorem decodeBody_np {s : Bytes} (h : Ascii s) (c p : Nat) (hc : c ≤ p) : NP (decodeBody s c p) := by
  unfold decodeBody
  split
  · rename_i hl
    exact NP.bind (slice_np h hc (by omega)) fun _ _ => NP.ofOption _ _
  · exact NP.err _

theorem Basic.fromStr_np {s : Bytes} (h : SafeText s) : NP (Basic.fromStr s) := by
  rcases h with rfl | ⟨h, hl⟩
  · decide
  · unfold Basic.fromStr
    rw [h.strGet (a := 0) (b := 1) (by omega) (by omega)]
    dsimp only
    repeat' split
    all_goals first
      | exact NP.ok _
      | exact NP.err _
      | (refine NP.bind (slice_np h (by omega) (by omega)) fun t _ => ?_
         repeat' split
         all_goals first | exact NP.ok _ | exact NP.err _)

theorem SelfAddressing.fromStr_np {s : Bytes} (h : SafeText s) : NP (SelfAddressing.fromStr s) := by
  rcases h with rfl | ⟨h, hl⟩
  · decide
  · unfold SelfAddressing.fromStr
    rw [h.strGet (a := 0) (b := 1) (by omega) (by omega)]
    dsimp only
    repeat' split
    all_goals first
      | exact NP.ok _
      | exact NP.err _
      | (refine NP.bind (slice_np h (by omega) (by omega)) fun t _ => ?_
         repeat' split
         all_goals first | exact NP.ok _ | exact NP.err _)

theorem SelfSigning.fromStr_np {s : Bytes} (h : SafeText s) : NP (SelfSigning.fromStr s) := by
  rcases h with rfl | ⟨h, hl⟩
  · decide
  · unfold SelfSigning.fromStr
    rw [h.strGet (a := 0) (b := 1) (by omega) (by omega)]
    dsimp only
    repeat' split
    all_goals first
      | exact NP.ok _
      | exact NP.err _
      | (refine NP.bind (slice_np h (by omega) (by omega)) fun t _ => ?_
         repeat' split
         all_goals first | exact NP.ok _ | exact NP.err _)

theorem ascii_of_safe {s : Bytes} (h : SafeText s) : Ascii s := by
  rcases h with rfl | ⟨h, _⟩
  · intro c hc; cases hc
  · exact h

theorem BasicPrefix.fromStr_np {s : Bytes} (h : SafeText s) : NP (BasicPrefix.fromStr s) := by
  unfold BasicPrefix.fromStr
  refine NP.bind (Basic.fromStr_np h) fun c _ => NP.bind (decodeBody_np (ascii_of_safe h) _ _ ?_) fun _ _ => NP.ok _
  unfold Basic.prefixLen; omega
theorem SelfAddressingPrefix.fromStr_np {s : Bytes} (h : SafeText s) : NP (SelfAddressingPrefix.fromStr s) := by
  unfold SelfAddressingPrefix.fromStr
  refine NP.bind (SelfAddressing.fromStr_np h) fun c _ => NP.bind (decodeBody_np (ascii_of_safe h) _ _ ?_) fun _ _ => NP.ok _
  unfold SelfAddressing.prefixLen; omega
theorem SelfSigningPrefix.fromStr_np {s : Bytes} (h : SafeText s) : NP (SelfSigningPrefix.fromStr s) := by
  unfold SelfSigningPrefix.fromStr
  refine NP.bind (SelfSigning.fromStr_np h) fun c _ => NP.bind (decodeBody_np (ascii_of_safe h) _ _ ?_) fun _ _ => NP.ok _
  unfold SelfSigning.prefixLen; omega
theorem IdentifierPrefix.fromStr_np {s : Bytes} (h : SafeText s) : NP (IdentifierPrefix.fromStr s) := by
  unfold IdentifierPrefix.fromStr
  have h1 := BasicPrefix.fromStr_np h
  cases hb : BasicPrefix.fromStr s with
  | ok p => exact NP.ok _
  | panic => exact absurd hb h1
  | err e =>
    simp only
    have h2 := SelfAddressingPrefix.fromStr_np h
    cases hc : SelfAddressingPrefix.fromStr s with
    | ok p => exact NP.ok _
    | panic => exact absurd hc h2
    | err e => exact NP.bind (SelfSigningPrefix.fromStr_np h) fun _ _ => NP.ok _

theorem SerInfo.fromStr_np {s : Bytes} (h : Ascii s) (hl : 16 ≤ s.length) : NP (SerInfo.fromStr s) := by
  unfold SerInfo.fromStr
  refine NP.bind (slice_np h (by omega) (by omega)) fun _ _ => ?_
  split
  · refine NP.bind (slice_np h (by omega) (by omega)) fun _ _ => NP.bind (NP.ofOption _ _) fun _ _ =>
      NP.bind (slice_np h (by omega) (by omega)) fun _ _ => NP.bind (NP.ofOption _ _) fun _ _ =>
      NP.bind (slice_np h (by omega) (by omega)) fun _ _ => NP.bind ?_ fun _ _ =>
      NP.bind (slice_np h (by omega) (by omega)) fun _ _ => NP.bind (NP.ofOption _ _) fun _ _ => NP.ok _
    unfold Fmt.fromStr
    repeat' split
    all_goals first | exact NP.ok _ | exact NP.err _
  · exact NP.err _

theorem Frac.fromStr_np (s : Bytes) : NP (Frac.fromStr s) := by
  unfold Frac.fromStr
  split
  · exact NP.bind (NP.ofOption _ _) fun _ _ => NP.ok _
  · exact NP.bind (NP.ofOption _ _) fun _ _ => NP.bind (NP.ofOption _ _) fun _ _ => NP.ok _
  · exact NP.err _

theorem desText_np {α : Type} {p : Bytes → Res α} {v : JVal} (h : ∀ s, v = .str s → NP (p s)) : NP (desText p v) := by
  unfold desText
  split
  · exact h _ rfl
  · exact NP.err _

theorem desText_safe {α : Type} {p : Bytes → Res α} (hp : ∀ s, SafeText s → NP (p s)) {v : JVal} (h : v.Safe) : NP (desText p v) :=
  desText_np fun s hs => hp s (by subst hs; simpa [JVal.Safe] using h)

theorem desAll_np {α : Type} {p : JVal → Res α} {xs : List JVal} (h : ∀ x ∈ xs, NP (p x)) : NP (desAll p xs) := by
  induction xs with
  | nil => exact NP.ok _
  | cons x xs ih =>
    rw [desAll]
    exact NP.bind (h x (by simp)) fun _ _ => NP.bind (ih fun y hy => h y (by simp [hy])) fun _ _ => NP.ok _

theorem desVec_np {α : Type} {p : JVal → Res α} {v : JVal} (h : ∀ xs, v = .arr xs → ∀ x ∈ xs, NP (p x)) : NP (desVec p v) := by
  unfold desVec
  split
  · exact desAll_np (h _ rfl)
  · exact NP.err _

theorem safeL_mem {xs : List JVal} (h : JVal.SafeL xs) {x : JVal} (hx : x ∈ xs) : x.Safe := by
  induction xs with
  | nil => cases hx
  | cons y ys ih =>
    simp only [JVal.SafeL] at h
    rcases List.mem_cons.1 hx with rfl | hx
    · exact h.1
    · exact ih h.2 hx

theorem desVec_safe {α : Type} {p : JVal → Res α} (hp : ∀ x : JVal, x.Safe → NP (p x)) {v : JVal} (h : v.Safe) : NP (desVec p v) :=
  desVec_np fun xs hx x hm => hp x (safeL_mem (by subst hx; simpa [JVal.Safe] using h) hm)

theorem safeF_mem {fs : List (Bytes × JVal)} (h : JVal.SafeF fs) {k : Bytes} {v : JVal} (hx : (k, v) ∈ fs) (hk : k ∉ plainKeys) : v.Safe := by
  induction fs with
  | nil => cases hx
  | cons y ys ih =>
    obtain ⟨k', v'⟩ := y
    simp only [JVal.SafeF] at h
    rcases List.mem_cons.1 hx with he | hx
    · cases he; exact h.1 hk
    · exact ih h.2 hx

theorem lookLast_mem {k : Bytes} {fs : List (Bytes × JVal)} {v : JVal} (h : lookLast k fs = some v) : (k, v) ∈ fs := by
  induction fs with
  | nil => cases h
  | cons f fs ih =>
    obtain ⟨k', v'⟩ := f
    rw [lookLast] at h
    cases hl : lookLast k fs with
    | some x => rw [hl] at h; simp only [Option.some.injEq] at h; subst h; exact List.mem_cons_of_mem _ (ih hl)
    | none =>
      rw [hl] at h
      simp only at h
      split at h
      · cases h; rename_i hk; subst hk; simp
      · cases h

theorem optField_np {α : Type} {p : JVal → Res α} {k : Bytes} {fs : List (Bytes × JVal)} (h : ∀ v, (k, v) ∈ fs → NP (p v)) :
    NP (optField p k fs) := by
  unfold optField
  split
  · exact NP.ok _
  · rename_i v hv
    exact NP.bind (h v (lookLast_mem hv)) fun _ _ => NP.ok _

theorem desHex_np (v : JVal) : NP (desHex v) := desHex_no_panic v

theorem desClause_np (v : JVal) : NP (desClause v) := desVec_np fun _ _ _ _ => desText_np fun _ _ => Frac.fromStr_np _

theorem desThreshold_np (v : JVal) : NP (desThreshold v) :=
  NP.orTry (NP.bind (desHex_np v) fun _ _ => NP.ok _) <| NP.orTry (NP.bind (desClause_np v) fun _ _ => NP.ok _) <|
    NP.bind (desVec_np fun _ _ _ _ => desClause_np _) fun _ _ => NP.ok _

theorem desNext_np {v : JVal} (h : v.Safe) : NP (desNext v) := by
  unfold desNext
  split
  · exact NP.ok _
  · exact NP.ok _
  · rename_i s _
    exact NP.bind (SelfAddressingPrefix.fromStr_np (by simpa [JVal.Safe] using h)) fun _ _ => NP.ok _
  · exact NP.err _

/-- an optional field read as a prefix (or list of them) -/
theorem optSafe {α : Type} {p : JVal → Res α} (hp : ∀ v : JVal, v.Safe → NP (p v)) {k : Bytes} (hk : k ∉ plainKeys)
    {fs : List (Bytes × JVal)} (h : JVal.SafeF fs) : NP (optField p k fs) :=
  optField_np fun v hv => hp v (safeF_mem h hv hk)

theorem keysSafe : ∀ v : JVal, v.Safe → NP (desVec (desText BasicPrefix.fromStr) v) :=
  fun _ h => desVec_safe (fun _ h => desText_safe (fun _ => BasicPrefix.fromStr_np) h) h
theorem sapSafe : ∀ v : JVal, v.Safe → NP (desText SelfAddressingPrefix.fromStr v) :=
  fun _ h => desText_safe (fun _ => SelfAddressingPrefix.fromStr_np) h
theorem idSafe : ∀ v : JVal, v.Safe → NP (desText IdentifierPrefix.fromStr v) :=
  fun _ h => desText_safe (fun _ => IdentifierPrefix.fromStr_np) h

theorem desKeyConfig_np {fs : List (Bytes × JVal)} (h : JVal.SafeF fs) : NP (desKeyConfig fs) := by
  unfold desKeyConfig
  exact NP.bind (optSafe keysSafe (by decide) h) fun _ _ => NP.bind (optField_np fun v _ => desThreshold_np v) fun _ _ =>
    NP.bind (optSafe (fun _ h => desNext_np h) (by decide) h) fun _ _ => NP.bind (NP.need _) fun _ _ => NP.bind (NP.need _) fun _ _ =>
    NP.bind (NP.need _) fun _ _ => NP.ok _

theorem safeF_zip {names : List Bytes} {xs : List JVal} (h : JVal.SafeL xs) : JVal.SafeF (names.zip xs) := by
  induction xs generalizing names with
  | nil => simp [JVal.SafeF]
  | cons x xs ih =>
    cases names with
    | nil => simp [JVal.SafeF]
    | cons n ns =>
      simp only [JVal.SafeL] at h
      simp only [List.zip_cons_cons, JVal.SafeF]
      exact ⟨fun _ => h.1, ih h.2⟩

theorem tried_np {α : Type} {p : JVal → Res α} {v : JVal} (h : NP (p v)) : NP (tried p v) := NP.bind h fun _ _ => NP.ok _

theorem seqWalk_np {ps : List (JVal → Res Unit)} (hp : ∀ p ∈ ps, ∀ v : JVal, v.Safe → NP (p v)) :
    ∀ {xs : List JVal}, JVal.SafeL xs → NP (seqWalk ps xs) := by
  induction ps with
  | nil => intro xs _; cases xs <;> first | exact NP.ok _ | exact NP.err _
  | cons p ps ih =>
    intro xs h
    cases xs with
    | nil => exact NP.err _
    | cons x xs =>
      simp only [JVal.SafeL] at h
      exact NP.bind (hp p List.mem_cons_self x h.1) fun _ _ => ih (fun q hq => hp q (List.mem_cons_of_mem _ hq)) h.2

theorem structFields_np {fields : List (Bytes × (JVal → Res Unit))} (hp : ∀ f ∈ fields, ∀ v : JVal, v.Safe → NP (f.2 v)) {v : JVal}
    (h : v.Safe) : NP (structFields fields v) := by
  unfold structFields
  split
  · exact NP.ok _
  · refine NP.bind (seqWalk_np ?_ (by simpa [JVal.Safe] using h)) fun _ _ => NP.ok _
    intro p hq
    obtain ⟨f, hf, rfl⟩ := List.mem_map.1 hq
    exact hp f hf
  · exact NP.err _

theorem structFields_safe {fields : List (Bytes × (JVal → Res Unit))} {v : JVal} (h : v.Safe) {fs : List (Bytes × JVal)}
    (hf : structFields fields v = .ok fs) : JVal.SafeF fs := by
  unfold structFields at hf
  split at hf
  · cases hf; simpa [JVal.Safe] using h
  · obtain ⟨_, _, hf⟩ := Res.bind_eq_ok.1 hf
    cases hf; exact safeF_zip (by simpa [JVal.Safe] using h)
  · cases hf

theorem desSeal_np {v : JVal} (h : v.Safe) : NP (desSeal v) := by
  unfold desSeal
  refine NP.orTry ?_ (NP.orTry ?_ (NP.orTry ?_ ?_))
  · unfold desLocationSeal
    refine NP.bind (structFields_np (by
      simp only [List.forall_mem_cons, List.not_mem_nil, false_imp_iff, implies_true, and_true]
      exact ⟨fun v hv => tried_np (idSafe v hv), fun v _ => tried_np (desHex_np v), fun v _ => tried_np (desText_np fun _ _ => NP.ok _), fun v hv => tried_np (sapSafe v hv)⟩) h) fun fs hf => ?_
    have hs := structFields_safe h hf
    exact NP.bind (optSafe idSafe (by decide) hs) fun _ _ => NP.bind (optSafe sapSafe (by decide) hs) fun _ _ =>
      NP.bind (optField_np fun v _ => desHex_np v) fun _ _ => NP.bind (optField_np fun v _ => desText_np fun _ _ => NP.ok _) fun _ _ =>
      NP.bind (NP.need _) fun _ _ => NP.bind (NP.need _) fun _ _ => NP.bind (NP.need _) fun _ _ => NP.bind (NP.need _) fun _ _ => NP.ok _
  · unfold desEventSeal
    refine NP.bind (structFields_np (by
      simp only [List.forall_mem_cons, List.not_mem_nil, false_imp_iff, implies_true, and_true]
      exact ⟨fun v hv => tried_np (idSafe v hv), fun v _ => tried_np (desHex_np v), fun v hv => tried_np (sapSafe v hv)⟩) h) fun fs hf => ?_
    have hs := structFields_safe h hf
    exact NP.bind (optSafe sapSafe (by decide) hs) fun _ _ => NP.bind (optSafe idSafe (by decide) hs) fun _ _ =>
      NP.bind (optField_np fun v _ => desHex_np v) fun _ _ =>
      NP.bind (NP.need _) fun _ _ => NP.bind (NP.need _) fun _ _ => NP.bind (NP.need _) fun _ _ => NP.ok _
  · unfold desDigestSeal
    refine NP.bind (structFields_np (by
      simp only [List.forall_mem_cons, List.not_mem_nil, false_imp_iff, implies_true, and_true]
      exact fun v hv => tried_np (sapSafe v hv)) h) fun fs hf => ?_
    exact NP.bind (optSafe sapSafe (by decide) (structFields_safe h hf)) fun _ _ => NP.bind (NP.need _) fun _ _ => NP.ok _
  · unfold desRootSeal
    refine NP.bind (structFields_np (by
      simp only [List.forall_mem_cons, List.not_mem_nil, false_imp_iff, implies_true, and_true]
      exact fun v hv => tried_np (sapSafe v hv)) h) fun fs hf => ?_
    exact NP.bind (optSafe sapSafe (by decide) (structFields_safe h hf)) fun _ _ => NP.bind (NP.need _) fun _ _ => NP.ok _

theorem sealsSafe : ∀ v : JVal, v.Safe → NP (desVec desSeal v) := fun _ h => desVec_safe (fun _ h => desSeal_np h) h

theorem desInception_np {fs : List (Bytes × JVal)} (h : JVal.SafeF fs) : NP (desInception fs) := by
  unfold desInception
  exact NP.bind (optSafe sealsSafe (by decide) h) fun _ _ =>
    NP.bind (optField_np fun v _ => desVec_np fun _ _ _ _ => desText_np fun _ _ => NP.ok _) fun _ _ =>
    NP.bind (NP.need _) fun _ _ => NP.bind (NP.need _) fun _ _ => NP.bind (desKeyConfig_np h) fun _ _ =>
    NP.bind (optSafe keysSafe (by decide) h) fun _ _ => NP.bind (optField_np fun v _ => desHex_np v) fun _ _ =>
    NP.bind (NP.need _) fun _ _ => NP.bind (NP.need _) fun _ _ => NP.ok _

theorem desRotation_np {fs : List (Bytes × JVal)} (h : JVal.SafeF fs) : NP (desRotation fs) := by
  unfold desRotation
  exact NP.bind (optSafe sealsSafe (by decide) h) fun _ _ => NP.bind (optSafe sapSafe (by decide) h) fun _ _ =>
    NP.bind (NP.need _) fun _ _ => NP.bind (NP.need _) fun _ _ => NP.bind (desKeyConfig_np h) fun _ _ =>
    NP.bind (optSafe keysSafe (by decide) h) fun _ _ => NP.bind (optSafe keysSafe (by decide) h) fun _ _ =>
    NP.bind (optField_np fun v _ => desHex_np v) fun _ _ =>
    NP.bind (NP.need _) fun _ _ => NP.bind (NP.need _) fun _ _ => NP.bind (NP.need _) fun _ _ => NP.ok _

theorem desInteraction_np {fs : List (Bytes × JVal)} (h : JVal.SafeF fs) : NP (desInteraction fs) := by
  unfold desInteraction
  exact NP.bind (optSafe sealsSafe (by decide) h) fun _ _ => NP.bind (optSafe sapSafe (by decide) h) fun _ _ =>
    NP.bind (NP.need _) fun _ _ => NP.bind (NP.need _) fun _ _ => NP.ok _

theorem desDelegatedInception_np {fs : List (Bytes × JVal)} (h : JVal.SafeF fs) : NP (desDelegatedInception fs) := by
  unfold desDelegatedInception
  exact NP.bind (optSafe idSafe (by decide) h) fun _ _ => NP.bind (NP.need _) fun _ _ => NP.bind (desInception_np h) fun _ _ => NP.ok _

theorem tagOf_np (s : Bytes) : NP (tagOf s) := by
  unfold tagOf
  repeat' split
  all_goals first | exact NP.ok _ | exact NP.err _

theorem desTag_np (v : JVal) : NP (desTag v) := by
  unfold desTag
  repeat' split
  all_goals first | exact tagOf_np _ | exact NP.err _

theorem desEventData_np {fs : List (Bytes × JVal)} (h : JVal.SafeF fs) : NP (desEventData fs) := by
  unfold desEventData
  refine NP.bind (optField_np fun v _ => desTag_np v) fun _ _ => NP.bind (NP.need _) fun t _ => ?_
  cases t
  · exact NP.bind (desInception_np h) fun _ _ => NP.ok _
  · exact NP.bind (desRotation_np h) fun _ _ => NP.ok _
  · exact NP.bind (desInteraction_np h) fun _ _ => NP.ok _
  · exact NP.bind (desDelegatedInception_np h) fun _ _ => NP.ok _
  · exact NP.bind (desRotation_np h) fun _ _ => NP.ok _
  all_goals exact NP.err _

theorem ownField_np {α : Type} {p : JVal → Res α} {k : Bytes} {fs : List (Bytes × JVal)} {got : Option α}
    (h : ∀ v, (k, v) ∈ fs → NP (p v)) : NP (ownField p k fs got) := by
  induction fs generalizing got with
  | nil => exact NP.ok _
  | cons f fs ih =>
    obtain ⟨k', v⟩ := f
    have ih' : ∀ got, NP (ownField p k fs got) := fun got => ih fun v hv => h v (List.mem_cons_of_mem _ hv)
    unfold ownField
    split
    · rename_i hk
      subst hk
      split
      · exact NP.err _
      · exact NP.bind (h v (by simp)) fun _ _ => ih' _
    · exact NP.bind (ih' _) fun _ _ => NP.ok _

/-- the members handed on are those with other keys -/
theorem ownField_rest {α : Type} {p : JVal → Res α} {k : Bytes} {fs : List (Bytes × JVal)} {got : Option α}
    {q : Option α × List (Bytes × JVal)} (h : ownField p k fs got = .ok q) : q.2 = fs.filter fun f => f.1 ≠ k := by
  induction fs generalizing got q with
  | nil => cases h; rfl
  | cons f fs ih =>
    obtain ⟨k', v⟩ := f
    unfold ownField at h
    split at h
    · rename_i hk
      split at h
      · cases h
      · obtain ⟨a, _, h2⟩ := Res.bind_eq_ok.1 h
        simp [ih h2, hk]
    · rename_i hk
      obtain ⟨a, h1, h2⟩ := Res.bind_eq_ok.1 h
      cases h2
      simp [ih h1, hk]

theorem safeF_filter {fs : List (Bytes × JVal)} (h : JVal.SafeF fs) (p : Bytes × JVal → Bool) : JVal.SafeF (fs.filter p) := by
  induction fs with
  | nil => simp [JVal.SafeF]
  | cons f fs ih =>
    obtain ⟨k, v⟩ := f
    simp only [JVal.SafeF] at h
    rw [List.filter_cons]
    split
    · simp only [JVal.SafeF]; exact ⟨h.1, ih h.2⟩
    · exact ih h.2

theorem eventOwn_np {fs : List (Bytes × JVal)} (h : JVal.SafeF fs) (i : Option IdentifierPrefix) (s : Option Nat) :
    NP (eventOwn fs i s) ∧ ∀ q, eventOwn fs i s = .ok q → JVal.SafeF q.2.2 := by
  induction fs generalizing i s with
  | nil => exact ⟨NP.ok _, fun q hq => by cases hq; simp [JVal.SafeF]⟩
  | cons f fs ih =>
    obtain ⟨k, v⟩ := f
    simp only [JVal.SafeF] at h
    unfold eventOwn
    split
    · rename_i hk
      subst hk
      split
      · exact ⟨NP.err _, fun q hq => by cases hq⟩
      · refine ⟨NP.bind (idSafe _ (h.1 (by decide))) fun _ _ => (ih h.2 _ _).1, fun q hq => ?_⟩
        obtain ⟨a, _, h2⟩ := Res.bind_eq_ok.1 hq
        exact (ih h.2 _ _).2 q h2
    · split
      · split
        · exact ⟨NP.err _, fun q hq => by cases hq⟩
        · refine ⟨NP.bind (desHex_np _) fun _ _ => (ih h.2 _ _).1, fun q hq => ?_⟩
          obtain ⟨a, _, h2⟩ := Res.bind_eq_ok.1 hq
          exact (ih h.2 _ _).2 q h2
      · refine ⟨NP.bind (ih h.2 _ _).1 fun _ _ => NP.ok _, fun q hq => ?_⟩
        obtain ⟨a, h1, h2⟩ := Res.bind_eq_ok.1 hq
        cases h2
        simp only [JVal.SafeF]
        exact ⟨h.1, (ih h.2 _ _).2 a h1⟩

theorem desKeyEvent_np {fs : List (Bytes × JVal)} (h : JVal.SafeF fs) : NP (desKeyEvent fs) := by
  unfold desKeyEvent
  refine NP.bind (ownField_np fun v hv => sapSafe _ (safeF_mem h hv (by decide))) fun dq hd => NP.bind (NP.need _) fun _ _ => ?_
  have h2 : JVal.SafeF dq.2 := by rw [ownField_rest hd]; exact safeF_filter h _
  exact NP.bind (eventOwn_np h2 _ _).1 fun q hq => NP.bind (NP.need _) fun _ _ => NP.bind (NP.need _) fun _ _ =>
    NP.bind (desEventData_np ((eventOwn_np h2 _ _).2 q hq)) fun _ _ => NP.ok _

theorem desReceipt_np {fs : List (Bytes × JVal)} (h : JVal.SafeF fs) (d : Option SelfAddressingPrefix) (i : Option IdentifierPrefix)
    (s : Option Nat) : NP (desReceipt fs d i s) := by
  induction fs generalizing d i s with
  | nil => exact NP.bind (NP.need _) fun _ _ => NP.bind (NP.need _) fun _ _ => NP.bind (NP.need _) fun _ _ => NP.ok _
  | cons f fs ih =>
    obtain ⟨k, v⟩ := f
    simp only [JVal.SafeF] at h
    unfold desReceipt
    split
    · rename_i hk; subst hk
      split
      · exact NP.err _
      · exact NP.bind (sapSafe _ (h.1 (by decide))) fun _ _ => ih h.2 _ _ _
    · split
      · rename_i hk; subst hk
        split
        · exact NP.err _
        · exact NP.bind (idSafe _ (h.1 (by decide))) fun _ _ => ih h.2 _ _ _
      · split
        · split
          · exact NP.err _
          · exact NP.bind (desHex_np _) fun _ _ => ih h.2 _ _ _
        · exact ih h.2 _ _ _

theorem desMessage_np {α : Type} {inner : List (Bytes × JVal) → Res α} (hi : ∀ fs, JVal.SafeF fs → NP (inner fs))
    {top : List (Bytes × JVal) × Option Bytes} (h : SafeMembers top.1) : NP (desMessage inner top) := by
  unfold desMessage
  refine NP.bind (ownField_np fun v hv => desText_np fun s hs => ?_) fun q hq => NP.bind (NP.ofOption _ _) fun _ _ =>
    NP.bind (NP.need _) fun _ _ => NP.bind (hi _ ?_) fun _ _ => NP.ok _
  · subst hs
    obtain ⟨a, b⟩ := h.1 s hv
    exact SerInfo.fromStr_np a b
  · rw [ownField_rest hq]; exact h.2

/-- C63, the JSON part: parsing any bytes as a key event or a receipt crashes only if some version string in them is not ASCII or shorter
than sixteen characters, or some text in the place of a prefix is not ASCII or shorter than four characters.
Such texts do crash the parser (below); so does some of what may follow the message (`C63_attachments`). -/
theorem C63_json (s : Bytes) (h : SafeMembers (jsonTop s).1) :
    jsonMessage desKeyEvent s ≠ .panic ∧ jsonMessage (fun fs => desReceipt fs none none none) s ≠ .panic := by
  constructor
  · have := desMessage_np (fun fs h => desKeyEvent_np h) h
    unfold jsonMessage
    split
    · simp
    · simp
    · rename_i hp; exact absurd hp this
  · have := desMessage_np (fun fs h => desReceipt_np h none none none) h
    unfold jsonMessage
    split
    · simp
    · simp
    · rename_i hp; exact absurd hp this

/-- the hypothesis of `C63_json` holds of malformed messages too: here a digest of the wrong type and no other field -/
example : SafeMembers (jsonTop (jsonText (.map [(b!"v", .str b!"KERI10JSON000000_"), (b!"d", .seq [.str b!"EEEEE"])]) ++ [])).1 := by
  rw [jsonTop_written _ _ (by simp only [SVal.FitsF, SVal.Fits, SVal.FitsL]; decide)]
  refine ⟨fun v hv => ?_, ?_⟩
  · simp only [SVal.toJFields, SVal.toJ, SVal.toJs, List.mem_cons, Prod.mk.injEq, true_and, JVal.str.injEq, List.not_mem_nil, or_false, reduceCtorEq,
      and_false] at hv
    subst hv
    unfold Ascii; decide
  · have : ((SVal.toJFields [(b!"v", .str b!"KERI10JSON000000_"), (b!"d", .seq [.str b!"EEEEE"])]).filter fun f => f.1 ≠ b!"v") =
      [(b!"d", .arr [.str b!"EEEEE"])] := rfl
    rw [this]
    simp only [JVal.SafeF, JVal.Safe, JVal.SafeL, and_true]
    intro _
    exact Or.inr (by unfold Ascii; decide)

/-- C63 is false: a version string of fewer than four bytes crashes the parser, whatever the binary readers do … -/
theorem C63_fails_version (bin : Binary) : signedMessageP bin b!"{\"v\":\"KER\"}" = .panic := by
  have : jsonMessage desKeyEvent b!"{\"v\":\"KER\"}" = .panic := by decide +kernel
  unfold signedMessageP altP keyEventMessageP altP
  rw [this]; rfl

/-- … so does a digest of one character … -/
theorem C63_fails_digest (bin : Binary) : signedMessageP bin b!"{\"v\":\"KERI10JSON000000_\",\"d\":\"0\"}" = .panic := by
  have : jsonMessage desKeyEvent b!"{\"v\":\"KERI10JSON000000_\",\"d\":\"0\"}" = .panic := by decide +kernel
  unfold signedMessageP altP keyEventMessageP altP
  rw [this]; rfl

/-- … and any well-formed event or receipt followed by one of ten two-letter codes, here `-B`. -/
theorem C63_fails_attachment (env : Env) (bin : Binary) (hb : bin.RejectsJson) (m : Message) (h : m.Wireable) (rest : Bytes) :
    ∃ d t, m.data? = some d ∧ d.event.serialize env = .ok t ∧ signedMessageP bin (t ++ (b!"-B" ++ rest)) = .panic := by
  obtain ⟨d, hd⟩ : ∃ d, m.data? = some d := by
    cases m with
    | event e => exact ⟨_, rfl⟩
    | rctNt r => exact ⟨_, rfl⟩
    | rctT r => exact ⟨_, rfl⟩
    | reply r => exact h.elim
    | query q => exact h.elim
  obtain ⟨t, h1, h2, h3, h4, h5⟩ := message_text env m h d hd bin hb
  refine ⟨d, t, hd, h1, ?_⟩
  unfold signedMessageP
  rw [h5, IRes.andThen_ok, many0P, attachment_parser_panics]
  rfl

end Keriox
