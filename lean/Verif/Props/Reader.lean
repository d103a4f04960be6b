import Verif.Props.Wire
/-!
# C75: what the event and receipt readers accept, exactly

Specification (independent of the reader): `vals k fs` are the values of the members named `k`, in text order; `Sole R k fs a` says
there is exactly one, and it denotes `a`; `Last R k fs a` says there is at least one and the last denotes `a`.  `TextOf`, `HexOf`, `ListOf`,
`ThresholdOf`, `NextOf` and `SealOf` say which JSON values denote which parts of an event; `DataOf` and `MessageOf` which members make a
message.  The texts of prefixes and version strings are described by C35–C37 and C41.
-/
namespace Keriox

/-- the values of the members named `k`, in text order -/
def vals (k : Bytes) (fs : List (Bytes × JVal)) : List JVal := (fs.filter fun f => f.1 = k).map Prod.snd

/-- there is exactly one member `k`, and it denotes `a` -/
def Sole {α : Type} (R : JVal → α → Prop) (k : Bytes) (fs : List (Bytes × JVal)) (a : α) : Prop := ∃ v, vals k fs = [v] ∧ R v a

/-- the last member `k` denotes `a` -/
def Last {α : Type} (R : JVal → α → Prop) (k : Bytes) (fs : List (Bytes × JVal)) (a : α) : Prop :=
  ∃ v, (vals k fs).getLast? = some v ∧ R v a

/-- a string whose text denotes `a` -/
def TextOf {α : Type} (p : Bytes → Res α) (v : JVal) (a : α) : Prop := ∃ s, v = .str s ∧ p s = .ok a

/-- a string with the hexadecimal digits of a 64-bit number -/
def HexOf (v : JVal) (n : Nat) : Prop := ∃ s, v = .str s ∧ fromStrRadix 16 u64max s = some n

/-- element by element -/
inductive Each {α : Type} (R : JVal → α → Prop) : List JVal → List α → Prop
  | nil : Each R [] []
  | cons {v : JVal} {a : α} {vs : List JVal} {as : List α} (h : R v a) (t : Each R vs as) : Each R (v :: vs) (a :: as)

/-- an array, element by element -/
inductive ListOf {α : Type} (R : JVal → α → Prop) : JVal → List α → Prop
  | mk (vs : List JVal) (as : List α) (h : Each R vs as) : ListOf R (.arr vs) as

/-- signing thresholds: a number, a list of weights, or a non-empty list of lists of weights -/
def ThresholdOf (v : JVal) : Threshold → Prop
  | .simple n => HexOf v n
  | .single c => ListOf (TextOf Frac.fromStr) v c
  | .multi cs => ListOf (ListOf (TextOf Frac.fromStr)) v cs ∧ cs ≠ []

/-- the commitment to the next keys: null or empty for none -/
def NextOf (v : JVal) : Option SelfAddressingPrefix → Prop
  | none => v = .null ∨ v = .str []
  | some d => v ≠ .str [] ∧ TextOf SelfAddressingPrefix.fromStr v d

/-- signing configuration -/
def KeysOf (fs : List (Bytes × JVal)) (kc : KeyConfig) : Prop :=
  Last ThresholdOf b!"kt" fs kc.threshold ∧ Last (ListOf (TextOf BasicPrefix.fromStr)) b!"k" fs kc.publicKeys ∧
  Last NextOf b!"n" fs kc.nextDigest

/-- inceptions; `S` says which values denote which seals -/
def InceptionOf (S : JVal → Seal → Prop) (fs : List (Bytes × JVal)) (e : InceptionEvent) : Prop :=
  KeysOf fs e.keyConfig ∧ Last HexOf b!"bt" fs e.tally ∧ Last (ListOf (TextOf BasicPrefix.fromStr)) b!"b" fs e.initialWitnesses ∧
  Last (ListOf (TextOf Res.ok)) b!"c" fs e.config ∧ Last (ListOf S) b!"a" fs e.data

/-- rotations -/
def RotationOf (S : JVal → Seal → Prop) (fs : List (Bytes × JVal)) (e : RotationEvent) : Prop :=
  Last (TextOf SelfAddressingPrefix.fromStr) b!"p" fs e.previous ∧ KeysOf fs e.keyConfig ∧ Last HexOf b!"bt" fs e.tally ∧
  Last (ListOf (TextOf BasicPrefix.fromStr)) b!"br" fs e.prune ∧ Last (ListOf (TextOf BasicPrefix.fromStr)) b!"ba" fs e.graft ∧
  Last (ListOf S) b!"a" fs e.data

/-- the type of the message: its name as a string (or as the one-member object serde takes for a unit variant) -/
def TypeOf (v : JVal) (t : EventTypeTag) : Prop := v = .str t.toStr ∨ v = .obj [(t.toStr, .null)]

/-- event data, by type -/
def DataOf (S : JVal → Seal → Prop) (fs : List (Bytes × JVal)) (d : EventData) : Prop :=
  Last TypeOf b!"t" fs d.type ∧
  match d with
  | .icp e => InceptionOf S fs e
  | .rot e => RotationOf S fs e
  | .ixn e => Last (TextOf SelfAddressingPrefix.fromStr) b!"p" fs e.previous ∧ Last (ListOf S) b!"a" fs e.data
  | .dip e => InceptionOf S fs e.inception ∧ Last (TextOf IdentifierPrefix.fromStr) b!"di" fs e.delegator
  | .drt e => RotationOf S fs e

/-- a whole event message -/
def MessageOf (S : JVal → Seal → Prop) (fs : List (Bytes × JVal)) (info : SerInfo) (e : KeyEvent) : Prop :=
  Sole (TextOf SerInfo.fromStr) b!"v" fs info ∧ Sole (TextOf SelfAddressingPrefix.fromStr) b!"d" fs e.digest ∧
  Sole (TextOf IdentifierPrefix.fromStr) b!"i" fs e.content.prefix ∧ Sole HexOf b!"s" fs e.content.sn ∧ DataOf S fs e.content.data

/-- a whole receipt -/
def ReceiptOf (fs : List (Bytes × JVal)) (info : SerInfo) (d : SelfAddressingPrefix) (i : IdentifierPrefix) (s : Nat) : Prop :=
  Sole (TextOf SerInfo.fromStr) b!"v" fs info ∧ Sole (TextOf SelfAddressingPrefix.fromStr) b!"d" fs d ∧
  Sole (TextOf IdentifierPrefix.fromStr) b!"i" fs i ∧ Sole HexOf b!"s" fs s

/-- the fields of a struct given as an object or as the sequence of its fields -/
def StructOf (names : List Bytes) (v : JVal) (fs : List (Bytes × JVal)) : Prop :=
  v = .obj fs ∨ ∃ xs, v = .arr xs ∧ xs.length = names.length ∧ fs = names.zip xs

/-- seals: a location seal has an identifier, a number, a type and a digest; an event seal an identifier, a number and a digest; … -/
def SealOf (v : JVal) : Seal → Prop
  | .location l => ∃ fs, StructOf [b!"i", b!"s", b!"t", b!"p"] v fs ∧ Last (TextOf IdentifierPrefix.fromStr) b!"i" fs l.prefix ∧
      Last HexOf b!"s" fs l.sn ∧ Last (TextOf Res.ok) b!"t" fs l.ilk ∧ Last (TextOf SelfAddressingPrefix.fromStr) b!"p" fs l.priorDigest
  | .event e => ∃ fs, StructOf [b!"i", b!"s", b!"d"] v fs ∧ Last (TextOf IdentifierPrefix.fromStr) b!"i" fs e.prefix ∧
      Last HexOf b!"s" fs e.sn ∧ Last (TextOf SelfAddressingPrefix.fromStr) b!"d" fs e.eventDigest
  | .digest d => ∃ fs, StructOf [b!"d"] v fs ∧ Last (TextOf SelfAddressingPrefix.fromStr) b!"d" fs d
  | .root d => ∃ fs, StructOf [b!"rd"] v fs ∧ Last (TextOf SelfAddressingPrefix.fromStr) b!"rd" fs d

/-! ## Lemmas -/

theorem vals_cons (k k' : Bytes) (v : JVal) (fs : List (Bytes × JVal)) :
    vals k ((k', v) :: fs) = if k' = k then v :: vals k fs else vals k fs := by
  unfold vals
  by_cases h : k' = k <;> simp [h]

theorem lookLast_vals (k : Bytes) (fs : List (Bytes × JVal)) : lookLast k fs = (vals k fs).getLast? := by
  induction fs with
  | nil => rfl
  | cons f fs ih =>
    obtain ⟨k', v⟩ := f
    rw [lookLast, vals_cons, ih]
    by_cases h : k' = k
    · rw [if_pos h, if_pos h, List.getLast?_cons]
      cases hv : (vals k fs).getLast? <;> simp
    · rw [if_neg h, if_neg h]
      cases (vals k fs).getLast? <;> rfl

/-- a required data member, as the reader gets it -/
theorem optField_last {α : Type} (p : JVal → Res α) (R : JVal → α → Prop) (hR : ∀ v a, p v = .ok a ↔ R v a) (k : Bytes)
    (fs : List (Bytes × JVal)) (a : α) : optField p k fs = .ok (some a) ↔ Last R k fs a := by
  unfold optField Last
  rw [lookLast_vals]
  cases hv : (vals k fs).getLast? with
  | none => simp
  | some v =>
    simp only [Res.bind_eq_ok, Res.ok.injEq, Option.some.injEq]
    constructor
    · rintro ⟨b, h1, rfl⟩; exact ⟨v, rfl, (hR _ _).1 h1⟩
    · rintro ⟨w, rfl, h⟩; exact ⟨a, (hR _ _).2 h, rfl⟩

theorem need_ok {α : Type} {o : Option α} {a : α} : need o = .ok a ↔ o = some a := by
  cases o <;> simp [need, Res.ofOption]

theorem text_iff {α : Type} (p : Bytes → Res α) (v : JVal) (a : α) : desText p v = .ok a ↔ TextOf p v a := by
  unfold desText TextOf
  cases v <;> simp

theorem ofOption_ok {α : Type} {o : Option α} {e : Error} {a : α} : Res.ofOption o e = .ok a ↔ o = some a := by
  cases o <;> simp [Res.ofOption]

theorem hex_iff (v : JVal) (n : Nat) : desHex v = .ok n ↔ HexOf v n := by
  unfold desHex HexOf desText
  cases v <;> simp [ofOption_ok]

theorem all_iff {α : Type} (p : JVal → Res α) (R : JVal → α → Prop) (hR : ∀ v a, p v = .ok a ↔ R v a) (vs : List JVal) (as : List α) :
    desAll p vs = .ok as ↔ Each R vs as := by
  induction vs generalizing as with
  | nil =>
    simp only [desAll, Res.ok.injEq]
    constructor
    · rintro rfl; exact .nil
    · intro h; cases h; rfl
  | cons v vs ih =>
    simp only [desAll, Res.bind_eq_ok, Res.ok.injEq]
    constructor
    · rintro ⟨b, h1, bs, h2, rfl⟩; exact .cons ((hR _ _).1 h1) ((ih _).1 h2)
    · rintro (_ | ⟨h1, h2⟩); exact ⟨_, (hR _ _).2 h1, _, (ih _).2 h2, rfl⟩

theorem vec_iff {α : Type} (p : JVal → Res α) (R : JVal → α → Prop) (hR : ∀ v a, p v = .ok a ↔ R v a) (v : JVal) (as : List α) :
    desVec p v = .ok as ↔ ListOf R v as := by
  unfold desVec
  constructor
  · intro h
    split at h
    · exact .mk _ _ ((all_iff p R hR _ _).1 h)
    · cases h
  · rintro ⟨vs, as, h⟩
    exact (all_iff p R hR _ _).2 h

theorem clause_iff (v : JVal) (c : List Frac) : desClause v = .ok c ↔ ListOf (TextOf Frac.fromStr) v c :=
  vec_iff _ _ (text_iff _) v c

theorem threshold_iff (v : JVal) (t : Threshold) : desThreshold v = .ok t ↔ ThresholdOf v t := by
  unfold desThreshold
  cases hh : desHex v with
  | panic => exact absurd hh (desHex_no_panic v)
  | ok n =>
    have hv := (hex_iff v n).1 hh
    obtain ⟨s, rfl, hs⟩ := hv
    simp only [Res.ok_bind, orTry, Res.ok.injEq]
    cases t with
    | simple m =>
      simp only [ThresholdOf, HexOf, JVal.str.injEq, Threshold.simple.injEq]
      constructor
      · rintro rfl; exact ⟨s, rfl, hs⟩
      · rintro ⟨s', rfl, h⟩; rw [hs] at h; exact Option.some.inj h
    | single c =>
      simp only [ThresholdOf, reduceCtorEq, false_iff]
      intro h; cases h
    | multi cs =>
      simp only [ThresholdOf, reduceCtorEq, false_iff]
      intro h; cases h.1
  | err e =>
    have hn : ∀ n, ¬ HexOf v n := fun n h => by rw [(hex_iff v n).2 h] at hh; cases hh
    show orTry (do let c ← desClause v; .ok (.single c)) (do let cs ← desVec desClause v; .ok (.multi cs)) = .ok t ↔ _
    have hm := fun cs => vec_iff desClause _ clause_iff v cs
    cases hc : desClause v with
    | ok c =>
      simp only [Res.ok_bind, orTry, Res.ok.injEq]
      have hc' := (clause_iff v c).1 hc
      cases t with
      | simple m => simp only [ThresholdOf, reduceCtorEq, false_iff]; exact hn m
      | single c' =>
        simp only [ThresholdOf, Threshold.single.injEq]
        constructor
        · rintro rfl; exact hc'
        · intro h; rw [(clause_iff v c').2 h] at hc; exact (Res.ok.inj hc).symm
      | multi cs =>
        simp only [ThresholdOf, reduceCtorEq, false_iff]
        rintro ⟨h, hne⟩
        cases h with
        | mk vs cs h =>
          cases h with
          | nil => exact hne rfl
          | cons h1 h2 =>
            cases h1
            cases hc' with
            | mk _ _ h => cases h with | cons h3 _ => obtain ⟨s, hs, _⟩ := h3; cases hs
    | err e' =>
      have hs : ∀ c, ¬ ListOf (TextOf Frac.fromStr) v c := fun c h => by rw [(clause_iff v c).2 h] at hc; cases hc
      show (do let cs ← desVec desClause v; Res.ok (Threshold.multi cs)) = .ok t ↔ _
      simp only [Res.bind_eq_ok, hm, Res.ok.injEq]
      cases t with
      | simple m => simp only [ThresholdOf, reduceCtorEq, and_false, exists_false, false_iff]; exact hn m
      | single c => simp only [ThresholdOf, reduceCtorEq, and_false, exists_false, false_iff]; exact hs c
      | multi cs =>
        simp only [ThresholdOf, Threshold.multi.injEq]
        constructor
        · rintro ⟨cs', h, rfl⟩
          refine ⟨h, ?_⟩
          rintro rfl
          cases h with
          | mk vs _ h => cases h; exact hs [] (.mk [] [] .nil)
        · rintro ⟨h, -⟩; exact ⟨cs, h, rfl⟩
    | panic =>
      show (Res.panic : Res Threshold) = .ok t ↔ _
      simp only [reduceCtorEq, false_iff]
      have hp : ∀ c, ¬ ListOf (TextOf Frac.fromStr) v c := fun c h => by rw [(clause_iff v c).2 h] at hc; cases hc
      cases t with
      | simple m => exact hn m
      | single c => exact hp c
      | multi cs =>
        rintro ⟨h, hne⟩
        cases h with
        | mk vs _ h =>
          cases h with
          | nil => exact hne rfl
          | cons h1 h2 =>
            cases h1
            simp [desClause, desVec, desAll, desText] at hc

theorem next_iff (v : JVal) (n : Option SelfAddressingPrefix) : desNext v = .ok n ↔ NextOf v n := by
  unfold desNext NextOf TextOf
  split
  · cases n <;> simp
  · cases n <;> simp
  · rename_i s hs
    cases n with
    | none =>
      simp only [Res.bind_eq_ok, Res.ok.injEq, reduceCtorEq, and_false, exists_false, JVal.str.injEq, false_or, false_iff]
      exact hs
    | some d =>
      simp only [Res.bind_eq_ok, Res.ok.injEq, Option.some.injEq, exists_eq_right, ne_eq, JVal.str.injEq]
      constructor
      · intro h; exact ⟨hs, s, rfl, h⟩
      · rintro ⟨-, t, rfl, h⟩; exact h
  · rename_i h1 h2 h3
    cases n with
    | none => simp only [reduceCtorEq, false_iff, not_or]; exact ⟨h1, h2⟩
    | some d =>
      simp only [reduceCtorEq, false_iff]
      rintro ⟨-, s, rfl, -⟩
      exact h3 s rfl

theorem keys_iff (v : JVal) (ks : List BasicPrefix) :
    desVec (desText BasicPrefix.fromStr) v = .ok ks ↔ ListOf (TextOf BasicPrefix.fromStr) v ks := vec_iff _ _ (text_iff _) v ks

theorem strings_iff (v : JVal) (ks : List Bytes) :
    desVec (desText Res.ok) v = .ok ks ↔ ListOf (TextOf Res.ok) v ks := vec_iff _ _ (text_iff _) v ks

theorem keyConfig_iff (fs : List (Bytes × JVal)) (kc : KeyConfig) : desKeyConfig fs = .ok kc ↔ KeysOf fs kc := by
  unfold desKeyConfig KeysOf
  simp only [← optField_last _ _ threshold_iff, ← optField_last _ _ keys_iff, ← optField_last _ _ next_iff]
  constructor
  · intro h
    obtain ⟨k, h1, h⟩ := Res.bind_eq_ok.1 h
    obtain ⟨kt, h2, h⟩ := Res.bind_eq_ok.1 h
    obtain ⟨n, h3, h⟩ := Res.bind_eq_ok.1 h
    obtain ⟨kt', h4, h⟩ := Res.bind_eq_ok.1 h
    obtain ⟨k', h5, h⟩ := Res.bind_eq_ok.1 h
    obtain ⟨n', h6, h⟩ := Res.bind_eq_ok.1 h
    cases h
    rw [need_ok] at h4 h5 h6
    subst h4 h5 h6
    exact ⟨h2, h1, h3⟩
  · rintro ⟨h1, h2, h3⟩
    simp [h1, h2, h3, need, Res.ofOption]

theorem inception_iff (fs : List (Bytes × JVal)) (e : InceptionEvent) :
    desInception fs = .ok e ↔ InceptionOf (fun v s => desSeal v = .ok s) fs e := by
  unfold desInception InceptionOf
  simp only [← optField_last _ _ hex_iff, ← optField_last _ _ keys_iff, ← optField_last _ _ strings_iff, ← keyConfig_iff,
    ← optField_last _ _ (vec_iff desSeal (fun v s => desSeal v = .ok s) (fun _ _ => Iff.rfl))]
  constructor
  · intro h
    obtain ⟨a, h1, h⟩ := Res.bind_eq_ok.1 h
    obtain ⟨c, h2, h⟩ := Res.bind_eq_ok.1 h
    obtain ⟨c', h3, h⟩ := Res.bind_eq_ok.1 h
    obtain ⟨a', h4, h⟩ := Res.bind_eq_ok.1 h
    obtain ⟨kc, h5, h⟩ := Res.bind_eq_ok.1 h
    obtain ⟨b, h6, h⟩ := Res.bind_eq_ok.1 h
    obtain ⟨bt, h7, h⟩ := Res.bind_eq_ok.1 h
    obtain ⟨bt', h8, h⟩ := Res.bind_eq_ok.1 h
    obtain ⟨b', h9, h⟩ := Res.bind_eq_ok.1 h
    cases h
    rw [need_ok] at h3 h4 h8 h9
    subst h3 h4 h8 h9
    exact ⟨h5, h7, h6, h2, h1⟩
  · rintro ⟨h1, h2, h3, h4, h5⟩
    simp [h1, h2, h3, h4, h5, need, Res.ofOption]

theorem rotation_iff (fs : List (Bytes × JVal)) (e : RotationEvent) :
    desRotation fs = .ok e ↔ RotationOf (fun v s => desSeal v = .ok s) fs e := by
  unfold desRotation RotationOf
  simp only [← optField_last _ _ hex_iff, ← optField_last _ _ keys_iff, ← optField_last _ _ (text_iff _), ← keyConfig_iff,
    ← optField_last _ _ (vec_iff desSeal (fun v s => desSeal v = .ok s) (fun _ _ => Iff.rfl))]
  constructor
  · intro h
    obtain ⟨a, h1, h⟩ := Res.bind_eq_ok.1 h
    obtain ⟨p, h2, h⟩ := Res.bind_eq_ok.1 h
    obtain ⟨p', h3, h⟩ := Res.bind_eq_ok.1 h
    obtain ⟨a', h4, h⟩ := Res.bind_eq_ok.1 h
    obtain ⟨kc, h5, h⟩ := Res.bind_eq_ok.1 h
    obtain ⟨ba, h6, h⟩ := Res.bind_eq_ok.1 h
    obtain ⟨br, h7, h⟩ := Res.bind_eq_ok.1 h
    obtain ⟨bt, h8, h⟩ := Res.bind_eq_ok.1 h
    obtain ⟨bt', h9, h⟩ := Res.bind_eq_ok.1 h
    obtain ⟨br', h10, h⟩ := Res.bind_eq_ok.1 h
    obtain ⟨ba', h11, h⟩ := Res.bind_eq_ok.1 h
    cases h
    rw [need_ok] at h3 h4 h9 h10 h11
    subst h3 h4 h9 h10 h11
    exact ⟨h2, h5, h8, h7, h6, h1⟩
  · rintro ⟨h1, h2, h3, h4, h5, h6⟩
    simp [h1, h2, h3, h4, h5, h6, need, Res.ofOption]

theorem interaction_iff (fs : List (Bytes × JVal)) (e : InteractionEvent) :
    desInteraction fs = .ok e ↔ Last (TextOf SelfAddressingPrefix.fromStr) b!"p" fs e.previous ∧
      Last (ListOf fun v s => desSeal v = .ok s) b!"a" fs e.data := by
  unfold desInteraction
  simp only [← optField_last _ _ (text_iff _), ← optField_last _ _ (vec_iff desSeal (fun v s => desSeal v = .ok s) (fun _ _ => Iff.rfl))]
  constructor
  · intro h
    obtain ⟨a, h1, h⟩ := Res.bind_eq_ok.1 h
    obtain ⟨p, h2, h⟩ := Res.bind_eq_ok.1 h
    obtain ⟨p', h3, h⟩ := Res.bind_eq_ok.1 h
    obtain ⟨a', h4, h⟩ := Res.bind_eq_ok.1 h
    cases h
    rw [need_ok] at h3 h4
    subst h3 h4
    exact ⟨h2, h1⟩
  · rintro ⟨h1, h2⟩
    simp [h1, h2, need, Res.ofOption]

theorem tag_iff (d : EventData) (v : JVal) : desTag v = .ok d.type ↔ TypeOf v d.type := by
  have tg : ∀ s, tagOf s = .ok d.type ↔ s = d.type.toStr := by
    intro s
    constructor
    · intro hs
      unfold tagOf at hs
      repeat' split at hs
      all_goals first | (rw [← Res.ok.inj hs]; assumption) | cases hs
    · rintro rfl; cases d <;> rfl
  unfold desTag TypeOf
  split
  · simp [tg]
  · simp [tg]
  · rename_i h1 h2
    simp only [reduceCtorEq, false_iff, not_or]
    exact ⟨h1 _, h2 _⟩

theorem data_iff (fs : List (Bytes × JVal)) (d : EventData) :
    desEventData fs = .ok d ↔ DataOf (fun v s => desSeal v = .ok s) fs d := by
  unfold desEventData DataOf
  have ht : optField desTag b!"t" fs = .ok (some d.type) ↔ Last TypeOf b!"t" fs d.type := by
    rw [optField_last desTag (fun v a => desTag v = .ok a) (fun _ _ => Iff.rfl)]
    simp only [Last, tag_iff]
  rw [← ht]
  constructor
  · intro h
    obtain ⟨t, h1, hx⟩ := Res.bind_eq_ok.1 h
    obtain ⟨t', h2, hy⟩ := Res.bind_eq_ok.1 hx
    rw [need_ok] at h2
    subst h2
    clear ht hx h
    have h := hy
    clear hy
    cases t' with
    | icp => obtain ⟨e, h3, h⟩ := Res.bind_eq_ok.1 h; cases h; exact ⟨h1, (inception_iff _ _).1 h3⟩
    | rot => obtain ⟨e, h3, h⟩ := Res.bind_eq_ok.1 h; cases h; exact ⟨h1, (rotation_iff _ _).1 h3⟩
    | ixn => obtain ⟨e, h3, h⟩ := Res.bind_eq_ok.1 h; cases h; exact ⟨h1, (interaction_iff _ _).1 h3⟩
    | dip =>
      obtain ⟨e, h3, h⟩ := Res.bind_eq_ok.1 h; cases h
      unfold desDelegatedInception at h3
      obtain ⟨di, h4, h3⟩ := Res.bind_eq_ok.1 h3
      obtain ⟨di', h5, h3⟩ := Res.bind_eq_ok.1 h3
      obtain ⟨i, h6, h3⟩ := Res.bind_eq_ok.1 h3
      cases h3
      rw [need_ok] at h5
      subst h5
      exact ⟨h1, (inception_iff _ _).1 h6, (optField_last _ _ (text_iff _) _ _ _).1 h4⟩
    | drt => obtain ⟨e, h3, h⟩ := Res.bind_eq_ok.1 h; cases h; exact ⟨h1, (rotation_iff _ _).1 h3⟩
    | rct => cases h
    | _ => cases h
  · rintro ⟨h1, h2⟩
    rw [h1]
    simp only [Res.ok_bind, need, Res.ofOption]
    cases d with
    | icp e => simp only [EventData.type]; rw [(inception_iff _ _).2 h2]; rfl
    | rot e => simp only [EventData.type]; rw [(rotation_iff _ _).2 h2]; rfl
    | ixn e => simp only [EventData.type]; rw [(interaction_iff _ _).2 h2]; rfl
    | dip e =>
      simp only [EventData.type]
      unfold desDelegatedInception
      rw [(optField_last _ _ (text_iff _) _ _ _).2 h2.2, (inception_iff _ _).2 h2.1]; rfl
    | drt e => simp only [EventData.type]; rw [(rotation_iff _ _).2 h2]; rfl


/-! ## Own fields -/

/-- the members that are not named `k` -/
def without (k : Bytes) (fs : List (Bytes × JVal)) : List (Bytes × JVal) := fs.filter fun f => ¬ f.1 = k

theorem vals_without {k k' : Bytes} (h : k' ≠ k) (fs : List (Bytes × JVal)) : vals k' (without k fs) = vals k' fs := by
  unfold vals without
  rw [List.filter_filter]
  congr 1
  apply List.filter_congr
  intro f _
  by_cases hf : f.1 = k'
  · simp [hf, h]
  · simp [hf]

theorem ownField_some {α : Type} (p : JVal → Res α) (k : Bytes) (a : α) (fs : List (Bytes × JVal))
    (q : Option α × List (Bytes × JVal)) : ownField p k fs (some a) = .ok q ↔ vals k fs = [] ∧ q = (some a, fs) := by
  induction fs generalizing q with
  | nil => simp [ownField, vals, eq_comm]
  | cons f fs ih =>
    obtain ⟨k', v⟩ := f
    rw [ownField, vals_cons]
    by_cases h : k' = k
    · rw [if_pos h, if_pos h]; simp
    · rw [if_neg h, if_neg h]
      simp only [Res.bind_eq_ok, ih, Res.ok.injEq]
      constructor
      · rintro ⟨r, ⟨h1, rfl⟩, rfl⟩; exact ⟨h1, rfl⟩
      · rintro ⟨h1, rfl⟩; exact ⟨(some a, fs), ⟨h1, rfl⟩, rfl⟩

theorem without_absent (k : Bytes) (fs : List (Bytes × JVal)) (h : vals k fs = []) : without k fs = fs := by
  unfold vals at h
  unfold without
  rw [List.filter_eq_self]
  intro f hf
  have := (List.map_eq_nil_iff.1 h)
  have := List.filter_eq_nil_iff.1 this f hf
  simpa using this

theorem ownField_iff {α : Type} (p : JVal → Res α) (R : JVal → α → Prop) (hR : ∀ v a, p v = .ok a ↔ R v a) (k : Bytes) (a : α)
    (fs rest : List (Bytes × JVal)) : ownField p k fs none = .ok (some a, rest) ↔ Sole R k fs a ∧ rest = without k fs := by
  induction fs generalizing rest with
  | nil => simp [ownField, Sole, vals]
  | cons f fs ih =>
    obtain ⟨k', v⟩ := f
    rw [ownField]
    unfold Sole
    rw [vals_cons]
    by_cases h : k' = k
    · rw [if_pos h, if_pos h]
      simp only [Res.bind_eq_ok, ownField_some, Prod.mk.injEq, Option.some.injEq, List.cons.injEq]
      have hw : without k ((k', v) :: fs) = without k fs := by simp [without, h]
      rw [hw]
      constructor
      · rintro ⟨b, h1, h2, rfl, rfl⟩; exact ⟨⟨v, ⟨rfl, h2⟩, (hR _ _).1 h1⟩, (without_absent k _ h2).symm⟩
      · rintro ⟨⟨w, ⟨rfl, h2⟩, h3⟩, rfl⟩; exact ⟨a, (hR _ _).2 h3, h2, rfl, without_absent k _ h2⟩
    · rw [if_neg h, if_neg h]
      have hw : without k ((k', v) :: fs) = (k', v) :: without k fs := by simp [without, h]
      rw [hw]
      simp only [Res.bind_eq_ok, Res.ok.injEq, Prod.mk.injEq]
      constructor
      · rintro ⟨⟨o, r⟩, h1, h2, rfl⟩
        simp only at h2; subst h2
        obtain ⟨h3, rfl⟩ := (ih r).1 h1
        exact ⟨h3, rfl⟩
      · rintro ⟨h1, rfl⟩
        exact ⟨(some a, without k fs), (ih _).2 ⟨h1, rfl⟩, rfl, rfl⟩

/-- What is still to be read of the number of members named `k`, after the ones already seen. -/
def Rest {α : Type} (R : JVal → α → Prop) (k : Bytes) (fs : List (Bytes × JVal)) (got : Option α) (a : α) : Prop :=
  match got with
  | some b => vals k fs = [] ∧ b = a
  | none => Sole R k fs a

theorem Rest_skip {α : Type} (R : JVal → α → Prop) (k k' : Bytes) (v : JVal) (fs : List (Bytes × JVal)) (got : Option α) (a : α)
    (h : k' ≠ k) : Rest R k ((k', v) :: fs) got a ↔ Rest R k fs got a := by
  cases got <;> simp [Rest, Sole, vals_cons, h]

theorem Rest_some {α : Type} (R : JVal → α → Prop) (k : Bytes) (v : JVal) (fs : List (Bytes × JVal)) (b a : α) :
    ¬ Rest R k ((k, v) :: fs) (some b) a := by simp [Rest, vals_cons]

theorem Rest_none {α : Type} (p : JVal → Res α) (R : JVal → α → Prop) (hR : ∀ v a, p v = .ok a ↔ R v a) (k : Bytes) (v : JVal)
    (fs : List (Bytes × JVal)) (a : α) : Rest R k ((k, v) :: fs) none a ↔ ∃ b, p v = .ok b ∧ Rest R k fs (some b) a := by
  simp only [Rest, Sole, vals_cons, if_true, List.cons.injEq, hR]
  constructor
  · rintro ⟨w, ⟨rfl, h1⟩, h2⟩; exact ⟨a, h2, h1, rfl⟩
  · rintro ⟨b, h1, h2, rfl⟩; exact ⟨v, ⟨rfl, h2⟩, h1⟩

theorem Rest_nil {α : Type} (R : JVal → α → Prop) (k : Bytes) (got : Option α) (a : α) : Rest R k [] got a ↔ got = some a := by
  cases got <;> simp [Rest, Sole, vals]

theorem eventOwn_iff (fs rest : List (Bytes × JVal)) (gi : Option IdentifierPrefix) (gs : Option Nat) (i : IdentifierPrefix) (s : Nat) :
    eventOwn fs gi gs = .ok (some i, some s, rest) ↔
      Rest (TextOf IdentifierPrefix.fromStr) b!"i" fs gi i ∧ Rest HexOf b!"s" fs gs s ∧ rest = without b!"s" (without b!"i" fs) := by
  induction fs generalizing gi gs rest with
  | nil => simp [eventOwn, Rest_nil, without, eq_comm]
  | cons f fs ih =>
    obtain ⟨k, v⟩ := f
    unfold eventOwn
    by_cases hi : k = b!"i"
    · subst hi
      rw [if_pos rfl, Rest_skip _ b!"s" _ _ _ _ _ (by decide)]
      have hw : without b!"s" (without b!"i" ((b!"i", v) :: fs)) = without b!"s" (without b!"i" fs) := by simp [without]
      rw [hw]
      cases gi with
      | some b => simp [Rest_some]
      | none =>
        simp only [Res.bind_eq_ok, ih, Rest_none _ _ (text_iff IdentifierPrefix.fromStr)]
        constructor
        · rintro ⟨b, h1, h2, h3⟩; exact ⟨⟨b, h1, h2⟩, h3⟩
        · rintro ⟨⟨b, h1, h2⟩, h3⟩; exact ⟨b, h1, h2, h3⟩
    · rw [if_neg hi, Rest_skip _ _ _ _ _ _ _ hi]
      by_cases hs : k = b!"s"
      · subst hs
        rw [if_pos rfl]
        have hw : without b!"s" (without b!"i" ((b!"s", v) :: fs)) = without b!"s" (without b!"i" fs) := by simp [without]
        rw [hw]
        cases gs with
        | some b => simp [Rest_some]
        | none =>
          simp only [Res.bind_eq_ok, ih, Rest_none _ _ hex_iff]
          constructor
          · rintro ⟨b, h1, h2, h3, h4⟩; exact ⟨h2, ⟨b, h1, h3⟩, h4⟩
          · rintro ⟨h2, ⟨b, h1, h3⟩, h4⟩; exact ⟨b, h1, h2, h3, h4⟩
      · rw [if_neg hs, Rest_skip _ _ _ _ _ _ _ hs]
        have hw : without b!"s" (without b!"i" ((k, v) :: fs)) = (k, v) :: without b!"s" (without b!"i" fs) := by simp [without, hi, hs]
        rw [hw]
        simp only [Res.bind_eq_ok, Res.ok.injEq, Prod.mk.injEq]
        constructor
        · rintro ⟨⟨o1, o2, r⟩, h1, h2, h3, rfl⟩
          simp only at h2 h3; subst h2 h3
          obtain ⟨h4, h5, rfl⟩ := (ih r _ _).1 h1
          exact ⟨h4, h5, rfl⟩
        · rintro ⟨h4, h5, rfl⟩
          exact ⟨(some i, some s, _), (ih _ _ _).2 ⟨h4, h5, rfl⟩, rfl, rfl, rfl⟩

theorem Last_without {α : Type} (R : JVal → α → Prop) {k k' : Bytes} (h : k' ≠ k) (fs : List (Bytes × JVal)) (a : α) :
    Last R k' (without k fs) a ↔ Last R k' fs a := by
  unfold Last; rw [vals_without h]

theorem Sole_without {α : Type} (R : JVal → α → Prop) {k k' : Bytes} (h : k' ≠ k) (fs : List (Bytes × JVal)) (a : α) :
    Sole R k' (without k fs) a ↔ Sole R k' fs a := by
  unfold Sole; rw [vals_without h]

theorem DataOf_without (S : JVal → Seal → Prop) (k : Bytes) (hk : k ∈ [b!"v", b!"d", b!"i", b!"s"]) (fs : List (Bytes × JVal))
    (d : EventData) : DataOf S (without k fs) d ↔ DataOf S fs d := by
  have hne : ∀ k' ∈ [b!"t", b!"kt", b!"k", b!"n", b!"bt", b!"b", b!"c", b!"a", b!"p", b!"br", b!"ba", b!"di"], k' ≠ k := by
    intro k' hk' e
    subst e
    revert hk hk'
    revert k'
    decide
  have L : ∀ {α : Type} (R : JVal → α → Prop) (k' : Bytes) (a : α),
      k' ∈ [b!"t", b!"kt", b!"k", b!"n", b!"bt", b!"b", b!"c", b!"a", b!"p", b!"br", b!"ba", b!"di"] →
      (Last R k' (without k fs) a ↔ Last R k' fs a) := fun R k' a h => Last_without R (hne k' h) fs a
  unfold DataOf InceptionOf RotationOf KeysOf
  cases d <;> simp only [L _ _ _ (by decide : b!"t" ∈ _), L _ _ _ (by decide : b!"kt" ∈ _), L _ _ _ (by decide : b!"k" ∈ _),
    L _ _ _ (by decide : b!"n" ∈ _), L _ _ _ (by decide : b!"bt" ∈ _), L _ _ _ (by decide : b!"b" ∈ _), L _ _ _ (by decide : b!"c" ∈ _),
    L _ _ _ (by decide : b!"a" ∈ _), L _ _ _ (by decide : b!"p" ∈ _), L _ _ _ (by decide : b!"br" ∈ _), L _ _ _ (by decide : b!"ba" ∈ _),
    L _ _ _ (by decide : b!"di" ∈ _)]

theorem keyEvent_iff (fs : List (Bytes × JVal)) (e : KeyEvent) :
    desKeyEvent fs = .ok e ↔ Sole (TextOf SelfAddressingPrefix.fromStr) b!"d" fs e.digest ∧
      Sole (TextOf IdentifierPrefix.fromStr) b!"i" fs e.content.prefix ∧ Sole HexOf b!"s" fs e.content.sn ∧
      DataOf (fun v s => desSeal v = .ok s) fs e.content.data := by
  unfold desKeyEvent
  constructor
  · intro h
    obtain ⟨⟨od, r1⟩, h1, ha⟩ := Res.bind_eq_ok.1 h
    obtain ⟨d, h2, hb⟩ := Res.bind_eq_ok.1 ha
    obtain ⟨⟨oi, os, r2⟩, h3, hc⟩ := Res.bind_eq_ok.1 hb
    obtain ⟨i, h4, hd⟩ := Res.bind_eq_ok.1 hc
    obtain ⟨s, h5, he⟩ := Res.bind_eq_ok.1 hd
    obtain ⟨data, h6, hf⟩ := Res.bind_eq_ok.1 he
    obtain rfl := Res.ok.inj hf
    simp only [need_ok] at h2 h4 h5
    subst h2 h4 h5
    obtain ⟨k1, rfl⟩ := (ownField_iff _ _ (text_iff _) _ _ _ _).1 h1
    obtain ⟨k2, k3, rfl⟩ := (eventOwn_iff _ _ _ _ _ _).1 h3
    refine ⟨k1, (Sole_without _ (by decide) _ _).1 k2, (Sole_without _ (by decide) _ _).1 k3, ?_⟩
    have := (data_iff _ _).1 h6
    rwa [DataOf_without _ _ (by decide), DataOf_without _ _ (by decide), DataOf_without _ _ (by decide)] at this
  · rintro ⟨k1, k2, k3, k4⟩
    rw [(ownField_iff _ _ (text_iff _) _ _ _ _).2 ⟨k1, rfl⟩]
    simp only [Res.ok_bind, need, Res.ofOption]
    rw [(eventOwn_iff _ _ none none _ _).2 ⟨(Sole_without _ (by decide) _ _).2 k2, (Sole_without _ (by decide) _ _).2 k3, rfl⟩]
    simp only [Res.ok_bind]
    rw [(data_iff _ _).2 (by
      rw [DataOf_without _ _ (by decide), DataOf_without _ _ (by decide), DataOf_without _ _ (by decide)]; exact k4)]
    rfl

theorem receipt_iff (fs : List (Bytes × JVal)) (gd : Option SelfAddressingPrefix) (gi : Option IdentifierPrefix) (gs : Option Nat)
    (d : SelfAddressingPrefix) (i : IdentifierPrefix) (s : Nat) :
    desReceipt fs gd gi gs = .ok (d, i, s) ↔ Rest (TextOf SelfAddressingPrefix.fromStr) b!"d" fs gd d ∧
      Rest (TextOf IdentifierPrefix.fromStr) b!"i" fs gi i ∧ Rest HexOf b!"s" fs gs s := by
  induction fs generalizing gd gi gs with
  | nil =>
    simp only [desReceipt, Res.bind_eq_ok, need_ok, Rest_nil, Res.ok.injEq, Prod.mk.injEq]
    constructor
    · rintro ⟨_, rfl, _, rfl, _, rfl, rfl, rfl, rfl⟩; exact ⟨rfl, rfl, rfl⟩
    · rintro ⟨rfl, rfl, rfl⟩; exact ⟨_, rfl, _, rfl, _, rfl, rfl, rfl, rfl⟩
  | cons f fs ih =>
    obtain ⟨k, v⟩ := f
    unfold desReceipt
    by_cases hd : k = b!"d"
    · subst hd
      rw [if_pos rfl, Rest_skip _ b!"i" _ _ _ _ _ (by decide), Rest_skip _ b!"s" _ _ _ _ _ (by decide)]
      cases gd with
      | some b => simp [Rest_some]
      | none =>
        simp only [Res.bind_eq_ok, ih, Rest_none _ _ (text_iff SelfAddressingPrefix.fromStr)]
        constructor
        · rintro ⟨b, h1, h2, h3⟩; exact ⟨⟨b, h1, h2⟩, h3⟩
        · rintro ⟨⟨b, h1, h2⟩, h3⟩; exact ⟨b, h1, h2, h3⟩
    · rw [if_neg hd, Rest_skip _ b!"d" _ _ _ _ _ hd]
      by_cases hi : k = b!"i"
      · subst hi
        rw [if_pos rfl, Rest_skip _ b!"s" _ _ _ _ _ (by decide)]
        cases gi with
        | some b => simp [Rest_some]
        | none =>
          simp only [Res.bind_eq_ok, ih, Rest_none _ _ (text_iff IdentifierPrefix.fromStr)]
          constructor
          · rintro ⟨b, h1, h2, h3, h4⟩; exact ⟨h2, ⟨b, h1, h3⟩, h4⟩
          · rintro ⟨h2, ⟨b, h1, h3⟩, h4⟩; exact ⟨b, h1, h2, h3, h4⟩
      · rw [if_neg hi, Rest_skip _ b!"i" _ _ _ _ _ hi]
        by_cases hs : k = b!"s"
        · subst hs
          rw [if_pos rfl]
          cases gs with
          | some b => simp [Rest_some]
          | none =>
            simp only [Res.bind_eq_ok, ih, Rest_none _ _ hex_iff]
            constructor
            · rintro ⟨b, h1, h2, h3, h4⟩; exact ⟨h2, h3, b, h1, h4⟩
            · rintro ⟨h2, h3, b, h1, h4⟩; exact ⟨b, h1, h2, h3, h4⟩
        · rw [if_neg hs, Rest_skip _ b!"s" _ _ _ _ _ hs, ih]

theorem message_iff {α : Type} (inner : List (Bytes × JVal) → Res α) (fs : List (Bytes × JVal)) (o : Option Bytes) (info : SerInfo)
    (a : α) (rest : Bytes) : desMessage inner (fs, o) = .ok (info, a, rest) ↔
      o = some rest ∧ Sole (TextOf SerInfo.fromStr) b!"v" fs info ∧ inner (without b!"v" fs) = .ok a := by
  unfold desMessage
  constructor
  · intro h
    obtain ⟨⟨ov, r1⟩, h1, ha⟩ := Res.bind_eq_ok.1 h
    obtain ⟨rest', h2, hb⟩ := Res.bind_eq_ok.1 ha
    obtain ⟨v, h3, hc⟩ := Res.bind_eq_ok.1 hb
    obtain ⟨e, h4, hd⟩ := Res.bind_eq_ok.1 hc
    have hd' := Res.ok.inj hd
    simp only [Prod.mk.injEq] at hd'
    obtain ⟨rfl, rfl, rfl⟩ := hd'
    simp only [need_ok] at h3
    subst h3
    obtain ⟨k1, rfl⟩ := (ownField_iff _ _ (text_iff _) _ _ _ _).1 h1
    exact ⟨ofOption_ok.1 h2, k1, h4⟩
  · rintro ⟨rfl, k1, k2⟩
    rw [(ownField_iff _ _ (text_iff _) _ _ _ _).2 ⟨k1, rfl⟩]
    simp [need, Res.ofOption, k2]

theorem jsonMessage_iff {α : Type} (inner : List (Bytes × JVal) → Res α) (s rest : Bytes) (info : SerInfo) (a : α) :
    jsonMessage inner s = .ok rest (info, a) ↔ (jsonTop s).2 = some rest ∧ Sole (TextOf SerInfo.fromStr) b!"v" (jsonTop s).1 info ∧
      inner (without b!"v" (jsonTop s).1) = .ok a := by
  rw [← message_iff]
  unfold jsonMessage
  cases h : desMessage inner (jsonTop s) with
  | ok x => obtain ⟨i, e, r⟩ := x; simp only [IRes.ok.injEq, Prod.mk.injEq, Res.ok.injEq]; exact ⟨fun ⟨a, b, c⟩ => ⟨b, c, a⟩, fun ⟨a, b, c⟩ => ⟨c, a, b⟩⟩
  | err e => simp
  | panic => simp

/-! ## C75 -/

/-- C75 for events, exactly: a text is read as an event message precisely when it is one JSON object (followed by `rest`) in which the
version, digest, identifier and sequence number each occur exactly once, the type and every member that type needs occur, and each of
these denotes the corresponding part of the event — of repeated ones, the last.  Nothing is invented: every part of the event comes from
its member.  (Seals: `C75_seal_reader`.) -/
theorem C75_event_reader_exact (s rest : Bytes) (info : SerInfo) (e : KeyEvent) :
    jsonMessage desKeyEvent s = .ok rest (info, e) ↔
      (jsonTop s).2 = some rest ∧ MessageOf (fun v sl => desSeal v = .ok sl) (jsonTop s).1 info e := by
  rw [jsonMessage_iff, keyEvent_iff]
  unfold MessageOf
  rw [Sole_without _ (by decide), Sole_without _ (by decide), Sole_without _ (by decide), DataOf_without _ _ (by decide)]

/-- C75 for receipts, exactly: version, digest, identifier and sequence number occur exactly once and denote the parts of the receipt. -/
theorem C75_receipt_reader_exact (s rest : Bytes) (info : SerInfo) (d : SelfAddressingPrefix) (i : IdentifierPrefix) (n : Nat) :
    jsonMessage (fun fs => desReceipt fs none none none) s = .ok rest (info, d, i, n) ↔
      (jsonTop s).2 = some rest ∧ ReceiptOf (jsonTop s).1 info d i n := by
  rw [jsonMessage_iff, receipt_iff]
  unfold ReceiptOf Rest
  simp only
  rw [Sole_without _ (by decide), Sole_without _ (by decide), Sole_without _ (by decide)]

theorem seqWalk_length {ps : List (JVal → Res Unit)} : ∀ {xs : List JVal}, seqWalk ps xs = .ok () → xs.length = ps.length := by
  induction ps with
  | nil => intro xs h; cases xs with
    | nil => rfl
    | cons x xs => cases h
  | cons p ps ih =>
    intro xs h
    cases xs with
    | nil => cases h
    | cons x xs =>
      rw [seqWalk] at h
      obtain ⟨_, _, h⟩ := Res.bind_eq_ok.1 h
      simp [ih h]

theorem struct_ok {fields : List (Bytes × (JVal → Res Unit))} {v : JVal} {fs : List (Bytes × JVal)}
    (h : structFields fields v = .ok fs) : StructOf (fields.map Prod.fst) v fs := by
  unfold structFields at h
  split at h
  · left; rw [Res.ok.inj h]
  · obtain ⟨_, h0, h⟩ := Res.bind_eq_ok.1 h
    right; exact ⟨_, rfl, by simpa using seqWalk_length h0, (Res.ok.inj h).symm⟩
  · cases h

theorem orTry_cases {α : Type} {x y : Res α} {a : α} (h : orTry x y = .ok a) : x = .ok a ∨ y = .ok a := by
  unfold orTry at h
  split at h
  · exact .inr h
  · exact .inl h

/-- C75 for seals: what is read as a seal has the members of that kind of seal, and they denote its parts. -/
theorem C75_seal_reader (v : JVal) (sl : Seal) (h : desSeal v = .ok sl) : SealOf v sl := by
  unfold desSeal at h
  rcases orTry_cases h with h | h
  · unfold desLocationSeal at h
    obtain ⟨fs, h0, h⟩ := Res.bind_eq_ok.1 h
    obtain ⟨i, h1, h⟩ := Res.bind_eq_ok.1 h
    obtain ⟨p, h2, h⟩ := Res.bind_eq_ok.1 h
    obtain ⟨s, h3, h⟩ := Res.bind_eq_ok.1 h
    obtain ⟨t, h4, h⟩ := Res.bind_eq_ok.1 h
    obtain ⟨i', h5, h⟩ := Res.bind_eq_ok.1 h
    obtain ⟨s', h6, h⟩ := Res.bind_eq_ok.1 h
    obtain ⟨t', h7, h⟩ := Res.bind_eq_ok.1 h
    obtain ⟨p', h8, h⟩ := Res.bind_eq_ok.1 h
    cases h
    rw [need_ok] at h5 h6 h7 h8
    subst h5 h6 h7 h8
    exact ⟨fs, struct_ok h0, (optField_last _ _ (text_iff _) _ _ _).1 h1, (optField_last _ _ hex_iff _ _ _).1 h3,
      (optField_last _ _ (text_iff _) _ _ _).1 h4, (optField_last _ _ (text_iff _) _ _ _).1 h2⟩
  rcases orTry_cases h with h | h
  · unfold desEventSeal at h
    obtain ⟨fs, h0, h⟩ := Res.bind_eq_ok.1 h
    obtain ⟨d, h1, h⟩ := Res.bind_eq_ok.1 h
    obtain ⟨i, h2, h⟩ := Res.bind_eq_ok.1 h
    obtain ⟨s, h3, h⟩ := Res.bind_eq_ok.1 h
    obtain ⟨i', h5, h⟩ := Res.bind_eq_ok.1 h
    obtain ⟨s', h6, h⟩ := Res.bind_eq_ok.1 h
    obtain ⟨d', h7, h⟩ := Res.bind_eq_ok.1 h
    cases h
    rw [need_ok] at h5 h6 h7
    subst h5 h6 h7
    exact ⟨fs, struct_ok h0, (optField_last _ _ (text_iff _) _ _ _).1 h2, (optField_last _ _ hex_iff _ _ _).1 h3,
      (optField_last _ _ (text_iff _) _ _ _).1 h1⟩
  rcases orTry_cases h with h | h
  · unfold desDigestSeal at h
    obtain ⟨fs, h0, h⟩ := Res.bind_eq_ok.1 h
    obtain ⟨d, h1, h⟩ := Res.bind_eq_ok.1 h
    obtain ⟨d', h7, h⟩ := Res.bind_eq_ok.1 h
    cases h
    rw [need_ok] at h7
    subst h7
    exact ⟨fs, struct_ok h0, (optField_last _ _ (text_iff _) _ _ _).1 h1⟩
  · unfold desRootSeal at h
    obtain ⟨fs, h0, h⟩ := Res.bind_eq_ok.1 h
    obtain ⟨d, h1, h⟩ := Res.bind_eq_ok.1 h
    obtain ⟨d', h7, h⟩ := Res.bind_eq_ok.1 h
    cases h
    rw [need_ok] at h7
    subst h7
    exact ⟨fs, struct_ok h0, (optField_last _ _ (text_iff _) _ _ _).1 h1⟩

/-- the written form of a rotation with further members `extra` put in front -/
def sampleText (extra : Bytes) : Bytes := b!"{" ++ extra ++ (jsonText Ex.rot.msg.sval).drop 1

def readsAs (s : Bytes) (m : EventMessage) : Bool :=
  match jsonMessage desKeyEvent s with
  | .ok [] (info, e) => info = m.info && e = m.event
  | _ => false

/-- The reader accepts the written form, also with an unknown member and with an earlier, overridden witness threshold in front … -/
example : readsAs (sampleText []) Ex.rot.msg = true ∧ readsAs (sampleText b!"\"x\":[1],\"bt\":\"5\",") Ex.rot.msg = true := by decide +kernel
/-- … but no second sequence number, not even the same one. -/
example : readsAs (sampleText b!"\"s\":\"1\",") Ex.rot.msg = false := by decide +kernel
example : (vals b!"s" (jsonTop (sampleText b!"\"s\":\"1\",")).1).length = 2 := by decide +kernel
/-- the hypotheses of `C75_other_members_ignored` for an unknown member -/
example : (jsonTop (sampleText b!"\"x\":[1],")).2 = some [] ∧
    ∀ k ∈ [b!"v", b!"d", b!"i", b!"s", b!"t", b!"kt", b!"k", b!"n", b!"bt", b!"b", b!"c", b!"a", b!"p", b!"br", b!"ba", b!"di"],
      (vals k (jsonTop (sampleText b!"\"x\":[1],")).1).length = (vals k (jsonTop (sampleText [])).1).length := by decide +kernel

/-- A text in which the version, the digest, the identifier or the sequence number is missing or repeated is neither an event nor a
receipt, whatever else it says. -/
theorem C75_missing_or_repeated (s : Bytes) (k : Bytes) (hk : k ∈ [b!"v", b!"d", b!"i", b!"s"]) (h : (vals k (jsonTop s).1).length ≠ 1) :
    (∀ rest x, jsonMessage desKeyEvent s ≠ .ok rest x) ∧
    (∀ rest x, jsonMessage (fun fs => desReceipt fs none none none) s ≠ .ok rest x) := by
  have one : ∀ {α : Type} {R : JVal → α → Prop} {a : α}, ¬ Sole R k (jsonTop s).1 a := by
    rintro α R a ⟨v, hv, -⟩; rw [hv] at h; exact h rfl
  constructor
  · rintro rest ⟨info, e⟩ hx
    obtain ⟨-, h1, h2, h3, h4, -⟩ := (C75_event_reader_exact _ _ _ _).1 hx
    simp only [List.mem_cons, List.not_mem_nil, or_false] at hk
    rcases hk with rfl | rfl | rfl | rfl
    · exact one h1
    · exact one h2
    · exact one h3
    · exact one h4
  · rintro rest ⟨info, d, i, n⟩ hx
    obtain ⟨-, h1, h2, h3, h4⟩ := (C75_receipt_reader_exact _ _ _ _ _ _).1 hx
    simp only [List.mem_cons, List.not_mem_nil, or_false] at hk
    rcases hk with rfl | rfl | rfl | rfl
    · exact one h1
    · exact one h2
    · exact one h3
    · exact one h4

/-- Members with other names do not count: two texts that agree on the members named above are read as the same events. -/
theorem C75_other_members_ignored (s t rest : Bytes) (info : SerInfo) (e : KeyEvent) (h : jsonMessage desKeyEvent s = .ok rest (info, e))
    (hr : (jsonTop t).2 = some rest)
    (hk : ∀ k ∈ [b!"v", b!"d", b!"i", b!"s", b!"t", b!"kt", b!"k", b!"n", b!"bt", b!"b", b!"c", b!"a", b!"p", b!"br", b!"ba", b!"di"],
      vals k (jsonTop t).1 = vals k (jsonTop s).1) : jsonMessage desKeyEvent t = .ok rest (info, e) := by
  rw [C75_event_reader_exact] at h ⊢
  refine ⟨hr, ?_⟩
  have L : ∀ {α : Type} (R : JVal → α → Prop) (k' : Bytes) (a : α),
      k' ∈ [b!"v", b!"d", b!"i", b!"s", b!"t", b!"kt", b!"k", b!"n", b!"bt", b!"b", b!"c", b!"a", b!"p", b!"br", b!"ba", b!"di"] →
      (Last R k' (jsonTop t).1 a ↔ Last R k' (jsonTop s).1 a) := fun R k' a h => by unfold Last; rw [hk k' h]
  obtain ⟨-, h1, h2, h3, h4, h5⟩ := h
  refine ⟨?_, ?_, ?_, ?_, ?_⟩
  · unfold Sole; rw [hk _ (by decide)]; exact h1
  · unfold Sole; rw [hk _ (by decide)]; exact h2
  · unfold Sole; rw [hk _ (by decide)]; exact h3
  · unfold Sole; rw [hk _ (by decide)]; exact h4
  · revert h5
    unfold DataOf InceptionOf RotationOf KeysOf
    cases e.content.data <;> simp only [L _ _ _ (by decide : b!"t" ∈ _), L _ _ _ (by decide : b!"kt" ∈ _), L _ _ _ (by decide : b!"k" ∈ _),
      L _ _ _ (by decide : b!"n" ∈ _), L _ _ _ (by decide : b!"bt" ∈ _), L _ _ _ (by decide : b!"b" ∈ _), L _ _ _ (by decide : b!"c" ∈ _),
      L _ _ _ (by decide : b!"a" ∈ _), L _ _ _ (by decide : b!"p" ∈ _), L _ _ _ (by decide : b!"br" ∈ _), L _ _ _ (by decide : b!"ba" ∈ _),
      L _ _ _ (by decide : b!"di" ∈ _)] <;> exact id

end Keriox
