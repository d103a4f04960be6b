import Verif.Wire
import Verif.JsonFacts
import Verif.NumFacts
import Verif.NomFacts
/-!
# Facts about reading written messages (helper lemmas)
-/
namespace Keriox

/-! ## Texts are ASCII -/

theorem prefixText_ascii {c : Bytes} (hc : Ascii c) (d : Bytes) : Ascii (prefixText c d) := by
  unfold prefixText; split
  · intro c hc; cases hc
  · exact hc.append (b64Encode_ascii _)

theorem BasicPrefix.toStr_utf8 (p : BasicPrefix) : utf8Valid p.toStr = true := (prefixText_ascii (Basic.toStr_ascii _) _).utf8
theorem SelfAddressingPrefix.toStr_utf8 (p : SelfAddressingPrefix) : utf8Valid p.toStr = true :=
  (prefixText_ascii (SelfAddressing.toStr_ascii _) _).utf8
theorem SelfSigningPrefix.toStr_utf8 (p : SelfSigningPrefix) : utf8Valid p.toStr = true :=
  (prefixText_ascii (SelfSigning.toStr_ascii _) _).utf8
theorem IdentifierPrefix.toStr_utf8 (p : IdentifierPrefix) : utf8Valid p.toStr = true := by
  cases p
  · exact BasicPrefix.toStr_utf8 _
  · exact SelfAddressingPrefix.toStr_utf8 _
  · exact SelfSigningPrefix.toStr_utf8 _

theorem hexChars_text {s : Bytes} (h : ∀ c ∈ s, c ∈ hexChars) : Ascii s := fun c hc => (hexChars_ascii c (h c hc)).1
theorem hexStr_ascii (n : Nat) : Ascii (hexStr n) := hexChars_text (toBase_chars 16 (by omega) (by omega) n)
theorem hexStr_utf8 (n : Nat) : utf8Valid (hexStr n) = true := (hexStr_ascii n).utf8
theorem decStr_ascii (n : Nat) : Ascii (decStr n) := hexChars_text (toBase_chars 10 (by omega) (by omega) n)

theorem Frac.toStr_utf8 (f : Frac) : utf8Valid f.toStr = true := by
  cases f with
  | nan => decide
  | inf => decide
  | rat n d =>
    show utf8Valid (if d = 1 then decStr n else decStr n ++ [47] ++ decStr d) = true
    split
    · exact (decStr_ascii n).utf8
    · exact (((decStr_ascii n).append (by unfold Ascii; decide)).append (decStr_ascii d)).utf8

theorem SerInfo.toStr_utf8 (i : SerInfo) : utf8Valid i.toStr = true := by
  have hk : Ascii i.kind.toStr := by cases i.kind <;> simp only [Ascii, Fmt.toStr] <;> decide
  have hp : Ascii (padZero 6 (hexStr i.size)) := hexChars_text (padZero_chars 6 _ (toBase_chars 16 (by omega) (by omega) _))
  refine Ascii.utf8 ?_
  unfold SerInfo.toStr
  exact (((((show Ascii b!"KERI" by unfold Ascii; decide).append (hexStr_ascii _)).append (hexStr_ascii _)).append hk).append hp).append
    (by unfold Ascii; decide)

/-! ## Lists of written values -/

theorem toJs_map {α : Type} (g : α → SVal) (xs : List α) : SVal.toJs (xs.map g) = xs.map fun x => (g x).toJ := by
  induction xs with
  | nil => rfl
  | cons x xs ih => simp only [List.map_cons, SVal.toJs, ih]

theorem FitsL_map {α : Type} (d : Nat) (g : α → SVal) (xs : List α) (h : ∀ x ∈ xs, (g x).Fits d) : SVal.FitsL d (xs.map g) := by
  induction xs with
  | nil => simp [SVal.FitsL]
  | cons x xs ih =>
    simp only [List.map_cons, SVal.FitsL]
    exact ⟨h x (by simp), ih fun y hy => h y (by simp [hy])⟩

/-- reading a list of written values gives the list back exactly when each comes back -/
theorem desAll_map {α : Type} (p : JVal → Res α) (g : α → JVal) (xs : List α) :
    desAll p (xs.map g) = .ok xs ↔ ∀ x ∈ xs, p (g x) = .ok x := by
  induction xs with
  | nil => simp [desAll]
  | cons x xs ih =>
    simp only [List.map_cons, desAll, Res.bind_eq_ok, Res.ok.injEq, List.cons.injEq, List.mem_cons, forall_eq_or_imp]
    constructor
    · rintro ⟨a, h1, as, h2, rfl, rfl⟩; exact ⟨h1, ih.1 h2⟩
    · rintro ⟨h1, h2⟩; exact ⟨x, h1, xs, ih.2 h2, rfl, rfl⟩

theorem desVec_map {α : Type} (p : JVal → Res α) (g : α → SVal) (xs : List α) :
    desVec p (SVal.seq (xs.map g)).toJ = .ok xs ↔ ∀ x ∈ xs, p (g x).toJ = .ok x := by
  simp only [SVal.toJ, desVec, toJs_map]
  exact desAll_map p (fun x => (g x).toJ) xs

/-! ## Component values -/

theorem desHex_iff (n : Nat) : desHex (.str (hexStr n)) = .ok n ↔ n ≤ u64max := by
  unfold desHex desText hexStr
  simp only
  rw [fromStrRadix_toBase 16 u64max (by omega) (by omega)]
  split <;> simp [Res.ofOption, *]

theorem desHex_written {n m : Nat} : desHex (.str (hexStr n)) = .ok m ↔ n = m ∧ n ≤ u64max := by
  unfold desHex desText hexStr
  simp only
  rw [fromStrRadix_toBase 16 u64max (by omega) (by omega)]
  split
  · rename_i h; simp [Res.ofOption, h]
  · rename_i h; simp [Res.ofOption, h]

theorem desHex_seq (xs : List SVal) : ∃ e, desHex (SVal.seq xs).toJ = .err e := ⟨_, rfl⟩
theorem desHex_no_panic (v : JVal) : desHex v ≠ .panic := by
  unfold desHex desText
  cases v <;> simp only [ne_eq, reduceCtorEq, not_false_eq_true]
  rename_i s
  cases h : fromStrRadix 16 u64max s <;> simp [Res.ofOption]

theorem orTry_err {α : Type} {x y : Res α} (e : Error) (h : x = .err e) : orTry x y = y := by rw [h]; rfl
theorem orTry_ok {α : Type} {x y : Res α} (a : α) (h : x = .ok a) : orTry x y = .ok a := by rw [h]; rfl

theorem desClause_iff (c : List Frac) : desClause (SVal.seq (c.map fun f => .str f.toStr)).toJ = .ok c ↔ c.all Frac.rt = true := by
  unfold desClause
  rw [desVec_map]
  simp only [SVal.toJ, desText, List.all_eq_true, Frac.rt, decide_eq_true_eq]

/-- a threshold comes back exactly when it is representable -/
theorem desThreshold_iff (t : Threshold) : desThreshold t.sval.toJ = .ok t ↔ t.rt = true := by
  cases t with
  | simple n =>
    simp only [Threshold.sval, SVal.toJ, Threshold.rt, decide_eq_true_eq]
    unfold desThreshold
    by_cases h : n ≤ u64max
    · rw [(desHex_iff n).2 h, Res.ok_bind]
      simp [orTry, h]
    · have : ∃ e, desHex (.str (hexStr n)) = .err e := by
        unfold desHex desText hexStr
        simp only
        rw [fromStrRadix_toBase 16 u64max (by omega) (by omega), if_neg h]
        exact ⟨_, rfl⟩
      obtain ⟨e, he⟩ := this
      rw [he]
      simp [orTry, desClause, desVec, h]
  | single c =>
    obtain ⟨e, he⟩ := desHex_seq (c.map fun f => .str f.toStr)
    unfold desThreshold
    simp only [Threshold.sval, Threshold.rt]
    rw [he, Res.err_bind, orTry_err e rfl]
    constructor
    · intro h
      rw [← desClause_iff]
      cases hc : desClause (SVal.seq (c.map fun f => .str f.toStr)).toJ with
      | ok c' => rw [hc] at h; simp [orTry] at h; rw [h]
      | err e =>
        rw [hc, Res.err_bind, orTry_err e rfl] at h
        obtain ⟨x, _, h2⟩ := Res.bind_eq_ok.1 h
        cases h2
      | panic => rw [hc] at h; simp [orTry] at h
    · intro h
      rw [(desClause_iff c).2 h]; rfl
  | multi cs =>
    obtain ⟨e, he⟩ := desHex_seq (cs.map fun c => .seq (c.map fun f => .str f.toStr))
    unfold desThreshold
    simp only [Threshold.sval, Threshold.rt]
    rw [he, Res.err_bind, orTry_err e rfl]
    cases cs with
    | nil => simp [desClause, desVec, SVal.toJ, SVal.toJs, desAll, orTry]
    | cons c cs =>
      have : ∃ e, desClause (SVal.seq ((c :: cs).map fun c => .seq (c.map fun f => .str f.toStr))).toJ = .err e :=
        ⟨_, rfl⟩
      obtain ⟨e2, he2⟩ := this
      rw [he2, Res.err_bind, orTry_err e2 rfl]
      simp only [Res.bind_eq_ok, Res.ok.injEq, Threshold.multi.injEq, List.isEmpty_cons, Bool.not_false, Bool.true_and]
      rw [show (∃ a, desVec desClause (SVal.seq ((c :: cs).map fun c => .seq (c.map fun f => .str f.toStr))).toJ = .ok a ∧ a = c :: cs) ↔
        desVec desClause (SVal.seq ((c :: cs).map fun c => .seq (c.map fun f => .str f.toStr))).toJ = .ok (c :: cs) from by simp]
      rw [desVec_map desClause (fun c : List Frac => .seq (c.map fun f => .str f.toStr))]
      simp only [desClause_iff, List.all_eq_true]

/-- keys come back exactly when each is representable -/
theorem desKeys_iff (ks : List BasicPrefix) :
    desVec (desText BasicPrefix.fromStr) (keysSval ks).toJ = .ok ks ↔ ks.all BasicPrefix.rt = true := by
  unfold keysSval
  rw [desVec_map]
  simp only [SVal.toJ, desText, List.all_eq_true, BasicPrefix.rt, decide_eq_true_eq]

theorem selfAddr_nil (p : SelfAddressingPrefix) : SelfAddressingPrefix.fromStr [] ≠ .ok p := by
  intro h; cases h

theorem desNext_iff (n : Option SelfAddressingPrefix) :
    desNext (SVal.str (match n with | some n => n.toStr | none => [])).toJ = .ok n ↔
      (match n with | some n => n.rt | none => true) = true := by
  cases n with
  | none => simp [SVal.toJ, desNext]
  | some n =>
    simp only [SVal.toJ, SelfAddressingPrefix.rt, decide_eq_true_eq]
    cases h : n.toStr with
    | nil => simp [desNext, selfAddr_nil]
    | cons c s => simp [desNext, Res.bind_eq_ok]

/-! ## Fields -/

/-- the list of keys of written fields -/
theorem toJFields_keys (fs : List (Bytes × SVal)) : (SVal.toJFields fs).map Prod.fst = fs.map Prod.fst := by
  induction fs with
  | nil => rfl
  | cons f fs ih => obtain ⟨k, x⟩ := f; simp only [SVal.toJFields, List.map_cons, ih]

theorem toJFields_append (fs gs : List (Bytes × SVal)) : SVal.toJFields (fs ++ gs) = SVal.toJFields fs ++ SVal.toJFields gs := by
  induction fs with
  | nil => rfl
  | cons f fs ih => obtain ⟨k, x⟩ := f; simp only [List.cons_append, SVal.toJFields, ih]

theorem ownField_absent {α : Type} (p : JVal → Res α) (k : Bytes) (fs : List (Bytes × JVal)) (got : Option α)
    (h : k ∉ fs.map Prod.fst) : ownField p k fs got = .ok (got, fs) := by
  induction fs generalizing got with
  | nil => rfl
  | cons f fs ih =>
    obtain ⟨k', v⟩ := f
    simp only [List.map_cons, List.mem_cons, not_or] at h
    unfold ownField
    rw [if_neg (fun e => h.1 e.symm), ih got h.2]
    rfl

theorem eventOwn_absent (fs : List (Bytes × JVal)) (i : Option IdentifierPrefix) (s : Option Nat)
    (hi : b!"i" ∉ fs.map Prod.fst) (hs : b!"s" ∉ fs.map Prod.fst) : eventOwn fs i s = .ok (i, s, fs) := by
  induction fs generalizing i s with
  | nil => rfl
  | cons f fs ih =>
    obtain ⟨k', v⟩ := f
    simp only [List.map_cons, List.mem_cons, not_or] at hi hs
    unfold eventOwn
    rw [if_neg (fun e => hi.1 e.symm), if_neg (fun e => hs.1 e.symm), ih i s hi.2 hs.2]
    rfl

theorem optField_some {α : Type} {p : JVal → Res α} {k : Bytes} {fs : List (Bytes × JVal)} {v : JVal} (h : lookLast k fs = some v) :
    optField p k fs = (do let a ← p v; .ok (some a)) := by unfold optField; rw [h]
theorem optField_none {α : Type} {p : JVal → Res α} {k : Bytes} {fs : List (Bytes × JVal)} (h : lookLast k fs = none) :
    optField p k fs = .ok none := by unfold optField; rw [h]

/-- sequencing of a field that must come back -/
theorem field_iff {α β : Type} {x : Res α} {a : α} {f : α → Res β} {b : β} {P : Prop}
    (h : ∀ a', x = .ok a' → (f a' = .ok b ↔ a' = a ∧ P)) : (x >>= f) = .ok b ↔ x = .ok a ∧ P := by
  rw [Res.bind_eq_ok]
  constructor
  · rintro ⟨a', h1, h2⟩
    obtain ⟨rfl, hp⟩ := (h a' h1).1 h2
    exact ⟨h1, hp⟩
  · rintro ⟨h1, hp⟩
    exact ⟨a, h1, (h a h1).2 ⟨rfl, hp⟩⟩

theorem desKeyConfig_iff (fs : List (Bytes × JVal)) (kc : KeyConfig) (h1 : lookLast b!"kt" fs = some kc.threshold.sval.toJ)
    (h2 : lookLast b!"k" fs = some (keysSval kc.publicKeys).toJ)
    (h3 : lookLast b!"n" fs = some (SVal.str (match kc.nextDigest with | some n => n.toStr | none => [])).toJ) :
    desKeyConfig fs = .ok kc ↔ kc.rt = true := by
  unfold desKeyConfig KeyConfig.rt
  rw [optField_some h1, optField_some h2, optField_some h3]
  rw [Bool.and_eq_true, Bool.and_eq_true, ← desThreshold_iff, ← desKeys_iff]
  refine Iff.trans ?_ (and_congr Iff.rfl (desNext_iff kc.nextDigest))
  simp only [Res.bind_eq_ok, need, Res.ofOption, Res.ok.injEq, exists_eq_left', exists_eq_left]
  constructor
  · rintro ⟨_, ⟨k, hk, rfl⟩, _, ⟨t, ht, rfl⟩, _, ⟨n, hn, rfl⟩, h⟩
    simp only [Res.ok.injEq, exists_eq_left'] at h
    subst h
    exact ⟨⟨ht, hk⟩, hn⟩
  · rintro ⟨⟨ht, hk⟩, hn⟩
    exact ⟨_, ⟨_, hk, rfl⟩, _, ⟨_, ht, rfl⟩, _, ⟨_, hn, rfl⟩, by simp⟩

theorem desText_ok {α : Type} (p : Bytes → Res α) (s : Bytes) : desText p (.str s) = p s := rfl

theorem orTry_left {α : Type} {x y : Res α} {a : α} (h : y ≠ .ok a) : orTry x y = .ok a ↔ x = .ok a := by
  cases x <;> simp [orTry, h]

theorem orTry_right {α : Type} {x y : Res α} {a : α} {P : Prop} (h1 : ∀ r, x ≠ .ok r) (h2 : P → ∃ e, x = .err e) (h3 : y = .ok a ↔ P) :
    orTry x y = .ok a ↔ P := by
  cases x with
  | ok r => exact absurd rfl (h1 r)
  | err e => exact h3
  | panic =>
    constructor
    · intro h; cases h
    · intro hp; obtain ⟨e, he⟩ := h2 hp; cases he

theorem orTry_never {α : Type} {x y : Res α} (h1 : ∀ r, x ≠ .ok r) (h2 : ∀ r, y ≠ .ok r) : ∀ r, orTry x y ≠ .ok r := by
  intro r; cases x <;> simp [orTry, h2] ; exact absurd rfl (h1 _)

private theorem needNone_err {α : Type} : (need (none : Option α)) = .err (.deserialize "missing field") := rfl
private theorem needSome {α : Type} (a : α) : need (some a) = .ok a := rfl

theorem IdentifierPrefix.rt_iff (p : IdentifierPrefix) : p.rt = true ↔ IdentifierPrefix.fromStr p.toStr = .ok p := by
  simp [IdentifierPrefix.rt]
theorem SelfAddressingPrefix.rt_iff (p : SelfAddressingPrefix) : p.rt = true ↔ SelfAddressingPrefix.fromStr p.toStr = .ok p := by
  simp [SelfAddressingPrefix.rt]

/-- a seal comes back exactly when it is representable -/
theorem desSeal_iff (s : Seal) : desSeal s.sval.toJ = .ok s ↔ s.rt = true := by
  unfold desSeal
  cases s with
  | location s =>
    rw [orTry_left]
    · unfold desLocationSeal
      simp only [Seal.sval, SVal.toJ, SVal.toJFields, structFields, Res.ok_bind]
      rw [optField_some (v := .str s.prefix.toStr) (by rfl), optField_some (v := .str s.priorDigest.toStr) (by rfl),
        optField_some (v := .str (hexStr s.sn)) (by rfl), optField_some (v := .str s.ilk) (by rfl)]
      simp only [desText_ok, Res.ok_bind, Seal.rt, Bool.and_eq_true, IdentifierPrefix.rt_iff, SelfAddressingPrefix.rt_iff,
        decide_eq_true_eq, ← desHex_iff]
      constructor
      · intro h
        cases h1 : IdentifierPrefix.fromStr s.prefix.toStr with
        | err e => rw [h1] at h; cases h
        | panic => rw [h1] at h; cases h
        | ok i =>
          cases h2 : SelfAddressingPrefix.fromStr s.priorDigest.toStr with
          | err e => rw [h1, h2] at h; cases h
          | panic => rw [h1, h2] at h; cases h
          | ok p =>
            cases h3 : desHex (.str (hexStr s.sn)) with
            | err e => rw [h1, h2, h3] at h; cases h
            | panic => rw [h1, h2, h3] at h; cases h
            | ok n =>
              rw [h1, h2, h3] at h
              obtain ⟨pre, sn, ilk, pd⟩ := s
              cases h
              simp
      · rintro ⟨⟨h1, h2⟩, h3⟩
        rw [h1, h2, h3]; rfl
    · have e1 : ∀ r, desEventSeal (Seal.location s).sval.toJ ≠ .ok r := by
        intro r h
        unfold desEventSeal at h
        simp only [Seal.sval, SVal.toJ, SVal.toJFields, structFields, Res.ok_bind] at h
        rw [optField_none (k := b!"d") (by rfl)] at h
        simp [Res.bind_eq_ok, needNone_err] at h
      have e2 : ∀ r, desDigestSeal (Seal.location s).sval.toJ ≠ .ok r := by intro r h; cases h
      have e3 : ∀ r, desRootSeal (Seal.location s).sval.toJ ≠ .ok r := by intro r h; cases h
      exact orTry_never e1 (orTry_never e2 e3) _
  | event s =>
    refine orTry_right ?_ ?_ ?_
    · intro r h
      unfold desLocationSeal at h
      simp only [Seal.sval, SVal.toJ, SVal.toJFields, structFields, Res.ok_bind] at h
      rw [optField_none (k := b!"t") (by rfl)] at h
      simp [Res.bind_eq_ok, needNone_err] at h
    · simp only [Seal.rt, Bool.and_eq_true, IdentifierPrefix.rt_iff, SelfAddressingPrefix.rt_iff,
        decide_eq_true_eq, ← desHex_iff]
      rintro ⟨⟨h1, h2⟩, h3⟩
      unfold desLocationSeal
      simp only [Seal.sval, SVal.toJ, SVal.toJFields, structFields, Res.ok_bind]
      rw [optField_some (v := .str s.prefix.toStr) (by rfl), optField_none (k := b!"p") (by rfl), 
        optField_some (v := .str (hexStr s.sn)) (by rfl), optField_none (k := b!"t") (by rfl), desText_ok, h1, h2]
      exact ⟨_, rfl⟩
    · rw [orTry_left]
      · unfold desEventSeal
        simp only [Seal.sval, SVal.toJ, SVal.toJFields, structFields, Res.ok_bind]
        rw [optField_some (k := b!"i") (v := .str s.prefix.toStr) (by rfl), optField_some (k := b!"d") (v := .str s.eventDigest.toStr) (by rfl),
          optField_some (v := .str (hexStr s.sn)) (by rfl)]
        simp only [desText_ok, Seal.rt, Bool.and_eq_true, IdentifierPrefix.rt_iff, SelfAddressingPrefix.rt_iff,
          decide_eq_true_eq, ← desHex_iff]
        constructor
        · intro h
          cases h1 : IdentifierPrefix.fromStr s.prefix.toStr with
          | err e => rw [h1] at h; simp [Res.bind_eq_ok] at h
          | panic => rw [h1] at h; simp [Res.bind_eq_ok] at h
          | ok i =>
            cases h2 : SelfAddressingPrefix.fromStr s.eventDigest.toStr with
            | err e => rw [h1, h2] at h; cases h
            | panic => rw [h1, h2] at h; cases h
            | ok p =>
              cases h3 : desHex (.str (hexStr s.sn)) with
              | err e => rw [h1, h2, h3] at h; cases h
              | panic => rw [h1, h2, h3] at h; cases h
              | ok n =>
                rw [h1, h2, h3] at h
                obtain ⟨pre, sn, d⟩ := s
                cases h
                simp
        · rintro ⟨⟨h1, h2⟩, h3⟩
          rw [h1, h2, h3]; rfl
      · have e1 : desDigestSeal (Seal.event s).sval.toJ ≠ .ok (.event s) := by
          intro h
          unfold desDigestSeal at h
          simp [Res.bind_eq_ok] at h
        have e2 : ∀ r, desRootSeal (Seal.event s).sval.toJ ≠ .ok r := by intro r h; cases h
        cases hd : desDigestSeal (Seal.event s).sval.toJ with
        | ok r => rw [hd] at e1; simpa [orTry] using e1
        | err e => exact e2 _
        | panic => simp [orTry]
  | digest s =>
    refine orTry_right (by intro r h; cases h) (fun _ => ⟨_, rfl⟩) ?_
    refine orTry_right ?_ ?_ ?_
    · intro r h
      unfold desEventSeal at h
      simp only [Seal.sval, SVal.toJ, SVal.toJFields, structFields, Res.ok_bind] at h
      rw [optField_none (k := b!"i") (by rfl)] at h
      simp [Res.bind_eq_ok, needNone_err] at h
    · simp only [Seal.rt, SelfAddressingPrefix.rt_iff]
      intro h1
      unfold desEventSeal
      simp only [Seal.sval, SVal.toJ, SVal.toJFields, structFields, Res.ok_bind]
      rw [optField_some (v := .str s.toStr) (by rfl), desText_ok, h1]
      exact ⟨_, rfl⟩
    · rw [orTry_left (by intro h; cases h)]
      unfold desDigestSeal
      simp only [Seal.sval, SVal.toJ, SVal.toJFields, structFields, Res.ok_bind]
      rw [optField_some (v := .str s.toStr) (by rfl), desText_ok, Seal.rt, SelfAddressingPrefix.rt_iff]
      cases SelfAddressingPrefix.fromStr s.toStr <;> simp [needSome]
  | root s =>
    refine orTry_right (by intro r h; cases h) (fun _ => ⟨_, rfl⟩) ?_
    refine orTry_right (by intro r h; cases h) (fun _ => ⟨_, rfl⟩) ?_
    refine orTry_right (by intro r h; cases h) (fun _ => ⟨_, rfl⟩) ?_
    unfold desRootSeal
    simp only [Seal.sval, SVal.toJ, SVal.toJFields, structFields, Res.ok_bind]
    rw [optField_some (v := .str s.toStr) (by rfl), desText_ok, Seal.rt, SelfAddressingPrefix.rt_iff]
    cases SelfAddressingPrefix.fromStr s.toStr <;> simp [needSome]

theorem desSeals_iff (ss : List Seal) : desVec desSeal (SVal.seq (ss.map Seal.sval)).toJ = .ok ss ↔ ss.all Seal.rt = true := by
  rw [desVec_map]
  simp only [desSeal_iff, List.all_eq_true]

theorem desStrings (cs : List Bytes) : desVec (desText Res.ok) (SVal.seq (cs.map .str)).toJ = .ok cs := by
  rw [desVec_map]
  intro x _; rfl

/-- an inception comes back exactly when it is representable -/
theorem desInception_iff (fs : List (Bytes × JVal)) (e : InceptionEvent)
    (h1 : lookLast b!"kt" fs = some e.keyConfig.threshold.sval.toJ) (h2 : lookLast b!"k" fs = some (keysSval e.keyConfig.publicKeys).toJ)
    (h3 : lookLast b!"n" fs = some (SVal.str (match e.keyConfig.nextDigest with | some n => n.toStr | none => [])).toJ)
    (h4 : lookLast b!"bt" fs = some (.str (hexStr e.tally))) (h5 : lookLast b!"b" fs = some (keysSval e.initialWitnesses).toJ)
    (h6 : lookLast b!"c" fs = some (SVal.seq (e.config.map .str)).toJ) (h7 : lookLast b!"a" fs = some (SVal.seq (e.data.map Seal.sval)).toJ) :
    desInception fs = .ok e ↔ e.rt = true := by
  unfold desInception InceptionEvent.rt
  rw [optField_some h4, optField_some h5, optField_some h6, optField_some h7, desStrings]
  rw [Bool.and_eq_true, Bool.and_eq_true, Bool.and_eq_true, ← desSeals_iff, ← desKeys_iff, decide_eq_true_eq, ← desHex_iff,
    ← desKeyConfig_iff fs e.keyConfig h1 h2 h3]
  obtain ⟨kc, t, w, c, d⟩ := e
  simp only [Res.ok_bind, needSome, Res.bind_eq_ok, Res.ok.injEq]
  constructor
  · rintro ⟨_, ⟨a, ha, rfl⟩, _, ha', k, hk, _, ⟨b, hb, rfl⟩, _, ⟨n, hn, rfl⟩, _, hn', _, hb', h⟩
    simp only [needSome, Res.ok.injEq] at ha' hn' hb'
    subst ha' hn' hb'
    simp only [InceptionEvent.mk.injEq] at h
    obtain ⟨rfl, rfl, rfl, _, rfl⟩ := h
    exact ⟨⟨⟨hk, hn⟩, hb⟩, ha⟩
  · rintro ⟨⟨⟨hk, hn⟩, hb⟩, ha⟩
    exact ⟨_, ⟨_, ha, rfl⟩, _, rfl, _, hk, _, ⟨_, hb, rfl⟩, _, ⟨_, hn, rfl⟩, _, rfl, _, rfl, rfl⟩

/-- a rotation comes back exactly when it is representable -/
theorem desRotation_iff (fs : List (Bytes × JVal)) (e : RotationEvent)
    (h0 : lookLast b!"p" fs = some (.str e.previous.toStr))
    (h1 : lookLast b!"kt" fs = some e.keyConfig.threshold.sval.toJ) (h2 : lookLast b!"k" fs = some (keysSval e.keyConfig.publicKeys).toJ)
    (h3 : lookLast b!"n" fs = some (SVal.str (match e.keyConfig.nextDigest with | some n => n.toStr | none => [])).toJ)
    (h4 : lookLast b!"bt" fs = some (.str (hexStr e.tally))) (h5 : lookLast b!"br" fs = some (keysSval e.prune).toJ)
    (h6 : lookLast b!"ba" fs = some (keysSval e.graft).toJ) (h7 : lookLast b!"a" fs = some (SVal.seq (e.data.map Seal.sval)).toJ) :
    desRotation fs = .ok e ↔ e.rt = true := by
  unfold desRotation RotationEvent.rt
  rw [optField_some h0, optField_some h4, optField_some h5, optField_some h6, optField_some h7]
  rw [Bool.and_eq_true, Bool.and_eq_true, Bool.and_eq_true, Bool.and_eq_true, Bool.and_eq_true, ← desSeals_iff, ← desKeys_iff, ← desKeys_iff,
    decide_eq_true_eq, ← desHex_iff, ← desKeyConfig_iff fs e.keyConfig h1 h2 h3, SelfAddressingPrefix.rt_iff]
  obtain ⟨p, kc, t, pr, gr, d⟩ := e
  simp only [Res.ok_bind, needSome, Res.bind_eq_ok, Res.ok.injEq, desText_ok]
  constructor
  · rintro ⟨_, ⟨a, ha, rfl⟩, _, ⟨q, hq, rfl⟩, _, hq', _, ha', k, hk, _, ⟨b, hb, rfl⟩, _, ⟨b2, hb2, rfl⟩, _, ⟨n, hn, rfl⟩, _, hn', _, hb2', _, hb', h⟩
    simp only [needSome, Res.ok.injEq] at ha' hn' hb' hq' hb2'
    subst ha' hn' hb' hq' hb2'
    simp only [RotationEvent.mk.injEq] at h
    obtain ⟨rfl, rfl, rfl, rfl, rfl, rfl⟩ := h
    exact ⟨⟨⟨⟨⟨hq, hk⟩, hn⟩, hb2⟩, hb⟩, ha⟩
  · rintro ⟨⟨⟨⟨⟨hq, hk⟩, hn⟩, hb2⟩, hb⟩, ha⟩
    exact ⟨_, ⟨_, ha, rfl⟩, _, ⟨_, hq, rfl⟩, _, rfl, _, rfl, _, hk, _, ⟨_, hb, rfl⟩, _, ⟨_, hb2, rfl⟩, _, ⟨_, hn, rfl⟩, _, rfl, _, rfl, _, rfl, rfl⟩

/-- the members handed to the event data: the tag and the data's own fields -/
def dataMembers (d : EventData) : List (Bytes × JVal) := (b!"t", .str d.type.toStr) :: SVal.toJFields d.fields

/-- event data comes back exactly when it is representable -/
theorem desEventData_iff (d : EventData) : desEventData (dataMembers d) = .ok d ↔ d.rt = true := by
  cases d with
  | icp e =>
    unfold desEventData
    rw [optField_some (v := .str b!"icp") (by rfl)]
    show (desInception _ >>= fun e => Res.ok (EventData.icp e)) = _ ↔ _
    rw [show EventData.rt (.icp e) = e.rt from rfl, ← desInception_iff (dataMembers (.icp e)) e rfl rfl rfl rfl rfl rfl rfl]
    simp [Res.bind_eq_ok]
  | rot e =>
    unfold desEventData
    rw [optField_some (v := .str b!"rot") (by rfl)]
    show (desRotation _ >>= fun e => Res.ok (EventData.rot e)) = _ ↔ _
    rw [show EventData.rt (.rot e) = e.rt from rfl, ← desRotation_iff (dataMembers (.rot e)) e rfl rfl rfl rfl rfl rfl rfl rfl]
    simp [Res.bind_eq_ok]
  | drt e =>
    unfold desEventData
    rw [optField_some (v := .str b!"drt") (by rfl)]
    show (desRotation _ >>= fun e => Res.ok (EventData.drt e)) = _ ↔ _
    rw [show EventData.rt (.drt e) = e.rt from rfl, ← desRotation_iff (dataMembers (.drt e)) e rfl rfl rfl rfl rfl rfl rfl rfl]
    simp [Res.bind_eq_ok]
  | ixn e =>
    unfold desEventData
    rw [optField_some (v := .str b!"ixn") (by rfl)]
    show (desInteraction _ >>= fun e => Res.ok (EventData.ixn e)) = _ ↔ _
    have hx : desInteraction (dataMembers (.ixn e)) = .ok e ↔ EventData.rt (.ixn e) = true := by
      unfold desInteraction EventData.rt
      rw [optField_some (v := (SVal.seq (e.data.map Seal.sval)).toJ) (by rfl), optField_some (v := .str e.previous.toStr) (by rfl)]
      simp only [Bool.and_eq_true, ← desSeals_iff, SelfAddressingPrefix.rt_iff, desText_ok]
      obtain ⟨p, d⟩ := e
      simp only [Res.bind_eq_ok, Res.ok.injEq]
      constructor
      · rintro ⟨_, ⟨a, ha, rfl⟩, _, ⟨q, hq, rfl⟩, _, hq', _, ha', h⟩
        simp only [needSome, Res.ok.injEq] at ha' hq'
        subst ha' hq'
        simp only [InteractionEvent.mk.injEq] at h
        obtain ⟨rfl, rfl⟩ := h
        exact ⟨hq, ha⟩
      · rintro ⟨hq, ha⟩
        exact ⟨_, ⟨_, ha, rfl⟩, _, ⟨_, hq, rfl⟩, _, rfl, _, rfl, rfl⟩
    rw [← hx]
    simp [Res.bind_eq_ok]
  | dip e =>
    unfold desEventData
    rw [optField_some (v := .str b!"dip") (by rfl)]
    show (desDelegatedInception _ >>= fun e => Res.ok (EventData.dip e)) = _ ↔ _
    have hx : desDelegatedInception (dataMembers (.dip e)) = .ok e ↔ EventData.rt (.dip e) = true := by
      unfold desDelegatedInception EventData.rt
      rw [optField_some (v := .str e.delegator.toStr) (by rfl)]
      rw [Bool.and_eq_true, IdentifierPrefix.rt_iff, desText_ok, ← desInception_iff (dataMembers (.dip e)) e.inception rfl rfl rfl rfl rfl rfl rfl]
      generalize dataMembers (.dip e) = fs
      obtain ⟨i, d⟩ := e
      simp only [Res.bind_eq_ok, Res.ok.injEq]
      constructor
      · rintro ⟨_, ⟨a, ha, rfl⟩, _, ha', i', hi, h⟩
        simp only [needSome, Res.ok.injEq] at ha'
        subst ha'
        simp only [DelegatedInceptionEvent.mk.injEq] at h
        obtain ⟨rfl, rfl⟩ := h
        exact ⟨hi, ha⟩
      · rintro ⟨hi, ha⟩
        exact ⟨_, ⟨_, ha, rfl⟩, _, rfl, _, hi, rfl⟩
    rw [← hx]
    simp [Res.bind_eq_ok]

theorem data_keys (d : EventData) : b!"v" ∉ (SVal.toJFields d.fields).map Prod.fst ∧ b!"d" ∉ (SVal.toJFields d.fields).map Prod.fst ∧
    b!"i" ∉ (SVal.toJFields d.fields).map Prod.fst ∧ b!"s" ∉ (SVal.toJFields d.fields).map Prod.fst := by
  rw [toJFields_keys]
  cases d <;> simp [EventData.fields, InceptionEvent.fields, RotationEvent.fields, InteractionEvent.fields, KeyConfig.fields]

/-- the members of a written event below the version string -/
def eventMembers (e : KeyEvent) : List (Bytes × JVal) :=
  (b!"t", .str e.content.data.type.toStr) :: (b!"d", .str e.digest.toStr) :: (b!"i", .str e.content.prefix.toStr) ::
    (b!"s", .str (hexStr e.content.sn)) :: SVal.toJFields e.content.data.fields

/-- `KeyEvent.rt` is `EventMessage.rt` without the version string -/
def KeyEvent.rt (e : KeyEvent) : Bool := e.digest.rt && e.content.prefix.rt && e.content.sn ≤ u64max && e.content.data.rt

theorem ownField_here {α : Type} (p : JVal → Res α) (k : Bytes) (v : JVal) (r : List (Bytes × JVal)) (h : k ∉ r.map Prod.fst) :
    ownField p k ((k, v) :: r) none = (do let a ← p v; .ok (some a, r)) := by
  unfold ownField
  rw [if_pos rfl]
  simp only [ownField_absent p k r _ h]

theorem ownField_skip {α : Type} (p : JVal → Res α) (k k' : Bytes) (v : JVal) (r : List (Bytes × JVal)) (h : k' ≠ k) (got : Option α) :
    ownField p k ((k', v) :: r) got = (do let q ← ownField p k r got; .ok (q.1, (k', v) :: q.2)) := by
  conv => lhs; unfold ownField
  rw [if_neg h]

theorem desKeyEvent_eq (e : KeyEvent) : desKeyEvent (eventMembers e) = (do
    let d ← SelfAddressingPrefix.fromStr e.digest.toStr
    let i ← IdentifierPrefix.fromStr e.content.prefix.toStr
    let s ← desHex (.str (hexStr e.content.sn))
    let data ← desEventData (dataMembers e.content.data)
    .ok ⟨d, ⟨i, s, data⟩⟩) := by
  obtain ⟨hv, hd, hi, hs⟩ := data_keys e.content.data
  unfold desKeyEvent eventMembers
  rw [ownField_skip _ _ _ _ _ (by decide), ownField_here _ _ _ _ (by simpa using hd), desText_ok]
  cases SelfAddressingPrefix.fromStr e.digest.toStr with
  | err e => rfl
  | panic => rfl
  | ok d =>
    simp only [Res.ok_bind, needSome]
    have he : eventOwn ((b!"t", .str e.content.data.type.toStr) :: (b!"i", .str e.content.prefix.toStr) ::
        (b!"s", .str (hexStr e.content.sn)) :: SVal.toJFields e.content.data.fields) none none = (do
        let i ← IdentifierPrefix.fromStr e.content.prefix.toStr
        let s ← desHex (.str (hexStr e.content.sn))
        .ok (some i, some s, dataMembers e.content.data)) := by
      rw [eventOwn, if_neg (by decide), if_neg (by decide), eventOwn, if_pos rfl]
      simp only [desText_ok]
      cases IdentifierPrefix.fromStr e.content.prefix.toStr with
      | err e => rfl
      | panic => rfl
      | ok i =>
        simp only [Res.ok_bind]
        rw [eventOwn, if_neg (by decide), if_pos rfl]
        cases desHex (.str (hexStr e.content.sn)) with
        | err e => rfl
        | panic => rfl
        | ok s =>
          simp only [Res.ok_bind]
          rw [eventOwn_absent _ _ _ hi hs]
          rfl
    rw [he]
    cases IdentifierPrefix.fromStr e.content.prefix.toStr with
    | err e => rfl
    | panic => rfl
    | ok i =>
      cases desHex (.str (hexStr e.content.sn)) with
      | err e => rfl
      | panic => rfl
      | ok s => rfl

/-- an event comes back exactly when it is representable -/
theorem desKeyEvent_iff (e : KeyEvent) : desKeyEvent (eventMembers e) = .ok e ↔ e.rt = true := by
  rw [desKeyEvent_eq]
  unfold KeyEvent.rt
  rw [Bool.and_eq_true, Bool.and_eq_true, Bool.and_eq_true, SelfAddressingPrefix.rt_iff, IdentifierPrefix.rt_iff, decide_eq_true_eq,
    ← desHex_iff, ← desEventData_iff]
  obtain ⟨d, ⟨i, s, data⟩⟩ := e
  simp only [Res.bind_eq_ok, Res.ok.injEq, KeyEvent.mk.injEq, Event.mk.injEq]
  constructor
  · rintro ⟨_, h1, _, h2, _, h3, _, h4, rfl, rfl, rfl, rfl⟩
    exact ⟨⟨⟨h1, h2⟩, h3⟩, h4⟩
  · rintro ⟨⟨⟨h1, h2⟩, h3⟩, h4⟩
    exact ⟨_, h1, _, h2, _, h3, _, h4, rfl, rfl, rfl, rfl⟩

/-! ## Strings of an event -/

/-- free-form strings are UTF-8, as every Rust `String` is: the configuration traits of inceptions, the ilk of location seals -/
def Seal.utf8 : Seal → Bool
  | .location s => utf8Valid s.ilk
  | _ => true
/-- free-form strings of event data -/
def EventData.utf8 : EventData → Bool
  | .icp e => e.config.all utf8Valid && e.data.all Seal.utf8
  | .rot e => e.data.all Seal.utf8
  | .ixn e => e.data.all Seal.utf8
  | .dip e => e.inception.config.all utf8Valid && e.inception.data.all Seal.utf8
  | .drt e => e.data.all Seal.utf8

theorem Seal.fits (s : Seal) (h : s.utf8 = true) (d : Nat) : s.sval.Fits (d + 2) := by
  cases s <;> simp only [Seal.sval, SVal.Fits, SVal.FitsF, IdentifierPrefix.toStr_utf8, SelfAddressingPrefix.toStr_utf8, hexStr_utf8] <;>
    simp_all [Seal.utf8] <;> decide

theorem seals_fit (ss : List Seal) (h : ss.all Seal.utf8 = true) (d : Nat) : (SVal.seq (ss.map Seal.sval)).Fits (d + 3) := by
  simp only [SVal.Fits]
  exact ⟨by omega, FitsL_map _ _ _ fun s hs => Seal.fits s (List.all_eq_true.1 h s hs) d⟩

theorem keys_fit (ks : List BasicPrefix) (d : Nat) : (keysSval ks).Fits (d + 2) := by
  unfold keysSval
  simp only [SVal.Fits]
  refine ⟨by omega, FitsL_map _ _ _ fun k _ => ?_⟩
  simp only [SVal.Fits]
  exact BasicPrefix.toStr_utf8 k

theorem strings_fit (cs : List Bytes) (h : cs.all utf8Valid = true) (d : Nat) : (SVal.seq (cs.map .str)).Fits (d + 2) := by
  simp only [SVal.Fits]
  refine ⟨by omega, FitsL_map _ _ _ fun k hk => ?_⟩
  simp only [SVal.Fits]
  exact List.all_eq_true.1 h k hk

theorem threshold_fits (t : Threshold) (d : Nat) : t.sval.Fits (d + 3) := by
  cases t with
  | simple n => simp only [Threshold.sval, SVal.Fits]; exact hexStr_utf8 n
  | single c =>
    simp only [Threshold.sval, SVal.Fits]
    refine ⟨by omega, FitsL_map _ _ _ fun k _ => ?_⟩
    simp only [SVal.Fits]
    exact Frac.toStr_utf8 k
  | multi cs =>
    simp only [Threshold.sval, SVal.Fits]
    refine ⟨by omega, FitsL_map _ _ _ fun c _ => ?_⟩
    simp only [SVal.Fits]
    refine ⟨by omega, FitsL_map _ _ _ fun k _ => ?_⟩
    simp only [SVal.Fits]
    exact Frac.toStr_utf8 k

theorem FitsF_append (d : Nat) (fs gs : List (Bytes × SVal)) (h1 : SVal.FitsF d fs) (h2 : SVal.FitsF d gs) : SVal.FitsF d (fs ++ gs) := by
  induction fs with
  | nil => exact h2
  | cons f fs ih =>
    obtain ⟨k, x⟩ := f
    simp only [List.cons_append, SVal.FitsF] at h1 ⊢
    exact ⟨h1.1, h1.2.1, ih h1.2.2⟩

theorem keyConfig_fits (kc : KeyConfig) (d : Nat) : SVal.FitsF (d + 3) kc.fields := by
  unfold KeyConfig.fields
  simp only [SVal.FitsF]
  refine ⟨by decide, threshold_fits _ _, by decide, keys_fit kc.publicKeys (d + 1), by decide, ?_, trivial⟩
  simp only [SVal.Fits]
  split
  · exact SelfAddressingPrefix.toStr_utf8 _
  · rfl

theorem inception_fits (e : InceptionEvent) (h : e.config.all utf8Valid = true ∧ e.data.all Seal.utf8 = true) (d : Nat) :
    SVal.FitsF (d + 3) e.fields := by
  unfold InceptionEvent.fields
  refine FitsF_append _ _ _ (keyConfig_fits _ _) ?_
  simp only [SVal.FitsF]
  refine ⟨by decide, ?_, by decide, keys_fit _ (d + 1), by decide, strings_fit _ h.1 (d + 1), by decide, seals_fit _ h.2 _, trivial⟩
  simp only [SVal.Fits]; exact hexStr_utf8 _

theorem rotation_fits (e : RotationEvent) (h : e.data.all Seal.utf8 = true) (d : Nat) : SVal.FitsF (d + 3) e.fields := by
  unfold RotationEvent.fields
  refine FitsF_append _ _ _ (FitsF_append _ _ _ ?_ (keyConfig_fits _ _)) ?_
  · simp only [SVal.FitsF, SVal.Fits]
    exact ⟨by decide, SelfAddressingPrefix.toStr_utf8 _, trivial⟩
  · simp only [SVal.FitsF]
    refine ⟨by decide, ?_, by decide, keys_fit _ (d + 1), by decide, keys_fit _ (d + 1), by decide, seals_fit _ h _, trivial⟩
    simp only [SVal.Fits]; exact hexStr_utf8 _

theorem data_fits (e : EventData) (h : e.utf8 = true) (d : Nat) : SVal.FitsF (d + 3) e.fields := by
  cases e with
  | icp e => exact inception_fits e (by simpa [EventData.utf8] using h) d
  | rot e => exact rotation_fits e h d
  | drt e => exact rotation_fits e h d
  | ixn e =>
    simp only [EventData.fields, InteractionEvent.fields, SVal.FitsF]
    refine ⟨by decide, ?_, by decide, seals_fit _ h _, trivial⟩
    simp only [SVal.Fits]; exact SelfAddressingPrefix.toStr_utf8 _
  | dip e =>
    refine FitsF_append _ _ _ (inception_fits e.inception (by simpa [EventData.utf8] using h) d) ?_
    simp only [SVal.FitsF, SVal.Fits]
    exact ⟨by decide, IdentifierPrefix.toStr_utf8 _, trivial⟩

theorem type_utf8 (t : EventTypeTag) : utf8Valid t.toStr = true := by cases t <;> decide

/-- what the reader sees of a written key event message -/
theorem jsonTop_message (m : EventMessage) (h : m.event.content.data.utf8 = true) (rest : Bytes) :
    jsonTop (jsonText m.sval ++ rest) = ((b!"v", .str m.info.toStr) :: eventMembers m.event, some rest) := by
  unfold EventMessage.sval
  rw [jsonTop_written]
  · rfl
  · refine FitsF_append _ _ _ ?_ ?_
    · simp only [SVal.FitsF, SVal.Fits]
      exact ⟨by decide, SerInfo.toStr_utf8 _, by decide, type_utf8 _, by decide, SelfAddressingPrefix.toStr_utf8 _, trivial⟩
    · unfold Event.fields
      refine FitsF_append _ _ _ ?_ (data_fits _ h 124)
      simp only [SVal.FitsF, SVal.Fits]
      exact ⟨by decide, IdentifierPrefix.toStr_utf8 _, by decide, hexStr_utf8 _, trivial⟩

/-- the reading of a written key event message, step by step -/
theorem desMessage_event (m : EventMessage) (h : m.event.content.data.utf8 = true) (rest : Bytes) :
    desMessage desKeyEvent (jsonTop (jsonText m.sval ++ rest)) = (do
      let info ← SerInfo.fromStr m.info.toStr
      let e ← desKeyEvent (eventMembers m.event)
      .ok (info, e, rest)) := by
  rw [jsonTop_message m h]
  unfold desMessage
  have hv : b!"v" ∉ (eventMembers m.event).map Prod.fst := by
    have := (data_keys m.event.content.data).1
    unfold eventMembers
    simpa using this
  rw [ownField_here _ _ _ _ hv, desText_ok]
  cases SerInfo.fromStr m.info.toStr <;> rfl

end Keriox
