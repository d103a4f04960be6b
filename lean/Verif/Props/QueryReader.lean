import Verif.Props.Reader
import Verif.QueryWire
/-!
# C76: what the readers of replies and queries accept, exactly (feature `query`)

Specification: as in C75 — `Sole R k fs a`: exactly one member `k`, denoting `a` — and `Maybe R k fs o`: no member `k` and `o` is none, or
exactly one, which is null (then `o` is none) or denotes the value of `o`.
-/
namespace Keriox

/-- null for none -/
def OptOf {α : Type} (R : JVal → α → Prop) (v : JVal) : Option α → Prop
  | none => v = .null
  | some a => v ≠ .null ∧ R v a

/-- an optional member -/
def Maybe {α : Type} (R : JVal → α → Prop) (k : Bytes) (fs : List (Bytes × JVal)) (o : Option α) : Prop :=
  (vals k fs = [] ∧ o = none) ∨ Sole (OptOf R) k fs o

/-- lists of keys -/
def KeyListOf : JVal → List BasicPrefix → Prop := ListOf (TextOf BasicPrefix.fromStr)

/-- routes: `log`, `ksn`, or `/ksn/` and an identifier -/
def RouteOf (v : JVal) : Route → Prop
  | .log => v = .str b!"log"
  | .ksn => v = .str b!"ksn"
  | .replyKsn id => ∃ x, v = .str (b!"/ksn/" ++ x) ∧ IdentifierPrefix.fromStr x = .ok id

/-- timestamps -/
def TimeOf (time : Bytes → Option Timestamp) (v : JVal) (t : Timestamp) : Prop := ∃ s, v = .str s ∧ time s = some t

/-- last establishment data: a struct with four members -/
def EstOf (v : JVal) (l : LastEst) : Prop :=
  ∃ fs, StructOf [b!"s", b!"d", b!"br", b!"ba"] v fs ∧ Sole HexOf b!"s" fs l.sn ∧ Sole (TextOf SelfAddressingPrefix.fromStr) b!"d" fs l.digest ∧
    Sole KeyListOf b!"br" fs l.br ∧ Sole KeyListOf b!"ba" fs l.ba

/-- key states -/
def StateOf (fs : List (Bytes × JVal)) (s : IdState) : Prop :=
  Sole (TextOf IdentifierPrefix.fromStr) b!"i" fs s.prefix ∧ Sole HexOf b!"s" fs s.sn ∧
  Sole (TextOf SelfAddressingPrefix.fromStr) b!"d" fs s.lastDigest ∧ Maybe (TextOf SelfAddressingPrefix.fromStr) b!"p" fs s.lastPrevious ∧
  Maybe TypeOf b!"et" fs s.lastType ∧ Sole HexOf b!"bt" fs s.tally ∧ Sole KeyListOf b!"b" fs s.witnesses ∧
  Maybe (TextOf IdentifierPrefix.fromStr) b!"di" fs s.delegator ∧ Sole EstOf b!"ee" fs s.lastEst ∧
  Sole ThresholdOf b!"kt" fs s.current.threshold ∧ Sole KeyListOf b!"k" fs s.current.publicKeys ∧ Sole NextOf b!"n" fs s.current.nextDigest

/-- key state notices -/
def NoticeOf (time : Bytes → Option Timestamp) (v : JVal) (k : Ksn) : Prop :=
  ∃ fs, v = .obj fs ∧ Sole (TextOf SerInfo.fromStr) b!"v" fs k.info ∧ Sole HexOf b!"f" fs k.firstSeen ∧
    Sole (TimeOf time) b!"dt" fs k.timestamp ∧ Sole (ListOf (TextOf Res.ok)) b!"c" fs k.config ∧ StateOf fs k.state

/-- a whole reply -/
def ReplyOf (time : Bytes → Option Timestamp) (fs : List (Bytes × JVal)) (r : ReplyMsg) : Prop :=
  Sole (TextOf SerInfo.fromStr) b!"v" fs r.info ∧ Sole (TextOf SelfAddressingPrefix.fromStr) b!"d" fs r.digest ∧
  Sole (TimeOf time) b!"dt" fs r.timestamp ∧ Sole RouteOf b!"r" fs r.route ∧ Sole (NoticeOf time) b!"a" fs r.ksn

/-- the arguments of a query -/
def ArgsOf (v : JVal) (i : IdentifierPrefix) : Prop :=
  ∃ fs, StructOf [b!"i"] v fs ∧ Sole (TextOf IdentifierPrefix.fromStr) b!"i" fs i

/-- a whole query -/
def QueryOf (time : Bytes → Option Timestamp) (fs : List (Bytes × JVal)) (q : QueryMsg) : Prop :=
  Sole (TextOf SerInfo.fromStr) b!"v" fs q.info ∧ Sole (TextOf SelfAddressingPrefix.fromStr) b!"d" fs q.digest ∧
  Sole (TimeOf time) b!"dt" fs q.timestamp ∧ Sole RouteOf b!"r" fs q.route ∧ Sole (TextOf Res.ok) b!"rr" fs q.replyRoute ∧
  Sole ArgsOf b!"q" fs q.id

/-! ## Own members -/

theorem ownWalk_iff (rs : List (Bytes × (JVal → Res Unit))) (fs : List (Bytes × JVal)) (seen : List Bytes) :
    ownWalk rs fs seen = .ok () ↔
      ∀ k p, rs.lookup k = some p → vals k fs = [] ∨ (k ∉ seen ∧ ∃ v, vals k fs = [v] ∧ p v = .ok ()) := by
  induction fs generalizing seen with
  | nil => simp [ownWalk, vals]
  | cons f fs ih =>
    obtain ⟨k', v⟩ := f
    rw [ownWalk]
    cases hl : rs.lookup k' with
    | none =>
      simp only [ih]
      refine forall_congr' fun k => forall_congr' fun p => ?_
      by_cases e : k' = k
      · subst e; simp [hl]
      · simp [vals_cons, e]
    | some q =>
      simp only
      by_cases hs : k' ∈ seen
      · rw [if_pos hs]
        constructor
        · intro h; cases h
        · intro h
          rcases h k' q hl with h | h
          · simp [vals_cons] at h
          · exact absurd hs h.1
      · rw [if_neg hs]
        constructor
        · intro h k p hk
          obtain ⟨_, h1, h2⟩ := Res.bind_eq_ok.1 h
          have h3 := (ih _).1 h2
          by_cases e : k' = k
          · subst e
            obtain rfl : q = p := by rw [hl] at hk; exact Option.some.inj hk
            have h4 : vals k' fs = [] := by
              rcases h3 k' q hl with h5 | h5
              · exact h5
              · exact absurd List.mem_cons_self h5.1
            exact .inr ⟨hs, v, by simp [vals_cons, h4], h1⟩
          · rcases h3 k p hk with h5 | ⟨h5, h6⟩
            · left; simp [vals_cons, e, h5]
            · right; refine ⟨fun h7 => h5 (List.mem_cons_of_mem _ h7), ?_⟩
              simpa [vals_cons, e] using h6
        · intro h
          have h0 : vals k' fs = [] ∧ q v = .ok () := by
            rcases h k' q hl with h5 | ⟨_, w, h6, h7⟩
            · simp [vals_cons] at h5
            · simp only [vals_cons, if_true, List.cons.injEq] at h6
              obtain ⟨rfl, h8⟩ := h6
              exact ⟨h8, h7⟩
          rw [h0.2, Res.ok_bind, ih]
          intro k p hk
          by_cases e : k' = k
          · subst e; exact .inl h0.1
          · have := h k p hk
            simp only [vals_cons, e, if_false] at this
            rcases this with h5 | ⟨h5, h6⟩
            · exact .inl h5
            · exact .inr ⟨by simp [h5, Ne.symm e], h6⟩

theorem lookup_mem {α : Type} {rs : List (Bytes × α)} {k : Bytes} {p : α} (h : rs.lookup k = some p) : (k, p) ∈ rs := by
  induction rs with
  | nil => simp at h
  | cons e rs ih =>
    obtain ⟨k', p'⟩ := e
    rw [List.lookup_cons] at h
    by_cases hk : k = k'
    · subst hk; simp at h; simp [h]
    · have : (k == k') = false := by simpa using hk
      rw [this] at h
      exact List.mem_cons_of_mem _ (ih h)

/-- a successful walk, from what is known about each own member -/
theorem ownWalk_ok (rs : List (Bytes × (JVal → Res Unit))) (fs : List (Bytes × JVal))
    (h : ∀ e ∈ rs, vals e.1 fs = [] ∨ ∃ v, vals e.1 fs = [v] ∧ e.2 v = .ok ()) : ownWalk rs fs [] = .ok () := by
  rw [ownWalk_iff]
  intro k p hk
  rcases h _ (lookup_mem hk) with h1 | h1
  · exact .inl h1
  · exact .inr ⟨by simp, h1⟩

theorem tried_ok {α : Type} {p : JVal → Res α} {v : JVal} : tried p v = .ok () ↔ ∃ a, p v = .ok a := by
  unfold tried
  constructor
  · intro h; obtain ⟨a, h1, _⟩ := Res.bind_eq_ok.1 h; exact ⟨a, h1⟩
  · rintro ⟨a, h⟩; rw [h]; rfl

theorem Sole.walk {α : Type} {p : JVal → Res α} {R : JVal → α → Prop} (hR : ∀ v a, p v = .ok a ↔ R v a) {k : Bytes}
    {fs : List (Bytes × JVal)} {a : α} (h : Sole R k fs a) : vals k fs = [] ∨ ∃ v, vals k fs = [v] ∧ tried p v = .ok () := by
  obtain ⟨v, h1, h2⟩ := h
  exact .inr ⟨v, h1, tried_ok.2 ⟨a, (hR _ _).2 h2⟩⟩

theorem option_iff {α : Type} {p : JVal → Res α} {R : JVal → α → Prop} (hR : ∀ v a, p v = .ok a ↔ R v a) (v : JVal) (o : Option α) :
    desOption p v = .ok o ↔ OptOf R v o := by
  unfold desOption
  cases v <;> cases o <;> simp [OptOf, Res.bind_eq_ok, hR]

theorem Maybe.walk {α : Type} {p : JVal → Res α} {R : JVal → α → Prop} (hR : ∀ v a, p v = .ok a ↔ R v a) {k : Bytes}
    {fs : List (Bytes × JVal)} {o : Option α} (h : Maybe R k fs o) :
    vals k fs = [] ∨ ∃ v, vals k fs = [v] ∧ tried (desOption p) v = .ok () := by
  rcases h with h | h
  · exact .inl h.1
  · exact Sole.walk (option_iff hR) h

/-- after the walk, a member that was read is the only one of its name -/
theorem walk_sole {α : Type} {p : JVal → Res α} {R : JVal → α → Prop} (hR : ∀ v a, p v = .ok a ↔ R v a) {rs : List (Bytes × (JVal → Res Unit))}
    {fs : List (Bytes × JVal)} (hw : ownWalk rs fs [] = .ok ()) {k : Bytes} {q : JVal → Res Unit} (hl : rs.lookup k = some q)
    {a : α} (h : optField p k fs = .ok (some a)) : Sole R k fs a := by
  obtain ⟨v, hv, hr⟩ := (optField_last p R hR k fs a).1 h
  rcases (ownWalk_iff rs fs []).1 hw k _ hl with h1 | ⟨_, w, h1, _⟩
  · rw [h1] at hv; simp at hv
  · rw [h1] at hv; simp at hv; subst hv; exact ⟨w, h1, hr⟩

theorem sole_field {α : Type} {p : JVal → Res α} {R : JVal → α → Prop} (hR : ∀ v a, p v = .ok a ↔ R v a)
    {fs : List (Bytes × JVal)} {k : Bytes} {a : α} (h : Sole R k fs a) : optField p k fs = .ok (some a) := by
  obtain ⟨v, h1, h2⟩ := h
  exact (optField_last p R hR k fs a).2 ⟨v, by simp [h1], h2⟩

theorem optField_none_iff {α : Type} {p : JVal → Res α} {k : Bytes} {fs : List (Bytes × JVal)} : optField p k fs = .ok none ↔ vals k fs = [] := by
  unfold optField
  rw [lookLast_vals]
  cases h : (vals k fs).getLast? with
  | none => simpa using h
  | some v =>
    simp only [Res.bind_eq_ok, Res.ok.injEq, reduceCtorEq, and_false, exists_false, false_iff]
    intro h1; rw [h1] at h; simp at h

theorem walk_maybe {α : Type} {p : JVal → Res α} {R : JVal → α → Prop} (hR : ∀ v a, p v = .ok a ↔ R v a) {rs : List (Bytes × (JVal → Res Unit))}
    {fs : List (Bytes × JVal)} (hw : ownWalk rs fs [] = .ok ()) {k : Bytes} {q : JVal → Res Unit} (hl : rs.lookup k = some q)
    {o : Option (Option α)} (h : optField (desOption p) k fs = .ok o) : Maybe R k fs o.join := by
  cases o with
  | none => exact .inl ⟨optField_none_iff.1 h, rfl⟩
  | some x => exact .inr (walk_sole (option_iff hR) hw hl h)

theorem maybe_field {α : Type} {p : JVal → Res α} {R : JVal → α → Prop} (hR : ∀ v a, p v = .ok a ↔ R v a)
    {fs : List (Bytes × JVal)} {k : Bytes} {x : Option α} (h : Maybe R k fs x) : ∃ o, optField (desOption p) k fs = .ok o ∧ o.join = x := by
  rcases h with ⟨h, rfl⟩ | h
  · exact ⟨none, optField_none_iff.2 h, rfl⟩
  · exact ⟨some x, sole_field (option_iff hR) h, rfl⟩

theorem vals_others (rs : List (Bytes × (JVal → Res Unit))) (k : Bytes) (h : rs.lookup k = none) (fs : List (Bytes × JVal)) :
    vals k (others rs fs) = vals k fs := by
  unfold vals others
  rw [List.filter_filter]
  congr 1
  refine List.filter_congr fun f _ => ?_
  by_cases e : f.1 = k
  · simp [e, h]
  · simp [e]

theorem Sole_others {α : Type} (R : JVal → α → Prop) {rs : List (Bytes × (JVal → Res Unit))} {k : Bytes} (h : rs.lookup k = none)
    (fs : List (Bytes × JVal)) (a : α) : Sole R k (others rs fs) a ↔ Sole R k fs a := by
  unfold Sole; rw [vals_others rs k h]

theorem Maybe_others {α : Type} (R : JVal → α → Prop) {rs : List (Bytes × (JVal → Res Unit))} {k : Bytes} (h : rs.lookup k = none)
    (fs : List (Bytes × JVal)) (a : Option α) : Maybe R k (others rs fs) a ↔ Maybe R k fs a := by
  unfold Maybe; rw [vals_others rs k h, Sole_others _ h]

theorem Maybe_without {α : Type} (R : JVal → α → Prop) {k k' : Bytes} (h : k' ≠ k) (fs : List (Bytes × JVal)) (a : Option α) :
    Maybe R k' (without k fs) a ↔ Maybe R k' fs a := by
  unfold Maybe; rw [vals_without h, Sole_without _ h]

/-! ## The parts -/

theorem sa_iff (v : JVal) (a : SelfAddressingPrefix) : desSA v = .ok a ↔ TextOf SelfAddressingPrefix.fromStr v a := text_iff _ v a
theorem id_iff (v : JVal) (a : IdentifierPrefix) : desId v = .ok a ↔ TextOf IdentifierPrefix.fromStr v a := text_iff _ v a
theorem keyList_iff (v : JVal) (a : List BasicPrefix) : desKeys v = .ok a ↔ KeyListOf v a := keys_iff v a
theorem time_iff (time : Bytes → Option Timestamp) (v : JVal) (a : Timestamp) : desTime time v = .ok a ↔ TimeOf time v a := by
  unfold desTime TimeOf desText
  cases v <;> simp [ofOption_ok]

theorem ksn_prefix (s : Bytes) : (b!"/ksn/").isPrefixOf s = true ↔ ∃ x, s = b!"/ksn/" ++ x := by
  rw [List.isPrefixOf_iff_prefix]
  exact ⟨fun ⟨x, h⟩ => ⟨x, h.symm⟩, fun ⟨x, h⟩ => ⟨x, h.symm⟩⟩

theorem route_iff (v : JVal) (r : Route) : desText Route.fromStr v = .ok r ↔ RouteOf v r := by
  cases v with
  | str s =>
    rw [desText_ok]
    unfold Route.fromStr
    by_cases hp : (b!"/ksn/").isPrefixOf s = true
    · rw [if_pos hp]
      obtain ⟨x, rfl⟩ := (ksn_prefix s).1 hp
      have hx : (b!"/ksn/" ++ x).drop 5 = x := rfl
      rw [hx]
      have hl : b!"/ksn/" ++ x ≠ b!"log" := by intro h; cases h
      have hk : b!"/ksn/" ++ x ≠ b!"ksn" := by intro h; cases h
      cases r with
      | log => cases IdentifierPrefix.fromStr x <;> simp [RouteOf]
      | ksn => cases IdentifierPrefix.fromStr x <;> simp [RouteOf]
      | replyKsn id =>
        simp only [RouteOf, JVal.str.injEq, List.append_cancel_left_eq, exists_eq_left']
        cases IdentifierPrefix.fromStr x <;> simp
    · rw [if_neg hp]
      have hn : ∀ x, s ≠ b!"/ksn/" ++ x := fun x e => hp ((ksn_prefix s).2 ⟨x, e⟩)
      by_cases h1 : s = b!"ksn"
      · subst h1; cases r <;> simp [RouteOf]
      · rw [if_neg h1]
        by_cases h2 : s = b!"log"
        · subst h2; cases r <;> simp [RouteOf]
        · rw [if_neg h2]
          cases r with
          | log => simp [RouteOf, h2]
          | ksn => simp [RouteOf, h1]
          | replyKsn id => simp only [reduceCtorEq, RouteOf, JVal.str.injEq, false_iff]; rintro ⟨x, e, _⟩; exact hn x e
  | _ => cases r <;> simp [desText, RouteOf]

theorem tagQ_iff (v : JVal) (t : EventTypeTag) : desTagQ v = .ok t ↔ TypeOf v t := by
  have key : ∀ s, tagOfQ s = .ok t ↔ s = t.toStr := by
    intro s
    unfold tagOfQ tagOf
    constructor
    · intro h
      by_cases h1 : s = b!"rpy"
      · rw [if_pos h1] at h; cases h; exact h1
      rw [if_neg h1] at h
      by_cases h2 : s = b!"qry"
      · rw [if_pos h2] at h; cases h; exact h2
      rw [if_neg h2] at h
      repeat' split at h
      all_goals first | (cases h; assumption) | cases h
    · rintro rfl; cases t <;> decide
  unfold desTagQ TypeOf
  cases v with
  | str s => simp [key]
  | obj fs =>
    match fs with
    | [] => simp
    | [(k, .null)] => simp [key]
    | [(k, .bool b)] => simp
    | [(k, .num)] => simp
    | [(k, .str b)] => simp
    | [(k, .arr b)] => simp
    | [(k, .obj b)] => simp
    | _ :: _ :: _ => simp
  | _ => simp

/-- conversely to `struct_ok`: a struct given as an object, or as a sequence whose elements can be read -/
theorem seqWalk_ok {fields : List (Bytes × (JVal → Res Unit))} : ∀ {xs : List JVal}, (fields.map Prod.fst).Nodup → xs.length = fields.length →
    (∀ e ∈ fields, ∃ v, vals e.1 ((fields.map Prod.fst).zip xs) = [v] ∧ e.2 v = .ok ()) → seqWalk (fields.map Prod.snd) xs = .ok () := by
  induction fields with
  | nil => intro xs _ hl _; cases xs with
    | nil => rfl
    | cons x xs => simp at hl
  | cons f fs ih =>
    intro xs hn hl h
    cases xs with
    | nil => simp at hl
    | cons x xs =>
      simp only [List.map_cons, List.nodup_cons] at hn
      simp only [List.map_cons, List.zip_cons_cons] at h ⊢
      rw [seqWalk]
      have h0 := h f List.mem_cons_self
      have hnk : vals f.1 ((fs.map Prod.fst).zip xs) = [] := by
        unfold vals
        rw [List.map_eq_nil_iff, List.filter_eq_nil_iff]
        intro e he
        have := (List.of_mem_zip he).1
        intro hc
        simp only [decide_eq_true_eq] at hc
        exact hn.1 (hc ▸ this)
      obtain ⟨v, hv, hp⟩ := h0
      rw [vals_cons, if_pos rfl, hnk] at hv
      simp only [List.cons.injEq, and_true] at hv
      subst hv
      rw [hp, Res.ok_bind]
      refine ih hn.2 (by simpa using hl) fun e he => ?_
      obtain ⟨w, hw, hq⟩ := h e (List.mem_cons_of_mem _ he)
      have hne : f.1 ≠ e.1 := fun c => hn.1 (c ▸ List.mem_map_of_mem he)
      rw [vals_cons, if_neg hne] at hw
      exact ⟨w, hw, hq⟩

theorem struct_of {fields : List (Bytes × (JVal → Res Unit))} {v : JVal} {fs : List (Bytes × JVal)} (hn : (fields.map Prod.fst).Nodup)
    (h : StructOf (fields.map Prod.fst) v fs) (hf : ∀ e ∈ fields, ∃ v, vals e.1 fs = [v] ∧ e.2 v = .ok ()) :
    structFields fields v = .ok fs ∧ ownWalk fields fs [] = .ok () := by
  refine ⟨?_, ownWalk_ok _ _ fun e he => .inr (hf e he)⟩
  rcases h with rfl | ⟨xs, rfl, hl, rfl⟩
  · rfl
  · unfold structFields
    simp only
    rw [seqWalk_ok hn (by simpa using hl) hf]
    rfl

theorem Sole.own {α : Type} {p : JVal → Res α} {R : JVal → α → Prop} (hR : ∀ v a, p v = .ok a ↔ R v a) {k : Bytes}
    {fs : List (Bytes × JVal)} {a : α} (h : Sole R k fs a) : ∃ v, vals k fs = [v] ∧ tried p v = .ok () := by
  obtain ⟨v, h1, h2⟩ := h
  exact ⟨v, h1, tried_ok.2 ⟨a, (hR _ _).2 h2⟩⟩

theorem est_iff (v : JVal) (l : LastEst) : desLastEst v = .ok l ↔ EstOf v l := by
  unfold desLastEst
  constructor
  · intro h
    obtain ⟨fs, h0, h⟩ := Res.bind_eq_ok.1 h
    obtain ⟨_, hw, h⟩ := Res.bind_eq_ok.1 h
    obtain ⟨s, h1, h⟩ := Res.bind_eq_ok.1 h
    obtain ⟨d, h2, h⟩ := Res.bind_eq_ok.1 h
    obtain ⟨br, h3, h⟩ := Res.bind_eq_ok.1 h
    obtain ⟨ba, h4, h⟩ := Res.bind_eq_ok.1 h
    obtain ⟨s', n1, h⟩ := Res.bind_eq_ok.1 h
    obtain ⟨d', n2, h⟩ := Res.bind_eq_ok.1 h
    obtain ⟨br', n3, h⟩ := Res.bind_eq_ok.1 h
    obtain ⟨ba', n4, h⟩ := Res.bind_eq_ok.1 h
    cases h
    rw [need_ok] at n1 n2 n3 n4
    subst n1 n2 n3 n4
    exact ⟨fs, struct_ok h0, walk_sole hex_iff hw rfl h1, walk_sole sa_iff hw rfl h2, walk_sole keyList_iff hw rfl h3,
      walk_sole keyList_iff hw rfl h4⟩
  · rintro ⟨fs, h0, h1, h2, h3, h4⟩
    have hall : ∀ e ∈ estFields, ∃ v, vals e.1 fs = [v] ∧ e.2 v = .ok () := by
      simp only [estFields, List.forall_mem_cons, List.not_mem_nil, false_imp_iff, implies_true, and_true]
      exact ⟨h1.own hex_iff, h2.own sa_iff, h3.own keyList_iff, h4.own keyList_iff⟩
    obtain ⟨e1, e2⟩ := struct_of (fields := estFields) (by decide) h0 hall
    rw [e1, Res.ok_bind, e2, Res.ok_bind, sole_field hex_iff h1, sole_field sa_iff h2, sole_field keyList_iff h3, sole_field keyList_iff h4]
    rfl

theorem keyConfigQ_iff (fs : List (Bytes × JVal)) (kc : KeyConfig) : desKeyConfigQ fs = .ok kc ↔
    Sole ThresholdOf b!"kt" fs kc.threshold ∧ Sole KeyListOf b!"k" fs kc.publicKeys ∧ Sole NextOf b!"n" fs kc.nextDigest := by
  unfold desKeyConfigQ
  constructor
  · intro h
    obtain ⟨_, hw, h⟩ := Res.bind_eq_ok.1 h
    obtain ⟨h1, h2, h3⟩ := (keyConfig_iff _ _).1 h
    exact ⟨walk_sole threshold_iff hw rfl ((optField_last _ _ threshold_iff _ _ _).2 h1),
      walk_sole keyList_iff hw rfl ((optField_last _ _ keyList_iff _ _ _).2 h2),
      walk_sole next_iff hw rfl ((optField_last _ _ next_iff _ _ _).2 h3)⟩
  · rintro ⟨h1, h2, h3⟩
    rw [ownWalk_ok configFields fs (by
      simp only [configFields, List.forall_mem_cons, List.not_mem_nil, false_imp_iff, implies_true, and_true]
      exact ⟨h1.walk threshold_iff, h2.walk keyList_iff, h3.walk next_iff⟩), Res.ok_bind, keyConfig_iff]
    exact ⟨(optField_last _ _ threshold_iff _ _ _).1 (sole_field threshold_iff h1), (optField_last _ _ keyList_iff _ _ _).1 (sole_field keyList_iff h2),
      (optField_last _ _ next_iff _ _ _).1 (sole_field next_iff h3)⟩

theorem state_iff (fs : List (Bytes × JVal)) (st : IdState) : desState fs = .ok st ↔ StateOf fs st := by
  unfold desState
  constructor
  · intro h
    obtain ⟨_, hw, h⟩ := Res.bind_eq_ok.1 h
    obtain ⟨i, h1, h⟩ := Res.bind_eq_ok.1 h
    obtain ⟨s, h2, h⟩ := Res.bind_eq_ok.1 h
    obtain ⟨d, h3, h⟩ := Res.bind_eq_ok.1 h
    obtain ⟨p, h4, h⟩ := Res.bind_eq_ok.1 h
    obtain ⟨et, h5, h⟩ := Res.bind_eq_ok.1 h
    obtain ⟨bt, h6, h⟩ := Res.bind_eq_ok.1 h
    obtain ⟨b, h7, h⟩ := Res.bind_eq_ok.1 h
    obtain ⟨di, h8, h⟩ := Res.bind_eq_ok.1 h
    obtain ⟨ee, h9, h⟩ := Res.bind_eq_ok.1 h
    obtain ⟨i', n1, h⟩ := Res.bind_eq_ok.1 h
    obtain ⟨s', n2, h⟩ := Res.bind_eq_ok.1 h
    obtain ⟨d', n3, h⟩ := Res.bind_eq_ok.1 h
    obtain ⟨bt', n4, h⟩ := Res.bind_eq_ok.1 h
    obtain ⟨b', n5, h⟩ := Res.bind_eq_ok.1 h
    obtain ⟨ee', n6, h⟩ := Res.bind_eq_ok.1 h
    obtain ⟨kc, hk, h⟩ := Res.bind_eq_ok.1 h
    cases h
    rw [need_ok] at n1 n2 n3 n4 n5 n6
    subst n1 n2 n3 n4 n5 n6
    obtain ⟨k1, k2, k3⟩ := (keyConfigQ_iff _ _).1 hk
    rw [Sole_others _ rfl] at k1 k2 k3
    exact ⟨walk_sole id_iff hw rfl h1, walk_sole hex_iff hw rfl h2, walk_sole sa_iff hw rfl h3, walk_maybe sa_iff hw rfl h4,
      walk_maybe tagQ_iff hw rfl h5, walk_sole hex_iff hw rfl h6, walk_sole keyList_iff hw rfl h7, walk_maybe id_iff hw rfl h8,
      walk_sole est_iff hw rfl h9, k1, k2, k3⟩
  · rintro ⟨h1, h2, h3, h4, h5, h6, h7, h8, h9, k1, k2, k3⟩
    rw [ownWalk_ok stateFields fs (by
      simp only [stateFields, List.forall_mem_cons, List.not_mem_nil, false_imp_iff, implies_true, and_true]
      exact ⟨h1.walk id_iff, h2.walk hex_iff, h3.walk sa_iff, h4.walk sa_iff, h5.walk tagQ_iff, h6.walk hex_iff, h7.walk keyList_iff,
        h8.walk id_iff, h9.walk est_iff⟩), Res.ok_bind]
    obtain ⟨p, e4, j4⟩ := maybe_field sa_iff h4
    obtain ⟨et, e5, j5⟩ := maybe_field tagQ_iff h5
    obtain ⟨di, e8, j8⟩ := maybe_field id_iff h8
    have hk : desKeyConfigQ (others stateFields fs) = .ok st.current := by
      rw [keyConfigQ_iff, Sole_others _ rfl, Sole_others _ rfl, Sole_others _ rfl]; exact ⟨k1, k2, k3⟩
    rw [sole_field id_iff h1, sole_field hex_iff h2, sole_field sa_iff h3, e4, e5, sole_field hex_iff h6, sole_field keyList_iff h7, e8,
      sole_field est_iff h9, hk]
    obtain ⟨⟩ := st
    simp only at j4 j5 j8
    subst j4 j5 j8
    rfl

theorem StateOf_others (time : Bytes → Option Timestamp) (fs : List (Bytes × JVal)) (st : IdState) :
    StateOf (others (ksnFields time) fs) st ↔ StateOf fs st := by
  unfold StateOf
  exact and_congr (Sole_others _ rfl _ _) (and_congr (Sole_others _ rfl _ _) (and_congr (Sole_others _ rfl _ _)
    (and_congr (Maybe_others _ rfl _ _) (and_congr (Maybe_others _ rfl _ _) (and_congr (Sole_others _ rfl _ _)
    (and_congr (Sole_others _ rfl _ _) (and_congr (Maybe_others _ rfl _ _) (and_congr (Sole_others _ rfl _ _)
    (and_congr (Sole_others _ rfl _ _) (and_congr (Sole_others _ rfl _ _) (Sole_others _ rfl _ _)))))))))))

theorem notice_iff (time : Bytes → Option Timestamp) (v : JVal) (k : Ksn) : desKsn time v = .ok k ↔ NoticeOf time v k := by
  unfold NoticeOf
  cases v with
  | obj fs =>
    simp only [desKsn, JVal.obj.injEq, exists_eq_left']
    unfold desKsnMembers
    constructor
    · intro h
      obtain ⟨_, hw, h⟩ := Res.bind_eq_ok.1 h
      obtain ⟨v, h1, h⟩ := Res.bind_eq_ok.1 h
      obtain ⟨f, h2, h⟩ := Res.bind_eq_ok.1 h
      obtain ⟨t, h3, h⟩ := Res.bind_eq_ok.1 h
      obtain ⟨c, h4, h⟩ := Res.bind_eq_ok.1 h
      obtain ⟨v', n1, h⟩ := Res.bind_eq_ok.1 h
      obtain ⟨f', n2, h⟩ := Res.bind_eq_ok.1 h
      obtain ⟨t', n3, h⟩ := Res.bind_eq_ok.1 h
      obtain ⟨c', n4, h⟩ := Res.bind_eq_ok.1 h
      obtain ⟨st, h5, h⟩ := Res.bind_eq_ok.1 h
      cases h
      rw [need_ok] at n1 n2 n3 n4
      subst n1 n2 n3 n4
      rw [state_iff, StateOf_others] at h5
      refine ⟨walk_sole (text_iff _) hw rfl h1, walk_sole hex_iff hw rfl h2, walk_sole (time_iff time) hw rfl h3, walk_sole strings_iff hw rfl h4, h5⟩
    · rintro ⟨h1, h2, h3, h4, h5⟩
      rw [ownWalk_ok (ksnFields time) fs (by
        simp only [ksnFields, List.forall_mem_cons, List.not_mem_nil, false_imp_iff, implies_true, and_true]
        exact ⟨h1.walk (text_iff _), h2.walk hex_iff, h3.walk (time_iff time), h4.walk strings_iff⟩), Res.ok_bind]
      have hs : desState (others (ksnFields time) fs) = .ok k.state := by
        rw [state_iff, StateOf_others]; exact h5
      rw [sole_field (text_iff _) h1, sole_field hex_iff h2, sole_field (time_iff time) h3, sole_field strings_iff h4, hs]
      rfl
  | _ => simp [desKsn]

theorem envelope_iff {α : Type} (time : Bytes → Option Timestamp) (data : List (Bytes × JVal) → Res α) (fs : List (Bytes × JVal))
    (d : SelfAddressingPrefix) (t : Timestamp) (r : Route) (a : α) : desEnvelope time data fs = .ok (d, t, r, a) ↔
      Sole (TextOf SelfAddressingPrefix.fromStr) b!"d" fs d ∧ Sole (TimeOf time) b!"dt" fs t ∧ Sole RouteOf b!"r" fs r ∧
      data (others (envelopeFields time) (without b!"d" fs)) = .ok a := by
  unfold desEnvelope
  constructor
  · intro h
    obtain ⟨⟨od, r1⟩, h1, h⟩ := Res.bind_eq_ok.1 h
    obtain ⟨d', n1, h⟩ := Res.bind_eq_ok.1 h
    obtain ⟨_, hw, h⟩ := Res.bind_eq_ok.1 h
    obtain ⟨t', h2, h⟩ := Res.bind_eq_ok.1 h
    obtain ⟨r', h3, h⟩ := Res.bind_eq_ok.1 h
    obtain ⟨t'', n2, h⟩ := Res.bind_eq_ok.1 h
    obtain ⟨r'', n3, h⟩ := Res.bind_eq_ok.1 h
    obtain ⟨a', h4, h⟩ := Res.bind_eq_ok.1 h
    have h := Res.ok.inj h
    simp only [Prod.mk.injEq] at h
    obtain ⟨rfl, rfl, rfl, rfl⟩ := h
    simp only [need_ok] at n1 n2 n3
    subst n1 n2 n3
    obtain ⟨k1, rfl⟩ := (ownField_iff _ _ sa_iff _ _ _ _).1 h1
    exact ⟨k1, (Sole_without _ (by decide) _ _).1 (walk_sole (time_iff time) hw rfl h2),
      (Sole_without _ (by decide) _ _).1 (walk_sole route_iff hw rfl h3), h4⟩
  · rintro ⟨h1, h2, h3, h4⟩
    have h2' := (Sole_without (TimeOf time) (k := b!"d") (by decide) fs t).2 h2
    have h3' := (Sole_without RouteOf (k := b!"d") (by decide) fs r).2 h3
    rw [(ownField_iff _ _ sa_iff _ _ _ _).2 ⟨h1, rfl⟩]
    simp only [Res.ok_bind, need, Res.ofOption]
    rw [ownWalk_ok (envelopeFields time) _ (by
      simp only [envelopeFields, List.forall_mem_cons, List.not_mem_nil, false_imp_iff, implies_true, and_true]
      exact ⟨h2'.walk (time_iff time), h3'.walk route_iff⟩), Res.ok_bind]
    rw [sole_field (time_iff time) h2', sole_field route_iff h3', h4]
    rfl

theorem replyData_iff (time : Bytes → Option Timestamp) (fs : List (Bytes × JVal)) (k : Ksn) :
    desReplyData time fs = .ok k ↔ Sole (NoticeOf time) b!"a" fs k := by
  unfold desReplyData
  constructor
  · intro h
    obtain ⟨_, hw, h⟩ := Res.bind_eq_ok.1 h
    obtain ⟨a, h1, h⟩ := Res.bind_eq_ok.1 h
    rw [need_ok] at h
    subst h
    exact walk_sole (notice_iff time) hw rfl h1
  · intro h
    rw [ownWalk_ok _ fs (by
      simp only [List.forall_mem_cons, List.not_mem_nil, false_imp_iff, implies_true, and_true]
      exact h.walk (notice_iff time)), Res.ok_bind, sole_field (notice_iff time) h]
    rfl

theorem args_iff (v : JVal) (i : IdentifierPrefix) : desQueryArgs v = .ok i ↔ ArgsOf v i := by
  unfold desQueryArgs
  constructor
  · intro h
    obtain ⟨fs, h0, h⟩ := Res.bind_eq_ok.1 h
    obtain ⟨_, hw, h⟩ := Res.bind_eq_ok.1 h
    obtain ⟨s, h1, h⟩ := Res.bind_eq_ok.1 h
    rw [need_ok] at h
    subst h
    exact ⟨fs, struct_ok h0, walk_sole id_iff hw rfl h1⟩
  · rintro ⟨fs, h0, h1⟩
    obtain ⟨e1, e2⟩ := struct_of (fields := [(b!"i", tried desId)]) (by decide) h0 (by
      simp only [List.forall_mem_cons, List.not_mem_nil, false_imp_iff, implies_true, and_true]
      exact h1.own id_iff)
    rw [e1, Res.ok_bind, e2, Res.ok_bind, sole_field id_iff h1]
    rfl

theorem queryData_iff (fs : List (Bytes × JVal)) (rr : Bytes) (i : IdentifierPrefix) :
    desQueryData fs = .ok (rr, i) ↔ Sole (TextOf Res.ok) b!"rr" fs rr ∧ Sole ArgsOf b!"q" fs i := by
  unfold desQueryData
  constructor
  · intro h
    obtain ⟨_, hw, h⟩ := Res.bind_eq_ok.1 h
    obtain ⟨a, h1, h⟩ := Res.bind_eq_ok.1 h
    obtain ⟨b, h2, h⟩ := Res.bind_eq_ok.1 h
    obtain ⟨a', n1, h⟩ := Res.bind_eq_ok.1 h
    obtain ⟨b', n2, h⟩ := Res.bind_eq_ok.1 h
    cases h
    rw [need_ok] at n1 n2
    subst n1 n2
    exact ⟨walk_sole (text_iff _) hw rfl h1, walk_sole args_iff hw rfl h2⟩
  · rintro ⟨h1, h2⟩
    rw [ownWalk_ok _ fs (by
      simp only [List.forall_mem_cons, List.not_mem_nil, false_imp_iff, implies_true, and_true]
      exact ⟨h1.walk (text_iff _), h2.walk args_iff⟩), Res.ok_bind, sole_field (text_iff _) h1, sole_field args_iff h2]
    rfl

/-! ## C76 -/

theorem andThen_ok {α β : Type} {x : IRes α} {g : Bytes → α → β} {rest : Bytes} {b : β} :
    (x.andThen fun r a => .ok r (g r a)) = .ok rest b ↔ ∃ a, x = .ok rest a ∧ g rest a = b := by
  cases x with
  | ok r a => simp only [IRes.andThen, IRes.ok.injEq]; constructor
              · rintro ⟨rfl, rfl⟩; exact ⟨a, ⟨rfl, rfl⟩, rfl⟩
              · rintro ⟨_, ⟨rfl, rfl⟩, rfl⟩; exact ⟨rfl, rfl⟩
  | _ => simp [IRes.andThen]

/-- C76 for replies, exactly: a text is read as a reply precisely when it is one JSON object (followed by `rest`) in which the version,
digest, timestamp, route and notice occur exactly once and denote the parts of the reply; likewise every member of the notice, where only
the prior digest, the event type and the delegator may be missing or null.  The message type (`t`) is not looked at. -/
theorem C76_reply_reader_exact (time : Bytes → Option Timestamp) (s rest : Bytes) (r : ReplyMsg) :
    jsonReply time s = .ok rest r ↔ (jsonTop s).2 = some rest ∧ ReplyOf time (jsonTop s).1 r := by
  unfold jsonReply
  rw [andThen_ok]
  constructor
  · rintro ⟨⟨info, d, t, ro, k⟩, h, rfl⟩
    obtain ⟨h0, h1, h2⟩ := (jsonMessage_iff _ _ _ _ _).1 h
    obtain ⟨h3, h4, h5, h6⟩ := (envelope_iff _ _ _ _ _ _ _).1 h2
    rw [replyData_iff, Sole_others _ rfl] at h6
    rw [Sole_without _ (by decide)] at h3 h4 h5 h6
    rw [Sole_without _ (by decide)] at h6
    exact ⟨h0, h1, h3, h4, h5, h6⟩
  · rintro ⟨h0, h1, h3, h4, h5, h6⟩
    refine ⟨(r.info, r.digest, r.timestamp, r.route, r.ksn), ?_, rfl⟩
    rw [jsonMessage_iff, envelope_iff, replyData_iff, Sole_others _ rfl, Sole_without _ (by decide), Sole_without _ (by decide),
      Sole_without _ (by decide), Sole_without _ (by decide), Sole_without _ (by decide)]
    exact ⟨h0, h1, h3, h4, h5, h6⟩

/-- C76 for queries, exactly. -/
theorem C76_query_reader_exact (time : Bytes → Option Timestamp) (s rest : Bytes) (q : QueryMsg) :
    jsonQuery time s = .ok rest q ↔ (jsonTop s).2 = some rest ∧ QueryOf time (jsonTop s).1 q := by
  unfold jsonQuery
  rw [andThen_ok]
  constructor
  · rintro ⟨⟨info, d, t, ro, rr, i⟩, h, rfl⟩
    obtain ⟨h0, h1, h2⟩ := (jsonMessage_iff _ _ _ _ _).1 h
    obtain ⟨h3, h4, h5, h6⟩ := (envelope_iff _ _ _ _ _ _ _).1 h2
    obtain ⟨h6, h7⟩ := (queryData_iff _ _ _).1 h6
    rw [Sole_others _ rfl] at h6 h7
    rw [Sole_without _ (by decide)] at h3 h4 h5 h6 h7
    rw [Sole_without _ (by decide)] at h6 h7
    exact ⟨h0, h1, h3, h4, h5, h6, h7⟩
  · rintro ⟨h0, h1, h3, h4, h5, h6, h7⟩
    refine ⟨(q.info, q.digest, q.timestamp, q.route, q.replyRoute, q.id), ?_, rfl⟩
    rw [jsonMessage_iff, envelope_iff, queryData_iff, Sole_others _ rfl, Sole_others _ rfl, Sole_without _ (by decide), Sole_without _ (by decide),
      Sole_without _ (by decide), Sole_without _ (by decide), Sole_without _ (by decide), Sole_without _ (by decide), Sole_without _ (by decide)]
    exact ⟨h0, h1, h3, h4, h5, h6, h7⟩

/-! ## The texts of the repository's own tests are read (event_parsing/message.rs, `test_reply` and `test_qry`) -/
namespace Ex

/-- the reply of `test_reply` -/
def rpyText : Bytes := b!"{\"v\":\"KERI10JSON000292_\",\"t\":\"rpy\",\"d\":\"E_v_Syz2Bhh1WCKx9GBSpU4g9FqqxtSNPI_M2KgMC1yI\",\"dt\":\"2021-01-01T00:00:00.000000+00:00\",\"r\":\"/ksn/Et78eYkh8A3H9w6Q87EC5OcijiVEJT8KyNtEGdpPVWV8\",\"a\":{\"v\":\"KERI10JSON0001d7_\",\"i\":\"Et78eYkh8A3H9w6Q87EC5OcijiVEJT8KyNtEGdpPVWV8\",\"s\":\"3\",\"p\":\"EYhzp9WCvSNFT2dVryQpVFiTzuWGbFNhVHNKCqAqBI8A\",\"d\":\"EsL4LnyvTGBqdYC_Ute3ag4XYbu8PdCj70un885pMYpA\",\"f\":\"3\",\"dt\":\"2021-01-01T00:00:00.000000+00:00\",\"et\":\"rot\",\"kt\":\"1\",\"k\":[\"DrcAz_gmDTuWIHn_mOQDeSK_aJIRiw5IMzPD7igzEDb0\"],\"n\":\"E_Y2NMHE0nqrTQLe57VPcM0razmxdxRVbljRCSetdjjI\",\"bt\":\"0\",\"b\":[],\"c\":[],\"ee\":{\"s\":\"3\",\"d\":\"EsL4LnyvTGBqdYC_Ute3ag4XYbu8PdCj70un885pMYpA\",\"br\":[],\"ba\":[]}}}"

/-- the query of `test_qry` -/
def qryText : Bytes := b!"{\"v\":\"KERI10JSON0000c9_\",\"t\":\"qry\",\"d\":\"E-WvgxrllmjGFhpn0oOiBkAVz3-dEm3bbiV_5qwj81xo\",\"dt\":\"2021-01-01T00:00:00.000000+00:00\",\"r\":\"log\",\"rr\":\"\",\"q\":{\"i\":\"DyvCLRr5luWmp7keDvDuLP0kIqcyBYq79b3Dho1QvrjI\"}}"

/-- a reader of timestamps -/
def clock (_ : Bytes) : Option Timestamp := some ⟨1609459200000000, 0⟩

example : ∃ r, jsonReply clock (rpyText ++ b!"something more") = .ok b!"something more" r ∧ r.ksn.state.sn = 3 ∧ r.ksn.state.delegator = none ∧
    ReplyOf clock (jsonTop (rpyText ++ b!"something more")).1 r := by
  have h : (match jsonReply clock (rpyText ++ b!"something more") with
    | .ok rest r => decide (rest = b!"something more" ∧ r.ksn.state.sn = 3 ∧ r.ksn.state.delegator = none)
    | _ => false) = true := by decide +kernel
  cases e : jsonReply clock (rpyText ++ b!"something more") with
  | ok rest r =>
    rw [e] at h
    obtain ⟨rfl, h1, h2⟩ := of_decide_eq_true h
    exact ⟨r, rfl, h1, h2, ((C76_reply_reader_exact _ _ _ _).1 e).2⟩
  | _ => rw [e] at h; cases h

example : ∃ q, jsonQuery clock qryText = .ok [] q ∧ q.route = .log ∧ q.replyRoute = [] ∧ QueryOf clock (jsonTop qryText).1 q := by
  have h : (match jsonQuery clock qryText with
    | .ok rest q => decide (rest = [] ∧ q.route = .log ∧ q.replyRoute = [])
    | _ => false) = true := by decide +kernel
  cases e : jsonQuery clock qryText with
  | ok rest q =>
    rw [e] at h
    obtain ⟨rfl, h1, h2⟩ := of_decide_eq_true h
    exact ⟨q, rfl, h1, h2, ((C76_query_reader_exact _ _ _ _).1 e).2⟩
  | _ => rw [e] at h; cases h

end Ex
end Keriox
