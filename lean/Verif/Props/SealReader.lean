import Verif.Props.Reader
import Verif.Props.Panic
/-!
# C75, seals: which values are read as which seal, exactly

A seal has no tag; the kinds are tried in the order location, event, digest, root.  `SealOf` (Reader.lean) says what a value of each kind
looks like; `SealIs` adds that the value does not look like a kind tried earlier.
-/
namespace Keriox

/-- the order in which the kinds of seals are tried -/
def Seal.rank : Seal → Nat
  | .location _ => 0
  | .event _ => 1
  | .digest _ => 2
  | .root _ => 3

/-- the value has the members of this seal, and not those of a kind that is tried earlier -/
def SealIs (v : JVal) (sl : Seal) : Prop := SealOf v sl ∧ ∀ sl' : Seal, sl'.rank < sl.rank → ¬ SealOf v sl'

theorem triedSeal_ok {α : Type} {p : JVal → Res α} {v : JVal} {a : α} (h : p v = .ok a) : tried p v = .ok () := by simp [tried, h]

theorem last_zip_head {α : Type} {R : JVal → α → Prop} {k : Bytes} {ks : List Bytes} {x : JVal} {xs : List JVal} {a : α}
    (h : Last R k ((k :: ks).zip (x :: xs)) a) (hk : k ∉ ks) : R x a := by
  obtain ⟨v, hv, hr⟩ := h
  have : vals k ((k :: ks).zip (x :: xs)) = [x] := by
    rw [List.zip_cons_cons, vals_cons, if_pos rfl]
    have : vals k (ks.zip xs) = [] := by
      unfold vals
      rw [List.map_eq_nil_iff, List.filter_eq_nil_iff]
      rintro ⟨a, b⟩ hm
      simp only [decide_eq_true_eq]
      rintro rfl
      exact hk (List.of_mem_zip hm).1
    rw [this]
  rw [this] at hv
  cases hv
  exact hr

theorem last_zip_tail {α : Type} {R : JVal → α → Prop} {k k' : Bytes} {ks : List Bytes} {x : JVal} {xs : List JVal} {a : α}
    (h : Last R k ((k' :: ks).zip (x :: xs)) a) (hk : k' ≠ k) : Last R k (ks.zip xs) a := by
  unfold Last at *
  rwa [List.zip_cons_cons, vals_cons, if_neg hk] at h

theorem location_iff (v : JVal) (l : LocationSeal) : desLocationSeal v = .ok (.location l) ↔ SealOf v (.location l) := by
  constructor
  · intro h
    exact C75_seal_reader v _ (by unfold desSeal; rw [h]; rfl)
  · rintro ⟨fs, hs, h1, h2, h3, h4⟩
    have hf : structFields [(b!"i", tried (desText IdentifierPrefix.fromStr)), (b!"s", tried desHex), (b!"t", tried (desText Res.ok)), (b!"p", tried (desText SelfAddressingPrefix.fromStr))] v = .ok fs := by
      rcases hs with rfl | ⟨xs, rfl, hl, rfl⟩
      · rfl
      · match xs, hl with
        | [x1, x2, x3, x4], _ =>
          have g1 := (text_iff _ _ _).2 (last_zip_head h1 (by decide))
          have g2 := (hex_iff _ _).2 (last_zip_head (last_zip_tail h2 (by decide)) (by decide))
          have g3 := (text_iff _ _ _).2 (last_zip_head (last_zip_tail (last_zip_tail h3 (by decide)) (by decide)) (by decide))
          have g4 := (text_iff _ _ _).2 (last_zip_head (last_zip_tail (last_zip_tail (last_zip_tail h4 (by decide)) (by decide)) (by decide)) (by decide))
          simp [structFields, seqWalk, triedSeal_ok g1, triedSeal_ok g2, triedSeal_ok g3, triedSeal_ok g4]
    unfold desLocationSeal
    rw [hf, Res.ok_bind, (optField_last _ _ (text_iff _) _ _ _).2 h1, Res.ok_bind, (optField_last _ _ (text_iff _) _ _ _).2 h4, Res.ok_bind,
      (optField_last _ _ hex_iff _ _ _).2 h2, Res.ok_bind, (optField_last _ _ (text_iff _) _ _ _).2 h3]
    rfl

theorem event_iff (v : JVal) (l : EventSeal) : desEventSeal v = .ok (.event l) ↔ SealOf v (.event l) := by
  constructor
  · intro h
    unfold desEventSeal at h
    obtain ⟨fs, h0, h⟩ := Res.bind_eq_ok.1 h
    obtain ⟨d, h1, h⟩ := Res.bind_eq_ok.1 h
    obtain ⟨i, h2, h⟩ := Res.bind_eq_ok.1 h
    obtain ⟨s, h3, h⟩ := Res.bind_eq_ok.1 h
    obtain ⟨i', h5, h⟩ := Res.bind_eq_ok.1 h
    obtain ⟨s', h6, h⟩ := Res.bind_eq_ok.1 h
    obtain ⟨d', h7, h⟩ := Res.bind_eq_ok.1 h
    cases h
    rw [need_ok] at h5 h6 h7
    subst h5 h6 h7
    exact ⟨fs, struct_ok h0, (optField_last _ _ (text_iff _) _ _ _).1 h2, (optField_last _ _ hex_iff _ _ _).1 h3,
      (optField_last _ _ (text_iff _) _ _ _).1 h1⟩
  · rintro ⟨fs, hs, h1, h2, h3⟩
    have hf : structFields [(b!"i", tried (desText IdentifierPrefix.fromStr)), (b!"s", tried desHex), (b!"d", tried (desText SelfAddressingPrefix.fromStr))] v = .ok fs := by
      rcases hs with rfl | ⟨xs, rfl, hl, rfl⟩
      · rfl
      · match xs, hl with
        | [x1, x2, x3], _ =>
          have g1 := (text_iff _ _ _).2 (last_zip_head h1 (by decide))
          have g2 := (hex_iff _ _).2 (last_zip_head (last_zip_tail h2 (by decide)) (by decide))
          have g3 := (text_iff _ _ _).2 (last_zip_head (last_zip_tail (last_zip_tail h3 (by decide)) (by decide)) (by decide))
          simp [structFields, seqWalk, triedSeal_ok g1, triedSeal_ok g2, triedSeal_ok g3]
    unfold desEventSeal
    rw [hf, Res.ok_bind, (optField_last _ _ (text_iff _) _ _ _).2 h3, Res.ok_bind, (optField_last _ _ (text_iff _) _ _ _).2 h1, Res.ok_bind,
      (optField_last _ _ hex_iff _ _ _).2 h2]
    rfl

theorem digest_iff (v : JVal) (d : SelfAddressingPrefix) : desDigestSeal v = .ok (.digest d) ↔ SealOf v (.digest d) := by
  constructor
  · intro h
    unfold desDigestSeal at h
    obtain ⟨fs, h0, h⟩ := Res.bind_eq_ok.1 h
    obtain ⟨d, h1, h⟩ := Res.bind_eq_ok.1 h
    obtain ⟨d', h7, h⟩ := Res.bind_eq_ok.1 h
    cases h
    rw [need_ok] at h7
    subst h7
    exact ⟨fs, struct_ok h0, (optField_last _ _ (text_iff _) _ _ _).1 h1⟩
  · rintro ⟨fs, hs, h1⟩
    have hf : structFields [(b!"d", tried (desText SelfAddressingPrefix.fromStr))] v = .ok fs := by
      rcases hs with rfl | ⟨xs, rfl, hl, rfl⟩
      · rfl
      · match xs, hl with
        | [x1], _ =>
          have g1 := (text_iff _ _ _).2 (last_zip_head h1 (by decide))
          simp [structFields, seqWalk, triedSeal_ok g1]
    unfold desDigestSeal
    rw [hf, Res.ok_bind, (optField_last _ _ (text_iff _) _ _ _).2 h1]
    rfl

theorem root_iff (v : JVal) (d : SelfAddressingPrefix) : desRootSeal v = .ok (.root d) ↔ SealOf v (.root d) := by
  constructor
  · intro h
    unfold desRootSeal at h
    obtain ⟨fs, h0, h⟩ := Res.bind_eq_ok.1 h
    obtain ⟨d, h1, h⟩ := Res.bind_eq_ok.1 h
    obtain ⟨d', h7, h⟩ := Res.bind_eq_ok.1 h
    cases h
    rw [need_ok] at h7
    subst h7
    exact ⟨fs, struct_ok h0, (optField_last _ _ (text_iff _) _ _ _).1 h1⟩
  · rintro ⟨fs, hs, h1⟩
    have hf : structFields [(b!"rd", tried (desText SelfAddressingPrefix.fromStr))] v = .ok fs := by
      rcases hs with rfl | ⟨xs, rfl, hl, rfl⟩
      · rfl
      · match xs, hl with
        | [x1], _ =>
          have g1 := (text_iff _ _ _).2 (last_zip_head h1 (by decide))
          simp [structFields, seqWalk, triedSeal_ok g1]
    unfold desRootSeal
    rw [hf, Res.ok_bind, (optField_last _ _ (text_iff _) _ _ _).2 h1]
    rfl

/-- each alternative makes seals of its own kind only -/
theorem location_kind {v : JVal} {sl : Seal} (h : desLocationSeal v = .ok sl) : ∃ l, sl = .location l := by
  unfold desLocationSeal at h
  obtain ⟨_, _, h⟩ := Res.bind_eq_ok.1 h
  obtain ⟨_, _, h⟩ := Res.bind_eq_ok.1 h
  obtain ⟨_, _, h⟩ := Res.bind_eq_ok.1 h
  obtain ⟨_, _, h⟩ := Res.bind_eq_ok.1 h
  obtain ⟨_, _, h⟩ := Res.bind_eq_ok.1 h
  obtain ⟨_, _, h⟩ := Res.bind_eq_ok.1 h
  obtain ⟨_, _, h⟩ := Res.bind_eq_ok.1 h
  obtain ⟨_, _, h⟩ := Res.bind_eq_ok.1 h
  obtain ⟨_, _, h⟩ := Res.bind_eq_ok.1 h
  cases h; exact ⟨_, rfl⟩

theorem event_kind {v : JVal} {sl : Seal} (h : desEventSeal v = .ok sl) : ∃ l, sl = .event l := by
  unfold desEventSeal at h
  obtain ⟨_, _, h⟩ := Res.bind_eq_ok.1 h
  obtain ⟨_, _, h⟩ := Res.bind_eq_ok.1 h
  obtain ⟨_, _, h⟩ := Res.bind_eq_ok.1 h
  obtain ⟨_, _, h⟩ := Res.bind_eq_ok.1 h
  obtain ⟨_, _, h⟩ := Res.bind_eq_ok.1 h
  obtain ⟨_, _, h⟩ := Res.bind_eq_ok.1 h
  obtain ⟨_, _, h⟩ := Res.bind_eq_ok.1 h
  cases h; exact ⟨_, rfl⟩

theorem digest_kind {v : JVal} {sl : Seal} (h : desDigestSeal v = .ok sl) : ∃ l, sl = .digest l := by
  unfold desDigestSeal at h
  obtain ⟨_, _, h⟩ := Res.bind_eq_ok.1 h
  obtain ⟨_, _, h⟩ := Res.bind_eq_ok.1 h
  obtain ⟨_, _, h⟩ := Res.bind_eq_ok.1 h
  cases h; exact ⟨_, rfl⟩

theorem root_kind {v : JVal} {sl : Seal} (h : desRootSeal v = .ok sl) : ∃ l, sl = .root l := by
  unfold desRootSeal at h
  obtain ⟨_, _, h⟩ := Res.bind_eq_ok.1 h
  obtain ⟨_, _, h⟩ := Res.bind_eq_ok.1 h
  obtain ⟨_, _, h⟩ := Res.bind_eq_ok.1 h
  cases h; exact ⟨_, rfl⟩

theorem seal_np_or {v : JVal} {sl : Seal} (h : SealIs v sl) : desSeal v = .ok sl ∨ desSeal v = .panic := by
  obtain ⟨h, hn⟩ := h
  unfold desSeal
  cases h1 : desLocationSeal v with
  | panic => exact .inr rfl
  | ok s =>
    left
    obtain ⟨l, rfl⟩ := location_kind h1
    cases sl with
    | location l' => rw [(location_iff v l').2 h] at h1; cases h1; rfl
    | _ => exact absurd ((location_iff v l).1 h1) (hn _ (by simp [Seal.rank]))
  | err e1 =>
    simp only [orTry]
    cases h2 : desEventSeal v with
    | panic => exact .inr rfl
    | ok s =>
      left
      obtain ⟨l, rfl⟩ := event_kind h2
      cases sl with
      | location l' => rw [(location_iff v l').2 h] at h1; cases h1
      | event l' => rw [(event_iff v l').2 h] at h2; cases h2; rfl
      | _ => exact absurd ((event_iff v l).1 h2) (hn _ (by simp [Seal.rank]))
    | err e2 =>
      simp only
      cases h3 : desDigestSeal v with
      | panic => exact .inr rfl
      | ok s =>
        left
        obtain ⟨l, rfl⟩ := digest_kind h3
        cases sl with
        | location l' => rw [(location_iff v l').2 h] at h1; cases h1
        | event l' => rw [(event_iff v l').2 h] at h2; cases h2
        | digest l' => rw [(digest_iff v l').2 h] at h3; cases h3; rfl
        | root l' => exact absurd ((digest_iff v l).1 h3) (hn _ (by simp [Seal.rank]))
      | err e3 =>
        simp only
        left
        cases sl with
        | location l' => rw [(location_iff v l').2 h] at h1; cases h1
        | event l' => rw [(event_iff v l').2 h] at h2; cases h2
        | digest l' => rw [(digest_iff v l').2 h] at h3; cases h3
        | root l' => exact (root_iff v l').2 h

theorem seal_is_of {v : JVal} {sl : Seal} (h : desSeal v = .ok sl) : SealIs v sl := by
  refine ⟨C75_seal_reader v sl h, fun sl' hlt hs => ?_⟩
  unfold desSeal at h
  cases sl' with
  | location l =>
    rw [(location_iff v l).2 hs] at h
    cases h; exact absurd hlt (by simp [Seal.rank])
  | event l =>
    rw [(event_iff v l).2 hs] at h
    cases h1 : desLocationSeal v with
    | ok s => rw [h1] at h; obtain ⟨l', rfl⟩ := location_kind h1; cases h; exact absurd hlt (by simp [Seal.rank])
    | err e => rw [h1] at h; cases h; exact absurd hlt (by simp [Seal.rank])
    | panic => rw [h1] at h; cases h
  | digest l =>
    rw [(digest_iff v l).2 hs] at h
    cases h1 : desLocationSeal v with
    | ok s => rw [h1] at h; obtain ⟨l', rfl⟩ := location_kind h1; cases h; exact absurd hlt (by simp [Seal.rank])
    | err e =>
      rw [h1] at h
      cases h2 : desEventSeal v with
      | ok s => rw [h2] at h; obtain ⟨l', rfl⟩ := event_kind h2; cases h; exact absurd hlt (by simp [Seal.rank])
      | err e => rw [h2] at h; cases h; exact absurd hlt (by simp [Seal.rank])
      | panic => rw [h2] at h; cases h
    | panic => rw [h1] at h; cases h
  | root l => cases sl <;> exact absurd hlt (by simp [Seal.rank])

/-- C75 for seals, exactly: a value none of whose texts crashes a prefix reader (`JVal.Safe`, C63) is read as a seal precisely when it has the
members of that kind of seal, denoting its parts, and does not have those of a kind tried earlier. -/
theorem C75_seal_exact (v : JVal) (hv : v.Safe) (sl : Seal) : desSeal v = .ok sl ↔ SealIs v sl := by
  refine ⟨seal_is_of, fun h => ?_⟩
  rcases seal_np_or h with h | h
  · exact h
  · exact absurd h (desSeal_np hv)

/-- a value is read as at most one seal -/
theorem C75_one_seal (v : JVal) (s t : Seal) (hs : SealIs v s) (ht : SealIs v t) (hv : v.Safe) : s = t := by
  have h1 := (C75_seal_exact v hv s).2 hs
  have h2 := (C75_seal_exact v hv t).2 ht
  rw [h1] at h2
  exact Res.ok.inj h2

theorem each_congr {α : Type} {R S : JVal → α → Prop} {vs : List JVal} {as : List α} (h : ∀ v ∈ vs, ∀ a, R v a → S v a)
    (he : Each R vs as) : Each S vs as := by
  induction he with
  | nil => exact .nil
  | cons h1 _ ih => exact .cons (h _ (by simp) _ h1) (ih fun v hv => h v (List.mem_cons_of_mem _ hv))

/-- the seals of an event, under any two meanings of seals that agree on the values of the members `a` -/
theorem message_congr {S T : JVal → Seal → Prop} {fs : List (Bytes × JVal)} {info : SerInfo} {e : KeyEvent}
    (h : ∀ v, (vals b!"a" fs).getLast? = some (.arr v) → ∀ x ∈ v, ∀ a, S x a → T x a) (hm : MessageOf S fs info e) : MessageOf T fs info e := by
  have hl : ∀ l, Last (ListOf S) b!"a" fs l → Last (ListOf T) b!"a" fs l := by
    rintro l ⟨v, hv, ⟨vs, _, he⟩⟩
    exact ⟨_, hv, .mk _ _ (each_congr (h vs hv) he)⟩
  obtain ⟨h1, h2, h3, h4, h5, h6⟩ := hm
  refine ⟨h1, h2, h3, h4, h5, ?_⟩
  revert h6
  cases e.content.data <;> intro h6
  · exact ⟨h6.1, h6.2.1, h6.2.2.1, h6.2.2.2.1, hl _ h6.2.2.2.2⟩
  · exact ⟨h6.1, h6.2.1, h6.2.2.1, h6.2.2.2.1, h6.2.2.2.2.1, hl _ h6.2.2.2.2.2⟩
  · exact ⟨h6.1, hl _ h6.2⟩
  · exact ⟨⟨h6.1.1, h6.1.2.1, h6.1.2.2.1, h6.1.2.2.2.1, hl _ h6.1.2.2.2.2⟩, h6.2⟩
  · exact ⟨h6.1, h6.2.1, h6.2.2.1, h6.2.2.2.1, h6.2.2.2.2.1, hl _ h6.2.2.2.2.2⟩

/-- C75 for whole events, seals included: a text in which no prefix text crashes the reader is read as an event precisely when its members,
those of its seals included, denote the event. -/
theorem C75_event_and_seals_exact (s rest : Bytes) (hs : ∀ vs, (vals b!"a" (jsonTop s).1).getLast? = some (.arr vs) → ∀ v ∈ vs, v.Safe)
    (info : SerInfo) (e : KeyEvent) :
    jsonMessage desKeyEvent s = .ok rest (info, e) ↔ (jsonTop s).2 = some rest ∧ MessageOf SealIs (jsonTop s).1 info e := by
  rw [C75_event_reader_exact]
  constructor
  · rintro ⟨h1, h2⟩
    exact ⟨h1, message_congr (fun _ _ _ _ _ => seal_is_of) h2⟩
  · rintro ⟨h1, h2⟩
    exact ⟨h1, message_congr (fun vs hv x hx a => (C75_seal_exact x (hs vs hv x hx) a).2) h2⟩

/-- what is read, without any condition -/
theorem C75_read_is_written (s rest : Bytes) (info : SerInfo) (e : KeyEvent) (h : jsonMessage desKeyEvent s = .ok rest (info, e)) :
    (jsonTop s).2 = some rest ∧ MessageOf SealIs (jsonTop s).1 info e := by
  rw [C75_event_reader_exact] at h
  exact ⟨h.1, message_congr (fun _ _ _ _ _ => seal_is_of) h.2⟩

/-- An object with the members of all four kinds is a location seal; one with `d` and `rd` is a digest seal. -/
example : (desSeal (.obj [(b!"rd", .str Ex.rot.msg.event.digest.toStr), (b!"d", .str Ex.icp.msg.event.digest.toStr)])) =
    .ok (.digest Ex.icp.msg.event.digest) := by decide +kernel
example : (desSeal (.obj [(b!"rd", .str Ex.rot.msg.event.digest.toStr), (b!"d", .str Ex.icp.msg.event.digest.toStr),
    (b!"i", .str Ex.id.toStr), (b!"s", .str b!"1"), (b!"t", .str b!"x"), (b!"p", .str Ex.icp.msg.event.digest.toStr)])) =
    .ok (.location ⟨Ex.id, 1, b!"x", Ex.icp.msg.event.digest⟩) := by decide +kernel
/-- the hypothesis of `C75_event_and_seals_exact` for an interaction with a digest seal, which is read -/
example : (∀ vs, (vals b!"a" (jsonTop (jsonText Ex.ixn.msg.sval)).1).getLast? = some (.arr vs) → ∀ v ∈ vs, v.Safe) ∧
    readsAs (jsonText Ex.ixn.msg.sval) Ex.ixn.msg = true := by
  refine ⟨fun vs h v hv => ?_, by decide +kernel⟩
  have e : (match (vals b!"a" (jsonTop (jsonText Ex.ixn.msg.sval)).1).getLast? with
      | some (.arr [.obj [(_, .str t)]]) => t.all (· < 128) && decide (4 ≤ t.length)
      | _ => false) = true := by decide +kernel
  rw [h] at e
  split at e
  · rename_i k t hx
    cases hx
    rw [List.mem_singleton] at hv
    subst hv
    simp only [Bool.and_eq_true, decide_eq_true_eq, List.all_eq_true] at e
    simp only [JVal.Safe, JVal.SafeF, and_true]
    exact fun _ => .inr ⟨fun b hb => e.1 b hb, e.2⟩
  · cases e

end Keriox
