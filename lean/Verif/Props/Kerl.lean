import Verif.KerlFacts
import Verif.Props.Wire
import Verif.Props.Kel
import Verif.Props.Events
import Verif.Props.Deleg
import Verif.Props.Replay
/-!
# C45: parsing an exported log
-/
namespace Keriox

/-! ## Specification -/

/-- the configuration traits of an event -/
def EventData.traits : EventData → List Bytes
  | .icp e => e.config
  | .dip e => e.inception.config
  | _ => []

/-- a configuration trait without quotes, backslashes and control characters that does not begin with `-` -/
def PlainTrait (s : Bytes) : Prop := (∀ c ∈ s, c ≠ 34 ∧ c ≠ 92 ∧ 32 ≤ c) ∧ s.head? ≠ some 45

/-- events every part of which the text formats can carry -/
def SignedEvent.Exportable (e : SignedEvent) : Prop :=
  e.msg.Representable ∧ SigsOk e.sigs ∧ ∀ c ∈ e.data.traits, PlainTrait c

/-- an event without seals -/
def SignedEvent.noSeals (e : SignedEvent) : Bool := e.data.seals.isEmpty

/-- what is made of the exported form of an event: the event itself unless it is delegated, the seal of whose delegator is not exported -/
def reimported (e : SignedEvent) : Res Message :=
  if e.data.isDelegated then .err (.semantic "Missing attachment") else .ok (.event e)

/-! ## The text of an event -/

theorem rawStr_of_trait {c : Bytes} (h : PlainTrait c) : rawStr c = true := by
  simp only [rawStr, plainStr, Bool.and_eq_true, bne_iff_ne, List.all_eq_true, decide_eq_true_eq]
  exact ⟨fun x hx => ⟨⟨(h.1 x hx).1, (h.1 x hx).2.1⟩, (h.1 x hx).2.2⟩, h.2⟩

theorem raw_traits {cs : List Bytes} (h : ∀ c ∈ cs, PlainTrait c) : (SVal.seq (cs.map .str)).raw = true := by
  rw [SVal.raw]
  exact rawL_map _ _ fun c hc => by rw [SVal.raw]; exact rawStr_of_trait (h c hc)

/-- the members of an event before and after its seals -/
theorem fields_split (d : EventData) (hc : ∀ c ∈ d.traits, PlainTrait c) (hu : d.utf8 = true) :
    ∃ pre post, d.fields = pre ++ (b!"a", .seq (d.seals.map Seal.sval)) :: post ∧ SVal.rawF pre = true ∧ SVal.rawF post = true ∧
      SVal.FitsF 127 pre := by
  have ic : ∀ e : InceptionEvent, (∀ c ∈ e.config, PlainTrait c) → e.config.all utf8Valid = true → ∃ pre,
      e.fields = pre ++ [(b!"a", .seq (e.data.map Seal.sval))] ∧ SVal.rawF pre = true ∧ SVal.FitsF 127 pre := by
    intro e h1 h2
    refine ⟨e.keyConfig.fields ++ [(b!"bt", .str (hexStr e.tally)), (b!"b", keysSval e.initialWitnesses),
      (b!"c", .seq (e.config.map .str))], by simp [InceptionEvent.fields], ?_, ?_⟩
    · rw [rawF_append, raw_keyConfig]
      have := raw_traits h1
      rw [SVal.raw] at this
      simp only [SVal.rawF, raw_keys, SVal.raw, rawStr_hex, this, Bool.and_true, Bool.true_and]
      decide
    · refine FitsF_append _ _ _ (keyConfig_fits _ 124) ?_
      simp only [SVal.FitsF]
      exact ⟨by decide, by simp only [SVal.Fits]; exact hexStr_utf8 _, by decide, keys_fit _ 125, by decide, strings_fit _ h2 125, trivial⟩
  have ro : ∀ e : RotationEvent, ∃ pre,
      e.fields = pre ++ [(b!"a", .seq (e.data.map Seal.sval))] ∧ SVal.rawF pre = true ∧ SVal.FitsF 127 pre := by
    intro e
    refine ⟨[(b!"p", .str e.previous.toStr)] ++ e.keyConfig.fields ++ [(b!"bt", .str (hexStr e.tally)), (b!"br", keysSval e.prune),
      (b!"ba", keysSval e.graft)], by simp [RotationEvent.fields], ?_, ?_⟩
    · rw [rawF_append, rawF_append, raw_keyConfig]
      simp only [SVal.rawF, raw_keys, SVal.raw, rawStr_hex, rawStr_selfAddressing, Bool.and_true, Bool.true_and]
      decide
    · refine FitsF_append _ _ _ (FitsF_append _ _ _ ?_ (keyConfig_fits _ 124)) ?_
      · simp only [SVal.FitsF]
        exact ⟨by decide, by simp only [SVal.Fits]; exact SelfAddressingPrefix.toStr_utf8 _, trivial⟩
      · simp only [SVal.FitsF]
        exact ⟨by decide, by simp only [SVal.Fits]; exact hexStr_utf8 _, by decide, keys_fit _ 125, by decide, keys_fit _ 125, trivial⟩
  cases d with
  | icp e =>
    simp only [EventData.utf8, Bool.and_eq_true] at hu
    obtain ⟨pre, h1, h2, h3⟩ := ic e hc hu.1
    exact ⟨pre, [], h1, h2, rfl, h3⟩
  | rot e =>
    obtain ⟨pre, h1, h2, h3⟩ := ro e
    exact ⟨pre, [], h1, h2, rfl, h3⟩
  | drt e =>
    obtain ⟨pre, h1, h2, h3⟩ := ro e
    exact ⟨pre, [], h1, h2, rfl, h3⟩
  | ixn e =>
    refine ⟨[(b!"p", .str e.previous.toStr)], [], rfl, ?_, rfl, ?_⟩
    · simp only [SVal.rawF, SVal.raw, rawStr_selfAddressing, Bool.and_true]
      decide
    · simp only [SVal.FitsF]
      exact ⟨by decide, by simp only [SVal.Fits]; exact SelfAddressingPrefix.toStr_utf8 _, trivial⟩
  | dip e =>
    simp only [EventData.utf8, Bool.and_eq_true] at hu
    obtain ⟨pre, h1, h2, h3⟩ := ic e.inception hc hu.1
    refine ⟨pre, [(b!"di", .str e.delegator.toStr)], by simp [EventData.fields, EventData.seals, h1], h2, ?_, h3⟩
    simp only [SVal.rawF, SVal.raw, rawStr_identifier, Bool.and_true]
    decide

/-- the members of an event message before its seals -/
theorem sval_split (m : EventMessage) (hc : ∀ c ∈ m.event.content.data.traits, PlainTrait c) (hu : m.event.content.data.utf8 = true) :
    ∃ pre post, m.sval = .map ((b!"v", .str m.info.toStr) :: pre ++ (b!"a", .seq (m.event.content.data.seals.map Seal.sval)) :: post) ∧
      SVal.rawF pre = true ∧ SVal.rawF post = true ∧ SVal.FitsF 127 pre ∧ b!"v" ∉ pre.map Prod.fst := by
  obtain ⟨pre, post, h1, h2, h3, h4⟩ := fields_split m.event.content.data hc hu
  have hv : b!"v" ∉ pre.map Prod.fst := by
    have := (data_keys m.event.content.data).1
    rw [toJFields_keys, h1, List.map_append] at this
    exact fun hm => this (List.mem_append_left _ hm)
  refine ⟨[(b!"t", .str m.event.content.data.type.toStr), (b!"d", .str m.event.digest.toStr), (b!"i", .str m.event.content.prefix.toStr),
    (b!"s", .str (hexStr m.event.content.sn))] ++ pre, post, ?_, ?_, h3, ?_, ?_⟩
  · simp [EventMessage.sval, Event.fields, h1]
  · have ht : rawStr m.event.content.data.type.toStr = true := by cases m.event.content.data.type <;> decide
    rw [rawF_append, h2]
    simp only [SVal.rawF, SVal.raw, ht, rawStr_selfAddressing, rawStr_identifier, rawStr_hex, Bool.and_true]
    decide
  · refine FitsF_append _ _ _ ?_ h4
    simp only [SVal.FitsF, SVal.Fits]
    exact ⟨by decide, type_utf8 _, by decide, SelfAddressingPrefix.toStr_utf8 _, by decide, IdentifierPrefix.toStr_utf8 _, by decide,
      hexStr_utf8 _, trivial⟩
  · simp only [List.map_append, List.map_cons, List.map_nil, List.mem_append, List.mem_cons, List.not_mem_nil, or_false, not_or]
    exact ⟨by decide, hv⟩

theorem rawInfo (m : EventMessage) (pre : List (Bytes × SVal)) (h : SVal.rawF pre = true) :
    SVal.rawF ((b!"v", .str m.info.toStr) :: pre) = true := by
  simp only [SVal.rawF, SVal.raw, rawStr_info, h, Bool.and_true]
  decide

/-- without seals the custom serializer agrees with serde_json -/
theorem keriSer_noSeals (m : EventMessage) (hc : ∀ c ∈ m.event.content.data.traits, PlainTrait c)
    (hu : m.event.content.data.utf8 = true) (hs : m.event.content.data.seals = []) : keriSer m.sval [] = jsonText m.sval := by
  obtain ⟨pre, post, h1, h2, h3, _, _⟩ := sval_split m hc hu
  rw [keriSer_raw, List.nil_append]
  rw [h1, hs, SVal.raw, rawF_append, rawInfo m pre h2]
  simp only [List.map_nil, SVal.rawF, SVal.raw, SVal.rawL, h3, Bool.and_true, Bool.true_and]
  decide

theorem keriMap_last (fs : List (Bytes × SVal)) (out : Bytes) (h : SVal.rawF fs = true) (hl : out.getLast? ≠ some 123) :
    (keriMap fs out).getLast? ≠ some 123 := by
  induction fs generalizing out with
  | nil => rw [keriMap]; exact hl
  | cons f fs ih =>
    obtain ⟨k, x⟩ := f
    rw [SVal.rawF, Bool.and_eq_true, Bool.and_eq_true] at h
    rw [keriMap, if_neg hl, keriStr_raw h.1.1, keriSer_raw x _ h.1.2]
    exact ih _ h.2 (jsonText_getLast _ _).2

/-- the first seal breaks the text -/
theorem keriSer_seq_seals (s : Seal) (ss : List Seal) (out : Bytes) :
    ∃ t, keriSer (.seq ((s :: ss).map Seal.sval)) out = out ++ 91 :: 44 :: t := by
  rw [keriSer, List.map_cons, keriSeq, if_pos (getLast_snoc _ _)]
  have hs : ∃ t, keriSer s.sval (out ++ [91]) = (out ++ [91, 44]) ++ t := by
    have gen : ∀ (k : Bytes) (x : SVal) (fs : List (Bytes × SVal)), k.head? ≠ some 45 →
        ∃ t, keriStruct ((k, x) :: fs) (out ++ [91]) = (out ++ [91, 44]) ++ t := by
      intro k x fs hk
      rw [keriStruct, if_neg hk]
      dsimp only
      have hcond : (out ++ [91]).getLast? ≠ some 123 ∧ out ++ [91] ≠ [] := ⟨by rw [getLast_snoc]; decide, by simp⟩
      simp only [if_pos hcond]
      have h0 : ∃ t, out ++ [91] ++ [44, 123] = (out ++ [91, 44]) ++ t := ⟨[123], by simp⟩
      generalize out ++ [91] ++ [44, 123] = o1 at h0
      have h2 : ∃ t, (if k = [] then o1 else keriStr k o1) = o1 ++ t := by
        split
        · exact ⟨[], by simp⟩
        · exact keriStr_grows k _
      generalize (if k = [] then o1 else keriStr k o1) = o2 at h2
      have h3 := keriSer_grows x o2
      generalize keriSer x o2 = o3 at h3
      have h4 : ∃ t, (if o3.getLast? = some 125 then o3 else o3 ++ [125]) = o3 ++ t := by
        split
        · exact ⟨[], by simp⟩
        · exact ⟨_, rfl⟩
      exact grows_trans (grows_trans (grows_trans (grows_trans h0 h2) h3) h4) (keriStruct_grows fs _)
    cases s <;> rw [Seal.sval, keriSer] <;> exact gen _ _ _ (by decide)
  obtain ⟨t, ht⟩ := grows_trans (grows_trans hs (keriSeq_grows (ss.map Seal.sval) _)) ⟨[93], rfl⟩
  exact ⟨t, by rw [ht]; simp⟩

/-- the text of an event with seals -/
theorem keriSer_seals (m : EventMessage) (hc : ∀ c ∈ m.event.content.data.traits, PlainTrait c)
    (hu : m.event.content.data.utf8 = true) (hs : m.event.content.data.seals ≠ []) :
    ∃ pre t, keriSer m.sval [] = 123 :: (jsonFields ((b!"v", .str m.info.toStr) :: pre) ++ 44 :: (jsonStr b!"a" ++ 58 :: 91 :: 44 :: t)) ∧
      SVal.FitsF 127 ((b!"v", .str m.info.toStr) :: pre) ∧ b!"v" ∉ pre.map Prod.fst ∧ (keriSer m.sval []).getLast? = some 125 := by
  obtain ⟨pre, post, h1, h2, h3, h4, h5⟩ := sval_split m hc hu
  obtain ⟨s, ss, hss⟩ := List.exists_cons_of_ne_nil hs
  have hr := rawInfo m pre h2
  have hhead : keriMap ((b!"v", .str m.info.toStr) :: pre) [123] = 123 :: jsonFields ((b!"v", .str m.info.toStr) :: pre) := by
    have := keriSer_raw (.map ((b!"v", .str m.info.toStr) :: pre)) [] (by rw [SVal.raw]; exact hr)
    rw [keriSer, jsonText, List.nil_append, List.nil_append, List.append_cancel_right_eq] at this
    exact this
  have hlast : (123 :: jsonFields ((b!"v", .str m.info.toStr) :: pre)).getLast? ≠ some 123 := by
    rw [← hhead, keriMap, if_pos (show ([123] : Bytes).getLast? = some 123 from rfl)]
    rw [SVal.rawF, Bool.and_eq_true, Bool.and_eq_true] at hr
    rw [keriStr_raw hr.1.1, keriSer_raw _ _ hr.1.2]
    exact keriMap_last pre _ h2 (jsonText_getLast _ _).2
  have hser : ∃ t, keriMap ((b!"a", .seq (m.event.content.data.seals.map Seal.sval)) :: post)
      (123 :: jsonFields ((b!"v", .str m.info.toStr) :: pre)) =
      (123 :: jsonFields ((b!"v", .str m.info.toStr) :: pre)) ++ 44 :: (jsonStr b!"a" ++ 58 :: 91 :: 44 :: t) := by
    rw [keriMap, if_neg hlast, keriStr_raw (by decide), hss]
    obtain ⟨t, ht⟩ := keriSer_seq_seals s ss (123 :: jsonFields ((b!"v", .str m.info.toStr) :: pre) ++ [44] ++ jsonStr b!"a" ++ [58])
    obtain ⟨u, hu⟩ := keriMap_grows post (123 :: jsonFields ((b!"v", .str m.info.toStr) :: pre) ++ [44] ++ jsonStr b!"a" ++ [58] ++ 91 :: 44 :: t)
    rw [ht, hu]
    exact ⟨t ++ u, by simp⟩
  obtain ⟨t, ht⟩ := hser
  have hall : keriSer m.sval [] = keriMap ((b!"a", .seq (m.event.content.data.seals.map Seal.sval)) :: post)
      (123 :: jsonFields ((b!"v", .str m.info.toStr) :: pre)) ++ [125] := by
    rw [h1, keriSer, List.nil_append, keriMap_append, hhead]
  refine ⟨pre, t ++ [125], ?_, ?_, h5, by rw [hall]; exact getLast_snoc _ _⟩
  · rw [hall, ht]; simp
  · simp only [SVal.FitsF, SVal.Fits]
    exact ⟨by decide, SerInfo.toStr_utf8 _, h4⟩

/-! ## The broken text is rejected -/

theorem jsonValue_comma (n d : Nat) (t : Bytes) : jsonValue n d (91 :: 44 :: t) = none := by
  cases n with
  | zero => rw [jsonValue]
  | succ n =>
    rw [jsonValue, skipWs_cons _ _ (by decide)]
    dsimp only
    rw [if_neg (by decide), if_neg (by decide), if_neg (by decide), if_neg (by decide), if_pos rfl]
    split
    · rfl
    · cases n with
      | zero => rw [jsonElements]; rfl
      | succ n =>
        rw [jsonElements, skipWs_cons _ _ (by decide)]
        dsimp only
        rw [if_neg (by decide)]
        cases n with
        | zero => rw [jsonValue]; rfl
        | succ n =>
          rw [jsonValue, skipWs_cons _ _ (by decide)]
          dsimp only
          rw [if_neg (by decide), if_neg (by decide), if_neg (by decide), if_neg (by decide), if_neg (by decide), if_neg (by decide), if_neg (by decide)]
          have : unsignedNum (44 :: t) = none := by simp [unsignedNum, digits1]
          rw [this]
          rfl

theorem jsonMembersTail_broken : ∀ (fs : List (Bytes × SVal)) (d : Nat) (k bad : Bytes) (n : Nat), SVal.FitsF d fs →
    utf8Valid k = true → (∀ n d, jsonValue n d bad = none) → 2 * (jsonFieldsTail fs).length + 3 ≤ n →
    jsonMembersTail n d (jsonFieldsTail fs ++ 44 :: (jsonStr k ++ 58 :: bad)) = (SVal.toJFields fs, none)
  | [], d, k, bad, n, _, hk, hb, hn => by
    obtain ⟨n, rfl⟩ : ∃ k, n = k + 1 := ⟨n - 1, by omega⟩
    unfold jsonMembersTail
    simp only [jsonFieldsTail, List.nil_append, jsonStr, List.append_assoc, List.cons_append]
    rw [skipWs_cons _ _ (by decide)]
    dsimp only
    rw [if_neg (by decide), if_pos rfl]
    cases n with
    | zero => rw [jsonMember]; rfl
    | succ n =>
      unfold jsonMember
      rw [skipWs_cons _ _ (by decide)]
      dsimp only
      rw [if_pos rfl, jsonString_written k _ hk]
      dsimp only
      rw [skipWs_cons _ _ (by decide)]
      dsimp only
      rw [if_pos rfl, hb]
      rfl
  | (k', x) :: fs, d, k, bad, n, hf, hk, hb, hn => by
    obtain ⟨n, rfl⟩ : ∃ k, n = k + 1 := ⟨n - 1, by omega⟩
    unfold SVal.FitsF at hf
    unfold jsonMembersTail
    have hk2 : 2 ≤ (jsonStr k').length := by simp [jsonStr]
    simp only [jsonFieldsTail, List.length_append, List.length_cons, List.length_nil] at hn
    obtain ⟨n, rfl⟩ : ∃ k, n = k + 1 := ⟨n - 1, by omega⟩
    have ih := jsonMembersTail_broken fs d k bad n hf.2.2 hk hb (by omega)
    generalize 44 :: (jsonStr k ++ 58 :: bad) = tl at ih
    simp only [jsonFieldsTail, jsonStr, List.append_assoc, List.cons_append, List.nil_append]
    rw [skipWs_cons _ _ (by decide)]
    dsimp only
    rw [if_neg (by decide), if_pos rfl]
    unfold jsonMember
    rw [skipWs_cons _ _ (by decide)]
    dsimp only
    rw [if_pos rfl, jsonString_written k' _ hf.1]
    dsimp only
    rw [skipWs_cons _ _ (by decide)]
    dsimp only
    rw [if_pos rfl, jsonValue_written x d _ n hf.2.1 (by omega)]
    dsimp only
    rw [ih]
    rfl

theorem jsonTop_broken (k' : Bytes) (x : SVal) (fs : List (Bytes × SVal)) (k bad : Bytes) (hf : SVal.FitsF 127 ((k', x) :: fs))
    (hk : utf8Valid k = true) (hb : ∀ n d, jsonValue n d bad = none) :
    jsonTop (123 :: (jsonFields ((k', x) :: fs) ++ 44 :: (jsonStr k ++ 58 :: bad))) = (SVal.toJFields ((k', x) :: fs), none) := by
  unfold jsonTop
  rw [skipWs_cons _ _ (by decide)]
  dsimp only
  rw [if_pos rfl]
  have h2 : 2 ≤ (jsonStr k').length := by simp [jsonStr]
  generalize hn : 4 * (jsonFields ((k', x) :: fs) ++ 44 :: (jsonStr k ++ 58 :: bad)).length + 4 = n
  have hlen : 2 * (jsonFieldsTail fs).length + 2 * (jsonText x).length + 8 ≤ n := by
    rw [← hn]
    simp only [jsonFields, List.length_append, List.length_cons, List.length_nil]
    omega
  unfold SVal.FitsF at hf
  obtain ⟨n, rfl⟩ : ∃ k, n = k + 1 := ⟨n - 1, by omega⟩
  obtain ⟨n, rfl⟩ : ∃ k, n = k + 1 := ⟨n - 1, by omega⟩
  have ih := jsonMembersTail_broken fs 127 k bad n hf.2.2 hk hb (by omega)
  generalize 44 :: (jsonStr k ++ 58 :: bad) = tl at ih
  unfold jsonMembers
  simp only [jsonFields, jsonStr, List.append_assoc, List.cons_append, List.nil_append]
  rw [skipWs_cons _ _ (by decide)]
  dsimp only
  rw [if_neg (by decide)]
  unfold jsonMember
  rw [skipWs_cons _ _ (by decide)]
  dsimp only
  rw [if_pos rfl, jsonString_written k' _ hf.1]
  dsimp only
  rw [skipWs_cons _ _ (by decide)]
  dsimp only
  rw [if_pos rfl, jsonValue_written x 127 _ n hf.2.1 (by omega)]
  dsimp only
  rw [ih]
  rfl

/-- an exported event with seals is no message -/
theorem signedMessageP_broken (bin : Binary) (hb : bin.RejectsJson) (m : EventMessage) (hc : ∀ c ∈ m.event.content.data.traits, PlainTrait c)
    (hr : m.Representable) (hs : m.event.content.data.seals ≠ []) (rest : Bytes) :
    signedMessageP bin (keriSer m.sval [] ++ rest) = .error := by
  obtain ⟨pre, t, h1, h2, h3, _⟩ := keriSer_seals m hc (EventMessage.rt_of hr).2 hs
  have hi : SerInfo.fromStr m.info.toStr = .ok m.info := (C41_exact _ hr.1 hr.2.1).2 hr.2.2.1
  have htop : jsonTop (keriSer m.sval [] ++ rest) = (SVal.toJFields ((b!"v", .str m.info.toStr) :: pre), none) := by
    rw [h1]
    have := jsonTop_broken b!"v" (.str m.info.toStr) pre b!"a" (91 :: 44 :: (t ++ rest)) h2 (by decide) (fun n d => jsonValue_comma n d _)
    simpa only [List.cons_append, List.append_assoc] using this
  have hj : ∀ {α : Type} (inner : List (Bytes × JVal) → Res α), jsonMessage inner (keriSer m.sval [] ++ rest) = .error := by
    intro α inner
    unfold jsonMessage
    rw [htop]
    unfold desMessage
    simp only [SVal.toJFields]
    rw [ownField_here _ _ _ _ (by rw [toJFields_keys]; exact h3), SVal.toJ, desText_ok, hi]
    rfl
  have hx : ∃ u, keriSer m.sval [] ++ rest = 123 :: u := ⟨_, by rw [h1]; rfl⟩
  unfold signedMessageP altP keyEventMessageP receiptMessageP altP
  rw [hj, hj, (hb _ (Or.inr hx)).1, (hb _ (Or.inr hx)).2]
  rfl

/-! ## C45 -/

theorem traits_of_exportable {e : SignedEvent} (h : e.Exportable) : ∀ c ∈ e.msg.event.content.data.traits, PlainTrait c := h.2.2

theorem sigsToCesr_start {l : List AttachedSignaturePrefix} {t : Bytes} (h : sigsToCesr l = .ok t) : t.head? = some 45 := by
  unfold sigsToCesr adjustWithNum at h
  simp only [Res.ok_bind, Res.ok.injEq] at h
  rw [← h]
  rfl

/-- the exported text of an event -/
theorem serialize_text (e : SignedEvent) (h : e.Exportable) :
    ∃ c, sigsToCesr e.sigs = .ok c ∧ e.serialize = .ok (keriSer e.msg.sval [] ++ c) := by
  obtain ⟨c, hc, _⟩ := C40_attachment_roundtrip (.attachedSignatures e.sigs) h.2.1
  have hc' : sigsToCesr e.sigs = .ok c := hc
  refine ⟨c, hc', ?_⟩
  unfold SignedEvent.serialize
  rw [hc', Res.ok_bind]
  have hlast : (keriSer e.msg.sval []).getLast? = some 125 := by
    unfold EventMessage.sval
    rw [keriSer]
    exact getLast_snoc _ _
  rw [keriStruct, if_neg (by decide)]
  simp only [ne_eq, not_true_eq_false, and_false, if_false, if_true, hlast]
  rw [keriStruct, if_pos (show ([45] : Bytes).head? = some 45 from rfl), keriSer, keriStr, if_pos (sigsToCesr_start hc'), keriStruct]

theorem serialize_start (e : SignedEvent) (h : e.Exportable) (b : Bytes) (hb : e.serialize = .ok b) : ∃ r, b = 123 :: 34 :: r := by
  obtain ⟨c, _, h2⟩ := serialize_text e h
  rw [h2] at hb
  cases hb
  by_cases hs : e.msg.event.content.data.seals = []
  · rw [keriSer_noSeals _ h.2.2 (EventMessage.rt_of h.1).2 hs]
    obtain ⟨r, hr⟩ := e.msg.text_start
    exact ⟨r ++ c, by rw [hr]; rfl⟩
  · obtain ⟨pre, t, h1, _⟩ := keriSer_seals _ h.2.2 (EventMessage.rt_of h.1).2 hs
    rw [h1]
    simp only [jsonFields, jsonStr, List.cons_append, List.nil_append, List.append_assoc]
    exact ⟨_, rfl⟩

theorem kerlBytes_cons (e : SignedEvent) (l : List SignedEvent) (b r : Bytes) (h : e.serialize = .ok b) (hr : kerlBytes l = .ok r) :
    kerlBytes (e :: l) = .ok (b ++ r) := by
  rw [kerlBytes, h]
  simp only [hr, Res.ok_bind]

theorem kerl_parse (bin : Binary) (hb : bin.RejectsJson) (l : List SignedEvent) (h : ∀ e ∈ l, e.Exportable ∧ e.delegatorSeal = none) :
    ∃ b rest ds, kerlBytes l = .ok b ∧ StreamEnd b ∧ kerlBytes (l.dropWhile SignedEvent.noSeals) = .ok rest ∧
      (∀ n, b.length + 1 ≤ n → many0P (signedMessageP bin) n b = .ok rest ds) ∧
      ds.map SignedEventData.toMessage = (l.takeWhile SignedEvent.noSeals).map reimported := by
  induction l with
  | nil =>
    refine ⟨[], [], [], rfl, Or.inl rfl, rfl, fun n hn => ?_, rfl⟩
    obtain ⟨n, rfl⟩ : ∃ m, n = m + 1 := ⟨n - 1, by omega⟩
    rw [many0P, signedMessageP_nil bin hb]
  | cons e l ih =>
    obtain ⟨b, rest, ds, g1, g2, g3, g4, g5⟩ := ih fun x hx => h x (by simp [hx])
    obtain ⟨he, hds⟩ := h e (by simp)
    obtain ⟨c, hc, hser⟩ := serialize_text e he
    obtain ⟨r, hr⟩ := serialize_start e he _ hser
    have hk := kerlBytes_cons e l _ b hser g1
    by_cases hs : e.noSeals = true
    · have hs' : e.msg.event.content.data.seals = [] := by simpa [SignedEvent.noSeals] using hs
      rw [List.takeWhile_cons, if_pos hs, List.dropWhile_cons, if_pos hs]
      have htext := keriSer_noSeals _ he.2.2 (EventMessage.rt_of he.1).2 hs'
      obtain ⟨t, ht, hatt⟩ := attachments_roundtrip [.attachedSignatures e.sigs] (by intro a ha; rw [List.mem_singleton] at ha; rw [ha]; exact he.2.1)
      have htc : t = c := by
        simp only [Attachment.toCesrList, Attachment.toCesr, hc, Res.ok_bind, List.append_nil, Res.ok.injEq] at ht
        exact ht.symm
      have hp : signedMessageP bin (keriSer e.msg.sval [] ++ c ++ b) = .ok b ⟨.keyEvent e.msg, [.attachedSignatures e.sigs]⟩ := by
        rw [htext]
        unfold signedMessageP altP keyEventMessageP altP
        rw [List.append_assoc, C44_roundtrip e.msg (c ++ b) he.1]
        simp only [IRes.andThen_ok]
        rw [← htc, hatt b g2 _ (Nat.le_refl _), IRes.andThen_ok]
      refine ⟨_, rest, ⟨.keyEvent e.msg, [.attachedSignatures e.sigs]⟩ :: ds, hk, Or.inr ⟨r ++ b, by rw [hr]; rfl⟩, g3, fun n hn => ?_, ?_⟩
      · obtain ⟨n, rfl⟩ : ∃ m, n = m + 1 := ⟨n - 1, by omega⟩
        rw [hr] at hn
        simp only [List.length_append, List.length_cons] at hn
        rw [many0P, hp]
        simp only
        rw [hr, if_neg (by simp only [List.length_append, List.length_cons]; omega), g4 n (by omega), IRes.andThen_ok]
      · rw [List.map_cons, List.map_cons, g5]
        congr 1
        obtain ⟨m, sigs, sl⟩ := e
        cases hds
        obtain ⟨info, dg, p, sn, dat⟩ := m
        cases dat <;> rfl
    · have hs' : e.msg.event.content.data.seals ≠ [] := by simpa [SignedEvent.noSeals] using hs
      rw [List.takeWhile_cons, if_neg hs, List.dropWhile_cons, if_neg hs]
      refine ⟨_, _, [], hk, Or.inr ⟨r ++ b, by rw [hr]; rfl⟩, hk, fun n hn => ?_, rfl⟩
      obtain ⟨n, rfl⟩ : ∃ m, n = m + 1 := ⟨n - 1, by omega⟩
      rw [many0P, List.append_assoc, signedMessageP_broken bin hb _ he.2.2 he.1 hs']

theorem rt_of_exportable {e : SignedEvent} (h : e.Exportable) : e.rt = true := by
  unfold SignedEvent.rt
  rw [(EventMessage.rt_of h.1).1, Bool.true_and, List.all_eq_true]
  intro p hp
  simp only [AttachedSignaturePrefix.rt, decide_eq_true_eq]
  exact C35_attached_roundtrip p (h.2.1.2 p hp).1 (h.2.1.2 p hp).2

theorem takeWhile_all {α : Type} {p : α → Bool} {l : List α} : l.takeWhile p = l ↔ ∀ x ∈ l, p x = true := by
  induction l with
  | nil => simp
  | cons a l ih =>
    rw [List.takeWhile_cons]
    by_cases h : p a = true
    · rw [if_pos h]; simp [h, ih]
    · rw [if_neg h]; simp [h]

theorem dropWhile_none {α : Type} {p : α → Bool} {l : List α} : l.dropWhile p = [] ↔ ∀ x ∈ l, p x = true := by
  induction l with
  | nil => simp
  | cons a l ih =>
    rw [List.dropWhile_cons]
    by_cases h : p a = true
    · rw [if_pos h]; simp [h, ih]
    · rw [if_neg h]; simp [h]

/-- C45, exactly: the stream parser reads the export of a log of exportable events up to the first event that carries a seal and stops
there; of the events read it makes the logged events, except that delegated ones are refused for want of their delegator's seal. -/
theorem C45_exported (env : Env) (as : List Action) (id : IdentifierPrefix) (hid : id.toStr ≠ []) (bin : Binary) (hb : bin.RejectsJson)
    (hne : (after env as).kel id ≠ []) (h : ∀ e ∈ (after env as).kel id, e.Exportable) :
    ∃ b rest ds, (getKerl sled id (after env as)).1 = .ok (some b) ∧ signedEventStreamP bin b = .ok rest ds ∧
      ds.map SignedEventData.toMessage = (((after env as).kel id).takeWhile SignedEvent.noSeals).map reimported ∧
      (rest = [] ↔ ∀ e ∈ (after env as).kel id, e.data.seals = []) := by
  obtain ⟨s, hl⟩ := after_log env as id hid
  have hk : (after env as).abs.tables .kels id.toStr = some ((after env as).kel id) := vec_of_kel hne
  generalize (after env as).kel id = l at *
  obtain ⟨b, rest, ds, g1, g2, g3, g4, g5⟩ := kerl_parse bin hb l fun e he => ⟨h e he, (hl.noSeal e he).1⟩
  refine ⟨b, rest, ds, ?_, g4 _ (Nat.le_refl _), g5, ?_⟩
  · rw [(getKerl_sim sled_sim id _ (after_inv env as)).1, getKerl_run, hk]
    dsimp only
    rw [if_pos (List.all_eq_true.2 fun e he => rt_of_exportable (h e he)), g1]
  · have hd : (∀ e ∈ l, e.data.seals = []) ↔ l.dropWhile SignedEvent.noSeals = [] := by
      rw [dropWhile_none]
      simp [SignedEvent.noSeals]
    rw [hd]
    cases hx : l.dropWhile SignedEvent.noSeals with
    | nil => rw [hx] at g3; cases g3; simp
    | cons e r =>
      have he : e ∈ l := (List.dropWhile_sublist _).subset (by rw [hx]; exact List.mem_cons_self)
      obtain ⟨c, _, h2⟩ := serialize_text e (h e he)
      obtain ⟨u, hu⟩ := serialize_start e (h e he) _ h2
      rw [hx, kerlBytes, h2] at g3
      simp only at g3
      obtain ⟨w, _, g3⟩ := Res.bind_eq_ok.1 g3
      cases g3
      rw [hu]
      simp

/-- C45: an exported log without seals and without delegated events parses into exactly the logged events, nothing left over. -/
theorem C45_parseable (env : Env) (as : List Action) (id : IdentifierPrefix) (hid : id.toStr ≠ []) (bin : Binary) (hb : bin.RejectsJson)
    (hne : (after env as).kel id ≠ [])
    (h : ∀ e ∈ (after env as).kel id, e.Exportable ∧ e.data.seals = [] ∧ e.data.isDelegated = false) :
    ∃ b ds, (getKerl sled id (after env as)).1 = .ok (some b) ∧ signedEventStreamP bin b = .ok [] ds ∧
      ds.map SignedEventData.toMessage = ((after env as).kel id).map fun e => .ok (.event e) := by
  obtain ⟨b, rest, ds, h1, h2, h3, h4⟩ := C45_exported env as id hid bin hb hne fun e he => (h e he).1
  have hr : rest = [] := h4.2 fun e he => (h e he).2.1
  refine ⟨b, ds, h1, hr ▸ h2, ?_⟩
  rw [h3]
  generalize (after env as).kel id = l at *
  have ht : l.takeWhile SignedEvent.noSeals = l := by
    rw [takeWhile_all]
    exact fun e he => by rw [SignedEvent.noSeals, (h e he).2.1]; rfl
  rw [ht]
  refine List.map_congr_left fun e he => ?_
  rw [reimported, (h e he).2.2]
  rfl

/-- C45 fails for every log with a seal: fewer events come back than were exported, and part of the export is left over. -/
theorem C45_fails_seals (env : Env) (as : List Action) (id : IdentifierPrefix) (hid : id.toStr ≠ []) (bin : Binary) (hb : bin.RejectsJson)
    (h : ∀ e ∈ (after env as).kel id, e.Exportable) (e : SignedEvent) (he : e ∈ (after env as).kel id) (hs : e.data.seals ≠ []) :
    ∃ b rest ds, (getKerl sled id (after env as)).1 = .ok (some b) ∧ signedEventStreamP bin b = .ok rest ds ∧ rest ≠ [] ∧
      ds.length < ((after env as).kel id).length := by
  obtain ⟨b, rest, ds, h1, h2, h3, h4⟩ := C45_exported env as id hid bin hb (fun h0 => by rw [h0] at he; cases he) h
  refine ⟨b, rest, ds, h1, h2, fun hr => hs (h4.1 hr e he), ?_⟩
  generalize (after env as).kel id = l at *
  have hlen := congrArg List.length h3
  rw [List.length_map, List.length_map] at hlen
  rw [hlen]
  have hle : (l.takeWhile SignedEvent.noSeals).length ≤ l.length := (List.takeWhile_sublist _).length_le
  rcases Nat.lt_or_eq_of_le hle with hlt | heq
  · exact hlt
  · have := (List.takeWhile_sublist (l := l) SignedEvent.noSeals).eq_of_length heq
    rw [takeWhile_all] at this
    have := this e he
    simp only [SignedEvent.noSeals, List.isEmpty_iff] at this
    exact absurd this hs

/-- a binary reader that accepts nothing -/
def Ex.noBin : Binary := ⟨fun _ => .error, fun _ => .error⟩

/-- Hypotheses met: the export of an inception and a rotation with two keys parses into these two events; with the interaction that
carries a seal the parser stops before it; the export of a delegated inception is refused. -/
example : ((after Ex.env [.submit (.event Ex.icp), .submit (.event Ex.rot)]).kel Ex.id) = [Ex.icp, Ex.rot] ∧
    ((after Ex.env Ex.hist).kel Ex.id) = [Ex.icp, Ex.rot, Ex.ixn] ∧ Ex.ixn.data.seals ≠ [] := by decide +kernel

private instance (p : BasicPrefix) : Decidable p.Sized := by unfold BasicPrefix.Sized; infer_instance
private instance (p : SelfSigningPrefix) : Decidable p.Sized := by unfold SelfSigningPrefix.Sized; infer_instance
private instance (p : SelfAddressingPrefix) : Decidable p.Sized := by unfold SelfAddressingPrefix.Sized; infer_instance
private instance (p : BasicPrefix) : Decidable p.Representable := by
  unfold BasicPrefix.Representable BasicPrefix.IsSecp; infer_instance
private instance (p : IdentifierPrefix) : Decidable p.Representable := by
  unfold IdentifierPrefix.Representable
  cases p <;> simp only [IdentifierPrefix.Sized, IdentifierPrefix.IsSecp] <;> first | infer_instance | (unfold BasicPrefix.IsSecp; infer_instance)
private instance (p : AttachedSignaturePrefix) : Decidable (SigOk p) := by unfold SigOk; infer_instance
private instance (l : List AttachedSignaturePrefix) : Decidable (SigsOk l) := by unfold SigsOk; infer_instance
private instance (s : Seal) : Decidable s.Representable := by cases s <;> simp only [Seal.Representable] <;> infer_instance

private theorem exp_of (e : SignedEvent) (h : e.msg.info.major ≤ 15 ∧ e.msg.info.minor ≤ 15 ∧ e.msg.info.size ≤ 65535 ∧ e.msg.event.digest.Sized ∧
    e.msg.event.content.prefix.Representable ∧ e.msg.event.content.sn ≤ u64max ∧ SigsOk e.sigs) (hd : e.data.Representable)
    (hc : e.data.traits = []) : e.Exportable :=
  ⟨⟨h.1, h.2.1, h.2.2.1, h.2.2.2.1, h.2.2.2.2.1, h.2.2.2.2.2.1, hd⟩, h.2.2.2.2.2.2, by rw [hc]; simp⟩

private theorem ex_kc (ks ns : List UInt8) (n : Nat) (h : n ≤ u64max)
    (hn : (KeyConfig.nxtCommitment Ex.env (.simple n) (ns.map Ex.key) .blake3_256).Sized) : (Ex.kc ks ns (.simple n)).Representable := by
  refine ⟨h, fun k hk => ?_, fun d hd => ?_⟩
  · obtain ⟨i, _, rfl⟩ := List.mem_map.1 hk
    simp [Ex.key, BasicPrefix.Representable, BasicPrefix.Sized, BasicPrefix.IsSecp, Basic.rawBytes]
  · cases hd; exact hn

theorem ex_exportable : Ex.icp.Exportable ∧ Ex.rot.Exportable ∧ Ex.ixn.Exportable := by
  have i1 : Ex.icp.data = .icp ⟨Ex.kc [1, 2, 3] [4, 5, 6] (.simple 2), 1, [Ex.key 30, Ex.key 31], [], []⟩ := by decide +kernel
  have i2 : Ex.rot.data = .rot ⟨Ex.icp.dig, Ex.kc [4, 5, 6] [7, 8, 9] (.simple 2), 1, [Ex.key 30], [Ex.key 32], []⟩ := by decide +kernel
  have i3 : Ex.ixn.data = .ixn ⟨Ex.rot.dig, [.digest ⟨.blake3_256, Ex.dig b!"data"⟩]⟩ := by decide +kernel
  refine ⟨exp_of _ (by decide +kernel) ?_ (by rw [i1]; rfl), exp_of _ (by decide +kernel) ?_ (by rw [i2]; rfl),
    exp_of _ (by decide +kernel) ?_ (by rw [i3]; rfl)⟩
  · rw [i1]
    exact ⟨ex_kc _ _ _ (by decide) (by decide +kernel), by decide, by decide +kernel, by simp, by simp⟩
  · rw [i2]
    exact ⟨by decide +kernel, ex_kc _ _ _ (by decide) (by decide +kernel), by decide, by decide +kernel, by decide +kernel, by simp⟩
  · rw [i3]
    exact ⟨by decide +kernel, by decide +kernel⟩

/-- `C45_parseable` applied: the export of the log of two events parses into both of them -/
example : ∃ b ds, (getKerl sled Ex.id (after Ex.env [.submit (.event Ex.icp), .submit (.event Ex.rot)])).1 = .ok (some b) ∧
    signedEventStreamP Ex.noBin b = .ok [] ds ∧ ds.map SignedEventData.toMessage = [.ok (.event Ex.icp), .ok (.event Ex.rot)] := by
  have hk : ((after Ex.env [.submit (.event Ex.icp), .submit (.event Ex.rot)]).kel Ex.id) = [Ex.icp, Ex.rot] := by decide +kernel
  have := C45_parseable Ex.env [.submit (.event Ex.icp), .submit (.event Ex.rot)] Ex.id (by decide +kernel) Ex.noBin (fun _ _ => ⟨rfl, rfl⟩)
    (by rw [hk]; simp) (by
      rw [hk]
      simp only [List.mem_cons, List.not_mem_nil, or_false, forall_eq_or_imp, forall_eq]
      exact ⟨⟨ex_exportable.1, by decide +kernel, by decide +kernel⟩, ex_exportable.2.1, by decide +kernel, by decide +kernel⟩)
  rw [hk] at this
  exact this

theorem ex_dip_exportable : Ex.dip.stored.Exportable := by
  have i1 : Ex.dip.stored.data = .dip ⟨⟨Ex.kc [11, 12] [13, 14] (.simple 2), 0, [], [], []⟩, Ex.id⟩ := by decide +kernel
  refine exp_of _ (by decide +kernel) ?_ (by rw [i1]; rfl)
  rw [i1]
  exact ⟨⟨ex_kc _ _ _ (by decide) (by decide +kernel), by decide, by simp, by simp, by simp⟩, by decide +kernel⟩

/-- C45 fails concretely: with a third, sealed event the parser returns two events and leaves text over; and the export of a delegated
inception, which parses, is refused. -/
theorem C45_fails :
    (∃ b rest ds, (getKerl sled Ex.id (after Ex.env Ex.hist)).1 = .ok (some b) ∧ signedEventStreamP Ex.noBin b = .ok rest ds ∧ rest ≠ [] ∧
      ds.length < 3) ∧
    (∃ b ds, (getKerl sled Ex.dip.pre (after Ex.env (Ex.delHist Ex.dipSeal ++ [.submit (.event Ex.dip)]))).1 = .ok (some b) ∧
      signedEventStreamP Ex.noBin b = .ok [] ds ∧ ds.map SignedEventData.toMessage = [.err (.semantic "Missing attachment")]) := by
  refine ⟨?_, ?_⟩
  · have hk : ((after Ex.env Ex.hist).kel Ex.id) = [Ex.icp, Ex.rot, Ex.ixn] := by decide +kernel
    have := C45_fails_seals Ex.env Ex.hist Ex.id (by decide +kernel) Ex.noBin (fun _ _ => ⟨rfl, rfl⟩) (by
      rw [hk]
      simp only [List.mem_cons, List.not_mem_nil, or_false, forall_eq_or_imp, forall_eq]
      exact ex_exportable) Ex.ixn (by rw [hk]; simp) (by decide +kernel)
    rw [hk] at this
    exact this
  · have hk : (after Ex.env (Ex.delHist Ex.dipSeal ++ [.submit (.event Ex.dip)])).kel Ex.dip.pre = [Ex.dip.stored] := by decide +kernel
    have i1 : Ex.dip.stored.data = .dip ⟨⟨Ex.kc [11, 12] [13, 14] (.simple 2), 0, [], [], []⟩, Ex.id⟩ := by decide +kernel
    have he := ex_dip_exportable
    obtain ⟨b, rest, ds, h1, h2, h3, h4⟩ := C45_exported Ex.env (Ex.delHist Ex.dipSeal ++ [.submit (.event Ex.dip)]) Ex.dip.pre
      (by decide +kernel) Ex.noBin (fun _ _ => ⟨rfl, rfl⟩) (by rw [hk]; simp) (by rw [hk]; simpa using he)
    rw [hk] at h3 h4
    have hr : rest = [] := h4.2 (by simp only [List.mem_singleton, forall_eq]; rw [i1]; rfl)
    refine ⟨b, ds, h1, hr ▸ h2, ?_⟩
    rw [h3]
    have hn : Ex.dip.stored.noSeals = true := by rw [SignedEvent.noSeals, i1]; rfl
    rw [List.takeWhile_cons, if_pos hn, List.takeWhile_nil]
    simp only [List.map_cons, List.map_nil, reimported, i1]
    rfl

end Keriox
