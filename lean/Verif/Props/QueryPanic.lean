import Verif.Props.QueryReader
import Verif.Props.Panic
/-!
# C78, reading: when the readers of replies and queries crash (feature `query`)

Specification: `SafeMembers` of C63 (version strings of at least sixteen ASCII characters, texts in the place of prefixes empty or of at
least four), and for replies and queries also: what follows `/ksn/` in a route is an identifier, and the version string of the notice
is as safe as that of the message.
-/
namespace Keriox

/-- texts that cannot crash the readers of replies and queries -/
def SafeQuery (fs : List (Bytes × JVal)) : Prop :=
  SafeMembers fs ∧
  (∀ x, (b!"r", JVal.str (b!"/ksn/" ++ x)) ∈ fs → ∃ id, IdentifierPrefix.fromStr x = .ok id) ∧
  (∀ gs v, (b!"a", JVal.obj gs) ∈ fs → (b!"v", JVal.str v) ∈ gs → Ascii v ∧ 16 ≤ v.length)

/-! ## Proof -/

theorem tried_np_iff {α : Type} {p : JVal → Res α} {v : JVal} : NP (tried p v) ↔ NP (p v) := by
  unfold tried
  cases h : p v with
  | ok a => exact ⟨fun _ => NP.ok _, fun _ => NP.ok _⟩
  | err e => exact ⟨fun _ => NP.err _, fun _ => NP.err _⟩
  | panic => exact ⟨fun h => absurd rfl h, fun h => absurd rfl h⟩

theorem ownWalk_np {rs : List (Bytes × (JVal → Res Unit))} {fs : List (Bytes × JVal)} {seen : List Bytes}
    (h : ∀ e ∈ rs, ∀ v, (e.1, v) ∈ fs → NP (e.2 v)) : NP (ownWalk rs fs seen) := by
  induction fs generalizing seen with
  | nil => exact NP.ok _
  | cons f fs ih =>
    obtain ⟨k, v⟩ := f
    have ih' : ∀ seen, NP (ownWalk rs fs seen) := fun seen => ih fun e he v hv => h e he v (List.mem_cons_of_mem _ hv)
    rw [ownWalk]
    cases hl : rs.lookup k with
    | none => exact ih' _
    | some p =>
      simp only
      split
      · exact NP.err _
      · exact NP.bind (h _ (lookup_mem hl) v List.mem_cons_self) fun _ _ => ih' _

/-- a reader of an own member does not crash, if the walk over the own members does not -/
theorem own_np {α : Type} {p : JVal → Res α} {rs : List (Bytes × (JVal → Res Unit))} {fs : List (Bytes × JVal)}
    (h : ∀ e ∈ rs, ∀ v, (e.1, v) ∈ fs → NP (e.2 v)) {k : Bytes} (hk : (k, tried p) ∈ rs) : NP (optField p k fs) :=
  optField_np fun v hv => tried_np_iff.1 (h _ hk v hv)

theorem desLastEst_np {v : JVal} (h0 : NP (structFields estFields v))
    (h : ∀ fs, structFields estFields v = .ok fs → ∀ e ∈ estFields, ∀ v, (e.1, v) ∈ fs → NP (e.2 v)) : NP (desLastEst v) := by
  unfold desLastEst
  refine NP.bind h0 fun fs hfs => ?_
  have h' := h fs hfs
  exact NP.bind (ownWalk_np h') fun _ _ => NP.bind (own_np h' (by simp [estFields])) fun _ _ => NP.bind (own_np h' (by simp [estFields])) fun _ _ =>
    NP.bind (own_np h' (by simp [estFields])) fun _ _ => NP.bind (own_np h' (by simp [estFields])) fun _ _ =>
    NP.bind (NP.need _) fun _ _ => NP.bind (NP.need _) fun _ _ => NP.bind (NP.need _) fun _ _ => NP.bind (NP.need _) fun _ _ => NP.ok _

theorem desKeyConfigQ_np {fs : List (Bytes × JVal)} (h : ∀ e ∈ configFields, ∀ v, (e.1, v) ∈ fs → NP (e.2 v)) : NP (desKeyConfigQ fs) := by
  unfold desKeyConfigQ desKeyConfig
  exact NP.bind (ownWalk_np h) fun _ _ => NP.bind (own_np h (by simp [configFields, desKeys])) fun _ _ =>
    NP.bind (own_np h (by simp [configFields])) fun _ _ => NP.bind (own_np h (by simp [configFields])) fun _ _ =>
    NP.bind (NP.need _) fun _ _ => NP.bind (NP.need _) fun _ _ => NP.bind (NP.need _) fun _ _ => NP.ok _

theorem mem_others {rs : List (Bytes × (JVal → Res Unit))} {fs : List (Bytes × JVal)} {x : Bytes × JVal} (h : x ∈ others rs fs) : x ∈ fs :=
  (List.mem_filter.1 h).1

theorem desState_np {fs : List (Bytes × JVal)} (h : ∀ e ∈ stateFields, ∀ v, (e.1, v) ∈ fs → NP (e.2 v))
    (h2 : ∀ e ∈ configFields, ∀ v, (e.1, v) ∈ fs → NP (e.2 v)) : NP (desState fs) := by
  unfold desState
  exact NP.bind (ownWalk_np h) fun _ _ => NP.bind (own_np h (by simp [stateFields])) fun _ _ => NP.bind (own_np h (by simp [stateFields])) fun _ _ =>
    NP.bind (own_np h (by simp [stateFields])) fun _ _ => NP.bind (own_np h (by simp [stateFields])) fun _ _ =>
    NP.bind (own_np h (by simp [stateFields])) fun _ _ => NP.bind (own_np h (by simp [stateFields])) fun _ _ =>
    NP.bind (own_np h (by simp [stateFields])) fun _ _ => NP.bind (own_np h (by simp [stateFields])) fun _ _ =>
    NP.bind (own_np h (by simp [stateFields])) fun _ _ =>
    NP.bind (NP.need _) fun _ _ => NP.bind (NP.need _) fun _ _ => NP.bind (NP.need _) fun _ _ => NP.bind (NP.need _) fun _ _ =>
    NP.bind (NP.need _) fun _ _ => NP.bind (NP.need _) fun _ _ =>
    NP.bind (desKeyConfigQ_np fun e he v hv => h2 e he v (mem_others hv)) fun _ _ => NP.ok _

theorem desKsnMembers_np {time : Bytes → Option Timestamp} {fs : List (Bytes × JVal)}
    (h : ∀ e ∈ ksnFields time ++ stateFields ++ configFields, ∀ v, (e.1, v) ∈ fs → NP (e.2 v)) : NP (desKsnMembers time fs) := by
  have h1 : ∀ e ∈ ksnFields time, ∀ v, (e.1, v) ∈ fs → NP (e.2 v) := fun e he => h e (by simp [he])
  unfold desKsnMembers
  exact NP.bind (ownWalk_np h1) fun _ _ => NP.bind (own_np h1 (by simp [ksnFields])) fun _ _ => NP.bind (own_np h1 (by simp [ksnFields])) fun _ _ =>
    NP.bind (own_np h1 (by simp [ksnFields])) fun _ _ => NP.bind (own_np h1 (by simp [ksnFields])) fun _ _ =>
    NP.bind (NP.need _) fun _ _ => NP.bind (NP.need _) fun _ _ => NP.bind (NP.need _) fun _ _ => NP.bind (NP.need _) fun _ _ =>
    NP.bind (desState_np (fun e he v hv => h e (by simp [he]) v (mem_others hv)) fun e he v hv => h e (by simp [he]) v (mem_others hv)) fun _ _ => NP.ok _

theorem desEnvelope_np {α : Type} {time : Bytes → Option Timestamp} {data : List (Bytes × JVal) → Res α} {fs : List (Bytes × JVal)}
    (h1 : ∀ v, (b!"d", v) ∈ fs → NP (desSA v)) (h2 : ∀ e ∈ envelopeFields time, ∀ v, (e.1, v) ∈ fs → NP (e.2 v))
    (h3 : ∀ gs, (∀ x ∈ gs, x ∈ fs) → NP (data gs)) : NP (desEnvelope time data fs) := by
  unfold desEnvelope
  refine NP.bind (ownField_np h1) fun dq hdq => ?_
  have hr : ∀ x ∈ dq.2, x ∈ fs := by rw [ownField_rest hdq]; exact fun x hx => (List.mem_filter.1 hx).1
  have h2' : ∀ e ∈ envelopeFields time, ∀ v, (e.1, v) ∈ dq.2 → NP (e.2 v) := fun e he v hv => h2 e he v (hr _ hv)
  exact NP.bind (NP.need _) fun _ _ => NP.bind (ownWalk_np h2') fun _ _ => NP.bind (own_np h2' (by simp [envelopeFields])) fun _ _ =>
    NP.bind (own_np h2' (by simp [envelopeFields])) fun _ _ => NP.bind (NP.need _) fun _ _ => NP.bind (NP.need _) fun _ _ =>
    NP.bind (h3 _ fun x hx => hr x (mem_others hx)) fun _ _ => NP.ok _

theorem desTime_np (time : Bytes → Option Timestamp) (v : JVal) : NP (desTime time v) := desText_np fun _ _ => NP.ofOption _ _

theorem desOption_np {α : Type} {p : JVal → Res α} {v : JVal} (h : NP (p v)) : NP (desOption p v) := by
  unfold desOption
  split
  · exact NP.ok _
  · exact NP.bind h fun _ _ => NP.ok _

theorem desTagQ_np (v : JVal) : NP (desTagQ v) := by
  have h : ∀ s, NP (tagOfQ s) := by
    intro s
    unfold tagOfQ
    split
    · exact NP.ok _
    · split
      · exact NP.ok _
      · exact tagOf_np s
  unfold desTagQ
  split
  · exact h _
  · exact h _
  · exact NP.err _


theorem route_np {v : JVal} (h : ∀ x, v = .str (b!"/ksn/" ++ x) → ∃ id, IdentifierPrefix.fromStr x = .ok id) : NP (desText Route.fromStr v) := by
  refine desText_np fun s hs => ?_
  subst hs
  unfold Route.fromStr
  split
  · rename_i hp
    obtain ⟨x, rfl⟩ := (ksn_prefix s).1 hp
    obtain ⟨id, hx⟩ := h x rfl
    have hd : (b!"/ksn/" ++ x).drop 5 = x := rfl
    rw [hd, hx]
    exact NP.ok _
  · split
    · exact NP.ok _
    · split
      · exact NP.ok _
      · exact NP.err _

theorem est_safe {v : JVal} (h : v.Safe) : NP (desLastEst v) := by
  have hk : ∀ v : JVal, v.Safe → NP (tried desKeys v) := fun v hv => tried_np (keysSafe v hv)
  refine desLastEst_np (structFields_np ?_ h) fun fs hfs => ?_
  · simp only [estFields, List.forall_mem_cons, List.not_mem_nil, false_imp_iff, implies_true, and_true]
    exact ⟨fun v _ => tried_np (desHex_np v), fun v hv => tried_np (sapSafe v hv), hk, hk⟩
  · have hs := structFields_safe h hfs
    simp only [estFields, List.forall_mem_cons, List.not_mem_nil, false_imp_iff, implies_true, and_true]
    exact ⟨fun v _ => tried_np (desHex_np v), fun v hv => tried_np (sapSafe v (safeF_mem hs hv (by decide))), fun v hv => hk v (safeF_mem hs hv (by decide)),
      fun v hv => hk v (safeF_mem hs hv (by decide))⟩

theorem ksn_safe {time : Bytes → Option Timestamp} {v : JVal} (h : v.Safe)
    (hv : ∀ gs t, v = .obj gs → (b!"v", JVal.str t) ∈ gs → Ascii t ∧ 16 ≤ t.length) : NP (desKsn time v) := by
  unfold desKsn
  split
  · rename_i fs
    have hs : JVal.SafeF fs := by simpa [JVal.Safe] using h
    have hk : ∀ v : JVal, v.Safe → NP (tried desKeys v) := fun v hv => tried_np (keysSafe v hv)
    refine desKsnMembers_np ?_
    simp only [ksnFields, stateFields, configFields, List.cons_append, List.nil_append, List.forall_mem_cons, List.not_mem_nil, false_imp_iff,
      implies_true, and_true]
    refine ⟨fun v hm => tried_np (desText_np fun s hs => ?_), fun v _ => tried_np (desHex_np v), fun v _ => tried_np (desTime_np time v),
      fun v _ => tried_np (desVec_np fun _ _ _ _ => desText_np fun _ _ => NP.ok _), fun v hv => tried_np (idSafe v (safeF_mem hs hv (by decide))),
      fun v _ => tried_np (desHex_np v), fun v hv => tried_np (sapSafe v (safeF_mem hs hv (by decide))),
      fun v hv => tried_np (desOption_np (sapSafe v (safeF_mem hs hv (by decide)))), fun v _ => tried_np (desOption_np (desTagQ_np v)),
      fun v _ => tried_np (desHex_np v), fun v hv => hk v (safeF_mem hs hv (by decide)),
      fun v hv => tried_np (desOption_np (idSafe v (safeF_mem hs hv (by decide)))), fun v hv => tried_np (est_safe (safeF_mem hs hv (by decide))),
      fun v _ => tried_np (desThreshold_np v), fun v hv => hk v (safeF_mem hs hv (by decide)),
      fun v hv => tried_np (desNext_np (safeF_mem hs hv (by decide)))⟩
    subst hs
    obtain ⟨a, b⟩ := hv fs s rfl hm
    exact SerInfo.fromStr_np a b
  · exact NP.err _

theorem args_safe {v : JVal} (h : v.Safe) : NP (desQueryArgs v) := by
  unfold desQueryArgs
  refine NP.bind (structFields_np (by
    simp only [List.forall_mem_cons, List.not_mem_nil, false_imp_iff, implies_true, and_true]
    exact fun v hv => tried_np (idSafe v hv)) h) fun fs hf => ?_
  have hs := structFields_safe h hf
  have hw : ∀ e ∈ [(b!"i", tried desId)], ∀ v, (e.1, v) ∈ fs → NP (e.2 v) := by
    simp only [List.forall_mem_cons, List.not_mem_nil, false_imp_iff, implies_true, and_true]
    exact fun v hv => tried_np (idSafe v (safeF_mem hs hv (by decide)))
  exact NP.bind (ownWalk_np hw) fun _ _ => NP.bind (own_np hw (by simp)) fun _ _ => NP.need _

theorem jsonMessage_np {α : Type} {inner : List (Bytes × JVal) → Res α} {s : Bytes}
    (hv : ∀ t, (b!"v", JVal.str t) ∈ (jsonTop s).1 → Ascii t ∧ 16 ≤ t.length)
    (hi : NP (inner ((jsonTop s).1.filter fun f => f.1 ≠ b!"v"))) : jsonMessage inner s ≠ .panic := by
  have : NP (desMessage inner (jsonTop s)) := by
    unfold desMessage
    refine NP.bind (ownField_np fun v hm => desText_np fun t ht => ?_) fun q hq => NP.bind (NP.ofOption _ _) fun _ _ =>
      NP.bind (NP.need _) fun _ _ => NP.bind ?_ fun _ _ => NP.ok _
    · subst ht
      obtain ⟨a, b⟩ := hv t hm
      exact SerInfo.fromStr_np a b
    · rw [ownField_rest hq]; exact hi
  unfold jsonMessage
  split
  · simp
  · simp
  · rename_i hp; exact absurd hp this

theorem andThen_np {α β : Type} {x : IRes α} {g : Bytes → α → β} (h : x ≠ .panic) : (x.andThen fun r a => .ok r (g r a)) ≠ .panic := by
  cases x <;> simp_all [IRes.andThen]

/-- C78, reading: on safe texts neither reader crashes, whatever else is wrong with them. -/
theorem C78_json (time : Bytes → Option Timestamp) (s : Bytes) (h : SafeQuery (jsonTop s).1) :
    jsonReply time s ≠ .panic ∧ jsonQuery time s ≠ .panic := by
  obtain ⟨⟨h1, h2⟩, h3, h4⟩ := h
  have hm : ∀ {k : Bytes} {v : JVal}, (k, v) ∈ ((jsonTop s).1.filter fun f => f.1 ≠ b!"v") → (k, v) ∈ (jsonTop s).1 := fun h => (List.mem_filter.1 h).1
  have hd : ∀ v, (b!"d", v) ∈ ((jsonTop s).1.filter fun f => f.1 ≠ b!"v") → NP (desSA v) := fun v hv => sapSafe v (safeF_mem h2 hv (by decide))
  have he : ∀ e ∈ envelopeFields time, ∀ v, (e.1, v) ∈ ((jsonTop s).1.filter fun f => f.1 ≠ b!"v") → NP (e.2 v) := by
    simp only [envelopeFields, List.forall_mem_cons, List.not_mem_nil, false_imp_iff, implies_true, and_true]
    refine ⟨fun v _ => tried_np (desTime_np time v), fun v hv => tried_np (route_np fun x hx => ?_)⟩
    subst hx
    exact h3 x (hm hv)
  constructor
  · refine andThen_np (jsonMessage_np h1 (desEnvelope_np hd he fun gs hg => ?_))
    have hw : ∀ e ∈ [(b!"a", tried (desKsn time))], ∀ v, (e.1, v) ∈ gs → NP (e.2 v) := by
      simp only [List.forall_mem_cons, List.not_mem_nil, false_imp_iff, implies_true, and_true]
      refine fun v hv => tried_np (ksn_safe (safeF_mem h2 (hg _ hv) (by decide)) fun fs t hf ht => ?_)
      subst hf
      exact h4 fs t (hm (hg _ hv)) ht
    exact NP.bind (ownWalk_np hw) fun _ _ => NP.bind (own_np hw (by simp)) fun _ _ => NP.need _
  · refine andThen_np (jsonMessage_np h1 (desEnvelope_np hd he fun gs hg => ?_))
    have hw : ∀ e ∈ [(b!"rr", tried (desText Res.ok)), (b!"q", tried desQueryArgs)], ∀ v, (e.1, v) ∈ gs → NP (e.2 v) := by
      simp only [List.forall_mem_cons, List.not_mem_nil, false_imp_iff, implies_true, and_true]
      exact ⟨fun v _ => tried_np (desText_np fun _ _ => NP.ok _), fun v hv => tried_np (args_safe (safeF_mem h2 (hg _ hv) (by decide)))⟩
    exact NP.bind (ownWalk_np hw) fun _ _ => NP.bind (own_np hw (by simp)) fun _ _ => NP.bind (own_np hw (by simp)) fun _ _ =>
      NP.bind (NP.need _) fun _ _ => NP.bind (NP.need _) fun _ _ => NP.ok _

theorem mem_vals {k : Bytes} {fs : List (Bytes × JVal)} {w v : JVal} (h : vals k fs = [w]) (hv : (k, v) ∈ fs) : v = w := by
  have : v ∈ vals k fs := List.mem_map.2 ⟨(k, v), List.mem_filter.2 ⟨hv, by simp⟩, rfl⟩
  rw [h] at this
  simpa using this

/-! ## Non-vacuity: a text that is wrong in almost every member, but safe -/

/-- wrong types, unknown derivation codes, bad times and bad numbers -/
def Ex.wrongRpy : List (Bytes × SVal) :=
  [(b!"v", .str b!"KERI10JSON0000zz_"), (b!"d", .str b!"nothing"), (b!"dt", .null),
    (b!"r", .str b!"/ksn/Et78eYkh8A3H9w6Q87EC5OcijiVEJT8KyNtEGdpPVWV8"),
    (b!"a", .struct [(b!"v", .str b!"KERI10XXXX0000zz_"), (b!"i", .str b!"????"), (b!"s", .seq []), (b!"k", .str b!"xxxxx"),
      (b!"ee", .seq [.str b!"zzzz"])])]

example : SafeQuery (jsonTop (jsonText (.map Ex.wrongRpy) ++ [])).1 := by
  rw [jsonTop_written _ _ (by unfold Ex.wrongRpy; simp only [SVal.FitsF, SVal.Fits, SVal.FitsL]; decide)]
  have hid : (match IdentifierPrefix.fromStr b!"Et78eYkh8A3H9w6Q87EC5OcijiVEJT8KyNtEGdpPVWV8" with | .ok _ => true | _ => false) = true := by
    decide +kernel
  have hm : (SVal.toJFields Ex.wrongRpy).filter (fun f => f.1 ≠ b!"v") = (SVal.toJFields Ex.wrongRpy).tail := rfl
  refine ⟨⟨fun v hv => ?_, ?_⟩, fun x hx => ?_, fun gs v hg hv => ?_⟩
  · have := mem_vals (w := .str b!"KERI10JSON0000zz_") rfl hv
    cases this
    unfold Ascii; decide
  · rw [hm]
    simp only [Ex.wrongRpy, SVal.toJFields, SVal.toJ, SVal.toJs, List.tail_cons, JVal.SafeF, JVal.SafeL, JVal.Safe, and_true]
    refine ⟨fun _ => .inr ?_, fun _ => trivial, fun _ => .inr ?_, fun _ => ⟨fun _ => .inr ?_, fun _ => .inr ?_, fun _ => trivial, fun _ => .inr ?_, fun _ => .inr ?_⟩⟩ <;>
      (unfold Ascii; decide)
  · have e := mem_vals (w := .str b!"/ksn/Et78eYkh8A3H9w6Q87EC5OcijiVEJT8KyNtEGdpPVWV8") rfl hx
    simp only [JVal.str.injEq] at e
    have e' : x = b!"Et78eYkh8A3H9w6Q87EC5OcijiVEJT8KyNtEGdpPVWV8" := List.append_cancel_left (as := b!"/ksn/") e
    subst e'
    split at hid
    · rename_i i h; exact ⟨i, h⟩
    · cases hid
  · have e := mem_vals (w := (SVal.struct [(b!"v", .str b!"KERI10XXXX0000zz_"), (b!"i", .str b!"????"), (b!"s", .seq []), (b!"k", .str b!"xxxxx"),
      (b!"ee", .seq [.str b!"zzzz"])]).toJ) rfl hg
    cases e
    have := mem_vals (w := .str b!"KERI10XXXX0000zz_") rfl hv
    cases this
    unfold Ascii; decide

end Keriox
