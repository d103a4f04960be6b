import Verif.Props.Guard
import Verif.Props.Forge
/-!
# C126: two versions of a log are evidence

No processor detects that somebody else was shown another version of a log (C12).  But whoever holds two versions holds proof: at the first position where
they differ there are two different events with one number after the same events, both signed by keys that the common part entitles, and with a threshold above
one half some single key has signed both.
-/
namespace Keriox

/-! ## Specification -/

/-- `x` and `y` are two versions of the event with number `i` of one log, each signed by those entitled to it by the events before -/
structure Duplicity (env : Env) (l m : List SignedEvent) (i : Nat) (x y : SignedEvent) : Prop where
  here : l[i]? = some x ∧ m[i]? = some y
  /-- the events before are the same -/
  before : messages (l.take i) = messages (m.take i)
  differ : x.msg ≠ y.msg
  number : x.sn = i ∧ y.sn = i
  same : x.pre.toStr = y.pre.toStr
  /-- both name the last of the events before as their predecessor -/
  follow : ∀ p, (l.take i).getLast? = some p → x.data.previous? = some p.dig ∧ y.data.previous? = some p.dig
  /-- both are signed by the keys in force, once applied to the events before -/
  signed : ∀ z, z = x ∨ z = y → ∃ kc bytes, keysInForce (l.take i ++ [z]) = some kc ∧ z.msg.serialize env = .ok bytes ∧ ValidSigs env kc bytes z.sigs
  /-- and if one of them brings new keys, the events before are committed to them -/
  entitled : ∀ z, z = x ∨ z = y → ∀ r, z.data.rotation? = some r → ∃ kc n, keysInForce (l.take i) = some kc ∧ kc.nextDigest = some n ∧
    r.keyConfig.commit env n.derivation = n

/-! ## Lemmas -/

theorem keysInForce_messages {l m : List SignedEvent} (h : messages l = messages m) : keysInForce l = keysInForce m := by
  induction l generalizing m with
  | nil =>
    cases m with
    | nil => rfl
    | cons b m => cases h
  | cons a l ih =>
    cases m with
    | nil => cases h
    | cons b m =>
      obtain ⟨h1, h2⟩ := List.cons.inj h
      have : a.data = b.data := congrArg (·.event.content.data) h1
      simp only [keysInForce, ih h2, this]

theorem first_difference {α : Type} [DecidableEq α] : ∀ l m : List α, ¬ l <+: m → ¬ m <+: l →
    ∃ i x y, l.take i = m.take i ∧ l[i]? = some x ∧ m[i]? = some y ∧ x ≠ y
  | [], m, h, _ => absurd (List.nil_prefix) h
  | _ :: _, [], _, h => absurd (List.nil_prefix) h
  | a :: l, b :: m, h1, h2 => by
    by_cases hab : a = b
    · subst hab
      obtain ⟨i, x, y, g1, g2, g3, g4⟩ := first_difference l m (fun h => h1 (List.cons_prefix_cons.2 ⟨rfl, h⟩)) fun h => h2 (List.cons_prefix_cons.2 ⟨rfl, h⟩)
      exact ⟨i + 1, x, y, by simp [g1], g2, g3, g4⟩
    · exact ⟨0, a, b, rfl, rfl, rfl, hab⟩

/-- distinct numbers below `n` are at most `n` -/
theorem nodup_below : ∀ (n : Nat) (l : List Nat), l.Nodup → (∀ x ∈ l, x < n) → l.length ≤ n
  | 0, l, _, h => by
    cases l with
    | nil => exact Nat.le_refl _
    | cons a l => exact absurd (h a List.mem_cons_self) (Nat.not_lt_zero _)
  | n + 1, l, hd, h => by
    have hr : ∀ x ∈ l.erase n, x < n := by
      intro x hx
      have := h x (List.mem_of_mem_erase hx)
      have hne : x ≠ n := fun he => by
        subst he
        exact (List.Nodup.mem_erase_iff hd).1 hx |>.1 rfl
      omega
    have := nodup_below n (l.erase n) (hd.erase n) hr
    have hl := List.length_erase (a := n) (l := l)
    split at hl <;> omega

/-- two sets of more than half of the indices meet -/
theorem halves_meet {n : Nat} {a b : List Nat} (ha : a.Nodup) (hb : b.Nodup) (ha' : ∀ x ∈ a, x < n) (hb' : ∀ x ∈ b, x < n)
    (h : n < a.length + b.length) : ∃ x ∈ a, x ∈ b := by
  apply Classical.byContradiction
  intro hn
  have hd : (a ++ b).Nodup := List.nodup_append.2 ⟨ha, hb, fun x hx y hy he => hn ⟨x, hx, he ▸ hy⟩⟩
  have := nodup_below n (a ++ b) hd fun x hx => (List.mem_append.1 hx).elim (ha' x) (hb' x)
  rw [List.length_append] at this
  omega

/-! ## C126 -/

/-- C126: two reachable versions of a log, neither of which continues the other, whose events are all signed by the keys in force, prove duplicity. -/
theorem C126_fork_is_evidence (env : Env) (as bs : List Action) (id : IdentifierPrefix) (hid : id.toStr ≠ [])
    (hl : ∀ i, i < ((after env as).kel id).length → SignedInForce env ((after env as).kel id) i)
    (hm : ∀ i, i < ((after env bs).kel id).length → SignedInForce env ((after env bs).kel id) i)
    (h1 : ¬ messages ((after env as).kel id) <+: messages ((after env bs).kel id))
    (h2 : ¬ messages ((after env bs).kel id) <+: messages ((after env as).kel id)) :
    ∃ i x y, Duplicity env ((after env as).kel id) ((after env bs).kel id) i x y := by
  obtain ⟨i, u, v, g1, g2, g3, g4⟩ := first_difference _ _ h1 h2
  unfold messages at g2 g3
  rw [List.getElem?_map, Option.map_eq_some_iff] at g2 g3
  obtain ⟨x, hx, rfl⟩ := g2
  obtain ⟨y, hy, rfl⟩ := g3
  have hb : messages (((after env as).kel id).take i) = messages (((after env bs).kel id).take i) := by
    unfold messages at g1 ⊢
    rw [List.map_take, List.map_take, g1]
  have hk := keysInForce_messages hb
  have cx := C03_contiguous env as id hid i x hx
  have cy := C03_contiguous env bs id hid i y hy
  have snoc : ∀ (l : List SignedEvent) (z : SignedEvent), l[i]? = some z → l.take (i + 1) = l.take i ++ [z] := fun l z hz => by
    rw [List.take_add_one, hz]; rfl
  refine ⟨i, x, y, ⟨hx, hy⟩, hb, g4, ⟨cx.1, cy.1⟩, cx.2.2.1.trans cy.2.2.1.symm, ?_, ?_, ?_⟩
  · intro p hp
    cases i with
    | zero => simp at hp
    | succ i =>
      have hxi := (List.getElem?_eq_some_iff.1 hx).1
      have hyi := (List.getElem?_eq_some_iff.1 hy).1
      have last : ∀ (l : List SignedEvent), i + 1 < l.length → (l.take (i + 1)).getLast? = l[i]? := fun l hl => by
        rw [List.getLast?_eq_getElem?, List.length_take, List.getElem?_take]
        simp only [Nat.min_eq_left (Nat.le_of_lt hl), Nat.add_sub_cancel]
        rw [if_pos (by omega)]
      rw [last _ hxi] at hp
      refine ⟨C04_chained env as id hid i p x hp hx, ?_⟩
      have hq : ∃ q, ((after env bs).kel id)[i]? = some q := ⟨_, List.getElem?_eq_getElem (by omega)⟩
      obtain ⟨q, hq⟩ := hq
      have hpq : p.msg = q.msg := by
        have := congrArg (·[i]?) hb
        unfold messages at this
        simp only [List.getElem?_map, List.getElem?_take, if_pos (Nat.lt_succ_self i), hp, hq, Option.map_some, Option.some.injEq] at this
        exact this
      rw [C04_chained env bs id hid i q y hq hy]
      exact congrArg (fun m : EventMessage => some m.event.digest) hpq.symm
  · rintro z (rfl | rfl)
    · obtain ⟨e, kc, b, s1, s2, s3, s4⟩ := hl i (List.getElem?_eq_some_iff.1 hx).1
      rw [hx] at s1
      obtain rfl := Option.some.inj s1
      exact ⟨kc, b, by rw [← snoc _ _ hx]; exact s2, s3, s4⟩
    · obtain ⟨e, kc, b, s1, s2, s3, s4⟩ := hm i (List.getElem?_eq_some_iff.1 hy).1
      rw [hy] at s1
      obtain rfl := Option.some.inj s1
      refine ⟨kc, b, ?_, s3, s4⟩
      rw [snoc _ _ hy, keysInForce_snoc, ← hk, ← keysInForce_snoc] at s2
      exact s2
  · rintro z (rfl | rfl) r hr
    · exact C05_prerotation env as id hid i _ r hx hr
    · rw [hk]; exact C05_prerotation env bs id hid i _ r hy hr

/-- C126 at processors whose callers check what they submit (C124): any two versions, unless one continues the other, prove duplicity. -/
theorem C126_guarded (env : Env) (as bs : List Action) (ha : Guarded env as) (hb : Guarded env bs) (id : IdentifierPrefix) (hid : id.toStr ≠ []) :
    messages ((after env as).kel id) <+: messages ((after env bs).kel id) ∨ messages ((after env bs).kel id) <+: messages ((after env as).kel id) ∨
    ∃ i x y, Duplicity env ((after env as).kel id) ((after env bs).kel id) i x y := by
  by_cases h1 : messages ((after env as).kel id) <+: messages ((after env bs).kel id)
  · exact .inl h1
  · by_cases h2 : messages ((after env bs).kel id) <+: messages ((after env as).kel id)
    · exact .inr (.inl h2)
    · exact .inr (.inr (C126_fork_is_evidence env as bs id hid (C124_signed env as ha id).2 (C124_signed env bs hb id).2 h1 h2))

/-- C126: if neither event brings keys, the same keys have signed both. -/
theorem C126_same_keys {env : Env} {l m : List SignedEvent} {i : Nat} {x y : SignedEvent} (h : Duplicity env l m i x y)
    (hx : x.data.keyConfig? = none) (hy : y.data.keyConfig? = none) :
    ∃ kc bx by', keysInForce (l.take i) = some kc ∧ x.msg.serialize env = .ok bx ∧ y.msg.serialize env = .ok by' ∧
      ValidSigs env kc bx x.sigs ∧ ValidSigs env kc by' y.sigs := by
  obtain ⟨kc, bx, h1, h2, h3⟩ := h.signed x (.inl rfl)
  obtain ⟨kc', by', h4, h5, h6⟩ := h.signed y (.inr rfl)
  rw [keysInForce_snoc, hx, Option.none_or] at h1
  rw [keysInForce_snoc, hy, Option.none_or, h1] at h4
  obtain rfl := Option.some.inj h4
  exact ⟨kc, bx, by', h1, h2, h5, h3, h6⟩

/-- C126: sets of signatures of the same keys, with a threshold of more than half of the keys, have a key in common: its holder has signed both messages. -/
theorem C126_one_key_signed_both {env : Env} {kc : KeyConfig} {bx by' : Bytes} {sx sy : List AttachedSignaturePrefix} (hx : ValidSigs env kc bx sx)
    (hy : ValidSigs env kc by' sy) (t : Nat) (ht : kc.threshold = .simple t) (hmaj : kc.publicKeys.length < 2 * t) :
    ∃ k ∈ kc.publicKeys, ∃ a ∈ sx, ∃ b ∈ sy, SigValid env k bx a.signature ∧ SigValid env k by' b.signature := by
  have tx := hx.threshold
  have ty := hy.threshold
  rw [ht] at tx ty
  have tx : t ≤ sx.length := tx
  have ty : t ≤ sy.length := ty
  have below : ∀ {bytes : Bytes} {ss : List AttachedSignaturePrefix}, ValidSigs env kc bytes ss → ∀ i ∈ ss.map (·.index), i < kc.publicKeys.length := by
    intro bytes ss h i hi
    obtain ⟨s, hs, rfl⟩ := List.mem_map.1 hi
    obtain ⟨k, hk, _⟩ := h.valid s hs
    exact (List.getElem?_eq_some_iff.1 hk).1
  obtain ⟨i, h1, h2⟩ := halves_meet hx.distinct hy.distinct (below hx) (below hy) (by simp only [List.length_map]; omega)
  obtain ⟨a, ha, hai⟩ := List.mem_map.1 h1
  obtain ⟨b, hb, hbi⟩ := List.mem_map.1 h2
  obtain ⟨k, hk, hv⟩ := hx.valid a ha
  obtain ⟨k', hk', hv'⟩ := hy.valid b hb
  have : k' = k := by
    rw [hbi, ← hai, hk] at hk'
    exact (Option.some.inj hk').symm
  subst this
  exact ⟨k', List.mem_of_getElem? hk, a, ha, b, hb, hv, hv'⟩

/-! ## Examples -/

/-- a caller's check of events that set keys with a plain threshold -/
def Ex.fine (e : SignedEvent) : Bool :=
  decide (e.pre.toStr ≠ []) && (e.msg.serialize Ex.env).isOk && e.rt && match e.data.keyConfig? with
    | some kc => e.sigs.all (fun s => decide (s.index < kc.publicKeys.length)) && match kc.threshold with
      | .simple _ => true
      | _ => false
    | none => false

theorem Ex.guarded_of (as : List Action) (h : ∀ e, Action.submit (.event e) ∈ as → Ex.fine e = true) : Guarded Ex.env as := by
  intro before e rest he
  have hf := h e (by rw [he]; simp)
  unfold Ex.fine at hf
  simp only [Bool.and_eq_true, decide_eq_true_eq] at hf
  obtain ⟨⟨⟨h1, h2⟩, h3⟩, h4⟩ := hf
  refine ⟨h1, C124_indices _ _ _ (Res.ok_of_isOk h2) h3 fun kc hk => ?_⟩
  cases hc : e.data.keyConfig? with
  | none => rw [hc] at h4; cases h4
  | some kc' =>
    rw [hc] at h4
    rw [keysInForce_snoc, hc] at hk
    obtain rfl : kc' = kc := Option.some.inj hk
    simp only [Bool.and_eq_true, List.all_eq_true, decide_eq_true_eq] at h4
    refine ⟨h4.1, fun c hcc => ?_⟩
    rw [hcc] at h4
    exact absurd h4.2 (by simp)

/-- a second rotation to the same keys, which commits to other ones -/
def Ex.rotFork : SignedEvent :=
  signAll (msgOr ((Event.mk Ex.id 1 (.rot ⟨Ex.icp.dig, kc [4, 5, 6] [10, 11, 12] (.simple 2), 1, [key 30], [key 32], []⟩)).toMessage Ex.env .json .blake3_256)) [4, 5]

/-- two processors that were given different rotations hold evidence: their logs have the same inception and then differ -/
example : ∃ i x y, Duplicity Ex.env ((after Ex.env [.submit (.event Ex.icp), .submit (.event Ex.rot)]).kel Ex.id)
    ((after Ex.env [.submit (.event Ex.icp), .submit (.event Ex.rotFork)]).kel Ex.id) i x y := by
  have ha : Guarded Ex.env [.submit (.event Ex.icp), .submit (.event Ex.rot)] := Ex.guarded_of _ fun e he => by
    simp only [List.mem_cons, List.not_mem_nil, or_false, Action.submit.injEq, Message.event.injEq] at he
    rcases he with rfl | rfl <;> decide +kernel
  have hb : Guarded Ex.env [.submit (.event Ex.icp), .submit (.event Ex.rotFork)] := Ex.guarded_of _ fun e he => by
    simp only [List.mem_cons, List.not_mem_nil, or_false, Action.submit.injEq, Message.event.injEq] at he
    rcases he with rfl | rfl <;> decide +kernel
  rcases C126_guarded Ex.env _ _ ha hb Ex.id (by decide +kernel) with h | h | h
  · exact absurd (h.eq_of_length (by decide +kernel)) (by decide +kernel)
  · exact absurd (h.eq_of_length (by decide +kernel)) (by decide +kernel)
  · exact h

/-- the keys of that rotation have a threshold of more than half -/
example : (match Ex.rot.data.keyConfig? with
    | some kc => decide (kc.threshold = .simple 2) && decide (kc.publicKeys.length < 2 * 2)
    | none => false) = true := by decide +kernel

end Keriox
