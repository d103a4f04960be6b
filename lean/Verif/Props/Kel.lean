import Verif.KelStep
import Verif.Example
/-!
# Properties of key event logs: C01, C03, C04, C05

`runHistory sled env Db.empty as` is the database after the calls `as` on an empty database; `db.kel id` the events
stored for `id`.  The hypothesis `id.toStr ≠ []` excludes one degenerate value (the "default" identifier with an empty text),
which no text parses to.
-/
namespace Keriox

/-! ## Bridge to the sled database -/

/-- the database after a history of calls on an empty database -/
abbrev after (env : Env) (as : List Action) : Db := runHistory sled env Db.empty as

theorem after_inv (env : Env) (as : List Action) : (after env as).Inv := (history_sim sled_sim env as _ Db.empty_inv).1

theorem after_abs (env : Env) (as : List Action) : (after env as).abs = runHistory mapOps env MapDb.empty as :=
  (history_sim sled_sim env as _ Db.empty_inv).2

theorem after_good (env : Env) (as : List Action) : (after env as).abs.Good env := by
  rw [after_abs]; exact history_good env as _ (MapDb.empty_good env)

theorem kel_eq (db : Db) (id : IdentifierPrefix) : db.kel id = db.abs.log id.toStr := rfl

theorem after_log (env : Env) (as : List Action) (id : IdentifierPrefix) (hid : id.toStr ≠ []) :
    ∃ s, Log env id.toStr ((after env as).kel id) s := after_good env as _ hid

theorem runHistory_append {σ} (o : Ops σ) (env : Env) (db : σ) (as bs : List Action) :
    runHistory o env db (as ++ bs) = runHistory o env (runHistory o env db as) bs := by
  simp [runHistory]

/-! ## C01 -/

/-- C01: whatever happened before (`as`) and whatever happens afterwards (`bs`), the log only grows at its end. -/
theorem C01_append_only (env : Env) (as bs : List Action) (id : IdentifierPrefix) (hid : id.toStr ≠ []) :
    (after env as).kel id <+: (after env (as ++ bs)).kel id := by
  rw [kel_eq, kel_eq, after_abs, after_abs, runHistory_append]
  have hg : (runHistory mapOps env MapDb.empty as).Good env := history_good env as _ (MapDb.empty_good env)
  generalize runHistory mapOps env MapDb.empty as = a at hg
  induction bs generalizing a with
  | nil => exact List.prefix_refl _
  | cons b bs ih =>
    have h1 := ih _ (action_good env b a hg)
    refine List.IsPrefix.trans ?_ h1
    rcases action_log env b a hg id.toStr hid with h | ⟨e, _, _, _, _, _, _, h⟩
    · rw [h]; exact List.prefix_refl _
    · rw [h]; exact List.prefix_append _ _

/-- C01: one call adds at most one event, the submitted one, to one log. -/
theorem C01_one_step (env : Env) (as : List Action) (act : Action) (id : IdentifierPrefix) (hid : id.toStr ≠ []) :
    (after env (as ++ [act])).kel id = (after env as).kel id ∨
    ∃ e, act = .submit (.event e) ∧ e.pre.toStr = id.toStr ∧
      (after env (as ++ [act])).kel id = (after env as).kel id ++ [e.stored] := by
  rw [kel_eq, kel_eq, after_abs, after_abs, runHistory_append]
  have hg : (runHistory mapOps env MapDb.empty as).Good env := history_good env as _ (MapDb.empty_good env)
  rcases action_log env act _ hg id.toStr hid with h | ⟨e, _, _, h1, h2, _, _, h⟩
  · exact .inl h
  · exact .inr ⟨e, h1, h2, h⟩

theorem process_abs (env : Env) (db : Db) (h : db.Inv) (m : Message) :
    (process sled env m db).1 = (process mapOps env m db.abs).1 ∧
    (process sled env m db).2.abs = (process mapOps env m db.abs).2 ∧ (process sled env m db).2.Inv :=
  process_sim sled_sim env m db h

theorem after_snoc (env : Env) (as : List Action) (m : Message) :
    after env (as ++ [.submit m]) = (process sled env m (after env as)).2 := by
  rw [after, runHistory_append]; rfl

/-- outcome of submitting an event to a reachable database -/
theorem event_outcome (env : Env) (as : List Action) (e : SignedEvent) (hid : e.pre.toStr ≠ []) :
    ∃ s, Log env e.pre.toStr ((after env as).kel e.pre) s ∧
      Outcome env (after env as).abs e s (process sled env (.event e) (after env as)).1
        (after env (as ++ [.submit (.event e)])).abs := by
  obtain ⟨s, hs⟩ := after_log env as e.pre hid
  refine ⟨s, hs, ?_⟩
  have h := process_abs env _ (after_inv env as) (.event e)
  rw [h.1, after_snoc, h.2.1]
  exact processEvent_outcome env e _ hid hs

/-- C01: an accepted event is the last event of its log from then on at that position. -/
theorem C01_accepted_is_logged (env : Env) (as bs : List Action) (e : SignedEvent) (st : Option IdState)
    (hid : e.pre.toStr ≠ []) (hacc : (process sled env (.event e) (after env as)).1 = .ok st) :
    (after env (as ++ .submit (.event e) :: bs)).kel e.pre
      = (after env as).kel e.pre ++ [e.stored] ++
        ((after env (as ++ .submit (.event e) :: bs)).kel e.pre).drop (((after env as).kel e.pre).length + 1) := by
  have h1 : (after env (as ++ [.submit (.event e)])).kel e.pre = (after env as).kel e.pre ++ [e.stored] := by
    obtain ⟨s, _, ho⟩ := event_outcome env as e hid
    rw [hacc] at ho
    cases ho with
    | refused h _ _ => exact absurd rfl (h st)
    | stored _ _ _ hs _ =>
      revert hs
      generalize hr : (Res.ok st : Res (Option IdState)) = r
      generalize hl : ((after env (as ++ [.submit (.event e)])).abs.log e.pre.toStr) = l
      intro hs
      cases hs <;> first | exact hl | (cases hr)
  have h2 := C01_append_only env (as ++ [.submit (.event e)]) bs e.pre hid
  rw [List.append_assoc, List.singleton_append, h1] at h2
  obtain ⟨t, ht⟩ := h2
  rw [← ht]
  simp

theorem getEventAtSn_run (id : IdentifierPrefix) (n : Nat) (a : MapDb) :
    (getEventAtSn mapOps id n a).1 = (match a.tables .kels id.toStr with
      | none => .ok none
      | some l => if l.all SignedEvent.rt then .ok (l.find? fun e => e.sn = n) else .panic) := by
  unfold getEventAtSn getKel
  rw [StM.bind_run]
  simp only [mapOps, iterValues_kels]
  cases h : a.tables .kels id.toStr with
  | none => rfl
  | some l =>
    dsimp only
    by_cases hr : l.all SignedEvent.rt = true
    · rw [if_pos hr, if_pos hr]; rfl
    · rw [if_neg hr, if_neg hr]

theorem find_sn (l : List SignedEvent) (h : ∀ (i : Nat) (e : SignedEvent), l[i]? = some e → e.sn = i) (n : Nat) :
    (l.find? fun e => e.sn = n) = l[n]? := by
  cases hn : l[n]? with
  | none =>
    rw [List.find?_eq_none]
    intro x hx
    obtain ⟨i, hi, rfl⟩ := List.mem_iff_getElem.1 hx
    have := h i l[i] (List.getElem?_eq_getElem hi)
    have : l.length ≤ n := by simpa using hn
    simp; omega
  | some e =>
    have he := h n e hn
    cases hf : l.find? (fun e => decide (e.sn = n)) with
    | none =>
      rw [List.find?_eq_none] at hf
      exact absurd (decide_eq_true he) (hf e (List.mem_of_getElem? hn))
    | some e' =>
      have h1 := List.mem_of_find?_eq_some hf
      have h2 := List.find?_some hf
      obtain ⟨i, hi, rfl⟩ := List.mem_iff_getElem.1 h1
      have h3 := h i l[i] (List.getElem?_eq_getElem hi)
      have h4 : l[i].sn = n := of_decide_eq_true h2
      have : i = n := by omega
      subst this
      rw [List.getElem?_eq_getElem hi] at hn
      exact hn

/-- `get_event_at_sn` reads the log: the event at position `n`, or a crash when the log cannot be decoded -/
theorem getEventAtSn_spec (env : Env) (as : List Action) (id : IdentifierPrefix) (hid : id.toStr ≠ []) (n : Nat) :
    ((getEventAtSn sled id n (after env as)).1 = .ok (((after env as).kel id)[n]?) ∧ Readable ((after env as).kel id)) ∨
    ((getEventAtSn sled id n (after env as)).1 = .panic ∧ ¬ Readable ((after env as).kel id)) := by
  have hs := (getEventAtSn_sim sled_sim id n (after env as) (after_inv env as)).1
  rw [hs, getEventAtSn_run]
  obtain ⟨s, hl⟩ := after_log env as id hid
  rw [kel_eq] at hl ⊢
  unfold MapDb.log at hl ⊢
  cases h : (after env as).abs.tables .kels id.toStr with
  | none => simp [Readable]
  | some l =>
    rw [h] at hl
    dsimp only [Option.getD_some] at hl ⊢
    rw [← readable_iff]
    by_cases hr : l.all SignedEvent.rt = true
    · rw [if_pos hr, find_sn l (fun i e he => hl.sn_eq hid he) n]; exact .inl ⟨rfl, hr⟩
    · rw [if_neg hr]; exact .inr ⟨rfl, hr⟩

/-- C01 through the query API: what `get_event_at_sn` answered once it answers for ever, unless the log has become
undecodable (see C02 for when that happens). -/
theorem C01_event_at_sn_stable (env : Env) (as bs : List Action) (id : IdentifierPrefix) (hid : id.toStr ≠ []) (n : Nat)
    (e : SignedEvent) (h : (getEventAtSn sled id n (after env as)).1 = .ok (some e)) :
    (getEventAtSn sled id n (after env (as ++ bs))).1 = .ok (some e) ∨
    ((getEventAtSn sled id n (after env (as ++ bs))).1 = .panic ∧ ¬ Readable ((after env (as ++ bs)).kel id)) := by
  rcases getEventAtSn_spec env as id hid n with ⟨h1, _⟩ | ⟨h1, _⟩
  · rw [h] at h1
    simp only [Res.ok.injEq] at h1
    rcases getEventAtSn_spec env (as ++ bs) id hid n with ⟨h2, _⟩ | h2
    · left
      rw [h2]
      obtain ⟨t, ht⟩ := C01_append_only env as bs id hid
      rw [← ht, List.getElem?_append_left (by
        have := h1.symm; rw [List.getElem?_eq_some_iff] at this; exact this.1), ← h1]
    · exact .inr h2
  · rw [h] at h1; cases h1

theorem kerlBytes_append (l m : List SignedEvent) (b : Bytes) (h : kerlBytes (l ++ m) = .ok b) :
    ∃ b1 b2, kerlBytes l = .ok b1 ∧ kerlBytes m = .ok b2 ∧ b = b1 ++ b2 := by
  induction l generalizing b with
  | nil => exact ⟨[], b, rfl, h, rfl⟩
  | cons e l ih =>
    simp only [List.cons_append, kerlBytes] at h ⊢
    cases hs : e.serialize with
    | ok c =>
      rw [hs] at h
      simp only [Res.bind_eq_ok] at h
      obtain ⟨r, hr, hb⟩ := h
      obtain ⟨b1, b2, h1, h2, h3⟩ := ih r hr
      refine ⟨c ++ b1, b2, by simp [h1], h2, ?_⟩
      simp only [Res.ok.injEq] at hb
      rw [← hb, h3]; simp
    | err e => rw [hs] at h; exact ih b h
    | panic => rw [hs] at h; cases h

theorem getKerl_run (id : IdentifierPrefix) (a : MapDb) :
    (getKerl mapOps id a).1 = (match a.tables .kels id.toStr with
      | none => .ok none
      | some l => if l.all SignedEvent.rt then (match kerlBytes l with
          | .ok b => .ok (some b)
          | .err e => .err e
          | .panic => .panic) else .panic) := by
  unfold getKerl getKel
  rw [StM.bind_run]
  simp only [mapOps, iterValues_kels]
  cases h : a.tables .kels id.toStr with
  | none => rfl
  | some l =>
    dsimp only
    by_cases hr : l.all SignedEvent.rt = true
    · rw [if_pos hr, if_pos hr]
      simp only
      rw [StM.bind_run]
      simp only [StM.lift]
      cases kerlBytes l <;> rfl
    · rw [if_neg hr, if_neg hr]

/-- C01 through `get_kerl`: an exported log is a byte prefix of every later export of the same identifier. -/
theorem C01_kerl_grows (env : Env) (as bs : List Action) (id : IdentifierPrefix) (hid : id.toStr ≠ []) (b b' : Bytes)
    (h : (getKerl sled id (after env as)).1 = .ok (some b)) (h' : (getKerl sled id (after env (as ++ bs))).1 = .ok (some b')) :
    b <+: b' := by
  have key : ∀ cs c, (getKerl sled id (after env cs)).1 = .ok (some c) → kerlBytes ((after env cs).kel id) = .ok c := by
    intro cs c hc
    rw [(getKerl_sim sled_sim id _ (after_inv env cs)).1, getKerl_run] at hc
    rw [kel_eq]
    unfold MapDb.log
    cases hk : (after env cs).abs.tables .kels id.toStr with
    | none => rw [hk] at hc; simp at hc
    | some l =>
      rw [hk] at hc
      dsimp only [Option.getD_some] at hc ⊢
      split at hc
      · cases hb : kerlBytes l <;> rw [hb] at hc <;> simp_all
      · cases hc
  have h1 := key _ _ h
  have h2 := key _ _ h'
  obtain ⟨t, ht⟩ := C01_append_only env as bs id hid
  rw [← ht] at h2
  obtain ⟨b1, b2, g1, g2, g3⟩ := kerlBytes_append _ _ _ h2
  rw [h1] at g1
  simp only [Res.ok.injEq] at g1
  rw [g3, ← g1]
  exact List.prefix_append _ _

/-- the hypotheses are met by a log of three events, the last of which is in the second half of the history; the three
calls are accepted and the log can be read -/
example : Ex.id.toStr ≠ [] ∧ (after Ex.env Ex.hist).kel Ex.id = [Ex.icp, Ex.rot, Ex.ixn] ∧
    ((process sled Ex.env (.event Ex.rot) (after Ex.env [.submit (.event Ex.icp)])).1.isOk = true) ∧
    (getEventAtSn sled Ex.id 1 (after Ex.env [.submit (.event Ex.icp), .submit (.event Ex.rot)])).1 = .ok (some Ex.rot) ∧
    (getKerl sled Ex.id (after Ex.env Ex.hist)).1.isOk = true := by decide +kernel

/-! ## C03 -/

theorem Log.contiguous {env : Env} {x : Bytes} (hx : x ≠ []) {l : List SignedEvent} {s : IdState} (hl : Log env x l s) {i : Nat}
    {e : SignedEvent} (he : l[i]? = some e) :
    e.sn = i ∧ (e.data.isInception = true ↔ i = 0) ∧ e.pre.toStr = x ∧ ∀ e', e' ∈ l → e'.pre = e.pre := by
  have hf := hl.facts hx
  have h1 := hf.2.2 i e he
  have hne : l ≠ [] := by intro h; rw [h] at he; simp at he
  refine ⟨h1.1, h1.2.2, by rw [h1.2.1]; exact (hf.2.1 hne).2.1, fun e' he' => ?_⟩
  obtain ⟨j, hj, rfl⟩ := List.mem_iff_getElem.1 he'
  rw [(hf.2.2 j _ (List.getElem?_eq_getElem hj)).2.1, h1.2.1]

/-- C03: in every reachable log event number `i` has sequence number `i`, exactly event 0 is an inception, and all
events carry one and the same identifier, with the text of the identifier the log is stored under. -/
theorem C03_contiguous (env : Env) (as : List Action) (id : IdentifierPrefix) (hid : id.toStr ≠ []) (i : Nat)
    (e : SignedEvent) (he : ((after env as).kel id)[i]? = some e) :
    e.sn = i ∧ (e.data.isInception = true ↔ i = 0) ∧ e.pre.toStr = id.toStr ∧
    ∀ e', e' ∈ (after env as).kel id → e'.pre = e.pre := by
  obtain ⟨s, hl⟩ := after_log env as id hid
  exact hl.contiguous hid he

/-- C03: the events carry the identifier itself whenever both texts parse back (true of everything read from a
message or from the database). -/
theorem C03_same_identifier (env : Env) (as : List Action) (id : IdentifierPrefix) (hid : id.toStr ≠ []) (hrt : id.rt = true)
    (e : SignedEvent) (he : e ∈ (after env as).kel id) (hre : e.pre.rt = true) : e.pre = id := by
  obtain ⟨i, hi, rfl⟩ := List.mem_iff_getElem.1 he
  have h := (C03_contiguous env as id hid i _ (List.getElem?_eq_getElem hi)).2.2.1
  simp only [IdentifierPrefix.rt, decide_eq_true_eq] at hrt hre
  rw [h, hrt] at hre
  exact (Res.ok.inj hre).symm

example : ((after Ex.env Ex.hist).kel Ex.id)[2]? = some Ex.ixn ∧ Ex.id.rt = true ∧ Ex.ixn.pre.rt = true := by decide +kernel

/-! ## C04 -/

theorem Log.last_digest {env : Env} {x : Bytes} (hx : x ≠ []) {l : List SignedEvent} {s : IdState} (h : Log env x l s)
    {e : SignedEvent} (he : l.getLast? = some e) : s.lastDigest = e.dig := by
  have hne : l ≠ [] := by intro h; rw [h] at he; simp at he
  exact (((h.facts hx).2.1 hne).2.2.2 e he).1

theorem Log.chained {env : Env} {x : Bytes} (hx : x ≠ []) {l : List SignedEvent} {s : IdState} (hl : Log env x l s) {i : Nat}
    {e0 e1 : SignedEvent} (h0 : l[i]? = some e0) (h1 : l[i + 1]? = some e1) : e1.data.previous? = some e0.dig := by
  obtain ⟨s0, s1, hl0, hl1, ha⟩ := hl.step h1
  have A := applyTo_ok ha
  have hni : e1.data.isInception = false := by
    have := ((hl.facts hx).2.2 (i + 1) e1 h1).2.2
    cases hb : e1.data.isInception with
    | false => rfl
    | true => exact absurd (this.1 hb) (by omega)
  rw [A.prev hni]
  have : (l.take (i + 1)).getLast? = some e0 := by
    rw [List.getLast?_eq_getElem?, List.length_take, List.getElem?_take]
    have hlt : i + 1 < l.length := by
      rw [List.getElem?_eq_some_iff] at h1; exact h1.1
    rw [Nat.min_eq_left (by omega)]
    simp [h0]
  rw [hl0.last_digest hx this]

/-- C04: every event after the first names the digest of the event before it. -/
theorem C04_chained (env : Env) (as : List Action) (id : IdentifierPrefix) (hid : id.toStr ≠ []) (i : Nat)
    (e0 e1 : SignedEvent) (h0 : ((after env as).kel id)[i]? = some e0) (h1 : ((after env as).kel id)[i + 1]? = some e1) :
    e1.data.previous? = some e0.dig := by
  obtain ⟨s, hl⟩ := after_log env as id hid
  exact hl.chained hid h0 h1

example : ((after Ex.env Ex.hist).kel Ex.id)[1]? = some Ex.rot ∧ ((after Ex.env Ex.hist).kel Ex.id)[1 + 1]? = some Ex.ixn ∧
    Ex.ixn.data.previous? = some Ex.rot.dig := by decide +kernel

/-! ## C05 -/

theorem keysInForce_append (l : List SignedEvent) (e : SignedEvent) :
    keysInForce (l ++ [e]) = e.data.keyConfig?.or (keysInForce l) := by
  induction l with
  | nil => simp [keysInForce]
  | cons a l ih =>
    simp only [List.cons_append, keysInForce, ih]
    cases e.data.keyConfig? <;> simp

theorem inception_has_keys {d : EventData} (h : d.isInception = true) : ∃ kc, d.keyConfig? = some kc := by
  cases d <;> simp [EventData.isInception, EventData.keyConfig?] at *

/-- the keys in force are those of the computed state -/
theorem Log.keys {env : Env} {x : Bytes} (hx : x ≠ []) {l : List SignedEvent} {s : IdState} (h : Log env x l s) :
    l ≠ [] → keysInForce l = some s.current := by
  induction h with
  | nil => intro h; exact absurd rfl h
  | @snoc l s e s' hl hp hd ha ih =>
    intro _
    have A := applyTo_ok ha
    rw [keysInForce_append, A.keys]
    cases hk : e.data.keyConfig? with
    | some kc => simp
    | none =>
      simp only [Option.none_or, Option.getD_none]
      apply ih
      intro hnil
      subst hnil
      have L := Log.facts hx (Log.snoc hl hp hd ha)
      have := (L.2.2 0 e (by simp)).2.2.2 rfl
      obtain ⟨kc, hkc⟩ := inception_has_keys this
      rw [hkc] at hk
      cases hk

theorem Log.opens_commitment {env : Env} {x : Bytes} (hx : x ≠ []) {l : List SignedEvent} {s : IdState} (hl : Log env x l s) {i : Nat}
    {e : SignedEvent} {r : RotationEvent} (he : l[i]? = some e) (hr : e.data.rotation? = some r) :
    ∃ kc n, keysInForce (l.take i) = some kc ∧ kc.nextDigest = some n ∧ r.keyConfig.commit env n.derivation = n := by
  obtain ⟨s0, s1, hl0, hl1, ha⟩ := hl.step he
  have A := applyTo_ok ha
  have hv := A.rot r hr
  have hi : i ≠ 0 := by
    intro h0
    have := ((hl.facts hx).2.2 i e he).2.2.2 h0
    revert hr this
    cases e.data <;> simp [EventData.rotation?, EventData.isInception]
  have hne : l.take i ≠ [] := by
    intro h
    rw [List.take_eq_nil_iff] at h
    rcases h with h | h
    · exact hi h
    · rw [h] at he; simp at he
  unfold KeyConfig.verifyNext at hv
  cases hn : s0.current.nextDigest with
  | none => rw [hn] at hv; cases hv
  | some n =>
    rw [hn] at hv
    exact ⟨s0.current, n, hl0.keys hx hne, hn, (of_decide_eq_true hv).symm⟩

/-- C05: a rotation at position `i` opens the commitment published by the establishment event in force before it: its
threshold and keys hash to that commitment. -/
theorem C05_prerotation (env : Env) (as : List Action) (id : IdentifierPrefix) (hid : id.toStr ≠ []) (i : Nat)
    (e : SignedEvent) (r : RotationEvent) (he : ((after env as).kel id)[i]? = some e) (hr : e.data.rotation? = some r) :
    ∃ kc n, keysInForce (((after env as).kel id).take i) = some kc ∧ kc.nextDigest = some n ∧
      r.keyConfig.commit env n.derivation = n := by
  obtain ⟨s, hl⟩ := after_log env as id hid
  exact hl.opens_commitment hid he hr

/-- C05, "no commitment, no rotation, ever": once the keys in force carry no commitment, every later event of the log is
an interaction and the keys in force stay the same. -/
theorem C05_no_commitment_is_final (env : Env) (as bs : List Action) (id : IdentifierPrefix) (hid : id.toStr ≠ [])
    (kc : KeyConfig) (hk : keysInForce ((after env as).kel id) = some kc) (hn : kc.nextDigest = none) :
    keysInForce ((after env (as ++ bs)).kel id) = some kc ∧
    ∀ e ∈ ((after env (as ++ bs)).kel id).drop ((after env as).kel id).length, ∃ x, e.data = .ixn x := by
  have hp := C01_append_only env as bs id hid
  obtain ⟨t, ht⟩ := hp
  have hpos : ((after env as).kel id) ≠ [] := by intro h; rw [h] at hk; simp [keysInForce] at hk
  have main : ∀ k, k ≤ t.length → keysInForce ((after env as).kel id ++ t.take k) = some kc ∧
      ∀ e ∈ t.take k, ∃ x, e.data = .ixn x := by
    intro k
    induction k with
    | zero => intro _; simp [hk]
    | succ k ih =>
      intro hk1
      obtain ⟨ih1, ih2⟩ := ih (by omega)
      have hlt : k < t.length := by omega
      rw [List.take_succ_eq_append_getElem hlt]
      have he : ((after env (as ++ bs)).kel id)[((after env as).kel id).length + k]? = some t[k] := by
        rw [← ht, List.getElem?_append_right (by omega)]
        simp
      have htake : ((after env (as ++ bs)).kel id).take (((after env as).kel id).length + k) =
          (after env as).kel id ++ t.take k := by
        rw [← ht, List.take_append, List.take_of_length_le (by omega)]
        congr 2
        omega
      have hix : ∃ x, t[k].data = .ixn x := by
        have hrot : ∀ r, t[k].data.rotation? ≠ some r := by
          intro r hr
          obtain ⟨kc', n, h1, h2, _⟩ := C05_prerotation env (as ++ bs) id hid _ _ r he hr
          rw [htake, ih1] at h1
          simp only [Option.some.injEq] at h1
          subst h1
          rw [hn] at h2
          cases h2
        have hinc := (C03_contiguous env (as ++ bs) id hid _ _ he).2.1
        have hl0 : ((after env as).kel id).length ≠ 0 := by
          intro h; exact hpos (List.length_eq_zero_iff.1 h)
        cases hd : t[k].data with
        | icp x => rw [hd] at hinc; exact absurd (hinc.1 rfl) (by omega)
        | dip x => rw [hd] at hinc; exact absurd (hinc.1 rfl) (by omega)
        | rot x => exact absurd (by rw [hd]; rfl) (hrot x)
        | drt x => exact absurd (by rw [hd]; rfl) (hrot x)
        | ixn x => exact ⟨x, rfl⟩
      constructor
      · rw [← List.append_assoc, keysInForce_append, ih1]
        obtain ⟨x, hx⟩ := hix
        rw [hx]; rfl
      · intro e he'
        rcases List.mem_append.1 he' with h | h
        · exact ih2 e h
        · simp only [List.mem_singleton] at h
          subst h; exact hix
  have := main t.length (Nat.le_refl _)
  rw [List.take_length] at this
  rw [← ht]
  refine ⟨this.1, ?_⟩
  rw [List.drop_left]
  exact this.2

/-- a rotation in a reachable log; and a reachable log whose keys carry no commitment, followed by an interaction -/
example : ((after Ex.env Ex.hist).kel Ex.id)[1]? = some Ex.rot ∧ Ex.rot.data.rotation?.isSome = true := by decide +kernel
example : (keysInForce ((after Ex.env [.submit (.event Ex.icpFinal)]).kel Ex.icpFinal.pre)).map (·.nextDigest) = some none ∧
    (after Ex.env ([.submit (.event Ex.icpFinal)] ++ [.submit (.event Ex.ixnFinal)])).kel Ex.icpFinal.pre
      = [Ex.icpFinal, Ex.ixnFinal] := by decide +kernel

end Keriox
