import Verif.Props.Exact
import Verif.Props.Named
/-!
# C122: all logs, from the events alone

C115 says which events are accepted.  Here the logs themselves are described: a machine of one step, which knows nothing of tables, keys, escrows and
crashes, and whose memory is a list of events for every identifier, has the same logs as the processor after every history.  The step
says which events enter a log, including those the processor leaves there by mistake.
-/
namespace Keriox

/-! ## Specification -/

/-- what C115 asks of an event, except for the signatures -/
structure Fits (env : Env) (kel : IdentifierPrefix → List SignedEvent) (e : SignedEvent) : Prop where
  /-- the identifier's log can be read back -/
  readable : Readable (kel e.pre)
  /-- the event has the next number -/
  number : e.sn = (kel e.pre).length
  /-- inceptions come first, and only inceptions do -/
  first : e.data.isInception = true ↔ kel e.pre = []
  /-- the log is that of the same identifier -/
  same : ∀ x ∈ kel e.pre, x.pre = e.pre
  /-- an inception's identifier is tied to its content -/
  bound : e.data.isInception = true → BoundTo env e.msg
  /-- any other event names the digest of the last one -/
  chained : ∀ x, (kel e.pre).getLast? = some x → e.data.previous? = some x.dig
  /-- a rotation reveals the keys and threshold committed to -/
  opened : ∀ r, e.data.rotation? = some r → ∃ kc n, keysInForce (kel e.pre) = some kc ∧ kc.nextDigest = some n ∧
    r.keyConfig.commit env n.derivation = n
  /-- a plain rotation is not one of a delegated identifier -/
  plain : ∀ r, e.data = .rot r → (kel e.pre).head?.bind (·.data.delegator?) = none
  /-- a delegated event is sealed by the event of its delegator that it points to -/
  sealed : e.data.isDelegated = true → ∃ d sl, (kel e.pre ++ [e]).head?.bind (·.data.delegator?) = some d ∧
    e.delegatorSeal = some sl ∧ SealedIn env (kel d) sl.sn e.msg

/-- the indices of the signatures crash the check of signatures (C23) -/
def CrashesOn (kc : KeyConfig) (sigs : List AttachedSignaturePrefix) : Prop :=
  (∃ c, kc.threshold = .single c ∧ ∃ s ∈ sigs, c.length ≤ s.index) ∨
  (kc.threshold.MetBy sigs ∧ sigs.length ≤ kc.publicKeys.length ∧ ∃ s ∈ sigs, kc.publicKeys.length ≤ s.index)

/-- the event enters the log: it fits, and if its bytes can be written at all, then the keys in force once it is applied have signed it, or its indices
crash the check, or it cannot be found again in the database to be removed -/
def Enters (env : Env) (kel : IdentifierPrefix → List SignedEvent) (e : SignedEvent) : Prop :=
  Fits env kel e ∧ ∀ kc bytes, keysInForce (kel e.pre ++ [e]) = some kc → e.msg.serialize env = .ok bytes →
    ValidSigs env kc bytes e.sigs ∨ CrashesOn kc e.sigs ∨ e.rt = false

open Classical in
/-- the machine's step: the event goes to the end of the log of its identifier, or nothing happens -/
noncomputable def enter (env : Env) (kel : IdentifierPrefix → List SignedEvent) (e : SignedEvent) : IdentifierPrefix → List SignedEvent :=
  fun id => if id.toStr = e.pre.toStr ∧ Enters env kel e then kel id ++ [e.stored] else kel id

/-- the machine after a sequence of events -/
noncomputable def ledger (env : Env) (es : List SignedEvent) : IdentifierPrefix → List SignedEvent := es.foldl (enter env) fun _ => []

/-- the events among the actions of a history -/
def eventsOf (as : List Action) : List SignedEvent := as.filterMap fun a => match a with
  | .submit (.event e) => some e
  | _ => none

/-- nothing is wrong with an event but, perhaps, that it is not acceptable: it can be written and read back, and its indices name keys and weights -/
structure Sane (env : Env) (kel : IdentifierPrefix → List SignedEvent) (e : SignedEvent) : Prop where
  writes : ∃ bytes, e.msg.serialize env = .ok bytes
  reads : e.rt = true
  indices : ∀ kc, keysInForce (kel e.pre ++ [e]) = some kc → ¬ CrashesOn kc e.sigs

/-! ## Proof -/

theorem fits_iff (env : Env) (as : List Action) (e : SignedEvent) (hid : e.pre.toStr ≠ []) {s : IdState}
    (hl : Log env e.pre.toStr ((after env as).kel e.pre) s) :
    Fits env (after env as).kel e ↔ Readable ((after env as).kel e.pre) ∧
      (checkDelegation mapOps env e (after env as).abs).1 = .ok () ∧
      ∃ new, e.msg.applyTo env s = .ok new := by
  have hklog : ∀ id, (after env as).abs.log id.toStr = (after env as).kel id := fun _ => rfl
  have F := hl.facts hid
  have hne0 : e.pre ≠ IdentifierPrefix.default := fun h => hid (by rw [h]; rfl)
  have hdel := hl.delegator hid
  constructor
  · intro A
    refine ⟨A.readable, ?_, ?_⟩
    · cases hd : e.data with
      | icp i => exact plain_checkDelegation env e _ (.inl ⟨i, hd⟩)
      | rot i => exact plain_checkDelegation env e _ (.inr (.inl ⟨i, hd⟩))
      | ixn i => exact plain_checkDelegation env e _ (.inr (.inr ⟨i, hd⟩))
      | dip d =>
        obtain ⟨d', sl, h1, h2, h3⟩ := A.sealed (by rw [hd]; rfl)
        rw [A.first.1 (by rw [hd]; rfl)] at h1
        simp only [List.nil_append, List.head?_cons, Option.bind_some, hd, EventData.delegator?, Option.some.injEq] at h1
        subst h1
        exact (dip_iff env _ e d hd).2 ⟨sl, h2, h3⟩
      | drt r =>
        obtain ⟨d', sl, h1, h2, h3⟩ := A.sealed (by rw [hd]; rfl)
        refine (drt_iff env (after env as).abs e r hd hid hl A.readable).2 ⟨d', sl, ?_, h2, h3⟩
        rw [List.head?_append] at h1
        show ((after env as).kel e.pre).head?.bind (·.data.delegator?) = some d'
        cases hh : ((after env as).kel e.pre).head? with
        | none => rw [hh] at h1; simp [hd, EventData.delegator?] at h1
        | some x => rw [hh] at h1; exact h1
    · have hap : ∃ new, e.msg.applyTo env s = .ok new := by
        refine applyTo_iff.2 ⟨fun hi => ?_, fun hi => ?_, fun r hr => ?_, fun r hr => ?_, fun r hr => ?_⟩
        · have h0 := A.first.1 hi
          rw [F.1 h0]
          exact ⟨rfl, by have := A.number; rw [h0] at this; exact this, A.bound hi⟩
        · have h0 : (after env as).kel e.pre ≠ [] := fun h => by
            have := A.first.2 h
            rw [show e.data.isInception = false from hi] at this; cases this
          obtain ⟨_, _, g3, g4⟩ := F.2.1 h0
          cases hlast : ((after env as).kel e.pre).getLast? with
          | none => exact absurd (List.getLast?_eq_none_iff.1 hlast) h0
          | some x =>
            obtain ⟨g5, g6⟩ := g4 x hlast
            have := A.same x (List.mem_of_getLast? hlast)
            refine ⟨by rw [g6, this], by have := A.number; rw [g3]; exact this, by rw [g5]; exact A.chained x hlast⟩
        · obtain ⟨kc, n, k1, k2, k3⟩ := A.opened r hr
          have h0 : (after env as).kel e.pre ≠ [] := by intro h; rw [h] at k1; cases k1
          rw [hl.keys hid h0] at k1
          obtain rfl := Option.some.inj k1
          exact verifyNext_iff.2 ⟨n, k2, k3⟩
        · rw [hdel]; exact A.plain r hr
        · obtain ⟨d', sl, h1, _⟩ := A.sealed (by rw [show e.data = .drt r from hr]; rfl)
          rw [hdel]
          rw [List.head?_append] at h1
          cases hh : ((after env as).kel e.pre).head? with
          | none => rw [hh] at h1; simp [show e.data = .drt r from hr, EventData.delegator?] at h1
          | some x => rw [hh] at h1; simp only [Option.some_or] at h1; rw [h1]; rfl
      exact hap
  · rintro ⟨hr, hcd, new, hap⟩
    have A := applyTo_ok hap
    have hfirst : e.data.isInception = true ↔ (after env as).kel e.pre = [] := by
      constructor
      · intro hi
        by_cases h0 : (after env as).kel e.pre = []
        · exact h0
        · exact absurd (A.incPre hi) (F.2.1 h0).1
      · intro h0
        cases hi : e.data.isInception with
        | true => rfl
        | false => rw [F.1 h0] at A; exact absurd (A.nextPre hi) hne0
    refine ⟨hr, ?_, hfirst, ?_, fun hi => (binding_iff hi).1 (A.incBind hi), ?_, ?_, ?_, ?_⟩
    · cases hi : e.data.isInception with
      | true => rw [A.incSn hi, hfirst.1 hi]; rfl
      | false =>
        have h0 : (after env as).kel e.pre ≠ [] := fun h => by rw [hfirst.2 h] at hi; cases hi
        rw [A.nextSn hi, (F.2.1 h0).2.2.1]
    · intro x hx
      obtain ⟨i, hi', rfl⟩ := List.mem_iff_getElem.1 hx
      have h0 : (after env as).kel e.pre ≠ [] := fun h => by rw [h] at hi'; simp at hi'
      have hi : e.data.isInception = false := by
        cases h : e.data.isInception with
        | false => rfl
        | true => exact absurd (hfirst.1 h) h0
      rw [(F.2.2 i _ (List.getElem?_eq_getElem hi')).2.1, A.nextPre hi]
    · intro x hx
      have h0 : (after env as).kel e.pre ≠ [] := fun h => by rw [h] at hx; cases hx
      have hi : e.data.isInception = false := by
        cases h : e.data.isInception with
        | false => rfl
        | true => exact absurd (hfirst.1 h) h0
      rw [A.prev hi, ((F.2.1 h0).2.2.2 x hx).1]
    · intro r hr'
      obtain ⟨n, k2, k3⟩ := verifyNext_iff.1 (A.rot r hr')
      have h0 : (after env as).kel e.pre ≠ [] := fun h => by
        have := hfirst.2 h
        cases hd : e.data <;> rw [hd] at this hr' <;> first | (cases this; done) | (cases hr'; done)
      exact ⟨s.current, n, hl.keys hid h0, k2, k3⟩
    · intro r hr'; rw [← hdel]; exact A.plain r hr'
    · intro hdl
      cases hd : e.data with
      | icp i => rw [hd] at hdl; cases hdl
      | rot i => rw [hd] at hdl; cases hdl
      | ixn i => rw [hd] at hdl; cases hdl
      | dip d =>
        obtain ⟨sl, h1, h2⟩ := (dip_iff env _ e d hd).1 hcd
        refine ⟨d.delegator, sl, ?_, h1, h2⟩
        rw [hfirst.1 (by rw [hd]; rfl)]
        simp [hd, EventData.delegator?]
      | drt r =>
        obtain ⟨d, sl, h0, h1, h2⟩ := (drt_iff env (after env as).abs e r hd hid hl hr).1 hcd
        refine ⟨d, sl, ?_, h1, h2⟩
        rw [List.head?_append]
        have h0' : ((after env as).kel e.pre).head?.bind (·.data.delegator?) = some d := h0
        cases hh : ((after env as).kel e.pre).head? with
        | none => rw [hh] at h0'; cases h0'
        | some x => rw [hh] at h0'; exact h0'


theorem enters_iff (env : Env) (as : List Action) (e : SignedEvent) (hid : e.pre.toStr ≠ []) :
    (Enters env (after env as).kel e → (after env (as ++ [.submit (.event e)])).kel e.pre = (after env as).kel e.pre ++ [e.stored]) ∧
    (¬ Enters env (after env as).kel e → (after env (as ++ [.submit (.event e)])).kel e.pre = (after env as).kel e.pre) := by
  obtain ⟨s, hl, ho⟩ := event_outcome env as e hid
  have F := fits_iff env as e hid hl
  have hk : ∀ as, (after env as).kel e.pre = (after env as).abs.log e.pre.toStr := fun _ => rfl
  rw [hk (as ++ _)]
  generalize hr : (process sled env (.event e) (after env as)).1 = r at ho
  generalize (after env (as ++ [.submit (.event e)])).abs = a' at ho
  cases ho with
  | refused h1 h2 h3 =>
    have hsame : a'.log e.pre.toStr = (after env as).abs.log e.pre.toStr := MapDb.log_congr h2 _
    refine ⟨fun h => ?_, fun _ => hsame⟩
    obtain ⟨f1, f2, new, f3⟩ := F.1 h.1
    rw [hk] at f1
    rcases h3 with ⟨er, h, _⟩ | ⟨h, _⟩ | ⟨_, ⟨h, _⟩ | ⟨_, er, h, _⟩ | ⟨_, h, _⟩⟩
    · rw [f2] at h; cases h
    · rw [f2] at h; cases h
    · exact absurd f1 h
    · rw [f3] at h; cases h
    · rw [f3] at h; cases h
  | stored h1 h2 h3 h4 h5 =>
    rename_i new
    have hfit : Fits env (after env as).kel e := F.2 ⟨by rw [hk]; exact h2, h1, new, h3⟩
    have hkeys := keys_after hid hl h3 rfl
    have hen : ∀ b, (∀ bytes, e.msg.serialize env = .ok bytes → bytes = b) →
        (ValidSigs env new.current b e.sigs ∨ CrashesOn new.current e.sigs ∨ e.rt = false) → Enters env (after env as).kel e := by
      refine fun b hb hv => ⟨hfit, fun kc bytes k1 k2 => ?_⟩
      rw [hkeys] at k1
      obtain rfl := Option.some.inj k1
      rw [hb bytes k2]; exact hv
    generalize a'.log e.pre.toStr = l' at h4 ⊢
    cases h4 with
    | accepted bytes g1 g2 =>
      exact ⟨fun _ => rfl, fun h => absurd (hen bytes (fun b hb => by rw [g1] at hb; exact (Res.ok.inj hb).symm) (.inl (validSigs_of_verify g2))) h⟩
    | undone bytes er g1 g2 g3 g4 g5 =>
      refine ⟨fun h => ?_, fun _ => rfl⟩
      rcases h.2 _ bytes hkeys g1 with h | h | h
      · exact absurd (verify_of_validSigs h) g2
      · exact absurd ((C23_panic_exact _ _ _ _).2 h) g3
      · rw [g4] at h; cases h
    | unreadable bytes er g1 g2 g3 g4 g5 =>
      exact ⟨fun _ => rfl, fun h => absurd (hen bytes (fun b hb => by rw [g1] at hb; exact (Res.ok.inj hb).symm) (.inr (.inr g4))) h⟩
    | noBytesErr er g1 =>
      exact ⟨fun _ => rfl, fun h => absurd ⟨hfit, fun _ _ _ k => by rw [g1] at k; cases k⟩ h⟩
    | noBytesPanic g1 =>
      exact ⟨fun _ => rfl, fun h => absurd ⟨hfit, fun _ _ _ k => by rw [g1] at k; cases k⟩ h⟩
    | panicked bytes g1 g2 =>
      exact ⟨fun _ => rfl, fun h => absurd (hen bytes (fun b hb => by rw [g1] at hb; exact (Res.ok.inj hb).symm) (.inr (.inl ((C23_panic_exact _ _ _ _).1 g2)))) h⟩

theorem eventsOf_snoc (as : List Action) (a : Action) : eventsOf (as ++ [a]) = eventsOf as ++ eventsOf [a] := List.filterMap_append

theorem ledger_snoc (env : Env) (es : List SignedEvent) (e : SignedEvent) : ledger env (es ++ [e]) = enter env (ledger env es) e := List.foldl_append

theorem mem_eventsOf {as : List Action} {e : SignedEvent} : e ∈ eventsOf as ↔ Action.submit (.event e) ∈ as := by
  unfold eventsOf
  rw [List.mem_filterMap]
  constructor
  · rintro ⟨a, ha, h⟩
    split at h
    · cases h; exact ha
    · cases h
  · exact fun h => ⟨_, h, rfl⟩

/-! ## C122 -/

/-- C122, one event: which events enter a log, exactly, whatever the processor answers. -/
theorem C122_step (env : Env) (as : List Action) (e : SignedEvent) (hid : e.pre.toStr ≠ []) :
    (after env (as ++ [.submit (.event e)])).kel = enter env (after env as).kel e := by
  funext id
  unfold enter
  by_cases ht : id.toStr = e.pre.toStr
  · have hid' := enters_iff env as e hid
    rw [kel_text _ ht, kel_text _ ht]
    split
    · rename_i h; exact hid'.1 h.2
    · rename_i h; exact hid'.2 fun hh => h ⟨ht, hh⟩
  · rw [if_neg fun h => ht h.1]
    show (after env (as ++ [_])).abs.log _ = (after env as).abs.log _
    have hb := process_abs env _ (after_inv env as) (.event e)
    rw [after_snoc, hb.2.1]
    have := processEvent_writes env e (after env as).abs .kels id.toStr (.inl ht)
    unfold MapDb.log
    exact congrArg (·.getD []) this

/-- C122: after every history, the logs of the processor are those of the machine, which has seen the submitted events and nothing else. -/
theorem C122_machine (env : Env) (as : List Action) (hn : ∀ e, Action.submit (.event e) ∈ as → e.pre.toStr ≠ []) :
    (after env as).kel = ledger env (eventsOf as) := by
  induction as using snoc_induction with
  | h0 => rfl
  | h1 as a ih =>
    have ih := ih fun e he => hn e (List.mem_append_left _ he)
    rw [eventsOf_snoc]
    by_cases ha : a.isEvent = true
    · cases a with
      | submit m =>
        cases m with
        | event e =>
          rw [C122_step env as e (hn e (List.mem_append_right _ List.mem_cons_self)), ih]
          exact (ledger_snoc _ _ _).symm
        | _ => cases ha
      | _ => cases ha
    · have hf : eventsOf [a] = [] := by
        cases a with
        | submit m => cases m <;> first | rfl | exact absurd rfl ha
        | _ => rfl
      rw [hf, List.append_nil, ← ih]
      funext id
      rw [← C101_only_events env (as ++ [a]) id, ← C101_only_events env as id, List.filter_append, List.filter_cons_of_neg ha, List.filter_nil, List.append_nil]

/-- C122: and the logs of a node are those of the machine that has seen, in order, the events the node took from the bytes it was given or made itself. -/
theorem C122_node (w : Around) (hb : w.env.Blake3Size) (hr : w.rd.toBinary.ReadsNames) (c : Controller) (hc : c.Keyed) (cs : List NodeCall)
    (hp : NamedCalls cs) : ∃ es, (w.after (c, Db.empty) cs).2.kel = ledger w.env es ∧
      ∀ e ∈ es, ∃ before call rest, cs = before ++ call :: rest ∧ (call.Received w (.event e) ∨ call.Made w (w.after (c, Db.empty) before).1 e) := by
  obtain ⟨as, h1, h2⟩ := node_keeps w (c, Db.empty) cs [] (.empty _)
  have hn : ∀ e, Action.submit (.event e) ∈ as → e.pre.toStr ≠ [] := by
    intro e he
    obtain ⟨before, call, rest, h3, h4⟩ := h2 e he
    rcases h4 with h4 | h4
    · rcases C121_received w hr call e h4 with h | rfl
      · exact h.1
      · exact (hp e (by rw [h3]; exact List.mem_append_right _ List.mem_cons_self)).1
    · exact (made_named hb (after_keyed hb before hc) h4).1
  refine ⟨eventsOf as, ?_, fun e he => h2 e (mem_eventsOf.1 he)⟩
  rw [← C122_machine w.env as hn]
  funext id
  exact h1.kel id

/-- C122: a sane event enters a log if and only if it is accepted; only events that are not can be left behind. -/
theorem C122_sane (env : Env) (as : List Action) (e : SignedEvent) (hid : e.pre.toStr ≠ []) (h : Sane env (after env as).kel e) :
    Enters env (after env as).kel e ↔ ∃ st, (process sled env (.event e) (after env as)).1 = .ok st := by
  obtain ⟨s, hl⟩ := after_log env as e.pre hid
  rw [C115_accepted_iff env as e hid, acceptable_iff env as e hid hl]
  obtain ⟨b, hb⟩ := h.writes
  constructor
  · rintro ⟨h1, h2⟩
    obtain ⟨f1, f2, new, f3⟩ := (fits_iff env as e hid hl).1 h1
    have hk := keys_after hid hl f3 rfl
    refine ⟨f1, f2, new, b, f3, hb, ?_⟩
    rcases h2 _ b hk hb with h3 | h3 | h3
    · exact verify_of_validSigs h3
    · exact absurd h3 (h.indices _ hk)
    · rw [h.reads] at h3; cases h3
  · rintro ⟨f1, f2, new, bytes, f3, f4, f5⟩
    refine ⟨(fits_iff env as e hid hl).2 ⟨f1, f2, new, f3⟩, fun kc bytes' k1 k2 => .inl ?_⟩
    rw [keys_after hid hl f3 rfl] at k1
    obtain rfl := Option.some.inj k1
    rw [f4] at k2
    obtain rfl := Res.ok.inj k2
    exact validSigs_of_verify f5

/-- C122: an accepted event always enters. -/
theorem C122_accepted_enters (env : Env) (as : List Action) (e : SignedEvent) (hid : e.pre.toStr ≠ []) (st : Option IdState)
    (h : (process sled env (.event e) (after env as)).1 = .ok st) : Enters env (after env as).kel e := by
  obtain ⟨s, hl⟩ := after_log env as e.pre hid
  obtain ⟨f1, f2, new, bytes, f3, f4, f5⟩ := (acceptable_iff env as e hid hl).1 ((C115_accepted_iff env as e hid).1 ⟨st, h⟩)
  refine ⟨(fits_iff env as e hid hl).2 ⟨f1, f2, new, f3⟩, fun kc bytes' k1 k2 => .inl ?_⟩
  rw [keys_after hid hl f3 rfl] at k1
  obtain rfl := Option.some.inj k1
  rw [f4] at k2
  obtain rfl := Res.ok.inj k2
  exact validSigs_of_verify f5

/-- C122: an event that enters without being accepted is answered by a panic or an error, all the same it is the last event of the log from then on (C01). -/
theorem C122_left_behind (env : Env) (as : List Action) (e : SignedEvent) (hid : e.pre.toStr ≠ []) (h : Enters env (after env as).kel e)
    (hn : ∀ st, (process sled env (.event e) (after env as)).1 ≠ .ok st) :
    (after env (as ++ [.submit (.event e)])).kel e.pre = (after env as).kel e.pre ++ [e.stored] ∧
    ((∀ bytes, e.msg.serialize env ≠ .ok bytes) ∨ e.rt = false ∨
      ∃ kc, keysInForce ((after env as).kel e.pre ++ [e]) = some kc ∧ CrashesOn kc e.sigs) := by
  refine ⟨(enters_iff env as e hid).1 h, ?_⟩
  by_cases h1 : ∃ bytes, e.msg.serialize env = .ok bytes
  · by_cases h2 : e.rt = true
    · refine .inr (.inr ?_)
      apply Classical.byContradiction
      intro h3
      obtain ⟨st, hst⟩ := (C122_sane env as e hid ⟨h1, h2, fun kc hk hc => h3 ⟨kc, hk, hc⟩⟩).1 h
      exact hn st hst
    · exact .inr (.inl (by cases hh : e.rt <;> simp_all))
  · exact .inl fun b hb => h1 ⟨b, hb⟩

/-! ## Examples -/

/-- an accepted rotation enters the log of the machine; a forged interaction with an index no key has enters it as well, though the processor crashes on
it; the same interaction with an index in range but a wrong signature does not -/
example :
    Enters Ex.env (after Ex.env [.submit (.event Ex.icp)]).kel Ex.rot ∧
    Enters Ex.env (after Ex.env [.submit (.event Ex.icp), .submit (.event Ex.rot)]).kel Ex.forgedIxn ∧
    (process sled Ex.env (.event Ex.forgedIxn) (after Ex.env [.submit (.event Ex.icp), .submit (.event Ex.rot)])).1 = .panic ∧
    ¬ Enters Ex.env (after Ex.env [.submit (.event Ex.icp), .submit (.event Ex.rot)]).kel ⟨Ex.ixn.msg, [], none⟩ := by
  refine ⟨?_, ?_, by decide +kernel, ?_⟩
  · have h : (process sled Ex.env (.event Ex.rot) (after Ex.env [.submit (.event Ex.icp)])).1.isOk = true := by decide +kernel
    obtain ⟨st, h⟩ := Res.ok_of_isOk h
    exact C122_accepted_enters _ _ _ (by decide +kernel) st h
  · apply Classical.byContradiction
    intro h
    have h1 := (enters_iff Ex.env [.submit (.event Ex.icp), .submit (.event Ex.rot)] Ex.forgedIxn (by decide +kernel)).2 h
    revert h1
    decide +kernel
  · intro h
    have h1 := (enters_iff Ex.env [.submit (.event Ex.icp), .submit (.event Ex.rot)] ⟨Ex.ixn.msg, [], none⟩ (by decide +kernel)).1 h
    revert h1
    decide +kernel

/-- the hypothesis of `C122_machine` and `Sane` are met -/
example : (∀ e, Action.submit (.event e) ∈ [Action.submit (.event Ex.icp), .reprocess, .submit (.event Ex.rot)] → e.pre.toStr ≠ []) ∧
    Sane Ex.env (after Ex.env [.submit (.event Ex.icp)]).kel Ex.rot := by
  constructor
  · intro e he
    simp only [List.mem_cons, List.not_mem_nil, or_false, Action.submit.injEq, Message.event.injEq, reduceCtorEq, false_or] at he
    rcases he with rfl | rfl <;> decide +kernel
  · have hs : (Ex.rot.msg.serialize Ex.env).isOk = true := by decide +kernel
    refine ⟨Res.ok_of_isOk hs, by decide +kernel, fun kc hk hc => ?_⟩
    have hv : (match keysInForce ((after Ex.env [.submit (.event Ex.icp)]).kel Ex.rot.pre ++ [Ex.rot]) with
        | some x => decide (x.verify Ex.env [] Ex.rot.sigs ≠ .panic)
        | none => false) = true := by decide +kernel
    rw [hk] at hv
    exact of_decide_eq_true hv ((C23_panic_exact Ex.env kc [] Ex.rot.sigs).2 hc)

end Keriox
