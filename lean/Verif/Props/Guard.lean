import Verif.Props.Ledger
import Verif.Props.Poison
import Verif.Props.Sync
import Verif.Props.Delegate
/-!
# C123: exactly when an event crashes the processor; C124: a check in front of it

C115 says which events are accepted.  Here the other extreme is settled: the events for which `process` never returns.  The conditions are stated
in terms of the stored logs and the event alone, and shown to be necessary and sufficient.  From them follows what a caller has to check before each
call so that every log stays signed and readable, and no call crashes.
-/
namespace Keriox

/-! ## Specification -/

/-- the identifier whose log has to hold the seal of a delegated event: a delegated inception names it, and for a delegated rotation
the first event of the log does -/
def delegatorFor (kel : IdentifierPrefix → List SignedEvent) (e : SignedEvent) : Option IdentifierPrefix :=
  match e.data with
  | .dip d => some d.delegator
  | .drt _ => (kel e.pre).head?.bind (·.data.delegator?)
  | _ => none

/-- looking for the seal of `m` under number `n` crashes: the log cannot be read, or the event there holds an event seal of which it cannot be decided
whether it names `m`, with none before it that does -/
def SearchCrashes (env : Env) (l : List SignedEvent) (n : Nat) (m : EventMessage) : Prop :=
  ¬ Readable l ∨ ∃ a before es rest, l.find? (fun x => x.sn = n) = some a ∧ a.data.isInception = false ∧
    a.data.seals = before ++ .event es :: rest ∧ ¬ Decided env m es.eventDigest ∧
    ∀ es', .event es' ∈ before → Decided env m es'.eventDigest ∧ ¬ NamesEvent env m es'.eventDigest

/-- inceptions for which tying identifier and content is not implemented: plain ones of a self-signing identifier, and delegated ones of any
identifier that is not a digest -/
def Unbindable (m : EventMessage) : Prop :=
  match m.event.content.data, m.event.content.prefix with
  | .icp _, .selfSigning _ => True
  | .dip _, .selfSigning _ => True
  | .dip _, .basic _ => True
  | _, _ => False

/-- the event passes the check of delegation -/
def Sealed (env : Env) (kel : IdentifierPrefix → List SignedEvent) (e : SignedEvent) : Prop :=
  e.data.isDelegated = true → ∃ d sl, delegatorFor kel e = some d ∧ e.delegatorSeal = some sl ∧ SealedIn env (kel d) sl.sn e.msg

/-- the four ways an event crashes the processor -/
inductive Crashes (env : Env) (kel : IdentifierPrefix → List SignedEvent) (e : SignedEvent) : Prop
  /-- looking for its seal in the delegator's log -/
  | search (d sl) : delegatorFor kel e = some d → e.delegatorSeal = some sl →
      SearchCrashes env (kel d) sl.sn e.msg → Crashes env kel e
  /-- reading its own log (a delegated inception gets there only with its seal found) -/
  | unreadable : ¬ Readable (kel e.pre) → (e.data.isInception = true → Sealed env kel e) → Crashes env kel e
  /-- tying the identifier to the content -/
  | unbindable : Readable (kel e.pre) → Sealed env kel e → Unbindable e.msg → Crashes env kel e
  /-- by the indices of the signatures of an event that fits -/
  | indices (kc bytes) : Fits env kel e → keysInForce (kel e.pre ++ [e]) = some kc → e.msg.serialize env = .ok bytes → CrashesOn kc e.sigs →
      Crashes env kel e

/-! ## Proof -/

theorem toDerivationData_np (env : Env) (m : EventMessage) : m.toDerivationData env ≠ .panic := by
  have hd : ∀ d c f, dummyInceptionBytes env d c f ≠ .panic := fun d c f =>
    Clean.bindRes (Clean.bindRes (Clean.encode _ _ _) fun _ => by intro h; cases h) fun _ => Clean.encode _ _ _
  unfold EventMessage.toDerivationData
  split
  · exact hd _ _ _
  · exact hd _ _ _
  · exact Clean.encode _ _ _

theorem checkDigest_np (env : Env) (m : EventMessage) (d : SelfAddressingPrefix) : m.checkDigest env d ≠ .panic := by
  unfold EventMessage.checkDigest
  split
  · intro h; cases h
  · exact Clean.bindRes (toDerivationData_np env m) fun _ => by intro h; cases h

theorem anySealMatches_panic {env : Env} {m : EventMessage} {l : List Seal} : anySealMatches env m l = .panic ↔
    ∃ before es rest, l = before ++ .event es :: rest ∧ ¬ Decided env m es.eventDigest ∧
      ∀ es', .event es' ∈ before → Decided env m es'.eventDigest ∧ ¬ NamesEvent env m es'.eventDigest := by
  induction l with
  | nil => simp [anySealMatches]
  | cons a l ih =>
    have skip : ∀ (b : Seal), (∀ es, b = .event es → Decided env m es.eventDigest ∧ ¬ NamesEvent env m es.eventDigest) →
        ((∃ before es rest, l = before ++ .event es :: rest ∧ ¬ Decided env m es.eventDigest ∧
          ∀ es', .event es' ∈ before → Decided env m es'.eventDigest ∧ ¬ NamesEvent env m es'.eventDigest) ↔
        ∃ before es rest, b :: l = before ++ .event es :: rest ∧ ¬ Decided env m es.eventDigest ∧
          ∀ es', .event es' ∈ before → Decided env m es'.eventDigest ∧ ¬ NamesEvent env m es'.eventDigest) := by
      intro b hb
      constructor
      · rintro ⟨before, es, rest, rfl, h1, h2⟩
        refine ⟨b :: before, es, rest, rfl, h1, ?_⟩
        intro es' h'
        rcases List.mem_cons.1 h' with h' | h'
        · exact hb es' h'.symm
        · exact h2 es' h'
      · rintro ⟨before, es, rest, h0, h1, h2⟩
        cases before with
        | nil =>
          obtain ⟨rfl, rfl⟩ := List.cons.inj h0
          exact absurd (hb es rfl).1 h1
        | cons c before =>
          obtain ⟨rfl, rfl⟩ := List.cons.inj h0
          exact ⟨before, es, rest, rfl, h1, fun es' h' => h2 es' (List.mem_cons_of_mem _ h')⟩
    have stop : ∀ es, (∀ b, m.checkDigest env es.eventDigest ≠ .ok b) →
        ∃ before es' rest, Seal.event es :: l = before ++ .event es' :: rest ∧ ¬ Decided env m es'.eventDigest ∧
          ∀ es'', .event es'' ∈ before → Decided env m es''.eventDigest ∧ ¬ NamesEvent env m es''.eventDigest :=
      fun es h => ⟨[], es, l, rfl, fun hd => by obtain ⟨b, hb⟩ := checkDigest_decided.2 hd; exact h b hb, by simp⟩
    cases a with
    | event es =>
      unfold anySealMatches
      cases hc : m.checkDigest env es.eventDigest with
      | ok b =>
        cases b with
        | true =>
          refine iff_of_false (by intro h; cases h) ?_
          rintro ⟨before, es', rest, h0, h1, h2⟩
          cases before with
          | nil => obtain ⟨h3, rfl⟩ := List.cons.inj h0; cases h3; exact h1 (checkDigest_decided.1 ⟨_, hc⟩)
          | cons c before => obtain ⟨rfl, rfl⟩ := List.cons.inj h0; exact (h2 es (by simp)).2 (checkDigest_iff.1 hc)
        | false =>
          dsimp only
          rw [ih]
          refine skip _ ?_
          intro es' h'
          cases h'
          exact ⟨checkDigest_decided.1 ⟨_, hc⟩, fun hn => by rw [checkDigest_iff.2 hn] at hc; cases hc⟩
      | err er => exact iff_of_true rfl (stop es fun b h => by rw [hc] at h; cases h)
      | panic => exact iff_of_true rfl (stop es fun b h => by rw [hc] at h; cases h)
    | _ =>
      unfold anySealMatches
      rw [ih]
      exact skip _ (by intro es h; cases h)

theorem validateSeal_panic (env : Env) (a : MapDb) (sl : EventSeal) (m : EventMessage) :
    (validateSeal mapOps env sl m a).1 = .panic ↔ SearchCrashes env (a.log sl.prefix.toStr) sl.sn m := by
  have hg := getEventAtSn_local sl.prefix sl.sn a
  unfold validateSeal SearchCrashes
  rw [StM.bind_run]
  have hr := result_fst (getEventAtSn mapOps sl.prefix sl.sn) a
  rw [hg] at hr
  generalize (getEventAtSn mapOps sl.prefix sl.sn).result a = q at hr
  obtain ⟨q1, q2⟩ := q
  dsimp only at hr
  subst hr
  by_cases hrd : (a.log sl.prefix.toStr).all SignedEvent.rt = true
  · rw [if_pos hrd]
    have hR : Readable (a.log sl.prefix.toStr) := (readable_iff _).1 hrd
    dsimp only
    cases hf : (a.log sl.prefix.toStr).find? fun e => e.sn = sl.sn with
    | none => exact iff_of_false (by intro h; cases h) (by rintro (h | ⟨a, _, _, _, h, _⟩); exact h hR; cases h)
    | some x =>
      dsimp only
      rw [anchors_iff]
      cases hi : x.data.isInception with
      | true =>
        refine iff_of_false (by intro h; cases h) ?_
        rintro (h | ⟨y, _, _, _, h, h', _⟩)
        · exact h hR
        · obtain rfl := Option.some.inj h
          rw [hi] at h'; cases h'
      | false =>
        simp only [Bool.false_eq_true, if_false]
        rw [StM.bind_run]
        have : (∃ before es rest, x.data.seals = before ++ .event es :: rest ∧ ¬ Decided env m es.eventDigest ∧
            ∀ es', .event es' ∈ before → Decided env m es'.eventDigest ∧ ¬ NamesEvent env m es'.eventDigest) ↔
            (¬ Readable (a.log sl.prefix.toStr) ∨ ∃ y before es rest, some x = some y ∧ y.data.isInception = false ∧
              y.data.seals = before ++ .event es :: rest ∧ ¬ Decided env m es.eventDigest ∧
              ∀ es', .event es' ∈ before → Decided env m es'.eventDigest ∧ ¬ NamesEvent env m es'.eventDigest) := by
          constructor
          · rintro ⟨b, es, r, h⟩; exact .inr ⟨x, b, es, r, rfl, hi, h⟩
          · rintro (h | ⟨y, b, es, r, h, _, h'⟩)
            · exact absurd hR h
            · obtain rfl := Option.some.inj h
              exact ⟨b, es, r, h'⟩
        rw [← this, ← anySealMatches_panic]
        unfold StM.lift
        cases anySealMatches env m x.data.seals with
        | ok b => cases b <;> simp [StM.fail, StM.lift, Pure.pure]
        | err er => simp
        | panic => simp
  · rw [if_neg hrd]
    exact iff_of_true rfl (.inl fun h => hrd ((readable_iff _).2 h))

/-- the check of delegation, on the logs -/
theorem checkDelegation_exact (env : Env) (a : MapDb) (kel : IdentifierPrefix → List SignedEvent) (hk : ∀ id, a.log id.toStr = kel id)
    (e : SignedEvent) (hid : e.pre.toStr ≠ []) {s : IdState} (hl : Log env e.pre.toStr (a.log e.pre.toStr) s) :
    ((checkDelegation mapOps env e a).1 = .panic ↔
      (∃ r, e.data = .drt r ∧ ¬ Readable (kel e.pre)) ∨
      ((∀ r, e.data = .drt r → Readable (kel e.pre)) ∧ ∃ d sl, delegatorFor kel e = some d ∧ e.delegatorSeal = some sl ∧
        SearchCrashes env (kel d) sl.sn e.msg)) ∧
    ((∀ r, e.data = .drt r → Readable (kel e.pre)) → ((checkDelegation mapOps env e a).1 = .ok () ↔ Sealed env kel e)) := by
  have plain : ∀ (_ : e.data.isDelegated = false), (checkDelegation mapOps env e a).1 = .ok () ∧ delegatorFor kel e = none := by
    intro h
    unfold checkDelegation delegatorFor
    cases hd : e.data <;> rw [hd] at h <;> first | exact ⟨rfl, rfl⟩ | cases h
  cases hdl : e.data.isDelegated with
  | false =>
    obtain ⟨p1, p2⟩ := plain hdl
    refine ⟨iff_of_false (by rw [p1]; intro h; cases h) ?_, fun _ => iff_of_true p1 (by intro h; rw [hdl] at h; cases h)⟩
    rintro (⟨r, h, _⟩ | ⟨_, d, _, h, _⟩)
    · rw [h] at hdl; cases hdl
    · rw [p2] at h; cases h
  | true =>
    cases hd : e.data with
    | icp i => rw [hd] at hdl; cases hdl
    | rot i => rw [hd] at hdl; cases hdl
    | ixn i => rw [hd] at hdl; cases hdl
    | dip d =>
      have hf : delegatorFor kel e = some d.delegator := by unfold delegatorFor; rw [hd]
      constructor
      · rw [hf]
        unfold checkDelegation
        rw [hd]
        dsimp only
        cases hs : e.delegatorSeal with
        | none =>
          refine iff_of_false (by intro h; cases h) ?_
          rintro (⟨r, h, _⟩ | ⟨_, _, _, _, h, _⟩) <;> cases h
        | some sl =>
          dsimp only
          rw [validateSeal_panic]
          dsimp only
          rw [hk]
          constructor
          · intro h; exact .inr ⟨fun _ hh => by (cases hh), d.delegator, sl, rfl, rfl, h⟩
          · rintro (⟨r, h, _⟩ | ⟨_, d', sl', h1, h2, h3⟩)
            · cases h
            · obtain rfl := Option.some.inj h1
              obtain rfl := Option.some.inj h2
              exact h3
      · intro _
        rw [dip_iff env a e d hd, hk]
        unfold Sealed
        rw [hf]
        constructor
        · rintro ⟨sl, h1, h2⟩ _; exact ⟨_, sl, rfl, h1, h2⟩
        · intro h
          obtain ⟨d', sl, h1, h2, h3⟩ := h (by rw [hd]; rfl)
          obtain rfl := Option.some.inj h1
          exact ⟨sl, h2, h3⟩
    | drt r =>
      have hf : delegatorFor kel e = (kel e.pre).head?.bind (·.data.delegator?) := by unfold delegatorFor; rw [hd]
      have hdel := hl.delegator hid
      constructor
      · by_cases hR : Readable (kel e.pre)
        · rw [hf, ← hk e.pre, ← hdel]
          unfold checkDelegation
          rw [hd]
          dsimp only
          rw [StM.bind_run, computeState_run]
          have hrt := (readable_iff _).2 hR
          rw [← hk] at hrt hR
          have hno : ¬ ∃ r', EventData.drt r = .drt r' ∧ ¬ Readable (a.log e.pre.toStr) := fun ⟨_, _, h⟩ => h hR
          rw [or_iff_right hno, and_iff_right fun _ _ => hR]
          unfold MapDb.log at hl hrt
          cases hkk : a.tables .kels e.pre.toStr with
          | none =>
            rw [hkk] at hl
            have := (hl.facts hid).1 rfl
            subst this
            exact iff_of_false (by intro h; cases h) (by rintro ⟨d, _, h, _⟩; cases h)
          | some l =>
            rw [hkk] at hl hrt
            dsimp only [Option.getD_some] at hl hrt ⊢
            rw [if_pos hrt, hl.foldState hid]
            dsimp only
            cases hs : s.delegator with
            | none => exact iff_of_false (by intro h; cases h) (by rintro ⟨d, _, h, _⟩; cases h)
            | some del =>
              dsimp only
              cases hsl : e.delegatorSeal with
              | none => exact iff_of_false (by intro h; cases h) (by rintro ⟨d, _, _, h, _⟩; cases h)
              | some sl =>
                dsimp only
                rw [validateSeal_panic]
                dsimp only
                rw [MapDb.log_congr (MapDb.touch_tables a e.pre.toStr), hk]
                constructor
                · intro h; exact ⟨del, sl, rfl, rfl, h⟩
                · rintro ⟨d, sl', h1, h2, h3⟩
                  obtain rfl := Option.some.inj h1
                  obtain rfl := Option.some.inj h2
                  exact h3
        · refine iff_of_true ?_ (.inl ⟨r, rfl, hR⟩)
          unfold checkDelegation
          rw [hd]
          dsimp only
          rw [StM.bind_run, computeState_run]
          rw [← hk, ← readable_iff] at hR
          unfold MapDb.log at hR
          cases hkk : a.tables .kels e.pre.toStr with
          | none => rw [hkk] at hR; exact absurd rfl hR
          | some l =>
            rw [hkk] at hR
            dsimp only [Option.getD_some] at hR ⊢
            rw [if_neg hR]
      · intro hR
        have hR := hR r rfl
        rw [drt_iff env a e r hd hid hl (by rw [hk]; exact hR), hk]
        unfold Sealed
        rw [hf]
        constructor
        · rintro ⟨d, sl, h1, h2, h3⟩ _; exact ⟨d, sl, h1, h2, by rw [← hk]; exact h3⟩
        · intro h
          obtain ⟨d, sl, h1, h2, h3⟩ := h (by rw [hd]; rfl)
          exact ⟨d, sl, h1, h2, by rw [hk]; exact h3⟩

theorem applyTo_panic {env : Env} {m : EventMessage} {s : IdState} : m.applyTo env s = .panic ↔ Unbindable m := by
  have hce : checkEventDigest env m ≠ .panic :=
    Clean.bindRes (checkDigest_np env m _) fun b => by cases b <;> intro h <;> cases h
  have bnd : ∀ (x : Res Bool), x ≠ .panic → (x >>= fun b => if b then m.event.content.applyTo env { s with lastDigest := m.event.digest }
      else Res.err (.semantic "Invalid Identifier Prefix Binding")) ≠ .panic := fun x hx =>
    Clean.bindRes hx fun b => by cases b; intro h; cases h; exact eventApply_no_panic _ _ _
  unfold EventMessage.applyTo Unbindable
  cases hd : m.event.content.data with
  | icp x =>
    cases hp : m.event.content.prefix with
    | basic bp => exact iff_of_false (by dsimp only; unfold verifyIdentifierBinding; rw [hd, hp]; exact bnd _ (by intro h; cases h)) id
    | selfAddressing d =>
      refine iff_of_false ?_ id
      dsimp only; unfold verifyIdentifierBinding; rw [hd, hp]
      exact bnd _ (Clean.bindRes (checkDigest_np env m d) fun _ => by intro h; cases h)
    | selfSigning d => exact iff_of_true (by dsimp only; unfold verifyIdentifierBinding; rw [hd, hp]; rfl) trivial
  | dip x =>
    cases hp : m.event.content.prefix with
    | basic bp => exact iff_of_true (by dsimp only; unfold verifyIdentifierBinding; rw [hd, hp]; rfl) trivial
    | selfAddressing d =>
      refine iff_of_false ?_ id
      dsimp only; unfold verifyIdentifierBinding; rw [hd, hp]
      exact bnd _ (checkDigest_np env m d)
    | selfSigning d => exact iff_of_true (by dsimp only; unfold verifyIdentifierBinding; rw [hd, hp]; rfl) trivial
  | rot x =>
    refine iff_of_false (Clean.bindRes hce fun _ => ?_) (by simp)
    split
    · intro h; cases h
    · exact Clean.bindRes (eventApply_no_panic _ _ _) fun _ => chain_no_panic _ _ _ _
  | drt x =>
    refine iff_of_false (Clean.bindRes (eventApply_no_panic _ _ _) fun _ => Clean.bindRes hce fun _ => ?_) (by simp)
    split
    · intro h; cases h
    · exact chain_no_panic _ _ _ _
  | ixn x =>
    exact iff_of_false (Clean.bindRes hce fun _ => Clean.bindRes (eventApply_no_panic _ _ _) fun _ => chain_no_panic _ _ _ _) (by simp)

/-! ## C123 -/

/-- C123: `process` crashes on an event if and only if one of the four conditions holds; they mention nothing but the stored logs and the event. -/
theorem C123_crash_exact (env : Env) (as : List Action) (e : SignedEvent) (hid : e.pre.toStr ≠ []) :
    (process sled env (.event e) (after env as)).1 = .panic ↔ Crashes env (after env as).kel e := by
  obtain ⟨s, hl, ho⟩ := event_outcome env as e hid
  have hk : ∀ id, (after env as).abs.log id.toStr = (after env as).kel id := fun _ => rfl
  have F := fits_iff env as e hid hl
  obtain ⟨D1, D2⟩ := checkDelegation_exact env (after env as).abs (after env as).kel hk e hid hl
  have hap := applyTo_panic (env := env) (m := e.msg) (s := s)
  constructor
  · intro h
    rw [h] at ho
    generalize (after env (as ++ [.submit (.event e)])).abs = a' at ho
    generalize hr : (Res.panic : Res (Option IdState)) = r at ho
    cases ho with
    | refused h1 h2 h3 =>
      rcases h3 with ⟨er, _, h⟩ | ⟨h, _⟩ | ⟨h0, h3⟩
      · rw [h] at hr; cases hr
      · rcases D1.1 h with ⟨r', hd, hR⟩ | ⟨_, d, sl, h1, h2, h3⟩
        · exact .unreadable hR fun hi => by rw [hd] at hi; cases hi
        · exact .search d sl h1 h2 h3
      · have hdrt : ∀ r, e.data = .drt r → Readable ((after env as).kel e.pre) := fun r hd => by
          apply Classical.byContradiction
          intro hR
          rw [D1.2 (.inl ⟨r, hd, hR⟩)] at h0; cases h0
        have hs := (D2 hdrt).1 h0
        rcases h3 with ⟨h, _⟩ | ⟨_, er, _, h⟩ | ⟨h1, h2, _⟩
        · exact .unreadable h fun _ => hs
        · rw [h] at hr; cases hr
        · exact .unbindable h1 hs (hap.1 h2)
    | @stored new h1 h2 h3 h4 h5 =>
      have hfit : Fits env (after env as).kel e := F.2 ⟨h2, h1, new, h3⟩
      have hkeys := keys_after hid hl h3 rfl
      generalize a'.log e.pre.toStr = l' at h4
      cases h4 with
      | accepted => cases hr
      | undone => cases hr
      | unreadable => cases hr
      | noBytesErr => cases hr
      | noBytesPanic h => exact absurd h (Clean.encode _ _ _)
      | panicked bytes g1 g2 => exact .indices _ bytes hfit hkeys g1 ((C23_panic_exact _ _ _ _).1 g2)
  · intro h
    generalize (process sled env (.event e) (after env as)).1 = r at ho
    generalize (after env (as ++ [.submit (.event e)])).abs = a' at ho
    have notok : (checkDelegation mapOps env e (after env as).abs).1 = .panic → r = .panic := by
      intro hc
      cases ho with
      | refused h1 h2 h3 =>
        rcases h3 with ⟨er, h, _⟩ | ⟨_, h⟩ | ⟨h, _⟩
        · rw [hc] at h; cases h
        · exact h
        · rw [hc] at h; cases h
      | stored h1 => rw [hc] at h1; cases h1
    cases h with
    | search d sl h1 h2 h3 =>
      refine notok (D1.2 ?_)
      by_cases hdrt : ∃ r, e.data = .drt r ∧ ¬ Readable ((after env as).kel e.pre)
      · exact .inl hdrt
      · exact .inr ⟨fun r hr => Classical.byContradiction fun hR => hdrt ⟨r, hr, hR⟩, d, sl, h1, h2, h3⟩
    | unreadable hR hs =>
      by_cases hdrt : ∃ r, e.data = .drt r
      · obtain ⟨r', hd⟩ := hdrt
        exact notok (D1.2 (.inl ⟨r', hd, hR⟩))
      · have hd : ∀ r, e.data = .drt r → Readable ((after env as).kel e.pre) := fun r hr => absurd ⟨r, hr⟩ hdrt
        have hse : Sealed env (after env as).kel e := by
          intro hdl
          cases hdd : e.data with
          | dip d => exact hs (by rw [hdd]; rfl) hdl
          | drt r => exact absurd ⟨r, hdd⟩ hdrt
          | _ => rw [hdd] at hdl; cases hdl
        have hc := (D2 hd).2 hse
        cases ho with
        | refused h1 h2 h3 =>
          rcases h3 with ⟨er, h, _⟩ | ⟨h, _⟩ | ⟨_, ⟨_, h⟩ | ⟨h, _⟩ | ⟨h, _⟩⟩
          · rw [hc] at h; cases h
          · rw [hc] at h; cases h
          · exact h
          · exact absurd h hR
          · exact absurd h hR
        | stored h1 h2 => exact absurd h2 hR
    | unbindable hR hs hu =>
      have hc := (D2 fun _ _ => hR).2 hs
      have hp := hap.2 hu
      cases ho with
      | refused h1 h2 h3 =>
        rcases h3 with ⟨er, h, _⟩ | ⟨h, _⟩ | ⟨_, ⟨_, h⟩ | ⟨_, er, h, _⟩ | ⟨_, _, h⟩⟩
        · rw [hc] at h; cases h
        · rw [hc] at h; cases h
        · exact h
        · rw [hp] at h; cases h
        · exact h
      | stored h1 h2 h3 => rw [hp] at h3; cases h3
    | indices kc bytes hf hkc hb hcr =>
      obtain ⟨f1, f2, new, f3⟩ := F.1 hf
      rw [keys_after hid hl f3 rfl] at hkc
      obtain rfl := Option.some.inj hkc
      have hv := (C23_panic_exact env new.current bytes e.sigs).2 hcr
      cases ho with
      | refused h1 h2 h3 =>
        rcases h3 with ⟨er, h, _⟩ | ⟨h, _⟩ | ⟨_, ⟨h, _⟩ | ⟨_, er, h, _⟩ | ⟨_, h, _⟩⟩
        · rw [f2] at h; cases h
        · rw [f2] at h; cases h
        · exact absurd f1 h
        · rw [f3] at h; cases h
        · rw [f3] at h; cases h
      | @stored new' h1 h2 h3 h4 h5 =>
        rw [f3] at h3
        obtain rfl := Res.ok.inj h3
        generalize a'.log e.pre.toStr = l' at h4
        cases h4 with
        | accepted b g1 g2 => rw [g1] at hb; obtain rfl := Res.ok.inj hb; rw [hv] at g2; cases g2
        | undone b er g1 g2 g3 => rw [g1] at hb; obtain rfl := Res.ok.inj hb; exact absurd hv g3
        | unreadable b er g1 g2 g3 => rw [g1] at hb; obtain rfl := Res.ok.inj hb; exact absurd hv g3
        | noBytesErr er g1 => rw [g1] at hb; cases hb
        | noBytesPanic => rfl
        | panicked => rfl

/-- C123 for JSON events and readable logs: only two conditions are left, an identifier of a kind that is not implemented and indices that name no
key or weight. -/
theorem C123_json (env : Env) (as : List Action) (e : SignedEvent) (hid : e.pre.toStr ≠ []) (hj : e.msg.info.kind = .json)
    (hr : ∀ id, Readable ((after env as).kel id)) :
    (process sled env (.event e) (after env as)).1 = .panic ↔
      (Sealed env (after env as).kel e ∧ Unbindable e.msg) ∨
      (Fits env (after env as).kel e ∧ ∃ kc, keysInForce ((after env as).kel e.pre ++ [e]) = some kc ∧ CrashesOn kc e.sigs) := by
  rw [C123_crash_exact env as e hid]
  constructor
  · intro h
    cases h with
    | search d sl h1 h2 h3 =>
      rcases h3 with h3 | ⟨_, _, es, _, _, _, _, h3, _⟩
      · exact absurd (hr d) h3
      · exact absurd (checkDigest_decided.1 (checkDigest_json env e.msg hj es.eventDigest)) h3
    | unreadable h1 => exact absurd (hr _) h1
    | unbindable h1 h2 h3 => exact .inl ⟨h2, h3⟩
    | indices kc b h1 h2 h3 h4 => exact .inr ⟨h1, kc, h2, h4⟩
  · rintro (⟨h1, h2⟩ | ⟨h1, kc, h2, h3⟩)
    · exact .unbindable (hr _) h1 h2
    · have : ∃ b, e.msg.serialize env = .ok b := by
        unfold EventMessage.serialize
        rw [hj]
        exact ⟨_, rfl⟩
      obtain ⟨b, hb⟩ := this
      exact .indices kc b h1 h2 hb h3

/-! ## C124: a check in front of the processor -/

/-- the caller checks every event before submitting it: its identifier has a text, it can be written and read back, and its indices name keys and weights of the
keys that will be in force -/
def Guarded (env : Env) (as : List Action) : Prop :=
  ∀ before e rest, as = before ++ .submit (.event e) :: rest → e.pre.toStr ≠ [] ∧ Sane env (after env before).kel e

theorem Guarded.init {env : Env} {as bs : List Action} (h : Guarded env (as ++ bs)) : Guarded env as :=
  fun before e rest he => h before e (rest ++ bs) (by rw [he]; simp)

theorem Guarded.last {env : Env} {as : List Action} {e : SignedEvent} (h : Guarded env (as ++ [.submit (.event e)])) :
    e.pre.toStr ≠ [] ∧ Sane env (after env as).kel e := h as e [] rfl

/-- C124: the keys the caller has to look at are those of the event, or those that `compute_state` shows. -/
theorem C124_keys (env : Env) (as : List Action) (e : SignedEvent) (hid : e.pre.toStr ≠ []) (s : IdState)
    (hs : (computeState sled env e.pre (after env as)).1 = .ok (some s)) (hne : (after env as).kel e.pre ≠ []) :
    keysInForce ((after env as).kel e.pre ++ [e]) = some (e.data.keyConfig?.getD s.current) := by
  obtain ⟨s', hl⟩ := after_log env as e.pre hid
  have : s' = s := by
    have h := (computeState_sim sled_sim env e.pre _ (after_inv env as)).1
    rw [hs, computeState_run] at h
    have hl' : Log env e.pre.toStr (((after env as).abs.tables .kels e.pre.toStr).getD []) s' := hl
    cases hk : (after env as).abs.tables .kels e.pre.toStr with
    | none => rw [hk] at h; cases h
    | some l =>
      rw [hk] at h hl'
      dsimp only [Option.getD_some] at h hl'
      split at h
      · rw [hl'.foldState hid] at h
        exact Option.some.inj (Res.ok.inj h.symm)
      · cases h
  subst this
  rw [keysInForce_snoc, hl.keys hid hne]
  cases e.data.keyConfig? <;> rfl

/-- C124: indices that are in range of the keys, and of the weights of a single clause, are good enough. -/
theorem C124_indices (env : Env) (kel : IdentifierPrefix → List SignedEvent) (e : SignedEvent) (hw : ∃ bytes, e.msg.serialize env = .ok bytes) (hr : e.rt = true)
    (hi : ∀ kc, keysInForce (kel e.pre ++ [e]) = some kc → (∀ s ∈ e.sigs, s.index < kc.publicKeys.length) ∧
      ∀ c, kc.threshold = .single c → ∀ s ∈ e.sigs, s.index < c.length) : Sane env kel e := by
  refine ⟨hw, hr, fun kc hk h => ?_⟩
  obtain ⟨h1, h2⟩ := hi kc hk
  rcases h with ⟨c, hc, s, hs, hl⟩ | ⟨_, _, s, hs, hl⟩
  · have := h2 c hc s hs; omega
  · have := h1 s hs; omega

/-- C124: then an event that is not accepted changes no log, and an accepted one is added to the log of its identifier and to no other. -/
theorem C124_all_or_nothing (env : Env) (as : List Action) (e : SignedEvent) (h : Guarded env (as ++ [.submit (.event e)])) (id : IdentifierPrefix) :
    ((∃ st, (process sled env (.event e) (after env as)).1 = .ok st) → id.toStr = e.pre.toStr →
      (after env (as ++ [.submit (.event e)])).kel id = (after env as).kel id ++ [e.stored]) ∧
    (¬ (∃ st, (process sled env (.event e) (after env as)).1 = .ok st) ∨ id.toStr ≠ e.pre.toStr →
      (after env (as ++ [.submit (.event e)])).kel id = (after env as).kel id) := by
  obtain ⟨h1, h2⟩ := h.last
  rw [C122_step env as e h1, ← C122_sane env as e h1 h2]
  unfold enter
  refine ⟨fun a b => if_pos ⟨b, a⟩, fun a => if_neg fun b => ?_⟩
  rcases a with a | a
  · exact a b.2
  · exact a b.1

/-- C124: and every log can be read back, and every event of every log is signed by the keys in force; this is C02 without its exceptions. -/
theorem C124_signed (env : Env) (as : List Action) (h : Guarded env as) (id : IdentifierPrefix) :
    Readable ((after env as).kel id) ∧ ∀ i, i < ((after env as).kel id).length → SignedInForce env ((after env as).kel id) i := by
  by_cases hid : id.toStr = []
  · have : (after env as).kel id = [] := by
      show (after env as).abs.log id.toStr = []
      rw [hid]
      refine log_untouched _ _ _ fun e he => ?_
      obtain ⟨b, r, hbr⟩ := List.append_of_mem he
      exact (h b e r hbr).1
    rw [this]
    exact ⟨fun _ he => by (cases he), fun i hi => absurd hi (Nat.not_lt_zero _)⟩
  induction as using snoc_induction with
  | h0 => exact ⟨fun _ he => by (cases he), fun i hi => absurd hi (Nat.not_lt_zero _)⟩
  | h1 as a ih =>
    obtain ⟨i1, i2⟩ := ih h.init
    rcases C01_one_step env as a id hid with hs | ⟨e, rfl, hp, hs⟩
    · rw [hs]; exact ⟨i1, i2⟩
    · obtain ⟨g1, g2⟩ := h.last
      have hk : (after env as).kel id = (after env as).kel e.pre := kel_text _ hp.symm
      have hok : ∃ st, (process sled env (.event e) (after env as)).1 = .ok st := by
        apply Classical.byContradiction
        intro hn
        have := (C124_all_or_nothing env as e h id).2 (.inl hn)
        rw [hs] at this
        simp at this
      have hen := (C122_sane env as e g1 g2).2 hok
      refine ⟨?_, fun i hi => ?_⟩
      · rw [hs]
        intro x hx
        rcases List.mem_append.1 hx with hx | hx
        · exact i1 x hx
        · rw [List.mem_singleton.1 hx, rt_stored]; exact g2.reads
      · by_cases hlt : i < ((after env as).kel id).length
        · exact signedInForce_prefix (i2 i hlt) (by rw [hs]; exact List.prefix_append _ _)
        · have hi' : i = ((after env as).kel id).length := by rw [hs] at hi; simp at hi; omega
          subst hi'
          obtain ⟨s, hl⟩ := after_log env as e.pre g1
          obtain ⟨f1, f2, new, f3⟩ := (fits_iff env as e g1 hl).1 hen.1
          have hkeys := keys_after g1 hl f3 rfl
          obtain ⟨b, hb⟩ := g2.writes
          refine ⟨e.stored, new.current, b, by rw [hs]; simp, ?_, hb, ?_⟩
          · rw [hs, List.take_of_length_le (by simp), hk, keysInForce_snoc]
            rw [keysInForce_snoc] at hkeys
            exact hkeys
          · rcases hen.2 _ b hkeys hb with h3 | h3 | h3
            · exact h3
            · exact absurd h3 (g2.indices _ hkeys)
            · rw [g2.reads] at h3; cases h3

/-- C124: and a JSON event crashes nothing, unless its identifier is of a kind that is not implemented. -/
theorem C124_no_crash (env : Env) (as : List Action) (e : SignedEvent) (h : Guarded env (as ++ [.submit (.event e)])) (hj : e.msg.info.kind = .json)
    (hu : ¬ Unbindable e.msg) :
    (process sled env (.event e) (after env as)).1 ≠ .panic := by
  obtain ⟨g1, g2⟩ := h.last
  rw [Ne, C123_crash_exact env as e g1]
  intro hc
  cases hc with
  | search d sl h1 h2 h3 =>
    rcases h3 with h3 | ⟨_, _, es, _, _, _, _, h3, _⟩
    · exact h3 (C124_signed env as h.init d).1
    · exact h3 (checkDigest_decided.1 (checkDigest_json env e.msg hj es.eventDigest))
  | unreadable h1 => exact h1 (C124_signed env as h.init e.pre).1
  | unbindable _ _ h3 => exact hu h3
  | indices kc b h1 h2 h3 h4 => exact g2.indices kc h2 h4

/-! ## Examples -/

/-- a delegated inception of a basic identifier, and a delegated inception in CBOR (which the environment below cannot write) with a digest of another
algorithm -/
def Ex.dipBasic : SignedEvent :=
  { Ex.dip with msg := { Ex.dip.msg with event := { Ex.dip.msg.event with content := { Ex.dip.msg.event.content with «prefix» := .basic (key 9) } } } }
def Ex.dipCbor : SignedEvent :=
  { Ex.dip with msg := ⟨SerInfo.new .cbor 0, { Ex.dip.msg.event with digest := ⟨.sha2_256, Ex.dip.msg.event.digest.digest⟩ }⟩ }

def Ex.envNoCbor : Env := { Ex.env with cbor := fun _ => none }

/-- each of the four ways out happens: the seals of the delegator cannot be decided; the log of the identifier cannot be read; the identifier of a
delegated event is a key; an index names no key -/
example :
    (process sled Ex.envNoCbor (.event Ex.dipCbor) (after Ex.envNoCbor (Ex.delHist Ex.dipSeal))).1 = .panic ∧
    (process sled Ex.env (.event Ex.dipBasic) (after Ex.env (Ex.delHist Ex.dipSeal))).1 = .panic ∧ Unbindable Ex.dipBasic.msg ∧
    (process sled Ex.env (.event Ex.icpK1) (after Ex.env [.submit (.event Ex.icpK1)])).1 = .panic ∧
    (process sled Ex.env (.event Ex.forgedIxn) (after Ex.env [.submit (.event Ex.icp), .submit (.event Ex.rot)])).1 = .panic ∧
    (process sled Ex.env (.event Ex.dip) (after Ex.env (Ex.delHist Ex.dipSeal))).1.isOk = true := by
  refine ⟨by decide +kernel, by decide +kernel, trivial, by decide +kernel, by decide +kernel, by decide +kernel⟩

/-- the history of an inception, a look at the escrows, and a rotation is guarded; the events are JSON, their identifiers are digests -/
theorem Ex.guarded : Guarded Ex.env [.submit (.event Ex.icp), .reprocess, .submit (.event Ex.rot)] := by
  have sane : ∀ (kel : IdentifierPrefix → List SignedEvent) (e : SignedEvent), (e.msg.serialize Ex.env).isOk = true → e.rt = true →
      (∃ kc, e.data.keyConfig? = some kc ∧ (∀ s ∈ e.sigs, s.index < kc.publicKeys.length) ∧ ∀ c, kc.threshold ≠ .single c) → Sane Ex.env kel e := by
    intro kel e h1 h2 ⟨kc, h3, h4, h5⟩
    refine C124_indices _ _ _ (Res.ok_of_isOk h1) h2 fun kc' hk => ?_
    rw [keysInForce_snoc, h3] at hk
    obtain rfl := Option.some.inj hk
    exact ⟨h4, fun c hc => absurd hc (h5 c)⟩
  intro before e rest h
  have ok : ∀ e, (e = Ex.icp ∨ e = Ex.rot) → ∀ kel, e.pre.toStr ≠ [] ∧ Sane Ex.env kel e := by
    rintro e (rfl | rfl) kel
    · refine ⟨by decide +kernel, sane kel _ (by decide +kernel) (by decide +kernel) ⟨_, rfl, by decide +kernel, fun c hc => ?_⟩⟩
      have : (match Ex.icp.data.keyConfig? with | some k => k.threshold | none => .single []) ≠ .single c := by
        have : (match Ex.icp.data.keyConfig? with | some k => k.threshold | none => .single []) = .simple 2 := by decide +kernel
        rw [this]; intro h; cases h
      exact this hc
    · refine ⟨by decide +kernel, sane kel _ (by decide +kernel) (by decide +kernel) ⟨_, rfl, by decide +kernel, fun c hc => ?_⟩⟩
      have : (match Ex.rot.data.keyConfig? with | some k => k.threshold | none => .single []) ≠ .single c := by
        have : (match Ex.rot.data.keyConfig? with | some k => decide (k.threshold = .simple 2) | none => false) = true := by decide +kernel
        cases hk : Ex.rot.data.keyConfig? with
        | none => rw [hk] at this; cases this
        | some k => rw [hk] at this; dsimp only; rw [of_decide_eq_true this]; intro h; cases h
      exact this hc
  refine ok e ?_ _
  have hm : Action.submit (.event e) ∈ [Action.submit (.event Ex.icp), .reprocess, .submit (.event Ex.rot)] := by rw [h]; simp
  simp only [List.mem_cons, List.not_mem_nil, or_false, Action.submit.injEq, Message.event.injEq, reduceCtorEq, false_or] at hm
  exact hm

example : Ex.icp.msg.info.kind = .json ∧ Ex.rot.msg.info.kind = .json ∧ ¬ Unbindable Ex.rot.msg ∧
    (after Ex.env [.submit (.event Ex.icp), .reprocess, .submit (.event Ex.rot)]).kel Ex.id = [Ex.icp, Ex.rot] := by
  refine ⟨by decide +kernel, by decide +kernel, ?_, by decide +kernel⟩
  have : Ex.rot.msg.event.content.data.isInception = false := by decide +kernel
  unfold Unbindable
  cases hd : Ex.rot.msg.event.content.data <;> rw [hd] at this <;> first | exact id | cases this

end Keriox
