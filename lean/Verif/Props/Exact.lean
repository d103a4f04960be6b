import Verif.Props.Local
import Verif.Props.Binding
/-!
# C115: exactly which events are accepted

`accepts` and `accepted_inv` describe acceptance in terms of the processor's own functions.  Here the condition is stated in terms
of the stored logs and the event alone, and shown to be necessary and sufficient.
-/
namespace Keriox

/-- what an inception's identifier has to do with its content -/
def BoundTo (env : Env) (m : EventMessage) : Prop :=
  match m.event.content.data, m.event.content.prefix with
  | .icp i, .basic key => i.keyConfig.publicKeys = [key]
  | .icp _, .selfAddressing d => m.event.digest = d
  | .dip _, .selfAddressing d => NamesEvent env m d
  | _, _ => False

/-- whether `d` names `m` can be decided: both are made with one algorithm, or the content of `m` can be encoded -/
def Decided (env : Env) (m : EventMessage) (d : SelfAddressingPrefix) : Prop :=
  m.event.digest.derivation = d.derivation ∨ ∃ data, m.toDerivationData env = .ok data

/-- a log that can be read holds, under number `n`, an event other than an inception with an event seal whose digest names `m` -/
def SealedIn (env : Env) (l : List SignedEvent) (n : Nat) (m : EventMessage) : Prop :=
  Readable l ∧ ∃ a before es rest, l.find? (fun x => x.sn = n) = some a ∧ a.data.isInception = false ∧
    a.data.seals = before ++ .event es :: rest ∧ NamesEvent env m es.eventDigest ∧
    ∀ es', .event es' ∈ before → Decided env m es'.eventDigest

/-- the conditions on an event, given the stored logs -/
structure Acceptable (env : Env) (kel : IdentifierPrefix → List SignedEvent) (e : SignedEvent) : Prop where
  /-- the identifier's log can be read back -/
  readable : Readable (kel e.pre)
  /-- the event has the next number -/
  number : e.sn = (kel e.pre).length
  /-- inceptions come first, and only inceptions do -/
  first : e.data.isInception = true ↔ kel e.pre = []
  /-- the log is that of the same identifier -/
  same : ∀ x ∈ kel e.pre, x.pre = e.pre
  /-- an inception's identifier is tied to its content -/
  bound : e.data.isInception = true → BoundTo env e.msg
  /-- any other event names the digest of the last one -/
  chained : ∀ x, (kel e.pre).getLast? = some x → e.data.previous? = some x.dig
  /-- a rotation reveals the keys and threshold committed to -/
  opened : ∀ r, e.data.rotation? = some r → ∃ kc n, keysInForce (kel e.pre) = some kc ∧ kc.nextDigest = some n ∧
    r.keyConfig.commit env n.derivation = n
  /-- a plain rotation is not one of a delegated identifier -/
  plain : ∀ r, e.data = .rot r → (kel e.pre).head?.bind (·.data.delegator?) = none
  /-- a delegated event is sealed by the event of its delegator that it points to -/
  sealed : e.data.isDelegated = true → ∃ d sl, (kel e.pre ++ [e]).head?.bind (·.data.delegator?) = some d ∧
    e.delegatorSeal = some sl ∧ SealedIn env (kel d) sl.sn e.msg
  /-- the keys in force once it is applied have signed it -/
  signed : ∃ kc bytes, keysInForce (kel e.pre ++ [e]) = some kc ∧ e.msg.serialize env = .ok bytes ∧ ValidSigs env kc bytes e.sigs

/-! ## Lemmas -/

theorem checkDigest_iff {env : Env} {m : EventMessage} {d : SelfAddressingPrefix} : m.checkDigest env d = .ok true ↔ NamesEvent env m d := by
  refine ⟨checkDigest_names, fun h => ?_⟩
  unfold EventMessage.checkDigest
  rcases h with h | ⟨h, data, h1, h2⟩
  · rw [h]; simp
  · rw [if_neg h, h1]
    simp [Res.ok_bind, h2]

theorem checkDigest_decided {env : Env} {m : EventMessage} {d : SelfAddressingPrefix} :
    (∃ b, m.checkDigest env d = .ok b) ↔ Decided env m d := by
  unfold EventMessage.checkDigest Decided
  by_cases h : m.event.digest.derivation = d.derivation
  · simp [h]
  · rw [if_neg h]
    constructor
    · rintro ⟨b, hb⟩
      obtain ⟨x, hx, _⟩ := Res.bind_eq_ok.1 hb
      exact .inr ⟨x, hx⟩
    · rintro (h' | ⟨x, hx⟩)
      · exact absurd h' h
      · rw [hx]; exact ⟨_, rfl⟩

theorem binding_iff {env : Env} {m : EventMessage} (h : m.event.content.data.isInception = true) :
    verifyIdentifierBinding env m = .ok true ↔ BoundTo env m := by
  unfold verifyIdentifierBinding BoundTo
  cases hd : m.event.content.data with
  | icp i =>
    cases hp : m.event.content.prefix with
    | basic bp => simp
    | selfAddressing d =>
      dsimp only
      constructor
      · intro h
        obtain ⟨b, _, hb⟩ := Res.bind_eq_ok.1 h
        simp only [Res.ok.injEq, Bool.and_eq_true, decide_eq_true_eq] at hb
        exact hb.2
      · intro h
        rw [← h, checkDigest_self]
        simp [Res.ok_bind]
    | selfSigning s => simp
  | dip i =>
    cases hp : m.event.content.prefix with
    | selfAddressing d => exact checkDigest_iff
    | basic bp => simp
    | selfSigning s => simp
  | _ => rw [hd] at h; cases h

theorem anySealMatches_iff {env : Env} {m : EventMessage} {l : List Seal} : anySealMatches env m l = .ok true ↔
    ∃ before es rest, l = before ++ .event es :: rest ∧ NamesEvent env m es.eventDigest ∧
      ∀ es', .event es' ∈ before → Decided env m es'.eventDigest := by
  induction l with
  | nil => simp [anySealMatches]
  | cons a l ih =>
    have skip : ∀ (b : Seal), (∀ es, b = .event es → Decided env m es.eventDigest ∧ ¬ NamesEvent env m es.eventDigest) →
        ((∃ before es rest, l = before ++ .event es :: rest ∧ NamesEvent env m es.eventDigest ∧
          ∀ es', .event es' ∈ before → Decided env m es'.eventDigest) ↔
        ∃ before es rest, b :: l = before ++ .event es :: rest ∧ NamesEvent env m es.eventDigest ∧
          ∀ es', .event es' ∈ before → Decided env m es'.eventDigest) := by
      intro b hb
      constructor
      · rintro ⟨before, es, rest, rfl, h1, h2⟩
        refine ⟨b :: before, es, rest, rfl, h1, ?_⟩
        intro es' h'
        rcases List.mem_cons.1 h' with h' | h'
        · exact (hb es' h'.symm).1
        · exact h2 es' h'
      · rintro ⟨before, es, rest, h0, h1, h2⟩
        cases before with
        | nil =>
          obtain ⟨rfl, rfl⟩ := List.cons.inj h0
          exact absurd h1 (hb es rfl).2
        | cons c before =>
          obtain ⟨rfl, rfl⟩ := List.cons.inj h0
          exact ⟨before, es, rest, rfl, h1, fun es' h' => h2 es' (List.mem_cons_of_mem _ h')⟩
    cases a with
    | event es =>
      unfold anySealMatches
      cases hc : m.checkDigest env es.eventDigest with
      | ok b =>
        cases b with
        | true =>
          simp only [true_iff]
          exact ⟨[], es, l, rfl, checkDigest_iff.1 hc, by simp⟩
        | false =>
          dsimp only
          rw [ih]
          refine skip _ ?_
          intro es' h'
          cases h'
          exact ⟨checkDigest_decided.1 ⟨_, hc⟩, fun hn => by rw [checkDigest_iff.2 hn] at hc; cases hc⟩
      | err er =>
        dsimp only
        refine iff_of_false (by intro h; cases h) ?_
        rintro ⟨before, es', rest, h0, h1, h2⟩
        have : Decided env m es.eventDigest := by
          cases before with
          | nil => obtain ⟨h3, rfl⟩ := List.cons.inj h0; cases h3; exact checkDigest_decided.1 ⟨_, checkDigest_iff.2 h1⟩
          | cons c before => obtain ⟨rfl, rfl⟩ := List.cons.inj h0; exact h2 es (by simp)
        obtain ⟨b, hb⟩ := checkDigest_decided.2 this
        rw [hc] at hb; cases hb
      | panic =>
        dsimp only
        refine iff_of_false (by intro h; cases h) ?_
        rintro ⟨before, es', rest, h0, h1, h2⟩
        have : Decided env m es.eventDigest := by
          cases before with
          | nil => obtain ⟨h3, rfl⟩ := List.cons.inj h0; cases h3; exact checkDigest_decided.1 ⟨_, checkDigest_iff.2 h1⟩
          | cons c before => obtain ⟨rfl, rfl⟩ := List.cons.inj h0; exact h2 es (by simp)
        obtain ⟨b, hb⟩ := checkDigest_decided.2 this
        rw [hc] at hb; cases hb
    | _ =>
      unfold anySealMatches
      rw [ih]
      exact skip _ (by intro es h; cases h)

theorem anchors_iff (d : EventData) : d.anchors? = if d.isInception then none else some d.seals := by
  cases d <;> rfl

/-- `validate_seal` in terms of the log it reads -/
theorem validateSeal_iff (env : Env) (a : MapDb) (sl : EventSeal) (m : EventMessage) :
    (validateSeal mapOps env sl m a).1 = .ok () ↔ SealedIn env (a.log sl.prefix.toStr) sl.sn m := by
  have hg := getEventAtSn_local sl.prefix sl.sn a
  unfold validateSeal SealedIn
  rw [StM.bind_run]
  have hr := result_fst (getEventAtSn mapOps sl.prefix sl.sn) a
  rw [hg] at hr
  generalize (getEventAtSn mapOps sl.prefix sl.sn).result a = q at hr
  obtain ⟨q1, q2⟩ := q
  dsimp only at hr
  subst hr
  by_cases hrd : (a.log sl.prefix.toStr).all SignedEvent.rt = true
  · rw [if_pos hrd]
    have hR : Readable (a.log sl.prefix.toStr) := (readable_iff _).1 hrd
    dsimp only
    cases hf : (a.log sl.prefix.toStr).find? fun e => e.sn = sl.sn with
    | none => exact iff_of_false (by intro h; cases h) (by rintro ⟨_, a, _, _, _, h, _⟩; cases h)
    | some x =>
      dsimp only
      rw [anchors_iff]
      cases hi : x.data.isInception with
      | true =>
        refine iff_of_false (by intro h; cases h) ?_
        rintro ⟨_, y, _, _, _, h, h', _⟩
        obtain rfl := Option.some.inj h
        rw [hi] at h'; cases h'
      | false =>
        simp only [Bool.false_eq_true, if_false]
        rw [StM.bind_run]
        have : (∃ before es rest, x.data.seals = before ++ .event es :: rest ∧ NamesEvent env m es.eventDigest ∧
            ∀ es', .event es' ∈ before → Decided env m es'.eventDigest) ↔
            (Readable (a.log sl.prefix.toStr) ∧ ∃ y before es rest, some x = some y ∧ y.data.isInception = false ∧
              y.data.seals = before ++ .event es :: rest ∧ NamesEvent env m es.eventDigest ∧
              ∀ es', .event es' ∈ before → Decided env m es'.eventDigest) := by
          constructor
          · rintro ⟨b, es, r, h⟩; exact ⟨hR, x, b, es, r, rfl, hi, h⟩
          · rintro ⟨_, y, b, es, r, h, _, h'⟩
            obtain rfl := Option.some.inj h
            exact ⟨b, es, r, h'⟩
        rw [← this, ← anySealMatches_iff]
        unfold StM.lift
        cases anySealMatches env m x.data.seals with
        | ok b => cases b <;> simp [StM.fail, StM.lift, Pure.pure]
        | err er => simp
        | panic => simp
  · rw [if_neg hrd]
    refine iff_of_false (by intro h; cases h) ?_
    rintro ⟨h, _⟩
    exact hrd ((readable_iff _).2 h)

/-- when an event applies to a state -/
theorem applyTo_iff {env : Env} {m : EventMessage} {s : IdState} : (∃ s', m.applyTo env s = .ok s') ↔
    (m.event.content.data.isInception = true → s.prefix = IdentifierPrefix.default ∧ m.event.content.sn = 0 ∧ BoundTo env m) ∧
    (m.event.content.data.isInception = false → m.event.content.prefix = s.prefix ∧ m.event.content.sn = s.sn + 1 ∧
      m.event.content.data.previous? = some s.lastDigest) ∧
    (∀ r, m.event.content.data.rotation? = some r → s.current.verifyNext env r.keyConfig = true) ∧
    (∀ r, m.event.content.data = .rot r → s.delegator = none) ∧
    (∀ r, m.event.content.data = .drt r → s.delegator.isSome = true) := by
  constructor
  · rintro ⟨s', h⟩
    have A := applyTo_ok (e := ⟨m, [], none⟩) h
    exact ⟨fun hi => ⟨A.incPre hi, A.incSn hi, (binding_iff hi).1 (A.incBind hi)⟩, fun hi => ⟨A.nextPre hi, A.nextSn hi, A.prev hi⟩,
      A.rot, A.plain, A.delegated⟩
  · rintro ⟨h1, h2, h3, h4, h5⟩
    unfold EventMessage.applyTo
    cases hd : m.event.content.data with
    | icp i =>
      obtain ⟨g1, g2, g3⟩ := h1 (by rw [hd]; rfl)
      rw [(binding_iff (by rw [hd]; rfl)).2 g3]
      simp [Res.ok_bind, Event.applyTo, hd, g1, g2, EventData.applyTo]
    | dip i =>
      obtain ⟨g1, g2, g3⟩ := h1 (by rw [hd]; rfl)
      rw [(binding_iff (by rw [hd]; rfl)).2 g3]
      simp [Res.ok_bind, Event.applyTo, hd, g1, g2, EventData.applyTo]
    | rot r =>
      obtain ⟨g1, g2, g3⟩ := h2 (by rw [hd]; rfl)
      have g4 := h3 r (by rw [hd]; rfl)
      have g5 := h4 r hd
      have g6 : r.previous = s.lastDigest := by rw [hd] at g3; exact Option.some.inj g3
      simp [checkEventDigest_self, Res.ok_bind, g5, Event.applyTo, hd, g1, g2, EventData.applyTo, RotationEvent.applyTo, g4, chain, g6]
    | drt r =>
      obtain ⟨g1, g2, g3⟩ := h2 (by rw [hd]; rfl)
      have g4 := h3 r (by rw [hd]; rfl)
      have g5 := h5 r hd
      have g6 : r.previous = s.lastDigest := by rw [hd] at g3; exact Option.some.inj g3
      have g7 : s.delegator.isNone = false := by cases h : s.delegator <;> simp_all
      simp [checkEventDigest_self, Res.ok_bind, g7, Event.applyTo, hd, g1, g2, EventData.applyTo, RotationEvent.applyTo, g4, chain, g6]
    | ixn r =>
      obtain ⟨g1, g2, g3⟩ := h2 (by rw [hd]; rfl)
      have g6 : r.previous = s.lastDigest := by rw [hd] at g3; exact Option.some.inj g3
      simp [checkEventDigest_self, Res.ok_bind, Event.applyTo, hd, g1, g2, EventData.applyTo, chain, g6]

theorem verifyNext_iff {env : Env} {cur next : KeyConfig} : cur.verifyNext env next = true ↔
    ∃ n, cur.nextDigest = some n ∧ next.commit env n.derivation = n := by
  unfold KeyConfig.verifyNext
  cases cur.nextDigest with
  | none => simp
  | some n => simp [eq_comm]

theorem dip_iff (env : Env) (a : MapDb) (e : SignedEvent) (d : DelegatedInceptionEvent) (hd : e.data = .dip d) :
    (checkDelegation mapOps env e a).1 = .ok () ↔
      ∃ sl, e.delegatorSeal = some sl ∧ SealedIn env (a.log d.delegator.toStr) sl.sn e.msg := by
  unfold checkDelegation
  rw [hd]
  dsimp only
  cases hs : e.delegatorSeal with
  | none => exact iff_of_false (by intro h; cases h) (by rintro ⟨_, h, _⟩; cases h)
  | some sl =>
    dsimp only
    rw [validateSeal_iff]
    exact ⟨fun h => ⟨sl, rfl, h⟩, fun ⟨_, h, h'⟩ => by obtain rfl := Option.some.inj h; exact h'⟩

theorem drt_iff (env : Env) (a : MapDb) (e : SignedEvent) (r : RotationEvent) (hd : e.data = .drt r) (hid : e.pre.toStr ≠ [])
    {s : IdState} (hl : Log env e.pre.toStr (a.log e.pre.toStr) s) (hr : Readable (a.log e.pre.toStr)) :
    (checkDelegation mapOps env e a).1 = .ok () ↔
      ∃ d sl, (a.log e.pre.toStr).head?.bind (·.data.delegator?) = some d ∧ e.delegatorSeal = some sl ∧
        SealedIn env (a.log d.toStr) sl.sn e.msg := by
  have hdel := hl.delegator hid
  unfold checkDelegation
  rw [hd]
  dsimp only
  rw [StM.bind_run, computeState_run, ← hdel]
  have hrt := (readable_iff _).2 hr
  unfold MapDb.log at hl hrt
  cases hk : a.tables .kels e.pre.toStr with
  | none =>
    rw [hk] at hl
    have := (hl.facts hid).1 rfl
    subst this
    exact iff_of_false (by intro h; cases h) (by rintro ⟨d, _, h, _⟩; cases h)
  | some l =>
    rw [hk] at hl hrt
    dsimp only [Option.getD_some] at hl hrt ⊢
    rw [if_pos hrt, hl.foldState hid]
    dsimp only
    cases hs : s.delegator with
    | none => exact iff_of_false (by intro h; cases h) (by rintro ⟨d, _, h, _⟩; cases h)
    | some del =>
      dsimp only
      cases hsl : e.delegatorSeal with
      | none => exact iff_of_false (by intro h; cases h) (by rintro ⟨d, _, _, h, _⟩; cases h)
      | some sl =>
        dsimp only
        rw [validateSeal_iff]
        rw [MapDb.log_congr (MapDb.touch_tables a e.pre.toStr)]
        constructor
        · intro h; exact ⟨del, sl, rfl, rfl, h⟩
        · rintro ⟨d, sl', h1, h2, h3⟩
          obtain rfl := Option.some.inj h1
          obtain rfl := Option.some.inj h2
          exact h3

theorem keysInForce_snoc (l : List SignedEvent) (e : SignedEvent) : keysInForce (l ++ [e]) = e.data.keyConfig?.or (keysInForce l) := by
  induction l with
  | nil => simp [keysInForce]
  | cons a l ih => simp only [List.cons_append, keysInForce, ih, Option.or_assoc]

theorem keyConfig_of_inception {d : EventData} (h : d.isInception = true) : ∃ kc, d.keyConfig? = some kc := by
  cases d <;> first | exact ⟨_, rfl⟩ | cases h

/-- the keys in force after an event that applies -/
theorem keys_after {env : Env} {x : Bytes} (hx : x ≠ []) {l : List SignedEvent} {s : IdState} (hl : Log env x l s) {e : SignedEvent}
    {s' : IdState} (ha : e.msg.applyTo env s = .ok s') (hp : e.pre.toStr = x) : keysInForce (l ++ [e]) = some s'.current := by
  rw [keysInForce_snoc, (applyTo_ok ha).keys]
  cases hk : e.data.keyConfig? with
  | some kc => rfl
  | none =>
    have hne : l ≠ [] := by
      rintro rfl
      have := (hl.facts hx).1 rfl
      subst this
      have A := applyTo_ok ha
      cases hi : e.data.isInception with
      | true => obtain ⟨kc, h⟩ := keyConfig_of_inception hi; rw [h] at hk; cases hk
      | false => exact hx (by rw [← hp, A.nextPre hi]; rfl)
    rw [hl.keys hx hne]
    rfl

/-- `Acceptable` in terms of the log's state -/
theorem acceptable_iff (env : Env) (as : List Action) (e : SignedEvent) (hid : e.pre.toStr ≠ []) {s : IdState}
    (hl : Log env e.pre.toStr ((after env as).kel e.pre) s) :
    Acceptable env (after env as).kel e ↔ Readable ((after env as).kel e.pre) ∧
      (checkDelegation mapOps env e (after env as).abs).1 = .ok () ∧
      ∃ new bytes, e.msg.applyTo env s = .ok new ∧ e.msg.serialize env = .ok bytes ∧ new.current.verify env bytes e.sigs = .ok true := by
  have hklog : ∀ id, (after env as).abs.log id.toStr = (after env as).kel id := fun _ => rfl
  have F := hl.facts hid
  have hne0 : e.pre ≠ IdentifierPrefix.default := fun h => hid (by rw [h]; rfl)
  have hdel := hl.delegator hid
  constructor
  · intro A
    refine ⟨A.readable, ?_, ?_⟩
    · cases hd : e.data with
      | icp i => exact plain_checkDelegation env e _ (.inl ⟨i, hd⟩)
      | rot i => exact plain_checkDelegation env e _ (.inr (.inl ⟨i, hd⟩))
      | ixn i => exact plain_checkDelegation env e _ (.inr (.inr ⟨i, hd⟩))
      | dip d =>
        obtain ⟨d', sl, h1, h2, h3⟩ := A.sealed (by rw [hd]; rfl)
        rw [A.first.1 (by rw [hd]; rfl)] at h1
        simp only [List.nil_append, List.head?_cons, Option.bind_some, hd, EventData.delegator?, Option.some.injEq] at h1
        subst h1
        exact (dip_iff env _ e d hd).2 ⟨sl, h2, h3⟩
      | drt r =>
        obtain ⟨d', sl, h1, h2, h3⟩ := A.sealed (by rw [hd]; rfl)
        refine (drt_iff env (after env as).abs e r hd hid hl A.readable).2 ⟨d', sl, ?_, h2, h3⟩
        rw [List.head?_append] at h1
        show ((after env as).kel e.pre).head?.bind (·.data.delegator?) = some d'
        cases hh : ((after env as).kel e.pre).head? with
        | none => rw [hh] at h1; simp [hd, EventData.delegator?] at h1
        | some x => rw [hh] at h1; exact h1
    · have hap : ∃ new, e.msg.applyTo env s = .ok new := by
        refine applyTo_iff.2 ⟨fun hi => ?_, fun hi => ?_, fun r hr => ?_, fun r hr => ?_, fun r hr => ?_⟩
        · have h0 := A.first.1 hi
          rw [F.1 h0]
          exact ⟨rfl, by have := A.number; rw [h0] at this; exact this, A.bound hi⟩
        · have h0 : (after env as).kel e.pre ≠ [] := fun h => by
            have := A.first.2 h
            rw [show e.data.isInception = false from hi] at this; cases this
          obtain ⟨_, _, g3, g4⟩ := F.2.1 h0
          cases hlast : ((after env as).kel e.pre).getLast? with
          | none => exact absurd (List.getLast?_eq_none_iff.1 hlast) h0
          | some x =>
            obtain ⟨g5, g6⟩ := g4 x hlast
            have := A.same x (List.mem_of_getLast? hlast)
            refine ⟨by rw [g6, this], by have := A.number; rw [g3]; exact this, by rw [g5]; exact A.chained x hlast⟩
        · obtain ⟨kc, n, k1, k2, k3⟩ := A.opened r hr
          have h0 : (after env as).kel e.pre ≠ [] := by intro h; rw [h] at k1; cases k1
          rw [hl.keys hid h0] at k1
          obtain rfl := Option.some.inj k1
          exact verifyNext_iff.2 ⟨n, k2, k3⟩
        · rw [hdel]; exact A.plain r hr
        · obtain ⟨d', sl, h1, _⟩ := A.sealed (by rw [show e.data = .drt r from hr]; rfl)
          rw [hdel]
          rw [List.head?_append] at h1
          cases hh : ((after env as).kel e.pre).head? with
          | none => rw [hh] at h1; simp [show e.data = .drt r from hr, EventData.delegator?] at h1
          | some x => rw [hh] at h1; simp only [Option.some_or] at h1; rw [h1]; rfl
      obtain ⟨new, hap⟩ := hap
      obtain ⟨kc, bytes, k1, k2, k3⟩ := A.signed
      rw [keys_after hid hl hap rfl] at k1
      obtain rfl := Option.some.inj k1
      exact ⟨new, bytes, hap, k2, verify_of_validSigs k3⟩
  · rintro ⟨hr, hcd, new, bytes, hap, hser, hv⟩
    have A := applyTo_ok hap
    have hfirst : e.data.isInception = true ↔ (after env as).kel e.pre = [] := by
      constructor
      · intro hi
        by_cases h0 : (after env as).kel e.pre = []
        · exact h0
        · exact absurd (A.incPre hi) (F.2.1 h0).1
      · intro h0
        cases hi : e.data.isInception with
        | true => rfl
        | false => rw [F.1 h0] at A; exact absurd (A.nextPre hi) hne0
    refine ⟨hr, ?_, hfirst, ?_, fun hi => (binding_iff hi).1 (A.incBind hi), ?_, ?_, ?_, ?_, ?_⟩
    · cases hi : e.data.isInception with
      | true => rw [A.incSn hi, hfirst.1 hi]; rfl
      | false =>
        have h0 : (after env as).kel e.pre ≠ [] := fun h => by rw [hfirst.2 h] at hi; cases hi
        rw [A.nextSn hi, (F.2.1 h0).2.2.1]
    · intro x hx
      obtain ⟨i, hi', rfl⟩ := List.mem_iff_getElem.1 hx
      have h0 : (after env as).kel e.pre ≠ [] := fun h => by rw [h] at hi'; simp at hi'
      have hi : e.data.isInception = false := by
        cases h : e.data.isInception with
        | false => rfl
        | true => exact absurd (hfirst.1 h) h0
      rw [(F.2.2 i _ (List.getElem?_eq_getElem hi')).2.1, A.nextPre hi]
    · intro x hx
      have h0 : (after env as).kel e.pre ≠ [] := fun h => by rw [h] at hx; cases hx
      have hi : e.data.isInception = false := by
        cases h : e.data.isInception with
        | false => rfl
        | true => exact absurd (hfirst.1 h) h0
      rw [A.prev hi, ((F.2.1 h0).2.2.2 x hx).1]
    · intro r hr'
      obtain ⟨n, k2, k3⟩ := verifyNext_iff.1 (A.rot r hr')
      have h0 : (after env as).kel e.pre ≠ [] := fun h => by
        have := hfirst.2 h
        cases hd : e.data <;> rw [hd] at this hr' <;> first | (cases this; done) | (cases hr'; done)
      exact ⟨s.current, n, hl.keys hid h0, k2, k3⟩
    · intro r hr'; rw [← hdel]; exact A.plain r hr'
    · intro hdl
      cases hd : e.data with
      | icp i => rw [hd] at hdl; cases hdl
      | rot i => rw [hd] at hdl; cases hdl
      | ixn i => rw [hd] at hdl; cases hdl
      | dip d =>
        obtain ⟨sl, h1, h2⟩ := (dip_iff env _ e d hd).1 hcd
        refine ⟨d.delegator, sl, ?_, h1, h2⟩
        rw [hfirst.1 (by rw [hd]; rfl)]
        simp [hd, EventData.delegator?]
      | drt r =>
        obtain ⟨d, sl, h0, h1, h2⟩ := (drt_iff env (after env as).abs e r hd hid hl hr).1 hcd
        refine ⟨d, sl, ?_, h1, h2⟩
        rw [List.head?_append]
        have h0' : ((after env as).kel e.pre).head?.bind (·.data.delegator?) = some d := h0
        cases hh : ((after env as).kel e.pre).head? with
        | none => rw [hh] at h0'; cases h0'
        | some x => rw [hh] at h0'; exact h0'
    · exact ⟨new.current, bytes, keys_after hid hl hap rfl, hser, validSigs_of_verify hv⟩

/-! ## The properties -/

/-- C115: whatever happened before, an event is accepted if and only if it is `Acceptable` given the stored logs; the answer is then
the key state described by the log followed by the event. -/
theorem C115_exact (env : Env) (as : List Action) (e : SignedEvent) (hid : e.pre.toStr ≠ []) (new : IdState) :
    (process sled env (.event e) (after env as)).1 = .ok (some new) ↔
      Acceptable env (after env as).kel e ∧ stateAfter env ((after env as).kel e.pre ++ [e]) = .ok new := by
  obtain ⟨s, hl⟩ := after_log env as e.pre hid
  have hfold : ∀ new, stateAfter env ((after env as).kel e.pre ++ [e]) = .ok new ↔ e.msg.applyTo env s = .ok new := by
    intro new
    unfold stateAfter
    rw [← foldStrict_eq, foldStrict_append, hl.fold, Res.ok_bind]
  rw [hfold, acceptable_iff env as e hid hl]
  constructor
  · intro h
    obtain ⟨s', new', bytes, h1, hl', hr, hcd, hap, hser, hv, _⟩ := accepted_inv env as e hid _ h
    obtain rfl := hl'.unique hl
    obtain rfl := Option.some.inj h1
    exact ⟨⟨hr, hcd, new, bytes, hap, hser, hv⟩, hap⟩
  · rintro ⟨⟨hr, hcd, new', bytes, hap', hser, hv⟩, hap⟩
    rw [hap'] at hap
    obtain rfl := Res.ok.inj hap
    exact (accepts env as e hid s new' bytes hl hr hcd hap' hser hv).1

/-- C115, the answer alone: the call answers with anything but an error or a crash exactly if the event is acceptable. -/
theorem C115_accepted_iff (env : Env) (as : List Action) (e : SignedEvent) (hid : e.pre.toStr ≠ []) :
    (∃ st, (process sled env (.event e) (after env as)).1 = .ok st) ↔ Acceptable env (after env as).kel e := by
  obtain ⟨s, hl⟩ := after_log env as e.pre hid
  rw [acceptable_iff env as e hid hl]
  constructor
  · rintro ⟨st, h⟩
    obtain ⟨s', new', bytes, h1, hl', hr, hcd, hap, hser, hv, _⟩ := accepted_inv env as e hid _ h
    obtain rfl := hl'.unique hl
    exact ⟨hr, hcd, new', bytes, hap, hser, hv⟩
  · rintro ⟨hr, hcd, new', bytes, hap', hser, hv⟩
    exact ⟨_, (accepts env as e hid s new' bytes hl hr hcd hap' hser hv).1⟩

theorem Res.ok_of_isOk {α : Type} {r : Res α} (h : r.isOk = true) : ∃ a, r = .ok a := by
  cases r with
  | ok a => exact ⟨a, rfl⟩
  | err e => cases h
  | panic => cases h

example : Acceptable Ex.env (after Ex.env [.submit (.event Ex.icp)]).kel Ex.rot ∧
    ¬ Acceptable Ex.env (after Ex.env []).kel Ex.rot := by
  refine ⟨(C115_accepted_iff _ _ _ (by decide +kernel)).1 (Res.ok_of_isOk (by decide +kernel)), fun h => ?_⟩
  exact absurd h.number (by decide +kernel)

/-- a delegated inception, sealed by an interaction of its delegator -/
example : Acceptable Ex.env (after Ex.env (Ex.delHist Ex.dipSeal)).kel Ex.dip ∧ Ex.dip.data.isDelegated = true :=
  ⟨(C115_accepted_iff _ _ _ (by decide +kernel)).1 (Res.ok_of_isOk (by decide +kernel)), by decide +kernel⟩

/-! ## C116: non-transferable identifiers -/

/-- the three derivation codes of identifiers meant never to change their key -/
def BasicPrefix.nonTransferable (k : BasicPrefix) : Prop :=
  k.derivation = .ed25519NT ∨ k.derivation = .ecdsaNT ∨ k.derivation = .ed448NT

/-- C116 is false for every such key: once it has incepted its identifier with a commitment, a rotation to the committed keys is
accepted like that of any other identifier, and the key that is the identifier no longer counts. -/
theorem C116_fails_for_all (env : Env) (as : List Action) (k : BasicPrefix) (_nt : k.nonTransferable) (e : SignedEvent) (kc : KeyConfig)
    (n : SelfAddressingPrefix) (hid : (IdentifierPrefix.basic k).toStr ≠ [])
    (hlog : (after env as).kel (.basic k) = [e]) (hpre : e.pre = .basic k) (hrt : e.rt = true)
    (hkc : e.data.keyConfig? = some kc) (hn : kc.nextDigest = some n) (hplain : e.data.delegator? = none)
    (r : SignedEvent) (x : RotationEvent) (hr : r.pre = .basic k) (hsn : r.sn = 1) (hd : r.data = .rot x)
    (hprev : x.previous = e.dig) (hopen : x.keyConfig.commit env n.derivation = n) (bytes : Bytes)
    (hser : r.msg.serialize env = .ok bytes) (hsig : ValidSigs env x.keyConfig bytes r.sigs) :
    ∃ new, (process sled env (.event r) (after env as)).1 = .ok (some new) ∧ new.prefix = .basic k ∧ new.current = x.keyConfig := by
  have hid' : r.pre.toStr ≠ [] := by rw [hr]; exact hid
  have hA : Acceptable env (after env as).kel r := by
    have hd' : r.msg.event.content.data = .rot x := hd
    constructor
    · rw [hr, hlog]; intro y hy; rw [List.mem_singleton.1 hy]; exact hrt
    · rw [hr, hlog, hsn]; rfl
    · rw [hr, hlog, hd]; simp [EventData.isInception]
    · rw [hr, hlog]; intro y hy; rw [List.mem_singleton.1 hy]; exact hpre
    · rw [hd]; intro h; cases h
    · rw [hr, hlog]
      intro y hy
      have hy' : some e = some y := hy
      obtain rfl := Option.some.inj hy'
      rw [hd, ← hprev]; rfl
    · rw [hr, hlog, hd]
      intro r' hr'
      obtain rfl := Option.some.inj hr'
      exact ⟨kc, n, by simp [keysInForce, hkc], hn, hopen⟩
    · rw [hr, hlog]; intro r' _; exact hplain
    · rw [hd]; intro h; cases h
    · refine ⟨x.keyConfig, bytes, ?_, hser, hsig⟩
      rw [keysInForce_snoc, hd]; rfl
  obtain ⟨st, hst⟩ := (C115_accepted_iff env as r hid').2 hA
  obtain ⟨s, new, _, h1, _, _, _, hap, _⟩ := accepted_inv env as r hid' _ hst
  subst h1
  have A := applyTo_ok hap
  refine ⟨new, hst, by rw [A.pre, hr], ?_⟩
  rw [A.keys, hd]; rfl

namespace Ex
/-- a non-transferable key -/
def ntKey : BasicPrefix := ⟨.ed25519NT, List.replicate 32 9⟩
/-- its inception, which commits to another key -/
def ntIcp : SignedEvent := signAll (msgOr ((Event.mk (.basic ntKey) 0 (.icp ⟨⟨.simple 1, [ntKey],
  some (KeyConfig.nxtCommitment env (.simple 1) [key 10] .blake3_256)⟩, 0, [], [], []⟩)).toMessage env .json .blake3_256)) [9]
/-- the rotation to that key -/
def ntRot : SignedEvent := signAll (msgOr ((Event.mk (.basic ntKey) 1 (.rot ⟨ntIcp.dig, ⟨.simple 1, [key 10], none⟩, 0, [], [], []⟩)).toMessage env .json .blake3_256)) [10]
end Ex

/-- C116 fails concretely: a non-transferable identifier is incepted and rotated to another key, and the old key can no longer sign
for it. -/
theorem C116_fails :
    Ex.ntKey.nonTransferable ∧ (process sled Ex.env (.event Ex.ntIcp) Db.empty).1.isOk = true ∧
    (match (process sled Ex.env (.event Ex.ntRot) (after Ex.env [.submit (.event Ex.ntIcp)])).1 with
      | .ok (some st) => decide (st.prefix = .basic Ex.ntKey ∧ st.current.publicKeys = [Ex.key 10])
      | _ => false) = true ∧
    (after Ex.env [.submit (.event Ex.ntIcp)]).kel (.basic Ex.ntKey) = [Ex.ntIcp] ∧ Ex.ntIcp.rt = true := by
  refine ⟨.inl rfl, ?_, ?_, ?_, ?_⟩ <;> decide +kernel

end Keriox
