import Verif.Props.Builder
import Verif.Props.Deleg
/-!
# C82: delegated identifiers work
-/
namespace Keriox

/-! ## Specification vocabulary -/

/-- event number `n` of a log is no inception and carries an event seal with the digest of `m` -/
def AnchoredBy (l : List SignedEvent) (n : Nat) (m : EventMessage) : Prop :=
  ∃ a es, l[n]? = some a ∧ a.data.isInception = false ∧ Seal.event es ∈ a.data.seals ∧ es.eventDigest = m.event.digest

/-- `EventMsgBuilder::new(Dip).with_keys(..)….with_delegator(..)`, event_msg_builder.rs:48-147 -/
def Builder.delegatedInception (env : Env) (rnd : BasicPrefix × BasicPrefix) (first next : KeySet) (del : IdentifierPrefix) : Builder :=
  { Builder.inception env rnd first next [] with type := .dip, delegator := del }

/-- an application keeps a delegated log with the builder, attaching to its establishment events the number of the event of the delegator that
anchors them.  As `Written`, with delegated inceptions and rotations. -/
inductive WrittenFor (env : Env) (rnd : BasicPrefix × BasicPrefix) (del : IdentifierPrefix) :
    List SignedEvent → EventMessage → KeySet → KeySet → Prop
  | incept {first next m sigs sl} : (Builder.delegatedInception env rnd first next del).build env = .ok m → SignedWith env first m sigs →
      WrittenFor env rnd del [⟨m, sigs, some sl⟩] m first next
  | rotate {es last now next next' seals m sigs sl} : WrittenFor env rnd del es last now next →
      (Builder.rotation env rnd .drt last next next' [] [] seals).build env = .ok m → SignedWith env next m sigs →
      WrittenFor env rnd del (es ++ [⟨m, sigs, some sl⟩]) m next next'
  | interact {es last now next seals m sigs} : WrittenFor env rnd del es last now next →
      (Builder.interaction env rnd last seals).build env = .ok m → SignedWith env now m sigs →
      WrittenFor env rnd del (es ++ [⟨m, sigs, none⟩]) m now next

/-! ## The delegation check passes on anchored events -/

theorem checkDigest_json (env : Env) (m : EventMessage) (hj : m.info.kind = .json) (d : SelfAddressingPrefix) :
    ∃ b, m.checkDigest env d = .ok b := by
  unfold EventMessage.checkDigest
  split
  · exact ⟨_, rfl⟩
  · have : ∃ x, m.toDerivationData env = .ok x := by
      unfold EventMessage.toDerivationData
      rw [hj]
      split <;> exact ⟨_, rfl⟩
    obtain ⟨x, hx⟩ := this
    rw [hx]
    exact ⟨_, rfl⟩

theorem anySealMatches_json (env : Env) (m : EventMessage) (hj : m.info.kind = .json) (l : List Seal) (es : EventSeal) (he : Seal.event es ∈ l)
    (hd : es.eventDigest = m.event.digest) : anySealMatches env m l = .ok true := by
  induction l with
  | nil => simp at he
  | cons a l ih =>
    by_cases h : a = .event es
    · subst h
      simp [anySealMatches, EventMessage.checkDigest, hd]
    · have hi := ih (by simpa [Ne.symm h] using he)
      cases a with
      | event x =>
        obtain ⟨b, hb⟩ := checkDigest_json env m hj x.eventDigest
        simp only [anySealMatches, hb]
        cases b with
        | false => exact hi
        | true => rfl
      | _ => simpa [anySealMatches] using hi

theorem validateSeal_anchored (env : Env) (a : MapDb) (hg : a.Good env) (sl : EventSeal) (m : EventMessage) (hid : sl.prefix.toStr ≠ [])
    (hj : m.info.kind = .json) (hr : Readable (a.log sl.prefix.toStr)) (h : AnchoredBy (a.log sl.prefix.toStr) sl.sn m) :
    (validateSeal mapOps env sl m a).1 = .ok () := by
  obtain ⟨e, es, h1, h2, h3, h4⟩ := h
  have hget : ∃ a', getEventAtSn mapOps sl.prefix sl.sn a = (.ok (some e), a') := by
    suffices h : (getEventAtSn mapOps sl.prefix sl.sn a).1 = .ok (some e) from ⟨(getEventAtSn mapOps sl.prefix sl.sn a).2, Prod.ext h rfl⟩
    rw [getEventAtSn_run]
    obtain ⟨s, hl⟩ := hg sl.prefix.toStr hid
    unfold MapDb.log at hl h1 hr
    cases hk : a.tables .kels sl.prefix.toStr with
    | none => rw [hk] at h1; simp at h1
    | some l =>
      rw [hk] at hl h1 hr
      dsimp only [Option.getD_some] at hl h1 hr
      dsimp only
      rw [if_pos (List.all_eq_true.2 hr)]
      rw [find_sn l (fun _ _ he => hl.sn_eq hid he), h1]
  obtain ⟨a', hget⟩ := hget
  have hanc : ∃ l, e.data.anchors? = some l ∧ e.data.seals = l := by
    cases hd : e.data <;> rw [hd] at h2 <;> simp_all [EventData.anchors?, EventData.seals, EventData.isInception]
  obtain ⟨l, ha, hl⟩ := hanc
  unfold validateSeal
  have hres : (getEventAtSn mapOps sl.prefix sl.sn).result a = (.ok (.ok (some e)), a') := by
    unfold StM.result; rw [hget]
  rw [StM.bind_run, hres]
  dsimp only
  rw [ha]
  dsimp only
  rw [StM.bind_run]
  have : (StM.lift (anySealMatches env m l) : StM MapDb Bool) a' = (.ok true, a') := by
    rw [anySealMatches_json env m hj l es (by rw [← hl]; exact h3) h4]; rfl
  rw [this]
  rfl


/-- the delegation check of a delegated inception -/
theorem checkDelegation_dip (env : Env) (a : MapDb) (hg : a.Good env) (e : SignedEvent) (d : DelegatedInceptionEvent) (hd : e.data = .dip d) (sl : SourceSeal)
    (hs : e.delegatorSeal = some sl) (hne : d.delegator.toStr ≠ []) (hj : e.msg.info.kind = .json) (hr : Readable (a.log d.delegator.toStr))
    (h : AnchoredBy (a.log d.delegator.toStr) sl.sn e.msg) : (checkDelegation mapOps env e a).1 = .ok () := by
  unfold checkDelegation
  rw [hd]
  dsimp only
  rw [hs]
  exact validateSeal_anchored env a hg ⟨d.delegator, sl.sn, sl.digest⟩ e.msg hne hj hr h

/-- the delegation check of a delegated rotation -/
theorem checkDelegation_drt (env : Env) (a : MapDb) (hg : a.Good env) (e : SignedEvent) (r : RotationEvent) (hd : e.data = .drt r) (hid : e.pre.toStr ≠ [])
    {s : IdState} (hl : Log env e.pre.toStr (a.log e.pre.toStr) s) (hre : Readable (a.log e.pre.toStr)) (hnil : a.log e.pre.toStr ≠ [])
    {del : IdentifierPrefix} (hdel : s.delegator = some del) (sl : SourceSeal)
    (hs : e.delegatorSeal = some sl) (hne : del.toStr ≠ []) (hj : e.msg.info.kind = .json) (hr : Readable (a.log del.toStr))
    (h : AnchoredBy (a.log del.toStr) sl.sn e.msg) : (checkDelegation mapOps env e a).1 = .ok () := by
  have hc : computeState mapOps env e.pre a = (.ok (some s), a.touch e.pre.toStr) := by
    rw [computeState_run]
    unfold MapDb.log at hl hre hnil
    cases hk : a.tables .kels e.pre.toStr with
    | none => rw [hk] at hnil; simp at hnil
    | some l =>
      rw [hk] at hl hre
      dsimp only [Option.getD_some] at hl hre
      dsimp only
      rw [if_pos (List.all_eq_true.2 hre), hl.foldState hid]
  unfold checkDelegation
  rw [hd]
  dsimp only
  rw [StM.bind_run, hc]
  dsimp only
  rw [hdel]
  dsimp only
  rw [hs]
  have hg1 : (a.touch e.pre.toStr).Good env := fun x hx => by
    have := hg x hx
    rwa [MapDb.log_congr (MapDb.touch_tables a e.pre.toStr)]
  refine validateSeal_anchored env _ hg1 ⟨del, sl.sn, sl.digest⟩ e.msg hne hj ?_ ?_ <;> rw [MapDb.log_congr (MapDb.touch_tables a e.pre.toStr)] <;> assumption

/-! ## What is built -/

/-- the delegated inception message -/
def builtDip (env : Env) (first next : KeySet) (del : IdentifierPrefix) : EventMessage :=
  selfAddressedJson env (.dip ⟨builtIcp env first next [], del⟩)

theorem dip_build (env : Env) (rnd : BasicPrefix × BasicPrefix) (first next : KeySet) (del : IdentifierPrefix) :
    (Builder.delegatedInception env rnd first next del).build env = .ok (builtDip env first next del) := by
  obtain ⟨keys, t⟩ := first
  unfold Builder.delegatedInception Builder.inception Builder.build Builder.pre Builder.new
  simp only [if_true]
  rcases keys with _ | ⟨k, _ | ⟨k', ks⟩⟩ <;> rfl

theorem drt_build (env : Env) (rnd : BasicPrefix × BasicPrefix) (last : EventMessage) (hp : last.event.content.prefix ≠ IdentifierPrefix.default)
    (now next : KeySet) (seals : List Seal) :
    (Builder.rotation env rnd .drt last now next [] [] seals).build env = .ok (saidJson env ⟨last.event.content.prefix,
      last.event.content.sn + 1, .drt ⟨last.event.digest, now.config env next, 0, [], [], seals⟩⟩) := by
  unfold Builder.rotation Builder.following Builder.build Builder.pre Builder.new
  simp only [hp, if_false]
  show Event.toMessage _ _ _ _ = _
  unfold Event.toMessage
  cases last.event.content.prefix <;> exact saidMessage_json env _

theorem dip_applies (env : Env) (first next : KeySet) (del : IdentifierPrefix) :
    ∃ s, (builtDip env first next del).applyTo env IdState.default = .ok s ∧ Describes env (some del) s (builtDip env first next del) first next [] := by
  have h1 : verifyIdentifierBinding env (builtDip env first next del) = .ok true := by
    simp [builtDip, selfAddressedJson, verifyIdentifierBinding, EventMessage.checkDigest]
  have h2 : (builtDip env first next del).event.content.data = .dip ⟨builtIcp env first next [], del⟩ := rfl
  have h3 : (builtDip env first next del).event.content.sn = 0 := rfl
  generalize builtDip env first next del = m at *
  refine ⟨{ (builtIcp env first next []).applyTo { IdState.default with lastDigest := m.event.digest, sn := m.event.content.sn, «prefix» := m.event.content.prefix } with
    delegator := some del }, ?_, ?_⟩
  · unfold EventMessage.applyTo
    rw [h2]
    simp only [h1, Res.ok_bind, if_true]
    unfold Event.applyTo
    rw [h2]
    simp [h3, EventData.applyTo, IdState.default]
  · constructor <;> rfl

theorem drt_applies (env : Env) {del : IdentifierPrefix} {s : IdState} {last : EventMessage} {now next : KeySet} (D : Describes env (some del) s last now next [])
    (next' : KeySet) (seals : List Seal) :
    let m := saidJson env ⟨last.event.content.prefix, last.event.content.sn + 1, .drt ⟨last.event.digest, next.config env next', 0, [], [], seals⟩⟩
    ∃ s', m.applyTo env s = .ok s' ∧ Describes env (some del) s' m next next' [] := by
  intro m
  refine ⟨{ s with sn := last.event.content.sn + 1, «prefix» := last.event.content.prefix, current := next.config env next', tally := 0, witnesses := rotateWitnesses s.witnesses [] [], lastEst := ⟨last.event.content.sn + 1, s.lastDigest, [], []⟩, lastDigest := m.event.digest }, ?_, ?_⟩
  · have hd : m.event.content = ⟨last.event.content.prefix, last.event.content.sn + 1, .drt ⟨last.event.digest, next.config env next', 0, [], [], seals⟩⟩ := rfl
    unfold EventMessage.applyTo
    rw [checkEventDigest_own, hd]
    unfold Event.applyTo
    simp only [D.pre, D.sn, D.del, ne_eq, not_true_eq_false, if_false, Nat.lt_irrefl, EventData.applyTo, RotationEvent.applyTo, D.keys, config_opens, if_true, Res.ok_bind,
      chain, D.dig, Option.isNone_some, Bool.false_eq_true]
  · constructor
    · rfl
    · rfl
    · rfl
    · rfl
    · exact D.del
    · exact D.wits
    · rfl


/-- one more event of a delegated log: what it needs to be accepted -/
theorem WrittenFor.steps {env : Env} (hb : env.Blake3Size) {rnd : BasicPrefix × BasicPrefix} {del : IdentifierPrefix} {es : List SignedEvent} {last : EventMessage}
    {now next : KeySet} (h : WrittenFor env rnd del es last now next) :
    last.event.content.prefix.toStr ≠ [] ∧ last.info.kind = .json ∧
    ∃ es' s s' sigs sl, es = es' ++ [⟨last, sigs, sl⟩] ∧ Log env last.event.content.prefix.toStr (es'.map (·.stored)) s ∧ last.applyTo env s = .ok s' ∧
      Describes env (some del) s' last now next [] ∧ (∃ bytes, last.serialize env = .ok bytes ∧ s'.current.verify env bytes sigs = .ok true) ∧
      ((∃ x, last.event.content.data = .dip ⟨x, del⟩ ∧ sl.isSome = true) ∨
        (∃ x, last.event.content.data = .drt x ∧ sl.isSome = true ∧ es' ≠ [] ∧ s.delegator = some del) ∨ ∃ x, last.event.content.data = .ixn x) ∧
      (∀ e ∈ es, e.pre = last.event.content.prefix) ∧
      (es' = [] ∨ ∃ l' now' next', WrittenFor env rnd del es' l' now' next' ∧ l'.event.content.prefix = last.event.content.prefix) := by
  induction h with
  | @incept first next m sigs sl hbd hs =>
    rw [dip_build] at hbd
    cases hbd
    obtain ⟨s', h1, D⟩ := dip_applies env first next del
    refine ⟨?_, rfl, [], IdState.default, s', sigs, some sl, rfl, .nil, h1, D, ?_, .inl ⟨_, rfl, rfl⟩, ?_, .inl rfl⟩
    · have := sa_len (derive_sized hb (jsonText (dummyInceptionSval (builtDip env first next del).info .blake3_256 (.dip ⟨builtIcp env first next [], del⟩)))) rfl
      intro h0
      have h0' : (env.derive .blake3_256 (jsonText (dummyInceptionSval (builtDip env first next del).info .blake3_256 (.dip ⟨builtIcp env first next [], del⟩)))).toStr = [] := h0
      rw [h0'] at this; cases this
    · rw [D.keys]; exact signedWith_verifies hs
    · intro e he; simp only [List.mem_singleton] at he; subst he; rfl
  | @rotate es last now next next' seals m sigs sl hw hbd hs ih =>
    obtain ⟨hid, -, es', s, s', sigs', sl', rfl, hl, ha, D, -, -, hpre, -⟩ := ih
    have hd : last.event.content.prefix ≠ IdentifierPrefix.default := by
      intro h; rw [h] at hid; exact hid default_text
    rw [drt_build env rnd last hd] at hbd
    cases hbd
    obtain ⟨s'', h1, D'⟩ := drt_applies env D next' seals
    refine ⟨hid, rfl, _, s', s'', sigs, some sl, rfl, ?_, h1, D', ?_, .inr (.inl ⟨_, rfl, rfl, by simp, D.del⟩), ?_, .inr ⟨last, _, _, hw, rfl⟩⟩
    · rw [List.map_append]; exact .snoc hl rfl rfl ha
    · rw [D'.keys]; exact signedWith_verifies hs
    · intro e he
      rcases List.mem_append.1 he with he | he
      · exact hpre e he
      · simp only [List.mem_singleton] at he; subst he; rfl
  | @interact es last now next seals m sigs hw hbd hs ih =>
    obtain ⟨hid, -, es', s, s', sigs', sl', rfl, hl, ha, D, -, -, hpre, -⟩ := ih
    have hd : last.event.content.prefix ≠ IdentifierPrefix.default := by
      intro h; rw [h] at hid; exact hid default_text
    rw [interaction_build env rnd last hd] at hbd
    cases hbd
    obtain ⟨s'', h1, D'⟩ := interaction_applies env D seals
    refine ⟨hid, rfl, _, s', s'', sigs, none, rfl, ?_, h1, D', ?_, .inr (.inr ⟨_, rfl⟩), ?_, .inr ⟨last, _, _, hw, rfl⟩⟩
    · rw [List.map_append]; exact .snoc hl rfl rfl ha
    · rw [D'.keys]; exact signedWith_verifies hs
    · intro e he
      rcases List.mem_append.1 he with he | he
      · exact hpre e he
      · simp only [List.mem_singleton] at he; subst he; rfl

/-! ## C82 -/

/-- **C82.** The next event of a delegated log kept with the builder is accepted, after any history, by every node that has the log up to there and the
delegator's log with the anchor at the number named by the event's source seal. -/
theorem C82_accepted {env : Env} (hb : env.Blake3Size) {rnd : BasicPrefix × BasicPrefix} {del : IdentifierPrefix} (hdel : del.toStr ≠ [])
    {es : List SignedEvent} {e : SignedEvent} {last : EventMessage} {now next : KeySet} (h : WrittenFor env rnd del (es ++ [e]) last now next) (as : List Action)
    (hk : (after env as).kel e.pre = es.map (·.stored)) (hr : Readable es) (hrd : Readable ((after env as).kel del))
    (hanc : ∀ sl, e.delegatorSeal = some sl → AnchoredBy ((after env as).kel del) sl.sn e.msg) :
    (∃ s, (process sled env (.event e) (after env as)).1 = .ok (some s) ∧ s.prefix = e.pre ∧ s.sn = es.length ∧ s.lastDigest = e.dig ∧
      s.current = ⟨now.threshold, now.keys, some (KeyConfig.nxtCommitment env next.threshold next.keys .blake3_256)⟩ ∧ s.delegator = some del) ∧
    (after env (as ++ [.submit (.event e)])).kel e.pre = (es ++ [e]).map (·.stored) := by
  obtain ⟨hid, hj, es', s, s', sigs, sl, he, hl, ha, D, ⟨b, hs, hv⟩, hpl, -, -⟩ := h.steps hb
  obtain ⟨rfl, he2⟩ := List.append_inj' he rfl
  have he3 := (List.cons.inj he2).1
  subst he3
  have hr' : Readable (es.map (·.stored)) := by
    intro x hx
    obtain ⟨y, hy, rfl⟩ := List.mem_map.1 hx
    exact hr y hy
  have hcd : (checkDelegation mapOps env ⟨last, sigs, sl⟩ (after env as).abs).1 = .ok () := by
    rcases hpl with ⟨x, hx, hsl⟩ | ⟨x, hx, hsl, hne, hsd⟩ | hx
    · obtain ⟨sl, rfl⟩ := Option.isSome_iff_exists.1 hsl
      exact checkDelegation_dip env _ (after_good env as) _ ⟨x, del⟩ hx sl rfl hdel hj hrd (hanc sl rfl)
    · obtain ⟨sl, rfl⟩ := Option.isSome_iff_exists.1 hsl
      have hk' : (after env as).abs.log last.event.content.prefix.toStr = es.map (·.stored) := hk
      exact checkDelegation_drt env _ (after_good env as) _ x hx hid (by rw [hk']; exact hl) (by rw [hk']; exact hr')
        (by rw [hk']; simpa using hne) hsd sl rfl hdel hj hrd (hanc sl rfl)
    · exact plain_checkDelegation env _ _ (.inr (.inr hx))
  obtain ⟨h1, h2⟩ := accepts env as ⟨last, sigs, sl⟩ hid s s' b (by rw [hk]; exact hl) (by rw [hk]; exact hr') hcd ha hs hv
  refine ⟨⟨s', h1, D.pre, ?_, D.dig, D.keys, D.del⟩, by rw [h2, hk, List.map_append]; rfl⟩
  have := (Log.snoc (e := (⟨last, sigs, sl⟩ : SignedEvent).stored) hl rfl rfl ha).facts hid
  have h3 := (this.2.1 (by simp)).2
  simp at h3
  omega


/-- **C82.** A delegated log, submitted in order to a node that has the delegator's log with all the anchors and nothing of the delegated identifier, is
accepted as a whole. -/
theorem C82_log {env : Env} (hb : env.Blake3Size) {rnd : BasicPrefix × BasicPrefix} {del : IdentifierPrefix} (hdel : del.toStr ≠ [])
    {es : List SignedEvent} {last : EventMessage} {now next : KeySet} (h : WrittenFor env rnd del es last now next) (hr : Readable es) (as : List Action)
    (hne : last.event.content.prefix.toStr ≠ del.toStr)
    (hk : (after env as).kel last.event.content.prefix = []) (hrd : Readable ((after env as).kel del))
    (hanc : ∀ e ∈ es, ∀ sl, e.delegatorSeal = some sl → AnchoredBy ((after env as).kel del) sl.sn e.msg) :
    (∀ before e rest, es = before ++ e :: rest →
      ∃ s, (process sled env (.event e) (after env (as ++ before.map fun e => .submit (.event e)))).1 = .ok (some s)) ∧
    (after env (as ++ es.map fun e => .submit (.event e))).kel last.event.content.prefix = es.map (·.stored) := by
  have key : ∀ n es last now next, es.length = n → WrittenFor env rnd del es last now next → Readable es →
      last.event.content.prefix.toStr ≠ del.toStr → (after env as).kel last.event.content.prefix = [] →
      (∀ e ∈ es, ∀ sl, e.delegatorSeal = some sl → AnchoredBy ((after env as).kel del) sl.sn e.msg) →
      (∀ before e rest, es = before ++ e :: rest →
        ∃ s, (process sled env (.event e) (after env (as ++ before.map fun e => .submit (.event e)))).1 = .ok (some s)) ∧
      (after env (as ++ es.map fun e => .submit (.event e))).kel last.event.content.prefix = es.map (·.stored) := by
    intro n
    induction n with
    | zero =>
      intro es last now next hn h
      obtain ⟨-, -, es', -, -, sigs, sl, rfl, -⟩ := h.steps hb
      simp at hn
    | succ n ih =>
      intro es last now next hn h hr hne hk hanc
      obtain ⟨hid, -, es', s, s', sigs, sl, rfl, -, -, -, -, -, hpre, hprev⟩ := h.steps hb
      have hr' : Readable es' := fun e he => hr e (List.mem_append_left _ he)
      have hbefore : (∀ before e rest, es' = before ++ e :: rest →
          ∃ s, (process sled env (.event e) (after env (as ++ before.map fun e => .submit (.event e)))).1 = .ok (some s)) ∧
        (after env (as ++ es'.map fun e => .submit (.event e))).kel last.event.content.prefix = es'.map (·.stored) := by
        rcases hprev with rfl | ⟨l', now', next', hw, hp⟩
        · exact ⟨by intro before e rest h; simp at h, by simpa using hk⟩
        · have := ih es' l' now' next' (by simpa using hn) hw hr' (by rw [hp]; exact hne) (by rw [hp]; exact hk)
            (fun e he => hanc e (List.mem_append_left _ he))
          rw [hp] at this
          exact this
      have hsame : ∀ l : List SignedEvent, (∀ e ∈ l, e ∈ es') → (after env (as ++ l.map fun e => .submit (.event e))).kel del = (after env as).kel del := by
        intro l
        refine snoc_induction (P := fun l : List SignedEvent => (∀ e ∈ l, e ∈ es') → (after env (as ++ l.map fun e => .submit (.event e))).kel del = (after env as).kel del) l
          (fun _ => by simp) ?_
        intro l e ihl hm
        rw [List.map_append, ← List.append_assoc]
        show (after env ((as ++ l.map fun e => .submit (.event e)) ++ [.submit (.event e)])).kel del = _
        rw [other_kel env _ _ del hdel, ihl fun x hx => hm x (List.mem_append_left _ hx)]
        intro hsub
        have hpe := hpre e (List.mem_append_left _ (hm e (by simp)))
        apply hne
        rw [← hpe]
        exact hsub
      have hd := hsame es' (fun _ h => h)
      obtain ⟨⟨s1, ha, -⟩, hk2⟩ := C82_accepted hb hdel h (as ++ es'.map fun e => .submit (.event e)) hbefore.2 hr' (by rw [hd]; exact hrd)
        (by rw [hd]; exact hanc _ (by simp))
      refine ⟨?_, ?_⟩
      · intro before e rest he
        rcases List.eq_nil_or_concat rest with rfl | ⟨rest', x, rfl⟩
        · obtain ⟨rfl, he2⟩ := List.append_inj' he rfl
          have he3 := (List.cons.inj he2).1
          subst he3
          exact ⟨s1, ha⟩
        · have : es' ++ [⟨last, sigs, sl⟩] = (before ++ e :: rest') ++ [x] := by simpa using he
          obtain ⟨h1, -⟩ := List.append_inj' this rfl
          exact hbefore.1 before e rest' h1
      · rw [List.map_append]
        simpa using hk2
  exact key _ es last now next rfl h hr hne hk hanc

/-- **C82.** The delegator anchors an event by an interaction or a rotation of its own log with an event seal for it. -/
theorem C82_anchoring {env : Env} (hb : env.Blake3Size) {rnd : BasicPrefix × BasicPrefix} {ds : List SignedEvent} {last : EventMessage} {now next : KeySet}
    {ws : List BasicPrefix} (h : Written env rnd ds last now next ws) (next' : KeySet) (add remove : List BasicPrefix) (seals : List Seal) (es : EventSeal)
    (m : EventMessage) (hes : Seal.event es ∈ seals) (hd : es.eventDigest = m.event.digest) (a : EventMessage) (sigs : List AttachedSignaturePrefix)
    (hbd : (Builder.interaction env rnd last seals).build env = .ok a ∨ (Builder.rotation env rnd .rot last next next' add remove seals).build env = .ok a) :
    AnchoredBy (ds ++ [⟨a, sigs, none⟩]) ds.length m := by
  obtain ⟨-, ⟨m1, h1, h1'⟩, ⟨m2, h2, h2'⟩⟩ := C81_always_builds hb rnd now next ws h next' add remove seals
  rcases hbd with hbd | hbd
  · rw [h2] at hbd; cases hbd
    exact ⟨⟨a, sigs, none⟩, es, by simp, by simp [SignedEvent.data, h2', EventData.isInception], by simpa [SignedEvent.data, h2', EventData.seals] using hes, hd⟩
  · rw [h1] at hbd; cases hbd
    exact ⟨⟨a, sigs, none⟩, es, by simp, by simp [SignedEvent.data, h1', EventData.isInception], by simpa [SignedEvent.data, h1', EventData.seals] using hes, hd⟩

/-- **C82 fails** when the order of arrival is wrong: a delegated inception that arrives before its anchor is refused and not kept for later — whatever
arrives afterwards, including the anchor, it stays out of the log until an event of that identifier is submitted again. -/
theorem C82_fails_early (env : Env) (as bs : List Action) (e : SignedEvent) (hid : e.pre.toStr ≠ []) (d : DelegatedInceptionEvent) (hd : e.data = .dip d)
    (hdel : d.delegator.toStr ≠ []) (hna : ∀ n, ¬ AnchoredAt env ((after env as).kel d.delegator) n e.msg)
    (hk : (after env as).kel e.pre = []) (hbs : ∀ a ∈ bs, ¬ a.submitsFor e.pre) :
    (∀ st, (process sled env (.event e) (after env as)).1 ≠ .ok st) ∧ (after env (as ++ .submit (.event e) :: bs)).kel e.pre = [] := by
  obtain ⟨s, hl, ho⟩ := event_outcome env as e hid
  have hnc : (checkDelegation mapOps env e (after env as).abs).1 ≠ .ok () := by
    intro h
    unfold checkDelegation at h
    rw [hd] at h
    dsimp only at h
    cases hs : e.delegatorSeal with
    | none => rw [hs] at h; cases h
    | some sl =>
      rw [hs] at h
      exact hna sl.sn (validateSeal_ok env _ (after_good env as) ⟨d.delegator, sl.sn, sl.digest⟩ e.msg hdel h)
  have hfirst : (∀ st, (process sled env (.event e) (after env as)).1 ≠ .ok st) ∧ (after env (as ++ [.submit (.event e)])).kel e.pre = [] := by
    have hkk : (after env (as ++ [.submit (.event e)])).kel e.pre = (after env (as ++ [.submit (.event e)])).abs.log e.pre.toStr := rfl
    rw [hkk]
    generalize (process sled env (.event e) (after env as)).1 = r at ho
    generalize (after env (as ++ [.submit (.event e)])).abs = a' at ho
    cases ho with
    | refused h1 h2 _ =>
      refine ⟨h1, ?_⟩
      rw [MapDb.log_congr h2]; exact hk
    | stored h1 _ _ _ _ => exact absurd h1 hnc
  refine ⟨hfirst.1, ?_⟩
  have : as ++ .submit (.event e) :: bs = (as ++ [.submit (.event e)]) ++ bs := by simp
  rw [this]
  revert hbs
  refine snoc_induction (P := fun bs => (∀ a ∈ bs, ¬ a.submitsFor e.pre) → (after env ((as ++ [.submit (.event e)]) ++ bs)).kel e.pre = []) bs
    (fun _ => by simpa using hfirst.2) ?_
  intro l a ih hb
  rw [← List.append_assoc, other_kel env _ _ e.pre hid (hb a (by simp))]
  exact ih fun x hx => hb x (List.mem_append_left _ hx)

/-! ## A concrete delegation -/

namespace Ex
/-- the built and signed delegated inception; its anchor will be event 1 of `bDel1` -/
def bDip : SignedEvent :=
  { signAll (msgOr ((Builder.delegatedInception env rnd ⟨[key 20], .simple 1⟩ ⟨[key 21], .simple 1⟩ bIcp.pre).build env)) [20] with delegatorSeal := some ⟨1, bIcp.dig⟩ }
/-- the delegated rotation after it, anchored by event 2 -/
def bDrt : SignedEvent :=
  { signAll (msgOr ((Builder.rotation env rnd .drt bDip.msg ⟨[key 21], .simple 1⟩ ⟨[key 22], .simple 1⟩ [] [] []).build env)) [21] with delegatorSeal := some ⟨2, bIcp.dig⟩ }
/-- the anchors in the log of the delegator, whose first event is `bIcp` -/
def bAnchor1 : SignedEvent := signAll (msgOr ((Builder.interaction env rnd bIcp.msg [.event ⟨bDip.pre, 0, bDip.dig⟩]).build env)) [1, 2]
/-- an anchor in a rotation -/
def bAnchor2 : SignedEvent := signAll (msgOr ((Builder.rotation env rnd .rot bAnchor1.msg ks2 ks3 [] [] [.event ⟨bDip.pre, 1, bDrt.dig⟩]).build env)) [4, 5]

theorem bDip_written : WrittenFor env rnd bIcp.pre [bDip] bDip.msg ⟨[key 20], .simple 1⟩ ⟨[key 21], .simple 1⟩ :=
  WrittenFor.incept (by decide +kernel : (Builder.delegatedInception env rnd ⟨[key 20], .simple 1⟩ ⟨[key 21], .simple 1⟩ bIcp.pre).build env = .ok bDip.msg)
    (signed_of_verify (ks := ⟨[key 20], .simple 1⟩) (next := ⟨[key 21], .simple 1⟩) (e := bDip) (by decide +kernel) (by decide +kernel))
theorem bDrt_written : WrittenFor env rnd bIcp.pre [bDip, bDrt] bDrt.msg ⟨[key 21], .simple 1⟩ ⟨[key 22], .simple 1⟩ :=
  WrittenFor.rotate bDip_written
    (by decide +kernel : (Builder.rotation env rnd .drt bDip.msg ⟨[key 21], .simple 1⟩ ⟨[key 22], .simple 1⟩ [] [] []).build env = .ok bDrt.msg)
    (signed_of_verify (ks := ⟨[key 21], .simple 1⟩) (next := ⟨[key 22], .simple 1⟩) (e := bDrt) (by decide +kernel) (by decide +kernel))
/-- the history in which a node learns the delegator's log -/
def bDelHist : List Action := [.submit (.event bIcp), .submit (.event bAnchor1), .submit (.event bAnchor2)]
theorem bDel_kel : (after env bDelHist).kel bIcp.pre = [bIcp, bAnchor1, bAnchor2] := by decide +kernel
end Ex

/-- the hypotheses of C82 are met by that delegation -/
example : WrittenFor Ex.env Ex.rnd Ex.bIcp.pre [Ex.bDip, Ex.bDrt] Ex.bDrt.msg ⟨[Ex.key 21], .simple 1⟩ ⟨[Ex.key 22], .simple 1⟩ ∧
    Readable [Ex.bDip, Ex.bDrt] ∧ Readable ((after Ex.env Ex.bDelHist).kel Ex.bIcp.pre) ∧ Ex.bDrt.pre.toStr ≠ Ex.bIcp.pre.toStr ∧
    (after Ex.env Ex.bDelHist).kel Ex.bDrt.pre = [] ∧
    ∀ e ∈ [Ex.bDip, Ex.bDrt], ∀ sl, e.delegatorSeal = some sl → AnchoredBy ((after Ex.env Ex.bDelHist).kel Ex.bIcp.pre) sl.sn e.msg := by
  rw [Ex.bDel_kel]
  have h1 : [Ex.bDip, Ex.bDrt].all (·.rt) = true := by decide +kernel
  have h2 : [Ex.bIcp, Ex.bAnchor1, Ex.bAnchor2].all (·.rt) = true := by decide +kernel
  refine ⟨Ex.bDrt_written, List.all_eq_true.1 h1, List.all_eq_true.1 h2, by decide +kernel, by decide +kernel, ?_⟩
  intro e he sl hsl
  simp only [List.mem_cons, List.not_mem_nil, or_false] at he
  rcases he with rfl | rfl
  · have : sl = ⟨1, Ex.bIcp.dig⟩ := (Option.some.inj hsl).symm
    subst this
    exact ⟨Ex.bAnchor1, ⟨Ex.bDip.pre, 0, Ex.bDip.dig⟩, rfl, by decide +kernel, by decide +kernel, rfl⟩
  · have : sl = ⟨2, Ex.bIcp.dig⟩ := (Option.some.inj hsl).symm
    subst this
    exact ⟨Ex.bAnchor2, ⟨Ex.bDip.pre, 1, Ex.bDrt.dig⟩, rfl, by decide +kernel, by decide +kernel, rfl⟩

/-- the situation of `C82_fails_early`: the delegated inception arrives when the node has only the delegator's inception, then the anchors arrive -/
example : (∀ n, ¬ AnchoredAt Ex.env ((after Ex.env [.submit (.event Ex.bIcp)]).kel Ex.bIcp.pre) n Ex.bDip.msg) ∧
    (after Ex.env [.submit (.event Ex.bIcp)]).kel Ex.bDip.pre = [] ∧
    ∀ a ∈ [Action.submit (.event Ex.bAnchor1), .submit (.event Ex.bAnchor2), .reprocess], ¬ a.submitsFor Ex.bDip.pre := by
  have hk : (after Ex.env [.submit (.event Ex.bIcp)]).kel Ex.bIcp.pre = [Ex.bIcp] := by decide +kernel
  refine ⟨?_, by decide +kernel, ?_⟩
  · rw [hk]
    rintro n ⟨a, es, h1, h2, -⟩
    cases n with
    | zero =>
      simp only [List.getElem?_cons_zero, Option.some.injEq] at h1
      subst h1
      revert h2
      decide +kernel
    | succ n => simp at h1
  · intro a ha
    simp only [List.mem_cons, List.not_mem_nil, or_false] at ha
    rcases ha with rfl | rfl | rfl
    · exact (by decide +kernel : Ex.bAnchor1.pre.toStr ≠ Ex.bDip.pre.toStr)
    · exact (by decide +kernel : Ex.bAnchor2.pre.toStr ≠ Ex.bDip.pre.toStr)
    · exact id

end Keriox
