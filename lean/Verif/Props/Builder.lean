import Verif.Props.Controller
/-!
# C81: logs written with the event builder
-/
namespace Keriox

/-! ## Specification vocabulary: how an application uses the builder -/

/-- a set of keys with its signing threshold -/
structure KeySet where
  keys : List BasicPrefix
  threshold : Threshold
  deriving DecidableEq

/-- `EventMsgBuilder::new(Icp).with_keys(..).with_threshold(..).with_next_keys(..).with_next_threshold(..).with_witness_list(..)`,
event_msg_builder.rs:48-147; `rnd` are the random keys `new` draws -/
def Builder.inception (env : Env) (rnd : BasicPrefix × BasicPrefix) (first next : KeySet) (ws : List BasicPrefix) : Builder :=
  { Builder.new env .icp rnd.1 rnd.2 with
    keys := first.keys, threshold := first.threshold, nextKeys := next.keys, nextThreshold := next.threshold, witnesses := ws }

/-- `EventMsgBuilder::new(t).with_prefix(..).with_sn(..).with_previous_event(..)`, event_msg_builder.rs:48-147, filled in from the event before -/
def Builder.following (env : Env) (rnd : BasicPrefix × BasicPrefix) (t : EventTypeTag) (last : EventMessage) : Builder :=
  { Builder.new env t rnd.1 rnd.2 with
    «prefix» := last.event.content.prefix, sn := last.event.content.sn + 1, prev := last.event.digest }

/-- `.with_keys(..).with_threshold(..).with_next_keys(..).with_next_threshold(..).with_witness_to_add(..).with_witness_to_remove(..).with_seal(..)`,
event_msg_builder.rs:83-147 -/
def Builder.rotation (env : Env) (rnd : BasicPrefix × BasicPrefix) (t : EventTypeTag) (last : EventMessage) (now next : KeySet)
    (add remove : List BasicPrefix) (seals : List Seal) : Builder :=
  { Builder.following env rnd t last with
    keys := now.keys, threshold := now.threshold, nextKeys := next.keys, nextThreshold := next.threshold,
    add := add, remove := remove, data := seals }

/-- `.with_seal(..)`, event_msg_builder.rs:102-105 -/
def Builder.interaction (env : Env) (rnd : BasicPrefix × BasicPrefix) (last : EventMessage) (seals : List Seal) : Builder :=
  { Builder.following env rnd .ixn last with data := seals }

/-- a message carries enough valid signatures of a set of keys -/
def SignedWith (env : Env) (ks : KeySet) (m : EventMessage) (sigs : List AttachedSignaturePrefix) : Prop :=
  ks.threshold.MetBy sigs ∧ (sigs.map (·.index)).Nodup ∧
    ∃ bytes, m.serialize env = .ok bytes ∧ ∀ s ∈ sigs, ∃ k, ks.keys[s.index]? = some k ∧ SigValid env k bytes s.signature

/-- an application keeps a log with the builder: it incepts with one set of keys and a commitment to the next, rotates to the set it committed to,
and interacts, each time linking to the event before and signing with the keys in force.  `Written es last now next ws`: the events, the last
message, the keys in force, the keys committed to, the witnesses. -/
inductive Written (env : Env) (rnd : BasicPrefix × BasicPrefix) :
    List SignedEvent → EventMessage → KeySet → KeySet → List BasicPrefix → Prop
  | incept {first next ws m sigs} : (∀ k ∈ first.keys, k.publicKey ≠ []) → (Builder.inception env rnd first next ws).build env = .ok m → SignedWith env first m sigs →
      Written env rnd [⟨m, sigs, none⟩] m first next ws
  | rotate {es last now next ws next' add remove seals m sigs} : Written env rnd es last now next ws →
      (Builder.rotation env rnd .rot last next next' add remove seals).build env = .ok m → SignedWith env next m sigs →
      Written env rnd (es ++ [⟨m, sigs, none⟩]) m next next' (rotateWitnesses ws remove add)
  | interact {es last now next ws seals m sigs} : Written env rnd es last now next ws →
      (Builder.interaction env rnd last seals).build env = .ok m → SignedWith env now m sigs →
      Written env rnd (es ++ [⟨m, sigs, none⟩]) m now next ws

/-! ## What the builder builds -/

/-- the key configuration announced by an event with these sets -/
def KeySet.config (env : Env) (now next : KeySet) : KeyConfig :=
  ⟨now.threshold, now.keys, some (KeyConfig.nxtCommitment env next.threshold next.keys .blake3_256)⟩

/-- what is announced at inception -/
def builtIcp (env : Env) (first next : KeySet) (ws : List BasicPrefix) : InceptionEvent := ⟨first.config env next, 0, ws, [], []⟩

/-- the inception message -/
def builtInception (env : Env) (first next : KeySet) (ws : List BasicPrefix) : EventMessage :=
  match first.keys with
  | [k] => saidJson env ⟨.basic k, 0, .icp (builtIcp env first next ws)⟩
  | _ => selfAddressedJson env (.icp (builtIcp env first next ws))

theorem inception_build (env : Env) (rnd : BasicPrefix × BasicPrefix) (first next : KeySet) (ws : List BasicPrefix) :
    (Builder.inception env rnd first next ws).build env = .ok (builtInception env first next ws) := by
  obtain ⟨keys, t⟩ := first
  unfold Builder.inception Builder.build Builder.pre Builder.new builtInception
  simp only [if_true]
  rcases keys with _ | ⟨k, _ | ⟨k', ks⟩⟩ <;> rfl

theorem rotation_build (env : Env) (rnd : BasicPrefix × BasicPrefix) (last : EventMessage) (hp : last.event.content.prefix ≠ IdentifierPrefix.default)
    (now next : KeySet) (add remove : List BasicPrefix) (seals : List Seal) :
    (Builder.rotation env rnd .rot last now next add remove seals).build env = .ok (saidJson env ⟨last.event.content.prefix,
      last.event.content.sn + 1, .rot ⟨last.event.digest, now.config env next, 0, remove, add, seals⟩⟩) := by
  unfold Builder.rotation Builder.following Builder.build Builder.pre Builder.new
  simp only [hp, if_false]
  show Event.toMessage _ _ _ _ = _
  unfold Event.toMessage
  cases last.event.content.prefix <;> exact saidMessage_json env _

theorem interaction_build (env : Env) (rnd : BasicPrefix × BasicPrefix) (last : EventMessage) (hp : last.event.content.prefix ≠ IdentifierPrefix.default)
    (seals : List Seal) :
    (Builder.interaction env rnd last seals).build env = .ok (saidJson env ⟨last.event.content.prefix,
      last.event.content.sn + 1, .ixn ⟨last.event.digest, seals⟩⟩) := by
  unfold Builder.interaction Builder.following Builder.build Builder.pre Builder.new
  simp only [hp, if_false]
  show Event.toMessage _ _ _ _ = _
  unfold Event.toMessage
  cases last.event.content.prefix <;> exact saidMessage_json env _

theorem nxtCommitment_derivation (env : Env) (t : Threshold) (ks : List BasicPrefix) (c : SelfAddressing) :
    (KeyConfig.nxtCommitment env t ks c).derivation = c := by
  unfold KeyConfig.nxtCommitment
  have : ∀ acc : SelfAddressingPrefix, acc.derivation = c →
      (ks.foldl (fun acc pk => (⟨c, KeyConfig.xorBytes acc.digest (env.derive c pk.toStr).digest⟩ : SelfAddressingPrefix)) acc).derivation = c := by
    induction ks with
    | nil => intro acc h; exact h
    | cons k ks ih => intro acc _; exact ih _ rfl
  exact this _ rfl

theorem config_opens (env : Env) (now next next' : KeySet) : (now.config env next).verifyNext env (next.config env next') = true := by
  unfold KeyConfig.verifyNext KeySet.config
  simp only [decide_eq_true_eq]
  rw [nxtCommitment_derivation]
  rfl

theorem checkEventDigest_own (env : Env) (m : EventMessage) : checkEventDigest env m = .ok () := by
  simp [checkEventDigest, EventMessage.checkDigest]

/-- the state a written log describes -/
structure Describes (env : Env) (del : Option IdentifierPrefix) (s : IdState) (last : EventMessage) (now next : KeySet) (ws : List BasicPrefix) : Prop where
  pre : s.prefix = last.event.content.prefix
  sn : s.sn = last.event.content.sn
  dig : s.lastDigest = last.event.digest
  keys : s.current = now.config env next
  del : s.delegator = del
  wits : s.witnesses = ws
  tally : s.tally = 0

theorem built_binding (env : Env) (first next : KeySet) (ws : List BasicPrefix) :
    verifyIdentifierBinding env (builtInception env first next ws) = .ok true ∧
    (builtInception env first next ws).event.content.data = .icp (builtIcp env first next ws) ∧
    (builtInception env first next ws).event.content.sn = 0 ∧ (builtInception env first next ws).info.kind = .json := by
  obtain ⟨keys, t⟩ := first
  rcases keys with _ | ⟨k, _ | ⟨k', ks⟩⟩
  · exact ⟨by simp [builtInception, selfAddressedJson, verifyIdentifierBinding, EventMessage.checkDigest], rfl, rfl, rfl⟩
  · exact ⟨by simp [builtInception, saidJson, verifyIdentifierBinding, builtIcp, KeySet.config], rfl, rfl, rfl⟩
  · exact ⟨by simp [builtInception, selfAddressedJson, verifyIdentifierBinding, EventMessage.checkDigest], rfl, rfl, rfl⟩

theorem inception_applies (env : Env) (first next : KeySet) (ws : List BasicPrefix) :
    ∃ s, (builtInception env first next ws).applyTo env IdState.default = .ok s ∧
      Describes env none s (builtInception env first next ws) first next ws := by
  obtain ⟨h1, h2, h3, -⟩ := built_binding env first next ws
  generalize builtInception env first next ws = m at *
  refine ⟨(builtIcp env first next ws).applyTo { IdState.default with lastDigest := m.event.digest, sn := m.event.content.sn, «prefix» := m.event.content.prefix }, ?_, ?_⟩
  · unfold EventMessage.applyTo
    rw [h2]
    simp only [h1, Res.ok_bind, if_true]
    unfold Event.applyTo
    rw [h2]
    simp [h3, EventData.applyTo, IdState.default]
  · constructor <;> rfl

theorem rotation_applies (env : Env) {s : IdState} {last : EventMessage} {now next : KeySet} {ws : List BasicPrefix} (D : Describes env none s last now next ws)
    (next' : KeySet) (add remove : List BasicPrefix) (seals : List Seal) :
    let m := saidJson env ⟨last.event.content.prefix, last.event.content.sn + 1, .rot ⟨last.event.digest, next.config env next', 0, remove, add, seals⟩⟩
    ∃ s', m.applyTo env s = .ok s' ∧ Describes env none s' m next next' (rotateWitnesses ws remove add) := by
  intro m
  refine ⟨{ s with sn := last.event.content.sn + 1, «prefix» := last.event.content.prefix, current := next.config env next', tally := 0, witnesses := rotateWitnesses s.witnesses remove add, lastEst := ⟨last.event.content.sn + 1, s.lastDigest, add, remove⟩, lastDigest := m.event.digest }, ?_, ?_⟩
  · have hd : m.event.content = ⟨last.event.content.prefix, last.event.content.sn + 1, .rot ⟨last.event.digest, next.config env next', 0, remove, add, seals⟩⟩ := rfl
    unfold EventMessage.applyTo
    rw [checkEventDigest_own, hd]
    simp only [Res.ok_bind, D.del, Option.isSome_none, Bool.false_eq_true, if_false]
    unfold Event.applyTo
    simp only [D.pre, D.sn, ne_eq, not_true_eq_false, if_false, Nat.lt_irrefl, EventData.applyTo, RotationEvent.applyTo, D.keys, config_opens, if_true, Res.ok_bind,
      chain, D.dig]
    rw [D.del]
  · constructor
    · rfl
    · rfl
    · rfl
    · rfl
    · exact D.del
    · show rotateWitnesses s.witnesses _ _ = _; rw [D.wits]
    · rfl

theorem interaction_applies (env : Env) {del : Option IdentifierPrefix} {s : IdState} {last : EventMessage} {now next : KeySet} {ws : List BasicPrefix} (D : Describes env del s last now next ws)
    (seals : List Seal) :
    let m := saidJson env ⟨last.event.content.prefix, last.event.content.sn + 1, .ixn ⟨last.event.digest, seals⟩⟩
    ∃ s', m.applyTo env s = .ok s' ∧ Describes env del s' m now next ws := by
  intro m
  refine ⟨{ s with sn := last.event.content.sn + 1, «prefix» := last.event.content.prefix, lastDigest := m.event.digest }, ?_, ?_⟩
  · have hd : m.event.content = ⟨last.event.content.prefix, last.event.content.sn + 1, .ixn ⟨last.event.digest, seals⟩⟩ := rfl
    unfold EventMessage.applyTo
    rw [checkEventDigest_own, hd]
    simp only [Res.ok_bind]
    unfold Event.applyTo
    simp only [D.pre, D.sn, ne_eq, not_true_eq_false, if_false, Nat.lt_irrefl, EventData.applyTo, Res.ok_bind, chain, D.dig, if_true]
  · constructor
    · rfl
    · rfl
    · rfl
    · exact D.keys
    · exact D.del
    · exact D.wits
    · exact D.tally

theorem signedWith_verifies {env : Env} {now next : KeySet} {m : EventMessage} {sigs : List AttachedSignaturePrefix} (h : SignedWith env now m sigs) :
    ∃ bytes, m.serialize env = .ok bytes ∧ (now.config env next).verify env bytes sigs = .ok true := by
  obtain ⟨h1, h2, b, h3, h4⟩ := h
  refine ⟨b, h3, (KeyConfig.verify_true_iff _ _ _ _).2 ⟨(enough_iff _ _).2 h1, h2, ?_⟩⟩
  intro s hs
  obtain ⟨k, hk, hv⟩ := h4 s hs
  exact ⟨k, hk, (verify_iff_sigValid _ _ _ _).2 hv⟩

theorem prefixText_ne {c d : Bytes} (hc : c ≠ []) (hd : d ≠ []) : prefixText c d ≠ [] := by
  unfold prefixText
  rw [if_neg (by simpa using hd)]
  simp [hc]

theorem inception_ne {env : Env} (hb : env.Blake3Size) {first : KeySet} (hk : ∀ k ∈ first.keys, k.publicKey ≠ []) (next : KeySet) (ws : List BasicPrefix) :
    (builtInception env first next ws).event.content.prefix.toStr ≠ [] := by
  obtain ⟨keys, t⟩ := first
  have hsa : ∀ d, (selfAddressedJson env d).event.content.prefix.toStr ≠ [] := by
    intro d
    refine prefixText_ne (show SelfAddressing.blake3_256.toStr ≠ [] by decide) ?_
    intro h
    have := hb (jsonText (dummyInceptionSval (SerInfo.new .json (jsonText (dummyInceptionSval (SerInfo.new .json 0) .blake3_256 d)).length) .blake3_256 d))
    have h' : (env.derive .blake3_256 _).digest = [] := h
    unfold Env.derive at h'
    simp_all
  rcases keys with _ | ⟨k, _ | ⟨k', ks⟩⟩
  · exact hsa _
  · refine prefixText_ne ?_ (hk k (by simp))
    cases k.derivation <;> decide
  · exact hsa _

/-- one more event of a written log: what it needs to be accepted -/
theorem Written.steps {env : Env} (hb : env.Blake3Size) {rnd : BasicPrefix × BasicPrefix} {es : List SignedEvent} {last : EventMessage} {now next : KeySet}
    {ws : List BasicPrefix} (h : Written env rnd es last now next ws) :
    last.event.content.prefix.toStr ≠ [] ∧
    ∃ es' s s' sigs, es = es' ++ [⟨last, sigs, none⟩] ∧ Log env last.event.content.prefix.toStr es' s ∧ last.applyTo env s = .ok s' ∧
      Describes env none s' last now next ws ∧ (∃ bytes, last.serialize env = .ok bytes ∧ s'.current.verify env bytes sigs = .ok true) ∧
      ((∃ x, last.event.content.data = .icp x) ∨ (∃ x, last.event.content.data = .rot x) ∨ ∃ x, last.event.content.data = .ixn x) ∧
      (∀ e ∈ es, e.pre = last.event.content.prefix) ∧
      (es' = [] ∨ ∃ l' now' next' ws', Written env rnd es' l' now' next' ws' ∧ l'.event.content.prefix = last.event.content.prefix) := by
  induction h with
  | @incept first next ws m sigs hk hbd hs =>
    rw [inception_build] at hbd
    cases hbd
    obtain ⟨s', h1, D⟩ := inception_applies env first next ws
    refine ⟨inception_ne hb hk next ws, [], IdState.default, s', sigs, rfl, .nil, h1, D, ?_, .inl ⟨_, (built_binding env first next ws).2.1⟩, ?_, .inl rfl⟩
    · rw [D.keys]; exact signedWith_verifies hs
    · intro e he; simp only [List.mem_singleton] at he; subst he; rfl
  | @rotate es last now next ws next' add remove seals m sigs hw hbd hs ih =>
    obtain ⟨hid, es', s, s', sigs', rfl, hl, ha, D, -, -, hpre, -⟩ := ih
    have hd : last.event.content.prefix ≠ IdentifierPrefix.default := by
      intro h; rw [h] at hid; exact hid default_text
    rw [rotation_build env rnd last hd] at hbd
    cases hbd
    obtain ⟨s'', h1, D'⟩ := rotation_applies env D next' add remove seals
    refine ⟨hid, _, s', s'', sigs, rfl, .snoc hl rfl rfl ha, h1, D', ?_, .inr (.inl ⟨_, rfl⟩), ?_, .inr ⟨last, _, _, _, hw, rfl⟩⟩
    · rw [D'.keys]; exact signedWith_verifies hs
    · intro e he
      rcases List.mem_append.1 he with he | he
      · exact hpre e he
      · simp only [List.mem_singleton] at he; subst he; rfl
  | @interact es last now next ws seals m sigs hw hbd hs ih =>
    obtain ⟨hid, es', s, s', sigs', rfl, hl, ha, D, -, -, hpre, -⟩ := ih
    have hd : last.event.content.prefix ≠ IdentifierPrefix.default := by
      intro h; rw [h] at hid; exact hid default_text
    rw [interaction_build env rnd last hd] at hbd
    cases hbd
    obtain ⟨s'', h1, D'⟩ := interaction_applies env D seals
    refine ⟨hid, _, s', s'', sigs, rfl, .snoc hl rfl rfl ha, h1, D', ?_, .inr (.inr ⟨_, rfl⟩), ?_, .inr ⟨last, _, _, _, hw, rfl⟩⟩
    · rw [D'.keys]; exact signedWith_verifies hs
    · intro e he
      rcases List.mem_append.1 he with he | he
      · exact hpre e he
      · simp only [List.mem_singleton] at he; subst he; rfl

/-! ## C81 -/

/-- **C81.** The builder builds whatever an application asks for: an inception always, and every next event of a written log. -/
theorem C81_always_builds {env : Env} (hb : env.Blake3Size) (rnd : BasicPrefix × BasicPrefix) (first next0 : KeySet) (ws0 : List BasicPrefix)
    {es : List SignedEvent} {last : EventMessage} {now next : KeySet} {ws : List BasicPrefix} (h : Written env rnd es last now next ws)
    (next' : KeySet) (add remove : List BasicPrefix) (seals : List Seal) :
    (∃ m, (Builder.inception env rnd first next0 ws0).build env = .ok m) ∧
    (∃ m, (Builder.rotation env rnd .rot last next next' add remove seals).build env = .ok m ∧
      m.event.content = ⟨last.event.content.prefix, last.event.content.sn + 1, .rot ⟨last.event.digest, next.config env next', 0, remove, add, seals⟩⟩) ∧
    ∃ m, (Builder.interaction env rnd last seals).build env = .ok m ∧
      m.event.content = ⟨last.event.content.prefix, last.event.content.sn + 1, .ixn ⟨last.event.digest, seals⟩⟩ := by
  obtain ⟨hid, -⟩ := h.steps hb
  have hd : last.event.content.prefix ≠ IdentifierPrefix.default := by
    intro h; rw [h] at hid; exact hid default_text
  exact ⟨⟨_, inception_build ..⟩, ⟨_, rotation_build env rnd last hd .., rfl⟩, ⟨_, interaction_build env rnd last hd .., rfl⟩⟩

/-- **C81.** The next event of a log kept with the builder is accepted by every node that has the log up to there, after any history; the node's
state then has the keys in force, the commitment to the next ones, and the witnesses the application
chose — with a receipt threshold of zero, which the builder has no method to change. -/
theorem C81_accepted {env : Env} (hb : env.Blake3Size) {rnd : BasicPrefix × BasicPrefix} {es : List SignedEvent} {e : SignedEvent} {last : EventMessage}
    {now next : KeySet} {ws : List BasicPrefix} (h : Written env rnd (es ++ [e]) last now next ws) (as : List Action)
    (hk : (after env as).kel e.pre = es) (hr : Readable es) :
    (∃ s, (process sled env (.event e) (after env as)).1 = .ok (some s) ∧ s.prefix = e.pre ∧ s.sn = es.length ∧ s.lastDigest = e.dig ∧
      s.current = ⟨now.threshold, now.keys, some (KeyConfig.nxtCommitment env next.threshold next.keys .blake3_256)⟩ ∧ s.witnesses = ws ∧ s.tally = 0) ∧
    (after env (as ++ [.submit (.event e)])).kel e.pre = es ++ [e] := by
  obtain ⟨hid, es', s, s', sigs, he, hl, ha, D, ⟨b, hs, hv⟩, hpl, -, -⟩ := h.steps hb
  obtain ⟨rfl, he2⟩ := List.append_inj' he rfl
  have he3 := (List.cons.inj he2).1
  subst he3
  obtain ⟨h1, h2⟩ := accepts env as ⟨last, sigs, none⟩ hid s s' b (by rw [hk]; exact hl) (by rw [hk]; exact hr)
    (plain_checkDelegation env _ _ hpl) ha hs hv
  refine ⟨⟨s', h1, D.pre, ?_, D.dig, D.keys, D.wits, D.tally⟩, by rw [h2, hk]; rfl⟩
  have := (Log.snoc (e := ⟨last, sigs, none⟩) hl rfl rfl ha).facts hid
  have h3 := (this.2.1 (by simp)).2
  simp at h3
  omega

/-- **C81.** Submitted in order to a node that knows nothing of the identifier, the whole log is accepted, and is the node's log. -/
theorem C81_log {env : Env} (hb : env.Blake3Size) {rnd : BasicPrefix × BasicPrefix} {es : List SignedEvent} {last : EventMessage}
    {now next : KeySet} {ws : List BasicPrefix} (h : Written env rnd es last now next ws) (hr : Readable es) (as : List Action)
    (hk : (after env as).kel last.event.content.prefix = []) :
    (∀ before e rest, es = before ++ e :: rest →
      ∃ s, (process sled env (.event e) (after env (as ++ before.map fun e => .submit (.event e)))).1 = .ok (some s)) ∧
    (after env (as ++ es.map fun e => .submit (.event e))).kel last.event.content.prefix = es := by
  have key : ∀ n es last now next ws, es.length = n → Written env rnd es last now next ws → Readable es →
      (after env as).kel last.event.content.prefix = [] →
      (∀ before e rest, es = before ++ e :: rest →
        ∃ s, (process sled env (.event e) (after env (as ++ before.map fun e => .submit (.event e)))).1 = .ok (some s)) ∧
      (after env (as ++ es.map fun e => .submit (.event e))).kel last.event.content.prefix = es := by
    intro n
    induction n with
    | zero =>
      intro es last now next ws hn h
      obtain ⟨-, es', -, -, sigs, rfl, -⟩ := h.steps hb
      simp at hn
    | succ n ih =>
      intro es last now next ws hn h hr hk
      obtain ⟨hid, es', s, s', sigs, rfl, -, -, -, -, -, -, hprev⟩ := h.steps hb
      have hr' : Readable es' := fun e he => hr e (List.mem_append_left _ he)
      have hbefore : (∀ before e rest, es' = before ++ e :: rest →
          ∃ s, (process sled env (.event e) (after env (as ++ before.map fun e => .submit (.event e)))).1 = .ok (some s)) ∧
        (after env (as ++ es'.map fun e => .submit (.event e))).kel last.event.content.prefix = es' := by
        rcases hprev with rfl | ⟨l', now', next', ws', hw, hp⟩
        · exact ⟨by intro before e rest h; simp at h, by simpa using hk⟩
        · have := ih es' l' now' next' ws' (by simpa using hn) hw hr' (by rw [hp]; exact hk)
          rw [hp] at this
          exact this
      obtain ⟨⟨s1, ha, -⟩, hk2⟩ := C81_accepted hb h (as ++ es'.map fun e => .submit (.event e)) hbefore.2 hr'
      refine ⟨?_, ?_⟩
      · intro before e rest he
        rcases List.eq_nil_or_concat rest with rfl | ⟨rest', x, rfl⟩
        · obtain ⟨rfl, he2⟩ := List.append_inj' he rfl
          have he3 := (List.cons.inj he2).1
          subst he3
          exact ⟨s1, ha⟩
        · have : es' ++ [⟨last, sigs, none⟩] = (before ++ e :: rest') ++ [x] := by simpa using he
          obtain ⟨h1, -⟩ := List.append_inj' this rfl
          exact hbefore.1 before e rest' h1
      · simpa [List.map_append] using hk2
  exact key _ es last now next ws rfl h hr hk

/-- **C81.** What a builder nobody has told anything builds: an inception is that of the drawn key, committing to the other drawn key; rotations
and interactions are the first ones after an inception, chained to the digest of 32 zero bytes; the delegated kinds name the empty delegator.
Kinds that are not key events are refused. -/
theorem C81_defaults (env : Env) (k nk : BasicPrefix) :
    let kc : KeyConfig := ⟨.simple 1, [k], some (KeyConfig.nxtCommitment env (.simple 1) [nk] .blake3_256)⟩
    let zero : SelfAddressingPrefix := ⟨.blake3_256, env.digest .blake3_256 (List.replicate 32 0)⟩
    (∃ m, (Builder.new env .icp k nk).build env = .ok m ∧ m.event.content = ⟨.basic k, 0, .icp ⟨kc, 0, [], [], []⟩⟩) ∧
    (∃ m, (Builder.new env .rot k nk).build env = .ok m ∧ m.event.content = ⟨.basic k, 1, .rot ⟨zero, kc, 0, [], [], []⟩⟩) ∧
    (∃ m, (Builder.new env .ixn k nk).build env = .ok m ∧ m.event.content = ⟨.basic k, 1, .ixn ⟨zero, []⟩⟩) ∧
    (∃ m, (Builder.new env .dip k nk).build env = .ok m ∧ m.event.content.sn = 0 ∧
      m.event.content.data = .dip ⟨⟨kc, 0, [], [], []⟩, IdentifierPrefix.default⟩) ∧
    (∃ m, (Builder.new env .drt k nk).build env = .ok m ∧ m.event.content = ⟨.basic k, 1, .drt ⟨zero, kc, 0, [], [], []⟩⟩) ∧
    ∀ t, t = .rct ∨ t = .rpy ∨ t = .qry → (Builder.new env t k nk).build env = .err (.semantic "Not key event") := by
  intro kc zero
  refine ⟨⟨_, rfl, rfl⟩, ⟨_, rfl, rfl⟩, ⟨_, rfl, rfl⟩, ⟨_, rfl, rfl, rfl⟩, ⟨_, rfl, rfl⟩, ?_⟩
  rintro t (rfl | rfl | rfl) <;> rfl

/-- **C81 fails** for some methods: the seals given to an inception, the witnesses and seals given to a delegated inception, and the witness changes
given to a delegated rotation are dropped without an error. -/
theorem C81_fails_dropped (env : Env) (b : Builder) (ws add remove : List BasicPrefix) (seals : List Seal) :
    (b.type = .icp → { b with data := seals }.build env = b.build env) ∧
    (b.type = .dip → { b with witnesses := ws, data := seals }.build env = b.build env) ∧
    (b.type = .drt → { b with add := add, remove := remove }.build env = b.build env) := by
  obtain ⟨t, p, sn, th, nth, k, nk, prev, dat, del, ta, w, a, r, f, d⟩ := b
  refine ⟨?_, ?_, ?_⟩ <;> intro h <;> cases h <;> rfl

/-- **C81 fails** for inceptions given a prefix: with a self-signing one the builder panics, and with the basic prefix of another key it builds an event
that every node refuses. -/
theorem C81_fails_given_prefix (env : Env) (rnd : BasicPrefix × BasicPrefix) (first next : KeySet) (ws : List BasicPrefix) :
    (∀ sp, { Builder.inception env rnd first next ws with «prefix» := .selfSigning sp }.build env = .panic) ∧
    ∀ k, first.keys ≠ [k] → ∃ m, { Builder.inception env rnd first next ws with «prefix» := .basic k }.build env = .ok m ∧
      ∀ s, m.applyTo env s = .err (.semantic "Invalid Identifier Prefix Binding") := by
  refine ⟨fun sp => ?_, fun k hk => ?_⟩
  · unfold Builder.build Builder.pre
    simp [Builder.inception, Builder.new, IdentifierPrefix.default]
  · refine ⟨saidJson env ⟨.basic k, 0, .icp (builtIcp env first next ws)⟩, ?_, ?_⟩
    · unfold Builder.build Builder.pre
      simp [Builder.inception, Builder.new, IdentifierPrefix.default]
      rfl
    · intro s
      unfold EventMessage.applyTo
      have : verifyIdentifierBinding env (saidJson env ⟨.basic k, 0, .icp (builtIcp env first next ws)⟩) = .ok false := by
        simp [verifyIdentifierBinding, saidJson, builtIcp, KeySet.config, hk]
      simp only [this]
      rfl

/-- **C81 fails** for a later event built without a prefix: with one key it becomes an event of another identifier, the one of the new key. -/
theorem C81_fails_no_prefix (env : Env) (rnd : BasicPrefix × BasicPrefix) (last : EventMessage) (k : BasicPrefix) (t : Threshold) (next : KeySet)
    (add remove : List BasicPrefix) (seals : List Seal) :
    ∃ m, { Builder.rotation env rnd .rot last ⟨[k], t⟩ next add remove seals with «prefix» := IdentifierPrefix.default }.build env = .ok m ∧
      m.event.content.prefix = .basic k := by
  refine ⟨saidJson env ⟨.basic k, last.event.content.sn + 1, .rot ⟨last.event.digest, (KeySet.mk [k] t).config env next, 0, remove, add, seals⟩⟩, ?_, rfl⟩
  unfold Builder.build Builder.pre
  simp [Builder.rotation, Builder.following, Builder.new]
  rfl

/-! ## A concrete log: two of three keys, then three weighted keys, then an interaction -/

namespace Ex
/-- the random keys drawn by the builder -/
def rnd : BasicPrefix × BasicPrefix := (key 90, key 91)
/-- key sets of the example -/
def ks1 : KeySet := ⟨[key 1, key 2, key 3], .simple 2⟩
/-- weighted -/
def ks2 : KeySet := ⟨[key 4, key 5, key 6], .single [.rat 1 2, .rat 1 2, .rat 1 4]⟩
/-- one key -/
def ks3 : KeySet := ⟨[key 7], .simple 1⟩
/-- the built and signed inception -/
def bIcp : SignedEvent := signAll (msgOr ((Builder.inception env rnd ks1 ks2 [key 30]).build env)) [1, 2]
/-- the built and signed rotation -/
def bRot : SignedEvent := signAll (msgOr ((Builder.rotation env rnd .rot bIcp.msg ks2 ks3 [key 31] [key 30] []).build env)) [4, 5, 6]
/-- the built and signed interaction -/
def bIxn : SignedEvent := signAll (msgOr ((Builder.interaction env rnd bRot.msg [.digest ⟨.blake3_256, dig b!"data"⟩]).build env)) [4, 5]

theorem signed_of_verify {ks next : KeySet} {e : SignedEvent} (hj : e.msg.info.kind = .json)
    (h : (ks.config env next).verify env (jsonText e.msg.sval) e.sigs = .ok true) : SignedWith env ks e.msg e.sigs := by
  have h' := (KeyConfig.verify_true_iff _ _ _ _).1 h
  refine ⟨(enough_iff _ _).1 h'.1, h'.2.1, _, json_serialize env _ hj, ?_⟩
  intro s hs
  obtain ⟨k, h1, h2⟩ := h'.2.2 s hs
  exact ⟨k, h1, (verify_iff_sigValid _ _ _ _).1 h2⟩

theorem written1 : Written env rnd [bIcp] bIcp.msg ks1 ks2 [key 30] :=
  .incept (by decide) (by rw [inception_build]; decide +kernel) (signed_of_verify (ks := ks1) (next := ks2) (e := bIcp) (by decide +kernel) (by decide +kernel))
theorem written2 : Written env rnd [bIcp, bRot] bRot.msg ks2 ks3 [key 31] :=
  Written.rotate (ws := [key 30]) (add := [key 31]) (remove := [key 30]) written1 (by decide +kernel : (Builder.rotation env rnd .rot bIcp.msg ks2 ks3 [key 31] [key 30] []).build env = .ok bRot.msg)
    (signed_of_verify (ks := ks2) (next := ks3) (e := bRot) (by decide +kernel) (by decide +kernel))
theorem written3 : Written env rnd [bIcp, bRot, bIxn] bIxn.msg ks2 ks3 [key 31] :=
  Written.interact written2 (by decide +kernel : (Builder.interaction env rnd bRot.msg [.digest ⟨.blake3_256, dig b!"data"⟩]).build env = .ok bIxn.msg)
    (signed_of_verify (ks := ks2) (next := ks3) (e := bIxn) (by decide +kernel) (by decide +kernel))
end Ex

/-- the hypotheses of C81 are met by that log -/
example : Written Ex.env Ex.rnd [Ex.bIcp, Ex.bRot, Ex.bIxn] Ex.bIxn.msg Ex.ks2 Ex.ks3 [Ex.key 31] ∧ Readable [Ex.bIcp, Ex.bRot, Ex.bIxn] ∧
    (after Ex.env Ex.hist).kel Ex.bIxn.pre = [] := by
  refine ⟨Ex.written3, ?_, by decide +kernel⟩
  have : [Ex.bIcp, Ex.bRot, Ex.bIxn].all (·.rt) = true := by decide +kernel
  intro e he
  exact (List.all_eq_true.1 this) e he

end Keriox
