import Verif.Props.Node
import Verif.Props.Roots
import Verif.Props.Reader
import Verif.Props.Attach
import Verif.Cbor
import Verif.Mgpk
/-!
# C121: the identifier without a text

The type of identifiers has members without a text: the default identifier and its like, with an empty derivative.  The table of logs keeps all of
them under one and the same key, so the theorems about histories leave them out.  A node never meets one: what is read from bytes has a text, and so
has what the node makes itself.
-/
namespace Keriox

/-! ## Specification -/

/-- the event speaks of identifiers that have a text -/
def EventMessage.Named (m : EventMessage) : Prop :=
  m.event.content.prefix.toStr ≠ [] ∧ ∀ d, m.event.content.data.delegator? = some d → d.toStr ≠ []

/-- the readers of the binary formats, too, read the identifiers of events from texts -/
def Binary.ReadsNames (bin : Binary) : Prop :=
  ∀ s rest info e, bin.event s = .ok rest (info, e) → (∃ t, IdentifierPrefix.fromStr t = .ok e.content.prefix) ∧
    ∀ d, e.content.data.delegator? = some d → ∃ t, IdentifierPrefix.fromStr t = .ok d

/-- a finite chain of delegators ends at an identifier nobody delegated; every link is an anchor in the delegator's log -/
inductive Hangs (env : Env) (db : Db) : IdentifierPrefix → Prop
  | root (id : IdentifierPrefix) (e0 : SignedEvent) : (db.kel id)[0]? = some e0 → e0.data.delegator? = none → Hangs env db id
  | link (id d : IdentifierPrefix) (e0 : SignedEvent) (n : Nat) : (db.kel id)[0]? = some e0 → e0.data.delegator? = some d →
      AnchoredAt env (db.kel d) n e0.msg → Hangs env db d → Hangs env db id

/-- the application passes on events about identifiers with a text only -/
def NamedCalls (cs : List NodeCall) : Prop := ∀ e, NodeCall.pass (.submit (.event e)) ∈ cs → e.msg.Named

/-! ## Proof -/

theorem IdentifierPrefix.WF.named {p : IdentifierPrefix} (h : p.WF) : p.toStr ≠ [] := by
  cases p with
  | basic p => exact prefixText_ne (by cases p.derivation <;> decide) h
  | selfAddressing p => exact prefixText_ne (by cases p.derivation <;> first | decide | (simp only [SelfAddressing.toStr]; decide)) h.1
  | selfSigning p => exact prefixText_ne (by cases p.derivation <;> decide) h

/-- C121: every identifier that is read from a text has a text. -/
theorem C121_text_named (s : Bytes) (p : IdentifierPrefix) (h : IdentifierPrefix.fromStr s = .ok p) : p.toStr ≠ [] := (wf_of_fromStr s p h).named

theorem desKeyEvent_names {fs : List (Bytes × JVal)} {e : KeyEvent} (h : desKeyEvent fs = .ok e) :
    (∃ t, IdentifierPrefix.fromStr t = .ok e.content.prefix) ∧
    ∀ d, e.content.data.delegator? = some d → ∃ t, IdentifierPrefix.fromStr t = .ok d := by
  obtain ⟨-, ⟨v, -, t, -, ht⟩, -, -, hd⟩ := (keyEvent_iff _ _).1 h
  refine ⟨⟨t, ht⟩, fun d h => ?_⟩
  cases hx : e.content.data with
  | dip x =>
    rw [hx] at h hd
    cases h
    obtain ⟨-, v, -, t, -, ht⟩ := hd
    exact ⟨t, ht⟩
  | _ => rw [hx] at h; cases h

theorem desMessage_names {x : List (Bytes × JVal) × Option Bytes} {info : SerInfo} {e : KeyEvent} {rest : Bytes}
    (h : desMessage desKeyEvent x = .ok (info, e, rest)) :
    (∃ t, IdentifierPrefix.fromStr t = .ok e.content.prefix) ∧
    ∀ d, e.content.data.delegator? = some d → ∃ t, IdentifierPrefix.fromStr t = .ok d := by
  obtain ⟨fs, o⟩ := x
  exact desKeyEvent_names ((message_iff _ _ _ _ _ _).1 h).2.2

/-- C121: the CBOR and MessagePack readers read the identifiers of events from texts. -/
theorem C121_binary_readers (r : Bytes → IRes (SerInfo × (SelfAddressingPrefix × IdentifierPrefix × Nat))) :
    (Binary.mk (cborMessage desKeyEvent) r).ReadsNames ∧ (Binary.mk (mgpkMessage desKeyEvent) r).ReadsNames ∧
    (Binary.mk (altP (cborMessage desKeyEvent) (mgpkMessage desKeyEvent)) r).ReadsNames := by
  have h1 : (Binary.mk (cborMessage desKeyEvent) r).ReadsNames := by
    intro s rest info e h
    have h : cborMessage desKeyEvent s = .ok rest (info, e) := h
    unfold cborMessage at h
    split at h
    · rename_i hx; cases h; exact desMessage_names hx
    · cases h
    · cases h
  have h2 : (Binary.mk (mgpkMessage desKeyEvent) r).ReadsNames := by
    intro s rest info e h
    have h : mgpkMessage desKeyEvent s = .ok rest (info, e) := h
    unfold mgpkMessage at h
    split at h
    · rename_i hx; cases h; exact desMessage_names hx
    · cases h
    · cases h
  refine ⟨h1, h2, fun s rest info e h => ?_⟩
  have h : altP (cborMessage desKeyEvent) (mgpkMessage desKeyEvent) s = .ok rest (info, e) := h
  unfold altP at h
  split at h
  · exact h2 s rest info e h
  · exact h1 s rest info e h

theorem keyEventMessageP_named {bin : Binary} (hb : bin.ReadsNames) {s rest : Bytes} {m : EventMessage}
    (h : keyEventMessageP bin s = .ok rest (.keyEvent m)) : m.Named := by
  unfold keyEventMessageP at h
  obtain ⟨r, ⟨info, e⟩, h1, h2⟩ := andThen_ok_inv h
  cases h2
  have key : (∃ t, IdentifierPrefix.fromStr t = .ok e.content.prefix) ∧
      ∀ d, e.content.data.delegator? = some d → ∃ t, IdentifierPrefix.fromStr t = .ok d := by
    unfold altP at h1
    split at h1
    · exact hb _ _ _ _ h1
    · unfold jsonMessage at h1
      split at h1
      · rename_i hx; cases h1; exact desMessage_names hx
      · cases h1
      · cases h1
  exact ⟨(key.1.elim fun t ht => C121_text_named t _ ht), fun d hd => (key.2 d hd).elim fun t ht => C121_text_named t _ ht⟩

theorem receiptMessageP_receipt {bin : Binary} {s rest : Bytes} {m : EventMessage} (h : receiptMessageP bin s = .ok rest (.keyEvent m)) : False := by
  unfold receiptMessageP at h
  obtain ⟨r, p, h1, h2⟩ := andThen_ok_inv h
  cases h2

theorem many0P_member {α : Type} {p : Bytes → IRes α} : ∀ (n : Nat) (s rest : Bytes) (as : List α), many0P p n s = .ok rest as →
    ∀ a ∈ as, ∃ t r, p t = .ok r a
  | 0, _, _, _, h => by cases h
  | n + 1, s, rest, as, h => by
    unfold many0P at h
    intro a ha
    split at h
    · cases h; cases ha
    · rename_i r b hb
      split at h
      · cases h
      · obtain ⟨r', bs, h1, h2⟩ := andThen_ok_inv h
        cases h2
        rcases List.mem_cons.1 ha with rfl | ha
        · exact ⟨s, r, hb⟩
        · exact many0P_member n r _ bs h1 a ha
    · cases h
    · cases h
    · cases h

theorem toMessage_msg {d : SignedDataQ} {e : SignedEvent} (h : d.toMessage = .ok (.event e)) : d.event = .plain (.keyEvent e.msg) := by
  obtain ⟨v, atts⟩ := d
  have h := (C83_exact _ _).1 h
  generalize hm : Message.event e = m at h
  dsimp only at h
  cases h <;> cases hm <;> rfl

theorem signedMessageP_named {bin : Binary} (hb : bin.ReadsNames) {s rest : Bytes} {d : SignedEventData} {e : SignedEvent}
    (h : signedMessageP bin s = .ok rest d) (hd : d.toMessage = .ok (.event e)) : e.msg.Named := by
  unfold signedMessageP at h
  obtain ⟨r, v, h1, h2⟩ := andThen_ok_inv h
  obtain ⟨r2, atts, h3, h4⟩ := andThen_ok_inv h2
  cases h4
  have hv := toMessage_msg (d := ⟨.plain v, atts⟩) hd
  cases hv
  unfold altP at h1
  split at h1
  · exact (receiptMessageP_receipt h1).elim
  · exact keyEventMessageP_named hb h1

theorem plainP_ok {p : Bytes → IRes EventType} {s rest : Bytes} {e : EventTypeQ} (h : plainP p s = .ok rest e) : ∃ v, e = .plain v ∧ p s = .ok rest v := by
  unfold plainP at h
  obtain ⟨r, v, h1, h2⟩ := andThen_ok_inv h
  cases h2
  exact ⟨v, rfl, h1⟩

theorem signedMessageQ_named {rd : Readers} (hb : rd.toBinary.ReadsNames) {s rest : Bytes} {d : SignedDataQ} {e : SignedEvent}
    (h : signedMessageQ rd s = .ok rest d) (hd : d.toMessage = .ok (.event e)) : e.msg.Named := by
  unfold signedMessageQ at h
  obtain ⟨r, v, h1, h2⟩ := andThen_ok_inv h
  obtain ⟨r2, atts, h3, h4⟩ := andThen_ok_inv h2
  cases h4
  have hv := toMessage_msg hd
  dsimp only at hv
  subst hv
  unfold anyMessageP altP at h1
  split at h1
  · split at h1
    · split at h1
      · obtain ⟨v, hv, h⟩ := plainP_ok h1
        cases hv
        exact (receiptMessageP_receipt h).elim
      · unfold queryMessageP at h1
        obtain ⟨_, _, _, h⟩ := andThen_ok_inv h1
        cases h
    · unfold replyMessageP at h1
      obtain ⟨_, _, _, h⟩ := andThen_ok_inv h1
      cases h
  · obtain ⟨v, hv, h⟩ := plainP_ok h1
    cases hv
    exact keyEventMessageP_named hb h

/-- C121: whatever bytes reach a node, by whichever of its four ways in, the events it takes from them speak of identifiers with a text. -/
theorem C121_received (w : Around) (hb : w.rd.toBinary.ReadsNames) (c : NodeCall) (e : SignedEvent) (h : c.Received w (.event e)) :
    e.msg.Named ∨ c = .pass (.submit (.event e)) := by
  cases c with
  | respond b =>
    obtain ⟨rest, ds, d, h1, h2, h3⟩ := h
    obtain ⟨t, r, h4⟩ := many0P_member _ _ _ _ h1 d h2
    exact .inl (signedMessageP_named hb h4 h3)
  | respondQ b =>
    obtain ⟨rest, ds, d, h1, h2, h3⟩ := h
    obtain ⟨t, r, h4⟩ := many0P_member _ _ _ _ h1 d h2
    exact .inl (signedMessageQ_named hb h4 h3)
  | respondSingle b => obtain ⟨rest, d, h1, h2⟩ := h; exact .inl (signedMessageP_named hb h1 h2)
  | stream b => obtain ⟨rest, d, h1, h2⟩ := h; exact .inl (signedMessageP_named hb h1 h2)
  | pass a => have h : a = _ := h; rw [h]; exact .inr rfl
  | _ => cases h

/-! ## What the node makes -/

theorem derived_named {env : Env} (hb : env.Blake3Size) (d : Bytes) : (IdentifierPrefix.selfAddressing (env.derive .blake3_256 d)).toStr ≠ [] := by
  refine prefixText_ne (show SelfAddressing.blake3_256.toStr ≠ [] by decide) fun h => ?_
  have := hb d
  rw [show env.digest .blake3_256 d = [] from h] at this
  cases this

theorem inceptSelfAddressing_named {env : Env} (hb : env.Blake3Size) {d : EventData} {f : Fmt} {m : EventMessage}
    (h : inceptSelfAddressing env d .blake3_256 f = .ok m) : m.event.content.prefix.toStr ≠ [] ∧ m.event.content.data = d := by
  unfold inceptSelfAddressing at h
  obtain ⟨i, _, h⟩ := Res.bind_eq_ok.1 h
  obtain ⟨b, _, h⟩ := Res.bind_eq_ok.1 h
  cases h
  exact ⟨derived_named hb _, rfl⟩

theorem saidMessage_content {env : Env} {e : Event} {f : Fmt} {c : SelfAddressing} {m : EventMessage} (h : e.saidMessage env f c = .ok m) :
    m.event.content = e := by
  unfold Event.saidMessage at h
  obtain ⟨i, _, h⟩ := Res.bind_eq_ok.1 h
  obtain ⟨b, _, h⟩ := Res.bind_eq_ok.1 h
  cases h
  rfl

theorem build_named {env : Env} (hb : env.Blake3Size) {b : Builder} (hd : b.derivation = .blake3_256)
    (hp : b.prefix = IdentifierPrefix.default ∨ b.prefix.toStr ≠ []) (hk : ∀ k ∈ b.keys, k.publicKey ≠ [])
    (ht : b.type = .icp ∨ b.type = .rot ∨ b.type = .ixn) {m : EventMessage} (h : b.build env = .ok m) : m.Named := by
  unfold Builder.build at h
  obtain ⟨pre, h1, h2⟩ := Res.bind_eq_ok.1 h
  have hn : pre.toStr ≠ [] := by
    unfold Builder.pre at h1
    split at h1
    · split at h1
      · rename_i k hkk
        cases h1
        exact prefixText_ne (by cases k.derivation <;> decide) (hk k (by rw [hkk]; exact List.mem_cons_self))
      · obtain ⟨m', h3, h4⟩ := Res.bind_eq_ok.1 h1
        cases h4
        rw [hd] at h3
        exact (inceptSelfAddressing_named hb h3).1
    · rename_i hne
      cases h1
      exact hp.resolve_left hne
  rw [hd] at h2
  rcases ht with ht | ht | ht <;> rw [ht] at h2
  · dsimp only at h2
    split at h2
    · have := saidMessage_content (show Event.saidMessage _ _ _ _ = .ok m from h2)
      refine ⟨by rw [this]; exact hn, fun d hx => ?_⟩
      rw [this] at hx; cases hx
    · have := inceptSelfAddressing_named hb h2
      refine ⟨this.1, fun d hx => ?_⟩
      rw [this.2] at hx; cases hx
    · cases h2
  · have := saidMessage_content (e := ⟨pre, b.sn, .rot ⟨b.prev, b.keyConfig env, b.tally, b.remove, b.add, b.data⟩⟩) (f := b.fmt) (c := .blake3_256) (m := m) (env := env)
      (by cases pre <;> exact h2)
    refine ⟨by rw [this]; exact hn, fun d hx => ?_⟩
    rw [this] at hx; cases hx
  · have := saidMessage_content (e := ⟨pre, b.sn, .ixn ⟨b.prev, b.data⟩⟩) (f := b.fmt) (c := .blake3_256) (m := m) (env := env)
      (by cases pre <;> exact h2)
    refine ⟨by rw [this]; exact hn, fun d hx => ?_⟩
    rw [this] at hx; cases hx

theorem signEvent_same {env : Env} {sg : SignFn} {c : Controller} {m : EventMessage} {e : SignedEvent} (h : c.signEvent env sg m = .ok e) : e.msg = m := by
  unfold Controller.signEvent at h
  obtain ⟨b, _, h⟩ := Res.bind_eq_ok.1 h
  obtain ⟨s, _, h⟩ := Res.bind_eq_ok.1 h
  cases h
  rfl

/-- the keys of the controller, present, future and random, have bytes; its identifier, if it has one yet, has a text -/
structure Controller.Keyed (c : Controller) : Prop where
  signer : c.km.signer.pub ≠ []
  next : c.km.next.pub ≠ []
  fresh : ∀ n, (c.km.fresh n).pub ≠ []
  rnd : c.rnd.1.publicKey ≠ []
  pre : c.pre = IdentifierPrefix.default ∨ c.pre.toStr ≠ []

theorem Controller.Keyed.rotate {c : Controller} (h : c.Keyed) : ({ c with km := c.km.rotate } : Controller).Keyed :=
  ⟨h.next, h.fresh 0, fun n => h.fresh (n + 1), h.rnd, h.pre⟩

theorem makeInception_named {env : Env} (hb : env.Blake3Size) {c : Controller} (hc : c.Keyed) {extra ws : List BasicPrefix}
    (hx : ∀ k ∈ extra, k.publicKey ≠ []) {m : EventMessage} (h : c.makeInception env extra ws = .ok m) : m.Named := by
  refine build_named hb (b := { c.builder env .icp with keys := c.km.key :: extra, nextKeys := [c.km.nextKey], witnesses := ws }) rfl hc.pre ?_ (.inl rfl) h
  intro k hk
  rcases List.mem_cons.1 hk with rfl | hk
  · exact hc.signer
  · exact hx k hk

theorem inceptExtra_named {env : Env} (hb : env.Blake3Size) {c : Controller} (hc : c.Keyed) {extra ws : List BasicPrefix}
    {m : EventMessage} (h : c.makeInception env extra ws = .ok m) : m.Named := by
  by_cases hx : extra = []
  · subst hx; exact makeInception_named hb hc (by simp) h
  · -- with several keys the identifier is a digest, or the one the controller has
    unfold Controller.makeInception Builder.build at h
    obtain ⟨pre, h1, h2⟩ := Res.bind_eq_ok.1 h
    have hn : pre.toStr ≠ [] := by
      unfold Builder.pre at h1
      split at h1
      · split at h1
        · rename_i k hkk
          have hkk : c.km.key :: extra = [k] := hkk
          exact absurd (List.cons.inj hkk).2 hx
        · obtain ⟨m', h3, h4⟩ := Res.bind_eq_ok.1 h1
          cases h4
          exact (inceptSelfAddressing_named hb (d := _) (f := _) h3).1
      · rename_i hne
        cases h1
        exact hc.pre.resolve_left hne
    replace h2 : (match pre with
      | .basic _ => (Event.mk pre 0 (.icp ⟨_, _, ws, [], []⟩)).toMessage env _ .blake3_256
      | .selfAddressing _ => inceptSelfAddressing env (.icp ⟨_, _, ws, [], []⟩) .blake3_256 _
      | _ => .panic) = .ok m := h2
    split at h2
    · have := saidMessage_content (show Event.saidMessage _ _ _ _ = .ok m from h2)
      refine ⟨by rw [this]; exact hn, fun d hx => ?_⟩
      rw [this] at hx; cases hx
    · have := inceptSelfAddressing_named hb h2
      refine ⟨this.1, fun d hx => ?_⟩
      rw [this.2] at hx; cases hx
    · cases h2

theorem made_named {w : Around} (hb : w.env.Blake3Size) {c : Controller} (hc : c.Keyed) {call : NodeCall} {e : SignedEvent} (h : call.Made w c e) :
    e.msg.Named := by
  cases call with
  | incept ws =>
    obtain ⟨m, h1, h2⟩ := Res.bind_eq_ok.1 h
    rw [signEvent_same h2]; exact inceptExtra_named hb hc h1
  | inceptExtra ks =>
    obtain ⟨m, h1, h2⟩ := Res.bind_eq_ok.1 h
    rw [signEvent_same h2]; exact inceptExtra_named hb hc h1
  | rotate =>
    obtain ⟨s, h⟩ := h
    obtain ⟨m, h1, h2⟩ := Res.bind_eq_ok.1 h
    rw [signEvent_same h2]
    refine build_named hb (b := { ({ c with km := c.km.rotate } : Controller).builder w.env .rot with
      sn := s.sn + 1, prev := s.lastDigest, keys := [c.km.rotate.key], nextKeys := [c.km.rotate.nextKey] }) rfl hc.pre ?_ (.inr (.inl rfl)) h1
    intro k hk
    cases List.mem_singleton.1 hk
    exact hc.next
  | makeIxn p =>
    obtain ⟨s, h⟩ := h
    obtain ⟨m, h1, h2⟩ := Res.bind_eq_ok.1 h
    rw [signEvent_same h2]
    refine build_named hb (b := { c.builder w.env .ixn with sn := s.sn + 1, prev := s.lastDigest, data := ixnSeals w.env p }) rfl hc.pre ?_ (.inr (.inr rfl)) h1
    intro k hk
    cases List.mem_singleton.1 hk
    exact hc.rnd
  | _ => cases h

theorem adopt_keyed {w : Around} (hb : w.env.Blake3Size) {c : Controller} (hc : c.Keyed) {extra ws : List BasicPrefix} {db : Db} :
    (c.adopt (submitOwn sled w.env (c.makeInception w.env extra ws >>= c.signEvent w.env w.sg) db).1).Keyed := by
  unfold Controller.adopt
  split
  · rename_i e he
    refine ⟨hc.signer, hc.next, hc.fresh, hc.rnd, .inr ?_⟩
    unfold submitOwn at he
    rw [StM.bind_run] at he
    cases hr : (c.makeInception w.env extra ws >>= c.signEvent w.env w.sg) with
    | ok e' =>
      rw [hr] at he
      obtain ⟨m, h1, h2⟩ := Res.bind_eq_ok.1 hr
      have hn : e'.msg.Named := by rw [signEvent_same h2]; exact inceptExtra_named hb hc h1
      replace he : ((Keriox.process sled w.env (.event e') >>= fun _ => Pure.pure e') db).1 = .ok e := he
      rw [StM.bind_run] at he
      rcases hp : Keriox.process sled w.env (.event e') db with ⟨r, db'⟩
      rw [hp] at he
      cases r with
      | ok o => cases he; exact hn.1
      | err x => cases he
      | panic => cases he
    | err x => rw [hr] at he; cases he
    | panic => rw [hr] at he; cases he
  · exact hc

theorem run_keyed {w : Around} (hb : w.env.Blake3Size) {x : Controller × Db} (hc : x.1.Keyed) (call : NodeCall) : (call.run w x).1.Keyed := by
  cases call with
  | incept ws => exact adopt_keyed hb hc
  | inceptExtra ks => exact adopt_keyed hb hc
  | rotate => exact hc.rotate
  | _ => exact hc

theorem after_keyed {w : Around} (hb : w.env.Blake3Size) (cs : List NodeCall) {x : Controller × Db} (hc : x.1.Keyed) : (w.after x cs).1.Keyed := by
  induction cs generalizing x with
  | nil => exact hc
  | cons c cs ih => exact ih (run_keyed hb hc c)

/-- nothing is written for identifiers of which no event speaks -/
theorem log_untouched (env : Env) (t : Bytes) (as : List Action) (h : ∀ e, Action.submit (.event e) ∈ as → e.pre.toStr ≠ t) : (after env as).abs.log t = [] := by
  induction as using snoc_induction with
  | h0 => rfl
  | h1 as a ih =>
    have ih := ih fun e he => h e (List.mem_append_left _ he)
    have ha : (Keriox.after env (as ++ [a])).abs = a.run mapOps env (Keriox.after env as).abs := by
      rw [after_abs, after_abs, runHistory_append]; rfl
    have same : (a.run mapOps env (after env as).abs).tables .kels t = (after env as).abs.tables .kels t := by
      cases a with
      | reprocess => exact congrFun (escrow_writes env _ .kels (by simp)) _
      | lookup t i => rw [Action.run, ReadOnly.read t i _]
      | submit m =>
        cases m with
        | rctNt r => exact witnessReceipt_writes env r _ .kels _ (.inr (by simp))
        | rctT r => exact validatorReceipt_writes env r _ .kels _ (.inr (by simp))
        | reply r => exact signedReply_writes env r _ .kels _ (.inr (by simp))
        | query q => rfl
        | event e => exact processEvent_writes env e _ .kels _ (.inl (h e (List.mem_append_right _ List.mem_cons_self)).symm)
    rw [ha]
    unfold MapDb.log at ih ⊢
    rw [same, ih]

/-- the history of a node is about identifiers with a text -/
theorem named_history (w : Around) (hb : w.env.Blake3Size) (hr : w.rd.toBinary.ReadsNames) (c : Controller) (hc : c.Keyed) (cs : List NodeCall)
    (hp : NamedCalls cs) : ∃ as, Tracks w.env (w.after (c, Db.empty) cs).2 as ∧ ∀ e, Action.submit (.event e) ∈ as → e.msg.Named := by
  obtain ⟨as, h1, h2⟩ := node_keeps w (c, Db.empty) cs [] (.empty _)
  refine ⟨_, h1, fun e he => ?_⟩
  obtain ⟨before, call, rest, h3, h4⟩ := h2 e (by simpa using he)
  rcases h4 with h4 | h4
  · rcases C121_received w hr call e h4 with h | rfl
    · exact h
    · exact hp e (by rw [h3]; exact List.mem_append_right _ List.mem_cons_self)
  · exact made_named hb (after_keyed hb before hc) h4

/-! ## C121 -/

/-- C121: a node has no log for an identifier without a text, whatever it does and whatever bytes reach it. -/
theorem C121_no_log (w : Around) (hb : w.env.Blake3Size) (hr : w.rd.toBinary.ReadsNames) (c : Controller) (hc : c.Keyed) (cs : List NodeCall)
    (hp : NamedCalls cs) (id : IdentifierPrefix) (hid : id.toStr = []) : (w.after (c, Db.empty) cs).2.kel id = [] := by
  obtain ⟨as, h1, h2⟩ := named_history w hb hr c hc cs hp
  rw [h1.kel id]
  show (after w.env as).abs.log id.toStr = []
  rw [hid]
  exact log_untouched _ _ _ fun e he => (h2 e he).1

/-- C121: so the events of a node's logs are never taken back, for all identifiers whatever. -/
theorem C121_append_only (w : Around) (hb : w.env.Blake3Size) (hr : w.rd.toBinary.ReadsNames) (c : Controller) (hc : c.Keyed) (cs ds : List NodeCall)
    (hp : NamedCalls cs) (id : IdentifierPrefix) :
    (w.after (c, Db.empty) cs).2.kel id <+: (w.after (c, Db.empty) (cs ++ ds)).2.kel id := by
  by_cases hid : id.toStr = []
  · rw [C121_no_log w hb hr c hc cs hp id hid]; exact List.nil_prefix
  · exact C108_append_only w c cs ds id hid

/-- C121: so every log of a node is well-formed, for all identifiers whatever: numbered from zero, one inception at its head, all events about the identifier,
each naming the digest of the one before, each rotation revealing the committed keys. -/
theorem C121_well_formed (w : Around) (hb : w.env.Blake3Size) (hr : w.rd.toBinary.ReadsNames) (c : Controller) (hc : c.Keyed) (cs : List NodeCall)
    (hp : NamedCalls cs) (id : IdentifierPrefix) (i : Nat) (e : SignedEvent) (he : ((w.after (c, Db.empty) cs).2.kel id)[i]? = some e) :
    e.sn = i ∧ (e.data.isInception = true ↔ i = 0) ∧ e.pre.toStr = id.toStr ∧
    (∀ e', ((w.after (c, Db.empty) cs).2.kel id)[i + 1]? = some e' → e'.data.previous? = some e.dig) ∧
    (∀ r, e.data.rotation? = some r → ∃ kc n, keysInForce (((w.after (c, Db.empty) cs).2.kel id).take i) = some kc ∧ kc.nextDigest = some n ∧
      r.keyConfig.commit w.env n.derivation = n) := by
  by_cases hid : id.toStr = []
  · rw [C121_no_log w hb hr c hc cs hp id hid] at he; simp at he
  · exact C108_well_formed w c cs id hid i e he

/-- C121: so every event in a log came in with the bytes of some call, or was made by the node, for all identifiers whatever. -/
theorem C121_provenance (w : Around) (hb : w.env.Blake3Size) (hr : w.rd.toBinary.ReadsNames) (c : Controller) (hc : c.Keyed) (cs : List NodeCall)
    (hp : NamedCalls cs) (id : IdentifierPrefix) (e : SignedEvent) (he : e ∈ (w.after (c, Db.empty) cs).2.kel id) :
    ∃ sub before call rest, sub.stored = e ∧ cs = before ++ call :: rest ∧
      (call.Received w (.event sub) ∨ call.Made w (w.after (c, Db.empty) before).1 sub) := by
  by_cases hid : id.toStr = []
  · rw [C121_no_log w hb hr c hc cs hp id hid] at he; cases he
  · exact C108_provenance w c cs id hid e he

/-- C121: so every identifier a node has a log of hangs on a finite chain of delegators, each anchored in the log of the next, with an undelegated
identifier at its end. -/
theorem C121_rooted (w : Around) (hb : w.env.Blake3Size) (hr : w.rd.toBinary.ReadsNames) (c : Controller) (hc : c.Keyed) (cs : List NodeCall)
    (hp : NamedCalls cs) (id : IdentifierPrefix) (hne : (w.after (c, Db.empty) cs).2.kel id ≠ []) :
    Hangs w.env (w.after (c, Db.empty) cs).2 id := by
  obtain ⟨as, h1, h2⟩ := named_history w hb hr c hc cs hp
  have hid : id.toStr ≠ [] := fun h => hne (C121_no_log w hb hr c hc cs hp id h)
  rw [h1.kel id] at hne
  have key : ∀ x, Rooted w.env (after w.env as) x → x.toStr ≠ [] → Hangs w.env (w.after (c, Db.empty) cs).2 x := by
    have named : ∀ (x d : IdentifierPrefix) (e0 : SignedEvent), x.toStr ≠ [] → ((after w.env as).kel x)[0]? = some e0 → e0.data.delegator? = some d → d.toStr ≠ [] := by
      intro x d e0 hx h0 hd
      obtain ⟨sub, hs, rfl⟩ := logged_submitted w.env as x hx e0 (List.mem_of_getElem? h0)
      exact (h2 sub hs).2 d hd
    intro x hx
    induction hx with
    | root id e0 h0 hd => exact fun _ => .root id e0 (by rw [h1.kel]; exact h0) hd
    | link id d e0 n h0 hd ha _ ih => exact fun hx => .link id d e0 n (by rw [h1.kel]; exact h0) hd (by rw [h1.kel]; exact ha) (ih (named id d e0 hx h0 hd))
    | nameless id d hb hd =>
      obtain ⟨e0, h0, h3⟩ := hb
      exact fun hx => absurd hd (named id d e0 hx h0 h3)
  exact key id (C106_rooted w.env as id hid hne) hid

/-! ## Examples -/

/-- the calls of C108's example meet the hypotheses -/
example : Ex.env.Blake3Size ∧ Ex.noReaders.toBinary.ReadsNames ∧ NamedCalls Ex.nodeCalls := by
  refine ⟨Ex.blake3Size, ?_, fun e he => ?_⟩
  · intro s rest info e h
    cases h
  have h : e = Ex.icpFinal ∨ e = Ex.thief := by
    simp only [Ex.nodeCalls, List.mem_cons, List.not_mem_nil, or_false, NodeCall.pass.injEq, Action.submit.injEq, Message.event.injEq, reduceCtorEq, false_or] at he
    exact he
  have hd : ∀ {m : EventMessage}, m.event.content.prefix.toStr ≠ [] → m.event.content.data.delegator? = none → m.Named :=
    fun h1 h2 => ⟨h1, fun d h => by rw [h2] at h; cases h⟩
  rcases h with rfl | rfl
  · exact hd (by decide +kernel) (by decide +kernel)
  · exact hd (by decide +kernel) (by decide +kernel)

/-- so does a new controller with a working key manager -/
theorem new_keyed {env : Env} {sg : SignFn} {km : CryptoBox} (h : km.Works env sg) {rnd : BasicPrefix × BasicPrefix} (hr : rnd.1.publicKey ≠ []) :
    (Controller.new km rnd).Keyed := by
  have ne : ∀ {kp : KeyPair}, kp.Works env sg → kp.pub ≠ [] := fun h h0 => by have := h.size; rw [h0] at this; cases this
  exact ⟨ne h.signer, ne h.next, fun n => ne (h.fresh n), hr, .inl rfl⟩

example : Ex.ctl.Keyed := new_keyed Ex.km_works (by decide)

set_option maxRecDepth 20000 in
/-- and there the theorems speak about a log of three events, made and received -/
example : Ex.nodeEnd = Ex.around.after (Ex.ctl, Db.empty) Ex.nodeCalls ∧ (Ex.nodeEnd.2.kel Ex.nodeEnd.1.pre).length = 3 ∧
    Ex.nodeEnd.2.kel IdentifierPrefix.default = [] ∧ IdentifierPrefix.default.toStr = [] := ⟨rfl, by decide +kernel, by decide +kernel, by decide +kernel⟩

end Keriox
