import Verif.Props.Respond
import Verif.Props.Reply
import Verif.Props.State
import Verif.Props.Binding
/-!
# C79: what a witness answers to queries

Specification: a query is signed in force when the signer's log describes a state whose current keys signed the serialized query.
-/
namespace Keriox

/-- the query is signed with the keys that its signer's log, as the node knows it, has in force -/
def Db.SignedQueryInForce (env : Env) (db : Db) (q : SignedQuery) : Prop :=
  db.kel q.signer ≠ [] ∧ ∃ s b, stateAfter env (db.kel q.signer) = .ok s ∧ q.serialize env = .ok b ∧ ValidSigs env s.current b q.sigs

/-- what a witness says about an identifier: its state, signed by the witness's key on its own -/
def Witness.Says (w : Witness) (s : IdState) (t1 t2 : Timestamp) (n : SignedReply) : Prop :=
  n.reply.ksn.state = s ∧ n.reply.ksn.timestamp = t1 ∧ n.reply.timestamp = t2 ∧ n.reply.route = .replyKsn (.basic w.pre) ∧
  ∃ sig, n.signature = .nonTransferable w.pre sig

/-! ## Proof -/

theorem StM.bind_fst {σ α β : Type} {x : StM σ α} {f : α → StM σ β} {s s' : σ} {a : α} (h : x s = (.ok a, s')) : ((x >>= f) s).1 = (f a s').1 := by
  rw [StM.bind_ok h rfl]

theorem computeState_after (env : Env) (as : List Action) (id : IdentifierPrefix) (hid : id.toStr ≠ []) {o : Option IdState}
    (h : (computeState sled env id (after env as)).1 = .ok o) :
    (∀ s, o = some s → stateAfter env ((after env as).kel id) = .ok s) ∧ (o = none → (after env as).kel id = []) ∧
    ((after env as).kel id = [] → o = none ∨ o = some IdState.default) := by
  obtain ⟨s, hl⟩ := after_log env as id hid
  rw [computeState_spec env _ (after_inv env as)] at h
  unfold Db.kel at *
  cases hv : (after env as).vec .kels id.toStr with
  | none =>
    rw [hv] at h
    cases h
    exact ⟨fun s hs => (by cases hs), fun _ => rfl, fun _ => .inl rfl⟩
  | some l =>
    rw [hv] at h hl
    dsimp only [Option.getD_some] at h hl ⊢
    split at h
    · rw [hl.foldState hid] at h
      cases h
      exact ⟨fun s' hs => (by cases hs; exact hl.stateAfter), fun h => (by cases h), fun h => .inr (by subst h; rw [(hl.facts hid).1 rfl])⟩
    · cases h

theorem computeState_after_db (env : Env) (as : List Action) (id : IdentifierPrefix) :
    (computeState sled env id (after env as)).2 = after env (as ++ [.lookup .kels id]) := by
  rw [computeState_db, read_after]

theorem notice_says {env : Env} {sg : SignFn} {w : Witness} {s : IdState} {t1 t2 : Timestamp} {n : SignedReply}
    (h : w.notice env sg s t1 t2 = .ok n) : w.Says s t1 t2 n := by
  unfold Witness.notice newReply at h
  simp only [Res.bind_eq_ok] at h
  obtain ⟨r, ⟨v0, _, b, _, v1, _, b1, _, h1⟩, b2, _, sig, _, h2⟩ := h
  cases h1
  cases h2
  exact ⟨rfl, rfl, rfl, rfl, _, rfl⟩

theorem svalWith_next {env : Env} {r : ReplyMsg} (h : r.ksn.state.current.nextDigest = none) (i : SerInfo) (d : Bytes) :
    r.svalWith env i d = .panic := by
  unfold ReplyMsg.svalWith Ksn.sval
  rw [h]
  rfl

theorem notice_next {env : Env} {sg : SignFn} {w : Witness} {s : IdState} {t1 t2 : Timestamp} (h : s.current.nextDigest = none) :
    w.notice env sg s t1 t2 = .panic := by
  unfold Witness.notice newReply
  simp only [svalWith_next (r := ⟨SerInfo.new .json 0, SelfAddressingPrefix.default, t2, .replyKsn (.basic w.pre), newKsn s .json t1⟩) h]
  rfl

theorem svalWith_ok {env : Env} {r : ReplyMsg} (h : r.ksn.state.current.nextDigest ≠ none) (i : SerInfo) (d : Bytes) :
    ∃ v, r.svalWith env i d = .ok v := by
  obtain ⟨n, hn⟩ := Option.ne_none_iff_exists'.1 h
  unfold ReplyMsg.svalWith Ksn.sval
  rw [hn]
  exact ⟨_, rfl⟩

/-- the notice of a witness with a working key: it is made, its digest is that of its content and its signature verifies -/
theorem notice_works {env : Env} {sg : SignFn} {w : Witness} (hw : w.signer.signer.Works env sg) (hp : w.pre = w.signer.key) (s : IdState)
    (h : s.current.nextDigest ≠ none) (t1 t2 : Timestamp) :
    ∃ n, w.notice env sg s t1 t2 = .ok n ∧
      (∃ data, n.reply.dummyBytes env n.reply.info.kind n.reply.digest.derivation = .ok data ∧
        env.digest n.reply.digest.derivation data = n.reply.digest.digest) ∧
      (∃ bytes sig, n.reply.serialize env = .ok bytes ∧ n.signature = .nonTransferable w.pre sig ∧ SigValid env w.pre bytes sig) := by
  have hv : ∀ i d, ∃ v, ReplyMsg.svalWith env i d ⟨SerInfo.new .json 0, SelfAddressingPrefix.default, t2, .replyKsn (.basic w.pre), newKsn s .json t1⟩ = .ok v :=
    fun i d => svalWith_ok h i d
  obtain ⟨v0, h0⟩ := hv (SerInfo.new .json 0) (dummyPrefix .blake3_256)
  obtain ⟨v1, h1⟩ := hv (SerInfo.new .json (jsonText v0).length) (dummyPrefix .blake3_256)
  have hn : newReply env (newKsn s .json t1) (.replyKsn (.basic w.pre)) .blake3_256 .json t2 =
      .ok ⟨SerInfo.new .json (jsonText v0).length, env.derive .blake3_256 (jsonText v1), t2, .replyKsn (.basic w.pre), newKsn s .json t1⟩ := by
    unfold newReply
    simp only [h0, Res.ok_bind, Fmt.encode, h1]
  obtain ⟨v2, h2⟩ := svalWith_ok (env := env)
    (r := ⟨SerInfo.new .json (jsonText v0).length, env.derive .blake3_256 (jsonText v1), t2, .replyKsn (.basic w.pre), newKsn s .json t1⟩) h
    (SerInfo.new .json (jsonText v0).length) (env.derive .blake3_256 (jsonText v1)).toStr
  have hs : ReplyMsg.serialize env ⟨SerInfo.new .json (jsonText v0).length, env.derive .blake3_256 (jsonText v1), t2, .replyKsn (.basic w.pre),
      newKsn s .json t1⟩ = .ok (jsonText v2) := by
    unfold ReplyMsg.serialize
    simp only [h2, Res.ok_bind]
    rfl
  obtain ⟨sig, hsg, hl, hed⟩ := hw.signs (jsonText v2)
  refine ⟨⟨⟨SerInfo.new .json (jsonText v0).length, env.derive .blake3_256 (jsonText v1), t2, .replyKsn (.basic w.pre), newKsn s .json t1⟩,
    .nonTransferable w.pre ⟨.ed25519Sha512, sig⟩⟩, ?_, ⟨jsonText v1, ?_, rfl⟩, ⟨jsonText v2, _, hs, rfl, ?_⟩⟩
  · unfold Witness.notice CryptoBox.sign
    simp only [hn, Res.ok_bind, hs, hsg]
  · show ReplyMsg.dummyBytes env .json .blake3_256 _ = _
    unfold ReplyMsg.dummyBytes
    have e0 : ∀ i d, ReplyMsg.svalWith env i d ⟨SerInfo.new .json (jsonText v0).length, env.derive .blake3_256 (jsonText v1), t2, .replyKsn (.basic w.pre), newKsn s .json t1⟩
      = ReplyMsg.svalWith env i d ⟨SerInfo.new .json 0, SelfAddressingPrefix.default, t2, .replyKsn (.basic w.pre), newKsn s .json t1⟩ := fun _ _ => rfl
    simp only [e0, h0, Res.ok_bind, Fmt.encode, h1]
  · rw [hp]
    exact .inl ⟨.inl rfl, rfl, hed⟩

/-- the steps of `process_signed_query` on a reachable database -/
theorem query_run {env : Env} {sg : SignFn} {w : Witness} {as : List Action} {q : SignedQuery} {t1 t2 : Timestamp}
    (hr : Readable ((after env as).kel q.signer)) (hq : (after env as).SignedQueryInForce env q) (hs : q.signer.toStr ≠ []) :
    w.processSignedQuery sled env sg q t1 t2 (after env as) =
      w.processQuery sled env sg q.route q.id t1 t2 (after env (as ++ [.lookup .kels q.signer])) := by
  obtain ⟨hne, s, b, h1, h2, h3⟩ := hq
  obtain ⟨s', hl, h4⟩ := computeState_log env as q.signer hs hne hr
  rw [hl.stateAfter] at h1
  cases h1
  unfold Witness.processSignedQuery
  refine StM.bind_ok (Prod.ext h4 (computeState_after_db env as q.signer)) ?_
  refine StM.bind_ok (a := b) (s' := after env (as ++ [.lookup .kels q.signer])) (by rw [h2]; rfl) ?_
  refine StM.bind_ok (a := true) (s' := after env (as ++ [.lookup .kels q.signer])) (by rw [verify_of_validSigs h3]; rfl) ?_
  rfl

/-- C79, safety: a witness answers only queries signed with the keys in force of their signer, a query for the log with the exported log
and a query for the state with the state that the log describes, in the witness's name. -/
theorem C79_answers_only (env : Env) (sg : SignFn) (w : Witness) (as : List Action) (q : SignedQuery) (t1 t2 : Timestamp) (r : ReplyType)
    (hs : q.signer.toStr ≠ []) (hi : q.id.toStr ≠ []) (h : (w.processSignedQuery sled env sg q t1 t2 (after env as)).1 = .ok r) :
    (after env as).SignedQueryInForce env q ∧
    match r with
    | .kel b => q.route = .log ∧ kerlBytes ((after env as).kel q.id) = .ok b
    | .rep n => q.route = .ksn ∧ (after env as).kel q.id ≠ [] ∧ ∃ s, stateAfter env ((after env as).kel q.id) = .ok s ∧ w.Says s t1 t2 n := by
  unfold Witness.processSignedQuery at h
  obtain ⟨o, db1, h1, h⟩ := bind_ok_inv h
  have hc := computeState_after env as q.signer hs (congrArg Prod.fst h1)
  have hdb : db1 = after env (as ++ [.lookup .kels q.signer]) := by rw [← computeState_after_db, h1]
  cases o with
  | none => cases h
  | some s =>
    dsimp only at h
    obtain ⟨b, db2, h2, h⟩ := bind_ok_inv h
    obtain ⟨ok, db3, h3, h⟩ := bind_ok_inv h
    have hb : q.serialize env = .ok b := by
      have : (q.serialize env).orPanic = .ok b := congrArg Prod.fst h2
      cases hq : q.serialize env with
      | ok x => rw [hq] at this; exact this
      | err e => rw [hq] at this; cases this
      | panic => rw [hq] at this; cases this
    have hk : s.current.verify env b q.sigs = .ok ok := congrArg Prod.fst h3
    have e2 : db2 = db1 := (congrArg Prod.snd h2).symm
    have e3 : db3 = db2 := (congrArg Prod.snd h3).symm
    subst e2 e3
    cases ok with
    | false => cases h
    | true =>
      have hsig := validSigs_of_verify hk
      have hne : (after env as).kel q.signer ≠ [] := by
        intro hn
        rcases hc.2.2 hn with h' | h'
        · cases h'
        · cases h'
          rcases hsg : q.sigs with _ | ⟨g, gs⟩
          · rw [hsg] at hk
            cases hk
          · obtain ⟨k, hk, _⟩ := hsig.valid g (by rw [hsg]; simp)
            cases hk
      refine ⟨⟨hne, s, b, hc.1 s rfl, hb, hsig⟩, ?_⟩
      rw [if_pos rfl] at h
      unfold Witness.processQuery at h
      subst hdb
      cases hr : q.route with
      | log =>
        rw [hr] at h
        obtain ⟨o, db4, h4, h⟩ := bind_ok_inv h
        cases o with
        | none => cases h
        | some x =>
          cases h
          refine ⟨rfl, ?_⟩
          have := congrArg Prod.fst h4
          rw [(getKerl_sim sled_sim q.id _ (after_inv env _)).1, getKerl_run] at this
          have e := after_lookup_kel env as .kels q.signer q.id
          have e' : (after env (as ++ [Action.lookup .kels q.signer])).abs.tables .kels q.id.toStr = (after env (as ++ [Action.lookup .kels q.signer])).vec .kels q.id.toStr := rfl
          rw [e'] at this
          unfold Db.kel at e ⊢
          cases hv : (after env (as ++ [Action.lookup .kels q.signer])).vec .kels q.id.toStr with
          | none => rw [hv] at this; cases this
          | some l =>
            rw [hv] at this e
            rw [← e]
            dsimp only [Option.getD_some] at this ⊢
            split at this
            · cases hx : kerlBytes l with
              | ok y => rw [hx] at this; cases this; rfl
              | err e => rw [hx] at this; cases this
              | panic => rw [hx] at this; cases this
            · cases this
      | ksn =>
        rw [hr] at h
        obtain ⟨o, db4, h4, h⟩ := bind_ok_inv h
        cases o with
        | error e => cases h
        | ok o =>
          have h5 : (computeState sled env q.id (after env (as ++ [Action.lookup .kels q.signer]))).1 = .ok o := by
            cases hx : computeState sled env q.id (after env (as ++ [Action.lookup .kels q.signer])) with
            | mk a b =>
              cases a with
              | ok y => rw [StM.result_ok hx] at h4; cases h4; rfl
              | err e => rw [StM.result_err hx] at h4; cases h4
              | panic => rw [StM.result_panic hx] at h4; cases h4
          have hc' := computeState_after env _ q.id hi h5
          rw [after_lookup_kel] at hc'
          cases o with
          | none => cases h
          | some s' =>
            dsimp only at h
            obtain ⟨n, db5, h6, h⟩ := bind_ok_inv h
            cases h
            have hn : w.notice env sg s' t1 t2 = .ok n := congrArg Prod.fst h6
            refine ⟨rfl, fun he => ?_, s', hc'.1 s' rfl, notice_says hn⟩
            rcases hc'.2.2 he with h' | h'
            · cases h'
            · cases h'
              rw [notice_next rfl] at hn
              cases hn
      | replyKsn i => rw [hr] at h; cases h

/-- C79, liveness: a query signed with the keys in force of a known signer, about a known identifier, for the log … -/
theorem C79_answers_log (env : Env) (sg : SignFn) (w : Witness) (as : List Action) (q : SignedQuery) (t1 t2 : Timestamp)
    (hs : q.signer.toStr ≠ []) (hq : (after env as).SignedQueryInForce env q) (hr1 : Readable ((after env as).kel q.signer))
    (hr2 : Readable ((after env as).kel q.id)) (hne : (after env as).kel q.id ≠ []) (hroute : q.route = .log) (b : Bytes)
    (hb : kerlBytes ((after env as).kel q.id) = .ok b) :
    (w.processSignedQuery sled env sg q t1 t2 (after env as)).1 = .ok (.kel b) := by
  rw [query_run hr1 hq hs, hroute]
  unfold Witness.processQuery
  dsimp only
  have e := after_lookup_kel env as .kels q.signer q.id
  rw [StM.bind_fst (getKerl_after (by rw [e]; exact hr2) (by rw [e]; exact hne) (by rw [e]; exact hb))]
  rfl

theorem query_ksn_run {env : Env} {sg : SignFn} {w : Witness} {as : List Action} {q : SignedQuery} {t1 t2 : Timestamp}
    (hs : q.signer.toStr ≠ []) (hi : q.id.toStr ≠ []) (hq : (after env as).SignedQueryInForce env q)
    (hr1 : Readable ((after env as).kel q.signer)) (hr2 : Readable ((after env as).kel q.id)) (hne : (after env as).kel q.id ≠ [])
    (hroute : q.route = .ksn) :
    ∃ s, stateAfter env ((after env as).kel q.id) = .ok s ∧
      (w.processSignedQuery sled env sg q t1 t2 (after env as)).1 = (w.notice env sg s t1 t2 >>= fun n => .ok (.rep n)) := by
  have e := after_lookup_kel env as .kels q.signer q.id
  obtain ⟨s, hl, h4⟩ := computeState_log env (as ++ [Action.lookup .kels q.signer]) q.id hi (by rw [e]; exact hne) (by rw [e]; exact hr2)
  rw [e] at hl
  refine ⟨s, hl.stateAfter, ?_⟩
  rw [query_run hr1 hq hs, hroute]
  unfold Witness.processQuery
  dsimp only
  rcases hx : computeState sled env q.id (after env (as ++ [Action.lookup .kels q.signer])) with ⟨a, db'⟩
  rw [hx] at h4
  cases h4
  rw [StM.bind_fst (StM.result_ok hx)]
  dsimp only
  cases w.notice env sg s t1 t2 <;> rfl

/-- … and for the state, if the witness's key works and there are next keys, is answered. -/
theorem C79_answers_state (env : Env) (sg : SignFn) (w : Witness) (as : List Action) (q : SignedQuery) (t1 t2 : Timestamp)
    (hs : q.signer.toStr ≠ []) (hi : q.id.toStr ≠ []) (hq : (after env as).SignedQueryInForce env q) (hr1 : Readable ((after env as).kel q.signer))
    (hr2 : Readable ((after env as).kel q.id)) (hne : (after env as).kel q.id ≠ []) (hroute : q.route = .ksn)
    (hw : w.signer.signer.Works env sg) (hp : w.pre = w.signer.key)
    (hn : ∀ s, stateAfter env ((after env as).kel q.id) = .ok s → s.current.nextDigest ≠ none) :
    ∃ n, (w.processSignedQuery sled env sg q t1 t2 (after env as)).1 = .ok (.rep n) := by
  obtain ⟨s, h1, h2⟩ := query_ksn_run (sg := sg) (w := w) (t1 := t1) (t2 := t2) hs hi hq hr1 hr2 hne hroute
  obtain ⟨n, h3, _⟩ := notice_works hw hp s (hn s h1) t1 t2
  exact ⟨n, by rw [h2, h3]; rfl⟩

/-- C79, replay: nothing in a query ties it to a time or to the witness.  A query for a log that has been answered is answered again, with
whatever the log is then, as long as the signer has not changed its keys. -/
theorem C79_fails_replay (env : Env) (sg sg' : SignFn) (w w' : Witness) (as bs : List Action) (q : SignedQuery) (t1 t2 t3 t4 : Timestamp) (r : ReplyType)
    (hs : q.signer.toStr ≠ []) (hi : q.id.toStr ≠ []) (h : (w.processSignedQuery sled env sg q t1 t2 (after env as)).1 = .ok r)
    (hroute : q.route = .log) (hkel : (after env bs).kel q.signer = (after env as).kel q.signer)
    (hr1 : Readable ((after env bs).kel q.signer)) (hr2 : Readable ((after env bs).kel q.id)) (hne : (after env bs).kel q.id ≠ []) (b : Bytes)
    (hb : kerlBytes ((after env bs).kel q.id) = .ok b) :
    (w'.processSignedQuery sled env sg' q t3 t4 (after env bs)).1 = .ok (.kel b) := by
  refine C79_answers_log env sg' w' bs q t3 t4 hs ?_ hr1 hr2 hne hroute b hb
  have := (C79_answers_only env sg w as q t1 t2 r hs hi h).1
  unfold Db.SignedQueryInForce at this ⊢
  rwa [hkel]

/-- C79, crashes: a query with a reply route, signed with the keys in force, … -/
theorem C79_fails_route (env : Env) (sg : SignFn) (w : Witness) (as : List Action) (q : SignedQuery) (t1 t2 : Timestamp)
    (hs : q.signer.toStr ≠ []) (hq : (after env as).SignedQueryInForce env q) (hr1 : Readable ((after env as).kel q.signer))
    (i : IdentifierPrefix) (hroute : q.route = .replyKsn i) : (w.processSignedQuery sled env sg q t1 t2 (after env as)).1 = .panic := by
  rw [query_run hr1 hq hs, hroute]
  rfl

/-- … a query for the state of an identifier that has committed to no next keys … -/
theorem C79_fails_no_next_keys (env : Env) (sg : SignFn) (w : Witness) (as : List Action) (q : SignedQuery) (t1 t2 : Timestamp)
    (hs : q.signer.toStr ≠ []) (hi : q.id.toStr ≠ []) (hq : (after env as).SignedQueryInForce env q) (hr1 : Readable ((after env as).kel q.signer))
    (hr2 : Readable ((after env as).kel q.id)) (hne : (after env as).kel q.id ≠ []) (hroute : q.route = .ksn) (s : IdState)
    (hst : stateAfter env ((after env as).kel q.id) = .ok s) (hn : s.current.nextDigest = none) :
    (w.processSignedQuery sled env sg q t1 t2 (after env as)).1 = .panic := by
  obtain ⟨s', h1, h2⟩ := query_ksn_run (sg := sg) (w := w) (t1 := t1) (t2 := t2) hs hi hq hr1 hr2 hne hroute
  rw [h1] at hst
  cases hst
  rw [h2, notice_next hn]
  rfl

/-- … a query for the state of an identifier of which only an inception has been seen that was rejected for its signatures … -/
theorem C79_fails_rejected (env : Env) (sg : SignFn) (w : Witness) (as : List Action) (q : SignedQuery) (t1 t2 : Timestamp)
    (hs : q.signer.toStr ≠ []) (hq : (after env as).SignedQueryInForce env q) (hr1 : Readable ((after env as).kel q.signer))
    (hroute : q.route = .ksn) (hv : (after env (as ++ [Action.lookup .kels q.signer])).vec .kels q.id.toStr = some []) :
    (w.processSignedQuery sled env sg q t1 t2 (after env as)).1 = .panic := by
  have h4 := computeState_spec env _ (after_inv env (as ++ [Action.lookup .kels q.signer])) q.id
  rw [hv] at h4
  rw [query_run hr1 hq hs, hroute]
  unfold Witness.processQuery
  dsimp only
  rcases hx : computeState sled env q.id (after env (as ++ [Action.lookup .kels q.signer])) with ⟨a, db'⟩
  rw [hx] at h4
  cases h4
  rw [StM.bind_fst (StM.result_ok hx)]
  dsimp only
  rw [notice_next rfl]
  rfl

/-- … and asking a witness outright for the notice of an identifier it has never seen. -/
theorem C79_fails_unknown (env : Env) (sg : SignFn) (w : Witness) (as : List Action) (id : IdentifierPrefix) (t1 t2 : Timestamp)
    (hv : (after env as).vec .kels id.toStr = none) : (w.getKsn sled env sg id t1 t2 (after env as)).1 = .panic := by
  have h4 := computeState_spec env _ (after_inv env as) id
  rw [hv] at h4
  unfold Witness.getKsn
  rcases hx : computeState sled env id (after env as) with ⟨a, db'⟩
  rw [hx] at h4
  cases h4
  rw [StM.bind_fst (StM.result_ok hx)]
  rfl

theorem getKsn_run {env : Env} {sg : SignFn} {w : Witness} {as : List Action} {id : IdentifierPrefix} {t1 t2 : Timestamp}
    (hi : id.toStr ≠ []) (hr : Readable ((after env as).kel id)) (hne : (after env as).kel id ≠ []) :
    ∃ s, stateAfter env ((after env as).kel id) = .ok s ∧ (w.getKsn sled env sg id t1 t2 (after env as)).1 = w.notice env sg s t1 t2 := by
  obtain ⟨s, hl, h4⟩ := computeState_log env as id hi hne hr
  refine ⟨s, hl.stateAfter, ?_⟩
  unfold Witness.getKsn
  rcases hx : computeState sled env id (after env as) with ⟨a, db'⟩
  rw [hx] at h4
  cases h4
  rw [StM.bind_fst (StM.result_ok hx)]
  rfl

/-- C79: asked outright, a witness with a working key gives out the state that the log of the identifier describes, with the two clock readings, in its own name. -/
theorem C79_outright (env : Env) (sg : SignFn) (w : Witness) (hw : w.signer.signer.Works env sg) (hp : w.pre = w.signer.key) (as : List Action)
    (id : IdentifierPrefix) (hi : id.toStr ≠ []) (hr : Readable ((after env as).kel id)) (hne : (after env as).kel id ≠ []) (s : IdState)
    (hst : stateAfter env ((after env as).kel id) = .ok s) (hnext : s.current.nextDigest ≠ none) (t1 t2 : Timestamp) :
    ∃ n, (w.getKsn sled env sg id t1 t2 (after env as)).1 = .ok n ∧ w.Says s t1 t2 n := by
  obtain ⟨s', h1, h2⟩ := getKsn_run (sg := sg) (w := w) (t1 := t1) (t2 := t2) hi hr hne
  rw [hst] at h1
  cases h1
  obtain ⟨n, h3, _⟩ := notice_works hw hp s hnext t1 t2
  exact ⟨n, by rw [h2, h3], notice_says h3⟩

/-- C79, use: the notice of a witness with a working key about an identifier is accepted by every node that has the same log of that
identifier and no newer notice of the witness about it. -/
theorem C79_accepted (env : Env) (sg : SignFn) (w : Witness) (hw : w.signer.signer.Works env sg) (hp : w.pre = w.signer.key) (as bs : List Action)
    (id : IdentifierPrefix) (hi : id.toStr ≠ []) (hne : (after env bs).kel id ≠ []) (hsame : (after env as).kel id = (after env bs).kel id) (s : IdState) (hst : stateAfter env ((after env bs).kel id) = .ok s)
    (hnext : s.current.nextDigest ≠ none) (t1 t2 : Timestamp)
    (hr1 : Readable ((after env bs).kel id)) (hr2 : Readable ((after env bs).kel (.basic w.pre)))
    (hr3 : ∃ o, (sled.read .knas s.prefix (after env bs)).1 = .ok o)
    (hnew : ∀ old ∈ (after env bs).replies s.prefix, old.reply.route = .replyKsn (.basic w.pre) →
      old.reply.timestamp.micros ≤ t1.micros ∧ old.reply.timestamp.micros ≤ t2.micros) :
    ∃ n, (w.getKsn sled env sg id t1 t2 (after env as)).1 = .ok n ∧ (process sled env (.reply n) (after env bs)).1 = .ok (some s) := by
  obtain ⟨s', hs', hget⟩ := getKsn_run (sg := sg) (w := w) (as := as) (t1 := t1) (t2 := t2) hi (by rw [hsame]; exact hr1) (by rw [hsame]; exact hne)
  rw [hsame, hst] at hs'
  cases hs'
  obtain ⟨n, h1, h2, b, sig, h3, h4, h5⟩ := notice_works hw hp s hnext t1 t2
  obtain ⟨e1, e2, e3, e4, _⟩ := notice_says h1
  obtain ⟨s', hl⟩ := after_log env bs id hi
  rw [hl.stateAfter] at hst
  cases hst
  obtain ⟨_, f2, f3⟩ := hl.facts hi
  obtain ⟨g1, g2, g3, g4⟩ := f2 hne
  have hsig : n.signature.signer = .basic w.pre := by rw [h4]; rfl
  have hpre : n.pre = s.prefix := by unfold SignedReply.pre; rw [e1]
  have hkel : (after env bs).kel s.prefix = (after env bs).kel id := kel_text _ g2
  refine ⟨n, by rw [hget, h1], ?_⟩
  rw [← e1]
  refine C47_complete env bs n ?_ ?_ ⟨?_, h2, ⟨b, h3, ?_⟩, ?_⟩ ?_ ?_ ?_ ?_
  · rw [hpre, g2]; exact hi
  · rw [hsig]
    show prefixText _ _ ≠ []
    unfold prefixText
    rw [hp, if_neg (by show ¬ w.signer.signer.pub.length = 0; rw [hw.size]; decide)]
    exact List.cons_ne_nil _ _
  · rw [e4, hsig]
  · rw [h4]; exact h5
  · have hlast : ((after env bs).kel id).getLast? ≠ none := by simpa using hne
    obtain ⟨e, he⟩ := Option.ne_none_iff_exists'.1 hlast
    refine ⟨e, by rw [hpre, hkel]; exact he, ?_, ?_⟩
    · rw [e1]
      rw [List.getLast?_eq_getElem?] at he
      rw [(f3 _ e he).1]; omega
    · rw [e1, (g4 e he).1]; exact .inl rfl
  · rw [hpre, hkel]; exact hr1
  · rw [hsig]; exact hr2
  · rw [hpre]; exact hr3
  · rw [hpre, e4]
    intro old ho hroute
    obtain ⟨k1, k2⟩ := hnew old ho hroute
    unfold MayReplace
    rw [h4, e2, e3]
    refine ⟨k1, ?_⟩
    cases old.signature <;> exact k2

/-! ## Non-vacuity -/
section
open Ex
set_option maxRecDepth 20000

/-- a query by the example identifier, signed with the keys in force after its rotation -/
def Ex.qry (r : Route) (i : IdentifierPrefix) : SignedQuery :=
  let q : SignedQuery := ⟨SerInfo.new .json 0, rot.dig, ⟨5, 0⟩, r, [], i, Ex.id, []⟩
  { q with sigs := [sig 4 0 (bytesOr (q.serialize env)), sig 5 1 (bytesOr (q.serialize env))] }

/-- a witness -/
def Ex.wtn : Witness := Witness.new km

/-- an inception of another identifier without signatures -/
def Ex.unsignedIcp : SignedEvent := { icpTwo with sigs := [] }

example : (match (wtn.processSignedQuery sled env sg (qry .log Ex.id) ⟨6, 0⟩ ⟨7, 0⟩ (after env hist)).1 with
    | .ok (.kel b) => decide (kerlBytes ((after env hist).kel Ex.id) = .ok b) | _ => false) = true := by decide +kernel

example : (match (wtn.processSignedQuery sled env sg (qry .ksn Ex.id) ⟨6, 0⟩ ⟨7, 0⟩ (after env hist)).1 with
    | .ok (.rep n) => decide (n.reply.ksn.state = ixnState) && decide ((process sled env (.reply n) (after env hist)).1 = .ok (some ixnState))
    | _ => false) = true := by decide +kernel

/-- the hypotheses of the theorems are met by these queries -/
theorem Ex.qry_in_force (as : List Action) (ha : as = hist ∨ as = hist ++ [.submit (.event unsignedIcp)] ∨ as = hist ++ [.submit (.event Ex.unsigned)])
    (r : Route) (hr : r = .log ∨ r = .ksn ∨ r = .replyKsn Ex.id) (i : IdentifierPrefix)
    (hi : i = Ex.id ∨ i = unsignedIcp.pre ∨ i = Ex.unsigned.pre) :
    (after env as).SignedQueryInForce env (qry r i) ∧ Readable ((after env as).kel Ex.id) := by
  have h1 : stateAfter env ((after env as).kel Ex.id) = .ok ixnState := by
    rcases ha with rfl | rfl | rfl <;> decide +kernel
  have hk : (after env as).kel Ex.id ≠ [] := by
    rcases ha with rfl | rfl | rfl <;> decide +kernel
  refine ⟨⟨hk, ixnState, _, h1, rfl, validSigs_of_verify ?_⟩, ?_⟩
  · rcases hr with rfl | rfl | rfl <;> rcases hi with rfl | rfl | rfl <;> decide +kernel
  · unfold Readable; rcases ha with rfl | rfl | rfl <;> decide +kernel

example : (wtn.processSignedQuery sled env sg (qry (.replyKsn Ex.id) Ex.id) ⟨6, 0⟩ ⟨7, 0⟩ (after env hist)).1 = .panic :=
  have h := qry_in_force hist (.inl rfl) (.replyKsn Ex.id) (.inr (.inr rfl)) Ex.id (.inl rfl)
  C79_fails_route env sg wtn hist _ _ _ (by decide +kernel) h.1 h.2 Ex.id rfl

example : (wtn.processSignedQuery sled env sg (qry .ksn unsignedIcp.pre) ⟨6, 0⟩ ⟨7, 0⟩ (after env (hist ++ [.submit (.event unsignedIcp)]))).1 = .panic :=
  have h := qry_in_force _ (.inr (.inl rfl)) .ksn (.inr (.inl rfl)) unsignedIcp.pre (.inr (.inl rfl))
  C79_fails_rejected env sg wtn _ _ _ _ (by decide +kernel) h.1 h.2 rfl (by decide +kernel)

example : (wtn.processSignedQuery sled env sg (qry .ksn Ex.unsigned.pre) ⟨6, 0⟩ ⟨7, 0⟩ (after env (hist ++ [.submit (.event Ex.unsigned)]))).1 = .panic :=
  have h := qry_in_force _ (.inr (.inr rfl)) .ksn (.inr (.inl rfl)) Ex.unsigned.pre (.inr (.inr rfl))
  C79_fails_no_next_keys env sg wtn _ _ _ _ (by decide +kernel) (by decide +kernel) h.1 h.2 (by unfold Readable; decide +kernel) (by decide +kernel) rfl
    ((match stateAfter env ((after env (hist ++ [.submit (.event Ex.unsigned)])).kel Ex.unsigned.pre) with | .ok s => s | _ => IdState.default))
    (by decide +kernel) (by decide +kernel)

example : (wtn.getKsn sled env sg unsignedIcp.pre ⟨6, 0⟩ ⟨7, 0⟩ (after env hist)).1 = .panic :=
  C79_fails_unknown env sg wtn hist _ _ _ (by decide +kernel)

/-- a replayed query gets the log of the present -/
example : ∃ b, (wtn.processSignedQuery sled env sg (qry .log Ex.id) ⟨6, 0⟩ ⟨7, 0⟩ (after env (hist ++ [.submit (.event Ex.unsigned)]))).1 = .ok (.kel b) := by
  have h := qry_in_force hist (.inl rfl) .log (.inl rfl) Ex.id (.inl rfl)
  have hb : (match kerlBytes ((after env hist).kel Ex.id) with | .ok _ => true | _ => false) = true := by decide +kernel
  have he : (after env (hist ++ [.submit (.event Ex.unsigned)])).kel Ex.id = (after env hist).kel Ex.id := by decide +kernel
  split at hb
  · rename_i b hb'
    have hk : (after env hist).kel Ex.id ≠ [] := by decide +kernel
    have ha := C79_answers_log env sg wtn hist (qry .log Ex.id) ⟨6, 0⟩ ⟨7, 0⟩ (by decide +kernel) h.1 h.2 h.2 hk rfl b hb'
    exact ⟨b, C79_fails_replay env sg sg wtn wtn hist _ (qry .log Ex.id) _ _ _ _ _ (by decide +kernel) (by decide +kernel) ha rfl he
      (by show Readable (Db.kel _ Ex.id); rw [he]; exact h.2) (by show Readable (Db.kel _ Ex.id); rw [he]; exact h.2)
      (by show Db.kel _ Ex.id ≠ []; rw [he]; exact hk) b (by show kerlBytes (Db.kel _ Ex.id) = _; rw [he]; exact hb')⟩
  · cases hb

/-- asked outright, the witness says where the example identifier is -/
example : ∃ n, (wtn.getKsn sled env sg Ex.id ⟨6, 0⟩ ⟨7, 0⟩ (after env hist)).1 = .ok n ∧ wtn.Says ixnState ⟨6, 0⟩ ⟨7, 0⟩ n :=
  C79_outright env sg wtn km_works.signer rfl hist Ex.id (by decide +kernel) (by unfold Readable; decide +kernel) (by decide +kernel) ixnState (by decide +kernel) (by decide +kernel) _ _

/-- the notice about the example identifier is accepted by a node with the same log -/
example : ∃ n, (wtn.getKsn sled env sg Ex.id ⟨6, 0⟩ ⟨7, 0⟩ (after env hist)).1 = .ok n ∧ (process sled env (.reply n) (after env hist)).1 = .ok (some ixnState) := by
  have h := qry_in_force hist (.inl rfl) .log (.inl rfl) Ex.id (.inl rfl)
  refine C79_accepted env sg wtn km_works.signer rfl hist hist Ex.id (by decide +kernel) (by decide +kernel) rfl ixnState (by decide +kernel) (by decide +kernel) _ _ h.2
    (by unfold Readable; decide +kernel) ⟨none, by decide +kernel⟩ (by decide +kernel)

end
end Keriox
