import Verif.Props.ReplyExact
import Verif.Props.WitnessQuery
/-!
# C129: exactly which signed queries a witness answers, and which crash it

C79 says what the answers are and gives some crashes.  Here both conditions are exact.
-/
namespace Keriox

/-! ## Specification -/

/-- the node has an entry for the identifier: a log, or what a rejected inception leaves (an empty one) -/
def Db.Known (db : Db) (id : IdentifierPrefix) : Prop := (getKel sled id db).1 ≠ .ok none

/-- the ways a signed query crashes a witness -/
inductive QueryCrashes (env : Env) (db : Db) (q : SignedQuery) : Prop
  /-- the log of the signer cannot be read -/
  | signerLog : ¬ Readable (db.kel q.signer) → QueryCrashes env db q
  /-- the signer is known and the query cannot be written to check its signatures -/
  | unwritable : db.Known q.signer → (q.serialize env).isOk = false → QueryCrashes env db q
  /-- an index names no key or weight of the keys in force of the signer: nothing has been verified yet -/
  | index (s) : stateAfter env (db.kel q.signer) = .ok s → CrashesOn s.current q.sigs → QueryCrashes env db q
  /-- signed in force, with the route of a reply -/
  | route (i) : db.SignedQueryInForce env q → q.route = .replyKsn i → QueryCrashes env db q
  /-- signed in force, about an identifier whose log cannot be read -/
  | log : db.SignedQueryInForce env q → ¬ Readable (db.kel q.id) → QueryCrashes env db q
  /-- signed in force, for a log that cannot be exported -/
  | kerl : db.SignedQueryInForce env q → q.route = .log → kerlBytes (db.kel q.id) = .panic → QueryCrashes env db q
  /-- signed in force, for the state of a known identifier without next keys (that of an empty log has none) -/
  | noNext (s) : db.SignedQueryInForce env q → q.route = .ksn → db.Known q.id → stateAfter env (db.kel q.id) = .ok s →
      s.current.nextDigest = none → QueryCrashes env db q

/-- what can be answered: the log of a known identifier, and the state of one with next keys -/
def QueryAnswerable (env : Env) (db : Db) (q : SignedQuery) : Prop :=
  Readable (db.kel q.id) ∧ ((q.route = .log ∧ db.Known q.id ∧ ∃ b, kerlBytes (db.kel q.id) = .ok b) ∨
    (q.route = .ksn ∧ db.kel q.id ≠ [] ∧ ∃ s, stateAfter env (db.kel q.id) = .ok s ∧ s.current.nextDigest ≠ none))

/-! ## Proof -/

theorem known_iff (env : Env) (as : List Action) (id : IdentifierPrefix) :
    (after env as).Known id ↔ (after env as).vec .kels id.toStr ≠ none := by
  unfold Db.Known
  show (sled.read .kels id (after env as)).1 ≠ _ ↔ _
  rw [read_run .kels id _ (after_inv env as), iterValues_kels]
  cases h : (after env as).vec .kels id.toStr with
  | none => simp
  | some l => simp only; split <;> simp

theorem state_cases (env : Env) (as : List Action) (id : IdentifierPrefix) (hid : id.toStr ≠ []) :
    (¬ (after env as).Known id ∧ (after env as).kel id = [] ∧ (computeState sled env id (after env as)).1 = .ok none) ∨
    (∃ s, (after env as).Known id ∧ Readable ((after env as).kel id) ∧ stateAfter env ((after env as).kel id) = .ok s ∧
      (computeState sled env id (after env as)).1 = .ok (some s)) ∨
    (¬ Readable ((after env as).kel id) ∧ (computeState sled env id (after env as)).1 = .panic) := by
  obtain ⟨s, hl⟩ := after_log env as id hid
  rw [known_iff, computeState_spec env _ (after_inv env as)]
  unfold Db.kel at *
  cases hv : (after env as).vec .kels id.toStr with
  | none => exact .inl ⟨by simp, rfl, rfl⟩
  | some l =>
    rw [hv] at hl
    dsimp only [Option.getD_some] at hl ⊢
    have hr : l.all SignedEvent.rt = true ↔ Readable l := by unfold Readable; simp
    by_cases h : l.all SignedEvent.rt = true
    · rw [if_pos h, hl.foldState hid]
      exact .inr (.inl ⟨s, by simp, hr.1 h, hl.stateAfter, rfl⟩)
    · rw [if_neg h]
      exact .inr (.inr ⟨fun h' => h (hr.2 h'), rfl⟩)

theorem known_lookup (env : Env) (as : List Action) (t : Tbl) (id id' : IdentifierPrefix) :
    (after env (as ++ [.lookup t id])).Known id' ↔ (after env as).Known id' := by
  rw [known_iff, known_iff]
  have : (after env (as ++ [.lookup t id])).abs.tables = (after env as).abs.tables := by
    rw [after_abs, after_abs, runHistory_append]
    exact MapDb.touch_tables _ _
  have h2 : (after env (as ++ [.lookup t id])).vec .kels id'.toStr = (after env as).vec .kels id'.toStr :=
    congrFun (congrFun this .kels) id'.toStr
  rw [h2]

theorem signQuery_encode_np (env : Env) (q : SignedQuery) : q.serialize env ≠ .panic := Clean.encode _ _ _

theorem newReply_json {env : Env} {k : Ksn} {r : Route} {c : SelfAddressing} {t : Timestamp} (h : k.state.current.nextDigest ≠ none) :
    ∃ m b, newReply env k r c .json t = .ok m ∧ m.serialize env = .ok b := by
  have hv : ∀ i d, ∃ v, ReplyMsg.svalWith env i d ⟨SerInfo.new .json 0, SelfAddressingPrefix.default, t, r, k⟩ = .ok v := fun i d => svalWith_ok h i d
  obtain ⟨v0, h0⟩ := hv (SerInfo.new .json 0) (dummyPrefix c)
  obtain ⟨v1, h1⟩ := hv (SerInfo.new .json (jsonText v0).length) (dummyPrefix c)
  obtain ⟨v2, h2⟩ := svalWith_ok (env := env) (r := ⟨SerInfo.new .json (jsonText v0).length, env.derive c (jsonText v1), t, r, k⟩) h
    (SerInfo.new .json (jsonText v0).length) (env.derive c (jsonText v1)).toStr
  refine ⟨⟨SerInfo.new .json (jsonText v0).length, env.derive c (jsonText v1), t, r, k⟩, jsonText v2, ?_, ?_⟩
  · unfold newReply
    simp only [h0, Res.ok_bind, Fmt.encode, h1]
  · unfold ReplyMsg.serialize
    simp only [h2, Res.ok_bind]
    rfl

/-- the notice is made, or making it crashes, according to whether there are next keys -/
theorem notice_exact (env : Env) (sg : SignFn) (w : Witness) (hsg : ∀ m, ∃ b, w.signer.sign sg m = .ok b) (s : IdState) (t1 t2 : Timestamp) :
    (s.current.nextDigest = none ∧ w.notice env sg s t1 t2 = .panic) ∨ (s.current.nextDigest ≠ none ∧ ∃ n, w.notice env sg s t1 t2 = .ok n) := by
  by_cases h : s.current.nextDigest = none
  · exact .inl ⟨h, notice_next h⟩
  · refine .inr ⟨h, ?_⟩
    obtain ⟨m, b, h1, h2⟩ := newReply_json (env := env) (k := newKsn s .json t1) (r := .replyKsn (.basic w.pre)) (c := .blake3_256) (t := t2) h
    obtain ⟨g, hg⟩ := hsg b
    unfold Witness.notice
    simp only [h1, Res.ok_bind, h2, hg]
    exact ⟨_, rfl⟩

theorem kerlBytes_ne_err : ∀ (l : List SignedEvent) (e : Error), kerlBytes l ≠ .err e
  | [], e => by simp [kerlBytes]
  | x :: l, e => by
    have ih := kerlBytes_ne_err l e
    unfold kerlBytes
    cases x.serialize with
    | ok b =>
      dsimp only
      intro h
      cases hk : kerlBytes l with
      | ok r => rw [hk] at h; cases h
      | err e' => rw [hk] at h; cases h; exact ih hk
      | panic => rw [hk] at h; cases h
    | err _ => exact ih
    | panic => intro h; cases h

/-- the answer to a query whose signatures are in order -/
theorem processQuery_exact (env : Env) (sg : SignFn) (w : Witness) (hsg : ∀ m, ∃ b, w.signer.sign sg m = .ok b) (as : List Action) (q : SignedQuery)
    (hi : q.id.toStr ≠ []) (t1 t2 : Timestamp) :
    ((w.processQuery sled env sg q.route q.id t1 t2 (after env as)).1 = .panic ↔ (∃ i, q.route = .replyKsn i) ∨ ¬ Readable ((after env as).kel q.id) ∨
      (q.route = .log ∧ kerlBytes ((after env as).kel q.id) = .panic) ∨
      (q.route = .ksn ∧ (after env as).Known q.id ∧ ∃ s, stateAfter env ((after env as).kel q.id) = .ok s ∧ s.current.nextDigest = none)) ∧
    ((w.processQuery sled env sg q.route q.id t1 t2 (after env as)).1.isOk = true ↔ QueryAnswerable env (after env as) q) := by
  unfold Witness.processQuery QueryAnswerable
  cases hr : q.route with
  | replyKsn i =>
    refine ⟨iff_of_true rfl (.inl ⟨i, rfl⟩), iff_of_false (by intro h; cases h) ?_⟩
    rintro ⟨_, ⟨h, _⟩ | ⟨h, _⟩⟩ <;> cases h
  | log =>
    dsimp only
    rw [StM.bind_run]
    have hg := (getKerl_sim sled_sim q.id _ (after_inv env as)).1
    rw [getKerl_run, show (after env as).abs.tables .kels q.id.toStr = (after env as).vec .kels q.id.toStr from rfl] at hg
    rcases hx : getKerl sled q.id (after env as) with ⟨r, db'⟩
    rw [hx] at hg
    dsimp only at hg
    rw [known_iff]
    unfold Db.kel
    cases hv : (after env as).vec .kels q.id.toStr with
    | none =>
      rw [hv] at hg
      subst hg
      refine ⟨iff_of_false (by intro h; cases h) ?_, iff_of_false (by intro h; cases h) ?_⟩
      · rintro (⟨i, h⟩ | h | ⟨_, h⟩ | ⟨h, _⟩)
        · cases h
        · exact h (fun _ h => by cases h)
        · cases h
        · cases h
      · rintro ⟨_, ⟨_, h, _⟩ | ⟨h, _⟩⟩
        · exact h rfl
        · cases h
    | some l =>
      rw [hv] at hg
      dsimp only [Option.getD_some] at hg ⊢
      have hr : l.all SignedEvent.rt = true ↔ Readable l := by unfold Readable; simp
      by_cases h : l.all SignedEvent.rt = true
      · rw [if_pos h] at hg
        rw [hr] at h
        cases hk : kerlBytes l with
        | ok b => rw [hk] at hg; subst hg; simp [pure, Res.isOk, h]
        | err e => exact absurd hk (kerlBytes_ne_err _ _)
        | panic => rw [hk] at hg; subst hg; simp [h, Res.isOk]
      · rw [if_neg h] at hg
        rw [hr] at h
        subst hg
        simp [h, Res.isOk]
  | ksn =>
    dsimp only
    rw [StM.bind_run]
    rcases hx : computeState sled env q.id (after env as) with ⟨r, db'⟩
    rcases state_cases env as q.id hi with ⟨hk, he, hc⟩ | ⟨s, hk, hR, hst, hc⟩ | ⟨hR, hc⟩
    · rw [hx] at hc
      cases hc
      rw [StM.result_ok hx]
      dsimp only
      refine ⟨iff_of_false (by intro h; cases h) ?_, iff_of_false (by intro h; cases h) ?_⟩
      · rintro (⟨i, h⟩ | h | ⟨h, _⟩ | ⟨_, h, _⟩)
        · cases h
        · rw [he] at h; exact h (fun _ h => by cases h)
        · cases h
        · exact hk h
      · rintro ⟨_, ⟨h, _⟩ | ⟨_, h, _⟩⟩
        · cases h
        · exact h he
    · rw [hx] at hc
      cases hc
      rw [StM.result_ok hx]
      dsimp only
      rw [StM.bind_run]
      rcases notice_exact env sg w hsg s t1 t2 with ⟨hn, h1⟩ | ⟨hn, n, h1⟩
      · rw [h1]
        refine ⟨iff_of_true rfl (.inr (.inr (.inr ⟨rfl, hk, s, hst, hn⟩))), iff_of_false (by intro h; cases h) ?_⟩
        rintro ⟨_, ⟨h, _⟩ | ⟨_, _, s', h, h'⟩⟩
        · cases h
        · rw [hst] at h; cases h; exact h' hn
      · rw [h1]
        refine ⟨iff_of_false (by intro h; cases h) ?_, iff_of_true rfl ⟨hR, .inr ⟨rfl, ?_, s, hst, hn⟩⟩⟩
        · rintro (⟨i, h⟩ | h | ⟨h, _⟩ | ⟨_, _, s', h, h'⟩)
          · cases h
          · exact h hR
          · cases h
          · rw [hst] at h; cases h; exact hn h'
        · intro he
          rw [he] at hst
          cases hst
          exact hn rfl
    · rw [hx] at hc
      cases hc
      rw [StM.result_panic hx]
      refine ⟨iff_of_true rfl (.inr (.inl hR)), iff_of_false (by intro h; cases h) fun h => hR h.1⟩

theorem noKeys_valid {env : Env} {b : Bytes} {sigs : List AttachedSignaturePrefix} : ¬ ValidSigs env IdState.default.current b sigs := by
  intro h
  cases sigs with
  | nil =>
    have := verify_of_validSigs h
    cases this
  | cons g gs =>
    obtain ⟨k, hk, _⟩ := h.valid g (by simp)
    cases hk

/-- what is done with a signed query, step by step -/
theorem signedQuery_cases (env : Env) (sg : SignFn) (w : Witness) (as : List Action) (q : SignedQuery) (hs : q.signer.toStr ≠ []) (t1 t2 : Timestamp) :
    let r := (w.processSignedQuery sled env sg q t1 t2 (after env as)).1
    (¬ (after env as).Known q.signer ∧ (after env as).kel q.signer = [] ∧ ∃ e, r = .err e) ∨
    (¬ Readable ((after env as).kel q.signer) ∧ r = .panic) ∨
    (∃ s, (after env as).Known q.signer ∧ Readable ((after env as).kel q.signer) ∧ stateAfter env ((after env as).kel q.signer) = .ok s ∧
      (((q.serialize env).isOk = false ∧ r = .panic) ∨
      ∃ b, q.serialize env = .ok b ∧
        ((CrashesOn s.current q.sigs ∧ r = .panic) ∨
        (¬ CrashesOn s.current q.sigs ∧ ¬ ValidSigs env s.current b q.sigs ∧ ∃ e, r = .err e) ∨
        (¬ CrashesOn s.current q.sigs ∧ (after env as).SignedQueryInForce env q ∧
          r = (w.processQuery sled env sg q.route q.id t1 t2 (after env (as ++ [.lookup .kels q.signer]))).1)))) := by
  intro r
  have hdb := computeState_after_db env as q.signer
  rcases state_cases env as q.signer hs with ⟨hk, he, hc⟩ | ⟨s, hk, hR, hst, hc⟩ | ⟨hR, hc⟩
  · refine .inl ⟨hk, he, .semantic "No identifier in db", ?_⟩
    show (Witness.processSignedQuery _ _ _ _ _ _ _ _).1 = _
    unfold Witness.processSignedQuery
    rw [StM.bind_fst (pair_of_fst hc)]
    rfl
  · refine .inr (.inr ⟨s, hk, hR, hst, ?_⟩)
    have hrun : r = ((StM.lift (q.serialize env).orPanic >>= fun b => StM.lift (s.current.verify env b q.sigs) >>= fun ok =>
        if ok then w.processQuery sled env sg q.route q.id t1 t2 else StM.fail .signatureVerification)
          (after env (as ++ [.lookup .kels q.signer]))).1 := by
      show (Witness.processSignedQuery _ _ _ _ _ _ _ _).1 = _
      unfold Witness.processSignedQuery
      exact StM.bind_fst (Prod.ext hc hdb)
    cases hq : q.serialize env with
    | panic => exact absurd hq (signQuery_encode_np env q)
    | err e =>
      refine .inl ⟨rfl, ?_⟩
      rw [hrun, hq]
      rfl
    | ok b =>
      refine .inr ⟨b, rfl, ?_⟩
      rw [hq] at hrun
      rw [StM.bind_fst (show StM.lift (Res.ok b).orPanic _ = (.ok b, _) from rfl), StM.bind_run,
        show (StM.lift (s.current.verify env b q.sigs) : StM Db Bool) (after env (as ++ [.lookup .kels q.signer])) =
          (s.current.verify env b q.sigs, after env (as ++ [.lookup .kels q.signer])) from rfl] at hrun
      have hcr := C23_panic_exact env s.current b q.sigs
      cases hv : s.current.verify env b q.sigs with
      | panic =>
        rw [hv] at hrun
        exact .inl ⟨hcr.1 hv, hrun⟩
      | err e =>
        rw [hv] at hrun
        refine .inr (.inl ⟨fun h => ?_, fun h => ?_, e, hrun⟩)
        · rw [hcr.2 h] at hv; cases hv
        · rw [verify_of_validSigs h] at hv; cases hv
      | ok ok =>
        rw [hv] at hrun
        cases ok with
        | false =>
          refine .inr (.inl ⟨fun h => ?_, fun h => ?_, _, hrun⟩)
          · rw [hcr.2 h] at hv; cases hv
          · rw [verify_of_validSigs h] at hv; cases hv
        | true =>
          refine .inr (.inr ⟨fun h => ?_, ⟨fun he => ?_, s, b, hst, hq, validSigs_of_verify hv⟩, hrun⟩)
          · rw [hcr.2 h] at hv; cases hv
          · rw [he] at hst
            cases hst
            exact noKeys_valid (validSigs_of_verify hv)
  · refine .inr (.inl ⟨hR, ?_⟩)
    show (Witness.processSignedQuery _ _ _ _ _ _ _ _).1 = _
    unfold Witness.processSignedQuery
    rw [bind_panic_iff]
    exact .inl hc

theorem inForce_valid {env : Env} {db : Db} {q : SignedQuery} {s : IdState} {b : Bytes} (h : db.SignedQueryInForce env q)
    (hst : stateAfter env (db.kel q.signer) = .ok s) (hq : q.serialize env = .ok b) : ValidSigs env s.current b q.sigs := by
  obtain ⟨_, s', b', h1, h2, h3⟩ := h
  rw [hst] at h1
  rw [hq] at h2
  cases h1
  cases h2
  exact h3

/-- C129, crashes: a signed query crashes a witness with a working key if and only if one of the seven conditions holds. -/
theorem C129_crash_exact (env : Env) (sg : SignFn) (w : Witness) (hsg : ∀ m, ∃ b, w.signer.sign sg m = .ok b) (as : List Action) (q : SignedQuery)
    (hs : q.signer.toStr ≠ []) (hi : q.id.toStr ≠ []) (t1 t2 : Timestamp) :
    (w.processSignedQuery sled env sg q t1 t2 (after env as)).1 = .panic ↔ QueryCrashes env (after env as) q := by
  rcases signedQuery_cases env sg w as q hs t1 t2 with ⟨hk, he, e, h⟩ | ⟨hR, h⟩ | ⟨s, hk, hR, hst, h | ⟨b, hb, h⟩⟩
  · rw [h]
    refine iff_of_false (by intro h; cases h) fun hc => ?_
    have hst : stateAfter env ((after env as).kel q.signer) = .ok IdState.default := by rw [he]; rfl
    cases hc with
    | signerLog h => rw [he] at h; exact h (fun _ h => by cases h)
    | unwritable h _ => exact hk h
    | index s h h' =>
      rw [hst] at h
      cases h
      rcases h' with ⟨c, hc, _⟩ | ⟨_, h2, g, hg, _⟩
      · cases hc
      · have : q.sigs.length ≤ 0 := h2
        rw [List.length_eq_zero_iff.1 (Nat.le_zero.1 this)] at hg
        cases hg
    | route i h _ => exact h.1 he
    | log h _ => exact h.1 he
    | kerl h _ _ => exact h.1 he
    | noNext s h _ _ _ _ => exact h.1 he
  · exact iff_of_true h (.signerLog hR)
  · exact iff_of_true h.2 (.unwritable hk h.1)
  · rcases h with ⟨hc, h⟩ | ⟨hc, hv, e, h⟩ | ⟨hc, hf, h⟩
    · exact iff_of_true h (.index s hst hc)
    · rw [h]
      refine iff_of_false (by intro h; cases h) fun hx => ?_
      cases hx with
      | signerLog h => exact h hR
      | unwritable _ h => rw [hb] at h; cases h
      | index s' h h' => rw [hst] at h; cases h; exact hc h'
      | route i h _ => exact hv (inForce_valid h hst hb)
      | log h _ => exact hv (inForce_valid h hst hb)
      | kerl h _ _ => exact hv (inForce_valid h hst hb)
      | noNext s h _ _ _ _ => exact hv (inForce_valid h hst hb)
    · rw [h, (processQuery_exact env sg w hsg _ q hi t1 t2).1, after_lookup_kel, known_lookup]
      constructor
      · rintro (⟨i, h⟩ | h | ⟨h1, h2⟩ | ⟨h1, h2, s, h3, h4⟩)
        · exact .route i hf h
        · exact .log hf h
        · exact .kerl hf h1 h2
        · exact .noNext s hf h1 h2 h3 h4
      · intro hx
        cases hx with
        | signerLog h => exact absurd hR h
        | unwritable _ h => rw [hb] at h; cases h
        | index s' h h' => rw [hst] at h; cases h; exact absurd h' hc
        | route i _ h => exact .inl ⟨i, h⟩
        | log _ h => exact .inr (.inl h)
        | kerl _ h1 h2 => exact .inr (.inr (.inl ⟨h1, h2⟩))
        | noNext s _ h1 h2 h3 h4 => exact .inr (.inr (.inr ⟨h1, h2, s, h3, h4⟩))

/-- C129, answers: a witness with a working key answers a signed query if and only if the log of the signer can be read, the query is signed in
force and it can be answered. -/
theorem C129_answered_exact (env : Env) (sg : SignFn) (w : Witness) (hsg : ∀ m, ∃ b, w.signer.sign sg m = .ok b) (as : List Action) (q : SignedQuery)
    (hs : q.signer.toStr ≠ []) (hi : q.id.toStr ≠ []) (t1 t2 : Timestamp) :
    (w.processSignedQuery sled env sg q t1 t2 (after env as)).1.isOk = true ↔
      Readable ((after env as).kel q.signer) ∧ (after env as).SignedQueryInForce env q ∧ QueryAnswerable env (after env as) q := by
  rcases signedQuery_cases env sg w as q hs t1 t2 with ⟨hk, he, e, h⟩ | ⟨hR, h⟩ | ⟨s, hk, hR, hst, h | ⟨b, hb, h⟩⟩
  · rw [h]
    exact iff_of_false (by intro h; cases h) fun hx => hx.2.1.1 he
  · rw [h]
    exact iff_of_false (by intro h; cases h) fun hx => hR hx.1
  · rw [h.2]
    refine iff_of_false (by intro h; cases h) fun hx => ?_
    obtain ⟨_, _, b, _, h2, _⟩ := hx.2.1
    rw [h2] at h
    cases h.1
  · rcases h with ⟨hc, h⟩ | ⟨hc, hv, e, h⟩ | ⟨hc, hf, h⟩
    · rw [h]
      refine iff_of_false (by intro h; cases h) fun hx => ?_
      have hv := verify_of_validSigs (inForce_valid hx.2.1 hst hb)
      rw [(C23_panic_exact env s.current b q.sigs).2 hc] at hv
      cases hv
    · rw [h]
      exact iff_of_false (by intro h; cases h) fun hx => hv (inForce_valid hx.2.1 hst hb)
    · rw [h, (processQuery_exact env sg w hsg _ q hi t1 t2).2]
      unfold QueryAnswerable
      rw [after_lookup_kel, known_lookup]
      exact ⟨fun h => ⟨hR, hf, h⟩, fun h => h.2.2⟩

/-- C129: no key is needed to crash a witness.  Whatever the query says and whatever bytes stand in for its signatures, as many attached signatures as
the keys in force of a known signer demand, and no more than there are keys, crash it if one of them has an index past the keys; with a weighted
threshold a single signature with an index past the weights does. -/
theorem C129_unsigned_crash (env : Env) (sg : SignFn) (w : Witness) (hsg : ∀ m, ∃ b, w.signer.sign sg m = .ok b) (as : List Action) (q : SignedQuery)
    (hs : q.signer.toStr ≠ []) (hi : q.id.toStr ≠ []) (t1 t2 : Timestamp) (s : IdState) (hst : stateAfter env ((after env as).kel q.signer) = .ok s)
    (g : AttachedSignaturePrefix) (hg : g ∈ q.sigs)
    (h : (∃ n, s.current.threshold = .simple n ∧ n ≤ q.sigs.length ∧ q.sigs.length ≤ s.current.publicKeys.length ∧ s.current.publicKeys.length ≤ g.index) ∨
      ∃ c, s.current.threshold = .single c ∧ c.length ≤ g.index) :
    (w.processSignedQuery sled env sg q t1 t2 (after env as)).1 = .panic := by
  refine (C129_crash_exact env sg w hsg as q hs hi t1 t2).2 (.index s hst ?_)
  rcases h with ⟨n, hn, h1, h2, h3⟩ | ⟨c, hc, h⟩
  · refine .inr ⟨?_, h2, g, hg, h3⟩
    rw [hn]
    exact h1
  · exact .inl ⟨c, hc, g, hg, h⟩

/-- C129: asked outright for the notice of an identifier, a witness with a working key crashes if and only if the log cannot be read or the state it
describes has no next keys (the state of no log has none); otherwise it answers with that state in its own name. -/
theorem C129_outright_exact (env : Env) (sg : SignFn) (w : Witness) (hsg : ∀ m, ∃ b, w.signer.sign sg m = .ok b) (as : List Action) (id : IdentifierPrefix)
    (hi : id.toStr ≠ []) (t1 t2 : Timestamp) :
    ((w.getKsn sled env sg id t1 t2 (after env as)).1 = .panic ↔ ¬ Readable ((after env as).kel id) ∨
      ∃ s, stateAfter env ((after env as).kel id) = .ok s ∧ s.current.nextDigest = none) ∧
    ((w.getKsn sled env sg id t1 t2 (after env as)).1 ≠ .panic → ∃ s n, stateAfter env ((after env as).kel id) = .ok s ∧
      (w.getKsn sled env sg id t1 t2 (after env as)).1 = .ok n ∧ w.Says s t1 t2 n) := by
  unfold Witness.getKsn
  rcases hx : computeState sled env id (after env as) with ⟨r, db'⟩
  rcases state_cases env as id hi with ⟨hk, he, hc⟩ | ⟨s, hk, hR, hst, hc⟩ | ⟨hR, hc⟩
  · rw [hx] at hc
    cases hc
    rw [StM.bind_fst (StM.result_ok hx)]
    exact ⟨iff_of_true rfl (.inr ⟨IdState.default, by rw [he]; rfl, rfl⟩), fun h => absurd rfl h⟩
  · rw [hx] at hc
    cases hc
    rw [StM.bind_fst (StM.result_ok hx)]
    show (w.notice env sg s t1 t2 = .panic ↔ _) ∧ (w.notice env sg s t1 t2 ≠ .panic → ∃ s' n, _ ∧ w.notice env sg s t1 t2 = .ok n ∧ _)
    rcases notice_exact env sg w hsg s t1 t2 with ⟨hn, h1⟩ | ⟨hn, n, h1⟩
    · exact ⟨iff_of_true h1 (.inr ⟨s, hst, hn⟩), fun h => absurd h1 h⟩
    · refine ⟨iff_of_false (by rw [h1]; intro h; cases h) ?_, fun _ => ⟨s, n, hst, h1, notice_says h1⟩⟩
      rintro (h | ⟨s', h, h'⟩)
      · exact h hR
      · rw [hst] at h; cases h; exact hn h'
  · rw [hx] at hc
    cases hc
    have hp : (StM.result (computeState sled env id) (after env as)).1 = .panic := by rw [StM.result_panic hx]
    have := (bind_panic_iff (f := fun x => match x with
        | .ok (some s) => StM.lift (w.notice env sg s t1 t2)
        | _ => StM.lift .panic)).2 (.inl hp)
    exact ⟨iff_of_true this (.inl hR), fun h => absurd this h⟩

/-! ## Examples -/
section
open Ex
set_option maxRecDepth 20000

/-- a query of which the first signature is forged and the second index names no key; nobody in force has signed it -/
def Ex.qryIndex : SignedQuery := { qry .log Ex.id with sigs := [sig 9 0 [1], sig 9 7 [1]] }

/-- the witness's key always answers -/
theorem Ex.wtn_signs (m : Bytes) : ∃ b, wtn.signer.sign Ex.sg m = .ok b := ⟨_, rfl⟩

/-- answered; crashing by an index without any valid signature, by its route, and for the state of what a rejected inception has left; refused -/
example : (wtn.processSignedQuery sled env Ex.sg (qry .log Ex.id) ⟨6, 0⟩ ⟨7, 0⟩ (after env hist)).1.isOk = true ∧
    (wtn.processSignedQuery sled env Ex.sg qryIndex ⟨6, 0⟩ ⟨7, 0⟩ (after env hist)).1 = .panic ∧
    (wtn.processSignedQuery sled env Ex.sg (qry (.replyKsn Ex.id) Ex.id) ⟨6, 0⟩ ⟨7, 0⟩ (after env hist)).1 = .panic ∧
    (wtn.processSignedQuery sled env Ex.sg (qry .ksn unsignedIcp.pre) ⟨6, 0⟩ ⟨7, 0⟩ (after env (hist ++ [.submit (.event unsignedIcp)]))).1 = .panic ∧
    (wtn.processSignedQuery sled env Ex.sg { qry .log Ex.id with sigs := [] } ⟨6, 0⟩ ⟨7, 0⟩ (after env hist)).1.isOk = false := by
  decide +kernel

example : QueryAnswerable env (after env hist) (qry .log Ex.id) :=
  ((C129_answered_exact env Ex.sg wtn wtn_signs hist (qry .log Ex.id) (by decide +kernel) (by decide +kernel) ⟨6, 0⟩ ⟨7, 0⟩).1 (by decide +kernel)).2.2
example : QueryCrashes env (after env hist) qryIndex :=
  (C129_crash_exact env Ex.sg wtn wtn_signs hist _ (by decide +kernel) (by decide +kernel) ⟨6, 0⟩ ⟨7, 0⟩).1 (by decide +kernel)
end

end Keriox
