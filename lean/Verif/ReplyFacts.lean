import Verif.Props.Receipts
/-!
# What one call does with a signed reply (helper lemmas)
-/
namespace Keriox

/-- the accepted reply found for a route -/
def onRoute (l : List SignedReply) (route : Route) : Option SignedReply := l.find? fun r => r.reply.route = route

/-- reading a stored reply changes neither its route, signature, digest nor its instants -/
theorem SignedReply.dec_same {r r' : SignedReply} (h : r.dec = some r') :
    r'.reply.route = r.reply.route ∧ r'.signature = r.signature ∧ r'.reply.timestamp = r.reply.timestamp ∧
      r'.reply.digest = r.reply.digest ∧ r'.reply.info = r.reply.info ∧ r'.pre = r.pre ∧
      r'.reply.ksn.timestamp = r.reply.ksn.timestamp := by
  unfold SignedReply.dec at h
  simp only [Option.bind_eq_bind, Option.bind_eq_some_iff] at h
  obtain ⟨k, hk, h⟩ := h
  split at h
  · cases h
    unfold Ksn.dec at hk
    simp only [Option.bind_eq_bind, Option.bind_eq_some_iff] at hk
    obtain ⟨n, _, hk⟩ := hk
    generalize hc : (_ && _) = c at hk
    cases c with
    | false => cases hk
    | true =>
      simp only [if_true, Option.bind_eq_some_iff, Option.some.injEq] at hk
      obtain ⟨sn, _, f, _, bt, _, rfl⟩ := hk
      exact ⟨rfl, rfl, rfl, rfl, rfl, rfl, rfl⟩
  · cases h

theorem badaLogic_run (r : SignedReply) (a : MapDb) :
    badaLogic mapOps r a = (match Tbl.knas.iterValues (a.tables .knas r.pre.toStr) with
      | .ok o => match onRoute (o.getD []) (.replyKsn r.signature.signer) with
        | some old => badaCompare r old
        | none => .err (.query .noSavedReply)
      | .err e => .err e
      | .panic => .panic, a.touch r.pre.toStr) := by
  unfold badaLogic getAccepted
  rw [StM.bind_run]
  simp only [mapOps]
  cases h : Tbl.knas.iterValues (a.tables .knas r.pre.toStr) with
  | err e => rfl
  | panic => rfl
  | ok o =>
    cases o with
    | none => rfl
    | some l =>
      unfold onRoute
      simp only [Option.getD_some, Option.bind_some]
      cases List.find? (fun s : SignedReply => decide (s.reply.route = .replyKsn r.signature.signer)) l <;> rfl

theorem checkTimestamp_run (dt : Timestamp) (p aid : IdentifierPrefix) (a : MapDb) :
    checkTimestamp mapOps dt p aid a = (match Tbl.knas.iterValues (a.tables .knas p.toStr) with
      | .ok o => match onRoute (o.getD []) (.replyKsn aid) with
        | some old => if dt.micros < old.reply.timestamp.micros then .err (.query .staleKsn) else .ok ()
        | none => .err (.query .outOfOrder)
      | .err e => .err e
      | .panic => .panic, a.touch p.toStr) := by
  unfold checkTimestamp getAccepted
  rw [StM.bind_run]
  simp only [mapOps]
  cases h : Tbl.knas.iterValues (a.tables .knas p.toStr) with
  | err e => rfl
  | panic => rfl
  | ok o =>
    cases o with
    | none => rfl
    | some l =>
      unfold onRoute
      simp only [Option.getD_some]
      cases hf : List.find? (fun s : SignedReply => decide (s.reply.route = .replyKsn aid)) l with
      | none => rfl
      | some old =>
        dsimp only
        split <;> rfl

/-- the table entry after an acceptance -/
def acceptInto (l : List SignedReply) (r : SignedReply) : List SignedReply :=
  (l.filter fun s => s.reply.route ≠ r.reply.route) ++ [r]

theorem updateAccepted_run (r : SignedReply) (id : IdentifierPrefix) (a : MapDb) (o : Option (List SignedReply))
    (h : Tbl.knas.iterValues (a.tables .knas id.toStr) = .ok o) :
    ∃ a1 : MapDb, a1.tables = a.tables ∧
      updateAccepted mapOps r id a = (.ok (), a1.set .knas id.toStr (some (acceptInto (o.getD []) r))) := by
  unfold updateAccepted
  rw [StM.bind_run]
  simp only [mapOps, h]
  cases o with
  | none =>
    have hn : a.tables .knas id.toStr = none := by
      unfold Tbl.iterValues Tbl.entry at h
      cases hk : a.tables .knas id.toStr with
      | none => rfl
      | some l =>
        rw [hk] at h
        dsimp only at h
        cases hd : Tbl.knas.decAll l <;> rw [hd] at h <;> cases h
    refine ⟨(a.touch id.toStr).touch id.toStr, by simp, ?_⟩
    simp only [MapDb.touch_tables, hn]
    rfl
  | some l => exact ⟨(a.touch id.toStr).touch id.toStr, by simp, rfl⟩

/-- the facts under which a reply is accepted, over the map database -/
structure ReplyOk (env : Env) (a : MapDb) (r : SignedReply) (aid : IdentifierPrefix) (bytes : Bytes) (o : Option (List SignedReply)) : Prop where
  route : r.reply.route = .replyKsn aid
  signer : r.signature.signer = aid
  ser : r.reply.serialize env = .ok bytes
  sig : (verifySignature mapOps env bytes r.signature a).1 = .ok ()
  dig : r.reply.checkDigest env = .ok ()
  stored : Tbl.knas.iterValues (a.tables .knas r.pre.toStr) = .ok o
  newer : ∀ old, onRoute (o.getD []) (.replyKsn aid) = some old → badaCompare r old = .ok () ∧
    old.reply.timestamp.micros ≤ r.reply.ksn.timestamp.micros
  event : ∃ e, (getEventAtSn mapOps r.pre r.reply.ksn.state.sn a).1 = .ok (some e) ∧ e.msg.checkDigest env r.reply.ksn.state.lastDigest = .ok true
  latest : ∃ st, (computeState mapOps env r.pre a).1 = .ok (some st) ∧ st.sn = r.reply.ksn.state.sn

theorem replySignature_ok {env : Env} {r : SignedReply} {a a' : MapDb} {u : Unit} (h : replySignature mapOps env r a = (.ok u, a')) :
    ∃ bytes, r.reply.serialize env = .ok bytes ∧ (verifySignature mapOps env bytes r.signature a).1 = .ok () ∧ a'.tables = a.tables := by
  unfold replySignature at h
  cases hs : r.reply.serialize env with
  | err e => rw [StM.bind_err (show StM.lift (r.reply.serialize env) a = (.err e, a) by rw [hs]; rfl)] at h; cases h
  | panic => rw [StM.bind_panic (show StM.lift (r.reply.serialize env) a = (.panic, a) by rw [hs]; rfl)] at h; cases h
  | ok bytes =>
    refine ⟨bytes, rfl, ?_⟩
    rw [hs, StM.bind_run] at h
    simp only [StM.lift] at h
    rw [StM.bind_run] at h
    have ro := verifySignature_ro env bytes r.signature a
    rcases hv : verifySignature mapOps env bytes r.signature a with ⟨x, a1⟩
    rw [hv] at ro
    cases x with
    | panic => rw [StM.result_panic hv] at h; cases h
    | ok u =>
      rw [StM.result_ok hv] at h
      dsimp only at h ro
      cases h
      exact ⟨rfl, ro⟩
    | err e =>
      rw [StM.result_err hv] at h
      dsimp only at h
      split at h
      · rw [StM.bind_run] at h
        cases h
      · cases h

theorem ignoring_ok {x : StM MapDb Unit} {e : Error} {a a' : MapDb} {u : Unit} (h : ignoring x e a = (.ok u, a')) :
    (x a).2 = a' ∧ ((x a).1 = .ok () ∨ (x a).1 = .err e) := by
  unfold ignoring at h
  rw [StM.bind_run] at h
  rcases hx : x a with ⟨y, a1⟩
  cases y with
  | panic => rw [StM.result_panic hx] at h; cases h
  | ok v => rw [StM.result_ok hx] at h; cases h; exact ⟨rfl, .inl rfl⟩
  | err e' =>
    rw [StM.result_err hx] at h
    dsimp only at h
    split at h
    · rename_i he; cases h; exact ⟨rfl, .inr (by rw [he])⟩
    · cases h

theorem checkKsn_ok {env : Env} {k : Ksn} {aid : IdentifierPrefix} {a : MapDb} {s : Option IdState}
    (h : (checkKsn mapOps env k aid a).1 = .ok s) :
    (∃ e, (getEventAtSn mapOps k.state.prefix k.state.sn a).1 = .ok (some e) ∧ e.msg.checkDigest env k.state.lastDigest = .ok true) ∧
    (∃ st, (computeState mapOps env k.state.prefix a).1 = .ok (some st) ∧ st.sn = k.state.sn) ∧
    ∀ o, Tbl.knas.iterValues (a.tables .knas k.state.prefix.toStr) = .ok o → ∀ old, onRoute (o.getD []) (.replyKsn aid) = some old →
      old.reply.timestamp.micros ≤ k.timestamp.micros := by
  unfold checkKsn at h
  obtain ⟨x, a1, h1, h2⟩ := bind_ok_inv h
  have ro1 := getEventAtSn_ro k.state.prefix k.state.sn a
  rw [h1] at ro1
  cases x with
  | none => cases h2
  | some e =>
    dsimp only at h2
    obtain ⟨b, a2, h3, h4⟩ := bind_ok_inv h2
    have hb : e.msg.checkDigest env k.state.lastDigest = .ok b := congrArg Prod.fst h3
    have e2 : a2 = a1 := (congrArg Prod.snd h3).symm
    subst e2
    cases b with
    | false => cases h4
    | true =>
      rw [if_pos rfl] at h4
      obtain ⟨u, a3, h5, h6⟩ := bind_ok_inv h4
      obtain ⟨g1, g2⟩ := ignoring_ok h5
      obtain ⟨o, a4, h7, h8⟩ := bind_ok_inv h6
      have t3 : a3.tables = a.tables := by rw [← g1, checkTimestamp_ro _ _ _ a2]; exact ro1
      refine ⟨⟨e, by rw [h1], hb⟩, ?_, ?_⟩
      · cases o with
        | none => cases h8
        | some st =>
          refine ⟨st, ?_, ?_⟩
          · rw [computeState_run, ← t3]
            have := congrArg Prod.fst h7
            rw [computeState_run] at this
            exact this
          · dsimp only at h8
            split at h8
            · cases h8
            · split at h8
              · assumption
              · cases h8
      · intro o ho old hold
        rw [checkTimestamp_run, ro1, ho] at g2
        simp only [hold] at g2
        by_cases hc : k.timestamp.micros < old.reply.timestamp.micros
        · rw [if_pos hc] at g2; rcases g2 with g2 | g2 <;> cases g2
        · exact Int.not_lt.1 hc

theorem processSignedReply_wrong {σ : Type} {o : Ops σ} {env : Env} {r : SignedReply} (h : ∀ aid, r.reply.route ≠ .replyKsn aid) :
    processSignedReply o env r = StM.fail (.semantic "wrong route type") := by
  unfold processSignedReply
  cases hr : r.reply.route with
  | replyKsn aid => exact absurd hr (h aid)
  | _ => rfl

theorem processSignedReply_route {σ : Type} {o : Ops σ} {env : Env} {r : SignedReply} {aid : IdentifierPrefix} (h : r.reply.route = .replyKsn aid) :
    processSignedReply o env r = (if r.signature.signer ≠ aid then StM.fail (.query (.other "Wrong reply message signer"))
      else do
        replySignature o env r
        StM.lift (r.reply.checkDigest env)
        ignoring (badaLogic o r) (.query .noSavedReply)
        replyNotice o env r aid
        updateAccepted o r r.pre
        pure (some r.reply.ksn.state)) := by
  unfold processSignedReply
  rw [h]

theorem iterValues_ne_err {t : Tbl} {o : Option (List t.Val)} {e : Error} : t.iterValues o ≠ .err e := by
  unfold Tbl.iterValues
  split <;> simp

/-- the stored replies were readable when the freshness check passed -/
theorem ignoring_bada_read {r : SignedReply} {a b : MapDb} {u : Unit} {e : Error} (h : ignoring (badaLogic mapOps r) e a = (.ok u, b)) :
    ∃ o, Tbl.knas.iterValues (a.tables .knas r.pre.toStr) = .ok o := by
  obtain ⟨_, i2⟩ := ignoring_ok h
  rw [badaLogic_run] at i2
  cases hi : Tbl.knas.iterValues (a.tables .knas r.pre.toStr) with
  | ok o => exact ⟨o, rfl⟩
  | err e => exact absurd hi iterValues_ne_err
  | panic => rw [hi] at i2; rcases i2 with i2 | i2 <;> cases i2

theorem signedReply_ok {env : Env} {r : SignedReply} {a : MapDb} {s : Option IdState} (h : (processSignedReply mapOps env r a).1 = .ok s) :
    ∃ aid bytes o, ReplyOk env a r aid bytes o ∧ s = some r.reply.ksn.state ∧ ∃ a1 : MapDb, a1.tables = a.tables ∧
      (processSignedReply mapOps env r a).2 = a1.set .knas r.pre.toStr (some (acceptInto (o.getD []) r)) := by
  by_cases hrr : ∃ aid, r.reply.route = .replyKsn aid
  · obtain ⟨aid, hr⟩ := hrr
    rw [processSignedReply_route hr] at h ⊢
    by_cases hs : r.signature.signer ≠ aid
    · rw [if_pos hs] at h; cases h
    · rw [if_neg hs] at h ⊢
      obtain ⟨u1, a1, h1, q1⟩ := bind_ok_inv h
      obtain ⟨bytes, g1, g2, g3⟩ := replySignature_ok h1
      obtain ⟨u2, a2, h2, q2⟩ := bind_ok_inv q1
      have hd : r.reply.checkDigest env = .ok u2 := congrArg Prod.fst h2
      have e2 : a2 = a1 := (congrArg Prod.snd h2).symm
      subst e2
      obtain ⟨u3, a3, h3, q3⟩ := bind_ok_inv q2
      obtain ⟨i1, i2⟩ := ignoring_ok h3
      obtain ⟨u4, a4, h4, q4⟩ := bind_ok_inv q3
      have t3 : a3.tables = a.tables := by rw [← i1, badaLogic_ro _ a2]; exact g3
      have hn : (checkKsn mapOps env r.reply.ksn aid a3).2 = a4 ∧ ∃ s, (checkKsn mapOps env r.reply.ksn aid a3).1 = .ok s := by
        unfold replyNotice at h4
        rw [StM.bind_run] at h4
        rcases hx : checkKsn mapOps env r.reply.ksn aid a3 with ⟨y, a5⟩
        cases y with
        | panic => rw [StM.result_panic hx] at h4; cases h4
        | ok v => rw [StM.result_ok hx] at h4; cases h4; exact ⟨rfl, v, rfl⟩
        | err e' =>
          rw [StM.result_err hx] at h4
          dsimp only at h4
          rw [StM.bind_run] at h4
          unfold escrowIf escrowReply addEscrowed at h4
          split at h4 <;> cases h4
      obtain ⟨k0, s0, k1⟩ := hn
      obtain ⟨k2, k3, k4⟩ := checkKsn_ok k1
      have t4 : a4.tables = a.tables := by rw [← k0, checkKsn_ro env _ _ a3, t3]
      have hst := ignoring_bada_read h3
      rw [g3] at hst
      obtain ⟨o, ho⟩ := hst
      obtain ⟨a5, t5, hu⟩ := updateAccepted_run r r.pre a4 o (by rw [t4]; exact ho)
      have hpair : ∀ (x : StM MapDb Unit) (y : StM MapDb (Option IdState)) (b c : MapDb), x b = (.ok (), c) → (x >>= fun _ => y) b = y c := by
        intro x y b c hx; rw [StM.bind_run, hx]
      refine ⟨aid, bytes, o, ⟨hr, Decidable.not_not.1 hs, g1, g2, hd, ho, ?_, ?_, ?_⟩, ?_, a5, by rw [t5, t4], ?_⟩
      · intro old hold
        refine ⟨?_, k4 o (by rw [t3]; exact ho) old hold⟩
        rw [badaLogic_run, g3, ho] at i2
        simp only [Decidable.not_not.1 hs, hold] at i2
        rcases i2 with i2 | i2
        · exact i2
        · exfalso
          unfold badaCompare checkDts at i2
          repeat' split at i2
          all_goals cases i2
      · obtain ⟨e, k5, k6⟩ := k2
        exact ⟨e, by rw [← k5]; exact getEventAtSn_congr t3.symm _ _, k6⟩
      · obtain ⟨st, k5, k6⟩ := k3
        exact ⟨st, by rw [← k5, computeState_run, computeState_run, t3], k6⟩
      · rw [hpair _ _ _ _ hu] at q4
        exact (Res.ok.inj q4).symm
      · rw [hpair _ _ _ _ h1, hpair _ _ _ _ h2, hpair _ _ _ _ h3, hpair _ _ _ _ h4, hpair _ _ _ _ hu]
        rfl
  · rw [processSignedReply_wrong (fun aid ha => hrr ⟨aid, ha⟩)] at h; cases h

theorem stm_ok_bind {σ α β : Type} {x : StM σ α} {f : α → StM σ β} {b c : σ} {v : α} (hx : x b = (.ok v, c)) : (x >>= f) b = f v c := by
  rw [StM.bind_run, hx]

theorem pair_of_fst {σ α : Type} {x : StM σ α} {b : σ} {v : Res α} (h : (x b).1 = v) : x b = (v, (x b).2) := by rw [← h]

/-- the notice check succeeds under the conditions of `checkKsn_ok` when the stored replies are readable -/
theorem checkKsn_accepts {env : Env} {k : Ksn} {aid : IdentifierPrefix} {a : MapDb} {o : Option (List SignedReply)} {e : SignedEvent} {st : IdState}
    (he : (getEventAtSn mapOps k.state.prefix k.state.sn a).1 = .ok (some e)) (hd : e.msg.checkDigest env k.state.lastDigest = .ok true)
    (hst : (computeState mapOps env k.state.prefix a).1 = .ok (some st)) (hsn : st.sn = k.state.sn)
    (ho : Tbl.knas.iterValues (a.tables .knas k.state.prefix.toStr) = .ok o)
    (hold : ∀ old, onRoute (o.getD []) (.replyKsn aid) = some old → old.reply.timestamp.micros ≤ k.timestamp.micros) :
    (checkKsn mapOps env k aid a).1 = .ok (some st) := by
  have ro1 := getEventAtSn_ro k.state.prefix k.state.sn a
  unfold checkKsn
  rw [stm_ok_bind (pair_of_fst he)]
  generalize (getEventAtSn mapOps k.state.prefix k.state.sn a).2 = a1 at ro1
  dsimp only
  rw [stm_ok_bind (show StM.lift (e.msg.checkDigest env k.state.lastDigest) a1 = (.ok true, a1) by rw [hd]; rfl), if_pos rfl]
  have hts : (ignoring (checkTimestamp mapOps k.timestamp k.state.prefix aid) (.query .outOfOrder) a1).1 = .ok () ∧
      (ignoring (checkTimestamp mapOps k.timestamp k.state.prefix aid) (.query .outOfOrder) a1).2.tables = a1.tables := by
    unfold ignoring
    rw [StM.bind_run]
    have hr := checkTimestamp_run k.timestamp k.state.prefix aid a1
    rw [ro1, ho] at hr
    dsimp only at hr
    cases hf : onRoute (o.getD []) (.replyKsn aid) with
    | none =>
      rw [hf] at hr
      rw [StM.result_err hr]
      dsimp only
      rw [if_pos rfl]
      exact ⟨rfl, MapDb.touch_tables ..⟩
    | some old =>
      rw [hf] at hr
      dsimp only at hr
      rw [if_neg (Int.not_lt.2 (hold old hf))] at hr
      rw [StM.result_ok hr]
      exact ⟨rfl, MapDb.touch_tables ..⟩
  rw [stm_ok_bind (pair_of_fst hts.1)]
  have h3 := hts.2
  generalize (ignoring (checkTimestamp mapOps k.timestamp k.state.prefix aid) (.query .outOfOrder) a1).2 = a2 at h3
  have hc : (computeState mapOps env k.state.prefix a2).1 = .ok (some st) := by
    rw [← hst, computeState_run, computeState_run, h3, ro1]
  rw [stm_ok_bind (pair_of_fst hc)]
  dsimp only
  rw [if_neg (by omega), if_pos hsn]
  rfl

/-- the conditions of `signedReply_ok` suffice for acceptance -/
theorem replyOk_accepts {env : Env} {r : SignedReply} {a : MapDb} {aid : IdentifierPrefix} {bytes : Bytes} {o : Option (List SignedReply)}
    (ok : ReplyOk env a r aid bytes o) : (processSignedReply mapOps env r a).1 = .ok (some r.reply.ksn.state) := by
  rw [processSignedReply_route ok.route, if_neg (by rw [ok.signer]; simp)]
  have h1 : (replySignature mapOps env r a).1 = .ok () ∧ (replySignature mapOps env r a).2.tables = a.tables := by
    have ro := verifySignature_ro env bytes r.signature a
    unfold replySignature
    rw [stm_ok_bind (show StM.lift (r.reply.serialize env) a = (.ok bytes, a) by rw [ok.ser]; rfl), StM.bind_run,
      StM.result_ok (pair_of_fst ok.sig)]
    exact ⟨rfl, ro⟩
  rw [stm_ok_bind (pair_of_fst h1.1)]
  have t1 := h1.2
  generalize (replySignature mapOps env r a).2 = a1 at t1
  rw [stm_ok_bind (show StM.lift (r.reply.checkDigest env) a1 = (.ok (), a1) by rw [ok.dig]; rfl)]
  have h2 : (ignoring (badaLogic mapOps r) (.query .noSavedReply) a1).1 = .ok () ∧
      (ignoring (badaLogic mapOps r) (.query .noSavedReply) a1).2.tables = a1.tables := by
    unfold ignoring
    rw [StM.bind_run]
    have hr := badaLogic_run r a1
    rw [t1, ok.stored] at hr
    dsimp only at hr
    rw [ok.signer] at hr
    cases hf : onRoute (o.getD []) (.replyKsn aid) with
    | none =>
      rw [hf] at hr
      rw [StM.result_err hr]
      dsimp only
      rw [if_pos rfl]
      exact ⟨rfl, MapDb.touch_tables ..⟩
    | some old =>
      rw [hf] at hr
      dsimp only at hr
      rw [(ok.newer old hf).1] at hr
      rw [StM.result_ok hr]
      exact ⟨rfl, MapDb.touch_tables ..⟩
  rw [stm_ok_bind (pair_of_fst h2.1)]
  have t2 := h2.2
  generalize (ignoring (badaLogic mapOps r) (.query .noSavedReply) a1).2 = a2 at t2
  rw [t1] at t2
  obtain ⟨e, he, hd⟩ := ok.event
  obtain ⟨st, hst, hsn⟩ := ok.latest
  have h3 : (checkKsn mapOps env r.reply.ksn aid a2).1 = .ok (some st) :=
    checkKsn_accepts (o := o) (e := e) (by rw [← he]; exact getEventAtSn_congr t2 _ _) hd (by rw [← hst, computeState_run, computeState_run, t2]) hsn
      (by rw [t2]; exact ok.stored) (fun old h => (ok.newer old h).2)
  have t3 := checkKsn_ro env r.reply.ksn aid a2
  have h4 : replyNotice mapOps env r aid a2 = (.ok (), (checkKsn mapOps env r.reply.ksn aid a2).2) := by
    unfold replyNotice
    rw [StM.bind_run, StM.result_ok (pair_of_fst h3)]
    rfl
  rw [stm_ok_bind h4]
  generalize (checkKsn mapOps env r.reply.ksn aid a2).2 = a3 at t3
  obtain ⟨a4, -, hu⟩ := updateAccepted_run r r.pre a3 o (by rw [t3, t2]; exact ok.stored)
  rw [stm_ok_bind hu]
  rfl

/-- a reply that is not accepted leaves the accepted replies as they are -/
theorem signedReply_refused {env : Env} {r : SignedReply} {a : MapDb} (h : ∀ s, (processSignedReply mapOps env r a).1 ≠ .ok s) :
    (processSignedReply mapOps env r a).2.tables .knas = a.tables .knas := by
  have step : ∀ {α : Type} (x : StM MapDb α) (f : α → StM MapDb (Option IdState)) (b : MapDb),
      (∀ s, ((x >>= f) b).1 ≠ .ok s) → (x b).2.tables .knas = a.tables .knas →
      (∀ v c, x b = (.ok v, c) → (∀ s, (f v c).1 ≠ .ok s) → c.tables .knas = a.tables .knas → (f v c).2.tables .knas = a.tables .knas) →
      ((x >>= f) b).2.tables .knas = a.tables .knas := by
    intro α x f b h1 h2 h3
    rw [StM.bind_run] at h1 ⊢
    rcases hx : x b with ⟨y, c⟩
    rw [hx] at h1 h2
    cases y with
    | ok v => exact h3 v c hx h1 h2
    | err e => exact h2
    | panic => exact h2
  have kn : ∀ {α : Type} {x : StM MapDb α} {b : MapDb}, Writes (fun t => t = .knes) r.pre.toStr x → b.tables .knas = a.tables .knas →
      (x b).2.tables .knas = a.tables .knas := by
    intro α x b hw hb
    rw [← hb]
    funext y
    exact hw b .knas y (.inr (by simp))
  by_cases hrr : ∃ aid, r.reply.route = .replyKsn aid
  · obtain ⟨aid, hr⟩ := hrr
    rw [processSignedReply_route hr] at h ⊢
    by_cases hs : r.signature.signer ≠ aid
    · rw [if_pos hs]; rfl
    · rw [if_neg hs] at h ⊢
      refine step _ _ _ h (kn (replySignature_writes env r) rfl) fun _ b _ h hb => ?_
      refine step _ _ _ h (by exact hb) fun _ b h1 h hb => ?_
      refine step _ _ _ h (by rw [ignoring_ro (badaLogic_ro _) _ b]; exact hb) fun _ c h3 h hc => ?_
      have hst := ignoring_bada_read h3
      rw [hb] at hst
      refine step _ _ _ h (kn (replyNotice_writes env r aid) hc) fun _ b _ h hb => ?_
      exfalso
      obtain ⟨o, ho⟩ := hst
      obtain ⟨a1, _, hu⟩ := updateAccepted_run r r.pre b o (by rw [hb]; exact ho)
      exact h _ (by rw [StM.bind_run, hu]; rfl)
  · rw [processSignedReply_wrong (fun aid ha => hrr ⟨aid, ha⟩)]; rfl

/-! ## Histories -/

/-- the accepted replies stored under an identifier text -/
def MapDb.acc (a : MapDb) (x : Bytes) : List SignedReply := (a.tables .knas x).getD []

theorem iterValues_decAll {t : Tbl} {v o : Option (List t.Val)} (h : t.iterValues v = .ok o) : t.decAll (v.getD []) = some (o.getD []) := by
  unfold Tbl.iterValues Tbl.entry at h
  cases v with
  | none => cases h; rfl
  | some l =>
    dsimp only at h
    cases hd : t.decAll l with
    | none => rw [hd] at h; cases h
    | some l' => rw [hd] at h; cases h; exact hd

theorem decAll_mem_of {t : Tbl} {l d : List t.Val} (h : t.decAll l = some d) : ∀ v ∈ l, ∃ v' ∈ d, t.dec v = some v' := by
  induction l generalizing d with
  | nil => simp
  | cons v l ih =>
    unfold Tbl.decAll at h
    cases h1 : t.dec v with
    | none => rw [h1] at h; cases h
    | some v' =>
      cases h2 : t.decAll l with
      | none => rw [h1, h2] at h; cases h
      | some l' =>
        rw [h1, h2] at h
        cases h
        intro w hw
        rcases List.mem_cons.1 hw with rfl | hw
        · exact ⟨v', by simp, h1⟩
        · obtain ⟨w', m, hw'⟩ := ih h2 w hw
          exact ⟨w', by simp [m], hw'⟩

theorem decAll_mem {t : Tbl} {l d : List t.Val} (h : t.decAll l = some d) : ∀ v' ∈ d, ∃ v ∈ l, t.dec v = some v' := by
  induction l generalizing d with
  | nil => cases h; simp
  | cons v l ih =>
    unfold Tbl.decAll at h
    cases h1 : t.dec v with
    | none => rw [h1] at h; cases h
    | some v' =>
      cases h2 : t.decAll l with
      | none => rw [h1, h2] at h; cases h
      | some l' =>
        rw [h1, h2] at h
        cases h
        intro w hw
        rcases List.mem_cons.1 hw with rfl | hw
        · exact ⟨v, by simp, h1⟩
        · obtain ⟨w', m, hw'⟩ := ih h2 w hw
          exact ⟨w', by simp [m], hw'⟩

theorem decAll_routes {l d : List SignedReply} (h : Tbl.knas.decAll l = some d) : d.map (·.reply.route) = l.map (·.reply.route) := by
  induction l generalizing d with
  | nil => cases h; rfl
  | cons v l ih =>
    unfold Tbl.decAll at h
    cases h1 : Tbl.knas.dec v with
    | none => rw [h1] at h; cases h
    | some v' =>
      cases h2 : Tbl.knas.decAll l with
      | none => rw [h1, h2] at h; cases h
      | some l' =>
        rw [h1, h2] at h
        cases h
        rw [List.map_cons, List.map_cons, ih h2, (SignedReply.dec_same (show v.dec = some v' from h1)).1]

/-- `b` is reached from `a` by accepting replies, each time against the logs `K` -/
inductive KReach (env : Env) (K : Bytes → Option (List SignedEvent)) (a : MapDb) : MapDb → Prop
  | refl {b : MapDb} (h : b.tables .knas = a.tables .knas) : KReach env K a b
  | step {b c : MapDb} {r : SignedReply} {aid : IdentifierPrefix} {bytes : Bytes} {o : Option (List SignedReply)} (h : KReach env K a b)
      (hk : b.tables .kels = K) (ok : ReplyOk env b r aid bytes o)
      (hc : c.tables .knas = (b.set .knas r.pre.toStr (some (acceptInto (o.getD []) r))).tables .knas) : KReach env K a c

theorem KReach.same {env : Env} {K} {a b c : MapDb} (h : KReach env K a b) (hc : c.tables .knas = b.tables .knas) : KReach env K a c := by
  cases h with
  | refl h => exact .refl (hc.trans h)
  | step h hk ok h2 => exact .step h hk ok (hc.trans h2)

theorem set_tables_congr {a b : MapDb} (h : a.tables = b.tables) (t : Tbl) (x : Bytes) (o : Option (List t.Val)) :
    (a.set t x o).tables = (b.set t x o).tables := by
  unfold MapDb.set; simp only [h]

/-- one reply -/
theorem KReach.reply {env : Env} {K} {a b : MapDb} (r : SignedReply) (h : KReach env K a b) (hk : b.tables .kels = K) :
    KReach env K a (processSignedReply mapOps env r b).2 ∧ (processSignedReply mapOps env r b).2.tables .kels = K := by
  refine ⟨?_, by rw [WritesTbl.of (signedReply_writes env r) b .kels (by simp)]; exact hk⟩
  by_cases ho : ∃ s, (processSignedReply mapOps env r b).1 = .ok s
  · obtain ⟨s, hs⟩ := ho
    obtain ⟨aid, bytes, o, ok, _, a1, ha1, hset⟩ := signedReply_ok hs
    exact .step h hk ok (by rw [hset, set_tables_congr ha1])
  · exact h.same (signedReply_refused fun s hs => ho ⟨s, hs⟩)

theorem knes_remove_knas (r : SignedReply) (b : MapDb) (t : Tbl) (ht : t ≠ .knes) :
    (removeEscrowed mapOps r.pre r b).2.tables t = b.tables t := by
  unfold removeEscrowed
  simp only [mapOps]
  funext y
  rw [MapDb.set_other_tbl _ ht, MapDb.touch_tables]

theorem KReach.escrowStep {env : Env} {K} {a b : MapDb} (r : SignedReply) (h : KReach env K a b) (hk : b.tables .kels = K) :
    KReach env K a (escrowStep mapOps env r b).2 ∧ (escrowStep mapOps env r b).2.tables .kels = K := by
  obtain ⟨g1, g2⟩ := h.reply r hk
  unfold Keriox.escrowStep
  rw [StM.bind_run]
  rcases hx : processSignedReply mapOps env r b with ⟨y, c⟩
  rw [hx] at g1 g2
  cases y with
  | panic => rw [StM.result_panic hx]; exact ⟨g1, g2⟩
  | ok s =>
    rw [StM.result_ok hx]
    exact ⟨g1.same (knes_remove_knas r c .knas (by simp)), by rw [← g2]; exact knes_remove_knas r c .kels (by simp)⟩
  | err e =>
    rw [StM.result_err hx]
    dsimp only
    split
    · exact ⟨g1.same (knes_remove_knas r c .knas (by simp)), by rw [← g2]; exact knes_remove_knas r c .kels (by simp)⟩
    · exact ⟨g1, g2⟩

theorem KReach.bind {α β : Type} {env : Env} {K} {a b : MapDb} {x : StM MapDb α} {f : α → StM MapDb β}
    (h1 : KReach env K a (x b).2 ∧ (x b).2.tables .kels = K)
    (h2 : ∀ v c, KReach env K a c → c.tables .kels = K → KReach env K a (f v c).2 ∧ (f v c).2.tables .kels = K) :
    KReach env K a ((x >>= f) b).2 ∧ ((x >>= f) b).2.tables .kels = K := by
  rw [StM.bind_run]
  rcases hx : x b with ⟨y, c⟩
  rw [hx] at h1
  cases y with
  | ok v => exact h2 v c h1.1 h1.2
  | err e => exact h1
  | panic => exact h1

theorem KReach.escrowSteps {env : Env} {K} {a : MapDb} (rs : List SignedReply) : ∀ b : MapDb, KReach env K a b → b.tables .kels = K →
    KReach env K a (escrowSteps mapOps env rs b).2 ∧ (escrowSteps mapOps env rs b).2.tables .kels = K := by
  induction rs with
  | nil => exact fun b h hk => ⟨h, hk⟩
  | cons r rs ih => exact fun b h hk => KReach.bind (h.escrowStep r hk) fun _ c => ih c

theorem KReach.escrowEntries {env : Env} {K} {a : MapDb} (es : List (Option (List SignedReply))) : ∀ b : MapDb, KReach env K a b →
    b.tables .kels = K → KReach env K a (escrowEntries mapOps env es b).2 ∧ (escrowEntries mapOps env es b).2.tables .kels = K := by
  induction es with
  | nil => exact fun b h hk => ⟨h, hk⟩
  | cons e es ih =>
    cases e with
    | none => exact fun b h hk => ⟨h, hk⟩
    | some rs => exact fun b h hk => KReach.bind (KReach.escrowSteps rs b h hk) fun _ c => ih c

/-- every action changes the accepted replies only by accepting replies against the present logs -/
theorem action_knas (env : Env) (act : Action) (a : MapDb) : KReach env (a.tables .kels) a (act.run mapOps env a) := by
  cases act with
  | lookup t id => exact .refl (by rw [Action.run, ReadOnly.read t id a])
  | reprocess => exact (KReach.bind (x := mapOps.all .knes) ⟨.refl rfl, rfl⟩ fun es c h hk => KReach.escrowEntries es c h hk).1
  | submit m =>
    cases m with
    | event e => exact .refl (WritesTbl.of (processEvent_kels env e) a .knas (by simp))
    | rctNt r => exact .refl (WritesTbl.of (witnessReceipt_writes env r) a .knas (by simp))
    | rctT r => exact .refl (WritesTbl.of (validatorReceipt_writes env r) a .knas (by simp))
    | query q => exact .refl rfl
    | reply r => exact ((KReach.refl rfl).reply r rfl).1

/-- the table after an acceptance -/
theorem acc_set (b : MapDb) (x y : Bytes) (l : List SignedReply) : (b.set .knas x (some l)).acc y = if y = x then l else b.acc y := by
  unfold MapDb.acc
  by_cases h : y = x
  · subst h; rw [if_pos rfl, MapDb.set_same]; rfl
  · rw [if_neg h, MapDb.set_other_id _ _ _ h]

theorem acc_congr {a b : MapDb} (h : a.tables .knas = b.tables .knas) (x : Bytes) : a.acc x = b.acc x := by
  unfold MapDb.acc; rw [h]

/-- what holds of the accepted replies of every reachable database -/
structure AccOk (x : Bytes) (l : List SignedReply) : Prop where
  distinct : (l.map (·.reply.route)).Nodup
  about : ∀ r ∈ l, r.pre.toStr = x
  route : ∀ r ∈ l, r.reply.route = .replyKsn r.signature.signer

theorem accept_ok {x : Bytes} {l d : List SignedReply} {r : SignedReply} (h : AccOk x l) (hd : Tbl.knas.decAll l = some d) (hx : r.pre.toStr = x)
    (hr : r.reply.route = .replyKsn r.signature.signer) : AccOk x (acceptInto d r) := by
  have hdd : AccOk x d := by
    refine ⟨by rw [decAll_routes hd]; exact h.distinct, fun w hw => ?_, fun w hw => ?_⟩
    · obtain ⟨v, hv, hw⟩ := decAll_mem hd w hw
      rw [(SignedReply.dec_same hw).2.2.2.2.2.1]; exact h.about v hv
    · obtain ⟨v, hv, hw⟩ := decAll_mem hd w hw
      rw [(SignedReply.dec_same hw).1, (SignedReply.dec_same hw).2.1]; exact h.route v hv
  unfold acceptInto
  refine ⟨?_, ?_, ?_⟩
  · rw [List.map_append, List.nodup_append]
    refine ⟨(List.filter_sublist.map _).nodup hdd.distinct, by simp, ?_⟩
    intro p hp q hq
    simp only [List.map_cons, List.map_nil, List.mem_singleton] at hq
    obtain ⟨w, hw, rfl⟩ := List.mem_map.1 hp
    rw [hq]
    exact of_decide_eq_true (List.mem_filter.1 hw).2
  · intro w hw
    rcases List.mem_append.1 hw with hw | hw
    · exact hdd.about w (List.mem_filter.1 hw).1
    · rw [List.mem_singleton.1 hw]; exact hx
  · intro w hw
    rcases List.mem_append.1 hw with hw | hw
    · exact hdd.route w (List.mem_filter.1 hw).1
    · rw [List.mem_singleton.1 hw]; exact hr

theorem KReach.acc {env : Env} {K} {a b : MapDb} (h : KReach env K a b) (hI : ∀ x, AccOk x (a.acc x)) (x : Bytes) : AccOk x (b.acc x) := by
  induction h generalizing x with
  | refl h => rw [acc_congr h]; exact hI x
  | @step b c r aid bytes o h hk ok hc ih =>
    rw [acc_congr hc, acc_set]
    split
    · rename_i hx
      subst hx
      exact accept_ok (ih _) (iterValues_decAll ok.stored) rfl (by rw [ok.route, ok.signer])
    · exact ih x

theorem after_acc (env : Env) (as : List Action) (x : Bytes) : AccOk x ((after env as).abs.acc x) := by
  rw [after_abs]
  refine snoc_induction (P := fun as => ∀ x, AccOk x ((runHistory mapOps env MapDb.empty as).acc x)) as ?_ ?_ x
  · intro x; exact ⟨by simp [runHistory, MapDb.acc, MapDb.empty], by simp [runHistory, MapDb.acc, MapDb.empty], by simp [runHistory, MapDb.acc, MapDb.empty]⟩
  · intro l a ih x
    rw [runHistory_append]
    exact (action_knas env a _).acc ih x

end Keriox
