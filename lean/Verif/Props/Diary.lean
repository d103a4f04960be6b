import Verif.Props.Wallet
import Verif.Props.Handshake

/-! C89: the log of a controller says what its calls said. -/

namespace Keriox

/-! ## Specification -/

/-- what a call of a controller should publish -/
inductive Told where
  /-- the new key and the commitment to the one after it -/
  | rotation (key next : BasicPrefix)
  /-- the digest of the payload, if there is one -/
  | interaction (payload : Option Bytes)

/-- the content of the event, given the digest of the event before: one key with threshold one, the Blake3-256 commitment to the next key with threshold
one, no change of witnesses, no seals; or the Blake3-256 digest of the payload -/
def Told.data (env : Env) (prev : SelfAddressingPrefix) : Told → EventData
  | .rotation k n => .rot ⟨prev, ⟨.simple 1, [k], some (KeyConfig.nxtCommitment env (.simple 1) [n] .blake3_256)⟩, 0, [], [], []⟩
  | .interaction none => .ixn ⟨prev, []⟩
  | .interaction (some p) => .ixn ⟨prev, [.digest (env.derive .blake3_256 p)]⟩

/-- what the calls should publish, one entry for each `rotate` and each `make_ixn`, with the key pair that should sign it -/
def entries (km : CryptoBox) : List Call → List (Told × KeyPair)
  | [] => []
  | .rotate :: cs => (.rotation km.rotate.key km.rotate.nextKey, km.rotate.signer) :: entries km.rotate cs
  | .ixn p :: cs => (.interaction p, km.signer) :: entries km cs
  | .interact _ :: cs => entries km cs
  | .other _ :: cs => entries km cs

/-- the events the calls return, in order -/
def returned (env : Env) (sg : SignFn) (x : Controller × Db) : List Call → List SignedEvent
  | [] => []
  | c :: cs => (match (c.run env sg x).1 with | some (.ok e) => [e] | _ => []) ++ returned env sg (c.run env sg x).2 cs

/-- the event is signed by this key pair, and by nothing else, over its serialization -/
def SignedBy (env : Env) (sg : SignFn) (kp : KeyPair) (e : SignedEvent) : Prop :=
  ∃ b s, e.msg.serialize env = .ok b ∧ sg kp.priv b = .ok s ∧ e.sigs = [⟨0, ⟨.ed25519Sha512, s⟩⟩] ∧ e.delegatorSeal = none

/-! ## Proof -/

/-- the key manager after the calls -/
def kmAfter (km : CryptoBox) : List Call → CryptoBox
  | [] => km
  | .rotate :: cs => kmAfter km.rotate cs
  | .ixn _ :: cs => kmAfter km cs
  | .interact _ :: cs => kmAfter km cs
  | .other _ :: cs => kmAfter km cs

theorem entries_append (km : CryptoBox) (cs ds : List Call) : entries km (cs ++ ds) = entries km cs ++ entries (kmAfter km cs) ds := by
  induction cs generalizing km with
  | nil => rfl
  | cons c cs ih => cases c <;> simp [entries, kmAfter, ih]

theorem kmAfter_append (km : CryptoBox) (cs ds : List Call) : kmAfter km (cs ++ ds) = kmAfter (kmAfter km cs) ds := by
  induction cs generalizing km with
  | nil => rfl
  | cons c cs ih => cases c <;> simp [kmAfter, ih]

theorem runCalls_cons (env : Env) (sg : SignFn) (x : Controller × Db) (c : Call) (cs : List Call) :
    runCalls env sg x (c :: cs) = runCalls env sg (c.run env sg x).2 cs := rfl

theorem returned_append (env : Env) (sg : SignFn) (x : Controller × Db) (cs ds : List Call) :
    returned env sg x (cs ++ ds) = returned env sg x cs ++ returned env sg (runCalls env sg x cs) ds := by
  induction cs generalizing x with
  | nil => rfl
  | cons c cs ih => simp only [List.cons_append, returned, ih, runCalls_cons, List.append_assoc]

theorem submitOwn_ok {σ : Type} {o : Ops σ} {env : Env} {r : Res SignedEvent} {s : σ} {e : SignedEvent} (h : (submitOwn o env r s).1 = .ok e) :
    r = .ok e ∧ ∃ st, (process o env (.event e) s).1 = .ok st := by
  cases r with
  | err x => cases h
  | panic => cases h
  | ok e' =>
    rw [submitOwn_run] at h
    rcases hp : process o env (.event e') s with ⟨r, d⟩
    rw [hp] at h
    cases r with
    | err x => cases h
    | panic => cases h
    | ok st => cases h; exact ⟨rfl, st, by rw [hp]⟩

theorem signEvent_by {env : Env} {sg : SignFn} {c : Controller} {m : EventMessage} {e : SignedEvent}
    (h : c.signEvent env sg m = .ok e) : e.msg = m ∧ SignedBy env sg c.km.signer e := by
  unfold Controller.signEvent at h
  simp only [Res.bind_eq_ok] at h
  obtain ⟨b, h1, s, h2, h3⟩ := h
  cases h3
  exact ⟨rfl, b, s, h1, h2, rfl, rfl⟩

/-- an own event returned from a controller in good order: the message made from the own state, appended to the log -/
theorem own_returned {env : Env} {sg : SignFn} {c : Controller} {as : List Action} {s : IdState}
    (R : c.Ready env sg ((after env as).kel c.pre) s) (c' : Controller) (hc : c'.pre = c.pre) (f : IdState → EventMessage)
    (hp : (f s).event.content.prefix = c.pre) {e : SignedEvent} {db : Db}
    (h : (c'.ownState sled env >>= fun s => submitOwn sled env (.ok (f s) >>= c'.signEvent env sg)) (after env as) = (.ok e, db)) :
    e.msg = f s ∧ SignedBy env sg c'.km.signer e ∧ db = after env (as ++ [.lookup .kels c.pre, .submit (.event e)]) ∧
    db.kel c.pre = (after env as).kel c.pre ++ [e] := by
  have ho := ownState_ready (c := c') (as := as) (s := s) (by rw [hc]; exact R.preNe) (by rw [hc]; exact R.log) (by rw [hc]; exact R.readable)
    (by rw [hc]; exact R.nonempty)
  rw [StM.bind_run, ho] at h
  simp only [Res.ok_bind] at h
  rw [hc] at h
  have h1 : (submitOwn sled env (c'.signEvent env sg (f s)) (after env (as ++ [.lookup .kels c.pre]))).1 = .ok e := by rw [h]
  obtain ⟨g1, st, g2⟩ := submitOwn_ok h1
  obtain ⟨g3, g4⟩ := signEvent_by g1
  have hpre : e.pre = c.pre := by show e.msg.event.content.prefix = _; rw [g3, hp]
  obtain ⟨_, _, _, _, _, _, _, _, _, _, hk⟩ := accepted_inv env _ e (by rw [hpre]; exact R.preNe) st g2
  have hdb : db = after env (as ++ [.lookup .kels c.pre, .submit (.event e)]) := by
    have : (submitOwn sled env (c'.signEvent env sg (f s)) (after env (as ++ [.lookup .kels c.pre]))).2 = db := by rw [h]
    rw [← this, g1, submitOwn_run]
    rcases hq : process sled env (.event e) (after env (as ++ [.lookup .kels c.pre])) with ⟨r, d⟩
    rw [hq] at g2
    cases g2
    rw [show as ++ [Action.lookup .kels c.pre, .submit (.event e)] = (as ++ [.lookup .kels c.pre]) ++ [.submit (.event e)] by simp, after_snoc, hq]
  refine ⟨g3, g4, hdb, ?_⟩
  rw [hpre, after_lookup_kel] at hk
  obtain ⟨b, sg', _, _, _, hs⟩ := g4
  have hst : e.stored = e := by
    unfold SignedEvent.stored
    cases e
    simp only at hs
    subst hs
    rfl
  rw [hst] at hk
  rw [hdb, show as ++ [Action.lookup .kels c.pre, .submit (.event e)] = (as ++ [.lookup .kels c.pre]) ++ [.submit (.event e)] by simp, hk]

theorem ready_rotate_says {env : Env} {sg : SignFn} {c : Controller} {as : List Action} {s : IdState} (hb : env.Blake3Size)
    (R : c.Ready env sg ((after env as).kel c.pre) s) (hn : s.sn + 1 ≤ u64max) :
    ∃ e as', c.rotate env sg (after env as) = (.ok e, { c with km := c.km.rotate }, after env as') ∧
      (∃ new, ({ c with km := c.km.rotate } : Controller).Ready env sg ((after env as').kel c.pre) new ∧ new.sn = s.sn + 1 ∧
        new.current = c.km.rotate.config env [] ∧ new.tally = 0 ∧ new.witnesses = s.witnesses) ∧
      (after env as').kel c.pre = (after env as).kel c.pre ++ [e] ∧
      e.msg.event.content = ⟨c.pre, s.sn + 1, (Told.rotation c.km.rotate.key c.km.rotate.nextKey).data env s.lastDigest⟩ ∧
      SignedBy env sg c.km.rotate.signer e := by
  obtain ⟨e, new, h1, h2, h3⟩ := R.rotate hb hn
  have hrun := h1
  unfold Controller.rotate Controller.submitRotation at hrun
  simp only [Prod.mk.injEq] at hrun
  obtain ⟨g1, -, g2⟩ := hrun
  obtain ⟨i1, i2, i3, i4⟩ := own_returned R { c with km := c.km.rotate } rfl
    (fun s => saidJson env ⟨c.pre, s.sn + 1, .rot ⟨s.lastDigest, c.km.rotate.config env [], 0, [], [], []⟩⟩) rfl (e := e)
    (db := after env (as ++ [.lookup .kels c.pre, .submit (.event e)]))
    (by
      rw [show (fun s => submitOwn sled env (.ok (saidJson env ⟨c.pre, s.sn + 1, .rot ⟨s.lastDigest, c.km.rotate.config env [], 0, [], [], []⟩⟩) >>=
          ({ c with km := c.km.rotate } : Controller).signEvent env sg)) =
        (fun s => submitOwn sled env (({ c with km := c.km.rotate } : Controller).rotationMsg env s >>=
          ({ c with km := c.km.rotate } : Controller).signEvent env sg)) from funext fun s => by
          rw [rotationMsg_eq env { c with km := c.km.rotate } R.notDefault]]
      exact Prod.ext g1 g2)
  have hcont : e.msg.event.content = ⟨c.pre, s.sn + 1, .rot ⟨s.lastDigest, c.km.rotate.config env [], 0, [], [], []⟩⟩ := by rw [i1]; rfl
  refine ⟨e, _, h1, ⟨new, h2, h3, ?_⟩, i4, hcont, i2⟩
  have hl := h2.log
  change Log env c.pre.toStr _ new at hl
  rw [i4] at hl
  have := hl
  obtain ⟨s', hl', ha⟩ : ∃ s', Log env c.pre.toStr ((after env as).kel c.pre) s' ∧ e.msg.applyTo env s' = .ok new := by
    generalize hx : (after env as).kel c.pre ++ [e] = x at hl
    cases hl with
    | nil => simp at hx
    | snoc a b c' d =>
      obtain ⟨j1, j2⟩ := List.append_inj' hx rfl
      cases j2
      subst j1
      exact ⟨_, a, d⟩
  have := hl'.unique R.log
  subst this
  have A := applyTo_ok ha
  have hdat : e.data = .rot ⟨s'.lastDigest, c.km.rotate.config env [], 0, [], [], []⟩ := by
    show e.msg.event.content.data = _; rw [hcont]
  refine ⟨?_, ?_, ?_⟩
  · rw [A.keys, hdat]; rfl
  · rw [A.tally, hdat]
  · rw [A.witnesses, hdat]
    simp [rotateWitnesses]

theorem ready_ixn_says {env : Env} {sg : SignFn} {c : Controller} {as : List Action} {s : IdState} (hb : env.Blake3Size)
    (R : c.Ready env sg ((after env as).kel c.pre) s) (hn : s.sn + 1 ≤ u64max) (p : Option Bytes) :
    ∃ e as', c.makeIxn sled env sg p (after env as) = (.ok e, after env as') ∧
      (∃ new, c.Ready env sg ((after env as').kel c.pre) new ∧ new.sn = s.sn + 1) ∧
      (after env as').kel c.pre = (after env as).kel c.pre ++ [e] ∧
      e.msg.event.content = ⟨c.pre, s.sn + 1, (Told.interaction p).data env s.lastDigest⟩ ∧
      SignedBy env sg c.km.signer e := by
  obtain ⟨e, new, h1, h2, h3⟩ := R.ixn hb hn p
  have hrun := h1
  unfold Controller.makeIxn at hrun
  obtain ⟨i1, i2, i3, i4⟩ := own_returned R c rfl
    (fun s => saidJson env ⟨c.pre, s.sn + 1, .ixn ⟨s.lastDigest, ixnSeals env p⟩⟩) rfl (e := e)
    (db := after env (as ++ [.lookup .kels c.pre, .submit (.event e)]))
    (by
      rw [show (fun s => submitOwn sled env (.ok (saidJson env ⟨c.pre, s.sn + 1, .ixn ⟨s.lastDigest, ixnSeals env p⟩⟩) >>= c.signEvent env sg)) =
        (fun s => submitOwn sled env (c.ixnMsg env p s >>= c.signEvent env sg)) from funext fun s => by rw [ixnMsg_eq env c R.notDefault]]
      exact hrun)
  refine ⟨e, _, h1, ⟨new, h2, h3⟩, i4, ?_, i2⟩
  rw [i1]
  cases p <;> rfl

/-- the log after the inception `e` and the calls is what the calls returned, and says what they should publish -/
structure Kept (env : Env) (sg : SignFn) (km : CryptoBox) (pre : IdentifierPrefix) (e : SignedEvent) (cs : List Call) (out log : List SignedEvent) : Prop where
  whole : log = e :: out
  length : out.length = (entries km cs).length
  says : ∀ i x kp, (entries km cs)[i]? = some (x, kp) → ∃ before ev, log[i]? = some before ∧ log[i + 1]? = some ev ∧
    ev.msg.event.content = ⟨pre, i + 1, x.data env before.dig⟩ ∧ SignedBy env sg kp ev

theorem Kept.snoc {env : Env} {sg : SignFn} {km : CryptoBox} {pre : IdentifierPrefix} {e : SignedEvent} {cs : List Call} {out log : List SignedEvent}
    (h : Kept env sg km pre e cs out log) {call : Call} {x : Told} {kp : KeyPair} (hx : entries (kmAfter km cs) [call] = [(x, kp)]) {s : IdState}
    (hs : s.sn + 1 = log.length) (hd : ∀ l, log.getLast? = some l → s.lastDigest = l.dig) {ev : SignedEvent}
    (hc : ev.msg.event.content = ⟨pre, s.sn + 1, x.data env s.lastDigest⟩) (hsig : SignedBy env sg kp ev) :
    Kept env sg km pre e (cs ++ [call]) (out ++ [ev]) (log ++ [ev]) := by
  have hlen : log.length = (entries km cs).length + 1 := by rw [h.whole, List.length_cons, h.length]
  refine ⟨by rw [h.whole]; rfl, by rw [entries_append, hx]; simp [h.length], fun i y kq hy => ?_⟩
  rw [entries_append, hx] at hy
  by_cases hi : i < (entries km cs).length
  · rw [List.getElem?_append_left hi] at hy
    obtain ⟨b, ev', h1, h2, h3, h4⟩ := h.says i y kq hy
    refine ⟨b, ev', ?_, ?_, h3, h4⟩
    · rw [List.getElem?_append_left (by omega)]; exact h1
    · rw [List.getElem?_append_left (by omega)]; exact h2
  · have hi : i = (entries km cs).length := by
      have := (List.getElem?_eq_some_iff.1 hy).1
      simp at this
      omega
    subst hi
    rw [List.getElem?_append_right (Nat.le_refl _), Nat.sub_self] at hy
    cases hy
    have hl : log.getLast? = log[(entries km cs).length]? := by rw [List.getLast?_eq_getElem?, hlen]; rfl
    have hlt : (entries km cs).length < log.length := by omega
    refine ⟨log[(entries km cs).length], ev, ?_, ?_, ?_, hsig⟩
    · rw [List.getElem?_append_left hlt]; exact List.getElem?_eq_getElem hlt
    · rw [← hlen, List.getElem?_append_right (Nat.le_refl _), Nat.sub_self]; rfl
    · rw [← hd log[(entries km cs).length] (by rw [hl]; exact List.getElem?_eq_getElem hlt), hc]
      have : s.sn = (entries km cs).length := by omega
      rw [this]

theorem kept_calls {env : Env} {sg : SignFn} {c : Controller} {as : List Action} {s : IdState} {e : SignedEvent} (hb : env.Blake3Size)
    (R : c.Ready env sg ((after env as).kel c.pre) s) (he : (after env as).kel c.pre = [e]) (cs : List Call)
    (hi : ∀ p, .interact p ∉ cs) (ho : ∀ a, .other a ∈ cs → ¬ a.submitsFor c.pre) (hn : cs.countP Call.own ≤ u64max) :
    ∃ c' as' s', runCalls env sg (c, after env as) cs = (c', after env as') ∧ c'.pre = c.pre ∧ c'.km = kmAfter c.km cs ∧
      c'.Ready env sg ((after env as').kel c'.pre) s' ∧ s'.sn = cs.countP Call.own ∧
      Kept env sg c.km c.pre e cs (returned env sg (c, after env as) cs) ((after env as').kel c.pre) := by
  induction cs using snoc_induction with
  | h0 =>
    have h0 : s.sn = 0 := by
      have := ((R.log.facts R.preNe).2.1 R.nonempty).2.2.1
      rw [he] at this
      simpa using this
    exact ⟨c, as, s, rfl, rfl, rfl, R, h0, he, rfl, fun i x kp h => (by cases h)⟩
  | h1 cs call ih =>
    rw [List.countP_append] at hn
    obtain ⟨c', as', s', h1, h2, h3, h4, h5, h6⟩ := ih (fun p hp => hi p (by simp [hp])) (fun a ha => ho a (by simp [ha])) (by omega)
    have hf := (h4.log.facts h4.preNe).2.1 h4.nonempty
    rw [h2] at hf
    have hret : ∀ r, call.run env sg (c', after env as') = r → ∀ ev, r.1 = some (.ok ev) →
        returned env sg (c, after env as) (cs ++ [call]) = returned env sg (c, after env as) cs ++ [ev] := by
      intro r hr ev hev
      rw [returned_append, h1]
      unfold returned
      rw [hr, hev]
      rfl
    have hrun : runCalls env sg (c, after env as) (cs ++ [call]) = (call.run env sg (c', after env as')).2 := by rw [runCalls_snoc, h1]
    rw [hrun, List.countP_append, kmAfter_append]
    cases call with
    | rotate =>
      have hc1 : [Call.rotate].countP Call.own = 1 := rfl
      obtain ⟨ev, bs, g1, ⟨new, g2, g3, _⟩, g4, g5, g6⟩ := ready_rotate_says hb h4 (by rw [h5]; omega)
      have hr : Call.rotate.run env sg (c', after env as') = (some (.ok ev), { c' with km := c'.km.rotate }, after env bs) := by
        simp only [Call.run, g1]
      rw [hr, hret _ hr ev rfl]
      rw [h2] at g4 g5
      refine ⟨_, bs, new, rfl, h2, by rw [← h3]; rfl, g2, by rw [g3, h5]; rfl, ?_⟩
      rw [g4]
      exact h6.snoc (x := .rotation c'.km.rotate.key c'.km.rotate.nextKey) (kp := c'.km.rotate.signer) (by rw [← h3]; rfl) hf.2.2.1
        (fun l hl => (hf.2.2.2 l hl).1) g5 g6
    | ixn p =>
      have hc1 : [Call.ixn p].countP Call.own = 1 := rfl
      obtain ⟨ev, bs, g1, ⟨new, g2, g3⟩, g4, g5, g6⟩ := ready_ixn_says hb h4 (by rw [h5]; omega) p
      have hr : (Call.ixn p).run env sg (c', after env as') = (some (.ok ev), c', after env bs) := by
        simp only [Call.run, g1]
      rw [hr, hret _ hr ev rfl]
      rw [h2] at g4 g5
      refine ⟨c', bs, new, rfl, h2, by rw [← h3]; rfl, g2, by rw [g3, h5]; rfl, ?_⟩
      rw [g4]
      exact h6.snoc (x := .interaction p) (kp := c'.km.signer) (by rw [← h3]; rfl) hf.2.2.1
        (fun l hl => (hf.2.2.2 l hl).1) g5 g6
    | interact p => exact absurd (by simp) (hi p)
    | other a =>
      have hk := other_kel env as' a c.pre (by rw [← h2]; exact h4.preNe) (ho a (by simp))
      have hret : returned env sg (c, after env as) (cs ++ [.other a]) = returned env sg (c, after env as) cs := by
        rw [returned_append]
        simp [returned, Call.run]
      refine ⟨c', as' ++ [a], s', by simp only [Call.run, after_other], h2, by rw [h3]; rfl, ?_, by rw [h5]; rfl, ?_⟩
      · rw [h2, hk, ← h2]; exact h4
      · rw [hk, hret]
        refine ⟨h6.whole, ?_, ?_⟩
        · rw [entries_append, h6.length]; simp [entries]
        · rw [entries_append]
          simpa [entries] using h6.says

/-- C89: after an inception and any calls, the log of the controller's identifier is the inception event followed by the events its calls returned, in
order, one for each `rotate` and each `make_ixn`; the inception announces the key manager's key, the extra keys, the commitment to the next key and the
witnesses; each later event carries the next sequence number, the digest of the event before and exactly what the call was to publish, and is signed by
the key pair that was current. -/
theorem C89_diary (env : Env) (hb : env.Blake3Size) (sg : SignFn) (km : CryptoBox) (hw : km.Works env sg)
    (rnd : BasicPrefix × BasicPrefix) (as : List Action) (extra ws : List BasicPrefix) (e : SignedEvent) (c : Controller) (db : Db)
    (h : (Controller.new km rnd).inceptWith env sg extra ws (after env as) = (.ok e, c, db)) (hrt : e.rt = true) (cs : List Call)
    (hi : ∀ p, .interact p ∉ cs) (ho : ∀ a, .other a ∈ cs → ¬ a.submitsFor c.pre) (hn : cs.countP Call.own ≤ u64max) :
    let log := (runCalls env sg (c, db) cs).2.kel c.pre
    log = e :: returned env sg (c, db) cs ∧
    (e.msg.event.content = ⟨c.pre, 0, .icp ⟨⟨.simple 1, km.key :: extra,
      some (KeyConfig.nxtCommitment env (.simple 1) [km.nextKey] .blake3_256)⟩, 0, ws, [], []⟩⟩ ∧ SignedBy env sg km.signer e) ∧
    (returned env sg (c, db) cs).length = (entries km cs).length ∧
    ∀ i x kp, (entries km cs)[i]? = some (x, kp) → ∃ before ev, log[i]? = some before ∧ log[i + 1]? = some ev ∧
      ev.msg.event.content = ⟨c.pre, i + 1, x.data env before.dig⟩ ∧ SignedBy env sg kp ev := by
  obtain ⟨hdb, hpre, hkm, s, R, hs⟩ := incept_ready hb hw h hrt
  obtain ⟨_, _, _, hdat, hsn, _⟩ := inceptionMsg_facts env hb sg km hw extra ws
  have h1 : (submitOwn sled env ((Controller.new km rnd).makeInception env extra ws >>= (Controller.new km rnd).signEvent env sg) (after env as)).1 = .ok e := by
    have := congrArg Prod.fst h
    exact this
  rw [makeInception_eq] at h1
  obtain ⟨g1, st, g2⟩ := submitOwn_ok h1
  obtain ⟨g3, g4⟩ := signEvent_by g1
  subst hdb
  have hne : e.pre.toStr ≠ [] := by rw [← hpre]; exact R.preNe
  obtain ⟨_, _, _, _, _, _, _, _, _, _, hk⟩ := accepted_inv env as e hne st g2
  have hst : e.stored = e := by
    obtain ⟨b, sg', _, _, _, hs⟩ := g4
    unfold SignedEvent.stored
    cases e
    simp only at hs
    subst hs
    rfl
  have hone : (after env (as ++ [.submit (.event e)])).kel c.pre = [e] := by
    have hl := ((R.log.facts R.preNe).2.1 R.nonempty).2.2.1
    rw [hpre, hk, hst] at hl
    rw [hpre, hk, hst]
    rw [hs, List.length_append] at hl
    have : ((after env as).kel e.pre) = [] := List.eq_nil_of_length_eq_zero (by simpa using hl)
    rw [this]; rfl
  obtain ⟨c', as', s', k1, k2, k3, k4, k5, k6⟩ := kept_calls hb R hone cs hi ho hn
  rw [hkm] at k6
  intro log
  have hlog : log = (after env as').kel c.pre := by show (runCalls env sg _ cs).2.kel c.pre = _; rw [k1]
  refine ⟨hlog.trans k6.whole, ⟨?_, g4⟩, k6.length, fun i x kp hx => ?_⟩
  · rw [g3]
    have : (inceptionMsg env km extra ws).event.content.prefix = c.pre := by rw [hpre, ← g3]
    rw [← this]
    generalize (inceptionMsg env km extra ws).event.content = cc at *
    obtain ⟨p, n, d⟩ := cc
    simp only at hdat hsn
    subst hdat hsn
    rfl
  · rw [hlog]
    exact k6.says i x kp hx

/-- C89, a consequence users should know: the keys and the threshold given at inception do not outlive the first `rotate`. After it the identifier is
controlled by the key manager's new key alone, with threshold one; extra keys given to `incept_with_extra_keys` have no say any more, and the witnesses
stay with witness threshold zero. -/
theorem C89_rotation_alone (env : Env) (hb : env.Blake3Size) (sg : SignFn) (c : Controller) (db : Db) (h : Started env sg c db) (s : IdState)
    (hs : (computeState sled env c.pre db).1 = .ok (some s)) (hn : s.sn < u64max) :
    ∃ e new, (c.rotate env sg db).1 = .ok e ∧ (computeState sled env c.pre (c.rotate env sg db).2.2).1 = .ok (some new) ∧
      new.current.publicKeys = [c.km.nextKey] ∧ new.current.threshold = .simple 1 ∧ new.tally = 0 ∧ new.witnesses = s.witnesses := by
  obtain ⟨as, s', rfl, R⟩ := started_ready hb h
  obtain ⟨s2, hl, hc⟩ := computeState_log env as c.pre R.preNe R.nonempty R.readable
  have := hl.unique R.log
  subst this
  rw [hc] at hs
  cases hs
  obtain ⟨e, bs, g1, ⟨new, g2, g3, g4, g5, g6⟩, g7, _⟩ := ready_rotate_says hb R (by omega)
  obtain ⟨s3, hl3, hc3⟩ := computeState_log env bs c.pre R.preNe g2.nonempty g2.readable
  have := hl3.unique g2.log
  subst this
  refine ⟨e, s3, by rw [g1], by rw [g1]; exact hc3, ?_, ?_, g5, g6⟩
  · rw [g4]; rfl
  · rw [g4]; rfl

open Ex in
/-- the hypotheses of C89_rotation_alone are met by a controller with an extra key, and the extra key is a key of its identifier before the rotation -/
example : Started env sg dave.1 dave.2 ∧ ∃ s, (computeState sled env dave.1.pre dave.2).1 = .ok (some s) ∧ s.sn < u64max ∧
    s.current.publicKeys = [dave.1.km.key, key 50] := by
  refine ⟨dave_started, ?_⟩
  have : (match (computeState sled env dave.1.pre dave.2).1 with
    | .ok (some s) => decide (s.sn < u64max ∧ s.current.publicKeys = [dave.1.km.key, key 50]) | _ => false) = true := by decide +kernel
  split at this
  · rename_i s h
    exact ⟨s, h, of_decide_eq_true this⟩
  · cases this

/-- what the calls of the example should publish; that they meet the hypotheses of C89 is shown at C51 -/
example : (entries Ex.km Ex.ctlCalls).map (fun x => match x.1 with | .rotation k n => (some (k, n), none) | .interaction p => (none, some p)) =
    [(some (Ex.km.rotate.key, Ex.km.rotate.nextKey), none), (none, some (some b!"hello")),
     (some (Ex.km.rotate.rotate.key, Ex.km.rotate.rotate.nextKey), none), (none, some none)] := rfl

end Keriox
