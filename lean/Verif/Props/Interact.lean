import Verif.Props.Controller
/-!
# C52: what `interact` does to its controller
-/
namespace Keriox

theorem interact_sim (env : Env) (sg : SignFn) (c : Controller) (peer : IdentifierPrefix) :
    Sim (c.interact sled env sg peer) (c.interact mapOps env sg peer) := by
  unfold Controller.interact Controller.nextSn getKel
  refine Sim.bind (Sim.bind (sled_sim.read _ _) fun r => ?_) fun sn => ?_
  · cases r with
    | none => exact Sim.lift _
    | some l =>
      cases hg : l.getLast? with
      | none => simp only [hg]; exact Sim.lift _
      | some e => simp only [hg]; exact Sim.pure _
  · refine Sim.bind (Sim.lift _) fun e => ?_
    refine Sim.bind (sled_sim.push _ _ _) fun _ => Sim.pure _

/-- every call but `interact` only submits messages and queries tables -/
theorem submitOwn_history (env : Env) (r : Res SignedEvent) (db : Db) : ∃ bs, (submitOwn sled env r db).2 = runHistory sled env db bs := by
  cases r with
  | err e => exact ⟨[], rfl⟩
  | panic => exact ⟨[], rfl⟩
  | ok e =>
    refine ⟨[.submit (.event e)], ?_⟩
    rw [submitOwn_run]
    show _ = (process sled env (.event e) db).2
    rcases process sled env (.event e) db with ⟨r, d⟩
    cases r <;> rfl

theorem ownState_history (env : Env) (c : Controller) (f : IdState → StM Db SignedEvent)
    (hf : ∀ s db, ∃ bs, (f s db).2 = runHistory sled env db bs) (db : Db) :
    ∃ bs, ((c.ownState sled env >>= f) db).2 = runHistory sled env db bs := by
  have hdb := computeState_db env c.pre db
  unfold Controller.ownState
  rw [StM.bind_run, StM.bind_run]
  rcases hc : computeState sled env c.pre db with ⟨r, d⟩
  rw [hc] at hdb
  simp only at hdb
  have hd : d = runHistory sled env db [.lookup .kels c.pre] := hdb
  cases r with
  | err e => exact ⟨_, hd⟩
  | panic => exact ⟨_, hd⟩
  | ok o =>
    cases o with
    | none => exact ⟨_, hd⟩
    | some s =>
      obtain ⟨bs, hbs⟩ := hf s d
      refine ⟨.lookup .kels c.pre :: bs, ?_⟩
      show (f s d).2 = _
      rw [hbs, hd]; rfl

/-- the database has an unchained event in the log of `id` -/
def Db.FrozenAt (env : Env) (db : Db) (id : IdentifierPrefix) (s : IdState) : Prop := db.Inv ∧ Frozen env id.toStr s (db.abs.log id.toStr)

theorem FrozenAt.history {env : Env} {db : Db} {id : IdentifierPrefix} {s : IdState} (hid : id.toStr ≠ []) (h : db.FrozenAt env id s)
    (bs : List Action) : (runHistory sled env db bs).FrozenAt env id s := by
  obtain ⟨h1, h2⟩ := history_sim sled_sim env bs db h.1
  refine ⟨h1, ?_⟩
  rw [h2]
  have := h.2
  generalize db.abs = a at this
  clear h1 h2 h
  induction bs generalizing a with
  | nil => exact this
  | cons b bs ih => exact ih _ (this.action hid b)

theorem FrozenAt.state {env : Env} {db : Db} {id : IdentifierPrefix} {s : IdState} (hid : id.toStr ≠ []) (h : db.FrozenAt env id s) :
    (computeState sled env id db).1 = if (db.kel id).all SignedEvent.rt then .ok (some s) else .panic := by
  rw [(computeState_sim sled_sim env id db h.1).1, h.2.compute hid]
  rfl

/-- `interact` on a readable, non-empty log -/
theorem interact_run {env : Env} {sg : SignFn} {c : Controller} {a : MapDb} {l : List SignedEvent} {last : SignedEvent}
    (hl : a.tables .kels c.pre.toStr = some l) (hr : l.all SignedEvent.rt = true) (hlast : l.getLast? = some last) (peer : IdentifierPrefix) :
    c.interact mapOps env sg peer a = match c.interactEvent env sg (last.sn + 1) peer with
      | .ok e => (.ok e, ((a.touch c.pre.toStr).touch c.pre.toStr).set .kels c.pre.toStr (some (l ++ [e.stored])))
      | .err x => (.err x, a.touch c.pre.toStr)
      | .panic => (.panic, a.touch c.pre.toStr) := by
  have hread : getKel mapOps c.pre a = (.ok (some l), a.touch c.pre.toStr) := by
    simp only [getKel, mapOps, hl]
    rw [show Tbl.kels.iterValues (some l) = .ok (some l) by rw [iterValues_kels]; simp [hr]]
  have hsn : c.nextSn mapOps a = (.ok (last.sn + 1), a.touch c.pre.toStr) := by
    unfold Controller.nextSn
    refine StM.bind_ok hread ?_
    simp only [hlast]
    rfl
  unfold Controller.interact
  cases he : c.interactEvent env sg (last.sn + 1) peer with
  | err x => exact StM.bind_ok hsn (by rw [he]; rfl)
  | panic => exact StM.bind_ok hsn (by rw [he]; rfl)
  | ok e =>
    refine StM.bind_ok hsn (by
      rw [he]
      show (addKel mapOps e c.pre >>= fun _ => pure e) (a.touch c.pre.toStr) = _
      have : addKel mapOps e c.pre (a.touch c.pre.toStr) =
          (.ok (), ((a.touch c.pre.toStr).touch c.pre.toStr).set .kels c.pre.toStr (some (l ++ [e.stored]))) := by
        simp only [addKel, mapOps, MapDb.touch_tables, hl]
        rw [pushed_kels]
        simp only [hr, if_true]
      exact StM.bind_ok this rfl)

theorem interactEvent_inv {env : Env} {sg : SignFn} {c : Controller} {sn : Nat} {peer : IdentifierPrefix} {e : SignedEvent}
    (h : c.interactEvent env sg sn peer = .ok e) :
    ∃ p, peer = .selfAddressing p ∧ e.msg.event.content = ⟨c.pre, sn, .ixn ⟨p, [.digest p]⟩⟩ := by
  unfold Controller.interactEvent at h
  cases peer with
  | basic _ => cases h
  | selfSigning _ => cases h
  | selfAddressing p =>
    refine ⟨p, rfl, ?_⟩
    simp only [Res.bind_eq_ok] at h
    obtain ⟨m, hm, b, _, s, _, h⟩ := h
    simp only [Res.ok.injEq] at h
    subst h
    have : Event.toMessage env ⟨c.pre, sn, .ixn ⟨p, [.digest p]⟩⟩ .json .blake3_256 = .ok (saidJson env ⟨c.pre, sn, .ixn ⟨p, [.digest p]⟩⟩) := by
      unfold Event.toMessage
      cases c.pre <;> exact saidMessage_json env _
    rw [this] at hm
    simp only [Res.ok.injEq] at hm
    subst hm
    rfl

theorem unchained_fails {env : Env} {s : IdState} {m : EventMessage} {p : SelfAddressingPrefix} {sl : List Seal} {sn : Nat}
    (hm : m.event.content = ⟨s.prefix, sn, .ixn ⟨p, sl⟩⟩) (hsn : sn = s.sn + 1) (hp : p ≠ s.lastDigest) :
    m.applyTo env s = .err (.semantic "Last event does not match previous event") := by
  unfold EventMessage.applyTo
  rw [hm]
  simp only [checkEventDigest_self, Res.ok_bind]
  unfold Event.applyTo EventData.applyTo chain
  simp only [hsn, ne_eq, not_true, if_false, Nat.lt_irrefl, Res.ok_bind, hp]

theorem FrozenAt.interact {env : Env} {sg : SignFn} {c : Controller} {db : Db} {s : IdState} (h : db.FrozenAt env c.pre s)
    (peer : IdentifierPrefix) : (c.interact sled env sg peer db).2.FrozenAt env c.pre s := by
  obtain ⟨_, h2, h3⟩ := interact_sim env sg c peer db h.1
  refine ⟨h3, ?_⟩
  rw [h2]
  have hf := h.2
  have htab := hf.table
  obtain ⟨l, bad, rest, hlog, hl, hne, hsn, hbad, hrest⟩ := hf.ex
  have htouch : Frozen env c.pre.toStr s ((db.abs.touch c.pre.toStr).log c.pre.toStr) := by
    rw [MapDb.log_congr (MapDb.touch_tables _ _)]; exact hf
  by_cases hr : (db.abs.log c.pre.toStr).all SignedEvent.rt = true
  · obtain ⟨last, hlast⟩ : ∃ last, (db.abs.log c.pre.toStr).getLast? = some last := by
      cases hx : (db.abs.log c.pre.toStr).getLast? with
      | none => rw [List.getLast?_eq_none_iff] at hx; exact absurd hx hf.nonempty
      | some y => exact ⟨y, rfl⟩
    have hls : s.sn + 1 ≤ last.sn := by
      have : last ∈ bad :: rest := by
        rw [hlog, List.getLast?_append] at hlast
        cases hg : (bad :: rest).getLast? with
        | none => rw [List.getLast?_eq_none_iff] at hg; cases hg
        | some y =>
          rw [hg] at hlast
          simp only [Option.some_or, Option.some.injEq] at hlast
          subst hlast
          exact List.mem_of_getLast? hg
      rcases List.mem_cons.1 this with rfl | hm
      · omega
      · exact hrest _ hm
    rw [interact_run htab hr hlast]
    cases he : c.interactEvent env sg (last.sn + 1) peer with
    | err x => exact htouch
    | panic => exact htouch
    | ok e =>
      have hlog' : (((db.abs.touch c.pre.toStr).touch c.pre.toStr).set .kels c.pre.toStr (some (db.abs.log c.pre.toStr ++ [e.stored]))).log
          c.pre.toStr = db.abs.log c.pre.toStr ++ [e.stored] := by
        conv => lhs; unfold MapDb.log
        rw [MapDb.set_same]; rfl
      show Frozen env _ s (MapDb.log _ _)
      rw [hlog']
      obtain ⟨p, _, hc⟩ := interactEvent_inv he
      refine hf.append ?_
      show _ ≤ e.msg.event.content.sn
      rw [hc]; show _ ≤ last.sn + 1; omega
  · have hread : getKel mapOps c.pre db.abs = (.panic, db.abs.touch c.pre.toStr) := by
      simp only [getKel, mapOps, htab]
      rw [show Tbl.kels.iterValues (some (db.abs.log c.pre.toStr)) = .panic by rw [iterValues_kels]; simp [hr]]
    have : c.interact mapOps env sg peer db.abs = (.panic, db.abs.touch c.pre.toStr) := StM.bind_panic (StM.bind_panic hread)
    rw [this]; exact htouch

theorem FrozenAt.calls {env : Env} {sg : SignFn} {c : Controller} {db : Db} {s : IdState} (hid : c.pre.toStr ≠ []) (h : db.FrozenAt env c.pre s)
    (cs : List Call) : (runCalls env sg (c, db) cs).1.pre = c.pre ∧ (runCalls env sg (c, db) cs).2.FrozenAt env c.pre s := by
  induction cs using snoc_induction with
  | h0 => exact ⟨rfl, h⟩
  | h1 cs call ih =>
    obtain ⟨i1, i2⟩ := ih
    rw [runCalls_snoc]
    generalize runCalls env sg (c, db) cs = x at *
    obtain ⟨c', db'⟩ := x
    simp only at i1 i2
    cases call with
    | rotate =>
      refine ⟨i1, ?_⟩
      obtain ⟨bs, hbs⟩ := ownState_history env { c' with km := c'.km.rotate } _
        (fun s d => submitOwn_history env (Controller.rotationMsg env { c' with km := c'.km.rotate } s >>=
          Controller.signEvent env sg { c' with km := c'.km.rotate }) d) db'
      show Db.FrozenAt env (Controller.submitRotation sled env sg { c' with km := c'.km.rotate } db').2 c.pre s
      unfold Controller.submitRotation
      rw [hbs]; exact FrozenAt.history hid i2 bs
    | ixn p =>
      refine ⟨i1, ?_⟩
      obtain ⟨bs, hbs⟩ := ownState_history env c' _
        (fun s d => submitOwn_history env (Controller.ixnMsg env c' p s >>= Controller.signEvent env sg c') d) db'
      show Db.FrozenAt env (Controller.makeIxn sled env sg c' p db').2 c.pre s
      unfold Controller.makeIxn
      rw [hbs]; exact FrozenAt.history hid i2 bs
    | interact p =>
      refine ⟨i1, ?_⟩
      show Db.FrozenAt env (Controller.interact sled env sg c' p db').2 c.pre s
      rw [← i1] at i2 ⊢
      exact FrozenAt.interact i2 p
    | other a => exact ⟨i1, FrozenAt.history hid i2 [a]⟩

/-- `interact` on a reachable database freezes the log of the controller -/
theorem interact_freezes {env : Env} {sg : SignFn} {c : Controller} {as : List Action} {s : IdState} (hid : c.pre.toStr ≠ [])
    (hne : (after env as).kel c.pre ≠ []) (hl : Log env c.pre.toStr ((after env as).kel c.pre) s) (hpre : s.prefix = c.pre)
    {p : SelfAddressingPrefix} (hp : p ≠ s.lastDigest) {e : SignedEvent}
    (h : (c.interact sled env sg (.selfAddressing p) (after env as)).1 = .ok e) :
    (c.interact sled env sg (.selfAddressing p) (after env as)).2.FrozenAt env c.pre s ∧
    (c.interact sled env sg (.selfAddressing p) (after env as)).2.kel c.pre = (after env as).kel c.pre ++ [e.stored] := by
  obtain ⟨h1, h2, h3⟩ := interact_sim env sg c (.selfAddressing p) (after env as) (after_inv env as)
  have htab : (after env as).abs.tables .kels c.pre.toStr = some ((after env as).kel c.pre) := vec_of_kel hne
  rw [h] at h1
  have hr : ((after env as).kel c.pre).all SignedEvent.rt = true := by
    by_cases hr : ((after env as).kel c.pre).all SignedEvent.rt = true
    · exact hr
    · exfalso
      have hread : getKel mapOps c.pre (after env as).abs = (.panic, (after env as).abs.touch c.pre.toStr) := by
        simp only [getKel, mapOps, htab]
        rw [show Tbl.kels.iterValues (some ((after env as).kel c.pre)) = .panic by rw [iterValues_kels]; simp [hr]]
      have : c.interact mapOps env sg (.selfAddressing p) (after env as).abs = (.panic, (after env as).abs.touch c.pre.toStr) :=
        StM.bind_panic (StM.bind_panic hread)
      rw [this] at h1; cases h1
  obtain ⟨last, hlast⟩ : ∃ last, ((after env as).kel c.pre).getLast? = some last := by
    cases hx : ((after env as).kel c.pre).getLast? with
    | none => rw [List.getLast?_eq_none_iff] at hx; exact absurd hx hne
    | some y => exact ⟨y, rfl⟩
  have hlsn : last.sn = s.sn := by
    have hf := (hl.facts hid).2.1 hne
    have hge : ((after env as).kel c.pre)[((after env as).kel c.pre).length - 1]? = some last := by
      rw [← List.getLast?_eq_getElem?]; exact hlast
    have := hl.sn_eq hid hge
    omega
  rw [interact_run htab hr hlast] at h1 h2
  cases he : c.interactEvent env sg (last.sn + 1) (.selfAddressing p) with
  | err x => rw [he] at h1; cases h1
  | panic => rw [he] at h1; cases h1
  | ok e' =>
    rw [he] at h1 h2
    simp only [Res.ok.injEq] at h1 h2
    subst h1
    have hlog : (c.interact sled env sg (.selfAddressing p) (after env as)).2.abs.log c.pre.toStr = (after env as).kel c.pre ++ [e.stored] := by
      rw [h2]
      conv => lhs; unfold MapDb.log
      rw [MapDb.set_same]; rfl
    obtain ⟨p', hp', hc⟩ := interactEvent_inv he
    cases hp'
    refine ⟨⟨h3, ?_⟩, hlog⟩
    rw [hlog]
    refine ⟨(after env as).kel c.pre, e.stored, [], rfl, hl, hne, ?_, ⟨"Last event does not match previous event", ?_⟩, by simp⟩
    · show e.msg.event.content.sn = _
      rw [hc]; show last.sn + 1 = _; omega
    · exact unchained_fails (m := e.stored.msg) (sl := [.digest p]) (sn := last.sn + 1) (by rw [hpre]; exact hc) (by omega) hp

/-- C52 is false: after a successful `interact` with any self-addressing identifier other than the digest of the controller's own last event, no
call of the controller and nothing anybody submits ever changes the controller's state again: it stays what it was before (or can no longer be
read at all). -/
theorem C52_fails_frozen (env : Env) (sg : SignFn) (c : Controller) (as : List Action) (s : IdState) (hid : c.pre.toStr ≠ [])
    (hne : (after env as).kel c.pre ≠ []) (hrt : c.pre.rt = true)
    (hs : (computeState sled env c.pre (after env as)).1 = .ok (some s)) (p : SelfAddressingPrefix) (hp : p ≠ s.lastDigest) (e : SignedEvent)
    (h : (c.interact sled env sg (.selfAddressing p) (after env as)).1 = .ok e) (cs : List Call) :
    (computeState sled env c.pre (runCalls env sg (c, (c.interact sled env sg (.selfAddressing p) (after env as)).2) cs).2).1 = .ok (some s) ∨
    (computeState sled env c.pre (runCalls env sg (c, (c.interact sled env sg (.selfAddressing p) (after env as)).2) cs).2).1 = .panic := by
  have hrd : Readable ((after env as).kel c.pre) := by
    rw [← readable_iff]
    rw [computeState_spec env _ (after_inv env as), vec_of_kel hne] at hs
    by_cases hr : ((after env as).kel c.pre).all SignedEvent.rt = true
    · exact hr
    · simp [hr] at hs
  obtain ⟨s', hl, hc⟩ := computeState_log env as c.pre hid hne hrd
  rw [hc] at hs
  simp only [Res.ok.injEq, Option.some.injEq] at hs
  subst hs
  have hpre : s'.prefix = c.pre := by
    obtain ⟨e0, he0⟩ := List.exists_mem_of_ne_nil _ hne
    obtain ⟨i, hi, rfl⟩ := List.mem_iff_getElem.1 he0
    have h1 := ((hl.facts hid).2.2 i _ (List.getElem?_eq_getElem hi)).2.1
    have h2 := ((hl.facts hid).2.1 hne).2.1
    have h3 := hrd _ he0
    simp only [SignedEvent.rt, EventMessage.rt, Bool.and_eq_true] at h3
    have h4 := h3.1.1.1.2
    rw [show ((after env as).kel c.pre)[i].msg.event.content.prefix = s'.prefix from h1] at h4
    simp only [IdentifierPrefix.rt, decide_eq_true_eq] at h4 hrt
    rw [h2, hrt] at h4
    exact (Res.ok.inj h4).symm
  have hz := (interact_freezes hid hne hl hpre hp h).1
  obtain ⟨_, h2⟩ := FrozenAt.calls (sg := sg) hid hz cs
  rw [FrozenAt.state hid h2]
  split
  · exact .inl rfl
  · exact .inr rfl


/-! ## What the calls after `interact` return -/

theorem FrozenAt.accepts {env : Env} {db : Db} {e : SignedEvent} {s new : IdState} {bytes : Bytes} (hid : e.pre.toStr ≠ [])
    (h : db.FrozenAt env e.pre s) (hr : Readable (db.kel e.pre))
    (hpl : (∃ x, e.data = .icp x) ∨ (∃ x, e.data = .rot x) ∨ ∃ x, e.data = .ixn x) (hap : e.msg.applyTo env s = .ok new)
    (hser : e.msg.serialize env = .ok bytes) (hv : new.current.verify env bytes e.sigs = .ok true) :
    (process sled env (.event e) db).1 = .ok (some new) ∧ (process sled env (.event e) db).2.kel e.pre = db.kel e.pre ++ [e.stored] := by
  obtain ⟨h1, h2, _⟩ := process_sim sled_sim env (.event e) db h.1
  rw [kel_eq, h1, h2]
  have hro := checkDelegation_ro env e db.abs
  have hcd := plain_checkDelegation env e db.abs hpl
  rcases hc : checkDelegation mapOps env e db.abs with ⟨rc, ac⟩
  rw [hc] at hro hcd
  simp only at hcd
  subst hcd
  have hlog : ac.log e.pre.toStr = db.abs.log e.pre.toStr := MapDb.log_congr hro _
  have hcomp := Frozen.compute (a := ac) (id := e.msg.event.content.prefix) hid (by rw [hlog]; exact h.2)
  have hl2 : (ac.touch e.pre.toStr).log e.pre.toStr = db.abs.log e.pre.toStr := by
    rw [← hlog]; exact MapDb.log_congr (MapDb.touch_tables _ _) _
  have hall : (db.abs.log e.pre.toStr).all SignedEvent.rt = true := (readable_iff _).2 hr
  rw [hlog, if_pos hall] at hcomp
  have hp : Tbl.kels.pushed ((ac.touch e.pre.toStr).tables .kels e.pre.toStr) e.stored = db.abs.log e.pre.toStr ++ [e.stored] := by
    rw [pushed_kels, MapDb.touch_tables]
    have : ac.tables .kels e.pre.toStr = some (db.abs.log e.pre.toStr) := by rw [← hlog]; exact Frozen.table (by rw [hlog]; exact h.2)
    rw [this]
    simp only [hall, if_true]
  let a1 := ((ac.touch e.pre.toStr).touch e.pre.toStr).set .kels e.pre.toStr (some (db.abs.log e.pre.toStr ++ [e.stored]))
  have hadd : addKel mapOps e e.pre (ac.touch e.pre.toStr) = (.ok (), a1) := by
    simp only [addKel, mapOps]
    rw [hp]
  have hvo : verifyOutcome env new bytes e.sigs = .ok new := by simp [verifyOutcome, hv]
  have hst : storeAndVerify mapOps env e new (ac.touch e.pre.toStr) = (.ok (some new), a1) :=
    StM.bind_ok hadd (StM.bind_ok (congrArg (·, a1) hser) (StM.bind_ok (StM.result_ok (congrArg (·, a1) hvo)) rfl))
  have hrun : process mapOps env (.event e) db.abs = (.ok (some new), a1) := by
    show processEvent mapOps env e db.abs = _
    rw [show processEvent mapOps env e db.abs = storeAndVerify mapOps env e new (ac.touch e.pre.toStr) from
      StM.bind_ok hc (StM.bind_ok (StM.bind_ok hcomp (congrArg (·, ac.touch e.pre.toStr) hap)) rfl)]
    exact hst
  rw [hrun]
  refine ⟨rfl, ?_⟩
  show MapDb.log a1 _ = _
  conv => lhs; unfold MapDb.log
  rw [MapDb.set_same]; rfl

theorem FrozenAt.ownState {env : Env} {c : Controller} {db : Db} {s : IdState} (hid : c.pre.toStr ≠ []) (h : db.FrozenAt env c.pre s)
    (hr : Readable (db.kel c.pre)) : c.ownState sled env db = (.ok s, runHistory sled env db [.lookup .kels c.pre]) := by
  have h1 := FrozenAt.state hid h
  rw [if_pos ((readable_iff _).2 hr)] at h1
  have h2 := computeState_db env c.pre db
  unfold Controller.ownState
  have h3 : computeState sled env c.pre db = (.ok (some s), runHistory sled env db [.lookup .kels c.pre]) := Prod.ext h1 h2
  exact StM.bind_ok h3 rfl

theorem lookup_kel (env : Env) (db : Db) (hi : db.Inv) (t : Tbl) (id id' : IdentifierPrefix) :
    (runHistory sled env db [.lookup t id]).kel id' = db.kel id' := by
  rw [kel_eq, kel_eq, (history_sim sled_sim env [.lookup t id] db hi).2]
  exact MapDb.log_congr (MapDb.touch_tables _ _) _

/-- submitting an own event to a frozen log -/
theorem FrozenAt.own {env : Env} {sg : SignFn} {c : Controller} {db : Db} {s new : IdState} {m : EventMessage} (hne : c.pre.toStr ≠ [])
    (h : db.FrozenAt env c.pre s) (hr : Readable (db.kel c.pre)) (hw : c.km.signer.Works env sg)
    (hj : m.info.kind = .json) (hp : m.event.content.prefix = c.pre)
    (hpl : (∃ x, m.event.content.data = .icp x) ∨ (∃ x, m.event.content.data = .rot x) ∨ ∃ x, m.event.content.data = .ixn x)
    (hap : m.applyTo env s = .ok new) (ht : new.current.threshold = .simple 1) (hk : new.current.publicKeys[0]? = some c.km.key)
    (hrt : m.rt = true) :
    ∃ e d, e.msg = m ∧ submitOwn sled env (c.signEvent env sg m) db = (.ok e, d) ∧ d.FrozenAt env c.pre s ∧ Readable (d.kel c.pre) := by
  obtain ⟨sig, h1, h2, h3⟩ := signEvent_eq hw hj
  rw [h3]
  have acc := FrozenAt.accepts (e := ⟨m, [⟨0, ⟨.ed25519Sha512, sig⟩⟩], none⟩) (s := s) (new := new) (db := db)
    (by show m.event.content.prefix.toStr ≠ []; rw [hp]; exact hne)
    (by show db.FrozenAt env m.event.content.prefix s; rw [hp]; exact h)
    (by show Readable (db.kel m.event.content.prefix); rw [hp]; exact hr) hpl hap (json_serialize env m hj) (own_verify ht hk h2)
  refine ⟨⟨m, [⟨0, ⟨.ed25519Sha512, sig⟩⟩], none⟩, (process sled env (.event ⟨m, [⟨0, ⟨.ed25519Sha512, sig⟩⟩], none⟩) db).2, rfl, ?_, ?_, ?_⟩
  · rw [submitOwn_run]
    rcases hx : process sled env (.event ⟨m, [⟨0, ⟨.ed25519Sha512, sig⟩⟩], none⟩) db with ⟨r, d⟩
    rw [hx] at acc
    have := acc.1
    simp only at this
    rw [this]
  · exact FrozenAt.history hne h [.submit (.event ⟨m, [⟨0, ⟨.ed25519Sha512, sig⟩⟩], none⟩)]
  · have h4 := acc.2
    change Db.kel _ m.event.content.prefix = db.kel m.event.content.prefix ++ _ at h4
    rw [hp] at h4
    rw [h4]
    refine hr.snoc ?_
    show SignedEvent.rt _ = true
    unfold SignedEvent.rt
    simp only [SignedEvent.stored, hrt, List.all_cons, List.all_nil, own_sig_rt h1 .ed25519Sha512 rfl, Bool.and_true]

theorem ixn_rt {env : Env} {sg : SignFn} {c : Controller} {l : List SignedEvent} {s : IdState} (hb : env.Blake3Size) (R : c.Ready env sg l s)
    (hn : s.sn + 1 ≤ u64max) (payload : Option Bytes) :
    (saidJson env ⟨c.pre, s.sn + 1, .ixn ⟨s.lastDigest, ixnSeals env payload⟩⟩).rt = true := by
  refine said_rt hb R.preRt hn ?_ ?_
  · have h3 := sa_rt R.dig
    cases payload with
    | none => simp [EventData.rt, h3, ixnSeals]
    | some p => simp [EventData.rt, h3, ixnSeals, Seal.rt, sa_rt (derive_sized hb p)]
  · exact ixn_weight hb payload R.preLen hn (sa_len R.dig R.digBlake)

theorem FrozenAt.ixn {env : Env} {sg : SignFn} {c : Controller} {l : List SignedEvent} {db : Db} {s : IdState} (hb : env.Blake3Size)
    (R : c.Ready env sg l s) (hn : s.sn + 1 ≤ u64max) (h : db.FrozenAt env c.pre s) (hr : Readable (db.kel c.pre)) (payload : Option Bytes) :
    ∃ e d, c.makeIxn sled env sg payload db = (.ok e, d) ∧ e.sn = s.sn + 1 ∧ e.data = .ixn ⟨s.lastDigest, ixnSeals env payload⟩ ∧
      d.FrozenAt env c.pre s ∧ Readable (d.kel c.pre) := by
  obtain ⟨new, ha, hc, hd⟩ := ixn_applies (env := env) (s := s)
    (e := ⟨c.pre, s.sn + 1, .ixn ⟨s.lastDigest, ixnSeals env payload⟩⟩) rfl R.pre.symm rfl rfl (saidJson env _) rfl
  have hk := lookup_kel env db h.1 .kels c.pre c.pre
  obtain ⟨e, d, h1, h2, h3, h4⟩ := FrozenAt.own (sg := sg) (c := c) (s := s) (new := new) R.preNe (FrozenAt.history R.preNe h [.lookup .kels c.pre])
    (by rw [hk]; exact hr) R.works.signer rfl rfl (.inr (.inr ⟨_, rfl⟩)) ha (by rw [hc]; exact R.thr) (by rw [hc]; exact R.key) (ixn_rt hb R hn payload)
  refine ⟨e, d, ?_, by show e.msg.event.content.sn = _; rw [h1]; rfl, by show e.msg.event.content.data = _; rw [h1]; rfl, h3, h4⟩
  unfold Controller.makeIxn
  refine StM.bind_ok (FrozenAt.ownState R.preNe h hr) ?_
  rw [ixnMsg_eq env c R.notDefault]
  exact h2

theorem sa_len_le {p : SelfAddressingPrefix} (h : p.Sized) : p.toStr.length ≤ 100 := by
  obtain ⟨d, k⟩ := p
  have h' : k.length = d.rawBytes := h.1
  rw [SelfAddressingPrefix.toStr_sized _ h, List.length_append, b64Encode_length]
  show d.toStr.length + ((k.length * 4 + 2) / 3) ≤ _
  rw [h']
  have : ∀ d : SelfAddressing, d.toStr.length + (d.rawBytes * 4 + 2) / 3 ≤ 100 := by intro d; cases d <;> simp [SelfAddressing.toStr, SelfAddressing.rawBytes]
  exact this d

/-- `interact` of a controller in good order -/
theorem Controller.Ready.interact {env : Env} {sg : SignFn} {c : Controller} {as : List Action} {s : IdState} (hb : env.Blake3Size)
    (R : c.Ready env sg ((after env as).kel c.pre) s) (hn : s.sn + 1 ≤ u64max) {p : SelfAddressingPrefix} (hps : p.Sized)
    (hp : p ≠ s.lastDigest) :
    ∃ e db, c.interact sled env sg (.selfAddressing p) (after env as) = (.ok e, db) ∧ e.sn = s.sn + 1 ∧ db.FrozenAt env c.pre s ∧
      Readable (db.kel c.pre) := by
  have hpc : p.rt = true := sa_rt hps
  have hpl := sa_len_le hps
  have htab : (after env as).abs.tables .kels c.pre.toStr = some ((after env as).kel c.pre) := vec_of_kel R.nonempty
  have hr := (readable_iff _).2 R.readable
  obtain ⟨last, hlast⟩ : ∃ last, ((after env as).kel c.pre).getLast? = some last := by
    cases hx : ((after env as).kel c.pre).getLast? with
    | none => rw [List.getLast?_eq_none_iff] at hx; exact absurd hx R.nonempty
    | some y => exact ⟨y, rfl⟩
  have hlsn : last.sn = s.sn := by
    have hf := (R.log.facts R.preNe).2.1 R.nonempty
    have hge : ((after env as).kel c.pre)[((after env as).kel c.pre).length - 1]? = some last := by
      rw [← List.getLast?_eq_getElem?]; exact hlast
    have := R.log.sn_eq R.preNe hge
    omega
  obtain ⟨sig, g1, g2, _⟩ := R.works.signer.signs (jsonText (saidJson env ⟨c.pre, last.sn + 1, .ixn ⟨p, [.digest p]⟩⟩).sval)
  have hev : c.interactEvent env sg (last.sn + 1) (.selfAddressing p) =
      .ok ⟨saidJson env ⟨c.pre, last.sn + 1, .ixn ⟨p, [.digest p]⟩⟩, [⟨0, ⟨.ecdsaSha256, sig⟩⟩], none⟩ := by
    unfold Controller.interactEvent
    have : Event.toMessage env ⟨c.pre, last.sn + 1, .ixn ⟨p, [.digest p]⟩⟩ .json .blake3_256 =
        .ok (saidJson env ⟨c.pre, last.sn + 1, .ixn ⟨p, [.digest p]⟩⟩) := by
      unfold Event.toMessage
      cases c.pre <;> exact saidMessage_json env _
    simp only [this, Res.ok_bind, json_serialize env (saidJson env ⟨c.pre, last.sn + 1, .ixn ⟨p, [.digest p]⟩⟩) rfl, CryptoBox.sign, g1]
  obtain ⟨h1, h2, h3⟩ := interact_sim env sg c (.selfAddressing p) (after env as) (after_inv env as)
  rw [interact_run htab hr hlast, hev] at h1 h2
  obtain ⟨hf, hkel⟩ := interact_freezes R.preNe R.nonempty R.log R.pre hp h1
  refine ⟨_, _, Prod.ext h1 rfl, ?_, hf, ?_⟩
  · show last.sn + 1 = _; omega
  · rw [hkel]
    refine R.readable.snoc ?_
    unfold SignedEvent.rt
    have hm : (saidJson env ⟨c.pre, last.sn + 1, .ixn ⟨p, [.digest p]⟩⟩).rt = true := by
      refine said_rt hb R.preRt (by show last.sn + 1 ≤ _; omega) (by simp [EventData.rt, hpc, Seal.rt]) ?_
      have hx := hexStr_u64 (n := last.sn + 1) (by omega)
      have hpre := R.preLen
      have hi : (SerInfo.new .json 0).toStr.length = 17 := by decide +kernel
      simp only [dummyEventSval, SVal.weight, SVal.weightFields, SVal.weights, Event.fields, EventData.fields, InteractionEvent.fields,
        List.cons_append, List.nil_append, List.map_cons, List.map_nil, EventData.type, EventTypeTag.toStr, Seal.sval,
        hpre, hi, dummy_blake3_len, List.length_cons, List.length_nil]
      omega
    simp only [SignedEvent.stored, hm, List.all_cons, List.all_nil, own_sig_rt g2 .ecdsaSha256 rfl, Bool.and_true]


theorem FrozenAt.refuses {env : Env} {db : Db} {e : SignedEvent} {s : IdState} {x : Error} (hid : e.pre.toStr ≠ [])
    (h : db.FrozenAt env e.pre s) (hr : Readable (db.kel e.pre))
    (hpl : (∃ x, e.data = .icp x) ∨ (∃ x, e.data = .rot x) ∨ ∃ x, e.data = .ixn x) (hap : e.msg.applyTo env s = .err x) :
    (process sled env (.event e) db).1 = .err x := by
  obtain ⟨h1, h2, _⟩ := process_sim sled_sim env (.event e) db h.1
  rw [h1]
  have hro := checkDelegation_ro env e db.abs
  have hcd := plain_checkDelegation env e db.abs hpl
  rcases hc : checkDelegation mapOps env e db.abs with ⟨rc, ac⟩
  rw [hc] at hro hcd
  simp only at hcd
  subst hcd
  have hlog : ac.log e.pre.toStr = db.abs.log e.pre.toStr := MapDb.log_congr hro _
  have hcomp := Frozen.compute (a := ac) (id := e.msg.event.content.prefix) hid (by rw [hlog]; exact h.2)
  have hall : (db.abs.log e.pre.toStr).all SignedEvent.rt = true := (readable_iff _).2 hr
  rw [hlog, if_pos hall] at hcomp
  show (processEvent mapOps env e db.abs).1 = _
  rw [show processEvent mapOps env e db.abs = (.err x, ac.touch e.pre.toStr) from
    StM.bind_ok hc (StM.bind_err (StM.bind_ok hcomp (congrArg (·, ac.touch e.pre.toStr) hap)))]

/-- `rotate` on a frozen log with the committed key: accepted, without effect -/
theorem FrozenAt.rotate {env : Env} {sg : SignFn} {c : Controller} {l : List SignedEvent} {db : Db} {s : IdState} (hb : env.Blake3Size)
    (R : c.Ready env sg l s) (hn : s.sn + 1 ≤ u64max) (h : db.FrozenAt env c.pre s) (hr : Readable (db.kel c.pre)) :
    ∃ e d, c.rotate env sg db = (.ok e, { c with km := c.km.rotate }, d) ∧ e.sn = s.sn + 1 ∧ d.FrozenAt env c.pre s ∧ Readable (d.kel c.pre) := by
  obtain ⟨new, ha, hc, hd⟩ := rot_applies (env := env) (s := s)
    (e := ⟨c.pre, s.sn + 1, .rot ⟨s.lastDigest, c.km.rotate.config env [], 0, [], [], []⟩⟩) rfl R.pre.symm rfl rfl R.deleg (by
      unfold KeyConfig.verifyNext; rw [R.next]; exact decide_eq_true rfl) (saidJson env _) rfl
  have hrt : (saidJson env ⟨c.pre, s.sn + 1, .rot ⟨s.lastDigest, c.km.rotate.config env [], 0, [], [], []⟩⟩).rt = true := by
    refine said_rt hb R.preRt hn ?_ ?_
    · have h1 : c.km.rotate.key.rt = true := ed_key_rt R.works.next.size
      have h2 := sa_rt (commitment_sized hb c.km.rotate)
      have h3 := sa_rt R.dig
      simp [EventData.rt, RotationEvent.rt, KeyConfig.rt, CryptoBox.config, h1, h2, h3, Threshold.default, Threshold.rt]
      decide
    · exact rot_weight R.preLen hn (sa_len R.dig R.digBlake) (sa_len (commitment_sized hb _) rfl) (ed_len R.works.next.size)
  have hk := lookup_kel env db h.1 .kels c.pre c.pre
  obtain ⟨e, d, h1, h2, h3, h4⟩ := FrozenAt.own (sg := sg) (c := { c with km := c.km.rotate }) (s := s) (new := new) R.preNe
    (FrozenAt.history R.preNe h [.lookup .kels c.pre]) (by show Readable (Db.kel _ c.pre); rw [hk]; exact hr) R.works.next rfl rfl
    (.inr (.inl ⟨_, rfl⟩)) ha (by rw [hc]; rfl) (by rw [hc]; rfl) hrt
  refine ⟨e, d, ?_, by show e.msg.event.content.sn = _; rw [h1]; rfl, h3, h4⟩
  have ho := FrozenAt.ownState (c := { c with km := c.km.rotate }) R.preNe h hr
  have : Controller.submitRotation sled env sg { c with km := c.km.rotate } db = (.ok e, d) := by
    unfold Controller.submitRotation
    refine StM.bind_ok ho ?_
    rw [rotationMsg_eq env { c with km := c.km.rotate } R.notDefault]
    exact h2
  unfold Controller.rotate
  simp only [this]

/-- `rotate` on a frozen log with any other key: refused -/
theorem FrozenAt.rotate_refused {env : Env} {sg : SignFn} {c : Controller} {db : Db} {s : IdState} {n : SelfAddressingPrefix}
    (hne : c.pre.toStr ≠ []) (hnd : c.pre ≠ IdentifierPrefix.default) (hpre : s.prefix = c.pre) (hdel : s.delegator = none)
    (hw : c.km.Works env sg) (hnext : s.current.nextDigest = some n) (hn : n.derivation = .blake3_256)
    (hk : n ≠ c.km.commitment env)
    (h : db.FrozenAt env c.pre s) (hr : Readable (db.kel c.pre)) :
    (c.rotate env sg db).1 = .err (.semantic "Incorrect Key Config binding") := by
  have ho := FrozenAt.ownState (c := { c with km := c.km.rotate }) hne h hr
  have hv : s.current.verifyNext env (c.km.rotate.config env []) = false := by
    unfold KeyConfig.verifyNext
    rw [hnext]
    exact decide_eq_false (by rw [hn]; exact hk)
  have hap : (saidJson env ⟨c.pre, s.sn + 1, .rot ⟨s.lastDigest, c.km.rotate.config env [], 0, [], [], []⟩⟩).applyTo env s =
      .err (.semantic "Incorrect Key Config binding") := by
    unfold EventMessage.applyTo
    simp only [saidJson, checkEventDigest_self, Res.ok_bind, hdel, Option.isSome_none]
    unfold Event.applyTo EventData.applyTo RotationEvent.applyTo
    simp only [hpre, hv, ne_eq, not_true, if_false, Nat.lt_irrefl]
    rfl
  obtain ⟨sig, h1, h2, h3⟩ := signEvent_eq (c := { c with km := c.km.rotate }) hw.next
    (m := saidJson env ⟨c.pre, s.sn + 1, .rot ⟨s.lastDigest, c.km.rotate.config env [], 0, [], [], []⟩⟩) rfl
  have hsub : (Controller.submitRotation sled env sg { c with km := c.km.rotate } db).1 = .err (.semantic "Incorrect Key Config binding") := by
    unfold Controller.submitRotation
    rw [StM.bind_run, ho]
    dsimp only
    rw [rotationMsg_eq env { c with km := c.km.rotate } hnd]
    simp only [Res.ok_bind, h3]
    rw [submitOwn_run]
    have hk2 := lookup_kel env db h.1 .kels c.pre c.pre
    have := FrozenAt.refuses (db := runHistory sled env db [.lookup .kels c.pre])
      (e := ⟨saidJson env ⟨c.pre, s.sn + 1, .rot ⟨s.lastDigest, c.km.rotate.config env [], 0, [], [], []⟩⟩, [⟨0, ⟨.ed25519Sha512, sig⟩⟩], none⟩)
      hne (FrozenAt.history hne h [.lookup .kels c.pre]) (by show Readable (Db.kel _ c.pre); rw [hk2]; exact hr) (.inr (.inl ⟨_, rfl⟩)) hap
    rcases hx : process sled env (.event _) (runHistory sled env db [.lookup .kels c.pre]) with ⟨r, d⟩
    rw [hx] at this
    simp only at this
    rw [this]
  exact hsub

/-- C52 is false, call by call.  A controller in good order (incepted, then any `n` successful calls as in C51) interacts with a self-addressing
identifier that is not the digest of its own last event.  The call succeeds.  Afterwards every `make_ixn` succeeds and makes one more event with the
same sequence number `n + 1` and the same prior digest; a first `rotate` succeeds too, but the next one fails (unless two key commitments collide), so
that the controller can never rotate again; and the state is still what it was. -/
theorem C52_fails_calls (env : Env) (hb : env.Blake3Size) (sg : SignFn) (km : CryptoBox) (hw : km.Works env sg)
    (rnd : BasicPrefix × BasicPrefix) (as : List Action) (extra ws : List BasicPrefix) (e0 : SignedEvent) (c0 : Controller) (db0 : Db)
    (h : (Controller.new km rnd).inceptWith env sg extra ws (after env as) = (.ok e0, c0, db0)) (hrt : e0.rt = true) (cs : List Call)
    (hi : ∀ p, .interact p ∉ cs) (ho : ∀ a, .other a ∈ cs → ¬ a.submitsFor c0.pre) (hn : cs.countP Call.own + 1 ≤ u64max)
    (c : Controller) (db : Db) (hc : runCalls env sg (c0, db0) cs = (c, db)) (s : IdState) (hs : (computeState sled env c.pre db).1 = .ok (some s))
    (p : SelfAddressingPrefix) (hps : p.Sized) (hp : p ≠ s.lastDigest) :
    ∃ e db1, c.interact sled env sg (.selfAddressing p) db = (.ok e, db1) ∧ (computeState sled env c.pre db1).1 = .ok (some s) ∧
      (∀ ps : List (Option Bytes), ∀ pl, ∃ e' db', c.makeIxn sled env sg pl (runCalls env sg (c, db1) (ps.map .ixn)).2 = (.ok e', db') ∧
        e'.sn = cs.countP Call.own + 1 ∧ e'.data.previous? = some s.lastDigest ∧ (computeState sled env c.pre db').1 = .ok (some s)) ∧
      ∃ e2 c2 db2, c.rotate env sg db1 = (.ok e2, c2, db2) ∧ e2.sn = cs.countP Call.own + 1 ∧
        (computeState sled env c.pre db2).1 = .ok (some s) ∧
        (c2.km.commitment env ≠ c.km.commitment env → (c2.rotate env sg db2).1 = .err (.semantic "Incorrect Key Config binding")) := by
  obtain ⟨hdb, _, _, s0, R0, hs0⟩ := incept_ready hb hw h hrt
  subst hdb
  obtain ⟨_, c', as', s', h2, h3, R, h5⟩ := calls_invariant hb R0 hs0 cs hi ho (by omega)
  rw [hc] at h2
  cases h2
  have hss : s = s' := by
    obtain ⟨s2, hl, hcs⟩ := computeState_log env as' c.pre R.preNe R.nonempty R.readable
    rw [hs] at hcs
    simp only [Res.ok.injEq, Option.some.injEq] at hcs
    subst hcs
    exact hl.unique R.log
  subst hss
  have hn1 : s.sn + 1 ≤ u64max := by rw [h5]; exact hn
  have st : ∀ d : Db, d.FrozenAt env c.pre s → Readable (d.kel c.pre) → (computeState sled env c.pre d).1 = .ok (some s) := by
    intro d h1 h2
    rw [FrozenAt.state R.preNe h1, if_pos ((readable_iff _).2 h2)]
  obtain ⟨e, db1, g1, g2, g3, g4⟩ := R.interact hb hn1 hps hp
  refine ⟨e, db1, g1, st db1 g3 g4, ?_, ?_⟩
  · intro ps pl
    have inv : (runCalls env sg (c, db1) (ps.map .ixn)).1 = c ∧ (runCalls env sg (c, db1) (ps.map .ixn)).2.FrozenAt env c.pre s ∧
        Readable ((runCalls env sg (c, db1) (ps.map .ixn)).2.kel c.pre) := by
      induction ps using snoc_induction with
      | h0 => exact ⟨rfl, g3, g4⟩
      | h1 ps q ih =>
        rw [List.map_append, List.map_singleton, runCalls_snoc]
        generalize runCalls env sg (c, db1) (ps.map .ixn) = x at *
        obtain ⟨c', d'⟩ := x
        simp only at ih
        obtain ⟨rfl, i2, i3⟩ := ih
        obtain ⟨e', d2, k1, _, _, k4, k5⟩ := FrozenAt.ixn hb R hn1 i2 i3 q
        simp only [Call.run, k1]
        exact ⟨trivial, k4, k5⟩
    obtain ⟨e', d2, k1, k2, k3, k4, k5⟩ := FrozenAt.ixn hb R hn1 inv.2.1 inv.2.2 pl
    exact ⟨e', d2, k1, by rw [k2, h5], by rw [k3]; rfl, st d2 k4 k5⟩
  · obtain ⟨e2, db2, k1, k2, k3, k4⟩ := FrozenAt.rotate hb R hn1 g3 g4
    refine ⟨e2, _, db2, k1, by rw [k2, h5], st db2 k3 k4, fun hne => ?_⟩
    exact FrozenAt.rotate_refused (c := { c with km := c.km.rotate }) R.preNe R.notDefault R.pre R.deleg R.works.rotate R.next rfl hne.symm k3 k4

/-- C52: the hypotheses are met, and what follows. -/
example : Ex.peer.Sized ∧ (match Ex.ctlIcp with
    | (.ok _, c, db) =>
      let (c1, db1) := runCalls Ex.env Ex.sg (c, db) Ex.ctlCalls
      match (computeState sled Ex.env c1.pre db1).1 with
      | .ok (some s) => decide (Ex.peer ≠ s.lastDigest) && decide (s.sn = 4) && (c1.interact sled Ex.env Ex.sg (.selfAddressing Ex.peer) db1).1.isOk
      | _ => false
    | _ => false) = true := by
  refine ⟨⟨Ex.dig_length _, rfl⟩, ?_⟩
  decide +kernel

end Keriox
