import Verif.Props.Concur
import Verif.Props.Local
/-!
# C105: reading while another thread is in the middle of a call
-/
namespace Keriox

/-! ## Table keys never change during a call -/

/-- steps that leave the identifier tree alone -/
def KeepIds {α : Type} (x : StM World α) : Prop :=
  ∀ w : World, w.sched = [] → (x w).2.sched = [] ∧ (x w).2.db.iids = w.db.iids ∧ ∀ d ∈ (x w).2.trail, d ∈ w.trail ∨ d.iids = w.db.iids

namespace KeepIds
variable {α β : Type}
theorem lift (r : Res α) : KeepIds (StM.lift r) := fun _ h => ⟨h, rfl, fun _ h => .inl h⟩
theorem pure (a : α) : KeepIds (Pure.pure a : StM World α) := fun _ h => ⟨h, rfl, fun _ h => .inl h⟩
theorem atom {f : StM Db α} (hf : ∀ d : Db, (f d).2.iids = d.iids) : KeepIds (atom f) := by
  intro w h
  rw [atom_run f w h]
  refine ⟨rfl, hf _, fun d hd => ?_⟩
  rcases List.mem_cons.1 hd with rfl | hd
  · exact .inr (hf _)
  · exact .inl hd
theorem bind {x : StM World α} {f : α → StM World β} (h1 : KeepIds x) (h2 : ∀ a, KeepIds (f a)) : KeepIds (x >>= f) := by
  intro w h
  obtain ⟨g1, g2, g3⟩ := h1 w h
  rw [StM.bind_run]
  rcases hx : x w with ⟨r, w'⟩
  rw [hx] at g1 g2 g3
  cases r with
  | err e => exact ⟨g1, g2, g3⟩
  | panic => exact ⟨g1, g2, g3⟩
  | ok a =>
    obtain ⟨k1, k2, k3⟩ := h2 a w' g1
    refine ⟨k1, k2.trans g2, fun d hd => ?_⟩
    rcases k3 d hd with hd | hd
    · exact g3 d hd
    · exact .inr (hd.trans g2)
end KeepIds

/-- the identifier with text `x` has the key `k` -/
def Keyed (x : Bytes) (k : Nat) (d : Db) : Prop := keyByValue d.iids x = some k

theorem keyed_designated {x : Bytes} {k : Nat} {db : Db} (h : db.Inv) (hk : Keyed x k db) (id : IdentifierPrefix) : Keyed x k (designatedKey id db).2 := by
  unfold designatedKey
  cases hn : keyByValue db.iids id.toStr with
  | some j => exact hk
  | none =>
    have hins : db.iids.ins (nextKey db.iids) id.toStr = db.iids ++ [(db.iids.length, id.toStr)] := by
      rw [nextKey_range db.iids h.keys]; exact Tree.ins_last _ _ _ (by rw [h.keys]; simp)
    show keyByValue (db.iids.ins (nextKey db.iids) id.toStr) x = some k
    rw [hins, keyByValue_append, hk]; rfl

/-- the run agrees with the sequential one and the key was allocated all the time -/
structure AlongKey (x : Bytes) (k : Nat) (w : World) (d : Db) : Prop where
  along : Along (fun _ => True) (fun _ => True) w d
  now : Keyed x k w.db
  past : ∀ d' ∈ w.trail, Keyed x k d'

theorem alongKey_keyed {α : Type} {x : Bytes} {k : Nat} (id : IdentifierPrefix) (f : Nat → StM World α) (y : StM Db α)
    (ha : GSim (Along (fun _ => True) fun _ => True) (desKey id >>= f) y) (hf : ∀ j, KeepIds (f j)) : GSim (AlongKey x k) (desKey id >>= f) y := by
  intro w d h
  obtain ⟨h1, h2⟩ := ha w d h.along
  obtain ⟨j, w', g1, g2, g3, g4, g5, -⟩ := desKey_run id w h.along.quiet (by rw [h.along.same]; exact h.along.inv)
  have hk' : Keyed x k w'.db := by
    have := keyed_designated (by rw [h.along.same]; exact h.along.inv) h.now id
    rwa [g3] at this
  rw [bind_okW g1] at h1 h2 ⊢
  obtain ⟨k1, k2, k3⟩ := hf j w' g2
  refine ⟨h1, h2, ?_, fun d' hd' => ?_⟩
  · unfold Keyed; rw [k2]; exact hk'
  · rcases k3 d' hd' with hd' | hd'
    · rcases g4 d' hd' with hd' | rfl | rfl
      · exact h.past d' hd'
      · exact h.now
      · exact hk'
    · unfold Keyed; rw [hd']; exact hk'

theorem keepIds_get (t : Tbl) (j : Nat) : KeepIds (atom (treeGet t j)) := KeepIds.atom fun _ => rfl
theorem keepIds_put (t : Tbl) (j : Nat) (l : List t.Val) : KeepIds (atom (treePut t j l)) := KeepIds.atom fun d => setEntry_iids d t j (some l)

theorem alongKey_ops (x : Bytes) (k : Nat) : GOps (AlongKey x k) (fun _ => True) stepped sled where
  read t id := alongKey_keyed id _ _ (along_true.read t id) fun j => KeepIds.bind (keepIds_get t j) fun _ => KeepIds.lift _
  push t _ id v := alongKey_keyed id _ _ (along_true.push t trivial id v) fun j => KeepIds.bind (keepIds_get t j) fun _ => keepIds_put t j _
  remove t _ id v := alongKey_keyed id _ _ (along_true.remove t trivial id v) fun j => KeepIds.bind (keepIds_get t j) fun o => by
    unfold putIf
    split
    · exact keepIds_put t j _
    · exact KeepIds.pure _
  put t _ id vs := alongKey_keyed id _ _ (along_true.put t trivial id vs) fun j => keepIds_put t j vs
  all t := by
    intro w d h
    obtain ⟨h1, h2⟩ := along_true.all t w d h.along
    obtain ⟨k1, k2, k3⟩ := KeepIds.atom (f := fun db => (.ok ((db.tables t).map fun p => t.decAll p.2), db)) (fun _ => rfl) w h.along.quiet
    refine ⟨h1, h2, ?_, fun d' hd' => ?_⟩
    · exact (congrArg (fun i => keyByValue i x) k2).trans h.now
    · rcases k3 d' hd' with hd' | hd'
      · exact h.past d' hd'
      · unfold Keyed; rw [hd']; exact h.now

/-- at every moment of a call the table keys allocated before are still there -/
theorem crash_keyed (env : Env) (act : Action) (db : Db) (h : db.Inv) {x : Bytes} {k : Nat} (hk : Keyed x k db) (d : Db)
    (hd : d ∈ crashStates env act db) : Keyed x k d := by
  have h0 : AlongKey x k ⟨db, [], []⟩ db := ⟨Along.start db h trivial, hk, fun _ h => (List.not_mem_nil h).elim⟩
  have ho := alongKey_ops x k
  rcases List.mem_cons.1 hd with rfl | hd
  · exact hk
  · cases act with
    | submit m => exact (process_par ho (fun _ => trivial) env m _ db h0).2.past d hd
    | reprocess => exact (processEscrow_par ho trivial trivial env _ db h0).2.past d hd
    | lookup t id => exact (ho.read t id _ db h0).2.past d hd

/-! ## A reader -/

/-- another thread's work, as a reader sees it before each of its steps: the databases `ds`, one after the other -/
def snapshots (ds : List Db) : List (Db → Db) := ds.map fun d _ => d

/-- reading the log of an identifier with a key, while the database goes through `ds`, is reading it in one of the databases passed through -/
theorem read_snapshot {id : IdentifierPrefix} {k : Nat} (db : Db) (ds : List Db) (hk : ∀ d ∈ db :: ds, Keyed id.toStr k d) :
    ∃ d ∈ db :: ds, (stepped.read .kels id ⟨db, snapshots ds, []⟩).1 = (sled.read .kels id d).1 := by
  have hread : ∀ d : Db, Keyed id.toStr k d → (sled.read .kels id d).1 = Tbl.kels.iterValues ((d.tables .kels).get k) := by
    intro d hd
    have : designatedKey id d = (.ok k, d) := by unfold designatedKey; rw [hd]
    exact congrArg Prod.fst (StM.bind_ok this rfl)
  have hstep : ∀ w : World, Keyed id.toStr k w.seen →
      (stepped.read .kels id w).1 = Tbl.kels.iterValues ((World.seen ⟨w.seen, w.sched.tail, w.seen :: w.trail⟩).tables .kels |>.get k) := by
    intro w hw
    have h1 : desKey id w = (.ok k, ⟨w.seen, w.sched.tail, w.seen :: w.trail⟩) := by
      have h2 : atom (getKeyByValue id) w = (.ok (some k), ⟨w.seen, w.sched.tail, w.seen :: w.trail⟩) := by
        unfold atom getKeyByValue; rw [hw]
      exact StM.bind_ok h2 rfl
    have h3 : stepped.read .kels id w = (do let o ← atom (treeGet .kels k); StM.lift (Tbl.kels.iterValues o)) ⟨w.seen, w.sched.tail, w.seen :: w.trail⟩ :=
      bind_okW h1
    rw [h3]; rfl
  cases ds with
  | nil =>
    refine ⟨db, List.mem_cons_self, ?_⟩
    rw [hread db (hk db List.mem_cons_self)]
    exact hstep ⟨db, [], []⟩ (hk db List.mem_cons_self)
  | cons d1 ds =>
    have h1 : d1 ∈ db :: d1 :: ds := by simp
    cases ds with
    | nil =>
      refine ⟨d1, h1, ?_⟩
      rw [hread d1 (hk d1 h1)]
      exact hstep ⟨db, snapshots [d1], []⟩ (hk d1 h1)
    | cons d2 ds =>
      have h2 : d2 ∈ db :: d1 :: d2 :: ds := by simp
      refine ⟨d2, h2, ?_⟩
      rw [hread d2 (hk d2 h2)]
      exact hstep ⟨db, snapshots (d1 :: d2 :: ds), []⟩ (hk d1 h1)

theorem vec_some_of_kel {db : Db} {id : IdentifierPrefix} (h : db.kel id ≠ []) : ∃ k, Keyed id.toStr k db := by
  have := vec_of_kel h
  unfold Db.vec at this
  cases hk : keyByValue db.iids id.toStr with
  | none => rw [hk] at this; cases this
  | some k => exact ⟨k, hk⟩

/-- C105: a reader (`compute_state`, `get_kerl`) that runs while another thread is in the middle of a call — the database going, in any
order, through states of that call — gets the answer for the old log or for the old log with the submitted event appended; never for a mixture. -/
theorem C105_snapshot (env : Env) (db : Db) (hr : Reach env db) (act : Action) (id : IdentifierPrefix) (hid : id.toStr ≠ [])
    (hne : db.kel id ≠ []) (ds : List Db) (hds : ∀ d ∈ ds, d ∈ crashStates env act db) :
    ∃ l s, (l = db.kel id ∨ ∃ e, act = .submit (.event e) ∧ e.pre.toStr = id.toStr ∧ l = db.kel id ++ [e.stored]) ∧ stateAfter env l = .ok s ∧
      (Readable l → (computeState stepped env id ⟨db, snapshots ds, []⟩).1 = .ok (some s)) ∧
      (Readable l → ∀ b, kerlBytes l = .ok b → (getKerl stepped id ⟨db, snapshots ds, []⟩).1 = .ok (some b)) ∧
      (¬ Readable l → (computeState stepped env id ⟨db, snapshots ds, []⟩).1 = .panic ∧ (getKerl stepped id ⟨db, snapshots ds, []⟩).1 = .panic) := by
  obtain ⟨k, hk⟩ := vec_some_of_kel hne
  have hall : ∀ d ∈ db :: ds, d ∈ crashStates env act db := by
    intro d hd
    rcases List.mem_cons.1 hd with rfl | hd
    · exact List.mem_cons_self
    · exact hds d hd
  obtain ⟨d, hd, hread⟩ := read_snapshot db ds fun d hd => crash_keyed env act db hr.good.1 hk d (hall d hd)
  have hrd : Reach env d := .crash act hr (hall d hd)
  obtain ⟨s, hlog⟩ := hrd.log id hid
  have hold := C33_old_or_appended env db hr act d (hall d hd) id hid
  have hned : d.kel id ≠ [] := by
    rcases hold with h | ⟨e, _, _, h⟩
    · rw [h]; exact hne
    · rw [h]; simp
  have hread' : (stepped.read .kels id ⟨db, snapshots ds, []⟩).1 = if (d.kel id).all SignedEvent.rt then .ok (some (d.kel id)) else .panic := by
    rw [hread, read_run .kels id _ hrd.good.1, iterValues_kels, vec_of_kel hned]
  rcases hx : stepped.read .kels id ⟨db, snapshots ds, []⟩ with ⟨r, w'⟩
  rw [hx] at hread'
  refine ⟨d.kel id, s, hold, hlog.stateAfter, fun hr' => ?_, fun hr' b hb => ?_, fun hr' => ?_⟩
  · have h1 : (d.kel id).all SignedEvent.rt = true := List.all_eq_true.2 hr'
    rw [if_pos h1] at hread'
    dsimp only at hread'
    subst hread'
    have : computeState stepped env id ⟨db, snapshots ds, []⟩ = _ := bind_okW hx
    rw [this]
    dsimp only
    rw [hlog.sorted hid, StM.bind_run]
    have hf : foldState env IdState.default (d.kel id) = .ok s := foldState_of_strict env _ _ _ hlog.fold
    rw [hf]; rfl
  · have h1 : (d.kel id).all SignedEvent.rt = true := List.all_eq_true.2 hr'
    rw [if_pos h1] at hread'
    dsimp only at hread'
    subst hread'
    have : getKerl stepped id ⟨db, snapshots ds, []⟩ = _ := bind_okW hx
    rw [this]
    dsimp only
    rw [hb]; rfl
  · have h1 : ¬ (d.kel id).all SignedEvent.rt = true := fun h => hr' (List.all_eq_true.1 h)
    rw [if_neg h1] at hread'
    dsimp only at hread'
    subst hread'
    exact ⟨congrArg Prod.fst (StM.bind_panic (x := getKel stepped id) hx), congrArg Prod.fst (StM.bind_panic (x := getKel stepped id) hx)⟩

/-! ## Acting on what was read -/

/-- one step with nothing from the other threads before it -/
theorem atom_idle {α : Type} (f : StM Db α) (db : Db) (r : List (Db → Db)) (tr : List Db) :
    atom f ⟨db, (fun d => d) :: r, tr⟩ = ((f db).1, ⟨(f db).2, r, (f db).2 :: tr⟩) := rfl

theorem desKey_idle {id : IdentifierPrefix} {k : Nat} {db : Db} (hk : Keyed id.toStr k db) (r : List (Db → Db)) (tr : List Db) :
    desKey id ⟨db, (fun d => d) :: r, tr⟩ = (.ok k, ⟨db, r, db :: tr⟩) := by
  have h2 : atom (getKeyByValue id) ⟨db, (fun d => d) :: r, tr⟩ = (.ok (some k), ⟨db, r, db :: tr⟩) := by
    rw [atom_idle]; unfold getKeyByValue; rw [hk]
  exact bind_okW h2

/-- C105 fails for writers that rely on what they read: whatever would be accepted with the event `a` in the log is accepted, and logged for good,
if it is submitted by another thread at a certain moment of a call that *refuses* `a` for its signatures. -/
theorem C105_fails_dirty (env : Env) (as : List Action) (a e : SignedEvent) (ha : a.pre.toStr ≠ []) (he : e.pre.toStr ≠ []) (hae : e.pre.toStr ≠ a.pre.toStr)
    (hplain : a.data.isDelegated = false) (hne : (after env as).kel a.pre ≠ []) (hrd : Readable ((after env as).kel a.pre)) (hrda : a.rt = true)
    (s new : IdState) (hs : stateAfter env ((after env as).kel a.pre) = .ok s) (hap : a.msg.applyTo env s = .ok new)
    (bytes : Bytes) (hb : a.msg.serialize env = .ok bytes) (er : Error) (hv : verifyOutcome env new bytes a.sigs = .err er)
    (d0 : Db) (h0 : Reach env d0) (h0a : d0.kel a.pre = (after env as).kel a.pre ++ [a.stored]) (h0e : d0.kel e.pre = (after env as).kel e.pre)
    (h0d : ∀ x, consults (d0.kel e.pre) e x → x.toStr ≠ a.pre.toStr → d0.kel x = (after env as).kel x)
    (st : IdState) (hacc : (process sled env (.event e) d0).1 = .ok (some st)) :
    (process sled env (.event a) (after env as)).1 = .err er ∧
    ∃ n, let r := interleaved env (.event a) (List.replicate n (fun d => d) ++ [fun d => (process sled env (.event e) d).2]) (after env as)
      r.1 = .err er ∧ r.2.kel a.pre = (after env as).kel a.pre ∧ r.2.kel e.pre = (after env as).kel e.pre ++ [e.stored] := by
  have hinv := after_inv env as
  obtain ⟨s', hl⟩ := after_log env as a.pre ha
  have hs' := hl.stateAfter
  rw [hs] at hs'
  obtain rfl := Res.ok.inj hs'
  have hout := (event_outcome env as a ha)
  obtain ⟨k, hk⟩ := vec_some_of_kel hne
  have hvec := vec_of_kel hne
  have hc : ∀ {σ : Type} (o : Ops σ), checkDelegation o env a = pure () := by
    intro σ o
    unfold checkDelegation
    revert hplain
    cases a.data <;> simp [EventData.isDelegated]
  have hall : ((after env as).kel a.pre).all SignedEvent.rt = true := List.all_eq_true.2 hrd
  have hnd : er ≠ .eventDuplicate := fun h => verifyOutcome_not_duplicate env new bytes a.sigs (h ▸ hv)
  constructor
  · obtain ⟨s2, hl2, hout⟩ := hout
    obtain rfl : s = s2 := by
      have := hl2.stateAfter
      rw [hs] at this
      exact Res.ok.inj this
    cases hout with
    | refused h1 h2 h3 =>
      exfalso
      rw [hc] at h3
      rcases h3 with ⟨x, h3, _⟩ | ⟨h3, _⟩ | ⟨_, h3⟩
      · cases h3
      · cases h3
      · rcases h3 with ⟨h3, _⟩ | ⟨_, x, h3, _⟩ | ⟨_, h3, _⟩
        · exact h3 hrd
        · rw [hap] at h3; cases h3
        · rw [hap] at h3; cases h3
    | stored h1 h2 h3 h4 h5 =>
      rw [hap] at h3
      obtain rfl := Res.ok.inj h3
      generalize (process sled env (.event a) (after env as)).1 = r at h4
      generalize (after env (as ++ [.submit (.event a)])).abs.log a.pre.toStr = l' at h4
      cases h4 with
      | accepted b g1 g2 =>
        rw [hb] at g1
        obtain rfl := Res.ok.inj g1
        unfold verifyOutcome at hv
        rw [g2] at hv
        cases hv
      | undone b x g1 _ _ _ g2 =>
        rw [hb] at g1
        obtain rfl := Res.ok.inj g1
        rw [hv] at g2; rw [Res.err.inj g2]
      | unreadable b x g1 _ _ _ g2 =>
        rw [hb] at g1
        obtain rfl := Res.ok.inj g1
        rw [hv] at g2; rw [Res.err.inj g2]
      | noBytesErr x g1 => rw [hb] at g1; cases g1
      | noBytesPanic g1 => rw [hb] at g1; cases g1
      | panicked b g1 g2 =>
        rw [hb] at g1
        obtain rfl := Res.ok.inj g1
        unfold verifyOutcome at hv
        rw [g2] at hv
        cases hv
  · clear hout
    generalize after env as = db at *
    refine ⟨5, ?_⟩
    -- the databases passed through
    let db1 := (sled.push .kels a.pre a.stored db).2
    let d2 := (process sled env (.event e) db1).2
    let d3 := (sled.remove .kels a.pre a.stored d2).2
    have hget : (db.tables .kels).get k = some (db.kel a.pre) := by rw [← hvec]; exact Db.vec_of_key hk
    have hdes : designatedKey a.pre db = (.ok k, db) := by unfold designatedKey; rw [hk]
    have hdb1 : db1 = db.setEntry .kels k (some (Tbl.kels.pushed ((db.tables .kels).get k) a.stored)) := congrArg Prod.snd (StM.bind_ok hdes rfl)
    have hinv1 : db1.Inv := (sled_sim.push .kels a.pre a.stored db hinv).2.2
    have P1 : PushedLogs db a db1 := addKel_pushed (db := db) hinv rfl hall
    have hk1 : Keyed a.pre.toStr k db1 := by unfold Keyed; rw [hdb1, setEntry_iids]; exact hk
    have hk2 : Keyed a.pre.toStr k d2 := by
      have hp := (process_par (alongKey_ops a.pre.toStr k) (fun _ => trivial) env (.event e) ⟨db1, [], []⟩ db1
        ⟨Along.start db1 hinv1 trivial, hk1, fun _ h => (List.not_mem_nil h).elim⟩).2
      have := hp.now
      rwa [hp.along.same] at this
    obtain ⟨hr1, habs2, hinv2⟩ := process_abs env db1 hinv1 (.event e)
    obtain ⟨hinv0, hgood0⟩ := h0.good
    have hlogs : d0.abs.log e.pre.toStr = db1.abs.log e.pre.toStr := by
      rw [← kel_eq, h0e]
      show (db.vec .kels e.pre.toStr).getD [] = (db1.vec .kels e.pre.toStr).getD []
      rw [P1.2 _ hae]
    have hloc := processEvent_local env e (a := d0.abs) (b := db1.abs) hlogs (fun x hx => by
      by_cases hxa : x.toStr = a.pre.toStr
      · have h1 : d0.abs.log x.toStr = db.kel a.pre ++ [a.stored] := by rw [hxa, ← kel_eq, h0a]
        have h2 : db1.abs.log x.toStr = db.kel a.pre ++ [a.stored] := by
          rw [hxa]; show (db1.vec .kels a.pre.toStr).getD [] = _; rw [P1.1]; rfl
        rw [h1, h2]
      · have h1 := h0d x hx hxa
        rw [kel_eq] at h1
        rw [h1]
        show (db.vec .kels x.toStr).getD [] = (db1.vec .kels x.toStr).getD []
        rw [P1.2 _ hxa])
    obtain ⟨s0, hl0⟩ := hgood0 _ he
    have hacc' : (processEvent mapOps env e d0.abs).1 = .ok (some st) := by
      rw [← hacc]; exact ((process_abs env d0 hinv0 (.event e)).1).symm
    have hlog2 : (processEvent mapOps env e d0.abs).2.log e.pre.toStr = db.kel e.pre ++ [e.stored] := by
      have ho := processEvent_outcome env e d0.abs he hl0
      rw [hacc'] at ho
      cases ho with
      | refused h1 _ _ => exact absurd rfl (h1 _)
      | stored _ _ _ h4 _ =>
        have : d0.abs.log e.pre.toStr = db.kel e.pre := by rw [← kel_eq, h0e]
        rw [this] at h4
        generalize MapDb.log _ _ = l' at h4
        cases h4 with
        | accepted _ _ _ => rfl
    have hd2e : d2.abs.log e.pre.toStr = db.kel e.pre ++ [e.stored] := by
      show (process sled env (.event e) db1).2.abs.log _ = _
      rw [habs2]; exact hloc.2.symm.trans hlog2
    have hd2a : d2.abs.tables .kels a.pre.toStr = some (db.kel a.pre ++ [a.stored]) := by
      show (process sled env (.event e) db1).2.abs.tables _ _ = _
      rw [habs2]
      have := processEvent_writes env e db1.abs .kels a.pre.toStr (.inl (Ne.symm hae))
      exact this.trans P1.1
    -- the run
    have hread : stepped.read .kels a.pre ⟨db, List.replicate 5 (fun d => d) ++ [fun d => (process sled env (.event e) d).2], []⟩
        = (.ok (some (db.kel a.pre)), ⟨db, List.replicate 3 (fun d => d) ++ [fun d => (process sled env (.event e) d).2], [db, db]⟩) := by
      refine (bind_okW (desKey_idle hk _ _)).trans ?_
      refine (bind_okW (atom_idle _ _ _ _)).trans ?_
      show (Tbl.kels.iterValues ((db.tables .kels).get k), _) = _
      rw [hget, iterValues_kels]
      dsimp only
      rw [if_pos hall]
      rfl
    have hstate : applyToState stepped env a.msg ⟨db, List.replicate 5 (fun d => d) ++ [fun d => (process sled env (.event e) d).2], []⟩
        = (.ok new, ⟨db, List.replicate 3 (fun d => d) ++ [fun d => (process sled env (.event e) d).2], [db, db]⟩) := by
      have h1 : computeState stepped env a.pre ⟨db, List.replicate 5 (fun d => d) ++ [fun d => (process sled env (.event e) d).2], []⟩
          = (.ok (some s), ⟨db, List.replicate 3 (fun d => d) ++ [fun d => (process sled env (.event e) d).2], [db, db]⟩) := by
        refine (bind_okW (x := getKel stepped a.pre) hread).trans ?_
        dsimp only
        rw [hl.sorted ha, foldState_of_strict env _ _ _ hl.fold]
        rfl
      refine (bind_okW (x := computeState stepped env a.pre) h1).trans ?_
      show (a.msg.applyTo env s, _) = _
      rw [hap]
    have hpush : addKel stepped a a.pre ⟨db, List.replicate 3 (fun d => d) ++ [fun d => (process sled env (.event e) d).2], [db, db]⟩
        = (.ok (), ⟨db1, [fun d => (process sled env (.event e) d).2], [db1, db, db, db, db]⟩) := by
      refine (bind_okW (desKey_idle hk _ _)).trans ?_
      refine (bind_okW (atom_idle _ _ _ _)).trans ?_
      refine (atom_idle _ _ _ _).trans ?_
      rw [hdb1]; rfl
    have hdes2 : designatedKey a.pre d2 = (.ok k, d2) := by unfold designatedKey; rw [hk2]
    have hrem : (removeKel stepped a.pre a ⟨db1, [fun d => (process sled env (.event e) d).2], [db1, db, db, db, db]⟩).1 = .ok () ∧
        (removeKel stepped a.pre a ⟨db1, [fun d => (process sled env (.event e) d).2], [db1, db, db, db, db]⟩).2.db = d3 := by
      have g1 : desKey a.pre ⟨db1, [fun d => (process sled env (.event e) d).2], [db1, db, db, db, db]⟩ = (.ok k, ⟨d2, [], [d2, db1, db, db, db, db]⟩) := by
        have g2 : atom (getKeyByValue a.pre) ⟨db1, [fun d => (process sled env (.event e) d).2], [db1, db, db, db, db]⟩
            = (.ok (some k), ⟨d2, [], [d2, db1, db, db, db, db]⟩) := by
          show ((getKeyByValue a.pre d2).1, _) = _
          unfold getKeyByValue
          rw [show keyByValue d2.iids a.pre.toStr = some k from hk2]
          rfl
        exact bind_okW g2
      have g3 : removeKel stepped a.pre a ⟨db1, [fun d => (process sled env (.event e) d).2], [db1, db, db, db, db]⟩
          = putIf .kels k (Tbl.kels.removal ((d2.tables .kels).get k) a.stored) ⟨d2, [], [d2, d2, db1, db, db, db, db]⟩ :=
        (bind_okW g1).trans (bind_okW rfl)
      have g4 : d3 = d2.setEntry .kels k (Tbl.kels.removed ((d2.tables .kels).get k) a.stored) := congrArg Prod.snd (StM.bind_ok hdes2 rfl)
      have hg2 : (d2.tables .kels).get k = some (db.kel a.pre ++ [a.stored]) := (Db.vec_of_key hk2).trans hd2a
      rw [g3, g4, hg2]
      have hall2 : (db.kel a.pre ++ [a.stored]).all SignedEvent.rt = true := by
        rw [List.all_append, hall]
        have : a.stored.rt = true := hrda
        simp [this]
      have hrm : Tbl.kels.removal (some (db.kel a.pre ++ [a.stored])) a.stored = Tbl.kels.removed (some (db.kel a.pre ++ [a.stored])) a.stored := by
        unfold Tbl.removal Tbl.removed
        have : Tbl.kels.entry (some (db.kel a.pre ++ [a.stored])) = .vals (db.kel a.pre ++ [a.stored]) := by
          unfold Tbl.entry
          dsimp only
          rw [decAll_kels, if_pos hall2]
        rw [this]
      rw [hrm, removed_kels, if_pos hall2]
      exact ⟨rfl, rfl⟩
    have hrun : (interleaved env (.event a) (List.replicate 5 (fun d => d) ++ [fun d => (process sled env (.event e) d).2]) db)
        = (.err er, d3) := by
      have g : process stepped env (.event a) ⟨db, List.replicate 5 (fun d => d) ++ [fun d => (process sled env (.event e) d).2], []⟩
          = (.err er, (removeKel stepped a.pre a ⟨db1, [fun d => (process sled env (.event e) d).2], [db1, db, db, db, db]⟩).2) := by
        show processEvent stepped env a _ = _
        unfold processEvent
        rw [hc]
        refine (bind_okW (x := (pure () : StM World Unit)) rfl).trans ?_
        refine (bind_okW hstate).trans ?_
        unfold storeAndVerify
        refine (bind_okW hpush).trans ?_
        rw [hb]
        refine (bind_okW (x := (StM.lift (.ok bytes) : StM World Bytes)) rfl).trans ?_
        rw [hv]
        refine (bind_okW (x := (StM.lift (.err er) : StM World IdState).result) rfl).trans ?_
        dsimp only
        have hn : noteDup stepped a er = pure () := if_neg hnd
        rw [hn]
        refine (bind_okW (x := (pure () : StM World Unit)) rfl).trans ?_
        refine (bind_okW (Prod.ext hrem.1 rfl)).trans ?_
        rfl
      unfold interleaved
      rw [g]
      exact Prod.ext rfl hrem.2
    dsimp only
    rw [hrun]
    have habs3 : ∀ y, d3.vec .kels y = (removeKel mapOps a.pre a d2.abs).2.tables .kels y := fun y =>
      congrFun (congrFun (congrArg MapDb.tables (sled_sim.remove .kels a.pre a.stored d2 hinv2).2.1) .kels) y
    refine ⟨rfl, ?_, ?_⟩
    · show (d3.vec .kels a.pre.toStr).getD [] = _
      rw [habs3]
      simp only [removeKel, mapOps]
      rw [MapDb.set_same, hd2a, removed_kels, if_pos, filter_stored _ _ (log_no_sn ha hl hap)]
      · rfl
      · rw [List.all_append, hall]
        have : a.stored.rt = true := hrda
        simp [this]
    · show (d3.vec .kels e.pre.toStr).getD [] = _
      rw [habs3]
      simp only [removeKel, mapOps]
      rw [Writes.set_frame _ _ _ _ _ _ (.inl hae), MapDb.touch_tables]
      exact hd2e

/-- an anchor for `Ex.dip` that nobody signed -/
def Ex.forgedAnchor : SignedEvent := { Ex.anchor Ex.dipSeal with sigs := [] }

/-- C105 fails for delegation, contrary to C14: an unsigned event anchoring a delegated inception is refused and leaves no trace in the log of the delegator, but the
delegated inception, submitted by another thread in the meantime, is accepted and logged although the log of the delegator has no seal at all; submitted before or after, it is refused. -/
theorem C105_fails_delegation :
    let db := after Ex.env [.submit (.event Ex.icp), .submit (.event Ex.rot)]
    let r := interleaved Ex.env (.event Ex.forgedAnchor) (List.replicate 5 (fun d => d) ++ [fun d => (process sled Ex.env (.event Ex.dip) d).2]) db
    r.1 = .err .notEnoughSigs ∧ r.2.kel Ex.id = [Ex.icp, Ex.rot] ∧ r.2.kel Ex.dip.pre = [Ex.dip.stored] ∧
    Ex.dip.data.delegator? = some Ex.id ∧ (∀ x ∈ r.2.kel Ex.id, x.data.seals = []) ∧
    (process sled Ex.env (.event Ex.dip) db).1.isOk = false ∧
    (process sled Ex.env (.event Ex.dip) (process sled Ex.env (.event Ex.forgedAnchor) db).2).1.isOk = false := by decide +kernel

/-- the conditions of `C105_fails_dirty` are met by these events; the database with the anchor in the log is found after a crash -/
example : let db := after Ex.env [.submit (.event Ex.icp), .submit (.event Ex.rot)]
    Ex.forgedAnchor.pre = Ex.id ∧ Ex.dip.pre.toStr ≠ Ex.id.toStr ∧ Ex.forgedAnchor.data.isDelegated = false ∧ db.kel Ex.id ≠ [] ∧
    (db.kel Ex.id).all SignedEvent.rt = true ∧ Ex.forgedAnchor.rt = true ∧ stateAfter Ex.env (db.kel Ex.id) = .ok Ex.rotState ∧
    (Ex.forgedAnchor.msg.applyTo Ex.env Ex.rotState).isOk = true ∧
    ∃ d ∈ crashStates Ex.env (.submit (.event Ex.forgedAnchor)) db, d.kel Ex.id = db.kel Ex.id ++ [Ex.forgedAnchor.stored] ∧ d.kel Ex.dip.pre = db.kel Ex.dip.pre ∧
      (process sled Ex.env (.event Ex.dip) d).1.isOk = true := by decide +kernel

/-- a reader during the refused call can indeed get the unverified event -/
example : let db := after Ex.env [.submit (.event Ex.icp), .submit (.event Ex.rot)]
    ∃ d ∈ crashStates Ex.env (.submit (.event Ex.strayIxn)) db,
      (computeState stepped Ex.env Ex.id ⟨db, snapshots [db, d], []⟩).1 = .ok (some { Ex.rotState with sn := 2, lastDigest := Ex.strayIxn.dig }) := by decide +kernel

end Keriox
