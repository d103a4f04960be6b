import Verif.Props.Signed
/-!
# C07–C13: what one call does to one log and to everything else
-/
namespace Keriox

theorem Log.unique {env : Env} {x : Bytes} {l : List SignedEvent} {s s' : IdState} (h : Log env x l s) (h' : Log env x l s') :
    s = s' := by
  have := h.stateAfter; rw [h'.stateAfter] at this; exact (Res.ok.inj this).symm

/-- `compute_state` in terms of the stored vector -/
theorem computeState_spec (env : Env) (db : Db) (h : db.Inv) (id : IdentifierPrefix) :
    (computeState sled env id db).1 = match db.vec .kels id.toStr with
      | none => .ok none
      | some l => if l.all SignedEvent.rt then
          (match foldState env IdState.default (sortBySn l) with
            | .ok s => .ok (some s)
            | .err e => .err e
            | .panic => .panic)
        else .panic := by
  rw [(computeState_sim sled_sim env id db h).1, computeState_run]
  rfl

theorem vec_of_kel {db : Db} {id : IdentifierPrefix} (h : db.kel id ≠ []) : db.vec .kels id.toStr = some (db.kel id) := by
  unfold Db.kel at *
  cases hv : db.vec .kels id.toStr with
  | none => rw [hv] at h; exact absurd rfl h
  | some l => rfl

/-- on a non-empty readable log, `compute_state` is the fold of the log -/
theorem computeState_log (env : Env) (as : List Action) (id : IdentifierPrefix) (hid : id.toStr ≠ [])
    (hne : (after env as).kel id ≠ []) (hr : Readable ((after env as).kel id)) :
    ∃ s, Log env id.toStr ((after env as).kel id) s ∧ (computeState sled env id (after env as)).1 = .ok (some s) := by
  obtain ⟨s, hl⟩ := after_log env as id hid
  refine ⟨s, hl, ?_⟩
  rw [computeState_spec env _ (after_inv env as), vec_of_kel hne]
  dsimp only
  rw [if_pos ((readable_iff _).2 hr), hl.foldState hid]

/-! ## C08 -/

/-- C08: after `process` returned `Ok` for an event all of whose texts parse back, `compute_state` returns the very
state `process` returned, which is the result of applying the whole log, in order, to the empty state. -/
theorem C08_state_is_fold (env : Env) (as : List Action) (e : SignedEvent) (hid : e.pre.toStr ≠ []) (hrt : e.rt = true)
    (st : Option IdState) (hacc : (process sled env (.event e) (after env as)).1 = .ok st) :
    (computeState sled env e.pre (after env (as ++ [.submit (.event e)]))).1 = .ok st ∧
    ∃ new, st = some new ∧ stateAfter env ((after env (as ++ [.submit (.event e)])).kel e.pre) = .ok new := by
  obtain ⟨s, hl, ho⟩ := event_outcome env as e hid
  rw [hacc] at ho
  have hk : (after env (as ++ [.submit (.event e)])).kel e.pre = (after env (as ++ [.submit (.event e)])).abs.log e.pre.toStr := rfl
  generalize ha : (after env (as ++ [.submit (.event e)])).abs = a' at ho hk
  cases ho with
  | refused h _ _ => exact absurd rfl (h st)
  | @stored new _ hrd hap hs _ =>
    generalize hr : (Res.ok st : Res (Option IdState)) = r at hs
    generalize hl' : a'.log e.pre.toStr = l at hs
    cases hs <;> try (cases hr; done)
    cases hr
    rw [hl'] at hk
    have L := Log.snoc (e := e.stored) hl rfl rfl hap
    have hne : (after env (as ++ [.submit (.event e)])).kel e.pre ≠ [] := by rw [hk]; simp
    have hread : Readable ((after env (as ++ [.submit (.event e)])).kel e.pre) := by
      rw [hk]
      intro x hx
      rcases List.mem_append.1 hx with h | h
      · exact hrd x h
      · simp only [List.mem_singleton] at h; subst h; exact hrt
    obtain ⟨s2, hl2, hc⟩ := computeState_log env _ e.pre hid hne hread
    have : s2 = new := by rw [hk] at hl2; exact hl2.unique L
    subst this
    exact ⟨hc, s2, rfl, hl2.stateAfter⟩

/-- C08, the exception: if some text of the accepted event does not parse back, then from then on `compute_state` crashes for
this identifier. -/
theorem C08_unreadable (env : Env) (as : List Action) (e : SignedEvent) (hid : e.pre.toStr ≠ []) (hrt : e.rt = false)
    (st : Option IdState) (hacc : (process sled env (.event e) (after env as)).1 = .ok st) :
    (computeState sled env e.pre (after env (as ++ [.submit (.event e)]))).1 = .panic := by
  obtain ⟨s, hl, ho⟩ := event_outcome env as e hid
  rw [hacc] at ho
  have hk : (after env (as ++ [.submit (.event e)])).kel e.pre = (after env (as ++ [.submit (.event e)])).abs.log e.pre.toStr := rfl
  generalize ha : (after env (as ++ [.submit (.event e)])).abs = a' at ho hk
  cases ho with
  | refused h _ _ => exact absurd rfl (h st)
  | @stored new _ hrd hap hs _ =>
    generalize hr : (Res.ok st : Res (Option IdState)) = r at hs
    generalize hl' : a'.log e.pre.toStr = l at hs
    cases hs <;> try (cases hr; done)
    cases hr
    rw [hl'] at hk
    have hne : (after env (as ++ [.submit (.event e)])).kel e.pre ≠ [] := by rw [hk]; simp
    rw [computeState_spec env _ (after_inv env _), vec_of_kel hne, hk]
    have : (List.all ((after env as).abs.log e.pre.toStr ++ [e.stored]) SignedEvent.rt) = false := by
      rw [List.all_append]; simp [rt_stored, hrt]
    dsimp only
    rw [if_neg (by rw [this]; decide)]

/-- C08 for states: whenever `compute_state` answers with a state for a non-empty log, it is the fold of the log. -/
theorem C08_compute_state_is_fold (env : Env) (as : List Action) (id : IdentifierPrefix) (hid : id.toStr ≠ [])
    (hne : (after env as).kel id ≠ []) (s : IdState) (h : (computeState sled env id (after env as)).1 = .ok (some s)) :
    stateAfter env ((after env as).kel id) = .ok s := by
  rw [computeState_spec env _ (after_inv env as), vec_of_kel hne] at h
  obtain ⟨s', hl⟩ := after_log env as id hid
  dsimp only at h
  split at h
  · rw [hl.foldState hid] at h
    simp only [Res.ok.injEq, Option.some.injEq] at h
    rw [← h]; exact hl.stateAfter
  · cases h

/-- an inception with a secp256k1 key -/
def Ex.icpK1 : SignedEvent :=
  let m := msgOr ((Event.mk (.basic ⟨.ecdsa, List.replicate 33 3⟩) 0 (.icp ⟨⟨.simple 1, [⟨.ecdsa, List.replicate 33 3⟩], none⟩, 0, [], [], []⟩)).toMessage env .json .blake3_256)
  ⟨m, [⟨0, ⟨.ecdsaSha256, List.replicate 33 3 ++ dig (jsonText m.sval)⟩⟩], none⟩

/-- C08 is false without the round-trip hypothesis: an inception with a secp256k1 key is accepted, and from then on
every query about that identifier crashes, because the text of such keys does not parse back (C35). -/
theorem C08_fails :
    (process sled Ex.env (.event Ex.icpK1) Db.empty).1.isOk = true ∧
    Ex.icpK1.rt = false ∧ Ex.icpK1.pre.toStr ≠ [] ∧
    (computeState sled Ex.env Ex.icpK1.pre (process sled Ex.env (.event Ex.icpK1) Db.empty).2).1 = .panic := by
  decide +kernel

example : Ex.rot.rt = true ∧ Ex.rot.pre.toStr ≠ [] ∧
    (process sled Ex.env (.event Ex.rot) (after Ex.env [.submit (.event Ex.icp)])).1 = .ok (some Ex.rotState) := by decide +kernel

/-! ## C10 -/

/-- C10: a message about one identifier leaves everything stored about any other identifier unchanged: the vector of
every table, hence (`C10_queries`) every answer about it. -/
theorem C10_isolated (env : Env) (as : List Action) (m : Message) (id : IdentifierPrefix) (h : id.toStr ≠ m.subject.toStr)
    (t : Tbl) : (after env (as ++ [.submit m])).vec t id.toStr = (after env as).vec t id.toStr := by
  have hp := process_abs env _ (after_inv env as) m
  have := process_writes env m (after env as).abs t id.toStr (.inl h)
  rw [after_snoc]
  show (process sled env m (after env as)).2.abs.tables t id.toStr = _
  rw [hp.2.1, this]
  rfl

theorem read_run (t : Tbl) (id : IdentifierPrefix) (db : Db) (h : db.Inv) :
    (sled.read t id db).1 = t.iterValues (db.vec t id.toStr) := by
  rw [(sled_sim.read t id db h).1]; rfl

/-- C10 for queries: all table reads and the computed state of other identifiers answer as before. -/
theorem C10_queries (env : Env) (as : List Action) (m : Message) (id : IdentifierPrefix) (h : id.toStr ≠ m.subject.toStr) :
    (∀ t, (sled.read t id (after env (as ++ [.submit m]))).1 = (sled.read t id (after env as)).1) ∧
    (computeState sled env id (after env (as ++ [.submit m]))).1 = (computeState sled env id (after env as)).1 := by
  constructor
  · intro t
    rw [read_run t id _ (after_inv env _), read_run t id _ (after_inv env _), C10_isolated env as m id h]
  · rw [computeState_spec env _ (after_inv env _), computeState_spec env _ (after_inv env _), C10_isolated env as m id h]

/-- different identifiers that can be parsed have different texts, so "other identifier" means exactly that -/
theorem C10_other_text (id id' : IdentifierPrefix) (h : id.rt = true) (h' : id'.rt = true) (hne : id ≠ id') :
    id.toStr ≠ id'.toStr := by
  intro he
  simp only [IdentifierPrefix.rt, decide_eq_true_eq] at h h'
  rw [he, h'] at h
  exact hne (Res.ok.inj h).symm

example : Ex.icpFinal.pre.toStr ≠ Ex.id.toStr ∧
    (computeState sled Ex.env Ex.id (after Ex.env (Ex.hist ++ [.submit (.event Ex.icpFinal)]))).1
      = .ok (some { Ex.rotState with sn := 2, lastDigest := Ex.ixn.dig }) := by decide +kernel

/-! ## C07 -/

/-- C07: when `process` returns an error for an event that can be encoded and all of whose texts parse back,
no other table or identifier changes, the log of the identifier keeps its events, and every computed state of an identifier that has
events is as before.  Beyond this: events that fail to encode or to parse back stay in the log (C02), and for an
identifier without events "unknown" may turn into "known with the default state" (C07_fails). -/
theorem C07_rejected (env : Env) (as : List Action) (e : SignedEvent) (hid : e.pre.toStr ≠ []) (er : Error)
    (hrej : (process sled env (.event e) (after env as)).1 = .err er) (hrt : e.rt = true)
    (hser : ∀ er', e.msg.serialize env ≠ .err er') :
    (∀ (t : Tbl) (id : IdentifierPrefix), (t ≠ .kels ∨ id.toStr ≠ e.pre.toStr) →
      (after env (as ++ [.submit (.event e)])).vec t id.toStr = (after env as).vec t id.toStr) ∧
    (after env (as ++ [.submit (.event e)])).kel e.pre = (after env as).kel e.pre ∧
    ∀ id : IdentifierPrefix, (id.toStr ≠ e.pre.toStr ∨ (after env as).kel id ≠ []) →
      (computeState sled env id (after env (as ++ [.submit (.event e)]))).1 = (computeState sled env id (after env as)).1 := by
  obtain ⟨s, hl, ho⟩ := event_outcome env as e hid
  rw [hrej] at ho
  have main : (∀ (t : Tbl) (y : Bytes), (t ≠ .kels ∨ y ≠ e.pre.toStr) →
      (after env (as ++ [.submit (.event e)])).abs.tables t y = (after env as).abs.tables t y) ∧
      (after env (as ++ [.submit (.event e)])).abs.log e.pre.toStr = (after env as).abs.log e.pre.toStr := by
    generalize (after env (as ++ [.submit (.event e)])).abs = a' at ho
    cases ho with
    | refused _ ht _ => exact ⟨fun t y _ => by rw [ht], MapDb.log_congr ht _⟩
    | stored _ _ hap hs hf =>
      refine ⟨hf, ?_⟩
      generalize hr : (Res.err er : Res (Option IdState)) = r at hs
      generalize a'.log e.pre.toStr = l at hs
      cases hs with
      | accepted => cases hr
      | undone => rfl
      | unreadable _ _ _ _ _ h _ => rw [hrt] at h; cases h
      | noBytesErr _ h => exact absurd h (hser _)
      | noBytesPanic => cases hr
      | panicked => cases hr
  refine ⟨fun t id h => main.1 t _ h, main.2, fun id h => ?_⟩
  rw [computeState_spec env _ (after_inv env _), computeState_spec env _ (after_inv env _)]
  have : (after env (as ++ [.submit (.event e)])).vec .kels id.toStr = (after env as).vec .kels id.toStr := by
    by_cases hx : id.toStr = e.pre.toStr
    · have hne : (after env as).kel id ≠ [] := by rcases h with h | h; exact absurd hx h; exact h
      have hk : (after env (as ++ [.submit (.event e)])).kel id = (after env as).kel id := by
        rw [kel_eq, kel_eq, hx]; exact main.2
      rw [vec_of_kel hne, vec_of_kel (by rw [hk]; exact hne), hk]
    · exact main.1 .kels _ (.inr hx)
  rw [this]

/-- an inception signed with the wrong keys -/
def Ex.badIcp : SignedEvent := signAll Ex.icp.msg [7, 8]

/-- C07 is false: a rejected inception turns an unknown identifier (`None`) into a known one with the default state. -/
theorem C07_fails :
    (computeState sled Ex.env Ex.id Db.empty).1 = .ok none ∧
    (process sled Ex.env (.event Ex.badIcp) Db.empty).1 = .err .signatureVerification ∧
    (computeState sled Ex.env Ex.id (process sled Ex.env (.event Ex.badIcp) Db.empty).2).1 = .ok (some IdState.default) := by
  decide +kernel

example : let e := Ex.signAll Ex.ixn.msg [1, 2]
    (process sled Ex.env (.event e) (after Ex.env [.submit (.event Ex.icp), .submit (.event Ex.rot)])).1
      = .err .signatureVerification ∧ e.rt = true ∧ e.msg.info.kind = .json := by decide +kernel

/-! ## C11, C13 -/

/-- what a refused event leaves -/
theorem refused_if_not_applicable (env : Env) (as : List Action) (e : SignedEvent) (hid : e.pre.toStr ≠ [])
    (h : ∀ s, Log env e.pre.toStr ((after env as).kel e.pre) s → ∀ new, e.msg.applyTo env s ≠ .ok new) :
    (∀ st, (process sled env (.event e) (after env as)).1 ≠ .ok st) ∧
    (∀ (t : Tbl) (id : Bytes), (after env (as ++ [.submit (.event e)])).vec t id = (after env as).vec t id) := by
  obtain ⟨s, hl, ho⟩ := event_outcome env as e hid
  have hn := h s hl
  have : (∀ st, (process sled env (.event e) (after env as)).1 ≠ .ok st) ∧
      (after env (as ++ [.submit (.event e)])).abs.tables = (after env as).abs.tables := by
    generalize (process sled env (.event e) (after env as)).1 = r at ho
    generalize (after env (as ++ [.submit (.event e)])).abs = a' at ho
    cases ho with
    | refused h1 h2 _ => exact ⟨h1, h2⟩
    | stored _ _ hap _ _ => exact absurd hap (hn _)
  exact ⟨this.1, fun t id => congrFun (congrFun this.2 t) id⟩

/-- C11: an event with a sequence number that is already logged — the same event again or any other content — is not
accepted, and nothing at all is written. -/
theorem C11_duplicate_rejected (env : Env) (as : List Action) (e : SignedEvent) (hid : e.pre.toStr ≠ [])
    (hsn : e.sn < ((after env as).kel e.pre).length) :
    (∀ st, (process sled env (.event e) (after env as)).1 ≠ .ok st) ∧
    (∀ (t : Tbl) (id : Bytes), (after env (as ++ [.submit (.event e)])).vec t id = (after env as).vec t id) := by
  refine refused_if_not_applicable env as e hid fun s hl new ha => ?_
  have L := Log.facts hid (Log.snoc (e := e.stored) hl rfl rfl ha)
  have := (L.2.2 ((after env as).kel e.pre).length e.stored (by simp)).1
  have h2 : e.stored.sn = e.sn := rfl
  omega

/-- C13: an event that skips a sequence number is not accepted, and nothing at all is written. -/
theorem C13_gap_rejected (env : Env) (as : List Action) (e : SignedEvent) (hid : e.pre.toStr ≠ [])
    (hsn : ((after env as).kel e.pre).length < e.sn) :
    (∀ st, (process sled env (.event e) (after env as)).1 ≠ .ok st) ∧
    (∀ (t : Tbl) (id : Bytes), (after env (as ++ [.submit (.event e)])).vec t id = (after env as).vec t id) := by
  refine refused_if_not_applicable env as e hid fun s hl new ha => ?_
  have L := Log.facts hid (Log.snoc (e := e.stored) hl rfl rfl ha)
  have := (L.2.2 ((after env as).kel e.pre).length e.stored (by simp)).1
  have h2 : e.stored.sn = e.sn := rfl
  omega

/-- the exact result for events that are not delegated and do not apply -/
theorem refused_result (env : Env) (as : List Action) (e : SignedEvent) (hid : e.pre.toStr ≠ [])
    (hr : Readable ((after env as).kel e.pre)) (hnd : (checkDelegation mapOps env e (after env as).abs).1 = .ok ())
    (s : IdState) (hl : Log env e.pre.toStr ((after env as).kel e.pre) s) (er : Error) (ha : e.msg.applyTo env s = .err er) :
    (process sled env (.event e) (after env as)).1 = .err er := by
  obtain ⟨s', hl', ho⟩ := event_outcome env as e hid
  have := hl'.unique hl
  subst this
  generalize (process sled env (.event e) (after env as)).1 = r at ho
  generalize (after env (as ++ [.submit (.event e)])).abs = a' at ho
  cases ho with
  | refused _ _ h =>
    rcases h with ⟨er', h, _⟩ | ⟨h, _⟩ | ⟨_, ⟨h, _⟩ | ⟨_, er', h, h'⟩ | ⟨_, h, _⟩⟩
    · rw [hnd] at h; cases h
    · rw [hnd] at h; cases h
    · exact absurd hr h
    · rw [ha] at h; cases h; exact h'
    · rw [ha] at h; cases h
  | stored _ _ hap _ _ => rw [ha] at hap; cases hap

theorem plain_checkDelegation (env : Env) (e : SignedEvent) (a : MapDb) (h : (∃ x, e.data = .icp x) ∨ (∃ x, e.data = .rot x) ∨ ∃ x, e.data = .ixn x) :
    (checkDelegation mapOps env e a).1 = .ok () := by
  unfold checkDelegation
  rcases h with ⟨x, h⟩ | ⟨x, h⟩ | ⟨x, h⟩ <;> rw [h] <;> rfl

/-- the delegator recorded in the state is that of the first event of the log -/
theorem Log.delegator {env : Env} {x : Bytes} (hx : x ≠ []) {l : List SignedEvent} {s : IdState} (h : Log env x l s) :
    s.delegator = l.head?.bind (·.data.delegator?) := by
  induction h with
  | nil => rfl
  | @snoc l s e s' hl hp hd ha ih =>
    have A := applyTo_ok ha
    have hF := (Log.facts hx (Log.snoc hl hp hd ha)).2.2 l.length e (by simp)
    rw [A.delegator]
    cases l with
    | nil =>
      have : s = IdState.default := (hl.facts hx).1 rfl
      subst this
      cases he : e.data <;> simp [EventData.delegator?, he, IdState.default]
    | cons a t =>
      have hni : e.data.isInception = false := by
        cases hi : e.data.isInception with
        | false => rfl
        | true => have := hF.2.2.1 hi; simp at this
      cases he : e.data <;> rw [he] at hni <;> first | (cases hni; done) | (simpa using ih)

/-- a plain rotation in a log means the identifier is not delegated -/
theorem Log.delegator_none {env : Env} {x : Bytes} (hx : x ≠ []) {l : List SignedEvent} {s : IdState} (h : Log env x l s)
    {i : Nat} {e : SignedEvent} (he : l[i]? = some e) (r : RotationEvent) (hr : e.data = .rot r) : s.delegator.isSome = false := by
  obtain ⟨s0, s1, h0, _, ha⟩ := h.step he
  have h1 := (applyTo_ok ha).plain r hr
  have hi : i ≠ 0 := by
    intro h0'
    have := ((h.facts hx).2.2 i e he).2.2.2 h0'
    rw [hr] at this; cases this
  rw [h.delegator hx]
  rw [h0.delegator hx] at h1
  have : (l.take i).head? = l.head? := by
    cases l with
    | nil => simp at he
    | cons a t => cases i with
      | zero => exact absurd rfl hi
      | succ i => simp
  rw [this] at h1; rw [h1]; rfl

/-- C11: resubmitting an event that is in the log (not a delegated one) is answered with the duplicate error. -/
theorem C11_resubmission (env : Env) (as : List Action) (e : SignedEvent) (hid : e.pre.toStr ≠ [])
    (hr : Readable ((after env as).kel e.pre)) (he : e.stored ∈ (after env as).kel e.pre)
    (hp : (∃ x, e.data = .icp x) ∨ (∃ x, e.data = .rot x) ∨ ∃ x, e.data = .ixn x) :
    (process sled env (.event e) (after env as)).1 = .err .eventDuplicate := by
  obtain ⟨s, hl⟩ := after_log env as e.pre hid
  refine refused_result env as e hid hr (plain_checkDelegation env e _ hp) s hl _ ?_
  obtain ⟨i, hi, hei⟩ := List.mem_iff_getElem.1 he
  have hget : ((after env as).kel e.pre)[i]? = some e.stored := by rw [List.getElem?_eq_getElem hi, hei]
  obtain ⟨s0, s1, hl0, hl1, ha⟩ := hl.step hget
  have A := applyTo_ok (e := e.stored) ha
  have hne : (after env as).kel e.pre ≠ [] := by intro h; rw [h] at hi; simp at hi
  have F := (hl.facts hid).2.1 hne
  have F3 := (hl.facts hid).2.2 i e.stored hget
  have hsn : e.sn = i := F3.1
  have hpre : e.pre = s.prefix := F3.2.1
  have hlt : e.sn < s.sn + 1 := by omega
  rcases hp with ⟨x, hx⟩ | ⟨x, hx⟩ | ⟨x, hx⟩
  · have hb := A.incBind (by show e.data.isInception = true; rw [hx]; rfl)
    have hb' : verifyIdentifierBinding env e.msg = .ok true := hb
    unfold EventMessage.applyTo
    have hx' : e.msg.event.content.data = .icp x := hx
    rw [hx']
    simp only [hb', Res.ok_bind, if_true]
    unfold Event.applyTo
    rw [hx']
    simp [F.1]
  · unfold EventMessage.applyTo
    have hx' : e.msg.event.content.data = .rot x := hx
    rw [hx']
    simp only [checkEventDigest_self, Res.ok_bind]
    have hd : s.delegator.isSome = false := by
      have h1 := A.plain x hx
      -- the delegator never changes in a log whose first event is not a delegated inception
      exact Log.delegator_none hid hl hget x hx
    rw [hd]
    unfold Event.applyTo
    rw [hx']
    have : ¬ (e.msg.event.content.prefix ≠ s.prefix) := by simpa using hpre
    simp [this, hlt]
  · unfold EventMessage.applyTo
    have hx' : e.msg.event.content.data = .ixn x := hx
    rw [hx']
    simp only [checkEventDigest_self, Res.ok_bind]
    unfold Event.applyTo
    rw [hx']
    have : ¬ (e.msg.event.content.prefix ≠ s.prefix) := by simpa using hpre
    simp [this, hlt]

/-- C11: a conflicting plain event — any content at a number that is used — is answered with the duplicate error if its identifier parses
back and it is an interaction, or a rotation of an identifier without a delegator, or an inception that is bound to its identifier; a plain
rotation of a delegated identifier, and an inception that is not bound to its identifier, are answered with a semantic error. -/
theorem C11_conflict (env : Env) (as : List Action) (e : SignedEvent) (hid : e.pre.toStr ≠ []) (hrt : e.pre.rt = true)
    (hr : Readable ((after env as).kel e.pre)) (hsn : e.sn < ((after env as).kel e.pre).length) :
    ((∃ x, e.data = .ixn x) → (process sled env (.event e) (after env as)).1 = .err .eventDuplicate) ∧
    ((∃ x, e.data = .rot x) → (∀ d ∈ (after env as).kel e.pre, d.data.delegator? = none) →
      (process sled env (.event e) (after env as)).1 = .err .eventDuplicate) ∧
    ((∃ x, e.data = .rot x) → (∃ d ∈ (after env as).kel e.pre, d.data.delegator? ≠ none) →
      ∃ why, (process sled env (.event e) (after env as)).1 = .err (.semantic why)) ∧
    ((∃ x, e.data = .icp x) → verifyIdentifierBinding env e.msg = .ok true →
      (process sled env (.event e) (after env as)).1 = .err .eventDuplicate) ∧
    ((∃ x, e.data = .icp x) → verifyIdentifierBinding env e.msg = .ok false →
      ∃ why, (process sled env (.event e) (after env as)).1 = .err (.semantic why)) := by
  obtain ⟨s, hl⟩ := after_log env as e.pre hid
  have hne : (after env as).kel e.pre ≠ [] := by intro h; rw [h] at hsn; simp at hsn
  have F := (hl.facts hid).2.1 hne
  have hpre : e.msg.event.content.prefix = s.prefix := by
    obtain ⟨a, t, hat⟩ := List.exists_cons_of_ne_nil hne
    have ha : a ∈ (after env as).kel e.pre := by rw [hat]; simp
    have h1 : a.pre = s.prefix := ((hl.facts hid).2.2 0 a (by rw [hat]; rfl)).2.1
    have h2 := C03_same_identifier env as e.pre hid hrt a ha (by
      have := hr a ha
      simp only [SignedEvent.rt, Bool.and_eq_true] at this
      simp_all [EventMessage.rt])
    show e.pre = s.prefix
    rw [← h2]; exact h1
  have hlt : e.msg.event.content.sn < s.sn + 1 := by
    have : e.msg.event.content.sn < ((after env as).kel e.pre).length := hsn
    have := F.2.2.1
    omega
  have hdel := hl.delegator hid
  refine ⟨?_, ?_, ?_, ?_, ?_⟩
  · rintro ⟨x, hx⟩
    refine refused_result env as e hid hr (plain_checkDelegation env e _ (.inr (.inr ⟨x, hx⟩))) s hl _ ?_
    have hx' : e.msg.event.content.data = .ixn x := hx
    unfold EventMessage.applyTo
    rw [hx']
    simp only [checkEventDigest_self, Res.ok_bind]
    unfold Event.applyTo
    rw [hx']
    simp [hpre, hlt]
  · rintro ⟨x, hx⟩ hno
    refine refused_result env as e hid hr (plain_checkDelegation env e _ (.inr (.inl ⟨x, hx⟩))) s hl _ ?_
    have hx' : e.msg.event.content.data = .rot x := hx
    have hd : s.delegator.isSome = false := by
      rw [hdel]
      obtain ⟨a, t, hat⟩ := List.exists_cons_of_ne_nil hne
      rw [hat]
      show (a.data.delegator?).isSome = false
      rw [hno a (by rw [hat]; simp)]; rfl
    unfold EventMessage.applyTo
    rw [hx']
    simp only [checkEventDigest_self, Res.ok_bind]
    rw [hd]
    unfold Event.applyTo
    rw [hx']
    simp [hpre, hlt]
  · rintro ⟨x, hx⟩ ⟨d, hd, hdd⟩
    refine ⟨_, refused_result env as e hid hr (plain_checkDelegation env e _ (.inr (.inl ⟨x, hx⟩))) s hl
      (.semantic "Applying non-delegated rotation to delegated state.") ?_⟩
    have hx' : e.msg.event.content.data = .rot x := hx
    have hs : s.delegator.isSome = true := by
      obtain ⟨i, hi, hei⟩ := List.mem_iff_getElem.1 hd
      have hg : ((after env as).kel e.pre)[i]? = some d := by rw [List.getElem?_eq_getElem hi, hei]
      have hinc : d.data.isInception = true := by
        cases hdt : d.data <;> rw [hdt] at hdd <;> first | rfl | exact absurd rfl hdd
      have h0 : i = 0 := ((hl.facts hid).2.2 i d hg).2.2.1 hinc
      subst h0
      rw [hdel]
      have : ((after env as).kel e.pre).head? = some d := by rw [← hg, List.head?_eq_getElem?]
      rw [this]
      show (d.data.delegator?).isSome = true
      cases h : d.data.delegator? with
      | none => exact absurd h hdd
      | some _ => rfl
    unfold EventMessage.applyTo
    rw [hx']
    simp only [checkEventDigest_self, Res.ok_bind, hs, if_true]
  · rintro ⟨x, hx⟩ hb
    refine refused_result env as e hid hr (plain_checkDelegation env e _ (.inl ⟨x, hx⟩)) s hl _ ?_
    have hx' : e.msg.event.content.data = .icp x := hx
    unfold EventMessage.applyTo
    rw [hx']
    simp only [hb, Res.ok_bind, if_true]
    unfold Event.applyTo
    rw [hx']
    simp [F.1]
  · rintro ⟨x, hx⟩ hb
    refine ⟨_, refused_result env as e hid hr (plain_checkDelegation env e _ (.inl ⟨x, hx⟩)) s hl
      (.semantic "Invalid Identifier Prefix Binding") ?_⟩
    have hx' : e.msg.event.content.data = .icp x := hx
    unfold EventMessage.applyTo
    rw [hx']
    simp [hb]

/-- `Ex.poison` is such a conflicting event -/
example : Ex.poison.pre.rt = true ∧ ((after Ex.env Ex.hist).kel Ex.poison.pre).all SignedEvent.rt = true ∧
    Ex.poison.sn < ((after Ex.env Ex.hist).kel Ex.poison.pre).length ∧ (∃ x, Ex.poison.data = .ixn x) ∧
    (process sled Ex.env (.event Ex.poison) (after Ex.env Ex.hist)).1 = .err .eventDuplicate := by
  refine ⟨by decide +kernel, by decide +kernel, by decide +kernel, ⟨_, rfl⟩, by decide +kernel⟩

/-- hypotheses of C11: resubmitting the rotation, and a conflicting interaction at an already used number -/
example : Ex.rot.stored ∈ (after Ex.env Ex.hist).kel Ex.id ∧ (∃ x, Ex.rot.data = .rot x) ∧
    ((after Ex.env Ex.hist).kel Ex.id).all SignedEvent.rt = true ∧
    (process sled Ex.env (.event Ex.rot) (after Ex.env Ex.hist)).1 = .err .eventDuplicate ∧
    Ex.poison.sn < ((after Ex.env Ex.hist).kel Ex.poison.pre).length := by
  refine ⟨by decide +kernel, ⟨_, rfl⟩, by decide +kernel⟩

/-- C13, the error: on a readable, non-empty log an interaction, or a rotation of an identifier without a delegator, whose
number is too large is answered with the out-of-order error. -/
theorem C13_out_of_order_error (env : Env) (as : List Action) (e : SignedEvent) (hid : e.pre.toStr ≠ []) (hrt : e.pre.rt = true)
    (hr : Readable ((after env as).kel e.pre)) (hne : (after env as).kel e.pre ≠ [])
    (hsn : ((after env as).kel e.pre).length < e.sn)
    (hp : (∃ x, e.data = .ixn x) ∨
      ((∃ x, e.data = .rot x) ∧ ∀ d ∈ (after env as).kel e.pre, d.data.delegator? = none)) :
    (process sled env (.event e) (after env as)).1 = .err .eventOutOfOrder := by
  obtain ⟨s, hl⟩ := after_log env as e.pre hid
  have hp' : (∃ x, e.data = .icp x) ∨ (∃ x, e.data = .rot x) ∨ ∃ x, e.data = .ixn x := by
    rcases hp with h | ⟨h, _⟩
    · exact .inr (.inr h)
    · exact .inr (.inl h)
  refine refused_result env as e hid hr (plain_checkDelegation env e _ hp') s hl _ ?_
  have F := (hl.facts hid).2.1 hne
  have hpre : e.pre = s.prefix := by
    obtain ⟨a, t, hat⟩ := List.exists_cons_of_ne_nil hne
    have h0 : ((after env as).kel e.pre)[0]? = some a := by rw [hat]; rfl
    have h1 := ((hl.facts hid).2.2 0 a h0).2.1
    have hmem : a ∈ (after env as).kel e.pre := List.mem_of_getElem? h0
    have hart : a.pre.rt = true := by
      have := hr a hmem
      simp only [SignedEvent.rt, EventMessage.rt, Bool.and_eq_true] at this
      exact this.1.1.1.2
    rw [← h1]
    exact (C03_same_identifier env as e.pre hid hrt a hmem hart).symm
  have h1 : ¬ (e.msg.event.content.prefix ≠ s.prefix) := by simpa using hpre
  have h2 : ¬ (e.msg.event.content.sn < s.sn + 1) := by have := F.2.2.1; show ¬ (e.sn < s.sn + 1); omega
  have h3 : s.sn + 1 < e.msg.event.content.sn := by have := F.2.2.1; show s.sn + 1 < e.sn; omega
  rcases hp with ⟨x, hx⟩ | ⟨⟨x, hx⟩, hd⟩
  · have hx' : e.msg.event.content.data = .ixn x := hx
    unfold EventMessage.applyTo
    rw [hx']
    simp only [checkEventDigest_self, Res.ok_bind]
    unfold Event.applyTo
    rw [hx']
    simp [h1, h2, h3]
  · have hx' : e.msg.event.content.data = .rot x := hx
    have hs : s.delegator.isSome = false := by
      rw [hl.delegator hid]
      cases hh : ((after env as).kel e.pre).head? with
      | none => rfl
      | some d => simp [hd d (List.mem_of_head? hh)]
    unfold EventMessage.applyTo
    rw [hx']
    simp only [checkEventDigest_self, Res.ok_bind, hs]
    unfold Event.applyTo
    rw [hx']
    simp [h1, h2, h3]

/-- C13 for an identifier without events: an interaction is answered with another error (the code compares the
identifier with the default one first). -/
theorem C13_unknown_identifier (env : Env) (as : List Action) (e : SignedEvent) (hid : e.pre.toStr ≠ [])
    (hn : (after env as).kel e.pre = []) (hp : ∃ x, e.data = .ixn x) :
    (process sled env (.event e) (after env as)).1 = .err (.semantic "Prefix does not match") := by
  obtain ⟨s, hl⟩ := after_log env as e.pre hid
  refine refused_result env as e hid (by rw [hn]; intro x hx; simp at hx) (plain_checkDelegation env e _ (.inr (.inr hp))) s hl _ ?_
  have hs : s = IdState.default := (hl.facts hid).1 hn
  obtain ⟨x, hx⟩ := hp
  have hx' : e.msg.event.content.data = .ixn x := hx
  subst hs
  have h1 : e.msg.event.content.prefix ≠ IdState.default.prefix := fun h => hid (by show e.msg.event.content.prefix.toStr = []; rw [h]; rfl)
  unfold EventMessage.applyTo
  rw [hx']
  simp only [checkEventDigest_self, Res.ok_bind]
  unfold Event.applyTo
  rw [hx']
  simp [h1]

/-- the interaction (number 2) arriving directly after the inception -/
example : Ex.ixn.pre.rt = true ∧ (after Ex.env [.submit (.event Ex.icp)]).kel Ex.ixn.pre = [Ex.icp] ∧ Ex.icp.rt = true ∧
    Ex.ixn.sn = 2 ∧ (∃ x, Ex.ixn.data = .ixn x) ∧
    (process sled Ex.env (.event Ex.ixn) (after Ex.env [.submit (.event Ex.icp)])).1 = .err .eventOutOfOrder ∧
    (process sled Ex.env (.event Ex.ixn) (after Ex.env [])).1 = .err (.semantic "Prefix does not match") := by
  refine ⟨by decide +kernel, by decide +kernel, by decide +kernel, by decide +kernel, ⟨_, rfl⟩, by decide +kernel, by decide +kernel⟩

end Keriox
