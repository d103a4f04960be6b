import Verif.Props.Events
/-!
# C12, C14, C15: duplicity records and delegation
-/
namespace Keriox

/-! ## C12 -/

theorem Writes.result_lift {α β : Type} {T : Tbl → Prop} {x : Bytes} (r : Res α) (k : Except Error α → StM MapDb β)
    (h1 : ∀ v, r = .ok v → Writes T x (k (.ok v))) (h2 : ∀ e, r = .err e → Writes T x (k (.error e))) :
    Writes T x ((StM.lift r : StM MapDb α).result >>= k) := by
  intro a t y hy
  cases r with
  | ok v => exact h1 v rfl a t y hy
  | err e => exact h2 e rfl a t y hy
  | panic => rfl

/-- an event submission writes the log table only -/
theorem processEvent_kels (env : Env) (e : SignedEvent) :
    Writes (fun t => t = .kels) e.pre.toStr (processEvent mapOps env e) := by
  refine .bind (.ofRo (checkDelegation_ro env e)) fun _ => .bind (.ofRo (applyToState_ro env _)) fun new => ?_
  unfold storeAndVerify addKel removeKel
  refine .bind (.push _ (by simp) _ _) fun _ => .bind (.ofRo (.lift _)) fun bytes => .result_lift _ _ ?_ ?_
  · intro v _; exact .ofRo (.pure _)
  · intro er her
    refine .bind ?_ fun _ => .bind (.remove _ (by simp) _ _) fun _ => .ofRo (.fail _)
    have : er ≠ .eventDuplicate := fun h => verifyOutcome_not_duplicate env new bytes e.sigs (h ▸ her)
    unfold noteDup
    rw [if_neg this]
    exact .ofRo (.pure _)

theorem action_no_dup (env : Env) (act : Action) (a : MapDb) (t : Tbl) (ht : t = .dels ∨ t = .ldes) :
    (act.run mapOps env a).tables t = a.tables t := by
  have hk : t ≠ .kels := by rcases ht with rfl | rfl <;> simp
  have h1 : ¬ (t = .knas ∨ t = .knes) := by rcases ht with rfl | rfl <;> simp
  have h2 : ¬ (t = .vrcs ∨ t = .vres) := by rcases ht with rfl | rfl <;> simp
  have h3 : ¬ (t = .rcts ∨ t = .ures) := by rcases ht with rfl | rfl <;> simp
  cases act with
  | reprocess => exact escrow_writes env a t h1
  | lookup t' id => rw [Action.run, ReadOnly.read t' id a]
  | submit m =>
    cases m with
    | event e => exact WritesTbl.of (processEvent_kels env e) a t hk
    | rctNt r => exact WritesTbl.of (witnessReceipt_writes env r) a t h3
    | rctT r => exact WritesTbl.of (validatorReceipt_writes env r) a t h2
    | reply r => exact WritesTbl.of (signedReply_writes env r) a t h1
    | query q => rfl

/-- C12 is false for every history: whatever is submitted, `get_duplicious_events` and `get_likely_duplicitous_events`
find nothing for any identifier. -/
theorem C12_fails_for_all (env : Env) (as : List Action) (id : IdentifierPrefix) :
    (getDup sled id (after env as)).1 = .ok none ∧ (getLikelyDup sled id (after env as)).1 = .ok none := by
  have key : ∀ t : Tbl, (t = .dels ∨ t = .ldes) → ∀ x, (after env as).vec t x = none := by
    intro t ht x
    have : (runHistory mapOps env MapDb.empty as).tables t = fun _ => none := by
      refine snoc_induction (P := fun as => (runHistory mapOps env MapDb.empty as).tables t = fun _ => none) as rfl ?_
      intro l a ih
      rw [runHistory_append]
      show (a.run mapOps env (runHistory mapOps env MapDb.empty l)).tables t = _
      rw [action_no_dup env a _ t ht, ih]
    rw [← after_abs] at this
    exact congrFun this x
  constructor
  · unfold getDup
    rw [read_run .dels id _ (after_inv env as), key .dels (.inl rfl)]; rfl
  · unfold getLikelyDup
    rw [read_run .ldes id _ (after_inv env as), key .ldes (.inr rfl)]; rfl

/-- a second, different, correctly signed interaction at number 2 -/
def Ex.dupIxn : SignedEvent := signAll (msgOr ((Event.mk id 2 (.ixn ⟨rot.dig, []⟩)).toMessage env .json .blake3_256)) [4, 5]

/-- the situation of C12 occurs: the second event is a valid continuation of the log before the first one, arrives after it,
is refused, and is recorded nowhere -/
example : Ex.dupIxn.msg ≠ Ex.ixn.msg ∧
    (process sled Ex.env (.event Ex.dupIxn) (after Ex.env [.submit (.event Ex.icp), .submit (.event Ex.rot)])).1.isOk = true ∧
    (process sled Ex.env (.event Ex.dupIxn) (after Ex.env Ex.hist)).1 = .err .eventDuplicate ∧
    (getDup sled Ex.id (after Ex.env (Ex.hist ++ [.submit (.event Ex.dupIxn)]))).1 = .ok none := by decide +kernel

/-! ## C15 -/

/-- C15: a log that begins with a delegated inception contains no plain rotation, and any other log contains no delegated
rotation; the delegator in the computed state is that of the first event. -/
theorem C15_no_mixing (env : Env) (as : List Action) (id : IdentifierPrefix) (hid : id.toStr ≠ []) (e0 e : SignedEvent)
    (h0 : ((after env as).kel id)[0]? = some e0) (he : e ∈ (after env as).kel id) :
    (∀ r, e.data = .rot r → e0.data.delegator? = none) ∧ (∀ r, e.data = .drt r → ∃ d, e0.data.delegator? = some d) := by
  obtain ⟨s, hl⟩ := after_log env as id hid
  obtain ⟨i, hi, rfl⟩ := List.mem_iff_getElem.1 he
  have hget := List.getElem?_eq_getElem hi
  obtain ⟨s0, s1, hl0, _, ha⟩ := hl.step hget
  have A := applyTo_ok ha
  have hhead : ∀ (hne : i ≠ 0), (((after env as).kel id).take i).head? = some e0 := by
    intro hne
    cases hk : (after env as).kel id with
    | nil => rw [hk] at h0; simp at h0
    | cons a t =>
      rw [hk] at h0
      simp only [List.getElem?_cons_zero, Option.some.injEq] at h0
      subst h0
      cases i with
      | zero => exact absurd rfl hne
      | succ i => simp
  have hni : ((after env as).kel id)[i].data.isInception = false → i ≠ 0 := by
    intro h h0'
    have := ((hl.facts hid).2.2 i _ hget).2.2.2 h0'
    rw [h] at this; cases this
  constructor
  · intro r hr
    have h1 := A.plain r hr
    rw [hl0.delegator hid, hhead (hni (by rw [hr]; rfl))] at h1
    simpa using h1
  · intro r hr
    have h1 := A.delegated r hr
    rw [hl0.delegator hid, hhead (hni (by rw [hr]; rfl))] at h1
    simpa [Option.isSome_iff_exists] using h1

/-- C15: the delegator in the state computed for an identifier is the one named by the first event of its log, now and
for ever. -/
theorem C15_delegator_constant (env : Env) (as bs : List Action) (id : IdentifierPrefix) (hid : id.toStr ≠ []) (e0 : SignedEvent)
    (h0 : ((after env as).kel id)[0]? = some e0) (s : IdState)
    (hs : (computeState sled env id (after env (as ++ bs))).1 = .ok (some s)) : s.delegator = e0.data.delegator? := by
  obtain ⟨t, ht⟩ := C01_append_only env as bs id hid
  have h0' : ((after env (as ++ bs)).kel id)[0]? = some e0 := by
    rw [← ht, List.getElem?_append_left (List.getElem?_eq_some_iff.1 h0).1]; exact h0
  have hne : (after env (as ++ bs)).kel id ≠ [] := by intro h; rw [h] at h0'; simp at h0'
  have hst := C08_compute_state_is_fold env _ id hid hne s hs
  obtain ⟨s', hl⟩ := after_log env (as ++ bs) id hid
  rw [hl.stateAfter] at hst
  cases hst
  rw [hl.delegator hid, List.head?_eq_getElem?, h0']
  rfl

/-! ## C14 -/

theorem checkDigest_names {env : Env} {m : EventMessage} {d : SelfAddressingPrefix} (h : m.checkDigest env d = .ok true) :
    NamesEvent env m d := by
  unfold EventMessage.checkDigest at h
  split at h
  · exact .inl (of_decide_eq_true (Res.ok.inj h))
  · rename_i hne
    simp only [Res.bind_eq_ok] at h
    obtain ⟨data, hd, hv⟩ := h
    exact .inr ⟨hne, data, hd, Res.ok.inj hv⟩

theorem anySealMatches_ok {env : Env} {m : EventMessage} {l : List Seal} (h : anySealMatches env m l = .ok true) :
    ∃ es, Seal.event es ∈ l ∧ NamesEvent env m es.eventDigest := by
  induction l with
  | nil => cases h
  | cons a l ih =>
    cases a with
    | event es =>
      simp only [anySealMatches] at h
      split at h
      · rename_i hc; exact ⟨es, by simp, checkDigest_names hc⟩
      · obtain ⟨x, hx, hn⟩ := ih h; exact ⟨x, by simp [hx], hn⟩
      · cases h
    | _ =>
      simp only [anySealMatches] at h
      obtain ⟨x, hx, hn⟩ := ih h
      exact ⟨x, by simp [hx], hn⟩

theorem anchors_seals {d : EventData} {l : List Seal} (h : d.anchors? = some l) : d.seals = l ∧ d.isInception = false := by
  cases d <;> simp_all [EventData.anchors?, EventData.seals, EventData.isInception]

theorem bind_ok_inv {σ α β : Type} {x : StM σ α} {f : α → StM σ β} {s : σ} {b : β} (h : ((x >>= f) s).1 = .ok b) :
    ∃ a s', x s = (.ok a, s') ∧ (f a s').1 = .ok b := by
  rw [StM.bind_run] at h
  rcases hx : x s with ⟨r, s'⟩
  rw [hx] at h
  cases r with
  | ok a => exact ⟨a, s', rfl, h⟩
  | err e => cases h
  | panic => cases h

theorem result_inv {σ α : Type} {x : StM σ α} {s s' : σ} {r : Except Error α} (h : x.result s = (.ok r, s')) :
    (∃ a, r = .ok a ∧ x s = (.ok a, s')) ∨ (∃ e, r = .error e ∧ x s = (.err e, s')) := by
  unfold StM.result at h
  rcases hx : x s with ⟨r', s''⟩
  rw [hx] at h
  cases r' with
  | ok a => simp only [Prod.mk.injEq, Res.ok.injEq] at h; exact .inl ⟨a, h.1.symm, by rw [h.2]⟩
  | err e => simp only [Prod.mk.injEq, Res.ok.injEq] at h; exact .inr ⟨e, h.1.symm, by rw [h.2]⟩
  | panic => simp at h

/-- reading an event of a reachable log -/
theorem getEventAtSn_log (env : Env) (a : MapDb) (hg : a.Good env) (id : IdentifierPrefix) (hid : id.toStr ≠ []) (n : Nat)
    (e : SignedEvent) (h : (getEventAtSn mapOps id n a).1 = .ok (some e)) : (a.log id.toStr)[n]? = some e := by
  obtain ⟨s, hl⟩ := hg id.toStr hid
  rw [getEventAtSn_run] at h
  unfold MapDb.log at hl ⊢
  cases hk : a.tables .kels id.toStr with
  | none => rw [hk] at h; simp at h
  | some l =>
    rw [hk] at h hl
    dsimp only [Option.getD_some] at h hl ⊢
    split at h
    · rw [find_sn l (fun _ _ he => hl.sn_eq hid he) n] at h
      exact Res.ok.inj h
    · cases h

theorem validateSeal_ok (env : Env) (a : MapDb) (hg : a.Good env) (sl : EventSeal) (m : EventMessage) (hid : sl.prefix.toStr ≠ [])
    (h : (validateSeal mapOps env sl m a).1 = .ok ()) : AnchoredAt env (a.log sl.prefix.toStr) sl.sn m := by
  unfold validateSeal at h
  obtain ⟨r, a1, h1, h2⟩ := bind_ok_inv h
  rcases result_inv h1 with ⟨o, rfl, h3⟩ | ⟨e, rfl, h3⟩
  · cases o with
    | none => cases h2
    | some e =>
      have he := getEventAtSn_log env a hg sl.prefix hid sl.sn e (by rw [h3])
      dsimp only at h2
      cases hd : e.data.anchors? with
      | none => rw [hd] at h2; cases h2
      | some data =>
        rw [hd] at h2
        obtain ⟨b, a2, h4, h5⟩ := bind_ok_inv h2
        have hb : anySealMatches env m data = .ok b := by
          have := congrArg Prod.fst h4; exact this
        cases b with
        | false => cases h5
        | true =>
          obtain ⟨es, hm, hn⟩ := anySealMatches_ok hb
          obtain ⟨g1, g2⟩ := anchors_seals hd
          exact ⟨e, es, he, g2, by rw [g1]; exact hm, hn⟩
  · cases h2

/-- what an accepting delegation check has established: the delegator it used, and the anchor in that log -/
theorem checkDelegation_ok (env : Env) (a : MapDb) (hg : a.Good env) (e : SignedEvent) (hid : e.pre.toStr ≠ [])
    {s : IdState} (hl : Log env e.pre.toStr (a.log e.pre.toStr) s)
    (hd : e.data.isDelegated = true) (h : (checkDelegation mapOps env e a).1 = .ok ()) :
    ∃ d sl, e.delegatorSeal = some sl ∧ ((a.log e.pre.toStr ++ [e]).head?.bind (·.data.delegator?) = some d ∨
        e.data.delegator? = some d) ∧
      (d.toStr ≠ [] → AnchoredAt env (a.log d.toStr) sl.sn e.msg) := by
  unfold checkDelegation at h
  cases hdat : e.data with
  | icp x => rw [hdat] at hd; cases hd
  | rot x => rw [hdat] at hd; cases hd
  | ixn x => rw [hdat] at hd; cases hd
  | dip d =>
    rw [hdat] at h
    dsimp only at h
    cases hs : e.delegatorSeal with
    | none => rw [hs] at h; cases h
    | some sl =>
      rw [hs] at h
      exact ⟨d.delegator, sl, rfl, .inr rfl, fun hne => validateSeal_ok env a hg ⟨d.delegator, sl.sn, sl.digest⟩ e.msg hne h⟩
  | drt r =>
    rw [hdat] at h
    dsimp only at h
    obtain ⟨o, a1, h1, h2⟩ := bind_ok_inv h
    rw [computeState_run] at h1
    simp only [Prod.mk.injEq] at h1
    obtain ⟨h1, rfl⟩ := h1
    cases o with
    | none => cases h2
    | some st =>
      have hst : st = s ∧ a.log e.pre.toStr ≠ [] ∨ st.delegator = none := by
        unfold MapDb.log at hl ⊢
        cases hk : a.tables .kels e.pre.toStr with
        | none => rw [hk] at h1; simp at h1
        | some l =>
          rw [hk] at h1 hl
          dsimp only [Option.getD_some] at h1 hl ⊢
          split at h1
          · rw [hl.foldState hid] at h1
            simp only [Res.ok.injEq, Option.some.injEq] at h1
            subst h1
            by_cases hne : l = []
            · right
              have := (hl.facts hid).1 hne
              subst this; rfl
            · exact .inl ⟨rfl, hne⟩
          · cases h1
      dsimp only at h2
      cases hdel : st.delegator with
      | none => rw [hdel] at h2; cases h2
      | some del =>
        rw [hdel] at h2
        rcases hst with ⟨rfl, hne⟩ | hst
        · cases hs : e.delegatorSeal with
          | none => rw [hs] at h2; cases h2
          | some sl =>
            rw [hs] at h2
            refine ⟨del, sl, rfl, .inl ?_, fun hnz => ?_⟩
            · rw [hl.delegator hid] at hdel
              rw [List.head?_append]
              cases hh : (a.log e.pre.toStr).head? with
              | none => rw [hh] at hdel; simp at hdel
              | some x => rw [hh] at hdel; simpa using hdel
            · have hg1 : (a.touch e.pre.toStr).Good env := fun x hx => by
                have := hg x hx
                rwa [MapDb.log_congr (MapDb.touch_tables a e.pre.toStr)]
              have := validateSeal_ok env _ hg1 ⟨del, sl.sn, sl.digest⟩ e.msg hnz h2
              rwa [MapDb.log_congr (MapDb.touch_tables a e.pre.toStr)] at this
        · rw [hst] at hdel; cases hdel

theorem AnchoredAt.prefix {env : Env} {l l' : List SignedEvent} {n : Nat} {m : EventMessage} (h : AnchoredAt env l n m) (hp : l <+: l') :
    AnchoredAt env l' n m := by
  obtain ⟨a, es, h1, h2⟩ := h
  obtain ⟨t, rfl⟩ := hp
  exact ⟨a, es, by rw [List.getElem?_append_left (List.getElem?_eq_some_iff.1 h1).1]; exact h1, h2⟩

/-- C14: an accepted delegated event carries a source seal, and the delegator's log holds, at the number named
by that seal, a rotation or interaction with an event seal whose digest names the event.  Beyond this: nothing compares the
identifier and number inside the anchoring seal with the event, nor the digest of the source seal with the anchoring event
(`C14_fails`). -/
theorem C14_accepted_anchored (env : Env) (as : List Action) (e : SignedEvent) (hid : e.pre.toStr ≠ [])
    (hd : e.data.isDelegated = true) (st : Option IdState)
    (hacc : (process sled env (.event e) (after env as)).1 = .ok st) :
    ∃ del sl, e.delegatorSeal = some sl ∧ (∃ new, st = some new ∧ new.delegator = some del) ∧
      (del.toStr ≠ [] → AnchoredAt env ((after env as).kel del) sl.sn e.msg) := by
  obtain ⟨s, hl, ho⟩ := event_outcome env as e hid
  rw [hacc] at ho
  cases ho with
  | refused h _ _ => exact absurd rfl (h st)
  | @stored new hcd _ hap hs _ =>
    generalize hr : (Res.ok st : Res (Option IdState)) = r at hs
    generalize ((after env (as ++ [.submit (.event e)])).abs.log e.pre.toStr) = l at hs
    cases hs <;> try (cases hr; done)
    cases hr
    obtain ⟨d, sl, h1, h2, h3⟩ := checkDelegation_ok env _ (after_good env as) e hid hl hd hcd
    refine ⟨d, sl, h1, ⟨new, rfl, ?_⟩, h3⟩
    have L := Log.snoc (e := e.stored) hl rfl rfl hap
    rw [L.delegator hid]
    rcases h2 with h2 | h2
    · rw [kel_eq]
      rw [List.head?_append] at h2 ⊢
      cases hh : ((after env as).abs.log e.pre.toStr).head? with
      | none => rw [hh] at h2; simp at h2 ⊢; exact h2
      | some x => rw [hh] at h2; simpa using h2
    · have hinc : e.stored.data.isInception = true := by
        have : e.data.delegator? = some d := h2
        show e.data.isInception = true
        revert this; cases e.data <;> simp [EventData.delegator?, EventData.isInception]
      have hpos := ((L.facts hid).2.2 ((after env as).kel e.pre).length e.stored (by simp)).2.2.1 hinc
      rw [List.length_eq_zero_iff.1 hpos]
      exact h2

/-- C14 for logs (same gap): every delegated event in a log — even one left there by a failed call — is anchored in
the log of the delegator named by the first event of the log. -/
theorem C14_logged_anchored (env : Env) (as : List Action) (id : IdentifierPrefix) (hid : id.toStr ≠ []) (e0 e : SignedEvent)
    (h0 : ((after env as).kel id)[0]? = some e0) (he : e ∈ (after env as).kel id) (hd : e.data.isDelegated = true) :
    ∃ del, e0.data.delegator? = some del ∧ (del.toStr ≠ [] → ∃ n, AnchoredAt env ((after env as).kel del) n e.msg) := by
  revert e0 e
  refine snoc_induction (P := fun as => ∀ e0 e : SignedEvent, ((after env as).kel id)[0]? = some e0 → e ∈ (after env as).kel id →
    e.data.isDelegated = true → ∃ del, e0.data.delegator? = some del ∧
      (del.toStr ≠ [] → ∃ n, AnchoredAt env ((after env as).kel del) n e.msg)) as ?_ ?_
  · intro e0 e h0 _ _
    have : (after env []).kel id = [] := rfl
    rw [this] at h0; simp at h0
  · intro as act ih e0 e h0 he hd
    have old : ((after env as).kel id)[0]? = some e0 → e ∈ (after env as).kel id → ∃ del, e0.data.delegator? = some del ∧
      (del.toStr ≠ [] → ∃ n, AnchoredAt env ((after env (as ++ [act])).kel del) n e.msg) := by
      intro h0 he
      obtain ⟨del, h1, h2⟩ := ih e0 e h0 he hd
      refine ⟨del, h1, fun hne => ?_⟩
      obtain ⟨n, hn⟩ := h2 hne
      exact ⟨n, hn.prefix (C01_append_only env as [act] del hne)⟩
    rcases C01_one_step env as act id hid with h | ⟨sub, rfl, hp, h⟩
    · rw [h] at h0 he
      exact old h0 he
    · have h0' : (after env as).kel id ≠ [] → ((after env as).kel id)[0]? = some e0 := by
        intro hne
        rw [h, List.getElem?_append_left (List.length_pos_iff.2 hne)] at h0
        exact h0
      rw [h] at he
      rcases List.mem_append.1 he with he | he
      · exact old (h0' (List.ne_nil_of_mem he)) he
      · simp only [List.mem_singleton] at he
        subst he
        have hsub : sub.pre.toStr ≠ [] := by rw [hp]; exact hid
        have hkel : (after env as).kel sub.pre = (after env as).kel id := by rw [kel_eq, kel_eq, hp]
        obtain ⟨s, hl, ho⟩ := event_outcome env as sub hsub
        generalize (process sled env (.event sub) (after env as)).1 = r at ho
        generalize ha : (after env (as ++ [.submit (.event sub)])).abs = a' at ho
        have hlog : a'.log sub.pre.toStr = (after env as).kel id ++ [sub.stored] := by
          rw [← ha, ← h]; rw [kel_eq, hp]
        cases ho with
        | refused _ ht _ =>
          have := MapDb.log_congr ht sub.pre.toStr
          rw [hlog, ← kel_eq, hkel] at this
          simp at this
        | @stored new hcd _ hap _ _ =>
          obtain ⟨d, sl, _, h2, h3⟩ := checkDelegation_ok env _ (after_good env as) sub hsub hl hd hcd
          have L := Log.snoc (e := sub.stored) hl rfl rfl hap
          refine ⟨d, ?_, fun hne => ?_⟩
          · rw [← kel_eq, hkel] at h2
            rcases h2 with h2 | h2
            · rw [h, ← List.head?_eq_getElem?] at h0
              rw [List.head?_append] at h0 h2
              cases hh : ((after env as).kel id).head? with
              | none => rw [hh] at h0 h2; simp at h0 h2; subst h0; exact h2
              | some x => rw [hh] at h0 h2; simp at h0 h2; subst h0; exact h2
            · have hinc : sub.stored.data.isInception = true := by
                have : sub.data.delegator? = some d := h2
                show sub.data.isInception = true
                revert this; cases sub.data <;> simp [EventData.delegator?, EventData.isInception]
              have hpos := ((L.facts hsub).2.2 ((after env as).kel sub.pre).length sub.stored (by simp)).2.2.1 hinc
              rw [hkel] at hpos
              have hnil := List.length_eq_zero_iff.1 hpos
              rw [h, hnil] at h0
              simp at h0
              subst h0
              exact h2
          · exact ⟨sl.sn, (h3 hne).prefix (C01_append_only env as [_] d hne)⟩

/-! ### Examples -/

/-- a delegated inception, delegator `Ex.id` -/
def Ex.dipMsg : EventMessage :=
  msgOr (inceptSelfAddressing env (.dip ⟨⟨kc [11, 12] [13, 14] (.simple 2), 0, [], [], []⟩, id⟩) .blake3_256 .json)
/-- signed, with the source seal naming number 2 of the delegator -/
def Ex.dip : SignedEvent := { signAll dipMsg [11, 12] with delegatorSeal := some ⟨2, dig b!"whatever" |> fun d => ⟨.blake3_256, d⟩⟩ }
/-- the anchoring interaction of the delegator -/
def Ex.anchor (es : EventSeal) : SignedEvent :=
  signAll (msgOr ((Event.mk id 2 (.ixn ⟨rot.dig, [.event es]⟩)).toMessage env .json .blake3_256)) [4, 5]
/-- a delegated rotation -/
def Ex.drtMsg : EventMessage :=
  msgOr ((Event.mk dipMsg.event.content.prefix 1 (.drt ⟨dipMsg.event.digest, kc [13, 14] [15, 16] (.simple 2), 0, [], [], []⟩)).toMessage env .json .blake3_256)
/-- history up to the anchor -/
def Ex.delHist (es : EventSeal) : List Action := [.submit (.event icp), .submit (.event rot), .submit (.event (anchor es))]
/-- the honest seal -/
def Ex.dipSeal : EventSeal := ⟨dipMsg.event.content.prefix, 0, dipMsg.event.digest⟩

/-- the hypotheses of C14 and C15 are met by a delegated inception -/
example : (process sled Ex.env (.event Ex.dip) (after Ex.env (Ex.delHist Ex.dipSeal))).1.isOk = true ∧
    Ex.dip.data.isDelegated = true ∧ Ex.dip.pre.toStr ≠ [] ∧
    (after Ex.env (Ex.delHist Ex.dipSeal ++ [.submit (.event Ex.dip)])).kel Ex.dip.pre = [Ex.dip.stored] ∧
    (computeState sled Ex.env Ex.dip.pre (after Ex.env (Ex.delHist Ex.dipSeal ++ [.submit (.event Ex.dip)]))).1.isOk = true := by
  decide +kernel

/-- the delegated rotation, signed, with a source seal naming number 3 of the delegator -/
def Ex.drt : SignedEvent := { signAll drtMsg [13, 14] with delegatorSeal := some ⟨3, ⟨.blake3_256, dig b!"whatever"⟩⟩ }
/-- its anchor -/
def Ex.anchor2 : SignedEvent :=
  signAll (msgOr ((Event.mk id 3 (.ixn ⟨(anchor dipSeal).dig, [.event ⟨drtMsg.event.content.prefix, 1, drtMsg.event.digest⟩]⟩)).toMessage env .json .blake3_256)) [4, 5]

/-- and by a log with a delegated rotation -/
example : (after Ex.env (Ex.delHist Ex.dipSeal ++ [.submit (.event Ex.dip), .submit (.event Ex.anchor2), .submit (.event Ex.drt)])).kel Ex.dip.pre
    = [Ex.dip.stored, Ex.drt.stored] ∧ Ex.drt.data.isDelegated = true ∧ Ex.dip.stored.data.delegator? = some Ex.id := by decide +kernel

/-- C14 is false in its full form: the anchoring seal may name another identifier and another number, and the digest in
the source seal may be arbitrary. -/
theorem C14_fails :
    let sl : EventSeal := ⟨.basic (Ex.key 77), 5, Ex.dipMsg.event.digest⟩
    (process sled Ex.env (.event Ex.dip) (after Ex.env (Ex.delHist sl))).1.isOk = true ∧ sl.prefix ≠ Ex.dip.pre ∧ sl.sn ≠ Ex.dip.sn ∧
    Ex.dip.delegatorSeal.map (·.digest) ≠ some (Ex.anchor sl).dig := by decide +kernel

/-- C14 fails altogether together with C24: an anchor nobody signed, left in the delegator's log by a crashed call, is
enough to have a delegated inception accepted after the restart. -/
theorem C14_fails_forged_anchor :
    let forged : SignedEvent := { Ex.anchor Ex.dipSeal with sigs := [Ex.sig 99 7 [], Ex.sig 98 8 []] }
    let db := after Ex.env [.submit (.event Ex.icp), .submit (.event Ex.rot), .submit (.event forged)]
    (process sled Ex.env (.event forged) (after Ex.env [.submit (.event Ex.icp), .submit (.event Ex.rot)])).1 = .panic ∧
    (process sled Ex.env (.event Ex.dip) db).1.isOk = true := by decide +kernel

end Keriox
