import Verif.Props.State
/-!
# C09: replaying a log
-/
namespace Keriox

theorem Log.noSeal {env : Env} {x : Bytes} {l : List SignedEvent} {s : IdState} (h : Log env x l s) (e : SignedEvent) (he : e ∈ l) :
    e.delegatorSeal = none ∧ e.pre.toStr = x := by
  induction h with
  | nil => simp at he
  | snoc _ hp hd _ ih =>
    rcases List.mem_append.1 he with h | h
    · exact ih h
    · simp only [List.mem_singleton] at h; subst h; exact ⟨hd, hp⟩

theorem kel_text (db : Db) {id id' : IdentifierPrefix} (h : id.toStr = id'.toStr) : db.kel id = db.kel id' := by
  unfold Db.kel; rw [h]

/-- submit the events of a log one after the other -/
def replay (l : List SignedEvent) : List Action := l.map fun e => .submit (.event e)

/-- C09: the log of an identifier that is not delegated, if it can be read and its events are signed (always the
case for accepted events, C02), is accepted event by event by a processor with an empty database, and gives the same log and the
same computed state.  Beyond this: delegated identifiers (`C09_fails_for_delegated`), and logs containing what C02 lets in. -/
theorem C09_replay (env : Env) (as : List Action) (id : IdentifierPrefix) (hid : id.toStr ≠ [])
    (hr : Readable ((after env as).kel id)) (hnd : ∀ e ∈ (after env as).kel id, e.data.isDelegated = false)
    (hsig : ∀ i, i < ((after env as).kel id).length → SignedInForce env ((after env as).kel id) i) :
    (∀ i e, ((after env as).kel id)[i]? = some e → ∃ st,
      (process sled env (.event e) (after env (replay (((after env as).kel id).take i)))).1 = .ok (some st) ∧
      stateAfter env (((after env as).kel id).take (i + 1)) = .ok st) ∧
    (after env (replay ((after env as).kel id))).kel id = (after env as).kel id ∧
    ((after env as).kel id ≠ [] → (computeState sled env id (after env (replay ((after env as).kel id)))).1 =
      (computeState sled env id (after env as)).1) := by
  obtain ⟨s, hl⟩ := after_log env as id hid
  have step : ∀ k e, ((after env as).kel id)[k]? = some e →
      (after env (replay (((after env as).kel id).take k))).kel id = ((after env as).kel id).take k →
      ∃ st, (process sled env (.event e) (after env (replay (((after env as).kel id).take k)))).1 = .ok (some st) ∧
        stateAfter env (((after env as).kel id).take (k + 1)) = .ok st ∧
        (after env (replay (((after env as).kel id).take (k + 1)))).kel id = ((after env as).kel id).take (k + 1) := by
    intro k e he hk
    have hmem := List.mem_of_getElem? he
    obtain ⟨hseal, hpre⟩ := hl.noSeal e hmem
    obtain ⟨s0, s1, hl0, hl1, hap⟩ := hl.step he
    have hk' : (after env (replay (((after env as).kel id).take k))).kel e.pre = ((after env as).kel id).take k := by
      exact (kel_text _ hpre).trans hk
    have hke : k < ((after env as).kel id).length := (List.getElem?_eq_some_iff.1 he).1
    obtain ⟨e', kc, bytes, g1, g2, g3, g4⟩ := hsig k hke
    rw [he] at g1
    cases g1
    have hkc : s1.current = kc := by
      have := hl1.keys hid (by rw [Ne, List.take_eq_nil_iff]; rintro (h | h); omega; rw [h] at he; simp at he)
      rw [g2] at this
      exact (Option.some.inj this).symm
    have hplain : (∃ x, e.data = .icp x) ∨ (∃ x, e.data = .rot x) ∨ ∃ x, e.data = .ixn x := by
      have := hnd e hmem
      cases hd : e.data with
      | icp x => exact .inl ⟨x, rfl⟩
      | rot x => exact .inr (.inl ⟨x, rfl⟩)
      | ixn x => exact .inr (.inr ⟨x, rfl⟩)
      | dip x => rw [hd] at this; cases this
      | drt x => rw [hd] at this; cases this
    have acc := accepts env (replay (((after env as).kel id).take k)) e (by rw [hpre]; exact hid) s0 s1 bytes
      (by rw [hk', hpre]; exact hl0) (by rw [hk']; exact fun x hx => hr x (List.mem_of_mem_take hx))
      (plain_checkDelegation env e _ hplain) hap g3 (by rw [hkc]; exact verify_of_validSigs g4)
    refine ⟨s1, acc.1, hl1.stateAfter, ?_⟩
    have hst : e.stored = e := by
      obtain ⟨m, sg, ds⟩ := e
      simp only at hseal
      subst hseal
      rfl
    have hrep : replay (((after env as).kel id).take (k + 1)) = replay (((after env as).kel id).take k) ++ [.submit (.event e)] := by
      have h2 : ((after env as).kel id)[k] = e := (List.getElem?_eq_some_iff.1 he).2
      rw [List.take_succ_eq_append_getElem hke, h2]
      simp [replay]
    rw [hrep]
    have := acc.2
    rw [hk', hst] at this
    have h2 : ((after env as).kel id)[k] = e := (List.getElem?_eq_some_iff.1 he).2
    rw [List.take_succ_eq_append_getElem hke, h2]
    exact (kel_text _ hpre).symm.trans this
  have all : ∀ k, k ≤ ((after env as).kel id).length →
      (after env (replay (((after env as).kel id).take k))).kel id = ((after env as).kel id).take k := by
    intro k
    induction k with
    | zero => intro _; rw [List.take_zero]; rfl
    | succ k ih =>
      intro hk
      obtain ⟨_, _, _, h⟩ := step k _ (List.getElem?_eq_getElem (by omega)) (ih (by omega))
      exact h
  have hfull := all _ (Nat.le_refl _)
  rw [List.take_length] at hfull
  refine ⟨fun i e he => ?_, hfull, fun hne => ?_⟩
  · obtain ⟨st, h1, h2, _⟩ := step i e he (all i (Nat.le_of_lt (List.getElem?_eq_some_iff.1 he).1))
    exact ⟨st, h1, h2⟩
  · rw [computeState_spec env _ (after_inv env _), computeState_spec env _ (after_inv env _), vec_of_kel hne,
      vec_of_kel (by rw [hfull]; exact hne), hfull]

/-- C09 is false for every delegated event: the stored form has lost its source seal and is refused by any processor, in any
state. -/
theorem C09_fails_for_delegated (env : Env) (as bs : List Action) (id : IdentifierPrefix) (hid : id.toStr ≠ []) (e : SignedEvent)
    (he : e ∈ (after env as).kel id) (hd : e.data.isDelegated = true) (st : Option IdState) :
    (process sled env (.event e) (after env bs)).1 ≠ .ok st := by
  intro hacc
  obtain ⟨s, hl⟩ := after_log env as id hid
  obtain ⟨hseal, hpre⟩ := hl.noSeal e he
  obtain ⟨_, sl, h, _⟩ := C14_accepted_anchored env bs e (by rw [hpre]; exact hid) hd st hacc
  rw [hseal] at h
  cases h

/-- hypotheses met: the log of three events; and a delegated log -/
example : ((after Ex.env Ex.hist).kel Ex.id).all (fun e => !e.data.isDelegated) = true ∧
    ((after Ex.env Ex.hist).kel Ex.id).length = 3 ∧ ((after Ex.env Ex.hist).kel Ex.id).all SignedEvent.rt = true ∧
    (after Ex.env (replay ((after Ex.env Ex.hist).kel Ex.id))).kel Ex.id = [Ex.icp, Ex.rot, Ex.ixn] := by decide +kernel
theorem Ex.hist_signed : ∀ i, i < ((after Ex.env Ex.hist).kel Ex.id).length → SignedInForce Ex.env ((after Ex.env Ex.hist).kel Ex.id) i := by
  intro i hi
  have hk : (after Ex.env Ex.hist).kel Ex.id = [Ex.icp, Ex.rot, Ex.ixn] := by decide +kernel
  have hcall : ∀ before sub rest, Ex.hist = before ++ .submit (.event sub) :: rest →
      (process sled Ex.env (.event sub) (after Ex.env before)).1 ≠ .panic := by
    intro before sub rest h
    have h1 : (process sled Ex.env (.event Ex.icp) (after Ex.env [])).1 ≠ .panic := by decide +kernel
    have h2 : (process sled Ex.env (.event Ex.rot) (after Ex.env [.submit (.event Ex.icp)])).1 ≠ .panic := by decide +kernel
    have h3 : (process sled Ex.env (.event Ex.ixn) (after Ex.env [.submit (.event Ex.icp), .submit (.event Ex.rot)])).1 ≠ .panic := by
      decide +kernel
    unfold Ex.hist at h
    cases before with
    | nil => simp only [List.nil_append, List.cons.injEq, Action.submit.injEq, Message.event.injEq] at h; rw [← h.1]; exact h1
    | cons a before =>
      cases before with
      | nil =>
        simp only [List.cons_append, List.nil_append, List.cons.injEq, Action.submit.injEq, Message.event.injEq] at h
        rw [← h.1, ← h.2.1]; exact h2
      | cons b before =>
        cases before with
        | nil =>
          simp only [List.cons_append, List.nil_append, List.cons.injEq, Action.submit.injEq, Message.event.injEq] at h
          rw [← h.1, ← h.2.1, ← h.2.2.1]; exact h3
        | cons c before => simp at h
  have hser : ∀ sub, .submit (.event sub) ∈ Ex.hist → ∀ er, sub.msg.serialize Ex.env ≠ .err er := by
    intro sub h
    have : sub = Ex.icp ∨ sub = Ex.rot ∨ sub = Ex.ixn := by simpa [Ex.hist] using h
    refine C02_json_encodes _ _ ?_
    rcases this with rfl | rfl | rfl <;> decide +kernel
  exact C02_readable_log_is_signed Ex.env Ex.hist Ex.id (by decide +kernel) hcall hser
    ((readable_iff _).1 (by rw [hk]; decide +kernel)) i hi
example : Ex.dip.stored ∈ (after Ex.env (Ex.delHist Ex.dipSeal ++ [.submit (.event Ex.dip)])).kel Ex.dip.pre ∧
    (process sled Ex.env (.event Ex.dip.stored) (after Ex.env (Ex.delHist Ex.dipSeal))).1 = .err (.semantic "Missing source seal") := by
  decide +kernel

end Keriox
