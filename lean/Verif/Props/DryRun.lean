import Verif.DryRun
import Verif.Props.WitnessQuery

/-! C91: `Keri::process` tries an event out. -/

namespace Keriox

theorem keriProcess_run (env : Env) (as : List Action) (id : IdentifierPrefix) (apply : IdState → Res IdState) :
    (keriProcess sled env id apply (after env as)).2 = after env (as ++ [.lookup .kels id]) ∧
    (keriProcess sled env id apply (after env as)).1 = (match (computeState sled env id (after env as)).1 with
      | .ok (some s) => (match apply s with | .ok _ => .ok () | .err e => .err e | .panic => .panic)
      | .ok none => .err (.semantic "Unknown identifier.")
      | .err e => .err e
      | .panic => .panic) := by
  have hdb := computeState_after_db env as id
  unfold keriProcess processActualEvent
  rw [StM.bind_run, StM.bind_run]
  rcases hc : computeState sled env id (after env as) with ⟨r, d⟩
  rw [hc] at hdb
  simp only at hdb
  subst hdb
  cases r with
  | err e => exact ⟨rfl, rfl⟩
  | panic => exact ⟨rfl, rfl⟩
  | ok o =>
    cases o with
    | none => exact ⟨rfl, rfl⟩
    | some s =>
      dsimp only
      rw [StM.bind_run]
      unfold StM.lift
      cases apply s <;> exact ⟨rfl, rfl⟩

/-- C91: trying an event out stores nothing, whatever the event and whatever the outcome: every table keeps its contents. -/
theorem C91_unchanged (env : Env) (as : List Action) (id : IdentifierPrefix) (apply : IdState → Res IdState) (t : Tbl) (x : Bytes) :
    (keriProcess sled env id apply (after env as)).2.vec t x = (after env as).vec t x := by
  rw [(keriProcess_run env as id apply).1]
  show (after env (as ++ [.lookup .kels id])).abs.tables t x = (after env as).abs.tables t x
  rw [after_abs, after_abs, runHistory_append]
  exact congrFun (congrFun (MapDb.touch_tables _ _) t) x

/-- C91: for an identifier with a log that can be read, the answer is positive exactly if the event applies to the present state. -/
theorem C91_exact (env : Env) (as : List Action) (id : IdentifierPrefix) (hid : id.toStr ≠ []) (hne : (after env as).kel id ≠ [])
    (hr : Readable ((after env as).kel id)) (apply : IdState → Res IdState) :
    (keriProcess sled env id apply (after env as)).1 = .ok () ↔
      ∃ s new, stateAfter env ((after env as).kel id) = .ok s ∧ apply s = .ok new := by
  obtain ⟨s, hl, hc⟩ := computeState_log env as id hid hne hr
  rw [(keriProcess_run env as id apply).2, hc, hl.stateAfter]
  dsimp only
  constructor
  · intro h
    cases ha : apply s with
    | ok n => exact ⟨s, n, rfl, ha⟩
    | err e => rw [ha] at h; cases h
    | panic => rw [ha] at h; cases h
  · rintro ⟨s', new, h1, h2⟩
    cases h1
    rw [h2]

/-- C91: what the processor accepts for an identifier that has a log, trying out would have approved. -/
theorem C91_predicts (env : Env) (as : List Action) (e : SignedEvent) (hid : e.pre.toStr ≠ []) (hne : (after env as).kel e.pre ≠ []) (o : Option IdState)
    (h : (process sled env (.event e) (after env as)).1 = .ok o) :
    (keriProcess sled env e.pre (e.msg.applyTo env) (after env as)).1 = .ok () := by
  obtain ⟨s, new, b, _, hl, hr, _, ha, _⟩ := accepted_inv env as e hid o h
  exact (C91_exact env as e.pre hid hne hr _).2 ⟨s, new, hl.stateAfter, ha⟩

/-- C91: and conversely, an event that is tried out with success is accepted if it is not a delegated one and is signed by the keys in force. -/
theorem C91_suffices (env : Env) (as : List Action) (e : SignedEvent) (hid : e.pre.toStr ≠ []) (hne : (after env as).kel e.pre ≠ [])
    (hr : Readable ((after env as).kel e.pre)) (hpl : e.data.isDelegated = false)
    (h : (keriProcess sled env e.pre (e.msg.applyTo env) (after env as)).1 = .ok ())
    (hsig : ∀ s new, stateAfter env ((after env as).kel e.pre) = .ok s → e.msg.applyTo env s = .ok new →
      ∃ bytes, e.msg.serialize env = .ok bytes ∧ ValidSigs env new.current bytes e.sigs) :
    ∃ st, (process sled env (.event e) (after env as)).1 = .ok (some st) := by
  obtain ⟨s, new, h1, h2⟩ := (C91_exact env as e.pre hid hne hr _).1 h
  obtain ⟨b, hs, hv⟩ := hsig s new h1 h2
  obtain ⟨s', hl⟩ := after_log env as e.pre hid
  have := hl.stateAfter
  rw [h1] at this
  cases this
  have hplain : (∃ x, e.msg.event.content.data = .icp x) ∨ (∃ x, e.msg.event.content.data = .rot x) ∨ ∃ x, e.msg.event.content.data = .ixn x := by
    have hd : e.msg.event.content.data.isDelegated = false := hpl
    cases hx : e.msg.event.content.data with
    | icp x => exact .inl ⟨x, rfl⟩
    | rot x => exact .inr (.inl ⟨x, rfl⟩)
    | ixn x => exact .inr (.inr ⟨x, rfl⟩)
    | dip x => rw [hx] at hd; cases hd
    | drt x => rw [hx] at hd; cases hd
  exact ⟨new, (accepts env as e hid s new b hl hr (plain_checkDelegation env _ _ hplain) h2 hs (verify_of_validSigs hv)).1⟩

/-- C91, what it does not mean: signatures and delegation are not looked at. Every event that anyone could get accepted is approved without
any signature. -/
theorem C91_fails_unsigned (env : Env) (as : List Action) (e : SignedEvent) (hid : e.pre.toStr ≠ []) (hne : (after env as).kel e.pre ≠ []) (o : Option IdState)
    (h : (process sled env (.event e) (after env as)).1 = .ok o) (sigs : List AttachedSignaturePrefix) (sl : Option SourceSeal) :
    (keriProcess sled env e.pre ((⟨e.msg, sigs, sl⟩ : SignedEvent).msg.applyTo env) (after env as)).1 = .ok () :=
  C91_predicts env as e hid hne o h

/-- C91, the other way it fails: no inception is ever approved, neither of an identifier that is not known nor of one that is, although the processor
accepts inceptions of unknown ones. -/
theorem C91_fails_inception (env : Env) (as : List Action) (id : IdentifierPrefix) (hid : id.toStr ≠ []) (m : EventMessage)
    (hm : m.event.content.data.isInception = true) (hne : (after env as).kel id ≠ [] ∨ (after env as).vec .kels id.toStr = none) :
    (keriProcess sled env id (m.applyTo env) (after env as)).1 ≠ .ok () := by
  intro h
  rcases hne with hne | hn
  · rw [(keriProcess_run env as id _).2] at h
    cases hc : (computeState sled env id (after env as)).1 with
    | err e => rw [hc] at h; cases h
    | panic => rw [hc] at h; cases h
    | ok o =>
      rw [hc] at h
      cases o with
      | none => cases h
      | some s =>
        dsimp only at h
        have hs := (computeState_after env as id hid hc).1 s rfl
        obtain ⟨s', hl⟩ := after_log env as id hid
        have := hl.stateAfter
        rw [hs] at this
        cases this
        cases ha : m.applyTo env s with
        | err e => rw [ha] at h; cases h
        | panic => rw [ha] at h; cases h
        | ok new =>
          have A := (applyTo_ok (e := ⟨m, [], none⟩) ha).incPre hm
          exact ((hl.facts hid).2.1 hne).1 A
  · rw [(keriProcess_run env as id _).2, computeState_spec env _ (after_inv env as), hn] at h
    cases h

open Ex in
/-- the hypotheses are met: the interaction on top of inception and rotation; the inception of an unknown identifier is accepted by the processor -/
example : let as : List Action := [.submit (.event icp), .submit (.event rot)]
    ixn.pre.toStr ≠ [] ∧ (after env as).kel ixn.pre ≠ [] ∧ Readable ((after env as).kel ixn.pre) ∧ ixn.data.isDelegated = false ∧
    (process sled env (.event ixn) (after env as)).1.isOk = true ∧
    (after env []).vec .kels id.toStr = none ∧ (process sled env (.event icp) (after env [])).1.isOk = true := by
  refine ⟨by decide +kernel, by decide +kernel, by unfold Readable; decide +kernel, by decide +kernel, by decide +kernel, by decide +kernel, by decide +kernel⟩

end Keriox
