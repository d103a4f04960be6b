import Verif.EventDb
import Verif.Props.Wire
import Verif.Props.Events
import Verif.Props.State

/-!
# C99: the state computed from an application's own event database
-/
namespace Keriox

/-- what the database answers from number `n` on is: exactly these events, each as a text that is read as that event -/
def Serves (look : Nat → Res (Option Bytes)) (bin : Binary) (ms : List EventMessage) : Prop :=
  ∀ i m, ms[i]? = some m → ∃ raw rest, look i = .ok (some raw) ∧ altP (jsonMessage desKeyEvent) bin.event raw = .ok rest (m.info, m.event)

/-- the events applied in order to the empty state -/
def applyAll (env : Env) (ms : List EventMessage) : Res IdState := ms.foldlM (fun s m => m.applyTo env s) IdState.default

theorem loop_more {look : Nat → Res (Option Bytes)} {bin : Binary} {env : Env} {fuel sn : Nat} {s : IdState} {r : Res (Option IdState)}
    (h : stateLoop look bin env fuel sn s = some r) (k : Nat) : stateLoop look bin env (fuel + k) sn s = some r := by
  induction fuel generalizing sn s with
  | zero => cases h
  | succ n ih =>
    rw [show n + 1 + k = (n + k) + 1 by omega]
    simp only [stateLoop] at h ⊢
    cases hp : statePass look bin env sn s with
    | next s' => rw [hp] at h; exact ih h
    | stop r' => rw [hp] at h; exact h

/-- the call has one outcome -/
theorem StateForPrefix.unique {look : Nat → Res (Option Bytes)} {bin : Binary} {env : Env} {r r' : Res (Option IdState)}
    (h : StateForPrefix look bin env r) (h' : StateForPrefix look bin env r') : r = r' := by
  obtain ⟨f, h⟩ := h
  obtain ⟨f', h'⟩ := h'
  have h1 := loop_more h f'
  have h2 := loop_more h' f
  rw [Nat.add_comm, h2] at h1
  exact (Option.some.inj h1).symm

theorem foldlM_snoc (env : Env) (s : IdState) (ms : List EventMessage) (m : EventMessage) :
    (ms ++ [m]).foldlM (fun s m => m.applyTo env s) s = (ms.foldlM (fun s m => m.applyTo env s) s >>= fun s => m.applyTo env s) := by
  induction ms generalizing s with
  | nil =>
    simp only [List.nil_append, List.foldlM_cons, List.foldlM_nil]
    show (m.applyTo env s >>= fun s' => Res.ok s') = m.applyTo env s
    cases m.applyTo env s <;> rfl
  | cons a ms ih =>
    simp only [List.cons_append, List.foldlM_cons]
    cases a.applyTo env s with
    | ok s' => exact ih s'
    | err e => rfl
    | panic => rfl

theorem applyAll_snoc (env : Env) (ms : List EventMessage) (m : EventMessage) :
    applyAll env (ms ++ [m]) = applyAll env ms >>= fun s => m.applyTo env s := foldlM_snoc env _ ms m

/-- running through the events that apply -/
theorem loop_reach {look : Nat → Res (Option Bytes)} {bin : Binary} {env : Env} (ms : List EventMessage) (s : IdState)
    (hs : Serves look bin ms) (ha : applyAll env ms = .ok s) (fuel : Nat) :
    stateLoop look bin env (ms.length + fuel) 0 IdState.default = stateLoop look bin env fuel ms.length s := by
  induction ms using snoc_induction generalizing s fuel with
  | h0 => cases ha; simp
  | h1 ms m ih =>
    rw [applyAll_snoc, Res.bind_eq_ok] at ha
    obtain ⟨s0, h1, h2⟩ := ha
    have hs' : Serves look bin ms := by
      intro i x hx
      refine hs i x ?_
      rw [List.getElem?_append_left (List.getElem?_eq_some_iff.1 hx).1]
      exact hx
    rw [List.length_append, List.length_singleton, Nat.add_assoc, Nat.add_comm 1 fuel, ih s0 hs' h1 (fuel + 1)]
    obtain ⟨raw, rest, g1, g2⟩ := hs ms.length m (by simp)
    simp only [stateLoop, statePass, g1, g2, h2]

/-- C99, exactly: `get_state_for_prefix` returns `r` precisely when the database serves some events that apply one after the other, giving `s`,
and what it answers for the next number stops the method with `r`: no event (no state if there was none at all, else `s`), an error of the
database (that error), bytes that are no key event (a panic), an event that does not apply (silently `s`). -/
theorem C99_exact (look : Nat → Res (Option Bytes)) (bin : Binary) (env : Env) (r : Res (Option IdState)) :
    StateForPrefix look bin env r ↔ ∃ ms s, Serves look bin ms ∧ applyAll env ms = .ok s ∧
      ((look ms.length = .ok none ∧ r = .ok (if ms = [] then none else some s)) ∨
       (∃ e, look ms.length = .err e ∧ r = .err e) ∨ (look ms.length = .panic ∧ r = .panic) ∨
       ∃ raw, look ms.length = .ok (some raw) ∧
        (((∀ rest e, altP (jsonMessage desKeyEvent) bin.event raw ≠ .ok rest e) ∧ r = .panic) ∨
         ∃ rest info ev, altP (jsonMessage desKeyEvent) bin.event raw = .ok rest (info, ev) ∧
          ((∃ x, EventMessage.applyTo env ⟨info, ev⟩ s = .err x ∧ r = .ok (some s)) ∨ (EventMessage.applyTo env ⟨info, ev⟩ s = .panic ∧ r = .panic)))) := by
  constructor
  · rintro ⟨fuel, h⟩
    have key : ∀ fuel (ms : List EventMessage) s, Serves look bin ms → applyAll env ms = .ok s → stateLoop look bin env fuel ms.length s = some r →
        ∃ ms s, Serves look bin ms ∧ applyAll env ms = .ok s ∧ statePass look bin env ms.length s = .stop r := by
      intro fuel
      induction fuel with
      | zero => intro ms s _ _ h; cases h
      | succ n ih =>
        intro ms s hs ha h
        simp only [stateLoop] at h
        cases hp : statePass look bin env ms.length s with
        | stop r' => rw [hp] at h; cases h; exact ⟨ms, s, hs, ha, hp⟩
        | next s' =>
          rw [hp] at h
          dsimp only at h
          unfold statePass at hp
          cases h1 : look ms.length with
          | err e => rw [h1] at hp; cases hp
          | panic => rw [h1] at hp; cases hp
          | ok o =>
            rw [h1] at hp
            cases o with
            | none => cases hp
            | some raw =>
              dsimp only at hp
              cases h2 : altP (jsonMessage desKeyEvent) bin.event raw with
              | ok rest e =>
                rw [h2] at hp
                dsimp only at hp
                cases h3 : EventMessage.applyTo env ⟨e.1, e.2⟩ s with
                | ok s'' =>
                  rw [h3] at hp
                  cases hp
                  refine ih (ms ++ [⟨e.1, e.2⟩]) s' ?_ ?_ (by rw [List.length_append]; exact h)
                  · intro i m hm
                    by_cases hi : i < ms.length
                    · rw [List.getElem?_append_left hi] at hm; exact hs i m hm
                    · have hlt := (List.getElem?_eq_some_iff.1 hm).1
                      simp only [List.length_append, List.length_singleton] at hlt
                      have : i = ms.length := by omega
                      subst this
                      simp only [List.getElem?_concat_length, Option.some.injEq] at hm
                      subst hm
                      exact ⟨raw, rest, h1, h2⟩
                  · rw [applyAll_snoc, ha]; exact h3
                | err x => rw [h3] at hp; cases hp
                | panic => rw [h3] at hp; cases hp
              | error => rw [h2] at hp; cases hp
              | failure => rw [h2] at hp; cases hp
              | incomplete => rw [h2] at hp; cases hp
              | panic => rw [h2] at hp; cases hp
    obtain ⟨ms, s, hs, ha, hp⟩ := key fuel [] IdState.default (fun i m h => by cases h) rfl h
    refine ⟨ms, s, hs, ha, ?_⟩
    unfold statePass at hp
    cases h1 : look ms.length with
    | err e => rw [h1] at hp; cases hp; exact .inr (.inl ⟨e, rfl, rfl⟩)
    | panic => rw [h1] at hp; cases hp; exact .inr (.inr (.inl ⟨rfl, rfl⟩))
    | ok o =>
      rw [h1] at hp
      cases o with
      | none =>
        cases hp
        refine .inl ⟨rfl, ?_⟩
        cases ms <;> simp
      | some raw =>
        refine .inr (.inr (.inr ⟨raw, rfl, ?_⟩))
        dsimp only at hp
        cases h2 : altP (jsonMessage desKeyEvent) bin.event raw with
        | ok rest e =>
          rw [h2] at hp
          dsimp only at hp
          refine .inr ⟨rest, e.1, e.2, rfl, ?_⟩
          cases h3 : EventMessage.applyTo env ⟨e.1, e.2⟩ s with
          | ok s'' => rw [h3] at hp; cases hp
          | err x => rw [h3] at hp; cases hp; exact .inl ⟨x, rfl, rfl⟩
          | panic => rw [h3] at hp; cases hp; exact .inr ⟨rfl, rfl⟩
        | error => rw [h2] at hp; cases hp; exact .inl ⟨fun _ _ h => (by cases h), rfl⟩
        | failure => rw [h2] at hp; cases hp; exact .inl ⟨fun _ _ h => (by cases h), rfl⟩
        | incomplete => rw [h2] at hp; cases hp; exact .inl ⟨fun _ _ h => (by cases h), rfl⟩
        | panic => rw [h2] at hp; cases hp; exact .inl ⟨fun _ _ h => (by cases h), rfl⟩
  · rintro ⟨ms, s, hs, ha, h⟩
    refine ⟨ms.length + 1, ?_⟩
    rw [loop_reach ms s hs ha 1]
    have : statePass look bin env ms.length s = .stop r := by
      unfold statePass
      rcases h with ⟨h, rfl⟩ | ⟨e, h, rfl⟩ | ⟨h, rfl⟩ | ⟨raw, h, h'⟩
      · rw [h]; cases ms <;> simp
      · rw [h]
      · rw [h]
      · rw [h]
        dsimp only
        rcases h' with ⟨h1, rfl⟩ | ⟨rest, info, ev, h1, h2⟩
        · cases h2 : altP (jsonMessage desKeyEvent) bin.event raw with
          | ok rest e => exact absurd h2 (h1 _ _)
          | _ => rfl
        · rw [h1]
          dsimp only
          rcases h2 with ⟨x, h2, rfl⟩ | ⟨h2, rfl⟩ <;> rw [h2]
    simp only [stateLoop, this]

/-! ## With the log of a node -/

/-- a database holding the JSON texts of these events, one for each number -/
def heldTexts (l : List SignedEvent) (n : Nat) : Res (Option Bytes) := .ok (l[n]?.map fun e => jsonText e.msg.sval)

theorem held_serves (bin : Binary) (l : List SignedEvent) (hl : ∀ e ∈ l, e.msg.Representable) :
    Serves (heldTexts l) bin (l.map SignedEvent.msg) := by
  intro i m hm
  rw [List.getElem?_map, Option.map_eq_some_iff] at hm
  obtain ⟨e, he, rfl⟩ := hm
  refine ⟨jsonText e.msg.sval, [], by unfold heldTexts; rw [he]; rfl, ?_⟩
  have := C44_roundtrip e.msg [] (hl e (List.mem_of_getElem? he))
  rw [List.append_nil] at this
  unfold altP
  rw [this]

/-- C99: when an application's database holds the texts of the log a node has after any history, the method reports the state the node reports. -/
theorem C99_as_node (env : Env) (bin : Binary) (as : List Action) (id : IdentifierPrefix) (hid : id.toStr ≠ []) (hne : (after env as).kel id ≠ [])
    (hr : ∀ e ∈ (after env as).kel id, e.msg.Representable) (s : IdState) (hc : (computeState sled env id (after env as)).1 = .ok (some s)) :
    StateForPrefix (heldTexts ((after env as).kel id)) bin env (.ok (some s)) := by
  have hs := C08_compute_state_is_fold env as id hid hne s hc
  rw [C99_exact]
  refine ⟨((after env as).kel id).map SignedEvent.msg, s, held_serves bin _ hr, ?_, .inl ⟨?_, ?_⟩⟩
  · unfold applyAll
    rw [List.foldlM_map]
    exact hs
  · unfold heldTexts
    rw [List.length_map, List.getElem?_eq_none (Nat.le_refl _)]
    rfl
  · rw [if_neg (by simpa using hne)]

/-- C99 fails as a test for the existence of an identifier: a first event that does not apply gives a state all the same, the empty one. -/
theorem C99_fails_unknown (env : Env) (bin : Binary) (look : Nat → Res (Option Bytes)) (raw rest : Bytes) (info : SerInfo) (ev : KeyEvent)
    (h0 : look 0 = .ok (some raw)) (hp : altP (jsonMessage desKeyEvent) bin.event raw = .ok rest (info, ev))
    (hi : ev.content.data.isInception = false) (hd : ev.content.prefix ≠ IdentifierPrefix.default) (hnp : EventMessage.applyTo env ⟨info, ev⟩ IdState.default ≠ .panic) :
    StateForPrefix look bin env (.ok (some IdState.default)) := by
  rw [C99_exact]
  refine ⟨[], IdState.default, (fun i m h => by cases h), rfl, .inr (.inr (.inr ⟨raw, h0, .inr ⟨rest, info, ev, hp, .inl ?_⟩⟩))⟩
  cases ha : EventMessage.applyTo env ⟨info, ev⟩ IdState.default with
  | err x => exact ⟨x, rfl, rfl⟩
  | panic => exact absurd ha hnp
  | ok s' =>
    have A := applyTo_ok (e := ⟨⟨info, ev⟩, [], none⟩) ha
    exact absurd (A.nextPre hi) hd

open Ex in
/-- a log and its state; and a database that holds an interaction only -/
example : (∃ s, (computeState sled env icpFinal.pre (after env [.submit (.event icpFinal)])).1 = .ok (some s) ∧
      StateForPrefix (heldTexts ((after env [.submit (.event icpFinal)]).kel icpFinal.pre)) ⟨fun _ => .error, fun _ => .error⟩ env (.ok (some s))) ∧
    StateForPrefix (heldTexts [ixnFinal]) ⟨fun _ => .error, fun _ => .error⟩ env (.ok (some IdState.default)) := by
  have hk : (after env [.submit (.event icpFinal)]).kel icpFinal.pre = [icpFinal] := by decide +kernel
  have hrep : icpFinal.msg.Representable := by
    have hd : icpFinal.msg.event.content = ⟨.basic (key 9), 0, .icp ⟨⟨.simple 1, [key 9], none⟩, 0, [], [], []⟩⟩ := by decide +kernel
    refine ⟨by decide +kernel, by decide +kernel, by decide +kernel, ⟨by decide +kernel, by decide +kernel⟩, ?_, by decide +kernel, ?_⟩
    · rw [hd]; exact ⟨rfl, fun h => by rcases h with h | h <;> cases h⟩
    · rw [hd]
      refine ⟨⟨by show 1 ≤ u64max; decide, ?_, fun n h => by cases h⟩, Nat.zero_le _, fun k h => (by cases h), fun k h => (by cases h), fun k h => (by cases h)⟩
      intro k hk
      simp only [List.mem_singleton] at hk
      subst hk
      exact ⟨rfl, fun h => by rcases h with h | h <;> cases h⟩
  have hrep2 : ixnFinal.msg.Representable := by
    have hd : ixnFinal.msg.event.content = ⟨.basic (key 9), 1, .ixn ⟨icpFinal.dig, []⟩⟩ := by decide +kernel
    refine ⟨by decide +kernel, by decide +kernel, by decide +kernel, ⟨by decide +kernel, by decide +kernel⟩, ?_, by decide +kernel, ?_⟩
    · rw [hd]; exact ⟨rfl, fun h => by rcases h with h | h <;> cases h⟩
    · rw [hd]; exact ⟨⟨by decide +kernel, by decide +kernel⟩, fun s h => by cases h⟩
  constructor
  · obtain ⟨s, _, hc⟩ := computeState_log env [.submit (.event icpFinal)] icpFinal.pre (by decide +kernel) (by rw [hk]; simp)
      (by rw [hk]; unfold Readable; decide +kernel)
    refine ⟨s, hc, C99_as_node env _ _ icpFinal.pre (by decide +kernel) (by rw [hk]; simp) ?_ s hc⟩
    rw [hk]
    intro e he
    simp only [List.mem_singleton] at he
    subst he
    exact hrep
  · have h44 := C44_roundtrip ixnFinal.msg [] hrep2
    rw [List.append_nil] at h44
    exact C99_fails_unknown env _ _ (jsonText ixnFinal.msg.sval) [] ixnFinal.msg.info ixnFinal.msg.event rfl (by unfold altP; rw [h44])
      (by decide +kernel) (by decide +kernel) (by decide +kernel)

/-! ## C100: the state for a seal -/

/-- C100: after any history, for a seal whose number is in the log of its identifier: the answer is the state right after the event with that
number, whatever digest the seal carries.  Its last digest is that of the logged event; so it is the sealed event's state exactly if the
seal's digest is the digest of the logged event, which the caller must compare. -/
theorem C100_for_seal (env : Env) (as : List Action) (sl : EventSeal) (hid : sl.prefix.toStr ≠ []) (hr : Readable ((after env as).kel sl.prefix))
    (e : SignedEvent) (he : ((after env as).kel sl.prefix)[sl.sn]? = some e) :
    ∃ s, (stateForSeal sled env sl (after env as)).1 = .ok (some s) ∧ stateAfter env (((after env as).kel sl.prefix).take (sl.sn + 1)) = .ok s ∧
      s.sn = sl.sn ∧ s.prefix = e.pre ∧ s.lastDigest = e.dig ∧ (s.lastDigest = sl.eventDigest ↔ sl = ⟨sl.prefix, e.sn, e.dig⟩) := by
  have hne : (after env as).kel sl.prefix ≠ [] := by intro h; rw [h] at he; cases he
  have hlt := (List.getElem?_eq_some_iff.1 he).1
  obtain ⟨s, h1, h2, h3, _⟩ := C25_state_at_sn env as sl.prefix hid sl.sn hne hr
  obtain ⟨s', hl⟩ := after_log env as sl.prefix hid
  obtain ⟨s2, hs⟩ := hl.take (sl.sn + 1)
  have : s2 = s := by have := hs.stateAfter; rw [h2] at this; exact (Res.ok.inj this).symm
  subst this
  have ht : ((after env as).kel sl.prefix).take (sl.sn + 1) ≠ [] := by rw [Ne, List.take_eq_nil_iff]; simpa using hne
  have hlast : (((after env as).kel sl.prefix).take (sl.sn + 1)).getLast? = some e := by
    rw [List.getLast?_eq_getElem?, List.length_take, show min (sl.sn + 1) ((after env as).kel sl.prefix).length - 1 = sl.sn by omega,
      List.getElem?_take_of_lt (by omega)]
    exact he
  obtain ⟨_, _, _, hd⟩ := (hs.facts hid).2.1 ht
  obtain ⟨hd1, hd2⟩ := hd e hlast
  refine ⟨s2, h1, h2, h3 hlt, hd2, hd1, ?_⟩
  rw [hd1]
  have hsn : e.sn = sl.sn := hl.sn_eq hid he
  obtain ⟨p, n, d⟩ := sl
  simp only at hsn
  simp only [EventSeal.mk.injEq, true_and]
  exact ⟨fun h => ⟨hsn.symm, h.symm⟩, fun h => h.2.symm⟩

/-- C100 fails: the digest of the seal is never looked at. -/
theorem C100_fails_digest {σ : Type} (o : Ops σ) (env : Env) (sl : EventSeal) (d : SelfAddressingPrefix) (db : σ) :
    stateForSeal o env { sl with eventDigest := d } db = stateForSeal o env sl db := rfl

/-- C100 fails: a seal of an event that is not yet in the log is answered with the current state, which has a smaller number. -/
theorem C100_fails_future (env : Env) (as : List Action) (sl : EventSeal) (hid : sl.prefix.toStr ≠ []) (hr : Readable ((after env as).kel sl.prefix))
    (hne : (after env as).kel sl.prefix ≠ []) (hn : ((after env as).kel sl.prefix).length ≤ sl.sn) :
    ∃ s, (stateForSeal sled env sl (after env as)).1 = .ok (some s) ∧ (stateForPrefix sled env sl.prefix (after env as)).1 = .ok (some s) ∧ s.sn < sl.sn := by
  obtain ⟨s, h1, h2, _, h4⟩ := C25_state_at_sn env as sl.prefix hid sl.sn hne hr
  refine ⟨s, h1, h4 (by omega), ?_⟩
  obtain ⟨s', hl⟩ := after_log env as sl.prefix hid
  rw [List.take_of_length_le (by omega), hl.stateAfter] at h2
  cases h2
  have := ((hl.facts hid).2.1 hne).2.2.1
  omega

open Ex in
/-- the seal of the rotation; one with another digest; one of the future -/
example : (stateForSeal sled env ⟨Ex.id, 1, rot.dig⟩ (after env hist)).1 = .ok (some rotState) ∧ rotState.lastDigest = rot.dig ∧
    (stateForSeal sled env ⟨Ex.id, 1, ixn.dig⟩ (after env hist)).1 = .ok (some rotState) ∧ rotState.lastDigest ≠ ixn.dig ∧
    (stateForSeal sled env ⟨Ex.id, 7, ixn.dig⟩ (after env hist)).1 = .ok (some { rotState with sn := 2, lastDigest := ixn.dig }) := by
  decide +kernel

end Keriox
