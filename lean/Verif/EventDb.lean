import Verif.Keri

/-!
# The provided method of the `EventDatabase` trait, and the look-ups by prefix and by seal

`/repo/src/database/mod.rs:18-76`: an application that brings its own event database implements `last_event_at_sn`; the trait then computes the
state of an identifier from it.  The implementation is a parameter of the model: whatever it answers for each sequence number.
-/
namespace Keriox

/-- one pass of the loop, database/mod.rs:42-71: `last_event_at_sn(pref, sn)?`, `message(&raw).unwrap()`, `apply` -/
inductive Pass where
  /-- the event was applied; go on with the next number -/
  | next (s : IdState)
  /-- the method returns -/
  | stop (r : Res (Option IdState))

/-- database/mod.rs:42-71 -/
def statePass (look : Nat → Res (Option Bytes)) (bin : Binary) (env : Env) (sn : Nat) (s : IdState) : Pass :=
  match look sn with
  | .err e => .stop (.err e)
  | .panic => .stop .panic
  | .ok none => .stop (.ok (if sn = 0 then none else some s))
  | .ok (some raw) =>
    match altP (jsonMessage desKeyEvent) bin.event raw with
    | .ok _ e =>
      match EventMessage.applyTo env ⟨e.1, e.2⟩ s with
      | .ok s' => .next s'
      | .err _ => .stop (.ok (some s))
      | .panic => .stop .panic
    | _ => .stop .panic

/-- the loop `for sn in 0..`, cut off after `fuel` passes (`none`: still running).  The end of the `u64` range is not modelled. -/
def stateLoop (look : Nat → Res (Option Bytes)) (bin : Binary) (env : Env) : Nat → Nat → IdState → Option (Res (Option IdState))
  | 0, _, _ => none
  | fuel + 1, sn, s =>
    match statePass look bin env sn s with
    | .next s' => stateLoop look bin env fuel (sn + 1) s'
    | .stop r => some r

/-- `EventDatabase::get_state_for_prefix` for one identifier, database/mod.rs:34-76: the call returns `r` -/
def StateForPrefix (look : Nat → Res (Option Bytes)) (bin : Binary) (env : Env) (r : Res (Option IdState)) : Prop :=
  ∃ fuel, stateLoop look bin env fuel 0 IdState.default = some r

/-! ## Look-ups offered by the controller -/

variable {σ : Type}

/-- `Keri::get_state_for_prefix`, keri/mod.rs:474-479 -/
def stateForPrefix (o : Ops σ) (env : Env) (id : IdentifierPrefix) : StM σ (Option IdState) := computeState o env id

/-- `Keri::get_state_for_seal`, keri/mod.rs:481-483: only the identifier and the number of the seal are used -/
def stateForSeal (o : Ops σ) (env : Env) (sl : EventSeal) : StM σ (Option IdState) := computeStateAtSn o env sl.prefix sl.sn

end Keriox
