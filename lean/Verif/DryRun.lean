import Verif.Keri
/-!
# Trying an event out — `/repo/src/keri/mod.rs:110-116`, `/repo/src/processor/mod.rs:264-274`
-/
namespace Keriox
variable {σ : Type}

/-- `process_actual_event`, processor/mod.rs:264-274; `apply` is the `apply_to` of whatever implements `EventSemantics` -/
def processActualEvent (o : Ops σ) (env : Env) (id : IdentifierPrefix) (apply : IdState → Res IdState) : StM σ (Option IdState) := do
  match ← computeState o env id with
  | some s => do
    let n ← StM.lift (apply s)
    pure (some n)
  | none => pure none

/-- `Keri::process`, keri/mod.rs:110-116 -/
def keriProcess (o : Ops σ) (env : Env) (id : IdentifierPrefix) (apply : IdState → Res IdState) : StM σ Unit := do
  match ← processActualEvent o env id apply with
  | some _ => pure ()
  | none => StM.fail (.semantic "Unknown identifier.")

end Keriox
