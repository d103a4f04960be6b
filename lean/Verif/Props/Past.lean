import Verif.Props.State
import Verif.Props.Kel
/-!
# C25, continued: the past does not change
-/
namespace Keriox

/-- C25: once the log has reached number `n`, what `compute_state_at_sn` answers for `n` never changes, whatever is submitted afterwards, as long
as the log can be read back. -/
theorem C25_for_ever (env : Env) (as bs : List Action) (id : IdentifierPrefix) (hid : id.toStr ≠ []) (n : Nat)
    (hn : n < ((after env as).kel id).length) (hr : Readable ((after env (as ++ bs)).kel id)) :
    ∃ s, (computeStateAtSn sled env id n (after env as)).1 = .ok (some s) ∧
      (computeStateAtSn sled env id n (after env (as ++ bs))).1 = .ok (some s) ∧ s.sn = n := by
  obtain ⟨t, ht⟩ := C01_append_only env as bs id hid
  have hne : (after env as).kel id ≠ [] := by intro h; rw [h] at hn; simp at hn
  have hne' : (after env (as ++ bs)).kel id ≠ [] := by rw [← ht]; simp [hne]
  have hr0 : Readable ((after env as).kel id) := fun e he => hr e (by rw [← ht]; exact List.mem_append_left _ he)
  obtain ⟨s, h1, h2, h3, _⟩ := C25_state_at_sn env as id hid n hne hr0
  obtain ⟨s', h1', h2', _⟩ := C25_state_at_sn env (as ++ bs) id hid n hne' hr
  rw [← ht, List.take_append_of_le_length (by omega), h2] at h2'
  cases h2'
  exact ⟨s, h1, h1', h3 hn⟩

/-- the hypotheses are met: the state at 0 is asked after the inception and again after the rotation and the interaction -/
example : 0 < ((after Ex.env [.submit (.event Ex.icp)]).kel Ex.id).length ∧
    ((after Ex.env ([.submit (.event Ex.icp)] ++ [.submit (.event Ex.rot), .submit (.event Ex.ixn)])).kel Ex.id).all SignedEvent.rt = true ∧
    ((after Ex.env ([.submit (.event Ex.icp)] ++ [.submit (.event Ex.rot), .submit (.event Ex.ixn)])).kel Ex.id).length = 3 := by decide +kernel

end Keriox
