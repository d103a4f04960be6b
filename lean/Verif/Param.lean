import Verif.Processor
/-!
# The processor is parametric in the database operations

If two databases and their operations are related, so is every function of the processor over them.
-/
namespace Keriox

/-- same result, related databases -/
def GSim {σ τ α : Type} (R : σ → τ → Prop) (x : StM σ α) (y : StM τ α) : Prop :=
  ∀ s t, R s t → (x s).1 = (y t).1 ∧ R (x s).2 (y t).2

namespace GSim
variable {σ τ α β : Type} {R : σ → τ → Prop}

theorem pure (a : α) : GSim R (Pure.pure a : StM σ α) (Pure.pure a) := fun _ _ h => ⟨rfl, h⟩

theorem lift (r : Res α) : GSim R (StM.lift r) (StM.lift r) := fun _ _ h => ⟨rfl, h⟩

theorem fail (e : Error) : GSim R (StM.fail e : StM σ α) (StM.fail e) := lift _

theorem bind {x : StM σ α} {y : StM τ α} {f : α → StM σ β} {g : α → StM τ β} (h1 : GSim R x y)
    (h2 : ∀ a, GSim R (f a) (g a)) : GSim R (x >>= f) (y >>= g) := by
  intro s t hst
  obtain ⟨e1, e2⟩ := h1 s t hst
  show (StM.bind x f s).1 = (StM.bind y g t).1 ∧ R (StM.bind x f s).2 (StM.bind y g t).2
  unfold StM.bind
  rcases hx : x s with ⟨r, d⟩
  rcases hy : y t with ⟨r', d'⟩
  rw [hx, hy] at e1 e2
  dsimp only at e1 e2
  subst e1
  cases r with
  | ok a => exact h2 a d d' e2
  | err e => exact ⟨rfl, e2⟩
  | panic => exact ⟨rfl, e2⟩

theorem result {x : StM σ α} {y : StM τ α} (h1 : GSim R x y) : GSim R x.result y.result := by
  intro s t hst
  obtain ⟨e1, e2⟩ := h1 s t hst
  unfold StM.result
  rcases hx : x s with ⟨r, d⟩
  rcases hy : y t with ⟨r', d'⟩
  rw [hx, hy] at e1 e2
  dsimp only at e1 e2
  subst e1
  cases r <;> exact ⟨rfl, e2⟩

end GSim

/-- related reads -/
structure GRead {σ τ : Type} (R : σ → τ → Prop) (o : Ops σ) (o' : Ops τ) : Prop where
  read : ∀ t id, GSim R (o.read t id) (o'.read t id)

/-- related operations; writes to the tables in `W` only -/
structure GOps {σ τ : Type} (R : σ → τ → Prop) (W : Tbl → Prop) (o : Ops σ) (o' : Ops τ) : Prop extends GRead R o o' where
  push : ∀ t, W t → ∀ id v, GSim R (o.push t id v) (o'.push t id v)
  remove : ∀ t, W t → ∀ id v, GSim R (o.remove t id v) (o'.remove t id v)
  put : ∀ t, W t → ∀ id vs, GSim R (o.put t id vs) (o'.put t id vs)
  all : ∀ t, GSim R (o.all t) (o'.all t)

section
variable {σ τ : Type} {R : σ → τ → Prop} {W : Tbl → Prop} {o : Ops σ} {o' : Ops τ}

theorem computeState_par (ho : GRead R o o') (env : Env) (id : IdentifierPrefix) : GSim R (computeState o env id) (computeState o' env id) := by
  unfold computeState getKel
  refine GSim.bind (ho.read _ _) fun r => ?_
  cases r with
  | none => exact GSim.pure _
  | some l => exact GSim.bind (GSim.lift _) fun _ => GSim.pure _

theorem computeStateAtSn_par (ho : GRead R o o') (env : Env) (id : IdentifierPrefix) (sn : Nat) :
    GSim R (computeStateAtSn o env id sn) (computeStateAtSn o' env id sn) := by
  unfold computeStateAtSn getKel
  refine GSim.bind (ho.read _ _) fun r => ?_
  cases r with
  | none => exact GSim.pure _
  | some l => exact GSim.bind (GSim.lift _) fun _ => GSim.pure _

theorem getLastEstSeal_par (ho : GRead R o o') (env : Env) (id : IdentifierPrefix) : GSim R (getLastEstSeal o env id) (getLastEstSeal o' env id) := by
  unfold getLastEstSeal getKel
  refine GSim.bind (ho.read _ _) fun r => ?_
  cases r with
  | none => exact GSim.pure _
  | some l => exact GSim.bind (GSim.lift _) fun _ => GSim.pure _

theorem getKerl_par (ho : GRead R o o') (id : IdentifierPrefix) : GSim R (getKerl o id) (getKerl o' id) := by
  unfold getKerl getKel
  refine GSim.bind (ho.read _ _) fun r => ?_
  cases r with
  | none => exact GSim.pure _
  | some l => exact GSim.bind (GSim.lift _) fun _ => GSim.pure _

theorem getEventAtSn_par (ho : GRead R o o') (id : IdentifierPrefix) (sn : Nat) : GSim R (getEventAtSn o id sn) (getEventAtSn o' id sn) := by
  unfold getEventAtSn getKel
  refine GSim.bind (ho.read _ _) fun r => ?_
  cases r <;> exact GSim.pure _

theorem hasReceipt_par (ho : GRead R o o') (id : IdentifierPrefix) (sn : Nat) (v : IdentifierPrefix) :
    GSim R (hasReceipt o id sn v) (hasReceipt o' id sn v) := by
  unfold hasReceipt getReceiptsT
  refine GSim.bind (ho.read _ _) fun r => ?_
  cases r <;> exact GSim.pure _

theorem getKeysAtEvent_par (ho : GRead R o o') (env : Env) (id : IdentifierPrefix) (sn : Nat) (d : SelfAddressingPrefix) :
    GSim R (getKeysAtEvent o env id sn d) (getKeysAtEvent o' env id sn d) := by
  unfold getKeysAtEvent
  refine GSim.bind (GSim.result (getEventAtSn_par ho id sn)) fun r => ?_
  split
  · refine GSim.bind (GSim.lift _) fun b => ?_
    split
    · split
      · exact GSim.pure _
      · exact GSim.fail _
    · exact GSim.fail _
  · exact GSim.fail _

theorem validateSeal_par (ho : GRead R o o') (env : Env) (sl : EventSeal) (m : EventMessage) :
    GSim R (validateSeal o env sl m) (validateSeal o' env sl m) := by
  unfold validateSeal
  refine GSim.bind (GSim.result (getEventAtSn_par ho _ _)) fun r => ?_
  split
  · split
    · refine GSim.bind (GSim.lift _) fun b => ?_
      split
      · exact GSim.pure _
      · exact GSim.fail _
    · exact GSim.fail _
  · exact GSim.fail _

theorem checkDelegation_par (ho : GRead R o o') (env : Env) (e : SignedEvent) : GSim R (checkDelegation o env e) (checkDelegation o' env e) := by
  unfold checkDelegation
  split
  · split
    · exact validateSeal_par ho env _ _
    · exact GSim.fail _
  · refine GSim.bind (computeState_par ho env _) fun r => ?_
    split
    · exact GSim.fail _
    · split
      · exact GSim.fail _
      · split
        · exact validateSeal_par ho env _ _
        · exact GSim.fail _
  · exact GSim.pure _

theorem applyToState_par (ho : GRead R o o') (env : Env) (m : EventMessage) : GSim R (applyToState o env m) (applyToState o' env m) :=
  GSim.bind (computeState_par ho env _) fun _ => GSim.lift _

theorem verifySignature_par (ho : GRead R o o') (env : Env) (d : Bytes) (s : Signature) :
    GSim R (verifySignature o env d s) (verifySignature o' env d s) := by
  unfold verifySignature
  split
  · refine GSim.bind (getKeysAtEvent_par ho env _ _ _) fun kp => ?_
    split
    · refine GSim.bind (GSim.lift _) fun b => ?_
      split
      · exact GSim.pure _
      · exact GSim.fail _
    · exact GSim.fail _
  · refine GSim.bind (GSim.lift _) fun b => ?_
    split
    · exact GSim.pure _
    · exact GSim.fail _

theorem badaLogic_par (ho : GRead R o o') (r : SignedReply) : GSim R (badaLogic o r) (badaLogic o' r) := by
  unfold badaLogic getAccepted
  refine GSim.bind (ho.read _ _) fun x => ?_
  split
  · exact GSim.lift _
  · exact GSim.fail _

theorem checkTimestamp_par (ho : GRead R o o') (dt : Timestamp) (p a : IdentifierPrefix) :
    GSim R (checkTimestamp o dt p a) (checkTimestamp o' dt p a) := by
  unfold checkTimestamp getAccepted
  refine GSim.bind (ho.read _ _) fun x => ?_
  split
  · exact GSim.fail _
  · split
    · split
      · exact GSim.fail _
      · exact GSim.pure _
    · exact GSim.fail _

theorem ignoring_par {x : StM σ Unit} {y : StM τ Unit} (h : GSim R x y) (e : Error) :
    GSim R (ignoring x e) (ignoring y e) := by
  unfold ignoring
  refine GSim.bind (GSim.result h) fun x => ?_
  split
  · exact GSim.pure _
  · split
    · exact GSim.pure _
    · exact GSim.fail _

theorem checkKsn_par (ho : GRead R o o') (env : Env) (k : Ksn) (a : IdentifierPrefix) : GSim R (checkKsn o env k a) (checkKsn o' env k a) := by
  unfold checkKsn
  refine GSim.bind (getEventAtSn_par ho _ _) fun x => ?_
  split
  · exact GSim.fail _
  · refine GSim.bind (GSim.lift _) fun b => ?_
    split
    · refine GSim.bind (ignoring_par (checkTimestamp_par ho _ _ _) _) fun _ => GSim.bind (computeState_par ho env _) fun s => ?_
      split
      · exact GSim.fail _
      · split
        · exact GSim.fail _
        · split
          · exact GSim.pure _
          · exact GSim.fail _
    · exact GSim.fail _

theorem storeAndVerify_par (ho : GOps R W o o') (hkels : W .kels) (hdels : W .dels) (env : Env) (e : SignedEvent) (new : IdState) :
    GSim R (storeAndVerify o env e new) (storeAndVerify o' env e new) := by
  unfold storeAndVerify addKel removeKel
  refine GSim.bind (ho.push _ (by assumption) _ _) fun _ => GSim.bind (GSim.lift _) fun b => GSim.bind (GSim.result (GSim.lift _)) fun r => ?_
  split
  · exact GSim.pure _
  · refine GSim.bind ?_ fun _ => GSim.bind (ho.remove _ (by assumption) _ _) fun _ => GSim.fail _
    unfold noteDup addDup
    split
    · exact ho.push _ (by assumption) _ _
    · exact GSim.pure _

theorem processEvent_par (ho : GOps R W o o') (hkels : W .kels) (hdels : W .dels) (env : Env) (e : SignedEvent) : GSim R (processEvent o env e) (processEvent o' env e) :=
  GSim.bind (checkDelegation_par ho.toGRead env e) fun _ => GSim.bind (applyToState_par ho.toGRead env _) fun _ => storeAndVerify_par ho (by assumption) (by assumption) env e _

theorem processValidatorReceipt_par (ho : GOps R W o o') (hvrcs : W .vrcs) (hvres : W .vres) (env : Env) (r : TReceipt) :
    GSim R (processValidatorReceipt o env r) (processValidatorReceipt o' env r) := by
  refine GSim.bind ?_ fun _ => computeState_par ho.toGRead env _
  unfold validatorReceiptStep addReceiptT addEscrowT
  refine GSim.bind (GSim.result (getEventAtSn_par ho.toGRead _ _)) fun x => ?_
  split
  · refine GSim.bind (getKeysAtEvent_par ho.toGRead env _ _ _) fun kp => ?_
    split
    · refine GSim.bind (GSim.lift _) fun b => GSim.bind (GSim.lift _) fun b => ?_
      split
      · exact ho.push _ (by assumption) _ _
      · exact GSim.fail _
    · exact GSim.fail _
  · exact GSim.bind (ho.push _ (by assumption) _ _) fun _ => GSim.fail _

theorem processWitnessReceipt_par (ho : GOps R W o o') (hrcts : W .rcts) (hures : W .ures) (env : Env) (r : NtReceipt) :
    GSim R (processWitnessReceipt o env r) (processWitnessReceipt o' env r) := by
  refine GSim.bind ?_ fun _ => computeState_par ho.toGRead env _
  unfold witnessReceiptStep addReceiptNt addEscrowNt
  refine GSim.bind (GSim.result (getEventAtSn_par ho.toGRead _ _)) fun x => ?_
  split
  · refine GSim.bind (GSim.lift _) fun kp => ?_
    split
    · exact ho.push _ (by assumption) _ _
    · exact GSim.fail _
  · exact ho.push _ (by assumption) _ _

theorem updateAccepted_par (ho : GOps R W o o') (hknas : W .knas) (r : SignedReply) (id : IdentifierPrefix) :
    GSim R (updateAccepted o r id) (updateAccepted o' r id) := by
  unfold updateAccepted
  refine GSim.bind (ho.read _ _) fun x => ?_
  split
  · exact ho.put _ (by assumption) _ _
  · exact ho.push _ (by assumption) _ _

theorem processSignedReply_par (ho : GOps R W o o') (hknas : W .knas) (hknes : W .knes) (env : Env) (r : SignedReply) :
    GSim R (processSignedReply o env r) (processSignedReply o' env r) := by
  unfold processSignedReply
  split
  · split
    · exact GSim.fail _
    · refine GSim.bind ?_ fun _ => GSim.bind (GSim.lift _) fun _ => GSim.bind (ignoring_par (badaLogic_par ho.toGRead _) _) fun _ =>
        GSim.bind ?_ fun _ => GSim.bind (updateAccepted_par ho (by assumption) _ _) fun _ => GSim.pure _
      · unfold replySignature escrowReply addEscrowed
        refine GSim.bind (GSim.lift _) fun b => GSim.bind (GSim.result (verifySignature_par ho.toGRead env _ _)) fun x => ?_
        split
        · exact GSim.pure _
        · split
          · exact GSim.bind (ho.push _ (by assumption) _ _) fun _ => GSim.fail _
          · exact GSim.fail _
      · unfold replyNotice
        refine GSim.bind (GSim.result (checkKsn_par ho.toGRead env _ _)) fun x => ?_
        split
        · exact GSim.pure _
        · refine GSim.bind ?_ fun _ => GSim.fail _
          unfold escrowIf escrowReply addEscrowed
          split
          · exact ho.push _ (by assumption) _ _
          · exact GSim.pure _
  · exact GSim.fail _

theorem process_par (ho : GOps R W o o') (hW : ∀ t, W t) (env : Env) (m : Message) : GSim R (process o env m) (process o' env m) := by
  unfold process
  split
  · exact processEvent_par ho (hW _) (hW _) env _
  · exact processWitnessReceipt_par ho (hW _) (hW _) env _
  · exact processValidatorReceipt_par ho (hW _) (hW _) env _
  · exact processSignedReply_par ho (hW _) (hW _) env _
  · exact GSim.lift _

theorem processEscrow_par (ho : GOps R W o o') (hknas : W .knas) (hknes : W .knes) (env : Env) : GSim R (processEscrow o env) (processEscrow o' env) := by
  unfold processEscrow
  refine GSim.bind (ho.all _) fun es => ?_
  induction es with
  | nil => exact GSim.pure _
  | cons x es ih =>
    cases x with
    | none => exact GSim.lift _
    | some rs =>
      refine GSim.bind ?_ fun _ => ih
      induction rs with
      | nil => exact GSim.pure _
      | cons r rs ih2 =>
        refine GSim.bind ?_ fun _ => ih2
        unfold escrowStep removeEscrowed
        refine GSim.bind (GSim.result (processSignedReply_par ho (by assumption) (by assumption) env r)) fun x => ?_
        split
        · exact ho.remove _ (by assumption) _ _
        · split
          · exact ho.remove _ (by assumption) _ _
          · exact GSim.pure _

end

end Keriox
