import Verif.Processor
/-!
# The processor is parametric in the database operations, for any relational logic

`Param.lean` relates runs over two databases by a relation between the databases.  Here the relation between two computations is any one that is
closed under the constructions of the state monad; the proofs are the same.
-/
namespace Keriox

/-- a relation between computations over two databases, closed under the constructions of the monad -/
structure RelLogic (σ τ : Type) where
  rel : {α : Type} → StM σ α → StM τ α → Prop
  lift : ∀ {α : Type} (r : Res α), rel (StM.lift r) (StM.lift r)
  bind : ∀ {α β : Type} {x : StM σ α} {y : StM τ α} {f : α → StM σ β} {g : α → StM τ β}, rel x y → (∀ a, rel (f a) (g a)) → rel (x >>= f) (y >>= g)
  result : ∀ {α : Type} {x : StM σ α} {y : StM τ α}, rel x y → rel x.result y.result

theorem RelLogic.pure {σ τ α : Type} (L : RelLogic σ τ) (a : α) : L.rel (Pure.pure a : StM σ α) (Pure.pure a) := L.lift (.ok a)
theorem RelLogic.fail {σ τ α : Type} (L : RelLogic σ τ) (e : Error) : L.rel (StM.fail e : StM σ α) (StM.fail e) := L.lift (.err e)

/-- related operations -/
structure ROps {σ τ : Type} (L : RelLogic σ τ) (o : Ops σ) (o' : Ops τ) : Prop where
  read : ∀ t id, L.rel (o.read t id) (o'.read t id)
  push : ∀ t id v, L.rel (o.push t id v) (o'.push t id v)
  remove : ∀ t id v, L.rel (o.remove t id v) (o'.remove t id v)
  put : ∀ t id vs, L.rel (o.put t id vs) (o'.put t id vs)

section
variable {σ τ : Type} {L : RelLogic σ τ} {o : Ops σ} {o' : Ops τ}

theorem computeState_rel (ho : ROps L o o') (env : Env) (id : IdentifierPrefix) : L.rel (computeState o env id) (computeState o' env id) := by
  unfold computeState getKel
  refine L.bind (ho.read _ _) fun r => ?_
  cases r with
  | none => exact L.pure _
  | some l => exact L.bind (L.lift _) fun _ => L.pure _

theorem computeStateAtSn_rel (ho : ROps L o o') (env : Env) (id : IdentifierPrefix) (sn : Nat) :
    L.rel (computeStateAtSn o env id sn) (computeStateAtSn o' env id sn) := by
  unfold computeStateAtSn getKel
  refine L.bind (ho.read _ _) fun r => ?_
  cases r with
  | none => exact L.pure _
  | some l => exact L.bind (L.lift _) fun _ => L.pure _

theorem getLastEstSeal_rel (ho : ROps L o o') (env : Env) (id : IdentifierPrefix) : L.rel (getLastEstSeal o env id) (getLastEstSeal o' env id) := by
  unfold getLastEstSeal getKel
  refine L.bind (ho.read _ _) fun r => ?_
  cases r with
  | none => exact L.pure _
  | some l => exact L.bind (L.lift _) fun _ => L.pure _

theorem getKerl_rel (ho : ROps L o o') (id : IdentifierPrefix) : L.rel (getKerl o id) (getKerl o' id) := by
  unfold getKerl getKel
  refine L.bind (ho.read _ _) fun r => ?_
  cases r with
  | none => exact L.pure _
  | some l => exact L.bind (L.lift _) fun _ => L.pure _

theorem getEventAtSn_rel (ho : ROps L o o') (id : IdentifierPrefix) (sn : Nat) : L.rel (getEventAtSn o id sn) (getEventAtSn o' id sn) := by
  unfold getEventAtSn getKel
  refine L.bind (ho.read _ _) fun r => ?_
  cases r <;> exact L.pure _

theorem hasReceipt_rel (ho : ROps L o o') (id : IdentifierPrefix) (sn : Nat) (v : IdentifierPrefix) :
    L.rel (hasReceipt o id sn v) (hasReceipt o' id sn v) := by
  unfold hasReceipt getReceiptsT
  refine L.bind (ho.read _ _) fun r => ?_
  cases r <;> exact L.pure _

theorem getKeysAtEvent_rel (ho : ROps L o o') (env : Env) (id : IdentifierPrefix) (sn : Nat) (d : SelfAddressingPrefix) :
    L.rel (getKeysAtEvent o env id sn d) (getKeysAtEvent o' env id sn d) := by
  unfold getKeysAtEvent
  refine L.bind (L.result (getEventAtSn_rel ho id sn)) fun r => ?_
  split
  · refine L.bind (L.lift _) fun b => ?_
    split
    · split
      · exact L.pure _
      · exact L.fail _
    · exact L.fail _
  · exact L.fail _

theorem validateSeal_rel (ho : ROps L o o') (env : Env) (sl : EventSeal) (m : EventMessage) :
    L.rel (validateSeal o env sl m) (validateSeal o' env sl m) := by
  unfold validateSeal
  refine L.bind (L.result (getEventAtSn_rel ho _ _)) fun r => ?_
  split
  · split
    · refine L.bind (L.lift _) fun b => ?_
      split
      · exact L.pure _
      · exact L.fail _
    · exact L.fail _
  · exact L.fail _

theorem checkDelegation_rel (ho : ROps L o o') (env : Env) (e : SignedEvent) : L.rel (checkDelegation o env e) (checkDelegation o' env e) := by
  unfold checkDelegation
  split
  · split
    · exact validateSeal_rel ho env _ _
    · exact L.fail _
  · refine L.bind (computeState_rel ho env _) fun r => ?_
    split
    · exact L.fail _
    · split
      · exact L.fail _
      · split
        · exact validateSeal_rel ho env _ _
        · exact L.fail _
  · exact L.pure _

theorem applyToState_rel (ho : ROps L o o') (env : Env) (m : EventMessage) : L.rel (applyToState o env m) (applyToState o' env m) :=
  L.bind (computeState_rel ho env _) fun _ => L.lift _

theorem verifySignature_rel (ho : ROps L o o') (env : Env) (d : Bytes) (s : Signature) :
    L.rel (verifySignature o env d s) (verifySignature o' env d s) := by
  unfold verifySignature
  split
  · refine L.bind (getKeysAtEvent_rel ho env _ _ _) fun kp => ?_
    split
    · refine L.bind (L.lift _) fun b => ?_
      split
      · exact L.pure _
      · exact L.fail _
    · exact L.fail _
  · refine L.bind (L.lift _) fun b => ?_
    split
    · exact L.pure _
    · exact L.fail _

theorem badaLogic_rel (ho : ROps L o o') (r : SignedReply) : L.rel (badaLogic o r) (badaLogic o' r) := by
  unfold badaLogic getAccepted
  refine L.bind (ho.read _ _) fun x => ?_
  split
  · exact L.lift _
  · exact L.fail _

theorem checkTimestamp_rel (ho : ROps L o o') (dt : Timestamp) (p a : IdentifierPrefix) :
    L.rel (checkTimestamp o dt p a) (checkTimestamp o' dt p a) := by
  unfold checkTimestamp getAccepted
  refine L.bind (ho.read _ _) fun x => ?_
  split
  · exact L.fail _
  · split
    · split
      · exact L.fail _
      · exact L.pure _
    · exact L.fail _

theorem ignoring_rel {x : StM σ Unit} {y : StM τ Unit} (h : L.rel x y) (e : Error) :
    L.rel (ignoring x e) (ignoring y e) := by
  unfold ignoring
  refine L.bind (L.result h) fun x => ?_
  split
  · exact L.pure _
  · split
    · exact L.pure _
    · exact L.fail _

theorem checkKsn_rel (ho : ROps L o o') (env : Env) (k : Ksn) (a : IdentifierPrefix) : L.rel (checkKsn o env k a) (checkKsn o' env k a) := by
  unfold checkKsn
  refine L.bind (getEventAtSn_rel ho _ _) fun x => ?_
  split
  · exact L.fail _
  · refine L.bind (L.lift _) fun b => ?_
    split
    · refine L.bind (ignoring_rel (checkTimestamp_rel ho _ _ _) _) fun _ => L.bind (computeState_rel ho env _) fun s => ?_
      split
      · exact L.fail _
      · split
        · exact L.fail _
        · split
          · exact L.pure _
          · exact L.fail _
    · exact L.fail _

theorem storeAndVerify_rel (ho : ROps L o o') (env : Env) (e : SignedEvent) (new : IdState) :
    L.rel (storeAndVerify o env e new) (storeAndVerify o' env e new) := by
  unfold storeAndVerify addKel removeKel
  refine L.bind (ho.push _ _ _) fun _ => L.bind (L.lift _) fun b => L.bind (L.result (L.lift _)) fun r => ?_
  split
  · exact L.pure _
  · refine L.bind ?_ fun _ => L.bind (ho.remove _ _ _) fun _ => L.fail _
    unfold noteDup addDup
    split
    · exact ho.push _ _ _
    · exact L.pure _

theorem processEvent_rel (ho : ROps L o o') (env : Env) (e : SignedEvent) : L.rel (processEvent o env e) (processEvent o' env e) :=
  L.bind (checkDelegation_rel ho env e) fun _ => L.bind (applyToState_rel ho env _) fun _ => storeAndVerify_rel ho env e _

theorem processValidatorReceipt_rel (ho : ROps L o o') (env : Env) (r : TReceipt) :
    L.rel (processValidatorReceipt o env r) (processValidatorReceipt o' env r) := by
  refine L.bind ?_ fun _ => computeState_rel ho env _
  unfold validatorReceiptStep addReceiptT addEscrowT
  refine L.bind (L.result (getEventAtSn_rel ho _ _)) fun x => ?_
  split
  · refine L.bind (getKeysAtEvent_rel ho env _ _ _) fun kp => ?_
    split
    · refine L.bind (L.lift _) fun b => L.bind (L.lift _) fun b => ?_
      split
      · exact ho.push _ _ _
      · exact L.fail _
    · exact L.fail _
  · exact L.bind (ho.push _ _ _) fun _ => L.fail _

theorem processWitnessReceipt_rel (ho : ROps L o o') (env : Env) (r : NtReceipt) :
    L.rel (processWitnessReceipt o env r) (processWitnessReceipt o' env r) := by
  refine L.bind ?_ fun _ => computeState_rel ho env _
  unfold witnessReceiptStep addReceiptNt addEscrowNt
  refine L.bind (L.result (getEventAtSn_rel ho _ _)) fun x => ?_
  split
  · refine L.bind (L.lift _) fun kp => ?_
    split
    · exact ho.push _ _ _
    · exact L.fail _
  · exact ho.push _ _ _

theorem updateAccepted_rel (ho : ROps L o o') (r : SignedReply) (id : IdentifierPrefix) :
    L.rel (updateAccepted o r id) (updateAccepted o' r id) := by
  unfold updateAccepted
  refine L.bind (ho.read _ _) fun x => ?_
  split
  · exact ho.put _ _ _
  · exact ho.push _ _ _

theorem processSignedReply_rel (ho : ROps L o o') (env : Env) (r : SignedReply) :
    L.rel (processSignedReply o env r) (processSignedReply o' env r) := by
  unfold processSignedReply
  split
  · split
    · exact L.fail _
    · refine L.bind ?_ fun _ => L.bind (L.lift _) fun _ => L.bind (ignoring_rel (badaLogic_rel ho _) _) fun _ =>
        L.bind ?_ fun _ => L.bind (updateAccepted_rel ho _ _) fun _ => L.pure _
      · unfold replySignature escrowReply addEscrowed
        refine L.bind (L.lift _) fun b => L.bind (L.result (verifySignature_rel ho env _ _)) fun x => ?_
        split
        · exact L.pure _
        · split
          · exact L.bind (ho.push _ _ _) fun _ => L.fail _
          · exact L.fail _
      · unfold replyNotice
        refine L.bind (L.result (checkKsn_rel ho env _ _)) fun x => ?_
        split
        · exact L.pure _
        · refine L.bind ?_ fun _ => L.fail _
          unfold escrowIf escrowReply addEscrowed
          split
          · exact ho.push _ _ _
          · exact L.pure _
  · exact L.fail _

theorem process_rel (ho : ROps L o o') (env : Env) (m : Message) : L.rel (process o env m) (process o' env m) := by
  unfold process
  split
  · exact processEvent_rel ho env _
  · exact processWitnessReceipt_rel ho env _
  · exact processValidatorReceipt_rel ho env _
  · exact processSignedReply_rel ho env _
  · exact L.lift _

end
end Keriox
