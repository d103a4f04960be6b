import Verif.KelFacts
/-!
# What one call does to the stored logs (helper lemmas)
-/
namespace Keriox

/-! ## Decoding -/

theorem guardRt_eq {α} (p : α → Bool) (a : α) : guardRt p a = if p a then some a else none := rfl

theorem decAll_kels (l : List SignedEvent) : Tbl.kels.decAll l = if l.all SignedEvent.rt then some l else none := by
  induction l with
  | nil => rfl
  | cons a t ih =>
    have hd : Tbl.kels.dec a = if a.rt then some a else none := rfl
    simp only [Tbl.decAll, ih, hd]
    cases h1 : a.rt <;> cases h2 : t.all SignedEvent.rt <;> simp [h1, h2]

theorem iterValues_kels (o : Option (List SignedEvent)) :
    Tbl.kels.iterValues o = match o with
      | none => .ok none
      | some l => if l.all SignedEvent.rt then .ok (some l) else .panic := by
  cases o with
  | none => rfl
  | some l =>
    simp only [Tbl.iterValues, Tbl.entry, decAll_kels]
    cases h : l.all SignedEvent.rt <;> simp

theorem pushed_kels (o : Option (List SignedEvent)) (v : SignedEvent) :
    Tbl.kels.pushed o v = match o with
      | none => [v]
      | some l => if l.all SignedEvent.rt then l ++ [v] else [v] := by
  cases o with
  | none => rfl
  | some l =>
    simp only [Tbl.pushed, Tbl.entry, decAll_kels]
    cases h : l.all SignedEvent.rt <;> simp

theorem removed_kels (l : List SignedEvent) (v : SignedEvent) :
    Tbl.kels.removed (some l) v =
      if l.all SignedEvent.rt then some (l.filter fun e => !SignedEvent.same e v) else some l := by
  simp only [Tbl.removed, Tbl.entry, decAll_kels]
  cases h : l.all SignedEvent.rt
  · simp
  · simp; rfl

/-! ## Computations that do not write -/

/-- leaves every table as it is -/
def ReadOnly {α} (f : StM MapDb α) : Prop := ∀ a, (f a).2.tables = a.tables

namespace ReadOnly
variable {α β : Type}
theorem lift (r : Res α) : ReadOnly (StM.lift r) := fun _ => rfl
theorem fail (e : Error) : ReadOnly (StM.fail e : StM MapDb α) := fun _ => rfl
theorem pure (x : α) : ReadOnly (Pure.pure x) := fun _ => rfl
theorem read (t : Tbl) (id : IdentifierPrefix) : ReadOnly (mapOps.read t id) := fun a => by simp [mapOps]
theorem bind {x : StM MapDb α} {f : α → StM MapDb β} (h1 : ReadOnly x) (h2 : ∀ a, ReadOnly (f a)) : ReadOnly (x >>= f) := by
  intro a
  have hx := h1 a
  show (StM.bind x f a).2.tables = _
  unfold StM.bind
  rcases h : x a with ⟨r, a'⟩
  rw [h] at hx
  cases r with
  | ok b => dsimp only at hx ⊢; rw [h2 b a', hx]
  | err e => exact hx
  | panic => exact hx
theorem result {x : StM MapDb α} (h : ReadOnly x) : ReadOnly x.result := by
  intro a
  have hx := h a
  unfold StM.result
  rcases h : x a with ⟨r, a'⟩
  rw [h] at hx
  cases r <;> exact hx
end ReadOnly

theorem computeState_ro (env : Env) (id : IdentifierPrefix) : ReadOnly (computeState mapOps env id) := by
  unfold computeState getKel
  refine .bind (.read _ _) fun r => ?_
  cases r
  · exact .pure _
  · exact .bind (.lift _) fun _ => .pure _

theorem getEventAtSn_ro (id : IdentifierPrefix) (sn : Nat) : ReadOnly (getEventAtSn mapOps id sn) := by
  unfold getEventAtSn getKel
  refine .bind (.read _ _) fun r => ?_
  cases r <;> exact .pure _

theorem getKeysAtEvent_ro (env : Env) (id : IdentifierPrefix) (sn : Nat) (d : SelfAddressingPrefix) :
    ReadOnly (getKeysAtEvent mapOps env id sn d) := by
  unfold getKeysAtEvent
  refine .bind (.result (getEventAtSn_ro id sn)) fun r => ?_
  split
  · refine .bind (.lift _) fun b => ?_
    split
    · split
      · exact .pure _
      · exact .fail _
    · exact .fail _
  · exact .fail _

theorem validateSeal_ro (env : Env) (sl : EventSeal) (m : EventMessage) : ReadOnly (validateSeal mapOps env sl m) := by
  unfold validateSeal
  refine .bind (.result (getEventAtSn_ro _ _)) fun r => ?_
  split
  · split
    · refine .bind (.lift _) fun b => ?_
      split
      · exact .pure _
      · exact .fail _
    · exact .fail _
  · exact .fail _

theorem checkDelegation_ro (env : Env) (e : SignedEvent) : ReadOnly (checkDelegation mapOps env e) := by
  unfold checkDelegation
  split
  · split
    · exact validateSeal_ro env _ _
    · exact .fail _
  · refine .bind (computeState_ro env _) fun r => ?_
    split
    · exact .fail _
    · split
      · exact .fail _
      · split
        · exact validateSeal_ro env _ _
        · exact .fail _
  · exact .pure _

theorem applyToState_ro (env : Env) (m : EventMessage) : ReadOnly (applyToState mapOps env m) :=
  .bind (computeState_ro env _) fun _ => .lift _

theorem verifySignature_ro (env : Env) (d : Bytes) (s : Signature) : ReadOnly (verifySignature mapOps env d s) := by
  unfold verifySignature
  split
  · refine .bind (getKeysAtEvent_ro env _ _ _) fun kp => ?_
    split
    · refine .bind (.lift _) fun b => ?_
      split
      · exact .pure _
      · exact .fail _
    · exact .fail _
  · refine .bind (.lift _) fun b => ?_
    split
    · exact .pure _
    · exact .fail _

theorem badaLogic_ro (r : SignedReply) : ReadOnly (badaLogic mapOps r) := by
  unfold badaLogic getAccepted
  refine .bind (.read _ _) fun x => ?_
  split
  · exact .lift _
  · exact .fail _

theorem checkTimestamp_ro (dt : Timestamp) (p a : IdentifierPrefix) : ReadOnly (checkTimestamp mapOps dt p a) := by
  unfold checkTimestamp getAccepted
  refine .bind (.read _ _) fun x => ?_
  split
  · exact .fail _
  · split
    · split
      · exact .fail _
      · exact .pure _
    · exact .fail _

theorem ignoring_ro {x : StM MapDb Unit} (h : ReadOnly x) (e : Error) : ReadOnly (ignoring x e) := by
  unfold ignoring
  refine .bind (.result h) fun x => ?_
  split
  · exact .pure _
  · split
    · exact .pure _
    · exact .fail _

theorem checkKsn_ro (env : Env) (k : Ksn) (a : IdentifierPrefix) : ReadOnly (checkKsn mapOps env k a) := by
  unfold checkKsn
  refine .bind (getEventAtSn_ro _ _) fun x => ?_
  split
  · exact .fail _
  · refine .bind (.lift _) fun b => ?_
    split
    · refine .bind (ignoring_ro (checkTimestamp_ro _ _ _) _) fun _ => .bind (computeState_ro env _) fun s => ?_
      split
      · exact .fail _
      · split
        · exact .fail _
        · split
          · exact .pure _
          · exact .fail _
    · exact .fail _

/-! ## Computations that write one entry only -/

/-- writes nothing except entries of the tables in `T` for the identifier text `x` -/
def Writes {α} (T : Tbl → Prop) (x : Bytes) (f : StM MapDb α) : Prop :=
  ∀ a t y, (y ≠ x ∨ ¬ T t) → (f a).2.tables t y = a.tables t y

namespace Writes
variable {α β : Type} {T : Tbl → Prop} {x : Bytes}
theorem ofRo {f : StM MapDb α} (h : ReadOnly f) : Writes T x f := fun a t y _ => by rw [h a]
theorem bind {m : StM MapDb α} {f : α → StM MapDb β} (h1 : Writes T x m) (h2 : ∀ a, Writes T x (f a)) : Writes T x (m >>= f) := by
  intro a t y hy
  have hx := h1 a t y hy
  show (StM.bind m f a).2.tables t y = _
  unfold StM.bind
  rcases h : m a with ⟨r, a'⟩
  rw [h] at hx
  cases r with
  | ok b => dsimp only at hx ⊢; rw [h2 b a' t y hy, hx]
  | err e => exact hx
  | panic => exact hx
theorem result {m : StM MapDb α} (h : Writes T x m) : Writes T x m.result := by
  intro a t y hy
  have hx := h a t y hy
  unfold StM.result
  rcases h : m a with ⟨r, a'⟩
  rw [h] at hx
  cases r <;> exact hx
theorem set_frame (a : MapDb) (t t' : Tbl) (x y : Bytes) (o) (h : y ≠ x ∨ t' ≠ t) :
    (a.set t x o).tables t' y = a.tables t' y := by
  rcases h with h | h
  · exact MapDb.set_other_id a t t' h o
  · exact MapDb.set_other_tbl a h x y o
theorem push (t : Tbl) (ht : T t) (id : IdentifierPrefix) (v : t.Val) : Writes T id.toStr (mapOps.push t id v) := by
  intro a t' y hy
  simp only [mapOps]
  rw [set_frame _ _ _ _ _ _ (by rcases hy with h | h; exact .inl h; exact .inr fun he => h (he ▸ ht))]
  simp
theorem remove (t : Tbl) (ht : T t) (id : IdentifierPrefix) (v : t.Val) : Writes T id.toStr (mapOps.remove t id v) := by
  intro a t' y hy
  simp only [mapOps]
  rw [set_frame _ _ _ _ _ _ (by rcases hy with h | h; exact .inl h; exact .inr fun he => h (he ▸ ht))]
  simp
theorem put (t : Tbl) (ht : T t) (id : IdentifierPrefix) (v) : Writes T id.toStr (mapOps.put t id v) := by
  intro a t' y hy
  simp only [mapOps]
  rw [set_frame _ _ _ _ _ _ (by rcases hy with h | h; exact .inl h; exact .inr fun he => h (he ▸ ht))]
  simp
theorem mono {T' : Tbl → Prop} {f : StM MapDb α} (h : Writes T x f) (hT : ∀ t, T t → T' t) : Writes T' x f :=
  fun a t y hy => h a t y (by rcases hy with h | h; exact .inl h; exact .inr fun ht => h (hT t ht))
end Writes

theorem storeAndVerify_writes (env : Env) (e : SignedEvent) (new : IdState) :
    Writes (fun t => t = .kels ∨ t = .dels) e.pre.toStr (storeAndVerify mapOps env e new) := by
  unfold storeAndVerify addKel removeKel
  refine .bind (.push _ (by simp) _ _) fun _ => .bind (.ofRo (.lift _)) fun _ => .bind (.ofRo (.result (.lift _))) fun r => ?_
  split
  · exact .ofRo (.pure _)
  · refine .bind ?_ fun _ => .bind (.remove _ (by simp) _ _) fun _ => .ofRo (.fail _)
    unfold noteDup addDup
    split
    · exact .push _ (by simp) _ _
    · exact .ofRo (.pure _)

theorem processEvent_writes (env : Env) (e : SignedEvent) :
    Writes (fun t => t = .kels ∨ t = .dels) e.pre.toStr (processEvent mapOps env e) :=
  .bind (.ofRo (checkDelegation_ro env e)) fun _ => .bind (.ofRo (applyToState_ro env _)) fun _ => storeAndVerify_writes env e _

theorem validatorReceipt_writes (env : Env) (r : TReceipt) :
    Writes (fun t => t = .vrcs ∨ t = .vres) r.body.prefix.toStr (processValidatorReceipt mapOps env r) := by
  refine .bind ?_ fun _ => .ofRo (computeState_ro env _)
  unfold validatorReceiptStep addReceiptT addEscrowT
  refine .bind (.ofRo (.result (getEventAtSn_ro _ _))) fun x => ?_
  split
  · refine .bind (.ofRo (getKeysAtEvent_ro env _ _ _)) fun kp => ?_
    split
    · refine .bind (.ofRo (.lift _)) fun b => .bind (.ofRo (.lift _)) fun b => ?_
      split
      · exact .push _ (by simp) _ _
      · exact .ofRo (.fail _)
    · exact .ofRo (.fail _)
  · exact .bind (.push _ (by simp) _ _) fun _ => .ofRo (.fail _)

theorem witnessReceipt_writes (env : Env) (r : NtReceipt) :
    Writes (fun t => t = .rcts ∨ t = .ures) r.body.prefix.toStr (processWitnessReceipt mapOps env r) := by
  refine .bind ?_ fun _ => .ofRo (computeState_ro env _)
  unfold witnessReceiptStep addReceiptNt addEscrowNt
  refine .bind (.ofRo (.result (getEventAtSn_ro _ _))) fun x => ?_
  split
  · refine .bind (.ofRo (.lift _)) fun kp => ?_
    split
    · exact .push _ (by simp) _ _
    · exact .ofRo (.fail _)
  · exact .push _ (by simp) _ _

theorem replySignature_writes (env : Env) (r : SignedReply) :
    Writes (fun t => t = .knes) r.pre.toStr (replySignature mapOps env r) := by
  unfold replySignature escrowReply addEscrowed
  refine .bind (.ofRo (.lift _)) fun b => .bind (.ofRo (.result (verifySignature_ro env _ _))) fun x => ?_
  split
  · exact .ofRo (.pure _)
  · split
    · exact .bind (.push _ (by simp) _ _) fun _ => .ofRo (.fail _)
    · exact .ofRo (.fail _)

theorem replyNotice_writes (env : Env) (r : SignedReply) (aid : IdentifierPrefix) :
    Writes (fun t => t = .knes) r.pre.toStr (replyNotice mapOps env r aid) := by
  unfold replyNotice
  refine .bind (.ofRo (.result (checkKsn_ro env _ _))) fun x => ?_
  split
  · exact .ofRo (.pure _)
  · refine .bind ?_ fun _ => .ofRo (.fail _)
    unfold escrowIf escrowReply addEscrowed
    split
    · exact .push _ (by simp) _ _
    · exact .ofRo (.pure _)

theorem updateAccepted_writes (r : SignedReply) :
    Writes (fun t => t = .knas) r.pre.toStr (updateAccepted mapOps r r.pre) := by
  unfold updateAccepted
  refine .bind (.ofRo (.read _ _)) fun x => ?_
  split
  · exact .put _ (by simp) _ _
  · exact .push _ (by simp) _ _

theorem signedReply_writes (env : Env) (r : SignedReply) :
    Writes (fun t => t = .knas ∨ t = .knes) r.pre.toStr (processSignedReply mapOps env r) := by
  unfold processSignedReply
  split
  · split
    · exact .ofRo (.fail _)
    · refine .bind ((replySignature_writes env r).mono fun _ h => .inr h) fun _ => .bind (.ofRo (.lift _)) fun _ =>
        .bind (.ofRo (ignoring_ro (badaLogic_ro _) _)) fun _ => .bind ((replyNotice_writes env r _).mono fun _ h => .inr h) fun _ =>
        .bind ((updateAccepted_writes r).mono fun _ h => .inl h) fun _ => .ofRo (.pure _)
  · exact .ofRo (.fail _)

/-- the identifier a message is about -/
def Message.subject : Message → IdentifierPrefix
  | .event e => e.pre
  | .rctNt r => r.body.prefix
  | .rctT r => r.body.prefix
  | .reply r => r.pre
  | .query q => q.id

theorem process_writes (env : Env) (m : Message) : Writes (fun _ => True) m.subject.toStr (process mapOps env m) := by
  unfold process
  split
  · exact (processEvent_writes env _).mono fun _ _ => trivial
  · exact (witnessReceipt_writes env _).mono fun _ _ => trivial
  · exact (validatorReceipt_writes env _).mono fun _ _ => trivial
  · exact (signedReply_writes env _).mono fun _ _ => trivial
  · exact .ofRo (.lift _)

/-- writes only tables in `T`, for any identifier -/
def WritesTbl {α} (T : Tbl → Prop) (f : StM MapDb α) : Prop := ∀ a t, ¬ T t → (f a).2.tables t = a.tables t

namespace WritesTbl
variable {α β : Type} {T : Tbl → Prop}
theorem of {x : Bytes} {f : StM MapDb α} (h : Writes T x f) : WritesTbl T f :=
  fun a t ht => by funext y; exact h a t y (.inr ht)
theorem bind {m : StM MapDb α} {f : α → StM MapDb β} (h1 : WritesTbl T m) (h2 : ∀ a, WritesTbl T (f a)) : WritesTbl T (m >>= f) := by
  intro a t ht
  have hx := h1 a t ht
  show (StM.bind m f a).2.tables t = _
  unfold StM.bind
  rcases h : m a with ⟨r, a'⟩
  rw [h] at hx
  cases r with
  | ok b => dsimp only at hx ⊢; rw [h2 b a' t ht, hx]
  | err e => exact hx
  | panic => exact hx
theorem result {m : StM MapDb α} (h : WritesTbl T m) : WritesTbl T m.result := by
  intro a t hy
  have hx := h a t hy
  unfold StM.result
  rcases h : m a with ⟨r, a'⟩
  rw [h] at hx
  cases r <;> exact hx
end WritesTbl

theorem escrow_writes (env : Env) : WritesTbl (fun t => t = .knas ∨ t = .knes) (processEscrow mapOps env) := by
  unfold processEscrow
  refine .bind (fun a t _ => rfl) fun es => ?_
  induction es with
  | nil => exact fun a t _ => rfl
  | cons x es ih =>
    cases x with
    | none => exact fun a t _ => rfl
    | some rs =>
      refine .bind ?_ fun _ => ih
      induction rs with
      | nil => exact fun a t _ => rfl
      | cons r rs ih2 =>
        refine .bind ?_ fun _ => ih2
        unfold escrowStep removeEscrowed
        refine .bind (.result (.of (signedReply_writes env r))) fun x => ?_
        split
        · exact .of (Writes.remove (T := fun t => t = .knas ∨ t = .knes) _ (by simp) _ _)
        · split
          · exact .of (Writes.remove (T := fun t => t = .knas ∨ t = .knes) _ (by simp) _ _)
          · exact fun a t _ => rfl

end Keriox
