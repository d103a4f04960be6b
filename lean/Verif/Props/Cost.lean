import Verif.Props.Reply
/-!
# C117 — what a message can cost
-/
namespace Keriox

/-- the number of records a table holds, over all identifiers -/
def Db.records (db : Db) (t : Tbl) : Nat := ((db.tables t).map fun p => p.2.length).sum
/-- the number of records in some tables -/
def Db.total (db : Db) (ts : List Tbl) : Nat := (ts.map db.records).sum

/-- length of an entry -/
def elen {α : Type} (o : Option (List α)) : Nat := (o.getD []).length

theorem Tree.sum_ins {α : Type} (t : Tree (List α)) (h : t.Sorted) (k : Nat) (l : List α) :
    ((t.ins k l).map fun p => p.2.length).sum + elen (t.get k) = (t.map fun p => p.2.length).sum + l.length := by
  induction t with
  | nil => simp [Tree.ins, Tree.get, elen]
  | cons p r ih =>
    obtain ⟨q, w⟩ := p
    simp only [Tree.Sorted, List.map_cons, List.pairwise_cons] at h
    simp only [Tree.ins]
    split
    · rename_i hk
      have hg : Tree.get ((q, w) :: r) k = none := by
        apply Tree.get_none
        simp only [List.map_cons, List.mem_cons, not_or]
        refine ⟨by omega, fun hm => ?_⟩
        have := h.1 k hm
        omega
      rw [hg]
      simp only [List.map_cons, List.sum_cons, elen, Option.getD_none, List.length_nil]
      omega
    · split
      · rename_i hk hk2
        subst hk2
        simp only [Tree.get, if_true, List.map_cons, List.sum_cons, elen, Option.getD_some]
        omega
      · rename_i hk hk2
        have := ih h.2
        have hg : Tree.get ((q, w) :: r) k = Tree.get r k := by simp only [Tree.get, if_neg (Ne.symm hk2)]
        rw [hg]
        simp only [List.map_cons, List.sum_cons]
        omega

/-- one if a table of the list is among the counted ones -/
def hit (ts l : List Tbl) : Nat := if l.any (fun t => decide (t ∈ ts)) then 1 else 0

theorem total_setTable (db : Db) (t : Tbl) (tr : Tree (List t.Val)) (ts : List Tbl) (hn : ts.Nodup) :
    (db.setTable t tr).total ts + (if t ∈ ts then db.records t else 0) =
      db.total ts + (if t ∈ ts then ((tr.map fun p => p.2.length).sum) else 0) := by
  induction ts with
  | nil => rfl
  | cons u us ih =>
    rw [List.nodup_cons] at hn
    have ih := ih hn.2
    have e1 : ∀ d : Db, d.total (u :: us) = d.records u + d.total us := fun d => by simp [Db.total]
    rw [e1, e1]
    by_cases hu : t = u
    · subst hu
      simp only [if_neg hn.1, Nat.add_zero] at ih
      have : (db.setTable t tr).records t = (tr.map fun p => p.2.length).sum := by
        unfold Db.records; rw [Db.setTable_same]
      simp only [List.mem_cons, true_or, if_true, this]
      omega
    · have : (db.setTable t tr).records u = db.records u := by
        unfold Db.records; rw [Db.setTable_other _ (Ne.symm hu)]
      simp only [List.mem_cons, hu, false_or, this]
      omega

/-- what a computation can add to the number of records, when it succeeds and when it does not -/
def Cost {α : Type} (ts : List Tbl) (ok bad : Nat) (x : StM Db α) : Prop :=
  ∀ db, db.Inv → (x db).2.Inv ∧ (x db).2.total ts ≤ db.total ts + (match (x db).1 with | .ok _ => ok | _ => bad)

variable {α β : Type} {ts : List Tbl}

theorem Cost.mono {o b o' b' : Nat} {x : StM Db α} (h : Cost ts o b x) (h1 : o ≤ o') (h2 : b ≤ b') : Cost ts o' b' x := fun db hi => by
  refine ⟨(h db hi).1, Nat.le_trans (h db hi).2 ?_⟩
  cases (x db).1 <;> simp only <;> omega

theorem Cost.lift (r : Res α) : Cost ts 0 0 (StM.lift r) := fun _ hi => ⟨hi, by cases r <;> exact Nat.le_refl _⟩
theorem Cost.pure (a : α) : Cost ts 0 0 (Pure.pure a : StM Db α) := fun _ hi => ⟨hi, Nat.le_refl _⟩
theorem Cost.fail (e : Error) {n : Nat} : Cost ts n 0 (StM.fail e : StM Db α) := fun _ hi => ⟨hi, Nat.le_refl _⟩

theorem Cost.bind {o1 b1 o2 b2 b : Nat} {x : StM Db α} {f : α → StM Db β} (hx : Cost ts o1 b1 x) (hf : ∀ a, Cost ts o2 b2 (f a))
    (h1 : b1 ≤ b) (h2 : o1 + b2 ≤ b) : Cost ts (o1 + o2) b (x >>= f) := fun db hi => by
  have h := hx db hi
  rw [StM.bind_run]
  cases hr : x db with
  | mk r db' =>
    rw [hr] at h
    cases r with
    | ok a =>
      have h' := hf a db' h.1
      simp only at h h' ⊢
      refine ⟨h'.1, Nat.le_trans h'.2 ?_⟩
      cases (f a db').1 <;> simp only <;> omega
    | err e => simp only at h ⊢; exact ⟨h.1, by omega⟩
    | panic => simp only at h ⊢; exact ⟨h.1, by omega⟩

theorem Cost.bind0 {o b : Nat} {x : StM Db α} {f : α → StM Db β} (hx : Cost ts 0 0 x) (hf : ∀ a, Cost ts o b (f a)) : Cost ts o b (x >>= f) := by
  have := Cost.bind (b := b) hx hf (Nat.zero_le _) (by omega)
  rwa [Nat.zero_add] at this

/-- sequencing after a caught error -/
theorem Cost.catch {o1 b1 o2 b2 o3 b3 o b : Nat} {x : StM Db α} {f : Except Error α → StM Db β} (hx : Cost ts o1 b1 x)
    (hf : ∀ a, Cost ts o2 b2 (f (.ok a))) (hg : ∀ e, Cost ts o3 b3 (f (.error e)))
    (h1 : o1 + o2 ≤ o) (h2 : b1 + o3 ≤ o) (h3 : o1 + b2 ≤ b) (h4 : b1 + b3 ≤ b) : Cost ts o b (x.result >>= f) := fun db hi => by
  have h := hx db hi
  rw [StM.bind_run]
  unfold StM.result
  cases hr : x db with
  | mk r db' =>
    rw [hr] at h
    cases r with
    | ok a =>
      have h' := hf a db' h.1
      simp only at h h' ⊢
      refine ⟨h'.1, Nat.le_trans h'.2 ?_⟩
      cases (f (.ok a) db').1 <;> simp only <;> omega
    | err e =>
      have h' := hg e db' h.1
      simp only at h h' ⊢
      refine ⟨h'.1, Nat.le_trans h'.2 ?_⟩
      cases (f (.error e) db').1 <;> simp only <;> omega
    | panic => simp only at h ⊢; exact ⟨h.1, by omega⟩

theorem Cost.catchLift {o b : Nat} (r : Res α) {f : Except Error α → StM Db β}
    (hf : ∀ a, r = .ok a → Cost ts o b (f (.ok a))) (hg : ∀ e, r = .err e → Cost ts o b (f (.error e))) :
    Cost ts o b ((StM.lift r : StM Db α).result >>= f) := fun db hi => by
  rw [StM.bind_run]
  cases r with
  | ok a => exact hf a rfl db hi
  | err e => exact hg e rfl db hi
  | panic => exact ⟨hi, Nat.le_add_right _ _⟩

/-! ### storage calls -/

theorem total_tables {db db' : Db} (h : db'.tables = db.tables) : db'.total ts = db.total ts := by
  unfold Db.total Db.records; rw [h]

theorem decAll_length (t : Tbl) (l l' : List t.Val) (h : t.decAll l = some l') : l'.length = l.length := by
  induction l generalizing l' with
  | nil => cases h; rfl
  | cons v vs ih =>
    simp only [Tbl.decAll] at h
    split at h
    · rename_i h1 h2
      cases h
      simp [ih _ h2]
    · cases h

/-- writing one entry -/
theorem total_setEntry (db : Db) (hi : db.Inv) (hn : ts.Nodup) (t : Tbl) (k : Nat) (l : List t.Val) (c : Nat)
    (h : l.length ≤ elen ((db.tables t).get k) + c) :
    (db.setEntry t k (some l)).total ts ≤ db.total ts + c * hit ts [t] := by
  have h1 := total_setTable db t ((db.tables t).ins k l) ts hn
  have h2 := Tree.sum_ins (db.tables t) (hi.sorted t) k l
  show (db.setTable t ((db.tables t).ins k l)).total ts ≤ _
  unfold Db.records at h1
  have h3 : hit ts [t] = if t ∈ ts then 1 else 0 := by simp [hit]
  rw [h3]
  split at h1
  · rename_i hm
    rw [if_pos hm]
    omega
  · rename_i hm
    rw [if_neg hm]
    omega

theorem elen_pushed (t : Tbl) (o : Option (List t.Val)) (v : t.Val) : (t.pushed o v).length ≤ elen o + 1 := by
  unfold Tbl.pushed Tbl.entry
  cases o with
  | none => simp [elen]
  | some l =>
    cases hd : t.decAll l with
    | none => dsimp only; rw [hd]; simp [elen]
    | some l' => dsimp only; rw [hd]; simp [elen, decAll_length t l l' hd]

theorem keyed_run {id : IdentifierPrefix} {db db' : Db} {k : Nat} (h : designatedKey id db = (.ok k, db')) (f : Nat → StM Db α) :
    (designatedKey id >>= f : StM Db α) db = f k db' := by
  rw [StM.bind_run, h]

theorem Cost.read (t : Tbl) (id : IdentifierPrefix) : Cost ts 0 0 (sled.read t id) := fun db hi => by
  obtain ⟨k, db', h1, h2, -, -, h5⟩ := designatedKey_spec id db hi
  have : sled.read t id db = (t.iterValues ((db'.tables t).get k), db') := by
    exact keyed_run h1 _
  rw [this]
  exact ⟨h2, by rw [total_tables h5]; exact Nat.le_add_right _ _⟩

theorem Cost.push (hn : ts.Nodup) (t : Tbl) (id : IdentifierPrefix) (v : t.Val) : Cost ts (hit ts [t]) (hit ts [t]) (sled.push t id v) := fun db hi => by
  obtain ⟨k, db', h1, h2, -, h4, h5⟩ := designatedKey_spec id db hi
  have : sled.push t id v db = (.ok (), db'.setEntry t k (some (t.pushed ((db'.tables t).get k) v))) := by
    exact keyed_run h1 _
  rw [this]
  refine ⟨(setEntry_spec db' h2 t _ k h4 (some _) (fun h => nomatch h)).1, ?_⟩
  have := total_setEntry (ts := ts) db' h2 hn t k _ 1 (elen_pushed t ((db'.tables t).get k) v)
  rw [total_tables h5] at this
  simpa using this

theorem Cost.remove (hn : ts.Nodup) (t : Tbl) (id : IdentifierPrefix) (v : t.Val) : Cost ts 0 0 (sled.remove t id v) := fun db hi => by
  obtain ⟨k, db', h1, h2, -, h4, h5⟩ := designatedKey_spec id db hi
  have : sled.remove t id v db = (.ok (), db'.setEntry t k (t.removed ((db'.tables t).get k) v)) := by
    exact keyed_run h1 _
  rw [this]
  have hv : db'.vec t id.toStr = (db'.tables t).get k := (Db.vec_of_key h4).symm
  refine ⟨(setEntry_spec db' h2 t _ k h4 _ ?_).1, ?_⟩
  · intro h
    rw [hv]
    cases hg : (db'.tables t).get k with
    | none => rfl
    | some l =>
      rw [hg] at h
      unfold Tbl.removed Tbl.entry at h
      dsimp only at h
      cases hd : t.decAll l with
      | none => rw [hd] at h; cases h
      | some l' => rw [hd] at h; cases h
  · cases hr : t.removed ((db'.tables t).get k) v with
    | none => simp only [Db.setEntry]; rw [total_tables h5]; exact Nat.le_refl _
    | some l =>
      have := total_setEntry (ts := ts) db' h2 hn t k l 0 ?_
      · rw [total_tables h5] at this
        simpa using this
      · cases hg : (db'.tables t).get k with
        | none => rw [hg] at hr; cases hr
        | some l0 =>
          rw [hg] at hr
          unfold Tbl.removed Tbl.entry at hr
          dsimp only at hr
          cases hd : t.decAll l0 with
          | none => rw [hd] at hr; cases hr; exact Nat.le_refl _
          | some l' =>
            rw [hd] at hr
            cases hr
            have := decAll_length t l0 l' hd
            have := List.length_filter_le (fun e => !t.same e v) l'
            simp only [elen, Option.getD_some]
            omega

/-- replacing an accepted reply -/
theorem Cost.updateAccepted (hn : ts.Nodup) (r : SignedReply) (id : IdentifierPrefix) :
    Cost ts (hit ts [.knas]) (hit ts [.knas]) (updateAccepted sled r id) := fun db hi => by
  obtain ⟨k, db', h1, h2, -, h4, h5⟩ := designatedKey_spec id db hi
  have hrd : sled.read .knas id db = (Tbl.knas.iterValues ((db'.tables .knas).get k), db') := by
    exact keyed_run h1 _
  have hk2 : designatedKey id db' = (.ok k, db') := by unfold designatedKey; rw [h4]
  unfold Keriox.updateAccepted
  rw [StM.bind_run, hrd]
  unfold Tbl.iterValues Tbl.entry
  cases hg : (db'.tables .knas).get k with
  | none =>
    have := Cost.push hn .knas id r db' h2
    rw [total_tables (ts := ts) h5] at this
    exact this
  | some l =>
    dsimp only
    cases hd : Tbl.knas.decAll l with
    | none => exact ⟨h2, by rw [total_tables h5]; exact Nat.le_add_right _ _⟩
    | some l' =>
      dsimp only
      have hp : sled.put .knas id ((l'.filter fun s => s.reply.route ≠ r.reply.route) ++ [r]) db' =
          (.ok (), db'.setEntry .knas k (some ((l'.filter fun s => s.reply.route ≠ r.reply.route) ++ [r]))) := by
        exact keyed_run hk2 _
      rw [hp]
      refine ⟨(setEntry_spec db' h2 .knas _ k h4 (some _) (fun h => nomatch h)).1, ?_⟩
      have := total_setEntry (ts := ts) db' h2 hn .knas k ((l'.filter fun s => s.reply.route ≠ r.reply.route) ++ [r]) 1 ?_
      · rw [total_tables h5] at this
        simpa using this
      · rw [hg]
        have h6 := decAll_length .knas l l' hd
        have h7 := List.length_filter_le (fun s : SignedReply => decide (s.reply.route ≠ r.reply.route)) l'
        rw [List.length_append]
        simp only [elen, Option.getD_some, List.length_cons, List.length_nil]
        exact Nat.add_le_add_right (Nat.le_trans h7 (Nat.le_of_eq h6)) 1

/-! ### the processor -/

theorem hit_le (l m : List Tbl) (h : ∀ t ∈ l, t ∈ m) : hit ts l ≤ hit ts m := by
  unfold hit
  split
  · rename_i h1
    rw [if_pos]
    · exact Nat.le_refl _
    · simp only [List.any_eq_true] at h1 ⊢
      obtain ⟨t, ht, hm⟩ := h1
      exact ⟨t, h t ht, hm⟩
  · exact Nat.zero_le _

theorem Cost.computeState (env : Env) (id : IdentifierPrefix) : Cost ts 0 0 (computeState sled env id) :=
  (Cost.read .kels id).bind0 fun o => by
    cases o with
    | none => exact Cost.pure _
    | some evs => exact (Cost.lift _).bind0 fun _ => Cost.pure _

theorem Cost.getEventAtSn (id : IdentifierPrefix) (sn : Nat) : Cost ts 0 0 (getEventAtSn sled id sn) :=
  (Cost.read .kels id).bind0 fun o => by
    cases o with
    | none => exact Cost.pure _
    | some evs => exact Cost.pure _

theorem Cost.validateSeal (env : Env) (sl : EventSeal) (m : EventMessage) : Cost ts 0 0 (validateSeal sled env sl m) :=
  Cost.catch (o2 := 0) (b2 := 0) (o3 := 0) (b3 := 0) (Cost.getEventAtSn _ _)
    (fun o => by
      cases o with
      | none => exact Cost.fail _
      | some e =>
        dsimp only
        cases e.data.anchors? with
        | none => exact Cost.fail _
        | some data =>
          refine (Cost.lift _).bind0 fun b => ?_
          cases b
          · exact Cost.fail _
          · exact Cost.pure _)
    (fun e => Cost.fail _) (by omega) (by omega) (by omega) (by omega)

theorem Cost.checkDelegation (env : Env) (e : SignedEvent) : Cost ts 0 0 (checkDelegation sled env e) := by
  unfold Keriox.checkDelegation
  cases e.data with
  | dip d =>
    dsimp only
    cases e.delegatorSeal with
    | none => exact Cost.fail _
    | some s => exact Cost.validateSeal _ _ _
  | drt d =>
    refine (Cost.computeState env e.pre).bind0 fun o => ?_
    cases o with
    | none => exact Cost.fail _
    | some st =>
      dsimp only
      cases st.delegator with
      | none => exact Cost.fail _
      | some del =>
        dsimp only
        cases e.delegatorSeal with
        | none => exact Cost.fail _
        | some s => exact Cost.validateSeal _ _ _
  | icp d => exact Cost.pure _
  | rot d => exact Cost.pure _
  | ixn d => exact Cost.pure _

theorem Cost.applyToState (env : Env) (m : EventMessage) : Cost ts 0 0 (applyToState sled env m) :=
  (Cost.computeState env _).bind0 fun _ => Cost.lift _

theorem Cost.storeAndVerify (hn : ts.Nodup) (env : Env) (e : SignedEvent) (new : IdState) :
    Cost ts (hit ts [.kels]) (hit ts [.kels]) (storeAndVerify sled env e new) := by
  refine (Cost.bind (o2 := 0) (b2 := 0) (Cost.push hn .kels e.pre e.stored) (fun _ => ?_) (Nat.le_refl _) (Nat.le_refl _))
  refine (Cost.lift _).bind0 fun bytes => ?_
  refine Cost.catchLift _ (fun a _ => Cost.pure _) (fun er h => ?_)
  have hnd : er ≠ .eventDuplicate := fun he => verifyOutcome_not_duplicate env new bytes e.sigs (he ▸ h)
  have h0 : noteDup sled e er = Pure.pure () := by unfold noteDup; rw [if_neg hnd]
  dsimp only
  rw [h0]
  refine (Cost.pure _).bind0 fun _ => (Cost.remove hn .kels _ _).bind0 fun _ => Cost.fail _

theorem Cost.processEvent (hn : ts.Nodup) (env : Env) (e : SignedEvent) : Cost ts (hit ts [.kels]) (hit ts [.kels]) (processEvent sled env e) :=
  (Cost.checkDelegation env e).bind0 fun _ => (Cost.applyToState env _).bind0 fun _ => Cost.storeAndVerify hn env e _

theorem Cost.getKeysAtEvent (env : Env) (id : IdentifierPrefix) (sn : Nat) (d : SelfAddressingPrefix) :
    Cost ts 0 0 (getKeysAtEvent sled env id sn d) :=
  Cost.catch (o2 := 0) (b2 := 0) (o3 := 0) (b3 := 0) (Cost.getEventAtSn _ _)
    (fun o => by
      cases o with
      | none => exact Cost.fail _
      | some e =>
        refine (Cost.lift _).bind0 fun b => ?_
        cases b
        · exact Cost.fail _
        · rw [if_pos rfl]
          cases e.data.keyConfig? with
          | none => exact Cost.fail _
          | some kc => exact Cost.pure _)
    (fun e => Cost.fail _) (by omega) (by omega) (by omega) (by omega)

theorem Cost.validatorStep (hn : ts.Nodup) (env : Env) (r : TReceipt) :
    Cost ts (hit ts [.vrcs, .vres]) (hit ts [.vrcs, .vres]) (validatorReceiptStep sled env r) :=
  Cost.catch (o1 := 0) (b1 := 0) (Cost.getEventAtSn _ _)
    (fun o => by
      cases o with
      | none =>
        refine (Cost.bind (o1 := hit ts [.vrcs, .vres]) (o2 := 0) (b2 := 0)
          ((Cost.push hn .vres _ r).mono (hit_le _ _ (by decide)) (hit_le _ _ (by decide))) (fun _ => Cost.fail _) (Nat.le_refl _) (Nat.le_refl _))
      | some e =>
        refine (Cost.getKeysAtEvent env _ _ _).bind0 fun o => ?_
        cases o with
        | none => exact (Cost.fail _).mono (Nat.le_refl _) (Nat.zero_le _)
        | some kc =>
          refine (Cost.lift _).bind0 fun _ => (Cost.lift _).bind0 fun b => ?_
          cases b
          · exact (Cost.fail _).mono (Nat.le_refl _) (Nat.zero_le _)
          · exact (Cost.push hn .vrcs _ r).mono (hit_le _ _ (by decide)) (hit_le _ _ (by decide)))
    (fun e => by
        exact (Cost.bind (o1 := hit ts [.vrcs, .vres]) (o2 := 0) (b2 := 0)
          ((Cost.push hn .vres _ r).mono (hit_le _ _ (by decide)) (hit_le _ _ (by decide))) (fun _ => Cost.fail _) (Nat.le_refl _) (Nat.le_refl _)))
    (by omega) (by omega) (by omega) (by omega)

theorem Cost.validatorReceipt (hn : ts.Nodup) (env : Env) (r : TReceipt) :
    Cost ts (hit ts [.vrcs, .vres]) (hit ts [.vrcs, .vres]) (processValidatorReceipt sled env r) :=
  (Cost.bind (o2 := 0) (b2 := 0) (Cost.validatorStep hn env r) (fun _ => Cost.computeState env _) (Nat.le_refl _) (Nat.le_refl _))

theorem Cost.witnessStep (hn : ts.Nodup) (env : Env) (r : NtReceipt) :
    Cost ts (hit ts [.rcts, .ures]) (hit ts [.rcts, .ures]) (witnessReceiptStep sled env r) :=
  Cost.catch (o1 := 0) (b1 := 0) (o2 := hit ts [.rcts, .ures]) (b2 := hit ts [.rcts, .ures]) (o3 := hit ts [.rcts, .ures]) (b3 := hit ts [.rcts, .ures]) (Cost.getEventAtSn _ _)
    (fun o => by
      cases o with
      | none => exact (Cost.push hn .ures _ r).mono (hit_le _ _ (by decide)) (hit_le _ _ (by decide))
      | some e =>
        refine (Cost.lift _).bind0 fun b => ?_
        cases lastErr (r.couplets.map fun c => c.1.verify env b c.2) with
        | none => exact (Cost.push hn .rcts _ r).mono (hit_le _ _ (by decide)) (hit_le _ _ (by decide))
        | some er => exact (Cost.fail _).mono (Nat.le_refl _) (Nat.zero_le _))
    (fun e => (Cost.push hn .ures _ r).mono (hit_le _ _ (by decide)) (hit_le _ _ (by decide)))
    (by omega) (by omega) (by omega) (by omega)

theorem Cost.witnessReceipt (hn : ts.Nodup) (env : Env) (r : NtReceipt) :
    Cost ts (hit ts [.rcts, .ures]) (hit ts [.rcts, .ures]) (processWitnessReceipt sled env r) :=
  (Cost.bind (o2 := 0) (b2 := 0) (Cost.witnessStep hn env r) (fun _ => Cost.computeState env _) (Nat.le_refl _) (Nat.le_refl _))

theorem Cost.verifySignature (env : Env) (d : Bytes) (s : Signature) : Cost ts 0 0 (verifySignature sled env d s) := by
  cases s with
  | transferable sl sigs =>
    refine (Cost.getKeysAtEvent env _ _ _).bind0 fun o => ?_
    cases o with
    | none => exact Cost.fail _
    | some kc =>
      refine (Cost.lift _).bind0 fun b => ?_
      cases b
      · exact Cost.fail _
      · exact Cost.pure _
  | nonTransferable k sig =>
    refine (Cost.lift _).bind0 fun b => ?_
    cases b
    · exact Cost.fail _
    · exact Cost.pure _

theorem Cost.ignoring {x : StM Db Unit} (h : Cost ts 0 0 x) (e : Error) : Cost ts 0 0 (ignoring x e) :=
  Cost.catch (o2 := 0) (b2 := 0) (o3 := 0) (b3 := 0) h (fun a => Cost.pure _)
    (fun e' => by
      dsimp only
      split
      · exact Cost.pure _
      · exact Cost.fail _) (by omega) (by omega) (by omega) (by omega)

theorem Cost.badaLogic (r : SignedReply) : Cost ts 0 0 (badaLogic sled r) :=
  (Cost.read .knas _).bind0 fun o => by
    split
    · exact Cost.lift _
    · exact Cost.fail _

theorem Cost.checkTimestamp (dt : Timestamp) (p a : IdentifierPrefix) : Cost ts 0 0 (checkTimestamp sled dt p a) :=
  (Cost.read .knas _).bind0 fun o => by
    cases o with
    | none => exact Cost.fail _
    | some rs =>
      dsimp only
      split
      · split
        · exact Cost.fail _
        · exact Cost.pure _
      · exact Cost.fail _

theorem Cost.checkKsn (env : Env) (k : Ksn) (aid : IdentifierPrefix) : Cost ts 0 0 (checkKsn sled env k aid) :=
  (Cost.getEventAtSn _ _).bind0 fun o => by
    cases o with
    | none => exact Cost.fail _
    | some e =>
      refine (Cost.lift _).bind0 fun b => ?_
      cases b
      · exact Cost.fail _
      · refine (Cost.ignoring (Cost.checkTimestamp _ _ _) _).bind0 fun _ => (Cost.computeState env _).bind0 fun o => ?_
        cases o with
        | none => exact Cost.fail _
        | some st =>
          dsimp only
          split
          · exact Cost.fail _
          · split
            · exact Cost.pure _
            · exact Cost.fail _

theorem Cost.replySignature (hn : ts.Nodup) (env : Env) (r : SignedReply) : Cost ts 0 (hit ts [.knas, .knes]) (replySignature sled env r) :=
  (Cost.lift _).bind0 fun bytes =>
    Cost.catch (o2 := 0) (b2 := 0) (o3 := 0) (b3 := hit ts [.knas, .knes]) (Cost.verifySignature env bytes r.signature) (fun _ => Cost.pure _)
      (fun e => by
        dsimp only
        split
        · intro db hi
          have h := Cost.push hn .knes r.pre r db hi
          have hh : hit ts [Tbl.knes] ≤ hit ts [.knas, .knes] := hit_le _ _ (by decide)
          rw [StM.bind_run]
          have he : escrowReply sled r db = sled.push .knes r.pre r db := rfl
          rw [he]
          cases hr : sled.push .knes r.pre r db with
          | mk x db' =>
            rw [hr] at h
            cases x <;> exact ⟨h.1, Nat.le_trans h.2 (Nat.add_le_add_left hh _)⟩
        · exact (Cost.fail _).mono (Nat.le_refl _) (Nat.zero_le _)) (by omega) (by omega) (by omega) (by omega)

theorem Cost.replyNotice (hn : ts.Nodup) (env : Env) (r : SignedReply) (aid : IdentifierPrefix) :
    Cost ts 0 (hit ts [.knas, .knes]) (replyNotice sled env r aid) :=
  Cost.catch (o2 := 0) (b2 := 0) (o3 := 0) (b3 := hit ts [.knas, .knes]) (Cost.checkKsn env _ aid) (fun _ => Cost.pure _)
    (fun e db hi => by
      have h := Cost.push hn .knes r.pre r db hi
      have hh : hit ts [Tbl.knes] ≤ hit ts [.knas, .knes] := hit_le _ _ (by decide)
      dsimp only
      rw [StM.bind_run]
      unfold escrowIf
      split
      · rename_i heq
        split at heq
        · have he : escrowReply sled r db = sled.push .knes r.pre r db := rfl
          rw [he] at heq
          rw [heq] at h
          exact ⟨h.1, Nat.le_trans h.2 (Nat.add_le_add_left hh _)⟩
        · cases heq
          exact ⟨hi, Nat.le_add_right _ _⟩
      · rename_i heq
        split at heq
        · have he : escrowReply sled r db = sled.push .knes r.pre r db := rfl
          rw [he] at heq
          rw [heq] at h
          exact ⟨h.1, Nat.le_trans h.2 (Nat.add_le_add_left hh _)⟩
        · cases heq
      · rename_i heq
        split at heq
        · have he : escrowReply sled r db = sled.push .knes r.pre r db := rfl
          rw [he] at heq
          rw [heq] at h
          exact ⟨h.1, Nat.le_trans h.2 (Nat.add_le_add_left hh _)⟩
        · cases heq) (by omega) (by omega) (by omega) (by omega)

theorem Cost.signedReply (hn : ts.Nodup) (env : Env) (r : SignedReply) :
    Cost ts (hit ts [.knas, .knes]) (hit ts [.knas, .knes]) (processSignedReply sled env r) := by
  unfold processSignedReply
  split
  · rename_i aid _
    split
    · exact (Cost.fail _).mono (Nat.le_refl _) (Nat.zero_le _)
    · have h1 := Cost.bind (b := hit ts [.knas, .knes]) (Cost.replySignature hn env r) (f := fun _ => do
          StM.lift (r.reply.checkDigest env)
          Keriox.ignoring (Keriox.badaLogic sled r) (.query .noSavedReply)
          Keriox.replyNotice sled env r aid
          Keriox.updateAccepted sled r r.pre
          Pure.pure (some r.reply.ksn.state)) (o2 := hit ts [.knas, .knes]) (b2 := hit ts [.knas, .knes])
        (fun _ => (Cost.lift _).bind0 fun _ => (Cost.ignoring (Cost.badaLogic r) _).bind0 fun _ => by
          have h2 := Cost.bind (b := hit ts [.knas, .knes]) (Cost.replyNotice hn env r aid) (f := fun _ => do
            Keriox.updateAccepted sled r r.pre
            Pure.pure (some r.reply.ksn.state)) (o2 := hit ts [.knas, .knes]) (b2 := hit ts [.knas, .knes])
            (fun _ => Cost.bind (o2 := 0) (b2 := 0) ((Cost.updateAccepted hn r _).mono (hit_le _ _ (by decide)) (hit_le _ _ (by decide)))
              (fun _ => Cost.pure _) (Nat.le_refl _) (Nat.le_refl _))
            (Nat.le_refl _) (by omega)
          rwa [Nat.zero_add] at h2)
        (Nat.le_refl _) (by omega)
      rwa [Nat.zero_add] at h1
  · exact (Cost.fail _).mono (Nat.le_refl _) (Nat.zero_le _)

/-- what processing a message can cost in each group of tables -/
def Message.writes : Message → List Tbl
  | .event _ => [.kels]
  | .rctT _ => [.vrcs, .vres]
  | .rctNt _ => [.rcts, .ures]
  | .reply _ => [.knas, .knes]
  | .query _ => []

theorem Cost.process (hn : ts.Nodup) (env : Env) (m : Message) : Cost ts (hit ts m.writes) (hit ts m.writes) (process sled env m) := by
  cases m with
  | event e => exact Cost.processEvent hn env e
  | rctT r => exact Cost.validatorReceipt hn env r
  | rctNt r => exact Cost.witnessReceipt hn env r
  | reply r => exact Cost.signedReply hn env r
  | query q => exact (Cost.lift _).mono (Nat.zero_le _) (Nat.zero_le _)

theorem Cost.escrowStep (hn : ts.Nodup) (env : Env) (r : SignedReply) :
    Cost ts (hit ts [.knas, .knes]) (hit ts [.knas, .knes]) (escrowStep sled env r) :=
  Cost.catch (o2 := 0) (b2 := 0) (o3 := 0) (b3 := 0) (Cost.signedReply hn env r) (fun _ => Cost.remove hn .knes _ _)
    (fun e => by
      dsimp only
      split
      · exact Cost.remove hn .knes _ _
      · exact Cost.pure _) (by omega) (by omega) (by omega) (by omega)

theorem Cost.escrowSteps (hn : ts.Nodup) (env : Env) (rs : List SignedReply) :
    Cost ts (rs.length * hit ts [.knas, .knes]) (rs.length * hit ts [.knas, .knes]) (escrowSteps sled env rs) := by
  induction rs with
  | nil => exact (Cost.pure _).mono (Nat.zero_le _) (Nat.zero_le _)
  | cons r rs ih =>
    have h := Cost.bind (b := (r :: rs).length * hit ts [.knas, .knes]) (Cost.escrowStep hn env r) (fun _ => ih)
      (by rw [List.length_cons, Nat.succ_mul]; omega) (by rw [List.length_cons, Nat.succ_mul]; omega)
    exact h.mono (by rw [List.length_cons, Nat.succ_mul]; omega) (Nat.le_refl _)

theorem Cost.escrowEntries (hn : ts.Nodup) (env : Env) (es : List (Option (List SignedReply))) :
    Cost ts ((es.map elen).sum * hit ts [.knas, .knes]) ((es.map elen).sum * hit ts [.knas, .knes]) (escrowEntries sled env es) := by
  induction es with
  | nil => exact (Cost.pure _).mono (Nat.zero_le _) (Nat.zero_le _)
  | cons o es ih =>
    cases o with
    | none => exact (Cost.lift _).mono (Nat.zero_le _) (Nat.zero_le _)
    | some rs =>
      have hs : ((some rs :: es).map elen).sum * hit ts [.knas, .knes] = rs.length * hit ts [.knas, .knes] + (es.map elen).sum * hit ts [.knas, .knes] := by
        rw [List.map_cons, List.sum_cons, Nat.add_mul]; rfl
      have h := Cost.bind (b := rs.length * hit ts [.knas, .knes] + (es.map elen).sum * hit ts [.knas, .knes]) (Cost.escrowSteps hn env rs) (fun _ => ih)
        (Nat.le_add_right _ _) (Nat.le_refl _)
      rw [hs]
      exact h

theorem decoded_le (t : Tbl) (tr : Tree (List t.Val)) :
    ((tr.map fun p => t.decAll p.2).map elen).sum ≤ (tr.map fun p => p.2.length).sum := by
  induction tr with
  | nil => exact Nat.le_refl _
  | cons p r ih =>
    simp only [List.map_cons, List.sum_cons]
    have : elen (t.decAll p.2) ≤ p.2.length := by
      cases hd : t.decAll p.2 with
      | none => exact Nat.zero_le _
      | some l => exact Nat.le_of_eq (decAll_length t _ _ hd)
    omega

theorem processEscrow_cost (hn : ts.Nodup) (env : Env) (db : Db) (hi : db.Inv) :
    (processEscrow sled env db).2.Inv ∧
    (processEscrow sled env db).2.total ts ≤ db.total ts + db.records .knes * hit ts [.knas, .knes] := by
  have h := Cost.escrowEntries hn env ((db.tables .knes).map fun p => Tbl.knes.decAll p.2) db hi
  have h1 : processEscrow sled env db = escrowEntries sled env ((db.tables .knes).map fun p => Tbl.knes.decAll p.2) db := rfl
  rw [h1]
  refine ⟨h.1, Nat.le_trans h.2 (Nat.add_le_add_left ?_ _)⟩
  have h2 := Nat.mul_le_mul_right (hit ts [.knas, .knes]) (decoded_le .knes (db.tables .knes))
  split <;> exact h2

/-! ## The property -/

/-- the submitted messages of a history -/
def sentMessages : List Action → List Message
  | [] => []
  | .submit m :: as => m :: sentMessages as
  | _ :: as => sentMessages as

/-- kinds of messages -/
def Message.isEvent : Message → Bool | .event _ => true | _ => false
/-- kinds of messages -/
def Message.isValidatorReceipt : Message → Bool | .rctT _ => true | _ => false
/-- kinds of messages -/
def Message.isWitnessReceipt : Message → Bool | .rctNt _ => true | _ => false
/-- kinds of messages -/
def Message.isReply : Message → Bool | .reply _ => true | _ => false
/-- calls of `process_escrow` -/
def Action.isReprocess : Action → Bool | .reprocess => true | _ => false

theorem sent_append (as bs : List Action) : sentMessages (as ++ bs) = sentMessages as ++ sentMessages bs := by
  induction as with
  | nil => rfl
  | cons a as ih => cases a <;> simp [sentMessages, ih]

theorem cost_plain (hn : ts.Nodup) (h0 : hit ts [.knas, .knes] = 0) (env : Env) (k : Message → Bool) (hk : ∀ m, hit ts m.writes ≤ if k m then 1 else 0)
    (as : List Action) : (after env as).total ts ≤ (sentMessages as).countP k := by
  induction as using snoc_induction with
  | h0 =>
    have : ∀ us : List Tbl, Db.empty.total us = 0 := fun us => by
      induction us with
      | nil => rfl
      | cons u us ih => simp only [Db.total, List.map_cons, List.sum_cons] at ih ⊢; rw [ih]; rfl
    exact Nat.le_of_eq (this ts)
  | h1 as a ih =>
    have hrun : after env (as ++ [a]) = a.run sled env (after env as) := by rw [after, runHistory_append]; rfl
    rw [hrun, sent_append, List.countP_append]
    have hi := after_inv env as
    cases a with
    | submit m =>
      have h := (Cost.process hn env m _ hi).2
      have h2 := hk m
      show (Keriox.process sled env m (after env as)).2.total ts ≤ _
      have h3 : (sentMessages [.submit m]).countP k = if k m then 1 else 0 := by simp [sentMessages, List.countP_singleton]
      rw [h3]
      revert h
      cases (Keriox.process sled env m (after env as)).1 <;> intro h <;> dsimp only at h <;> omega
    | reprocess =>
      have h := (processEscrow_cost hn env _ hi).2
      rw [h0, Nat.mul_zero] at h
      exact Nat.le_trans h (Nat.le_trans ih (Nat.le_add_right _ _))
    | lookup t id =>
      have h := (Cost.read (ts := ts) t id _ hi).2
      refine Nat.le_trans h (Nat.le_trans ?_ (Nat.le_trans ih (Nat.le_add_right _ _)))
      split <;> exact Nat.le_refl _

/-- C117: all tables of events together hold at most as many records as events were submitted. -/
theorem C117_events (env : Env) (as : List Action) :
    (after env as).records .kels + (after env as).records .ldes + (after env as).records .dels ≤ (sentMessages as).countP Message.isEvent := by
  have h := cost_plain (ts := [.kels, .ldes, .dels]) (by decide) (by decide) env Message.isEvent (fun m => by cases m <;> simp [hit, Message.writes, Message.isEvent, Message.isValidatorReceipt, Message.isWitnessReceipt, Message.isReply]) as
  simp only [Db.total, List.map_cons, List.map_nil, List.sum_cons, List.sum_nil] at h
  omega

/-- C117: the receipts of validators, accepted and escrowed, are at most as many as were submitted. -/
theorem C117_validator_receipts (env : Env) (as : List Action) :
    (after env as).records .vrcs + (after env as).records .vres ≤ (sentMessages as).countP Message.isValidatorReceipt := by
  have h := cost_plain (ts := [.vrcs, .vres]) (by decide) (by decide) env Message.isValidatorReceipt (fun m => by cases m <;> simp [hit, Message.writes, Message.isEvent, Message.isValidatorReceipt, Message.isWitnessReceipt, Message.isReply]) as
  simp only [Db.total, List.map_cons, List.map_nil, List.sum_cons, List.sum_nil] at h
  omega

/-- C117: the receipts of witnesses, accepted and escrowed, are at most as many as were submitted. -/
theorem C117_witness_receipts (env : Env) (as : List Action) :
    (after env as).records .rcts + (after env as).records .ures ≤ (sentMessages as).countP Message.isWitnessReceipt := by
  have h := cost_plain (ts := [.rcts, .ures]) (by decide) (by decide) env Message.isWitnessReceipt (fun m => by cases m <;> simp [hit, Message.writes, Message.isEvent, Message.isValidatorReceipt, Message.isWitnessReceipt, Message.isReply]) as
  simp only [Db.total, List.map_cons, List.map_nil, List.sum_cons, List.sum_nil] at h
  omega

/-- C117: the replies, accepted and escrowed, are at most as many as were submitted, doubled by every call of `process_escrow`. -/
theorem C117_replies (env : Env) (as : List Action) :
    (after env as).records .knas + (after env as).records .knes ≤ (sentMessages as).countP Message.isReply * 2 ^ as.countP Action.isReprocess := by
  induction as using snoc_induction with
  | h0 => exact Nat.le_refl _
  | h1 as a ih =>
    have hrun : after env (as ++ [a]) = a.run sled env (after env as) := by rw [after, runHistory_append]; rfl
    have hi := after_inv env as
    have htot : ∀ d : Db, d.total [.knas, .knes] = d.records .knas + d.records .knes := fun d => by
      simp only [Db.total, List.map_cons, List.map_nil, List.sum_cons, List.sum_nil]; omega
    rw [← htot] at ih ⊢
    rw [hrun, sent_append, List.countP_append, List.countP_append]
    have hn : [Tbl.knas, .knes].Nodup := by decide
    cases a with
    | submit m =>
      have h := (Cost.process hn env m _ hi).2
      have h2 : hit [Tbl.knas, .knes] m.writes ≤ if m.isReply then 1 else 0 := by cases m <;> simp [hit, Message.writes, Message.isEvent, Message.isValidatorReceipt, Message.isWitnessReceipt, Message.isReply]
      show (Keriox.process sled env m (after env as)).2.total _ ≤ _
      have h3 : (sentMessages [.submit m]).countP Message.isReply = if m.isReply then 1 else 0 := by simp [sentMessages, List.countP_singleton]
      have h4 : [Action.submit m].countP Action.isReprocess = 0 := rfl
      have h5 : 1 ≤ 2 ^ as.countP Action.isReprocess := Nat.one_le_two_pow
      have h6 : (if m.isReply then 1 else 0) ≤ (if m.isReply then 1 else 0) * 2 ^ as.countP Action.isReprocess :=
        Nat.le_mul_of_pos_right _ h5
      rw [h3, h4, Nat.add_zero, Nat.add_mul]
      revert h
      cases (Keriox.process sled env m (after env as)).1 <;> intro h <;> dsimp only at h <;> omega
    | reprocess =>
      have h := (processEscrow_cost hn env _ hi).2
      have h1 : hit [Tbl.knas, .knes] [.knas, .knes] = 1 := by decide
      rw [h1, Nat.mul_one] at h
      show (processEscrow sled env (after env as)).2.total _ ≤ _
      have h4 : [Action.reprocess].countP Action.isReprocess = 1 := rfl
      have h5 : (sentMessages [.reprocess]).countP Message.isReply = 0 := rfl
      have h6 : (after env as).records .knes ≤ (after env as).total [.knas, .knes] := by rw [htot]; omega
      rw [h4, h5, Nat.add_zero, Nat.pow_succ, ← Nat.mul_assoc]
      omega
    | lookup t id =>
      have h := (Cost.read (ts := [Tbl.knas, .knes]) t id _ hi).2
      have h4 : [Action.lookup t id].countP Action.isReprocess = 0 := rfl
      have h5 : (sentMessages [.lookup t id]).countP Message.isReply = 0 := rfl
      rw [h4, h5, Nat.add_zero, Nat.add_zero]
      show (sled.read t id (after env as)).2.total _ ≤ _
      refine Nat.le_trans h (Nat.le_trans ?_ ih)
      split <;> exact Nat.le_refl _


/-! ### identifiers -/

/-- the identifiers an event names: its own and, at a delegated inception, the delegator -/
def SignedEvent.names (e : SignedEvent) : List Bytes :=
  match e.data with
  | .dip d => [e.pre.toStr, d.delegator.toStr]
  | _ => [e.pre.toStr]
/-- the identifiers a reply names: its subject and, in a seal, the signer -/
def SignedReply.names (r : SignedReply) : List Bytes :=
  match r.signature with
  | .transferable sl _ => [r.pre.toStr, sl.prefix.toStr]
  | .nonTransferable _ _ => [r.pre.toStr]
/-- the identifiers a message names -/
def Message.names : Message → List Bytes
  | .event e => e.names
  | .rctT r => [r.body.prefix.toStr, r.validatorSeal.prefix.toStr]
  | .rctNt r => [r.body.prefix.toStr]
  | .reply r => r.names
  | .query _ => []
/-- the identifiers an action names -/
def Action.names : Action → List Bytes
  | .submit m => m.names
  | .lookup _ id => [id.toStr]
  | .reprocess => []

/-- what is asked of the stored values of each table -/
def vok (N : Bytes → Prop) : (t : Tbl) → t.Val → Prop
  | .kels => fun (e : SignedEvent) => ∀ x ∈ e.names, N x
  | .knes => fun (r : SignedReply) => ∀ x ∈ r.names, N x
  | .ldes => fun _ => True
  | .dels => fun _ => True
  | .rcts => fun _ => True
  | .ures => fun _ => True
  | .vrcs => fun _ => True
  | .vres => fun _ => True
  | .knas => fun _ => True

theorem SignedReply.dec_names {r r' : SignedReply} (h : r.dec = some r') : r'.names = r.names := by
  unfold SignedReply.dec at h
  cases hk : r.reply.ksn.dec with
  | none => rw [hk] at h; cases h
  | some k =>
    rw [hk] at h
    have hp : k.state.prefix = r.reply.ksn.state.prefix := by
      unfold Ksn.dec at hk
      simp only [Option.bind_eq_bind, Option.bind_eq_some_iff] at hk
      obtain ⟨n, _, hk⟩ := hk
      generalize hc : (_ && _) = c at hk
      cases c with
      | false => cases hk
      | true =>
        simp only [if_true, Option.bind_eq_some_iff, Option.some.injEq] at hk
        obtain ⟨sn, h1, f, h2, bt, h3, rfl⟩ := hk
        rfl
    simp only [Option.bind_eq_bind, Option.bind_some] at h
    split at h
    · cases h
      unfold SignedReply.names SignedReply.pre
      simp only [hp]
    · cases h

theorem vok_dec {N : Bytes → Prop} {t : Tbl} {v v' : t.Val} (h : t.dec v = some v') (hv : vok N t v) : vok N t v' := by
  cases t with
  | kels =>
    have : v' = v := by
      simp only [Tbl.dec, guardRt] at h
      split at h
      · exact (Option.some.inj h).symm
      · cases h
    rw [this]; exact hv
  | knes =>
    intro x hx
    exact hv x (by rw [← SignedReply.dec_names h]; exact hx)
  | ldes => trivial
  | dels => trivial
  | rcts => trivial
  | ures => trivial
  | vrcs => trivial
  | vres => trivial
  | knas => trivial

theorem vok_decAll {N : Bytes → Prop} {t : Tbl} {l l' : List t.Val} (h : t.decAll l = some l') (hv : ∀ v ∈ l, vok N t v) : ∀ v ∈ l', vok N t v := by
  induction l generalizing l' with
  | nil => cases h; intro v hv; cases hv
  | cons a as ih =>
    simp only [Tbl.decAll] at h
    split at h
    · rename_i a' as' h1 h2
      cases h
      intro v hm
      rcases List.mem_cons.1 hm with rfl | hm
      · exact vok_dec h1 (hv a (by simp))
      · exact ih h2 (fun v hv' => hv v (by simp [hv'])) v hm
    · cases h

/-- the database holds named identifiers only -/
structure Only (N : Bytes → Prop) (db : Db) : Prop where
  inv : db.Inv
  ids : ∀ x ∈ db.iids.map Prod.snd, N x
  vals : ∀ t, ∀ p ∈ db.tables t, ∀ v ∈ p.2, vok N t v

/-- a computation that names nothing new, and what it returns -/
def Keep {α : Type} (N : Bytes → Prop) (P : α → Prop) (x : StM Db α) : Prop :=
  ∀ db, Only N db → Only N (x db).2 ∧ ∀ a, (x db).1 = .ok a → P a

variable {N : Bytes → Prop}

/-- nothing to say about the value -/
abbrev Any {α : Type} : α → Prop := fun _ => True

theorem Keep.lift {P : α → Prop} {r : Res α} (h : ∀ a, r = .ok a → P a) : Keep N P (StM.lift r) := fun _ ho => ⟨ho, h⟩
theorem Keep.lift0 (r : Res α) : Keep N Any (StM.lift r) := fun _ ho => ⟨ho, fun _ _ => trivial⟩
theorem Keep.pure {P : α → Prop} {a : α} (h : P a) : Keep N P (Pure.pure a : StM Db α) := fun _ ho => ⟨ho, fun _ hb => Res.ok.inj hb ▸ h⟩
theorem Keep.fail {P : α → Prop} (e : Error) : Keep N P (StM.fail e : StM Db α) := fun _ ho => ⟨ho, fun _ h => nomatch h⟩
theorem Keep.any {P : α → Prop} {x : StM Db α} (h : Keep N P x) : Keep N Any x := fun db ho => ⟨(h db ho).1, fun _ _ => trivial⟩

theorem Keep.bind {P : α → Prop} {Q : β → Prop} {x : StM Db α} {f : α → StM Db β} (hx : Keep N P x) (hf : ∀ a, P a → Keep N Q (f a)) :
    Keep N Q (x >>= f) := fun db ho => by
  have h := hx db ho
  rw [StM.bind_run]
  cases hr : x db with
  | mk r db' =>
    rw [hr] at h
    cases r with
    | ok a => exact hf a (h.2 a rfl) db' h.1
    | err e => exact ⟨h.1, fun _ h => nomatch h⟩
    | panic => exact ⟨h.1, fun _ h => nomatch h⟩

theorem Keep.result {P : α → Prop} {x : StM Db α} (hx : Keep N P x) : Keep N (fun r => ∀ a, r = .ok a → P a) x.result := fun db ho => by
  have h := hx db ho
  unfold StM.result
  cases hr : x db with
  | mk r db' =>
    rw [hr] at h
    cases r with
    | ok a => exact ⟨h.1, fun b hb => by cases hb; exact fun c hc => by cases hc; exact h.2 a rfl⟩
    | err e => exact ⟨h.1, fun b hb => by cases hb; exact fun c hc => nomatch hc⟩
    | panic => exact ⟨h.1, fun _ h => nomatch h⟩

theorem Tree.mem_ins {γ : Type} (t : Tree γ) (k : Nat) (v : γ) (p : Nat × γ) (h : p ∈ t.ins k v) : p = (k, v) ∨ p ∈ t := by
  induction t with
  | nil => simp only [Tree.ins, List.mem_singleton] at h; exact .inl h
  | cons q r ih =>
    obtain ⟨k', v'⟩ := q
    simp only [Tree.ins] at h
    split at h
    · rcases List.mem_cons.1 h with h | h
      · exact .inl h
      · exact .inr h
    · split at h
      · rcases List.mem_cons.1 h with h | h
        · exact .inl h
        · exact .inr (List.mem_cons_of_mem _ h)
      · rcases List.mem_cons.1 h with h | h
        · exact .inr (h ▸ List.mem_cons_self)
        · rcases ih h with h | h
          · exact .inl h
          · exact .inr (List.mem_cons_of_mem _ h)

theorem Tree.mem_of_get {γ : Type} {t : Tree γ} {k : Nat} {v : γ} (h : t.get k = some v) : (k, v) ∈ t := by
  induction t with
  | nil => cases h
  | cons q r ih =>
    obtain ⟨k', v'⟩ := q
    simp only [Tree.get] at h
    split at h
    · rename_i hk; cases h; subst hk; exact List.mem_cons_self
    · exact List.mem_cons_of_mem _ (ih h)

theorem Only.touch {id : IdentifierPrefix} {db : Db} (ho : Only N db) (hid : N id.toStr) :
    ∃ k db', designatedKey id db = (.ok k, db') ∧ Only N db' ∧ keyByValue db'.iids id.toStr = some k := by
  obtain ⟨k, db', h1, h2, h3, h4, h5⟩ := designatedKey_spec id db ho.inv
  refine ⟨k, db', h1, ⟨h2, ?_, by rw [h5]; exact ho.vals⟩, h4⟩
  have : db'.iids.map Prod.snd = (db.abs.touch id.toStr).order := congrArg MapDb.order h3
  rw [this]
  intro x hx
  unfold MapDb.touch at hx
  split at hx
  · exact ho.ids x hx
  · rcases List.mem_append.1 hx with hx | hx
    · exact ho.ids x hx
    · rw [List.mem_singleton.1 hx]; exact hid

theorem Only.write {db : Db} (ho : Only N db) {x : Bytes} {t : Tbl} {k : Nat} (hk : keyByValue db.iids x = some k) {l : List t.Val}
    (hl : ∀ v ∈ l, vok N t v) : Only N (db.setEntry t k (some l)) := by
  refine ⟨(setEntry_spec db ho.inv t x k hk (some l) (fun h => nomatch h)).1, ho.ids, ?_⟩
  intro t' p hp v hv
  by_cases ht : t' = t
  · subst ht
    have hp' : p ∈ (db.tables t').ins k l := by
      have := Db.setTable_same db t' ((db.tables t').ins k l)
      show p ∈ (db.tables t').ins k l
      rw [← this]; exact hp
    rcases Tree.mem_ins _ _ _ _ hp' with rfl | h
    · exact hl v hv
    · exact ho.vals t' p h v hv
  · have hp' : p ∈ db.tables t' := by
      have := Db.setTable_other db ht ((db.tables t).ins k l)
      rw [← this]; exact hp
    exact ho.vals t' p hp' v hv

theorem Keep.read (t : Tbl) {id : IdentifierPrefix} (hid : N id.toStr) :
    Keep N (fun o => ∀ l, o = some l → ∀ v ∈ l, vok N t v) (sled.read t id) := fun db ho => by
  obtain ⟨k, db', h1, h2, h4⟩ := ho.touch hid
  have : sled.read t id db = (t.iterValues ((db'.tables t).get k), db') := keyed_run h1 _
  rw [this]
  refine ⟨h2, fun o hr l hl => ?_⟩
  subst hl
  unfold Tbl.iterValues Tbl.entry at hr
  dsimp only at hr
  cases hg : (db'.tables t).get k with
  | none => rw [hg] at hr; cases hr
  | some l0 =>
    rw [hg] at hr
    dsimp only at hr
    cases hd : t.decAll l0 with
    | none => rw [hd] at hr; cases hr
    | some l' => rw [hd] at hr; cases hr; exact vok_decAll hd (h2.vals t _ (Tree.mem_of_get hg))

theorem Keep.push (t : Tbl) {id : IdentifierPrefix} (hid : N id.toStr) {v : t.Val} (hv : vok N t v) : Keep N Any (sled.push t id v) := fun db ho => by
  obtain ⟨k, db', h1, h2, h4⟩ := ho.touch hid
  have : sled.push t id v db = (.ok (), db'.setEntry t k (some (t.pushed ((db'.tables t).get k) v))) := keyed_run h1 _
  rw [this]
  refine ⟨h2.write h4 ?_, fun _ _ => trivial⟩
  intro w hw
  unfold Tbl.pushed Tbl.entry at hw
  cases hg : (db'.tables t).get k with
  | none => rw [hg] at hw; rw [List.mem_singleton.1 hw]; exact hv
  | some l0 =>
    rw [hg] at hw
    dsimp only at hw
    cases hd : t.decAll l0 with
    | none => rw [hd] at hw; rw [List.mem_singleton.1 hw]; exact hv
    | some l' =>
      rw [hd] at hw
      rcases List.mem_append.1 hw with hw | hw
      · exact vok_decAll hd (h2.vals t _ (Tree.mem_of_get hg)) w hw
      · rw [List.mem_singleton.1 hw]; exact hv

theorem Keep.remove (t : Tbl) {id : IdentifierPrefix} (hid : N id.toStr) (v : t.Val) : Keep N Any (sled.remove t id v) := fun db ho => by
  obtain ⟨k, db', h1, h2, h4⟩ := ho.touch hid
  have : sled.remove t id v db = (.ok (), db'.setEntry t k (t.removed ((db'.tables t).get k) v)) := keyed_run h1 _
  rw [this]
  refine ⟨?_, fun _ _ => trivial⟩
  cases hr : t.removed ((db'.tables t).get k) v with
  | none => exact h2
  | some l =>
    refine h2.write h4 fun w hw => ?_
    cases hg : (db'.tables t).get k with
    | none => rw [hg] at hr; cases hr
    | some l0 =>
      rw [hg] at hr
      unfold Tbl.removed Tbl.entry at hr
      dsimp only at hr
      cases hd : t.decAll l0 with
      | none => rw [hd] at hr; cases hr; exact h2.vals t _ (Tree.mem_of_get hg) w hw
      | some l' => rw [hd] at hr; cases hr; exact vok_decAll hd (h2.vals t _ (Tree.mem_of_get hg)) w (List.mem_filter.1 hw).1

theorem Keep.put {id : IdentifierPrefix} (hid : N id.toStr) (vs : List SignedReply) : Keep N Any (sled.put .knas id vs) := fun db ho => by
  obtain ⟨k, db', h1, h2, h4⟩ := ho.touch hid
  have : sled.put .knas id vs db = (.ok (), db'.setEntry .knas k (some vs)) := keyed_run h1 _
  rw [this]
  exact ⟨h2.write h4 (fun _ _ => trivial), fun _ _ => trivial⟩

theorem Keep.updateAccepted {id : IdentifierPrefix} (hid : N id.toStr) (r : SignedReply) : Keep N Any (updateAccepted sled r id) :=
  (Keep.read .knas hid).any.bind fun o _ => by
    cases o with
    | none => exact Keep.push .knas hid trivial
    | some rs => exact Keep.put hid _

/-- events of a log and the delegator of a state -/
theorem sortBySn_mem {l : List SignedEvent} {e : SignedEvent} (h : e ∈ sortBySn l) : e ∈ l := by
  have ins : ∀ (x : SignedEvent) (l : List SignedEvent), e ∈ insertBySn x l → e = x ∨ e ∈ l := by
    intro x l
    induction l with
    | nil => intro h; exact .inl (List.mem_singleton.1 h)
    | cons y ys ih =>
      intro h
      simp only [insertBySn] at h
      split at h
      · rcases List.mem_cons.1 h with h | h
        · exact .inl h
        · exact .inr h
      · rcases List.mem_cons.1 h with h | h
        · exact .inr (h ▸ List.mem_cons_self)
        · rcases ih h with h | h
          · exact .inl h
          · exact .inr (List.mem_cons_of_mem _ h)
  induction l with
  | nil => exact h
  | cons x xs ih =>
    rcases ins x (sortBySn xs) h with h | h
    · exact h ▸ List.mem_cons_self
    · exact List.mem_cons_of_mem _ (ih h)

/-- the delegator of a state is named -/
def DelOk (N : Bytes → Prop) (s : IdState) : Prop := ∀ d, s.delegator = some d → N d.toStr

theorem foldState_delOk (env : Env) : ∀ (l : List SignedEvent) (s s' : IdState), foldState env s l = .ok s' →
    (∀ e ∈ l, ∀ x ∈ e.names, N x) → DelOk N s → DelOk N s'
  | [], s, s', h, _, hs => by cases h; exact hs
  | e :: es, s, s', h, hl, hs => by
    have hes : ∀ e ∈ es, ∀ x ∈ e.names, N x := fun e he => hl e (List.mem_cons_of_mem _ he)
    simp only [foldState] at h
    split at h
    · rename_i s1 h1
      refine foldState_delOk env es s1 s' h hes ?_
      have ha := (applyTo_ok (show e.msg.applyTo env s = .ok s1 from h1)).delegator
      intro d hd
      rw [ha] at hd
      have hn := hl e List.mem_cons_self
      unfold SignedEvent.names at hn
      cases hdt : e.data with
      | dip dd =>
        rw [hdt] at hd hn
        cases hd
        exact hn _ (by simp)
      | icp _ => rw [hdt] at hd; exact hs d hd
      | rot _ => rw [hdt] at hd; exact hs d hd
      | ixn _ => rw [hdt] at hd; exact hs d hd
      | drt _ => rw [hdt] at hd; exact hs d hd
    · exact foldState_delOk env es s s' h hes hs
    · exact foldState_delOk env es s s' h hes hs
    · cases h; exact hs
    · cases h

theorem Keep.computeState (env : Env) {id : IdentifierPrefix} (hid : N id.toStr) :
    Keep N (fun o => ∀ s, o = some s → DelOk N s) (computeState sled env id) :=
  (Keep.read .kels hid).bind fun o ho => by
    cases o with
    | none => exact Keep.pure (fun _ h => nomatch h)
    | some evs =>
      refine (Keep.lift (P := DelOk N) fun s hs => ?_).bind fun s hs => Keep.pure (fun s' h => by cases h; exact hs)
      exact foldState_delOk env _ _ _ hs (fun e he => ho evs rfl e (sortBySn_mem he)) (fun d hd => nomatch hd)

theorem Keep.getEventAtSn {id : IdentifierPrefix} (hid : N id.toStr) (sn : Nat) : Keep N Any (getEventAtSn sled id sn) :=
  (Keep.read .kels hid).any.bind fun o _ => by
    cases o with
    | none => exact Keep.pure trivial
    | some evs => exact Keep.pure trivial

theorem Keep.validateSeal (env : Env) {sl : EventSeal} (hid : N sl.prefix.toStr) (m : EventMessage) : Keep N Any (validateSeal sled env sl m) :=
  (Keep.getEventAtSn hid _).result.bind fun r _ => by
    cases r with
    | error e => exact Keep.fail _
    | ok o =>
      cases o with
      | none => exact Keep.fail _
      | some e =>
        dsimp only
        cases e.data.anchors? with
        | none => exact Keep.fail _
        | some data =>
          refine (Keep.lift0 _).bind fun b _ => ?_
          cases b
          · exact Keep.fail _
          · exact Keep.pure trivial

theorem Keep.checkDelegation (env : Env) {e : SignedEvent} (hn : ∀ x ∈ e.names, N x) : Keep N Any (checkDelegation sled env e) := by
  have hp : N e.pre.toStr := hn _ (by unfold SignedEvent.names; split <;> simp)
  unfold Keriox.checkDelegation
  cases hd : e.data with
  | dip d =>
    dsimp only
    cases e.delegatorSeal with
    | none => exact Keep.fail _
    | some s => exact Keep.validateSeal env (hn _ (by unfold SignedEvent.names; rw [hd]; simp)) _
  | drt d =>
    refine (Keep.computeState env hp).bind fun o ho => ?_
    cases o with
    | none => exact Keep.fail _
    | some st =>
      dsimp only
      cases hs : st.delegator with
      | none => exact Keep.fail _
      | some del =>
        dsimp only
        cases e.delegatorSeal with
        | none => exact Keep.fail _
        | some s => exact Keep.validateSeal env (ho st rfl del hs) _
  | icp d => exact Keep.pure trivial
  | rot d => exact Keep.pure trivial
  | ixn d => exact Keep.pure trivial

theorem Keep.storeAndVerify (env : Env) {e : SignedEvent} (hn : ∀ x ∈ e.names, N x) (new : IdState) : Keep N Any (storeAndVerify sled env e new) := by
  have hp : N e.pre.toStr := hn _ (by unfold SignedEvent.names; split <;> simp)
  refine (Keep.push .kels hp (v := e.stored) hn).bind fun _ _ => (Keep.lift0 _).bind fun bytes _ => (Keep.lift0 _).result.bind fun r _ => ?_
  cases r with
  | ok st => exact Keep.pure trivial
  | error er =>
    refine Keep.bind (P := Any) ?_ fun _ _ => (Keep.remove .kels hp _).bind fun _ _ => Keep.fail _
    unfold noteDup
    split
    · exact Keep.push .dels hp trivial
    · exact Keep.pure trivial

theorem Keep.processEvent (env : Env) {e : SignedEvent} (hn : ∀ x ∈ e.names, N x) : Keep N Any (processEvent sled env e) := by
  have hp : N e.pre.toStr := hn _ (by unfold SignedEvent.names; split <;> simp)
  exact (Keep.checkDelegation env hn).bind fun _ _ =>
    (Keep.bind (Q := Any) (Keep.computeState env hp).any fun _ _ => Keep.lift0 _).bind fun _ _ => Keep.storeAndVerify env hn _

theorem Keep.getKeysAtEvent (env : Env) {id : IdentifierPrefix} (hid : N id.toStr) (sn : Nat) (d : SelfAddressingPrefix) :
    Keep N Any (getKeysAtEvent sled env id sn d) :=
  (Keep.getEventAtSn hid _).result.bind fun r _ => by
    cases r with
    | error e => exact Keep.fail _
    | ok o =>
      cases o with
      | none => exact Keep.fail _
      | some e =>
        refine (Keep.lift0 _).bind fun b _ => ?_
        cases b
        · exact Keep.fail _
        · rw [if_pos rfl]
          cases e.data.keyConfig? with
          | none => exact Keep.fail _
          | some kc => exact Keep.pure trivial

theorem Keep.validatorReceipt (env : Env) {r : TReceipt} (h1 : N r.body.prefix.toStr) (h2 : N r.validatorSeal.prefix.toStr) :
    Keep N Any (processValidatorReceipt sled env r) := by
  have hf : Keep N Any (do addEscrowT sled r r.body.prefix; StM.fail (.semantic "Receipt escrowed") : StM Db Unit) :=
    (Keep.push .vres h1 trivial).bind fun _ _ => Keep.fail _
  refine Keep.bind (P := Any) ((Keep.getEventAtSn h1 _).result.bind fun x _ => ?_) fun _ _ => (Keep.computeState env h1).any
  cases x with
  | error e => exact hf
  | ok o =>
    cases o with
    | none => exact hf
    | some e =>
      refine (Keep.getKeysAtEvent env h2 _ _).bind fun o _ => ?_
      cases o with
      | none => exact Keep.fail _
      | some kc =>
        refine (Keep.lift0 _).bind fun _ _ => (Keep.lift0 _).bind fun b _ => ?_
        cases b
        · exact Keep.fail _
        · exact Keep.push .vrcs h1 trivial

theorem Keep.witnessReceipt (env : Env) {r : NtReceipt} (h1 : N r.body.prefix.toStr) : Keep N Any (processWitnessReceipt sled env r) := by
  refine Keep.bind (P := Any) ((Keep.getEventAtSn h1 _).result.bind fun x _ => ?_) fun _ _ => (Keep.computeState env h1).any
  cases x with
  | error e => exact Keep.push .ures h1 trivial
  | ok o =>
    cases o with
    | none => exact Keep.push .ures h1 trivial
    | some e =>
      refine (Keep.lift0 _).bind fun b _ => ?_
      cases lastErr (r.couplets.map fun c => c.1.verify env b c.2) with
      | none => exact Keep.push .rcts h1 trivial
      | some er => exact Keep.fail _

theorem Keep.verifySignature (env : Env) (d : Bytes) {r : SignedReply} (hn : ∀ x ∈ r.names, N x) : Keep N Any (verifySignature sled env d r.signature) := by
  unfold SignedReply.names at hn
  cases hs : r.signature with
  | transferable sl sigs =>
    rw [hs] at hn
    refine (Keep.getKeysAtEvent env (hn _ (by simp)) _ _).bind fun o _ => ?_
    cases o with
    | none => exact Keep.fail _
    | some kc =>
      refine (Keep.lift0 _).bind fun b _ => ?_
      cases b
      · exact Keep.fail _
      · exact Keep.pure trivial
  | nonTransferable k sig =>
    refine (Keep.lift0 _).bind fun b _ => ?_
    cases b
    · exact Keep.fail _
    · exact Keep.pure trivial

theorem Keep.ignoring {x : StM Db Unit} (h : Keep N Any x) (e : Error) : Keep N Any (ignoring x e) :=
  h.result.bind fun r _ => by
    cases r with
    | ok _ => exact Keep.pure trivial
    | error e' =>
      dsimp only
      split
      · exact Keep.pure trivial
      · exact Keep.fail _

theorem Keep.badaLogic {r : SignedReply} (hp : N r.pre.toStr) : Keep N Any (badaLogic sled r) :=
  (Keep.read .knas hp).any.bind fun o _ => by
    split
    · exact Keep.lift0 _
    · exact Keep.fail _

theorem Keep.checkTimestamp (dt : Timestamp) {p : IdentifierPrefix} (hp : N p.toStr) (a : IdentifierPrefix) : Keep N Any (checkTimestamp sled dt p a) :=
  (Keep.read .knas hp).any.bind fun o _ => by
    cases o with
    | none => exact Keep.fail _
    | some rs =>
      dsimp only
      split
      · split
        · exact Keep.fail _
        · exact Keep.pure trivial
      · exact Keep.fail _

theorem Keep.checkKsn (env : Env) {k : Ksn} (hp : N k.state.prefix.toStr) (aid : IdentifierPrefix) : Keep N Any (checkKsn sled env k aid) :=
  (Keep.getEventAtSn hp _).bind fun o _ => by
    cases o with
    | none => exact Keep.fail _
    | some e =>
      refine (Keep.lift0 _).bind fun b _ => ?_
      cases b
      · exact Keep.fail _
      · refine (Keep.ignoring (Keep.checkTimestamp _ hp _) _).bind fun _ _ => (Keep.computeState env hp).bind fun o _ => ?_
        cases o with
        | none => exact Keep.fail _
        | some st =>
          dsimp only
          split
          · exact Keep.fail _
          · split
            · exact Keep.pure trivial
            · exact Keep.fail _

theorem Keep.signedReply (env : Env) {r : SignedReply} (hn : ∀ x ∈ r.names, N x) : Keep N Any (processSignedReply sled env r) := by
  have hp : N r.pre.toStr := hn _ (by unfold SignedReply.names; split <;> simp)
  have he : Keep N Any (escrowReply sled r) := Keep.push .knes hp hn
  unfold processSignedReply
  split
  · split
    · exact Keep.fail _
    · refine Keep.bind (P := Any) ((Keep.lift0 _).bind fun bytes _ => (Keep.verifySignature env bytes hn).result.bind fun x _ => ?_) fun _ _ =>
        (Keep.lift0 _).bind fun _ _ => (Keep.ignoring (Keep.badaLogic hp) _).bind fun _ _ =>
        Keep.bind (P := Any) ((Keep.checkKsn env hp _).result.bind fun x _ => ?_) fun _ _ => (Keep.updateAccepted hp r).bind fun _ _ => Keep.pure trivial
      · cases x with
        | ok _ => exact Keep.pure trivial
        | error e =>
          dsimp only
          split
          · exact he.bind fun _ _ => Keep.fail _
          · exact Keep.fail _
      · cases x with
        | ok _ => exact Keep.pure trivial
        | error e =>
          refine Keep.bind (P := Any) ?_ fun _ _ => Keep.fail _
          unfold escrowIf
          split
          · exact he
          · exact Keep.pure trivial
  · exact Keep.fail _

theorem Keep.process (env : Env) {m : Message} (hn : ∀ x ∈ m.names, N x) : Keep N Any (process sled env m) := by
  cases m with
  | event e => exact Keep.processEvent env hn
  | rctT r => exact Keep.validatorReceipt env (hn _ (by simp [Message.names])) (hn _ (by simp [Message.names]))
  | rctNt r => exact Keep.witnessReceipt env (hn _ (by simp [Message.names]))
  | reply r => exact Keep.signedReply env hn
  | query q => exact Keep.lift0 _

theorem Keep.escrowStep (env : Env) {r : SignedReply} (hn : ∀ x ∈ r.names, N x) : Keep N Any (escrowStep sled env r) := by
  have hp : N r.pre.toStr := hn _ (by unfold SignedReply.names; split <;> simp)
  refine (Keep.signedReply env hn).result.bind fun x _ => ?_
  cases x with
  | ok _ => exact Keep.remove .knes hp _
  | error e =>
    dsimp only
    split
    · exact Keep.remove .knes hp _
    · exact Keep.pure trivial

theorem Keep.escrowSteps (env : Env) {rs : List SignedReply} (hn : ∀ r ∈ rs, ∀ x ∈ r.names, N x) : Keep N Any (escrowSteps sled env rs) := by
  induction rs with
  | nil => exact Keep.pure trivial
  | cons r rs ih =>
    exact (Keep.escrowStep env (hn r (by simp))).bind fun _ _ => ih fun r hr => hn r (by simp [hr])

theorem Keep.escrowEntries (env : Env) {es : List (Option (List SignedReply))} (hn : ∀ rs, some rs ∈ es → ∀ r ∈ rs, ∀ x ∈ r.names, N x) :
    Keep N Any (escrowEntries sled env es) := by
  induction es with
  | nil => exact Keep.pure trivial
  | cons o es ih =>
    cases o with
    | none => exact Keep.lift0 _
    | some rs => exact (Keep.escrowSteps env (hn rs (by simp))).bind fun _ _ => ih fun rs hr => hn rs (by simp [hr])

theorem Keep.action (env : Env) {a : Action} (hn : ∀ x ∈ a.names, N x) {db : Db} (ho : Only N db) : Only N (a.run sled env db) := by
  cases a with
  | submit m => exact (Keep.process env hn db ho).1
  | lookup t id => exact (Keep.read t (hn _ (by simp [Action.names])) db ho).1
  | reprocess =>
    have h1 : processEscrow sled env db = Keriox.escrowEntries sled env ((db.tables .knes).map fun p => Tbl.knes.decAll p.2) db := rfl
    show Only N (processEscrow sled env db).2
    rw [h1]
    refine (Keep.escrowEntries env (fun rs hrs => ?_) db ho).1
    obtain ⟨p, hp, hd⟩ := List.mem_map.1 hrs
    exact vok_decAll hd (ho.vals .knes p hp)

/-- the database of a history holds identifiers the history named -/
theorem after_only (env : Env) (as : List Action) : Only (fun x => x ∈ as.flatMap Action.names) (after env as) := by
  have gen : ∀ (as : List Action) (N : Bytes → Prop) (db : Db), Only N db → (∀ a ∈ as, ∀ x ∈ a.names, N x) → Only N (runHistory sled env db as) := by
    intro as
    induction as with
    | nil => intro N db ho _; exact ho
    | cons a as ih =>
      intro N db ho hn
      exact ih N _ (Keep.action env (hn a (by simp)) ho) fun b hb => hn b (by simp [hb])
  refine gen as _ _ ⟨after_inv env [], fun x hx => (by cases hx), fun t p hp => ?_⟩ (fun a ha x hx => List.mem_flatMap.2 ⟨a, ha, hx⟩)
  cases t <;> cases hp

/-- **Identifiers are created by being named, and only so.**  Every identifier the database has a key for was named by a message submitted
or a lookup made. -/
theorem C117_identifiers (env : Env) (as : List Action) : ∀ x ∈ (after env as).iids.map Prod.snd, x ∈ as.flatMap Action.names :=
  (after_only env as).ids

theorem Message.names_le (m : Message) : m.names.length ≤ 2 := by
  cases m with
  | event e => unfold Message.names SignedEvent.names; dsimp only; split <;> simp
  | reply r => unfold Message.names SignedReply.names; dsimp only; split <;> simp
  | rctT r => simp [Message.names]
  | rctNt r => simp [Message.names]
  | query q => simp [Message.names]

theorem length_le_of_nodup {l m : List Bytes} (hl : l.Nodup) (h : ∀ x ∈ l, x ∈ m) : l.length ≤ m.length := by
  induction l generalizing m with
  | nil => exact Nat.zero_le _
  | cons a l ih =>
    rw [List.nodup_cons] at hl
    have ha := h a (by simp)
    have := ih (m := m.erase a) hl.2 fun x hx => by
      have hxa : x ≠ a := fun e => hl.1 (e ▸ hx)
      exact (List.mem_erase_of_ne hxa).2 (h x (by simp [hx]))
    have h2 := List.length_erase_of_mem ha
    have h3 : 0 < m.length := List.length_pos_of_mem ha
    simp only [List.length_cons]
    omega

/-- lookups of a history -/
def Action.isLookup : Action → Bool | .lookup _ _ => true | _ => false

/-- **A message creates at most two identifiers, a lookup at most one, reprocessing none.** -/
theorem C117_identifiers_bound (env : Env) (as : List Action) :
    (after env as).iids.length ≤ 2 * (sentMessages as).length + as.countP Action.isLookup := by
  have h1 : (after env as).iids.length ≤ (as.flatMap Action.names).length := by
    have := length_le_of_nodup (after_inv env as).texts (C117_identifiers env as)
    rwa [List.length_map] at this
  refine Nat.le_trans h1 ?_
  clear h1
  induction as with
  | nil => exact Nat.le_refl _
  | cons a as ih =>
    rw [List.flatMap_cons, List.length_append, List.countP_cons]
    cases a with
    | submit m =>
      have h1 := m.names_le
      have h2 : (sentMessages (.submit m :: as)).length = (sentMessages as).length + 1 := rfl
      have h3 : (if Action.isLookup (.submit m) = true then 1 else 0) = 0 := rfl
      have h4 : (Action.submit m).names = m.names := rfl
      rw [h2, h3, h4]
      omega
    | reprocess =>
      have h2 : sentMessages (.reprocess :: as) = sentMessages as := rfl
      have h3 : (if Action.isLookup .reprocess = true then 1 else 0) = 0 := rfl
      have h4 : (Action.reprocess).names.length = 0 := rfl
      rw [h2, h3, h4]
      omega
    | lookup t id =>
      have h2 : sentMessages (.lookup t id :: as) = sentMessages as := rfl
      have h3 : (if Action.isLookup (.lookup t id) = true then 1 else 0) = 1 := rfl
      have h4 : (Action.lookup t id).names.length = 1 := rfl
      rw [h2, h3, h4]
      omega

/-- **Looking an unknown identifier up creates it**: the key table grows by it, although nothing was submitted. -/
theorem C117_lookup_creates (env : Env) (as : List Action) (t : Tbl) (id : IdentifierPrefix)
    (hid : id.toStr ∉ (after env as).iids.map Prod.snd) :
    (after env (as ++ [.lookup t id])).iids.map Prod.snd = (after env as).iids.map Prod.snd ++ [id.toStr] := by
  have hrun : after env (as ++ [.lookup t id]) = (sled.read t id (after env as)).2 := by rw [after, runHistory_append]; rfl
  obtain ⟨k, db', h1, h2, h3, h4, h5⟩ := designatedKey_spec id (after env as) (after_inv env as)
  have : sled.read t id (after env as) = (t.iterValues ((db'.tables t).get k), db') := keyed_run h1 _
  rw [hrun, this]
  have h6 : db'.iids.map Prod.snd = ((after env as).abs.touch id.toStr).order := congrArg MapDb.order h3
  show db'.iids.map Prod.snd = _
  rw [h6]
  unfold MapDb.touch
  rw [if_neg (show id.toStr ∉ (after env as).abs.order from hid)]
  rfl

/-! ### the bounds are met: every accepted event counts, refused ones do not, an escrowed reply is doubled by reprocessing -/

/-- a receipt for an event that is not there -/
def Ex.strayReceipt : TReceipt :=
  ⟨⟨Ex.icp.msg.info, Ex.icp.dig, .basic (Ex.key 77), 4⟩, ⟨.basic (Ex.key 78), 0, Ex.icp.dig⟩, []⟩
/-- the same as a witness receipt -/
def Ex.strayWitness : NtReceipt := ⟨⟨Ex.icp.msg.info, Ex.icp.dig, .basic (Ex.key 77), 4⟩, []⟩

example : (after Ex.env Ex.hist).records .kels = 3 ∧ (sentMessages Ex.hist).countP Message.isEvent = 3 ∧
    (after Ex.env (Ex.hist ++ Ex.hist)).records .kels = 3 ∧ (sentMessages (Ex.hist ++ Ex.hist)).countP Message.isEvent = 6 := by decide +kernel
example : (after Ex.env [.submit (.rctT Ex.strayReceipt)]).records .vres = 1 ∧ (after Ex.env [.submit (.rctNt Ex.strayWitness)]).records .ures = 1 := by
  decide +kernel
example : (after Ex.env [.submit (.reply (Ex.ntReply 5)), .reprocess, .reprocess]).records .knes = 4 := by decide +kernel
example : (after Ex.env [.submit (.event Ex.ixnFinal), .lookup .kels Ex.id, .submit (.rctNt Ex.strayWitness)]).iids.map Prod.snd =
    [(IdentifierPrefix.basic (Ex.key 9)).toStr, Ex.id.toStr, (IdentifierPrefix.basic (Ex.key 77)).toStr] := by decide +kernel
example : Ex.id.toStr ∉ (after Ex.env [.submit (.event Ex.ixnFinal)]).iids.map Prod.snd := by decide +kernel

end Keriox
