import Verif.Props.Respond
/-!
# C113: receipts may arrive in any order
-/
namespace Keriox

/-! ## Specification -/

/-- a receipt, of either kind, whose text reads back -/
def Message.GoodReceipt : Message → Prop
  | .rctT r => r.rt = true
  | .rctNt r => r.rt = true
  | _ => False

/-- a receipt of either kind -/
def Message.IsReceipt : Message → Prop
  | .rctT _ => True
  | .rctNt _ => True
  | _ => False

/-- every receipt and escrowed receipt in the database can be read -/
def Db.ReceiptsReadable (db : Db) : Prop := ∀ t : Tbl, t.isReceipts → ∀ x l, db.vec t x = some l → t.decAll l = some l

/-- both calls return a list, or both nothing, and the lists are the same up to order -/
def SameUpToOrder {α : Type} (a b : Res (Option (List α))) : Prop :=
  ∃ o o', a = .ok o ∧ b = .ok o' ∧ o.isSome = o'.isSome ∧ (o.getD []).Perm (o'.getD [])

/-! ## What a receipt does, given the logs -/

/-- something to append to one entry of one table -/
structure Deposit where
  t : Tbl
  x : Bytes
  v : t.Val

/-- the database with the deposit -/
def MapDb.deposit (a : MapDb) : Option Deposit → (t : Tbl) → Bytes → Option (List t.Val)
  | none => a.tables
  | some d => (a.set d.t d.x (some (d.t.pushed (a.tables d.t d.x) d.v))).tables

/-- on every database with these logs, the call returns the same and deposits the same -/
def Settled {α : Type} (k : Bytes → Option (List SignedEvent)) (x : StM MapDb α) (r : Res α) (d : Option Deposit) : Prop :=
  ∀ a : MapDb, a.tables .kels = k → (x a).1 = r ∧ (x a).2.tables = a.deposit d

theorem MapDb.deposit_congr {a b : MapDb} (h : a.tables = b.tables) (d : Option Deposit) : a.deposit d = b.deposit d := by
  cases d with
  | none => exact h
  | some d => simp only [MapDb.deposit, MapDb.set, h]

theorem settled_bind {α β : Type} {k : Bytes → Option (List SignedEvent)} {x : StM MapDb α} {r : Res α} (hx : Settled k x r none)
    {P : Deposit → Prop} {f : α → StM MapDb β} (hf : ∀ v, r = .ok v → ∃ r' d, Settled k (f v) r' d ∧ (∀ y, d = some y → P y)) :
    ∃ r' d, Settled k (x >>= f) r' d ∧ (∀ y, d = some y → P y) := by
  cases r with
  | ok v =>
    obtain ⟨r', d, h, hd⟩ := hf v rfl
    refine ⟨r', d, fun a ha => ?_, hd⟩
    obtain ⟨h1, h2⟩ := hx a ha
    rw [StM.bind_run]
    rcases hxa : x a with ⟨y, a1⟩
    rw [hxa] at h1 h2
    dsimp only at h1 h2
    subst h1
    obtain ⟨h3, h4⟩ := h a1 (by rw [h2]; exact ha)
    exact ⟨h3, h4.trans (MapDb.deposit_congr h2 d)⟩
  | err e =>
    refine ⟨.err e, none, fun a ha => ?_, by simp⟩
    obtain ⟨h1, h2⟩ := hx a ha
    rw [StM.bind_run]
    rcases hxa : x a with ⟨y, a1⟩
    rw [hxa] at h1 h2
    dsimp only at h1 h2
    subst h1
    exact ⟨rfl, h2⟩
  | panic =>
    refine ⟨.panic, none, fun a ha => ?_, by simp⟩
    obtain ⟨h1, h2⟩ := hx a ha
    rw [StM.bind_run]
    rcases hxa : x a with ⟨y, a1⟩
    rw [hxa] at h1 h2
    dsimp only at h1 h2
    subst h1
    exact ⟨rfl, h2⟩

theorem deposit_kels (a : MapDb) (d : Option Deposit) (hd : ∀ y, d = some y → y.t ≠ .kels) : a.deposit d .kels = a.tables .kels := by
  cases d with
  | none => rfl
  | some d => funext x; exact MapDb.set_other_tbl _ (fun h => hd d rfl h.symm) _ _ _

/-- a deposit followed by reading -/
theorem settled_then {α β : Type} {k : Bytes → Option (List SignedEvent)} {x : StM MapDb α} {r : Res α} {d : Option Deposit}
    (hx : Settled k x r d) (hd : ∀ y, d = some y → y.t ≠ .kels) {f : α → StM MapDb β} (hf : ∀ v, r = .ok v → ∃ r', Settled k (f v) r' none) :
    ∃ r', Settled k (x >>= f) r' d := by
  have fin : ∀ r' : Res β, (∀ v, r = .ok v → Settled k (f v) r' none) → (∀ e, r = .err e → r' = .err e) → (r = .panic → r' = .panic) → Settled k (x >>= f) r' d := by
    intro r' c1 c2 c3 a ha
    obtain ⟨h1, h2⟩ := hx a ha
    rw [StM.bind_run]
    rcases hxa : x a with ⟨y, a1⟩
    rw [hxa] at h1 h2
    dsimp only at h1 h2
    subst h1
    cases y with
    | ok v =>
      obtain ⟨h3, h4⟩ := c1 v rfl a1 (by rw [h2, deposit_kels _ _ hd]; exact ha)
      exact ⟨h3, by rw [← h2]; exact h4⟩
    | err e => exact ⟨(c2 e rfl).symm, h2⟩
    | panic => exact ⟨(c3 rfl).symm, h2⟩
  cases r with
  | ok v =>
    obtain ⟨r', h⟩ := hf v rfl
    exact ⟨r', fin r' (fun v' hv => by cases hv; exact h) (by simp) (by simp)⟩
  | err e => exact ⟨.err e, fin _ (by simp) (by simp) (by simp)⟩
  | panic => exact ⟨.panic, fin _ (by simp) (by simp) (by simp)⟩

theorem settled_lift {α : Type} (k : Bytes → Option (List SignedEvent)) (r : Res α) : Settled k (StM.lift r) r none := fun _ _ => ⟨rfl, rfl⟩

/-- the outcome of a lookup as a value -/
def Res.asResult {α : Type} : Res α → Res (Except Error α)
  | .ok a => .ok (.ok a)
  | .err e => .ok (.error e)
  | .panic => .panic

theorem settled_result {α : Type} {k : Bytes → Option (List SignedEvent)} {x : StM MapDb α} {r : Res α} (hx : Settled k x r none) :
    Settled k x.result r.asResult none := by
  intro a ha
  obtain ⟨h1, h2⟩ := hx a ha
  rcases hxa : x a with ⟨y, a1⟩
  rw [hxa] at h1 h2
  dsimp only at h1 h2
  subst h1
  cases y with
  | ok v => rw [StM.result_ok hxa]; exact ⟨rfl, h2⟩
  | err e => rw [StM.result_err hxa]; exact ⟨rfl, h2⟩
  | panic => rw [StM.result_panic hxa]; exact ⟨rfl, h2⟩

theorem settled_getEventAtSn (k : Bytes → Option (List SignedEvent)) (id : IdentifierPrefix) (n : Nat) :
    ∃ r, Settled k (getEventAtSn mapOps id n) r none :=
  ⟨_, fun a ha => ⟨by rw [getEventAtSn_run, ha], getEventAtSn_ro id n a⟩⟩

theorem settled_computeState (k : Bytes → Option (List SignedEvent)) (env : Env) (id : IdentifierPrefix) :
    ∃ r, Settled k (computeState mapOps env id) r none :=
  ⟨_, fun a ha => ⟨by rw [computeState_run, ha], computeState_ro env id a⟩⟩

theorem settled_getKeysAtEvent (k : Bytes → Option (List SignedEvent)) (env : Env) (id : IdentifierPrefix) (n : Nat) (d : SelfAddressingPrefix) :
    ∃ r, Settled k (getKeysAtEvent mapOps env id n d) r none := by
  obtain ⟨r, h⟩ := settled_getEventAtSn k id n
  unfold getKeysAtEvent
  refine settled_then (settled_result h) (by simp) fun v _ => ?_
  split
  · refine settled_then (settled_lift k _) (by simp) fun b _ => ?_
    split
    · split
      · exact ⟨_, settled_lift k (.ok _)⟩
      · exact ⟨_, settled_lift k _⟩
    · exact ⟨_, settled_lift k _⟩
  · exact ⟨_, settled_lift k _⟩

theorem settled_push (k : Bytes → Option (List SignedEvent)) (t : Tbl) (id : IdentifierPrefix) (v : t.Val) :
    Settled k (mapOps.push t id v) (.ok ()) (some ⟨t, id.toStr, v⟩) := by
  intro a _
  refine ⟨rfl, ?_⟩
  simp only [mapOps, MapDb.deposit, MapDb.set, MapDb.touch_tables]

/-- what a transferable receipt does is settled by the logs; what it deposits is itself, under its identifier -/
theorem settled_validator (k : Bytes → Option (List SignedEvent)) (env : Env) (r : TReceipt) :
    ∃ res d, Settled k (validatorReceiptStep mapOps env r) res d ∧
      ∀ y, d = some y → y = ⟨.vrcs, r.body.prefix.toStr, r⟩ ∨ y = ⟨.vres, r.body.prefix.toStr, r⟩ := by
  obtain ⟨r0, h0⟩ := settled_getEventAtSn k r.body.prefix r.body.sn
  unfold validatorReceiptStep
  refine settled_bind (settled_result h0) fun v _ => ?_
  split
  · obtain ⟨r1, h1⟩ := settled_getKeysAtEvent k env r.validatorSeal.prefix r.validatorSeal.sn r.validatorSeal.eventDigest
    refine settled_bind h1 fun kp _ => ?_
    split
    · refine settled_bind (settled_lift k _) fun bytes _ => ?_
      refine settled_bind (settled_lift k _) fun b _ => ?_
      split
      · exact ⟨_, _, settled_push k .vrcs _ r, fun y hy => .inl (Option.some.inj hy).symm⟩
      · exact ⟨_, none, settled_lift k _, by simp⟩
    · exact ⟨_, none, settled_lift k _, by simp⟩
  · obtain ⟨r', h⟩ := settled_then (settled_push k .vres r.body.prefix r) (by simp) (f := fun _ => (StM.fail (.semantic "Receipt escrowed") : StM MapDb Unit))
      (fun v _ => ⟨_, settled_lift k _⟩)
    exact ⟨r', _, h, fun y hy => .inr (Option.some.inj hy).symm⟩

/-- the same for witness receipts -/
theorem settled_witness (k : Bytes → Option (List SignedEvent)) (env : Env) (r : NtReceipt) :
    ∃ res d, Settled k (witnessReceiptStep mapOps env r) res d ∧
      ∀ y, d = some y → y = ⟨.rcts, r.body.prefix.toStr, r⟩ ∨ y = ⟨.ures, r.body.prefix.toStr, r⟩ := by
  obtain ⟨r0, h0⟩ := settled_getEventAtSn k r.body.prefix r.body.sn
  unfold witnessReceiptStep
  refine settled_bind (settled_result h0) fun v _ => ?_
  split
  · refine settled_bind (settled_lift k _) fun ser _ => ?_
    split
    · exact ⟨_, _, settled_push k .rcts _ r, fun y hy => .inl (Option.some.inj hy).symm⟩
    · exact ⟨_, none, settled_lift k _, by simp⟩
  · exact ⟨_, _, settled_push k .ures _ r, fun y hy => .inr (Option.some.inj hy).symm⟩

/-- a deposit that can be read back, in a table of receipts -/
def Deposit.Good (d : Deposit) : Prop := d.t.isReceipts ∧ ∀ l : List d.t.Val, d.t.decAll l = some l → d.t.decAll (l ++ [d.v]) = some (l ++ [d.v])

theorem good_deposit {t : Tbl} (ht : t.isReceipts) {p : t.Val → Bool} (h : t.dec = guardRt p) {x : Bytes} {v : t.Val} (hv : p v = true) :
    (Deposit.mk t x v).Good := by
  refine ⟨ht, fun l hl => ?_⟩
  have hl : t.decAll l = some l := hl
  show t.decAll (l ++ [v]) = some (l ++ [v])
  rw [decAll_guard h] at hl ⊢
  have hall : l.all p = true := by
    by_cases hh : l.all p = true
    · exact hh
    · rw [if_neg hh] at hl; cases hl
  rw [if_pos (by simp [hall, hv])]

theorem Tbl.isReceipts_ne {t : Tbl} (h : t.isReceipts) : t ≠ .kels := by rintro rfl; exact h

/-- what any receipt does is settled by the logs -/
theorem settled_receipt (k : Bytes → Option (List SignedEvent)) (env : Env) (m : Message) (hm : m.IsReceipt) :
    ∃ res d, Settled k (process mapOps env m) res d ∧ (∀ y, d = some y → y.t.isReceipts) ∧ (m.GoodReceipt → ∀ y, d = some y → y.Good) := by
  cases m with
  | rctT r =>
    obtain ⟨res, d, h, hd⟩ := settled_validator k env r
    have hi : ∀ y, d = some y → y.t.isReceipts := by
      intro y hy
      rcases hd y hy with rfl | rfl <;> trivial
    obtain ⟨res', h'⟩ := settled_then h (fun y hy => Tbl.isReceipts_ne (hi y hy)) (f := fun _ => computeState mapOps env r.body.prefix)
      (fun _ _ => settled_computeState k env _)
    refine ⟨res', d, h', hi, fun hg y hy => ?_⟩
    rcases hd y hy with rfl | rfl
    · exact good_deposit (t := .vrcs) trivial rfl hg
    · exact good_deposit (t := .vres) trivial rfl hg
  | rctNt r =>
    obtain ⟨res, d, h, hd⟩ := settled_witness k env r
    have hi : ∀ y, d = some y → y.t.isReceipts := by
      intro y hy
      rcases hd y hy with rfl | rfl <;> trivial
    obtain ⟨res', h'⟩ := settled_then h (fun y hy => Tbl.isReceipts_ne (hi y hy)) (f := fun _ => computeState mapOps env r.body.prefix)
      (fun _ _ => settled_computeState k env _)
    refine ⟨res', d, h', hi, fun hg y hy => ?_⟩
    rcases hd y hy with rfl | rfl
    · exact good_deposit (t := .rcts) trivial rfl hg
    · exact good_deposit (t := .ures) trivial rfl hg
  | event e => cases hm
  | reply r => cases hm
  | query q => cases hm

/-- what the receipt deposits when these are the logs -/
noncomputable def depositOf (env : Env) (k : Bytes → Option (List SignedEvent)) (m : Message) : Option Deposit :=
  open Classical in if h : m.IsReceipt then (settled_receipt k env m h).choose_spec.choose else none

/-- what the receipt is answered when these are the logs -/
noncomputable def answerOf (env : Env) (k : Bytes → Option (List SignedEvent)) (m : Message) : Res (Option IdState) :=
  open Classical in if h : m.IsReceipt then (settled_receipt k env m h).choose else .panic

theorem depositOf_spec (env : Env) (k : Bytes → Option (List SignedEvent)) (m : Message) (h : m.IsReceipt) :
    Settled k (process mapOps env m) (answerOf env k m) (depositOf env k m) ∧ (∀ y, depositOf env k m = some y → y.t.isReceipts) ∧
      (m.GoodReceipt → ∀ y, depositOf env k m = some y → y.Good) := by
  unfold answerOf depositOf
  rw [dif_pos h, dif_pos h]
  exact (settled_receipt k env m h).choose_spec.choose_spec

/-- the part of the deposit that is for this entry -/
noncomputable def Deposit.into (t : Tbl) (x : Bytes) (d : Deposit) : Option t.Val :=
  open Classical in if h : d.t = t then (if d.x = x then some (h ▸ d.v) else none) else none

/-- the deposits of the messages for one entry, in order -/
noncomputable def deposits (env : Env) (k : Bytes → Option (List SignedEvent)) (t : Tbl) (x : Bytes) (ms : List Message) : List t.Val :=
  ms.filterMap fun m => (depositOf env k m).bind (Deposit.into t x)

theorem deposit_entry (a : MapDb) (d : Option Deposit) (t : Tbl) (x : Bytes) :
    a.deposit d t x = match d.bind (Deposit.into t x) with
      | none => a.tables t x
      | some v => some (t.pushed (a.tables t x) v) := by
  cases d with
  | none => rfl
  | some d =>
    obtain ⟨t', x', v⟩ := d
    simp only [Option.bind_some, Deposit.into, MapDb.deposit]
    by_cases ht : t' = t
    · subst ht
      by_cases hx : x' = x
      · subst hx
        simp [MapDb.set_same]
      · simp only [dif_pos, if_neg hx]
        exact MapDb.set_other_id _ _ _ (fun h => hx h.symm) _
    · rw [dif_neg ht]
      exact MapDb.set_other_tbl _ (fun h => ht h.symm) _ _ _

theorem receipts_keep_kels (env : Env) (ms : List Message) (hm : ∀ m ∈ ms, m.IsReceipt) (a : MapDb) :
    (runHistory mapOps env a (ms.map .submit)).tables .kels = a.tables .kels := by
  induction ms generalizing a with
  | nil => rfl
  | cons m ms ih =>
    have hm0 := hm m (by simp)
    obtain ⟨h, hi, _⟩ := depositOf_spec env (a.tables .kels) m hm0
    have e : runHistory mapOps env a ((m :: ms).map .submit) = runHistory mapOps env (process mapOps env m a).2 (ms.map .submit) := rfl
    rw [e, ih (fun x hx => hm x (by simp [hx])), (h a rfl).2, deposit_kels _ _ fun y hy => Tbl.isReceipts_ne (hi y hy)]

/-- every entry of every table of receipts: what was there, then the deposits in the order of arrival -/
theorem receipts_entry (env : Env) (ms : List Message) (hm : ∀ m ∈ ms, m.GoodReceipt) (a : MapDb) (t : Tbl) (ht : t.isReceipts) (x : Bytes)
    (hr : ∀ l, a.tables t x = some l → t.decAll l = some l) :
    (∀ l, (runHistory mapOps env a (ms.map .submit)).tables t x = some l → t.decAll l = some l) ∧
    ((runHistory mapOps env a (ms.map .submit)).tables t x).getD [] = (a.tables t x).getD [] ++ deposits env (a.tables .kels) t x ms ∧
    ((runHistory mapOps env a (ms.map .submit)).tables t x = none ↔ a.tables t x = none ∧ deposits env (a.tables .kels) t x ms = []) := by
  induction ms generalizing a with
  | nil => exact ⟨hr, by simp [deposits, runHistory], by simp [deposits, runHistory]⟩
  | cons m ms ih =>
    have hg := hm m (by simp)
    have hm0 : m.IsReceipt := by cases m <;> first | trivial | cases hg
    obtain ⟨h, hi, hgood⟩ := depositOf_spec env (a.tables .kels) m hm0
    have e : runHistory mapOps env a ((m :: ms).map .submit) = runHistory mapOps env (process mapOps env m a).2 (ms.map .submit) := rfl
    have ht1 := (h a rfl).2
    have hk1 : (process mapOps env m a).2.tables .kels = a.tables .kels := by
      rw [ht1, deposit_kels _ _ fun y hy => Tbl.isReceipts_ne (hi y hy)]
    have hent := congrFun (congrFun ht1 t) x
    rw [deposit_entry] at hent
    have hd : deposits env (a.tables .kels) t x (m :: ms) =
        ((depositOf env (a.tables .kels) m).bind (Deposit.into t x)).toList ++ deposits env (a.tables .kels) t x ms := by
      unfold deposits
      rw [List.filterMap_cons]
      cases (depositOf env (a.tables .kels) m).bind (Deposit.into t x) <;> rfl
    rw [e, hd]
    cases hv : (depositOf env (a.tables .kels) m).bind (Deposit.into t x) with
    | none =>
      rw [hv] at hent
      dsimp only at hent
      have ih := ih (fun y hy => hm y (by simp [hy])) (process mapOps env m a).2 (by rw [hent]; exact hr)
      rw [hent, hk1] at ih
      exact ih
    | some v =>
      rw [hv] at hent
      dsimp only at hent
      obtain ⟨d, hd1, hd2⟩ := Option.bind_eq_some_iff.1 hv
      have hgd := hgood hg d hd1
      have hpush : t.pushed (a.tables t x) v = (a.tables t x).getD [] ++ [v] := by
        rw [pushed_eq]
        cases ha : a.tables t x with
        | none => rfl
        | some l => rw [Option.bind_some, hr l ha]
      have hdec : t.decAll ((a.tables t x).getD [] ++ [v]) = some ((a.tables t x).getD [] ++ [v]) := by
        unfold Deposit.into at hd2
        split at hd2
        · rename_i htt
          split at hd2
          · cases hd2
            subst htt
            refine hgd.2 _ ?_
            cases ha : a.tables d.t x with
            | none => rfl
            | some l => exact hr l ha
          · cases hd2
        · cases hd2
      rw [hpush] at hent
      obtain ⟨i1, i2, i3⟩ := ih (fun y hy => hm y (by simp [hy])) (process mapOps env m a).2 (by
        intro l hl
        rw [hent] at hl
        cases hl
        exact hdec)
      rw [hent, hk1] at i2 i3
      refine ⟨i1, by rw [i2]; simp, ?_⟩
      rw [i3]
      simp

/-! ## C113 -/

theorem after_submits_abs (env : Env) (as : List Action) (ms : List Message) :
    (after env (as ++ ms.map .submit)).abs = runHistory mapOps env (after env as).abs (ms.map .submit) := by
  rw [after_abs, after_abs, runHistory_append]

/-- C113, the answers: what `process` answers to a receipt does not depend on the receipts that arrived before it. -/
theorem C113_answers (env : Env) (as : List Action) (ms : List Message) (hm : ∀ m ∈ ms, m.IsReceipt) (m : Message) (h : m.IsReceipt) :
    (process sled env m (after env (as ++ ms.map .submit))).1 = (process sled env m (after env as)).1 := by
  rw [(process_abs env _ (after_inv env _) m).1, (process_abs env _ (after_inv env _) m).1, after_submits_abs]
  obtain ⟨hs, _⟩ := depositOf_spec env ((after env as).abs.tables .kels) m h
  rw [(hs _ rfl).1, (hs _ (receipts_keep_kels env ms hm _)).1]

/-- C113: whatever the order in which receipts arrive, the logs are the same, and `get_receipts_t`, `get_receipts_nt` and the two escrows return the same receipts,
in another order, for every identifier; `has_receipt` answers the same. -/
theorem C113_any_order (env : Env) (as : List Action) (ms ms' : List Message) (hp : ms.Perm ms') (hm : ∀ m ∈ ms, m.GoodReceipt)
    (hr : (after env as).ReceiptsReadable) (id : IdentifierPrefix) :
    let db := after env (as ++ ms.map .submit)
    let db' := after env (as ++ ms'.map .submit)
    db.kel id = db'.kel id ∧ db.kel id = (after env as).kel id ∧
    SameUpToOrder (getReceiptsT sled id db).1 (getReceiptsT sled id db').1 ∧
    SameUpToOrder (getReceiptsNt sled id db).1 (getReceiptsNt sled id db').1 ∧
    SameUpToOrder (getEscrowT sled id db).1 (getEscrowT sled id db').1 ∧
    SameUpToOrder (getEscrowNt sled id db).1 (getEscrowNt sled id db').1 ∧
    ∀ sn v, (hasReceipt sled id sn v db).1 = (hasReceipt sled id sn v db').1 := by
  intro db db'
  have hm' : ∀ m ∈ ms', m.GoodReceipt := fun m h => hm m (hp.mem_iff.2 h)
  have isr : ∀ l : List Message, (∀ m ∈ l, m.GoodReceipt) → ∀ m ∈ l, m.IsReceipt := by
    intro l hl m h
    have := hl m h
    cases m <;> first | trivial | cases this
  have kels : ∀ l : List Message, (∀ m ∈ l, m.GoodReceipt) → (after env (as ++ l.map Action.submit)).kel id = (after env as).kel id := by
    intro l hl
    rw [kel_eq, kel_eq, after_submits_abs]
    unfold MapDb.log
    rw [receipts_keep_kels env l (isr l hl)]
  have key : ∀ t : Tbl, t.isReceipts → SameUpToOrder (sled.read t id db).1 (sled.read t id db').1 := by
    intro t ht
    have e : ∀ l : List Message, (∀ m ∈ l, m.GoodReceipt) →
        ∃ o, (sled.read t id (after env (as ++ l.map Action.submit))).1 = .ok o ∧
          o.getD [] = ((after env as).vec t id.toStr).getD [] ++ deposits env ((after env as).abs.tables .kels) t id.toStr l ∧
          (o = none ↔ (after env as).vec t id.toStr = none ∧ deposits env ((after env as).abs.tables .kels) t id.toStr l = []) := by
      intro l hl
      obtain ⟨h1, h2, h3⟩ := receipts_entry env l hl (after env as).abs t ht id.toStr (hr t ht id.toStr)
      rw [← after_submits_abs] at h1 h2 h3
      refine ⟨(after env (as ++ l.map Action.submit)).vec t id.toStr, ?_, h2, h3⟩
      rw [read_run t id _ (after_inv env _)]
      unfold Tbl.iterValues Tbl.entry
      cases hv : (after env (as ++ l.map Action.submit)).vec t id.toStr with
      | none => rfl
      | some v => dsimp only; rw [h1 v hv]
    obtain ⟨o, a1, a2, a3⟩ := e ms hm
    obtain ⟨o', b1, b2, b3⟩ := e ms' hm'
    have hperm : (deposits env ((after env as).abs.tables .kels) t id.toStr ms).Perm (deposits env ((after env as).abs.tables .kels) t id.toStr ms') := hp.filterMap _
    refine ⟨o, o', a1, b1, ?_, by rw [a2, b2]; exact hperm.append_left _⟩
    have hnil : deposits env ((after env as).abs.tables .kels) t id.toStr ms = [] ↔ deposits env ((after env as).abs.tables .kels) t id.toStr ms' = [] :=
      ⟨fun h => (h ▸ hperm).nil_eq.symm, fun h => (h ▸ hperm).eq_nil⟩
    rw [hnil, ← b3] at a3
    cases o <;> cases o' <;> simp_all
  refine ⟨(kels ms hm).trans (kels ms' hm').symm, kels ms hm, key .vrcs trivial, key .rcts trivial, key .vres trivial, key .ures trivial, fun sn v => ?_⟩
  obtain ⟨o, o', h1, h2, h3, h4⟩ := key .vrcs trivial
  have run : ∀ (d : Db) (w : Option (List TReceipt)), (sled.read .vrcs id d).1 = .ok w →
      (hasReceipt sled id sn v d).1 = .ok ((w.getD []).any fun r => r.body.sn = sn && r.validatorSeal.prefix = v) := by
    intro d w hw
    unfold hasReceipt getReceiptsT
    rw [StM.bind_run]
    rcases hx : sled.read .vrcs id d with ⟨y, d1⟩
    rw [hx] at hw
    dsimp only at hw
    subst hw
    cases w <;> rfl
  rw [run db o h1, run db' o' h2]
  congr 1
  rw [Bool.eq_iff_iff, List.any_eq_true, List.any_eq_true]
  constructor
  · rintro ⟨r, hr, hq⟩; exact ⟨r, h4.mem_iff.1 hr, hq⟩
  · rintro ⟨r, hr, hq⟩; exact ⟨r, h4.mem_iff.2 hr, hq⟩

/-- C113 needs receipts that read back: with one that does not, the order decides.  If it comes last, `get_receipts_t` panics; if it comes first, it is lost
and the other receipt is there. -/
theorem C113_fails_unreadable :
    [Message.rctT Ex.rct, .rctT Ex.poisonRct].Perm [.rctT Ex.poisonRct, .rctT Ex.rct] ∧
    (getReceiptsT sled Ex.id (after Ex.env (Ex.rctHist ++ [Message.rctT Ex.rct, .rctT Ex.poisonRct].map .submit))).1 = .panic ∧
    (getReceiptsT sled Ex.id (after Ex.env (Ex.rctHist ++ [Message.rctT Ex.poisonRct, .rctT Ex.rct].map .submit))).1 = .ok (some [Ex.rct]) := by
  refine ⟨.swap _ _ _, ?_⟩
  decide +kernel

/-- C113 is about receipts only: a receipt that comes before the event its issuer needs is never among the receipts, one that comes after it is. -/
theorem C113_fails_events :
    (getReceiptsT sled Ex.id (after Ex.env (Ex.hist ++ [Message.event Ex.icpFinal, .rctT Ex.rct].map .submit))).1 = .ok (some [Ex.rct]) ∧
    (getReceiptsT sled Ex.id (after Ex.env (Ex.hist ++ [Message.rctT Ex.rct, .event Ex.icpFinal].map .submit))).1 = .ok none := by
  decide +kernel

/-- hypotheses met: receipts of both kinds, one of them submitted twice, arrive in two orders -/
example :
    (∀ m ∈ [Message.rctT Ex.rct, .rctNt Ex.badNt, .rctT Ex.rct], m.GoodReceipt) ∧
    [Message.rctT Ex.rct, .rctNt Ex.badNt, .rctT Ex.rct].Perm [.rctNt Ex.badNt, .rctT Ex.rct, .rctT Ex.rct] ∧
    (after Ex.env (Ex.rctHist ++ [.submit (.rctT Ex.rct)])).vec .vrcs Ex.id.toStr = some [Ex.rct] ∧
    (getReceiptsT sled Ex.id (after Ex.env (Ex.rctHist ++ [Message.rctT Ex.rct, .rctNt Ex.badNt, .rctT Ex.rct].map .submit))).1 = .ok (some [Ex.rct, Ex.rct]) ∧
    (getReceiptsNt sled Ex.id (after Ex.env (Ex.rctHist ++ [Message.rctT Ex.rct, .rctNt Ex.badNt, .rctT Ex.rct].map .submit))).1 = .ok (some [Ex.badNt]) := by
  refine ⟨?_, .swap _ _ _, by decide +kernel⟩
  intro m hm
  simp only [List.mem_cons, List.not_mem_nil, or_false] at hm
  rcases hm with rfl | rfl | rfl <;> (unfold Message.GoodReceipt; decide +kernel)

/-- … and there were no receipts before -/
example : (after Ex.env Ex.rctHist).ReceiptsReadable := by
  intro t ht x l hl
  have h0 : ∀ t : Tbl, t.isReceipts → (after Ex.env Ex.rctHist).tables t = [] := by
    intro t ht
    cases t <;> first | exact List.isEmpty_iff.1 (by decide +kernel) | exact (show False from ht).elim
  unfold Db.vec at hl
  rw [h0 t ht] at hl
  split at hl <;> cases hl

end Keriox
