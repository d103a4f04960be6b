import Verif.Props.Honest
/-!
# C70: receipts of a witness made with `make_ntr`
-/
namespace Keriox

/-! ## Specification -/

/-- the event makes this key a witness: an inception that lists it, or a rotation that adds it and does not remove it -/
def EventMessage.appoints (m : EventMessage) (k : BasicPrefix) : Prop :=
  (∃ i, m.event.content.data = .icp i ∧ k ∈ i.initialWitnesses) ∨
  (∃ r, m.event.content.data = .rot r ∧ k ∈ r.graft ∧ k ∉ r.prune)

/-- the event dismisses this key: a rotation that removes it -/
def EventMessage.dismisses (m : EventMessage) (k : BasicPrefix) : Prop :=
  ∃ r, m.event.content.data = .rot r ∧ k ∈ r.prune

/-- the witness receipts `get_receipts_nt` returns (none stored counts as the empty list) -/
def storedWitnessReceipts (id : IdentifierPrefix) (db : Db) : Res (List NtReceipt) :=
  match (getReceiptsNt sled id db).1 with
  | .ok none => .ok []
  | .ok (some l) => .ok l
  | .err e => .err e
  | .panic => .panic

/-! ## Lemmas -/

theorem storedNt_run (id : IdentifierPrefix) (db : Db) (h : db.Inv) :
    storedWitnessReceipts id db = match db.vec .rcts id.toStr with
      | none => .ok []
      | some l => if l.all NtReceipt.rt then .ok l else .panic := by
  unfold storedWitnessReceipts
  rw [show (getReceiptsNt sled id db).1 = _ from read_run .rcts id _ h]
  unfold Tbl.iterValues Tbl.entry
  cases db.vec .rcts id.toStr with
  | none => rfl
  | some l =>
    dsimp only
    rw [decAll_guard (t := .rcts) (p := NtReceipt.rt) rfl]
    by_cases h : l.all NtReceipt.rt = true
    · rw [if_pos h, if_pos h]
    · rw [if_neg h, if_neg h]

theorem generateNtr_run (env : Env) (sg : SignFn) (c : Controller) (m : EventMessage) (bytes sig : Bytes)
    (hser : m.serialize env = .ok bytes) (hsig : sg c.km.signer.priv bytes = .ok sig) (db : Db) (h : db.Inv) :
    ∃ db', c.generateNtr sled env sg m db =
        (.ok ⟨receiptBody env m.event.content.prefix m.event.content.sn bytes, [(c.km.key, ⟨.ed25519Sha512, sig⟩)]⟩, db') ∧
      db'.Inv ∧ db'.abs = (db.abs.touch m.event.content.prefix.toStr).set .rcts m.event.content.prefix.toStr
        (some (Tbl.rcts.pushed (db.vec .rcts m.event.content.prefix.toStr)
          ⟨receiptBody env m.event.content.prefix m.event.content.sn bytes, [(c.km.key, ⟨.ed25519Sha512, sig⟩)]⟩)) := by
  have hf : c.ntrFor env sg m = .ok ⟨receiptBody env m.event.content.prefix m.event.content.sn bytes, [(c.km.key, ⟨.ed25519Sha512, sig⟩)]⟩ := by
    unfold Controller.ntrFor CryptoBox.sign
    rw [hser, Res.ok_bind, hsig, Res.ok_bind]
    rfl
  have hp := sled_sim.push .rcts m.event.content.prefix
    ⟨receiptBody env m.event.content.prefix m.event.content.sn bytes, [(c.km.key, ⟨.ed25519Sha512, sig⟩)]⟩ db h
  refine ⟨_, ?_, hp.2.2, hp.2.1⟩
  unfold Controller.generateNtr
  refine StM.bind_ok (s' := db) (by rw [hf]; rfl) ?_
  exact StM.bind_ok (a := ()) (Prod.ext hp.1 rfl) rfl

theorem makeNtr_appointed (o : Ops σ) (env : Env) (sg : SignFn) (c : Controller) (m : EventMessage) (k : BasicPrefix)
    (hk : c.pre = .basic k) (h : m.appoints k) : c.makeNtr o env sg m = c.generateNtr o env sg m := by
  unfold Controller.makeNtr
  rw [hk]
  rcases h with ⟨i, h1, h2⟩ | ⟨r, h1, h2, h3⟩
  · simp only [h1]; rw [if_pos h2]
  · simp only [h1]; rw [if_neg h3, if_pos h2]

/-! ## C70 -/

/-- C70: `make_ntr` receipts every event that names the controller as a witness, in every database: it does not ask whether the event has been
processed, is signed, fits the log, or contradicts an event receipted before.  The receipt names the event and is signed with the current key of the
key manager; it is added to the stored witness receipts of the identifier, and nothing else in the database changes. -/
theorem C70_receipts_whatever_names_it (env : Env) (hb : env.Blake3Size) (sg : SignFn) (c : Controller) (hw : c.km.signer.Works env sg)
    (k : BasicPrefix) (hk : c.pre = .basic k) (m : EventMessage) (hm : m.appoints k) (bytes : Bytes) (hser : m.serialize env = .ok bytes)
    (db : Db) (hdb : db.Inv) :
    ∃ r sig db', c.makeNtr sled env sg m db = (.ok r, db') ∧ db'.Inv ∧
      r.body.prefix = m.event.content.prefix ∧ r.body.sn = m.event.content.sn ∧ r.body.digest = env.derive .blake3_256 bytes ∧
      r.couplets = [(c.km.key, ⟨.ed25519Sha512, sig⟩)] ∧ env.ed c.km.signer.pub bytes sig = true ∧
      (∀ id : IdentifierPrefix, db'.kel id = db.kel id) ∧
      (∀ l, storedWitnessReceipts m.event.content.prefix db = .ok l → m.event.content.prefix.rt = true → m.event.content.sn ≤ u64max →
        storedWitnessReceipts m.event.content.prefix db' = .ok (l ++ [r])) ∧
      (∀ t x, (t ≠ .rcts ∨ x ≠ m.event.content.prefix.toStr) → db'.vec t x = db.vec t x) := by
  obtain ⟨sig, g1, g2, g3⟩ := hw.signs bytes
  obtain ⟨db', h1, h2, h3⟩ := generateNtr_run env sg c m bytes sig hser g1 db hdb
  have oth : ∀ t x, (t ≠ .rcts ∨ x ≠ m.event.content.prefix.toStr) → db'.vec t x = db.vec t x := by
    intro t x h
    show db'.abs.tables t x = db.abs.tables t x
    rw [h3]
    by_cases ht : t = .rcts
    · subst ht
      rcases h with h | h
      · exact absurd rfl h
      · rw [MapDb.set_other_id _ _ _ h, MapDb.touch_tables]
    · rw [MapDb.set_other_tbl _ ht, MapDb.touch_tables]
  refine ⟨_, sig, db', by rw [makeNtr_appointed sled env sg c m k hk hm]; exact h1, h2, rfl, rfl, rfl, rfl, g3, fun id => ?_, fun l hl hp hsn => ?_, oth⟩
  · show (db'.vec .kels id.toStr).getD [] = (db.vec .kels id.toStr).getD []
    rw [oth .kels _ (Or.inl (by simp))]
  · rw [storedNt_run _ _ hdb] at hl
    rw [storedNt_run _ _ h2]
    have hv : db'.vec .rcts m.event.content.prefix.toStr = some (Tbl.rcts.pushed (db.vec .rcts m.event.content.prefix.toStr)
          ⟨receiptBody env m.event.content.prefix m.event.content.sn bytes, [(c.km.key, ⟨.ed25519Sha512, sig⟩)]⟩) := by
      show db'.abs.tables .rcts _ = _
      rw [h3, MapDb.set_same]
    have hrt : NtReceipt.rt ⟨receiptBody env m.event.content.prefix m.event.content.sn bytes, [(c.km.key, ⟨.ed25519Sha512, sig⟩)]⟩ = true := by
      unfold NtReceipt.rt
      have h4 : (SelfSigningPrefix.mk .ed25519Sha512 sig).rt = true := by
        unfold SelfSigningPrefix.rt; exact decide_eq_true (C35_selfSigning_roundtrip _ g2)
      have h5 : c.km.key.rt = true := ed_key_rt hw.size
      simp only [receiptBody_rt env hb bytes hp hsn, List.all_cons, List.all_nil, h4, h5, Bool.and_self]
    rw [hv, pushed_eq]
    have e2 : ((db.vec .rcts m.event.content.prefix.toStr).bind (Tbl.decAll .rcts)).getD [] = l ∧ l.all NtReceipt.rt = true := by
      cases hd : db.vec .rcts m.event.content.prefix.toStr with
      | none => rw [hd] at hl; cases hl; exact ⟨rfl, rfl⟩
      | some l' =>
        rw [hd] at hl
        dsimp only at hl
        by_cases ha : l'.all NtReceipt.rt = true
        · rw [if_pos ha] at hl
          cases hl
          rw [Option.bind_some, decAll_guard (t := .rcts) (p := NtReceipt.rt) rfl, if_pos ha]
          exact ⟨rfl, ha⟩
        · rw [if_neg ha] at hl; cases hl
    rw [e2.1]
    dsimp only
    rw [if_pos]
    simp only [List.all_append, List.all_cons, List.all_nil, e2.2, hrt, Bool.and_true]

/-- C70, what the witness property one hopes for would forbid: two different events for the same place in the same log, one after the other, both
get a receipt from the same witness. -/
theorem C70_fails_for_all (env : Env) (hb : env.Blake3Size) (sg : SignFn) (c : Controller) (hw : c.km.signer.Works env sg)
    (k : BasicPrefix) (hk : c.pre = .basic k) (m m' : EventMessage) (hm : m.appoints k) (hm' : m'.appoints k)
    (hser : ∃ b, m.serialize env = .ok b) (hser' : ∃ b, m'.serialize env = .ok b) (db : Db) (hdb : db.Inv) :
    ∃ r r' db1 db2, c.makeNtr sled env sg m db = (.ok r, db1) ∧ c.makeNtr sled env sg m' db1 = (.ok r', db2) ∧
      r.body.prefix = m.event.content.prefix ∧ r.body.sn = m.event.content.sn ∧
      r'.body.prefix = m'.event.content.prefix ∧ r'.body.sn = m'.event.content.sn := by
  obtain ⟨b, hser⟩ := hser
  obtain ⟨b', hser'⟩ := hser'
  obtain ⟨r, _, db1, h1, h2, h3, h4, _⟩ := C70_receipts_whatever_names_it env hb sg c hw k hk m hm b hser db hdb
  obtain ⟨r', _, db2, g1, _, g3, g4, _⟩ := C70_receipts_whatever_names_it env hb sg c hw k hk m' hm' b' hser' db1 h2
  exact ⟨r, r', db1, db2, h1, g1, h3, h4, g3, g4⟩

/-- C70: every other event is refused and, unless it dismisses the controller, changes nothing; a controller whose identifier is not a
bare key refuses everything. -/
theorem C70_refused (env : Env) (sg : SignFn) (c : Controller) (m : EventMessage)
    (h : (∀ k, c.pre ≠ .basic k) ∨ ∃ k, c.pre = .basic k ∧ ¬ m.appoints k ∧ ¬ m.dismisses k) (db : Db) :
    ∃ er, c.makeNtr sled env sg m db = (.err er, db) := by
  unfold Controller.makeNtr
  rcases h with h | ⟨k, hk, h1, h2⟩
  · cases hp : c.pre with
    | basic k => exact absurd hp (h k)
    | selfAddressing p => exact ⟨_, rfl⟩
    | selfSigning p => exact ⟨_, rfl⟩
  · rw [hk]
    cases hd : m.event.content.data with
    | icp i =>
      simp only
      rw [if_neg (fun hi => h1 (Or.inl ⟨i, hd, hi⟩))]
      exact ⟨_, rfl⟩
    | rot r =>
      simp only
      have hp : k ∉ r.prune := fun hi => h2 ⟨r, hd, hi⟩
      rw [if_neg hp, if_neg (fun hi => h1 (Or.inr ⟨r, hd, hi, hp⟩))]
      exact ⟨_, rfl⟩
    | ixn x => exact ⟨_, rfl⟩
    | dip x => exact ⟨_, rfl⟩
    | drt x => exact ⟨_, rfl⟩

theorem removeNts_run (id : IdentifierPrefix) (rs : List NtReceipt) (db : Db) (h : db.Inv) (l : List NtReceipt)
    (hl : db.vec .rcts id.toStr = some l) (ha : l.all NtReceipt.rt = true) :
    ∃ db', removeNts sled id rs db = (.ok (), db') ∧ db'.Inv ∧ db'.vec .rcts id.toStr = some (l.filter fun e => decide (e ∉ rs)) ∧
      (∀ t x, (t ≠ .rcts ∨ x ≠ id.toStr) → db'.vec t x = db.vec t x) := by
  induction rs generalizing db l with
  | nil => exact ⟨db, rfl, h, by rw [hl]; exact congrArg some (List.filter_eq_self.2 (by simp)).symm, fun _ _ _ => rfl⟩
  | cons r rs ih =>
    have hp := sled_sim.remove .rcts id r db h
    have hv : (sled.remove .rcts id r db).2.vec .rcts id.toStr = some (l.filter fun e => decide (e ≠ r)) := by
      show (sled.remove .rcts id r db).2.abs.tables .rcts _ = _
      rw [hp.2.1]
      simp only [mapOps, MapDb.set_same]
      show Tbl.rcts.removed (db.vec .rcts id.toStr) r = _
      rw [hl]
      unfold Tbl.removed Tbl.entry
      simp only [decAll_guard (t := .rcts) (p := NtReceipt.rt) rfl, if_pos ha]
      congr 1
      refine List.filter_congr fun e _ => ?_
      show (!decide (e = r)) = _
      simp
    have ha' : (l.filter fun e => decide (e ≠ r)).all NtReceipt.rt = true := by
      rw [List.all_eq_true] at ha ⊢
      exact fun x hx => ha x (List.mem_filter.1 hx).1
    obtain ⟨db', g1, g2, g3, g4⟩ := ih _ hp.2.2 _ hv ha'
    refine ⟨db', ?_, g2, ?_, ?_⟩
    · unfold removeNts
      exact StM.bind_ok (a := ()) (Prod.ext hp.1 rfl) g1
    · rw [g3, List.filter_filter]
      congr 1
      refine List.filter_congr fun e _ => ?_
      simp [Bool.and_comm]
    · intro t x htx
      rw [g4 t x htx]
      show (sled.remove .rcts id r db).2.abs.tables t x = db.abs.tables t x
      rw [hp.2.1]
      simp only [mapOps]
      by_cases ht : t = .rcts
      · subst ht
        rcases htx with h | h
        · exact absurd rfl h
        · rw [MapDb.set_other_id _ _ _ h, MapDb.touch_tables]
      · rw [MapDb.set_other_tbl _ ht, MapDb.touch_tables]

/-- C70: any rotation event that dismisses the controller, processed or not and signed or not, makes it delete all stored witness receipts about
that identifier, those of other witnesses included; the caller gets an error. -/
theorem C70_dismissal_deletes (env : Env) (sg : SignFn) (c : Controller) (k : BasicPrefix) (hk : c.pre = .basic k) (m : EventMessage)
    (hm : m.dismisses k) (db : Db) (hdb : db.Inv) (l : List NtReceipt) (hl : storedWitnessReceipts m.event.content.prefix db = .ok l) :
    ∃ er db', c.makeNtr sled env sg m db = (.err er, db') ∧ db'.Inv ∧ storedWitnessReceipts m.event.content.prefix db' = .ok [] ∧
      (∀ t x, (t ≠ .rcts ∨ x ≠ m.event.content.prefix.toStr) → db'.vec t x = db.vec t x) := by
  obtain ⟨r, hd, hr⟩ := hm
  have hm : c.makeNtr sled env sg m = (do
      removeReceiptsNt sled m.event.content.prefix
      StM.fail (.semantic "we were removed. no receipt to generate")) := by
    unfold Controller.makeNtr
    rw [hk]
    simp only [hd]
    rw [if_pos hr]
  have hread := sled_sim.read .rcts m.event.content.prefix db hdb
  have hoth : ∀ t x, (sled.read .rcts m.event.content.prefix db).2.vec t x = db.vec t x := by
    intro t x
    show (sled.read .rcts m.event.content.prefix db).2.abs.tables t x = db.abs.tables t x
    rw [hread.2.1]
    exact congrFun (congrFun (MapDb.touch_tables _ _) t) x
  have hrem : ∃ db', removeReceiptsNt sled m.event.content.prefix db = (.ok (), db') ∧ db'.Inv ∧
      storedWitnessReceipts m.event.content.prefix db' = .ok [] ∧
      (∀ t x, (t ≠ .rcts ∨ x ≠ m.event.content.prefix.toStr) → db'.vec t x = db.vec t x) := by
    rw [storedNt_run _ _ hdb] at hl
    have hr1 : (sled.read .rcts m.event.content.prefix db).1 = _ := read_run .rcts m.event.content.prefix db hdb
    unfold Tbl.iterValues Tbl.entry at hr1
    cases hv : db.vec .rcts m.event.content.prefix.toStr with
    | none =>
      rw [hv] at hr1
      refine ⟨(sled.read .rcts m.event.content.prefix db).2, ?_, hread.2.2, ?_, fun t x _ => hoth t x⟩
      · unfold removeReceiptsNt
        exact StM.bind_ok (a := none) (Prod.ext hr1 rfl) rfl
      · rw [storedNt_run _ _ hread.2.2, hoth, hv]
    | some l' =>
      rw [hv] at hl hr1
      dsimp only at hl hr1
      by_cases ha : l'.all NtReceipt.rt = true
      · rw [if_pos ha] at hl
        cases hl
        rw [decAll_guard (t := .rcts) (p := NtReceipt.rt) rfl, if_pos ha] at hr1
        obtain ⟨db', g1, g2, g3, g4⟩ := removeNts_run m.event.content.prefix l (sled.read .rcts m.event.content.prefix db).2 hread.2.2 l
          (by rw [hoth, hv]) ha
        refine ⟨db', ?_, g2, ?_, fun t x h => (g4 t x h).trans (hoth t x)⟩
        · unfold removeReceiptsNt
          exact StM.bind_ok (a := some l) (Prod.ext hr1 rfl) g1
        · rw [storedNt_run _ _ g2, g3]
          have : (l.filter fun e => decide (e ∉ l)) = [] := by
            rw [List.filter_eq_nil_iff]
            intro x hx
            simp [hx]
          rw [this]
          rfl
      · rw [if_neg ha] at hl; cases hl
  obtain ⟨db', g1, g2, g3, g4⟩ := hrem
  refine ⟨.semantic "we were removed. no receipt to generate", db', ?_, g2, g3, g4⟩
  rw [hm, StM.bind_run, g1]
  rfl

/-- C70: after the controller has rotated its keys, its witness receipts name the new key, which is not the identifier the event lists. -/
theorem C70_fails_after_rotation (env : Env) (hb : env.Blake3Size) (sg : SignFn) (km : CryptoBox) (hw : km.Works env sg)
    (hne : km.next.pub ≠ km.signer.pub) (c : Controller) (hk : c.pre = .basic km.key) (hc : c.km = km) (db db1 : Db) (e : SignedEvent)
    (c' : Controller) (hrot : c.rotate env sg db = (.ok e, c', db1)) (hdb : db1.Inv) (m : EventMessage) (hm : m.appoints km.key)
    (hser : ∃ b, m.serialize env = .ok b) :
    ∃ r db2, c'.makeNtr sled env sg m db1 = (.ok r, db2) ∧ (∀ x ∈ r.couplets, IdentifierPrefix.basic x.1 ≠ c'.pre) ∧ r.couplets ≠ [] := by
  obtain ⟨b, hser⟩ := hser
  have h2 : c' = { c with km := c.km.rotate } := by
    unfold Controller.rotate at hrot
    exact (congrArg (fun x => x.2.1) hrot).symm
  subst h2
  rw [← hc] at hw hne hm hk
  obtain ⟨r, sig, db2, h1, _, _, _, _, h5, _⟩ := C70_receipts_whatever_names_it env hb sg { c with km := c.km.rotate } hw.rotate.signer c.km.key hk m
    hm b hser db1 hdb
  refine ⟨r, db2, h1, ?_, by rw [h5]; simp⟩
  intro x hx
  rw [h5, List.mem_singleton] at hx
  subst hx
  show IdentifierPrefix.basic c.km.rotate.key ≠ c.pre
  rw [hk]
  intro h
  simp only [IdentifierPrefix.basic.injEq] at h
  exact hne (congrArg BasicPrefix.publicKey h)

/-! ### Examples -/

/-- a controller whose identifier is its bare key, in a database with another log -/
def Ex.wit : Res SignedEvent × Controller × Db := Ex.ctl.incept Ex.env Ex.sg [] (after Ex.env Ex.hist)

/-- an unsigned inception that lists it as a witness; `n` only tells several of them apart -/
def Ex.appointing (n : Nat) : EventMessage :=
  Ex.msgOr ((Event.mk (.basic (Ex.key 70)) 0 (.icp ⟨⟨.simple 1, [Ex.key 70], none⟩, n, [Ex.km.key], [], []⟩)).toMessage Ex.env .json .blake3_256)

/-- an unsigned rotation that removes it -/
def Ex.dismissing : EventMessage :=
  Ex.msgOr ((Event.mk (.basic (Ex.key 70)) 1 (.rot ⟨⟨.blake3_256, Ex.dig b!"none"⟩, ⟨.simple 1, [Ex.key 71], none⟩, 0, [Ex.km.key], [], []⟩)).toMessage
    Ex.env .json .blake3_256)

/-- the hypotheses of `C70_receipts_whatever_names_it` and `C70_fails_for_all` occur: the identifier of `Ex.wit` is its key, the inceptions list it
and can be written down, and they contradict each other -/
example : Ex.wit.1.isOk = true ∧ Ex.wit.2.1.pre = .basic Ex.km.key ∧ (Ex.appointing 0).appoints Ex.km.key ∧ (Ex.appointing 1).appoints Ex.km.key ∧
    Ex.appointing 0 ≠ Ex.appointing 1 ∧ ((Ex.appointing 0).serialize Ex.env).isOk = true ∧ ((Ex.appointing 1).serialize Ex.env).isOk = true ∧
    (Ex.wit.2.1.makeNtr sled Ex.env Ex.sg (Ex.appointing 0) Ex.wit.2.2).1.isOk = true :=
  ⟨by decide +kernel, by decide +kernel, Or.inl ⟨⟨⟨.simple 1, [Ex.key 70], none⟩, 0, [Ex.km.key], [], []⟩, by decide +kernel, by decide⟩,
    Or.inl ⟨⟨⟨.simple 1, [Ex.key 70], none⟩, 1, [Ex.km.key], [], []⟩, by decide +kernel, by decide⟩, by decide +kernel, by decide +kernel,
    by decide +kernel, by decide +kernel⟩

/-- the hypotheses of `C70_dismissal_deletes` occur, with two receipts to delete -/
example : Ex.dismissing.dismisses Ex.km.key ∧
    (let db1 := (Ex.wit.2.1.makeNtr sled Ex.env Ex.sg (Ex.appointing 0) Ex.wit.2.2).2
     let db2 := (Ex.wit.2.1.makeNtr sled Ex.env Ex.sg (Ex.appointing 1) db1).2
     let db3 := (Ex.wit.2.1.makeNtr sled Ex.env Ex.sg Ex.dismissing db2).2
     (match storedWitnessReceipts (.basic (Ex.key 70)) db2 with | .ok l => l.length | _ => 9) = 2 ∧
     (match storedWitnessReceipts (.basic (Ex.key 70)) db3 with | .ok l => l.length | _ => 9) = 0) :=
  ⟨⟨⟨⟨.blake3_256, Ex.dig b!"none"⟩, ⟨.simple 1, [Ex.key 71], none⟩, 0, [Ex.km.key], [], []⟩, by decide +kernel, by decide⟩, by decide +kernel⟩

/-- the hypotheses of `C70_refused` occur both ways -/
example : (∃ k, Ex.wit.2.1.pre = .basic k ∧ ¬ Ex.icp.msg.appoints k ∧ ¬ Ex.icp.msg.dismisses k) ∧ (∀ k, Ex.ctlIcp.2.1.pre ≠ .basic k) := by
  refine ⟨⟨Ex.km.key, by decide +kernel, ?_, ?_⟩, ?_⟩
  · rintro (⟨i, h, hi⟩ | ⟨r, h, _⟩)
    · have : Ex.icp.msg.event.content.data = .icp ⟨Ex.kc [1, 2, 3] [4, 5, 6] (.simple 2), 1, [Ex.key 30, Ex.key 31], [], []⟩ := by decide +kernel
      rw [this] at h
      cases h
      revert hi
      decide
    · have : Ex.icp.msg.event.content.data = .icp ⟨Ex.kc [1, 2, 3] [4, 5, 6] (.simple 2), 1, [Ex.key 30, Ex.key 31], [], []⟩ := by decide +kernel
      rw [this] at h
      cases h
  · rintro ⟨r, h, _⟩
    have : Ex.icp.msg.event.content.data = .icp ⟨Ex.kc [1, 2, 3] [4, 5, 6] (.simple 2), 1, [Ex.key 30, Ex.key 31], [], []⟩ := by decide +kernel
    rw [this] at h
    cases h
  · intro k h
    have : (match Ex.ctlIcp.2.1.pre with | .basic _ => true | _ => false) = false := by decide +kernel
    rw [h] at this
    cases this

/-- the hypotheses of `C70_fails_after_rotation` occur -/
example : Ex.km.next.pub ≠ Ex.km.signer.pub ∧ Ex.wit.2.1.km.signer = Ex.km.signer ∧
    (Ex.wit.2.1.rotate Ex.env Ex.sg Ex.wit.2.2).1.isOk = true := by decide +kernel

end Keriox
