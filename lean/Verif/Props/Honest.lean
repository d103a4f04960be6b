import Verif.Props.Controller
import Verif.Props.Receipts
import Verif.Props.Reply
/-!
# C69: receipts made by an honest controller
-/
namespace Keriox

/-! ## Lemmas -/

theorem decodeBody_length {s k : Bytes} {a n : Nat} (h : decodeBody s a n = .ok k) : s.length = n := by
  unfold decodeBody at h
  split at h
  · assumption
  · cases h

/-- a text that reads as an identifier is short -/
theorem prefix_length_le {s : Bytes} {p : IdentifierPrefix} (h : IdentifierPrefix.fromStr s = .ok p) : s.length ≤ 160 := by
  unfold IdentifierPrefix.fromStr at h
  cases h1 : BasicPrefix.fromStr s with
  | ok q =>
    unfold BasicPrefix.fromStr at h1
    obtain ⟨c, _, h2⟩ := Res.bind_eq_ok.1 h1
    obtain ⟨k, h3, _⟩ := Res.bind_eq_ok.1 h2
    rw [decodeBody_length h3]
    cases c <;> decide
  | panic => rw [h1] at h; cases h
  | err er =>
    rw [h1] at h
    simp only at h
    cases h2 : SelfAddressingPrefix.fromStr s with
    | ok q =>
      unfold SelfAddressingPrefix.fromStr at h2
      obtain ⟨c, _, h2⟩ := Res.bind_eq_ok.1 h2
      obtain ⟨k, h3, _⟩ := Res.bind_eq_ok.1 h2
      rw [decodeBody_length h3]
      cases c <;> simp [SelfAddressing.prefixLen, SelfAddressing.codeLen, SelfAddressing.b64Len]
    | panic => rw [h2] at h; cases h
    | err er =>
      rw [h2] at h
      simp only at h
      obtain ⟨q, h2, _⟩ := Res.bind_eq_ok.1 h
      unfold SelfSigningPrefix.fromStr at h2
      obtain ⟨c, _, h2⟩ := Res.bind_eq_ok.1 h2
      obtain ⟨k, h3, _⟩ := Res.bind_eq_ok.1 h2
      rw [decodeBody_length h3]
      cases c <;> decide

theorem keysInForce_lastEstablishment (l : List SignedEvent) : keysInForce l = (lastEstablishment l).bind fun e => e.data.keyConfig? := by
  induction l with
  | nil => rfl
  | cons e es ih =>
    simp only [keysInForce, lastEstablishment, ih]
    cases h : lastEstablishment es with
    | some x =>
      have : x.data.isEstablishment = true := by
        clear ih
        induction es generalizing x with
        | nil => cases h
        | cons a t iht =>
          simp only [lastEstablishment] at h
          cases ht : lastEstablishment t with
          | some y => rw [ht] at h; cases h; exact iht _ ht
          | none =>
            rw [ht, Option.none_or] at h
            split at h
            · cases h; assumption
            · cases h
      unfold EventData.isEstablishment at this
      cases hk : x.data.keyConfig? with
      | none => rw [hk] at this; cases this
      | some kc => simp [hk]
    | none =>
      simp only [Option.bind_none, Option.none_or]
      by_cases hk : e.data.isEstablishment = true
      · rw [if_pos hk]; rfl
      · rw [if_neg hk]
        unfold EventData.isEstablishment at hk
        simpa using hk

theorem lastEstablishment_mem {l : List SignedEvent} {e : SignedEvent} (h : lastEstablishment l = some e) : e ∈ l := by
  induction l with
  | nil => cases h
  | cons a t ih =>
    simp only [lastEstablishment] at h
    cases ht : lastEstablishment t with
    | some y => rw [ht] at h; cases h; exact List.mem_cons_of_mem _ (ih ht)
    | none =>
      rw [ht, Option.none_or] at h
      split at h
      · cases h; simp
      · cases h

theorem getLastEstSeal_db (env : Env) (id : IdentifierPrefix) (db : Db) : (getLastEstSeal sled env id db).2 = (sled.read .kels id db).2 := by
  unfold getLastEstSeal getKel
  rw [StM.bind_run]
  rcases sled.read .kels id db with ⟨r, db'⟩
  cases r with
  | ok o =>
    cases o with
    | none => rfl
    | some l =>
      simp only [StM.bind_run, StM.lift]
      cases lastEstLoop env IdState.default none l <;> rfl
  | err e => rfl
  | panic => rfl

/-- the body of the receipt of an event -/
def receiptBody (env : Env) (pre : IdentifierPrefix) (sn : Nat) (bytes : Bytes) : ReceiptMsg :=
  ⟨SerInfo.new .json (jsonText (ReceiptMsg.mk (SerInfo.new .json 0) (env.derive .blake3_256 bytes) pre sn).sval).length,
    env.derive .blake3_256 bytes, pre, sn⟩

theorem receiptBody_rt (env : Env) (hb : env.Blake3Size) {pre : IdentifierPrefix} {sn : Nat} (bytes : Bytes) (hp : pre.rt = true)
    (hsn : sn ≤ u64max) : (receiptBody env pre sn bytes).rt = true := by
  unfold ReceiptMsg.rt
  simp only [Bool.and_eq_true, decide_eq_true_eq]
  refine ⟨⟨⟨?_, sa_rt (derive_sized hb _)⟩, hp⟩, hsn⟩
  unfold SerInfo.rt
  refine decide_eq_true ((C41_exact _ (show (1:Nat) ≤ 15 by omega) (show (0:Nat) ≤ 15 by omega)).2 ?_)
  refine Nat.le_trans (jsonText_le _) ?_
  have h1 : pre.toStr.length ≤ 160 := prefix_length_le (of_decide_eq_true hp)
  have h2 := sa_len (derive_sized hb bytes) rfl
  have h3 := hexStr_u64 hsn
  have h4 : (SerInfo.new .json 0).toStr.length = 17 := by decide +kernel
  simp only [ReceiptMsg.sval, SVal.weight, SVal.weightFields, h2, h4, EventTypeTag.toStr, List.length_cons, List.length_nil]
  omega

theorem rctFor_eq (env : Env) (m : EventMessage) (bytes sig : Bytes) (sl : EventSeal) :
    Controller.rctFor env m bytes sig sl =
      .ok ⟨receiptBody env m.event.content.prefix m.event.content.sn bytes, sl, [⟨0, ⟨.ed25519Sha512, sig⟩⟩]⟩ := rfl

/-- what `make_rct` does, for a controller in good order -/
theorem Controller.Ready.makeRct {env : Env} {sg : SignFn} {c : Controller} {as : List Action} {s : IdState} (hb : env.Blake3Size)
    (R : c.Ready env sg ((after env as).kel c.pre) s) (id : IdentifierPrefix) (hid : id.toStr ≠ []) (sn : Nat) (e : SignedEvent)
    (he : ((after env as).kel id)[sn]? = some e) (hr : Readable ((after env as).kel id)) (bytes : Bytes)
    (hser : e.msg.serialize env = .ok bytes) :
    ∃ r v as', c.makeRct sled env sg e.msg (after env as) = (.ok r, after env as') ∧
      r.body = receiptBody env e.pre sn bytes ∧ lastEstablishment ((after env as).kel c.pre) = some v ∧
      r.validatorSeal = ⟨v.pre, v.sn, v.dig⟩ ∧ v.pre = c.pre ∧ ValidSigs env s.current bytes r.sigs ∧ r.rt = true ∧
      (∀ id' : IdentifierPrefix, (after env as').kel id' = (after env as).kel id') ∧
      (after env as').vec .vrcs id.toStr = some (Tbl.pushed .vrcs ((after env as).vec .vrcs id.toStr) r) ∧
      as' = as ++ [.lookup .kels c.pre] ++ [.submit (.rctT r)] ∧ (e.pre.Representable → (Message.rctT r).Wireable) := by
  have hne := R.preNe
  obtain ⟨e0, h0⟩ : ∃ e0, ((after env as).kel c.pre)[0]? = some e0 := by
    cases hk : (after env as).kel c.pre with
    | nil => exact absurd hk R.nonempty
    | cons a t => exact ⟨a, rfl⟩
  have hdel : e0.data.delegator? = none := by
    have := R.log.delegator hne
    rw [R.deleg] at this
    cases hk : (after env as).kel c.pre with
    | nil => exact absurd hk R.nonempty
    | cons a t =>
      rw [hk] at this h0
      cases h0
      simpa using this.symm
  obtain ⟨v, hv, hseal⟩ := C26_last_establishment env as c.pre hne e0 h0 hdel R.readable
  have hkeys : v.data.keyConfig? = some s.current := by
    have := R.log.keys hne R.nonempty
    rw [keysInForce_lastEstablishment, hv] at this
    exact this
  have hvm := lastEstablishment_mem hv
  obtain ⟨i, hi, hvi⟩ := List.mem_iff_getElem.1 hvm
  have hvi : ((after env as).kel c.pre)[i]? = some v := by rw [List.getElem?_eq_getElem hi, hvi]
  obtain ⟨hvsn, hvpre, _⟩ := (R.log.facts hne).2.2 i v hvi
  rw [R.pre] at hvpre
  obtain ⟨hesn, _, hepre, _⟩ := C03_contiguous env as id hid sn e he
  obtain ⟨sig, g1, g2, g3⟩ := R.works.signer.signs bytes
  have hert : e.rt = true := hr e (List.mem_of_getElem? he)
  have hvrt : v.rt = true := R.readable v hvm
  have vs : ValidSigs env s.current bytes [⟨0, ⟨.ed25519Sha512, sig⟩⟩] := validSigs_of_verify (own_verify R.thr R.key g3)
  let r : TReceipt := ⟨receiptBody env e.pre sn bytes, ⟨v.pre, v.sn, v.dig⟩, [⟨0, ⟨.ed25519Sha512, sig⟩⟩]⟩
  have kl : ∀ id' : IdentifierPrefix, (after env (as ++ [.lookup .kels c.pre])).kel id' = (after env as).kel id' :=
    after_lookup_kel env as .kels c.pre
  have hbody : r.body.prefix = e.pre := rfl
  have hk : (after env as).kel e.pre = (after env as).kel id := kel_text _ hepre
  have st := verified_receipt env (as ++ [.lookup .kels c.pre]) r (by show e.pre.toStr ≠ []; rw [hepre]; exact hid)
    (by show v.pre.toStr ≠ []; rw [hvpre]; exact hne) (by show Readable (Db.kel _ e.pre); rw [kl, hk]; exact hr)
    (by show Readable (Db.kel _ v.pre); rw [kl, hvpre]; exact R.readable) e v s.current bytes
    (by show (Db.kel _ e.pre)[sn]? = _; rw [kl, hk]; exact he)
    (by show (Db.kel _ v.pre)[v.sn]? = _; rw [kl, hvpre, hvsn]; exact hvi) rfl hkeys hser vs
  refine ⟨r, v, as ++ [.lookup .kels c.pre] ++ [.submit (.rctT r)], ?_, rfl, hv, rfl, hvpre, vs, ?_, ?_, ?_, rfl, ?_⟩
  · obtain ⟨⟨st1, hst, _⟩, _⟩ := st
    have hls : getLastEstSeal sled env c.pre (after env as) = (.ok (some ⟨v.pre, v.sn, v.dig⟩), after env (as ++ [.lookup .kels c.pre])) := by
      refine Prod.ext hseal ((getLastEstSeal_db env c.pre _).trans ?_)
      rw [after, after, runHistory_append]; rfl
    have hpr : process sled env (.rctT r) (after env (as ++ [.lookup .kels c.pre])) =
        (.ok (some st1), after env (as ++ [.lookup .kels c.pre] ++ [.submit (.rctT r)])) := by
      refine Prod.ext hst ?_
      rw [after_snoc]
    unfold Controller.makeRct
    refine StM.bind_ok (a := bytes) (s' := after env as) (by rw [hser]; rfl) ?_
    refine StM.bind_ok (a := sig) (s' := after env as) (by unfold CryptoBox.sign; rw [g1]; rfl) ?_
    refine StM.bind_ok hls ?_
    refine StM.bind_ok (a := r) (s' := after env (as ++ [.lookup .kels c.pre])) ?_ (StM.bind_ok hpr rfl)
    rw [rctFor_eq]
    show (Res.ok (TReceipt.mk (receiptBody env e.pre e.sn bytes) _ _), _) = _
    rw [hesn]
  · unfold TReceipt.rt
    unfold SignedEvent.rt EventMessage.rt at hert hvrt
    simp only [Bool.and_eq_true, decide_eq_true_eq] at hert hvrt ⊢
    refine ⟨⟨⟨⟨receiptBody_rt env hb bytes hert.1.1.1.2 ?_, hvrt.1.1.1.2⟩, hvrt.1.1.2⟩, hvrt.1.1.1.1.2⟩, ?_⟩
    · rw [← hesn]; exact hert.1.1.2
    · simp [r, own_sig_rt g2 .ed25519Sha512 rfl]
  · intro id'
    rw [(C30_receipts_no_effect env (as ++ [Action.lookup .kels c.pre]) (.rctT r) (Or.inl ⟨r, rfl⟩) id').1, kl]
  · have := st.2
    rw [hbody, hepre] at this
    rw [this]
    rcases receipt_tables_after env as (.lookup .kels c.pre) .vrcs trivial id.toStr with h | ⟨⟨m, h, _⟩, _⟩
    · rw [h]
    · cases h
  · intro hp
    unfold SignedEvent.rt EventMessage.rt at hert hvrt
    simp only [Bool.and_eq_true, decide_eq_true_eq] at hert hvrt
    have hsn : sn ≤ u64max := by rw [← hesn]; exact hert.1.1.2
    have hbr := receiptBody_rt env hb bytes hert.1.1.1.2 hsn
    unfold ReceiptMsg.rt SerInfo.rt at hbr
    simp only [Bool.and_eq_true, decide_eq_true_eq] at hbr
    refine ⟨⟨show (1:Nat) ≤ 15 by omega, show (0:Nat) ≤ 15 by omega, ?_, rfl, derive_sized hb _, hp, hsn⟩, ?_, own_sigsOk g2⟩
    · exact (C41_exact _ (show (1:Nat) ≤ 15 by omega) (show (0:Nat) ≤ 15 by omega)).1 hbr.1.1.1
    · refine ⟨?_, ?_, ?_, ?_, R.digs v hvm⟩
      · show v.pre.Sized; rw [hvpre]; exact R.preOk.1.1
      · show ¬ v.pre.IsSecp; rw [hvpre]; exact R.preOk.1.2
      · show ∀ q, v.pre ≠ .selfSigning q; rw [hvpre]; exact R.preOk.2
      · have : v.sn ≤ u64max := hvrt.1.1.2
        show v.sn < 2 ^ 64
        have h64 : u64max = 2 ^ 64 - 1 := by decide
        omega

theorem getReceiptsT_run (env : Env) (as : List Action) (id : IdentifierPrefix) :
    (getReceiptsT sled id (after env as)).1 = match (after env as).vec .vrcs id.toStr with
      | none => .ok none
      | some l => if l.all TReceipt.rt then .ok (some l) else .panic := by
  rw [show (getReceiptsT sled id (after env as)).1 = _ from read_run .vrcs id _ (after_inv env as)]
  unfold Tbl.iterValues Tbl.entry
  cases (after env as).vec .vrcs id.toStr with
  | none => rfl
  | some l =>
    dsimp only
    rw [decAll_guard (t := .vrcs) (p := TReceipt.rt) rfl]
    by_cases h : l.all TReceipt.rt = true
    · rw [if_pos h, if_pos h]
    · rw [if_neg h, if_neg h]

/-! ## C69 -/

/-- the receipts `get_receipts_t` returns (none stored counts as the empty list) -/
def storedReceipts (id : IdentifierPrefix) (db : Db) : Res (List TReceipt) :=
  match (getReceiptsT sled id db).1 with
  | .ok none => .ok []
  | .ok (some l) => .ok l
  | .err e => .err e
  | .panic => .panic

theorem storedReceipts_pushed {env : Env} {as as' : List Action} {id : IdentifierPrefix} {r : TReceipt} (hr : r.rt = true)
    (h : (after env as').vec .vrcs id.toStr = some (Tbl.pushed .vrcs ((after env as).vec .vrcs id.toStr) r)) (l : List TReceipt)
    (hl : storedReceipts id (after env as) = .ok l) : storedReceipts id (after env as') = .ok (l ++ [r]) ∧
      (getReceiptsT sled id (after env as')).1 = .ok (some (l ++ [r])) := by
  unfold storedReceipts at hl ⊢
  rw [getReceiptsT_run] at hl ⊢
  rw [h, pushed_eq]
  have key : l.all TReceipt.rt = true ∧ ((after env as).vec .vrcs id.toStr = none ∧ l = [] ∨ (after env as).vec .vrcs id.toStr = some l) := by
    cases hv : (after env as).vec .vrcs id.toStr with
    | none => rw [hv] at hl; cases hl; exact ⟨rfl, Or.inl ⟨rfl, rfl⟩⟩
    | some l' =>
      rw [hv] at hl
      dsimp only at hl
      by_cases ha : l'.all TReceipt.rt = true
      · rw [if_pos ha] at hl; cases hl; exact ⟨ha, Or.inr rfl⟩
      · rw [if_neg ha] at hl; cases hl
  have e : ((after env as).vec .vrcs id.toStr).bind (Tbl.decAll .vrcs) = if (after env as).vec .vrcs id.toStr = none then none else some l := by
    rcases key.2 with ⟨h1, h2⟩ | h1
    · rw [h1]; rfl
    · rw [h1, if_neg (by simp), Option.bind_some, decAll_guard (t := .vrcs) (p := TReceipt.rt) rfl, if_pos key.1]
  have e2 : (((after env as).vec .vrcs id.toStr).bind (Tbl.decAll .vrcs)).getD [] ++ [r] = l ++ [r] := by
    rw [e]
    rcases key.2 with ⟨h1, h2⟩ | h1
    · rw [h1, h2]; rfl
    · rw [h1]; rfl
  have e3 : (l ++ [r]).all TReceipt.rt = true := by simp only [List.all_append, List.all_cons, List.all_nil, key.1, hr, Bool.and_true]
  rw [e2]
  dsimp only
  rw [if_pos e3]
  exact ⟨rfl, rfl⟩

/-- C69: an honest controller can receipt any event its processor has logged.  At any moment after its inception, after any sequence of
rotations, interactions and other traffic, `make_rct` of a logged event of a readable log succeeds; the receipt names the event by identifier,
number and Blake3 digest of its serialization, names the controller's last establishment event, and is signed with the controller's current
key; no log changes; and if the receipts of that identifier can be read, the receipt is appended to them and `has_receipt` answers yes. -/
theorem C69_receipt_made (env : Env) (hb : env.Blake3Size) (sg : SignFn) (km : CryptoBox) (hw : km.Works env sg)
    (rnd : BasicPrefix × BasicPrefix) (as : List Action) (extra ws : List BasicPrefix) (e : SignedEvent) (c : Controller) (db : Db)
    (h : (Controller.new km rnd).inceptWith env sg extra ws (after env as) = (.ok e, c, db)) (hrt : e.rt = true) (cs : List Call)
    (hi : ∀ p, .interact p ∉ cs) (ho : ∀ a, .other a ∈ cs → ¬ a.submitsFor c.pre) (hn : cs.countP Call.own ≤ u64max)
    (c' : Controller) (db' : Db) (hrun : runCalls env sg (c, db) cs = (c', db'))
    (id : IdentifierPrefix) (hid : id.toStr ≠ []) (sn : Nat) (x : SignedEvent) (hx : (db'.kel id)[sn]? = some x)
    (hr : Readable (db'.kel id)) (bytes : Bytes) (hser : x.msg.serialize env = .ok bytes) :
    ∃ r v db'', c'.makeRct sled env sg x.msg db' = (.ok r, db'') ∧
      r.body.prefix = x.pre ∧ r.body.sn = sn ∧ r.body.digest = env.derive .blake3_256 bytes ∧
      lastEstablishment (db'.kel c.pre) = some v ∧ r.validatorSeal = ⟨c.pre, v.sn, v.dig⟩ ∧
      (∃ kc, v.data.keyConfig? = some kc ∧ kc.publicKeys[0]? = some c'.km.key ∧ ValidSigs env kc bytes r.sigs) ∧
      (∀ id' : IdentifierPrefix, db''.kel id' = db'.kel id') ∧
      ∀ l, storedReceipts id db' = .ok l →
        storedReceipts id db'' = .ok (l ++ [r]) ∧ (hasReceipt sled id sn c.pre db'').1 = .ok true := by
  obtain ⟨hdb, _, _, s, R, hs⟩ := incept_ready hb hw h hrt
  subst hdb
  obtain ⟨_, c2, as', s', h2, h3, h4, _⟩ := calls_invariant hb R hs cs hi ho hn
  rw [hrun] at h2
  cases h2
  obtain ⟨r, v, as2, g1, g2, g3, g4, g5, g6, g7, g8, g9, _, _⟩ := h4.makeRct hb id hid sn x hx hr bytes hser
  have hkeys : v.data.keyConfig? = some s'.current := by
    have := h4.log.keys h4.preNe h4.nonempty
    rw [keysInForce_lastEstablishment, g3] at this
    exact this
  refine ⟨r, v, _, g1, by rw [g2]; rfl, by rw [g2]; rfl, by rw [g2]; rfl, by rw [← h3]; exact g3, by rw [g4, g5, h3],
    ⟨_, hkeys, h4.key, g6⟩, g8, ?_⟩
  intro l hl
  obtain ⟨k1, k2⟩ := storedReceipts_pushed g7 g9 l hl
  refine ⟨k1, ?_⟩
  unfold hasReceipt
  rw [StM.bind_run]
  rcases hq : getReceiptsT sled id (after env as2) with ⟨q, d⟩
  rw [hq] at k2
  subst k2
  show Res.ok ((l ++ [r]).any fun r => r.body.sn = sn && r.validatorSeal.prefix = c.pre) = _
  have : (l ++ [r]).any (fun r => r.body.sn = sn && r.validatorSeal.prefix = c.pre) = true := by
    have e1 : r.body.sn = sn := by rw [g2]; rfl
    have e2 : r.validatorSeal.prefix = c.pre := by rw [g4, ← h3]; exact g5
    rw [List.any_append, List.any_cons, e1, e2]
    simp
  rw [this]

/-- C69: the receipt is good everywhere: a processor that has logged the same event at `sn` and the same establishment event of the receipting
controller accepts it, whatever else it has seen, and appends it to its receipts of that identifier. -/
theorem C69_receipt_travels (env : Env) (hb : env.Blake3Size) (sg : SignFn) (km : CryptoBox) (hw : km.Works env sg)
    (rnd : BasicPrefix × BasicPrefix) (as : List Action) (extra ws : List BasicPrefix) (e : SignedEvent) (c : Controller) (db : Db)
    (h : (Controller.new km rnd).inceptWith env sg extra ws (after env as) = (.ok e, c, db)) (hrt : e.rt = true) (cs : List Call)
    (hi : ∀ p, .interact p ∉ cs) (ho : ∀ a, .other a ∈ cs → ¬ a.submitsFor c.pre) (hn : cs.countP Call.own ≤ u64max)
    (c' : Controller) (db' : Db) (hrun : runCalls env sg (c, db) cs = (c', db'))
    (id : IdentifierPrefix) (hid : id.toStr ≠ []) (sn : Nat) (x : SignedEvent) (hx : (db'.kel id)[sn]? = some x)
    (hr : Readable (db'.kel id)) (bytes : Bytes) (hser : x.msg.serialize env = .ok bytes) (v : SignedEvent)
    (hv : lastEstablishment (db'.kel c.pre) = some v)
    (bs : List Action) (hbx : ((after env bs).kel id)[sn]? = some x) (hbv : ((after env bs).kel c.pre)[v.sn]? = some v)
    (hbr : Readable ((after env bs).kel id)) (hbc : Readable ((after env bs).kel c.pre)) :
    ∃ r db'' st, c'.makeRct sled env sg x.msg db' = (.ok r, db'') ∧
      (process sled env (.rctT r) (after env bs)).1 = .ok (some st) ∧
      ∀ l, storedReceipts id (after env bs) = .ok l → storedReceipts id (process sled env (.rctT r) (after env bs)).2 = .ok (l ++ [r]) := by
  obtain ⟨hdb, _, _, s, R, hs⟩ := incept_ready hb hw h hrt
  subst hdb
  obtain ⟨_, c2, as', s', h2, h3, h4, _⟩ := calls_invariant hb R hs cs hi ho hn
  rw [hrun] at h2
  cases h2
  obtain ⟨r, v', as2, g1, g2, g3, g4, g5, g6, g7, g8, g9, _, _⟩ := h4.makeRct hb id hid sn x hx hr bytes hser
  rw [h3] at g3
  rw [hv] at g3
  cases g3
  have hkeys : v.data.keyConfig? = some s'.current := by
    have := h4.log.keys h4.preNe h4.nonempty
    rw [keysInForce_lastEstablishment, h3, hv] at this
    exact this
  have e1 : r.body.prefix = x.pre := by rw [g2]; rfl
  have e2 : r.body.sn = sn := by rw [g2]; rfl
  have e3 : r.validatorSeal.prefix = c.pre := by rw [g4, ← h3]; exact g5
  have e4 : r.validatorSeal.sn = v.sn := by rw [g4]
  have hxp := (C03_contiguous env bs id hid sn x hbx).2.2.1
  have hk : (after env bs).kel x.pre = (after env bs).kel id := kel_text _ hxp
  have st := verified_receipt env bs r (by rw [e1, hxp]; exact hid) (by rw [e3, ← h3]; exact h4.preNe) (by rw [e1, hk]; exact hbr)
    (by rw [e3]; exact hbc) x v s'.current bytes (by rw [e1, e2, hk]; exact hbx) (by rw [e3, e4]; exact hbv) (by rw [g4]) hkeys hser g6
  obtain ⟨⟨st1, k1, _⟩, k2⟩ := st
  refine ⟨r, _, st1, g1, k1, fun l hl => ?_⟩
  rw [e1, hxp] at k2
  have := (storedReceipts_pushed g7 k2 l hl).1
  rwa [after_snoc] at this

/-! ### Examples -/

/-- a case that meets the hypotheses of `C69_receipt_made`: the example controller, after some traffic, receipts the rotation of another
identifier, and a processor with just the two logs accepts the receipt -/
example : (match Ex.ctlIcp with
    | (.ok _, c, db) =>
      let x := runCalls Ex.env Ex.sg (c, db) Ex.ctlCalls
      decide ((x.2.kel Ex.id)[1]? = some Ex.rot) && decide ((hasReceipt sled Ex.id 1 c.pre x.2).1 = .ok false) &&
      (match x.1.makeRct sled Ex.env Ex.sg Ex.rot.msg x.2 with
        | (.ok r, db'') => decide ((hasReceipt sled Ex.id 1 c.pre db'').1 = .ok true) &&
          decide ((x.2.kel c.pre).length = 5) && decide (r.validatorSeal.sn = 3) &&
          (let bs := Ex.hist ++ (x.2.kel c.pre).map fun e => Action.submit (.event e);
            (process sled Ex.env (.rctT r) (after Ex.env bs)).1.isOk)
        | _ => false)
    | _ => false) = true := by decide +kernel

end Keriox
