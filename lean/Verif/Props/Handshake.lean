import Verif.Props.Respond
/-!
# C73: two controllers get to know each other
-/
namespace Keriox

/-! ## Specification -/

/-- a controller and its database some time after its inception: any number of rotations and interactions and any other traffic lie in between, except events of
the own identifier submitted behind the controller's back -/
def Started (env : Env) (sg : SignFn) (c : Controller) (db : Db) : Prop :=
  ∃ (km : CryptoBox) (rnd : BasicPrefix × BasicPrefix) (as : List Action) (extra ws : List BasicPrefix) (e : SignedEvent) (c0 : Controller) (db0 : Db) (cs : List Call),
    km.Works env sg ∧ (Controller.new km rnd).inceptWith env sg extra ws (after env as) = (.ok e, c0, db0) ∧ e.rt = true ∧
    (∀ p, .interact p ∉ cs) ∧ (∀ a, .other a ∈ cs → ¬ a.submitsFor c0.pre) ∧ cs.countP Call.own ≤ u64max ∧ runCalls env sg (c0, db0) cs = (c, db)

/-- one receipt by the identifier `p` for each of the first `n` events, in order -/
def OneEach (p : IdentifierPrefix) (n : Nat) (rs : List TReceipt) : Prop :=
  rs.map (fun r => r.body.sn) = List.range n ∧ ∀ r ∈ rs, r.validatorSeal.prefix = p

/-! ## Lemmas -/

theorem started_ready {env : Env} (hb : env.Blake3Size) {sg : SignFn} {c : Controller} {db : Db} (h : Started env sg c db) :
    ∃ as s, db = after env as ∧ c.Ready env sg ((after env as).kel c.pre) s := by
  obtain ⟨km, rnd, as, extra, ws, e, c0, db0, cs, h1, h2, h3, h4, h5, h6, h7⟩ := h
  obtain ⟨hdb, _, _, s, R, hs⟩ := incept_ready hb h1 h2 h3
  subst hdb
  obtain ⟨_, c2, as', s', g2, g3, g4, _⟩ := calls_invariant hb R hs cs h4 h5 h6
  rw [h7] at g2
  cases g2
  exact ⟨as', s', rfl, g4⟩

theorem acceptedOf_append (env : Env) (ms ms' : List Message) (db : Db) :
    acceptedOf env (ms ++ ms') db = acceptedOf env ms db ++ acceptedOf env ms' (runHistory sled env db (ms.map .submit)) := by
  induction ms generalizing db with
  | nil => rfl
  | cons m ms ih =>
    rw [List.cons_append, acceptedOf, acceptedOf, ih]
    have : runHistory sled env db ((m :: ms).map Action.submit) = runHistory sled env (process sled env m db).2 (ms.map .submit) := rfl
    rw [this]
    split <;> rfl

theorem crashesOn_append (env : Env) (ms ms' : List Message) (db : Db) :
    crashesOn env (ms ++ ms') db ↔ crashesOn env ms db ∨ crashesOn env ms' (runHistory sled env db (ms.map .submit)) := by
  induction ms generalizing db with
  | nil => simp [crashesOn, runHistory]
  | cons m ms ih =>
    rw [List.cons_append, crashesOn, crashesOn, ih, or_assoc]
    rfl

theorem bind_ok_all {σ α β : Type} {x : StM σ α} {f : α → StM σ β} {b : β} {st st' : σ} (h : (x >>= f) st = (.ok b, st')) :
    ∃ a st1, x st = (.ok a, st1) ∧ f a st1 = (.ok b, st') := by
  rw [StM.bind_run] at h
  rcases hx : x st with ⟨r, st1⟩
  rw [hx] at h
  cases r with
  | ok a => exact ⟨a, st1, rfl, h⟩
  | err e => cases h
  | panic => cases h

theorem answers_append {env : Env} {sg : SignFn} {c : Controller} {ms ms' : List Message} {db db1 db2 : Db} {a b : Bytes}
    (h1 : c.answers sled env sg ms db = (.ok a, db1)) (h2 : c.answers sled env sg ms' db1 = (.ok b, db2)) :
    c.answers sled env sg (ms ++ ms') db = (.ok (a ++ b), db2) := by
  induction ms generalizing db a with
  | nil => cases h1; exact h2
  | cons m ms ih =>
    unfold Controller.answers at h1
    rw [List.cons_append]
    unfold Controller.answers
    obtain ⟨x, d, g1, g2⟩ := bind_ok_all h1
    obtain ⟨y, d', g3, g4⟩ := bind_ok_all g2
    refine StM.bind_ok g1 ?_
    cases x with
    | ok t =>
      cases g4
      exact StM.bind_ok (ih g3) (by rw [List.append_assoc]; rfl)
    | error er =>
      cases g4
      exact StM.bind_ok (ih g3) rfl

theorem answers_rcts (env : Env) (sg : SignFn) (c : Controller) (rs : List TReceipt) (db : Db) :
    c.answers sled env sg (rs.map .rctT) db = (.ok [], db) := by
  induction rs with
  | nil => rfl
  | cons r rs ih =>
    rw [List.map_cons]
    unfold Controller.answers
    refine StM.bind_ok (StM.result_ok (a := []) rfl) ?_
    exact StM.bind_ok ih rfl

/-- the log of another identifier arrives in order -/
theorem events_arrive {env : Env} {id : IdentifierPrefix} (hid : id.toStr ≠ []) {l : List SignedEvent} (P : Portable env id l)
    (es : List SignedEvent) (k : Nat) (hk : k ≤ l.length) (hes : l.drop k = es) (as : List Action) (h : (after env as).kel id = l.take k) :
    ¬ crashesOn env (es.map .event) (after env as) ∧ acceptedOf env (es.map .event) (after env as) = es.map .event ∧
    ∃ as', runHistory sled env (after env as) ((es.map Message.event).map .submit) = after env as' ∧ (after env as').kel id = l ∧
      (∀ id' : IdentifierPrefix, id'.toStr ≠ [] → id'.toStr ≠ id.toStr → (after env as').kel id' = (after env as).kel id') ∧
      ∀ id' : IdentifierPrefix, storedReceipts id' (after env as') = storedReceipts id' (after env as) := by
  induction es generalizing k as with
  | nil =>
    refine ⟨fun h => h, rfl, as, rfl, ?_, fun _ _ _ => rfl, fun _ => rfl⟩
    rw [h, List.take_of_length_le (List.drop_eq_nil_iff.1 hes)]
  | cons e es ih =>
    have he : l[k]? = some e := by
      have := congrArg (fun x : List SignedEvent => x[0]?) hes
      simpa using this
    have hdrop : l.drop (k + 1) = es := by
      have := congrArg List.tail hes
      simpa using this
    obtain ⟨st, g1, _, g2⟩ := (sync_step hid P as k hk h k e he).1 rfl
    have hlt : k < l.length := (List.getElem?_eq_some_iff.1 he).1
    have hdb : (process sled env (.event e) (after env as)).2 = after env (as ++ [.submit (.event e)]) := (after_snoc env as _).symm
    obtain ⟨i1, i2, as', i3, i4, i5, i6⟩ := ih (k + 1) hlt hdrop (as ++ [.submit (.event e)]) g2
    have hpre : e.pre.toStr = id.toStr := by
      obtain ⟨s, hl⟩ := P.log
      exact (hl.noSeal e (List.mem_of_getElem? he)).2
    refine ⟨?_, ?_, as', ?_, i4, fun id' h0 h1 => ?_, fun id' => ?_⟩
    · rw [List.map_cons, crashesOn, g1, hdb]
      rintro (h | h)
      · cases h
      · exact i1 h
    · rw [List.map_cons, acceptedOf, g1, hdb, i2]; rfl
    · rw [← i3, ← hdb]; rfl
    · rw [i5 id' h0 h1]
      refine other_kel env as _ id' h0 ?_
      show ¬ e.pre.toStr = id'.toStr
      rw [hpre]; exact fun h => h1 h.symm
    · rw [i6 id']
      refine storedReceipts_congr ?_
      rcases receipt_tables_after env as (.submit (.event e)) .vrcs trivial id'.toStr with h | ⟨⟨m, h, ⟨r, h2⟩ | ⟨r, h2⟩⟩, _⟩
      · exact h
      · subst h2; cases h
      · subst h2; cases h

/-- receipts of one identifier's events by another arrive at a processor that has both logs -/
theorem receipts_arrive {env : Env} {id p : IdentifierPrefix} (hid : id.toStr ≠ []) (hp : p.toStr ≠ []) {l lv : List SignedEvent} (hr : Readable l)
    (hrv : Readable lv) (rs : List TReceipt) (hrs : ∀ r ∈ rs, ∃ i, RctFor env id l p lv i r) (as : List Action) (h1 : (after env as).kel id = l)
    (h2 : (after env as).kel p = lv) (rl : List TReceipt) (hrl : storedReceipts id (after env as) = .ok rl) :
    ¬ crashesOn env (rs.map .rctT) (after env as) ∧ acceptedOf env (rs.map .rctT) (after env as) = rs.map .rctT ∧
    ∃ as', runHistory sled env (after env as) ((rs.map Message.rctT).map .submit) = after env as' ∧
      (∀ id' : IdentifierPrefix, (after env as').kel id' = (after env as).kel id') ∧ storedReceipts id (after env as') = .ok (rl ++ rs) ∧
      ∀ id' : IdentifierPrefix, id'.toStr ≠ id.toStr → storedReceipts id' (after env as') = storedReceipts id' (after env as) := by
  induction rs generalizing as rl with
  | nil => exact ⟨fun h => h, rfl, as, rfl, fun _ => rfl, by simpa using hrl, fun _ _ => rfl⟩
  | cons r rs ih =>
    obtain ⟨i, a1, a2, a3, a4, e, v, kc, bytes, a5, a6, a7, a8, a9, a10⟩ := hrs r (by simp)
    have hk : (after env as).kel r.body.prefix = l := (kel_text _ a1).trans h1
    have hkv : (after env as).kel r.validatorSeal.prefix = lv := by rw [a3]; exact h2
    obtain ⟨⟨st, g1, _⟩, g2⟩ := verified_receipt env as r (by rw [a1]; exact hid) (by rw [a3]; exact hp) (by rw [hk]; exact hr) (by rw [hkv]; exact hrv) e v kc bytes
      (by rw [hk, a2]; exact a5) (by rw [hkv]; exact a6) a7 a8 a9 a10
    have hdb : (process sled env (.rctT r) (after env as)).2 = after env (as ++ [.submit (.rctT r)]) := (after_snoc env as _).symm
    have hkel : ∀ id' : IdentifierPrefix, (after env (as ++ [.submit (.rctT r)])).kel id' = (after env as).kel id' := fun id' =>
      (C30_receipts_no_effect env as (.rctT r) (Or.inl ⟨r, rfl⟩) id').1
    rw [a1] at g2
    obtain ⟨i1, i2, as', i3, i4, i5, i6⟩ := ih (fun x hx => hrs x (by simp [hx])) (as ++ [.submit (.rctT r)]) (by rw [hkel]; exact h1) (by rw [hkel]; exact h2)
      (rl ++ [r]) (storedReceipts_pushed a4 g2 rl hrl).1
    refine ⟨?_, ?_, as', ?_, fun id' => by rw [i4, hkel], by rw [i5]; simp, fun id' hne => ?_⟩
    · rw [List.map_cons, crashesOn, g1, hdb]
      rintro (h | h)
      · cases h
      · exact i1 h
    · rw [List.map_cons, acceptedOf, g1, hdb, i2]; rfl
    · rw [← i3, ← hdb]; rfl
    · rw [i6 id' hne]
      refine storedReceipts_congr ?_
      exact C10_isolated _ _ _ _ (by rw [show (Message.rctT r).subject.toStr = r.body.prefix.toStr from rfl, a1]; exact hne) _

/-- receipts name logged events of both sides -/
theorem stored_verified {env : Env} {as : List Action} {id : IdentifierPrefix} {l : List TReceipt} (h : storedReceipts id (after env as) = .ok l) (r : TReceipt)
    (hr : r ∈ l) : r.body.prefix.toStr = id.toStr ∧ (after env as).Verified env r := by
  unfold storedReceipts at h
  cases hg : (getReceiptsT sled id (after env as)).1 with
  | ok o =>
    rw [hg] at h
    cases o with
    | none => cases h; cases hr
    | some l' => cases h; exact C28_receipts_verified env as id _ r hg hr
  | err e => rw [hg] at h; cases h
  | panic => rw [hg] at h; cases h

theorem no_receipts_of_unknown {env : Env} {as : List Action} {id : IdentifierPrefix} {l : List TReceipt} (h : storedReceipts id (after env as) = .ok l)
    (hk : (after env as).kel id = []) : l = [] := by
  cases l with
  | nil => rfl
  | cons r l =>
    obtain ⟨h1, e, v, kc, bytes, h2, _⟩ := stored_verified h r (by simp)
    rw [kel_text _ h1, hk] at h2
    simp at h2

theorem no_receipts_by_unknown {env : Env} {as : List Action} {id p : IdentifierPrefix} {l : List TReceipt} (h : storedReceipts id (after env as) = .ok l)
    (hk : (after env as).kel p = []) (r : TReceipt) (hr : r ∈ l) : r.validatorSeal.prefix ≠ p := by
  intro hp
  obtain ⟨_, e, v, kc, bytes, _, h2, _⟩ := stored_verified h r hr
  rw [hp, hk] at h2
  simp at h2

theorem oneEach_of {env : Env} {id p : IdentifierPrefix} {l lv : List SignedEvent} {rs : List TReceipt} (hlen : rs.length = l.length)
    (h : ∀ j r, rs[j]? = some r → RctFor env id l p lv j r) : OneEach p l.length rs := by
  refine ⟨List.ext_getElem? fun j => ?_, fun r hr => ?_⟩
  · rw [List.getElem?_map]
    cases hj : rs[j]? with
    | none =>
      rw [List.getElem?_eq_none_iff] at hj
      rw [Option.map_none, eq_comm, List.getElem?_eq_none_iff, List.length_range]
      omega
    | some r =>
      have := (List.getElem?_eq_some_iff.1 hj).1
      rw [Option.map_some, (h j r hj).2.1, List.getElem?_range (by omega)]
  · obtain ⟨j, hj, rfl⟩ := List.mem_iff_getElem.1 hr
    exact (h j _ (List.getElem?_eq_getElem hj)).2.2.1

theorem Controller.Ready.portable {env : Env} {sg : SignFn} {c : Controller} {l : List SignedEvent} {s : IdState} (R : c.Ready env sg l s) :
    Portable env c.pre l := ⟨⟨s, R.log⟩, R.readable, R.plain, R.signed⟩

theorem Controller.Ready.first {env : Env} {sg : SignFn} {c : Controller} {l : List SignedEvent} {s : IdState} (R : c.Ready env sg l s) :
    ∃ e0 x, l[0]? = some e0 ∧ e0.data = .icp x ∧ e0.pre = c.pre := by
  cases l with
  | nil => exact absurd rfl R.nonempty
  | cons e es =>
    have h := (R.log.facts R.preNe).2.2 0 e rfl
    have hi := h.2.2.2 rfl
    have hd := R.plain e (by simp)
    have hp := h.2.1
    cases hx : e.data with
    | icp x => exact ⟨e, x, rfl, hx, by rw [hp, R.pre]⟩
    | dip x => rw [hx] at hd; cases hd
    | rot x => rw [hx] at hi; cases hi
    | drt x => rw [hx] at hi; cases hi
    | ixn x => rw [hx] at hi; cases hi

theorem Controller.Ready.events {env : Env} {sg : SignFn} {c : Controller} {l : List SignedEvent} {s : IdState} (R : c.Ready env sg l s) :
    ∀ e ∈ l, e.pre.Representable ∧ e.msg.info.kind = .json := by
  intro e he
  obtain ⟨j, hj, hej⟩ := List.mem_iff_getElem.1 he
  have h := (R.log.facts R.preNe).2.2 j e (by rw [List.getElem?_eq_getElem hj, hej])
  have hp := h.2.1
  rw [R.pre] at hp
  exact ⟨by rw [hp]; exact R.preOk.1, R.json e he⟩

/-! ## C73 -/

/-- C73: two started controllers that do not know each other, whose own logs are exportable and without seals, and whose receipt tables can be read, complete
the exchange the library is made for.  The first sends its log; the second answers with its own log and a receipt for each event; the first answers with a receipt for
each event of the second; the second has nothing left to say.  Nothing fails or crashes, and afterwards both have both logs, unchanged, and the same receipts by the
other side: exactly one for each event. -/
theorem C73_handshake (bin : Binary) (hbin : bin.RejectsJson) (env : Env) (hb : env.Blake3Size) (sg : SignFn) (a b : Controller) (dbA dbB : Db)
    (hA : Started env sg a dbA) (hB : Started env sg b dbB) (hne : a.pre ≠ b.pre)
    (hxA : ∀ e ∈ dbA.kel a.pre, e.Exportable ∧ e.data.seals = []) (hxB : ∀ e ∈ dbB.kel b.pre, e.Exportable ∧ e.data.seals = [])
    (hAB : dbA.kel b.pre = []) (hBA : dbB.kel a.pre = []) (ra rb x y : List TReceipt)
    (hra : storedReceipts a.pre dbA = .ok ra) (hrb : storedReceipts b.pre dbB = .ok rb)
    (hx : storedReceipts b.pre dbA = .ok x) (hy : storedReceipts a.pre dbB = .ok y) :
    ∃ (t1 t2 t3 : Bytes) (dbA0 dbA1 dbB1 dbB2 : Db) (byA byB : List TReceipt),
      getKerl sled a.pre dbA = (.ok (some t1), dbA0) ∧
      b.respond bin sled env sg t1 dbB = (.ok t2, dbB1) ∧
      a.respond bin sled env sg t2 dbA0 = (.ok t3, dbA1) ∧
      b.respond bin sled env sg t3 dbB1 = (.ok [], dbB2) ∧
      dbA1.kel a.pre = dbA.kel a.pre ∧ dbA1.kel b.pre = dbB.kel b.pre ∧ dbB2.kel a.pre = dbA.kel a.pre ∧ dbB2.kel b.pre = dbB.kel b.pre ∧
      OneEach b.pre (dbA.kel a.pre).length byB ∧ OneEach a.pre (dbB.kel b.pre).length byA ∧
      storedReceipts a.pre dbA1 = .ok (ra ++ byB) ∧ storedReceipts a.pre dbB2 = .ok byB ∧
      storedReceipts b.pre dbB2 = .ok (rb ++ byA) ∧ storedReceipts b.pre dbA1 = .ok byA := by
  obtain ⟨as, s, rfl, RA⟩ := started_ready hb hA
  obtain ⟨bs, s', rfl, RB⟩ := started_ready hb hB
  have hneq : a.pre.toStr ≠ b.pre.toStr := C10_other_text _ _ RA.preRt RB.preRt hne
  have hxe := no_receipts_of_unknown hx hAB
  have hye := no_receipts_of_unknown hy hBA
  subst hxe hye
  generalize hLA : (after env as).kel a.pre = LA at *
  generalize hLB : (after env bs).kel b.pre = LB at *
  have ka := RA.preNe
  have kb := RB.preNe
  -- the two logs as texts
  have chunk : ∀ (c : Controller) (l : List SignedEvent) (q : IdState), c.Ready env sg l q → (∀ e ∈ l, e.Exportable ∧ e.data.seals = []) →
      ∃ cs : List (Bytes × Message), kerlBytes l = .ok (cs.flatMap Prod.fst) ∧ cs.map Prod.snd = l.map .event ∧ ∀ c ∈ cs, ReadsAs bin c.1 c.2 :=
    fun c l q R hx => kerl_chunks bin l fun e he => ⟨(hx e he).1, (R.log.noSeal e he).1, (hx e he).2, R.plain e he⟩
  obtain ⟨csA, A1, A2, A3⟩ := chunk a LA s RA hxA
  obtain ⟨csB, B1, B2, B3⟩ := chunk b LB s' RB hxB
  obtain ⟨eA, xA, hA0, hAi, hAp⟩ := RA.first
  obtain ⟨eB, xB, hB0, hBi, hBp⟩ := RB.first
  -- A exports its log
  have hker := getKerl_after (env := env) (as := as) (id := a.pre) (by rw [hLA]; exact RA.readable) (by rw [hLA]; exact RA.nonempty) (by rw [hLA]; exact A1)
  have hlk : ∀ id' : IdentifierPrefix, (after env (as ++ [.lookup .kels a.pre])).kel id' = (after env as).kel id' := after_lookup_kel env as .kels a.pre
  have hlr : ∀ id' : IdentifierPrefix, storedReceipts id' (after env (as ++ [.lookup .kels a.pre])) = storedReceipts id' (after env as) := fun id' =>
    storedReceipts_congr (after_lookup_vec env as _ _ _ _)
  -- B takes it over and answers
  obtain ⟨ds1, p1, p2⟩ := chunks_parse bin hbin csA A3
  rw [A2] at p2
  obtain ⟨c1, c2, bs1, c3, c4, c5, c6⟩ := events_arrive ka RA.portable LA 0 (Nat.zero_le _) rfl bs hBA
  have kB1 : (after env bs1).kel b.pre = LB := by rw [c5 b.pre kb (fun h => hneq h.symm)]; exact hLB
  obtain ⟨byB, cs2, bs2, d1, d2, d3, d4, d5, d6, d7, d8⟩ := answers_log hbin hb a.pre ka LA LB RB RA.readable RA.events bs1 c4 kB1 []
    (by rw [c6]; exact hy) eA hA0 (csB.flatMap Prod.fst) _
    (ownKerl_unreceipted b eA hAi (by rw [c6]; exact hrb) (fun r hr _ => by rw [hAp]; exact no_receipts_by_unknown hrb hBA r hr)
      (by rw [kB1]; exact RB.readable) (by rw [kB1]; exact RB.nonempty) (by rw [kB1]; exact B1))
    (fun t x => by rw [after_lookup_vec, after_lookup_vec])
  have hresp1 := (respond_run bin env sg b _ ds1 [] _ p1 p2 (after env bs)).1 c1
  rw [c2, c3, d1] at hresp1
  -- A takes over the log of B and its receipts, and answers
  obtain ⟨ds2, q1, q2⟩ := chunks_parse bin hbin (csB ++ cs2) (by
    intro c hc
    rcases List.mem_append.1 hc with h | h
    · exact B3 c h
    · exact d3 c h)
  rw [List.map_append, B2, d2] at q2
  rw [List.flatMap_append] at q1
  obtain ⟨f1, f2, as1, f3, f4, f5, f6⟩ := events_arrive kb RB.portable LB 0 (Nat.zero_le _) rfl (as ++ [.lookup .kels a.pre]) (by rw [hlk]; exact hAB)
  have kA1 : (after env as1).kel a.pre = LA := by rw [f5 a.pre ka hneq, hlk]; exact hLA
  obtain ⟨g1, g2, as2, g3, g4, g5, g6⟩ := receipts_arrive ka kb RA.readable RB.readable byB (by
    intro r hr
    obtain ⟨j, hj, rfl⟩ := List.mem_iff_getElem.1 hr
    exact ⟨j, d5 j _ (List.getElem?_eq_getElem hj)⟩) as1 kA1 f4 ra (by rw [f6, hlr]; exact hra)
  obtain ⟨r0, hr0⟩ : ∃ r0, byB[0]? = some r0 := by
    have : 0 < byB.length := by rw [d4]; exact List.length_pos_iff.2 RA.nonempty
    exact ⟨_, List.getElem?_eq_getElem this⟩
  obtain ⟨_, r0sn, r0v, _⟩ := d5 0 r0 hr0
  obtain ⟨byA, cs3, as3, k1, k2, k3, k4, k5, k6, k7, k8⟩ := answers_log hbin hb b.pre kb LB LA RA RB.readable RB.events as2 (by rw [g4]; exact f4) (by rw [g4]; exact kA1) []
    (by rw [g6 b.pre (fun h => hneq h.symm), f6, hlr]; exact hx) eB hB0 [] _
    (ownKerl_receipted a eB hBi g5 r0 (List.mem_append_right _ (List.mem_of_getElem? hr0)) r0sn (by rw [r0v, hBp]))
    (fun t x => by rw [after_lookup_vec])
  have hresp2 := (respond_run bin env sg a _ ds2 [] (LB.map .event ++ byB.map .rctT) q1 (by rw [q2]) (after env (as ++ [.lookup .kels a.pre]))).1 (by
    rw [crashesOn_append, f3]
    exact fun h => h.elim f1 g1)
  rw [acceptedOf_append, f2, f3, g2, List.map_append, runHistory_append, f3, g3, answers_append k1 (answers_rcts env sg a byB _), List.append_nil, List.nil_append] at hresp2
  -- B takes over the receipts
  obtain ⟨ds3, u1, u2⟩ := chunks_parse bin hbin cs3 k3
  rw [k2] at u2
  obtain ⟨v1, v2, bs3, v3, v4, v5, v6⟩ := receipts_arrive kb ka RB.readable RA.readable byA (by
    intro r hr
    obtain ⟨j, hj, rfl⟩ := List.mem_iff_getElem.1 hr
    exact ⟨j, k5 j _ (List.getElem?_eq_getElem hj)⟩) bs2 (by rw [d6]; exact kB1) (by rw [d6]; exact c4) rb
    (by rw [d8 b.pre (fun h => hneq h.symm), c6]; exact hrb)
  have hresp3 := (respond_run bin env sg b _ ds3 [] _ u1 u2 (after env bs2)).1 v1
  rw [v2, v3, answers_rcts] at hresp3
  refine ⟨_, _, _, _, _, _, _, byA, byB, hker, hresp1, hresp2, hresp3, ?_, ?_, ?_, ?_, oneEach_of d4 d5, oneEach_of k4 k5, ?_, ?_, ?_, ?_⟩
  · rw [k6, g4]; exact kA1
  · rw [k6, g4]; exact f4
  · rw [v4, d6]; exact c4
  · rw [v4, d6]; exact kB1
  · rw [k8 a.pre hneq]; exact g5
  · rw [v6 a.pre hneq, d7]; rfl
  · exact v5
  · rw [k7]; rfl

/-! ### Examples -/

namespace Ex
/-- another key manager -/
def km2 : CryptoBox := ⟨kp 60, kp 61, fun n => kp (62 + UInt8.ofNat n)⟩
theorem km2_works : km2.Works env sg := ⟨kp_works _, kp_works _, fun _ => kp_works _⟩
/-- inception with a witness, in a database with other logs -/
def aliceIcp : Res SignedEvent × Controller × Db := ctl.inceptWith env sg [] [key 51] (after env hist)
/-- the calls of the first controller -/
def aliceCalls : List Call := [.rotate, .ixn none, .other .reprocess]
/-- the first controller, with its database -/
def alice : Controller × Db := runCalls env sg aliceIcp.2 aliceCalls
/-- another controller, inception with an additional key -/
def bobIcp : Res SignedEvent × Controller × Db := (Controller.new km2 (key 92, key 93)).inceptWith env sg [key 50] [] (after env [])
/-- the second controller, with its database -/
def bob : Controller × Db := runCalls env sg bobIcp.2 [.ixn none]

theorem started_of {c : Controller} {icp : Res SignedEvent × Controller × Db} {cs : List Call} {km : CryptoBox} {rnd : BasicPrefix × BasicPrefix} {as : List Action}
    {extra ws : List BasicPrefix} (hw : km.Works env sg) (hc : c = Controller.new km rnd) (hi : icp = c.inceptWith env sg extra ws (after env as))
    (hr : (match icp.1 with | .ok e => e.rt | _ => false) = true) (h1 : ∀ p, .interact p ∉ cs) (h2 : ∀ a, .other a ∈ cs → ∀ id, ¬ a.submitsFor id)
    (h3 : cs.countP Call.own ≤ u64max) : Started env sg (runCalls env sg icp.2 cs).1 (runCalls env sg icp.2 cs).2 := by
  subst hc hi
  rcases hx : (Controller.new km rnd).inceptWith env sg extra ws (after env as) with ⟨r, c0, db0⟩
  rw [hx] at hr
  cases r with
  | ok e => exact ⟨km, rnd, as, extra, ws, e, c0, db0, cs, hw, hx, hr, h1, fun a ha => h2 a ha _, h3, rfl⟩
  | err e => cases hr
  | panic => cases hr

theorem alice_started : Started env sg alice.1 alice.2 :=
  started_of km_works rfl (icp := aliceIcp) (extra := []) (ws := [key 51]) (as := hist) rfl (by decide +kernel) (by intro p h; simp [aliceCalls] at h)
    (by intro a h id; simp only [aliceCalls, List.mem_cons, reduceCtorEq, List.not_mem_nil, or_false, false_or, Call.other.injEq] at h; subst h; exact fun h => h)
    (by decide)

theorem bob_started : Started env sg bob.1 bob.2 :=
  started_of km2_works rfl (icp := bobIcp) (extra := [key 50]) (ws := []) (as := []) rfl (by decide +kernel) (by intro p h; simp at h)
    (by intro a h; simp at h) (by decide)
end Ex

section
private instance (p : BasicPrefix) : Decidable p.Sized := by unfold BasicPrefix.Sized; infer_instance
private instance (p : SelfSigningPrefix) : Decidable p.Sized := by unfold SelfSigningPrefix.Sized; infer_instance
private instance (p : SelfAddressingPrefix) : Decidable p.Sized := by unfold SelfAddressingPrefix.Sized; infer_instance
private instance (p : BasicPrefix) : Decidable p.Representable := by
  unfold BasicPrefix.Representable BasicPrefix.IsSecp; infer_instance
private instance (p : IdentifierPrefix) : Decidable p.Representable := by
  unfold IdentifierPrefix.Representable
  cases p <;> simp only [IdentifierPrefix.Sized, IdentifierPrefix.IsSecp] <;> first | infer_instance | (unfold BasicPrefix.IsSecp; infer_instance)
private instance (p : AttachedSignaturePrefix) : Decidable (SigOk p) := by unfold SigOk; infer_instance
private instance (l : List AttachedSignaturePrefix) : Decidable (SigsOk l) := by unfold SigsOk; infer_instance
private instance (s : Seal) : Decidable s.Representable := by cases s <;> simp only [Seal.Representable] <;> infer_instance
private noncomputable instance (f : Frac) : Decidable (IsWeight f) := Classical.propDecidable _
private noncomputable instance (t : Threshold) : Decidable t.Representable := by cases t <;> simp only [Threshold.Representable] <;> infer_instance
private noncomputable instance (k : KeyConfig) : Decidable k.Representable :=
  decidable_of_iff (k.threshold.Representable ∧ (∀ x ∈ k.publicKeys, x.Representable) ∧ ∀ n ∈ k.nextDigest.toList, n.Sized) (by
    unfold KeyConfig.Representable; simp only [Option.mem_toList, Option.mem_def])
private noncomputable instance (k : InceptionEvent) : Decidable k.Representable := by unfold InceptionEvent.Representable; infer_instance
private noncomputable instance (k : RotationEvent) : Decidable k.Representable := by unfold RotationEvent.Representable; infer_instance
private noncomputable instance (k : EventData) : Decidable k.Representable := by cases k <;> simp only [EventData.Representable] <;> infer_instance
private noncomputable instance (k : EventMessage) : Decidable k.Representable := by unfold EventMessage.Representable; infer_instance
private instance (k : Bytes) : Decidable (PlainTrait k) := by unfold PlainTrait; infer_instance
private noncomputable instance (k : SignedEvent) : Decidable k.Exportable := by unfold SignedEvent.Exportable; infer_instance

/-- `C73_handshake` applied: the controllers of the example, with three and two events, complete the exchange -/
example : ∃ (t1 t2 t3 : Bytes) (dbA0 dbA1 dbB1 dbB2 : Db) (byA byB : List TReceipt),
    getKerl sled Ex.alice.1.pre Ex.alice.2 = (.ok (some t1), dbA0) ∧ Ex.bob.1.respond Ex.noBin sled Ex.env Ex.sg t1 Ex.bob.2 = (.ok t2, dbB1) ∧
    Ex.alice.1.respond Ex.noBin sled Ex.env Ex.sg t2 dbA0 = (.ok t3, dbA1) ∧ Ex.bob.1.respond Ex.noBin sled Ex.env Ex.sg t3 dbB1 = (.ok [], dbB2) ∧
    OneEach Ex.bob.1.pre 3 byB ∧ OneEach Ex.alice.1.pre 2 byA ∧ storedReceipts Ex.alice.1.pre dbB2 = .ok byB ∧ storedReceipts Ex.bob.1.pre dbA1 = .ok byA := by
  have hA : (Ex.alice.2.kel Ex.alice.1.pre).length = 3 := by decide +kernel
  have hB : (Ex.bob.2.kel Ex.bob.1.pre).length = 2 := by decide +kernel
  obtain ⟨t1, t2, t3, dbA0, dbA1, dbB1, dbB2, byA, byB, h1, h2, h3, h4, _, _, _, _, h5, h6, _, h7, _, h8⟩ :=
    C73_handshake Ex.noBin (fun _ _ => ⟨rfl, rfl⟩) Ex.env Ex.blake3Size Ex.sg Ex.alice.1 Ex.bob.1 Ex.alice.2 Ex.bob.2 Ex.alice_started Ex.bob_started
      (by decide +kernel) (by decide +kernel) (by decide +kernel) (by decide +kernel) (by decide +kernel) [] [] [] [] (by decide +kernel) (by decide +kernel)
      (by decide +kernel) (by decide +kernel)
  rw [hA] at h5
  rw [hB] at h6
  exact ⟨t1, t2, t3, dbA0, dbA1, dbB1, dbB2, byA, byB, h1, h2, h3, h4, h5, h6, h7, h8⟩
end

end Keriox
