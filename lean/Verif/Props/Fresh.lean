import Verif.Props.Diary
/-!
# C73: the first contact of two new controllers, with hypotheses about their inputs only
-/
namespace Keriox

/-! ## Specification -/

/-- the arguments of `incept_with` are in order: at most 60 keys and witnesses, of the advertised lengths and of kinds whose texts can be read back -/
def GoodInception (extra ws : List BasicPrefix) : Prop :=
  (∀ k ∈ extra, k.Sized ∧ ¬ k.IsSecp) ∧ (∀ k ∈ ws, k.Sized ∧ ¬ k.IsSecp) ∧ extra.length + ws.length ≤ 60

/-- only rotations and interactions without payload -/
def Quiet (cs : List Call) : Prop := ∀ c ∈ cs, c = .rotate ∨ c = .ixn none

/-- a new controller on an empty database: its inception, and the calls after it -/
def newNode (env : Env) (sg : SignFn) (km : CryptoBox) (rnd : BasicPrefix × BasicPrefix) (extra ws : List BasicPrefix) (cs : List Call) : Controller × Db :=
  runCalls env sg ((Controller.new km rnd).inceptWith env sg extra ws Db.empty).2 cs

/-! ## Proof -/

theorem inceptionMsg_representable {env : Env} (hb : env.Blake3Size) {sg : SignFn} {km : CryptoBox} (hw : km.Works env sg) {extra ws : List BasicPrefix}
    (h : GoodInception extra ws) : (inceptionMsg env km extra ws).Representable := by
  obtain ⟨he, hws, hl⟩ := h
  have hrt := inceptionMsg_rt env hb sg km hw extra ws he hws hl
  obtain ⟨_, _, _, hdat, hsn, ⟨b, hdig⟩, _, hpok, _⟩ := inceptionMsg_facts env hb sg km hw extra ws
  have hinfo : (inceptionMsg env km extra ws).info.major ≤ 15 ∧ (inceptionMsg env km extra ws).info.minor ≤ 15 := by
    cases extra <;> exact ⟨show (1:Nat) ≤ 15 by omega, show (0:Nat) ≤ 15 by omega⟩
  refine ⟨hinfo.1, hinfo.2, ?_, by rw [hdig]; exact derive_sized hb _, hpok, by rw [hsn]; exact Nat.zero_le _, ?_⟩
  · unfold EventMessage.rt SerInfo.rt at hrt
    simp only [Bool.and_eq_true, decide_eq_true_eq] at hrt
    exact (C41_exact _ hinfo.1 hinfo.2).1 hrt.1.1.1.1
  · rw [hdat]
    refine ⟨⟨show (1:Nat) ≤ u64max by decide, ?_, ?_⟩, Nat.zero_le _, hws, by simp, by simp⟩
    · intro k hk
      rcases List.mem_cons.1 hk with rfl | hk
      · exact ed_representable hw.signer.size
      · exact he k hk
    · intro n hn
      have hn : km.commitment env = n := by simpa [CryptoBox.config] using hn
      subst hn
      exact commitment_sized hb _

theorem entries_quiet (km : CryptoBox) (cs : List Call) (h : Quiet cs) (env : Env) (d : SelfAddressingPrefix) :
    (entries km cs).length = cs.length ∧ ∀ x ∈ entries km cs, (x.1.data env d).seals = [] := by
  induction cs generalizing km with
  | nil => exact ⟨rfl, by simp [entries]⟩
  | cons c cs ih =>
    rcases h c (by simp) with rfl | rfl
    · obtain ⟨h1, h2⟩ := ih km.rotate (fun x hx => h x (by simp [hx]))
      refine ⟨by simp [entries, h1], fun x hx => ?_⟩
      rcases List.mem_cons.1 hx with rfl | hx
      · rfl
      · exact h2 x hx
    · obtain ⟨h1, h2⟩ := ih km (fun x hx => h x (by simp [hx]))
      refine ⟨by simp [entries, h1], fun x hx => ?_⟩
      rcases List.mem_cons.1 hx with rfl | hx
      · rfl
      · exact h2 x hx

/-- nothing but the own log is written -/
structure OnlyOwn (pre : IdentifierPrefix) (db db' : Db) : Prop where
  kels : ∀ id : IdentifierPrefix, id.toStr ≠ [] → id.toStr ≠ pre.toStr → db'.kel id = db.kel id
  receipts : ∀ id : IdentifierPrefix, storedReceipts id db' = storedReceipts id db

theorem onlyOwn_submit (env : Env) (as : List Action) (e : SignedEvent) (pre : IdentifierPrefix) (h : e.pre.toStr = pre.toStr) :
    OnlyOwn pre (after env as) (after env (as ++ [.submit (.event e)])) := by
  refine ⟨fun id h0 h1 => other_kel env as _ id h0 ?_, fun id => storedReceipts_congr ?_⟩
  · show ¬ e.pre.toStr = id.toStr
    rw [h]; exact fun h => h1 h.symm
  · rcases receipt_tables_after env as (.submit (.event e)) .vrcs trivial id.toStr with h | ⟨⟨m, h, ⟨r, h2⟩ | ⟨r, h2⟩⟩, _⟩
    · exact h
    · subst h2; cases h
    · subst h2; cases h

theorem OnlyOwn.trans {pre : IdentifierPrefix} {a b c : Db} (h : OnlyOwn pre a b) (h' : OnlyOwn pre b c) : OnlyOwn pre a c :=
  ⟨fun id h0 h1 => (h'.kels id h0 h1).trans (h.kels id h0 h1), fun id => (h'.receipts id).trans (h.receipts id)⟩

theorem onlyOwn_call (env : Env) (as : List Action) (e : SignedEvent) (pre : IdentifierPrefix) (h : e.pre.toStr = pre.toStr) :
    OnlyOwn pre (after env as) (after env (as ++ [.lookup .kels pre, .submit (.event e)])) := by
  rw [show as ++ [Action.lookup .kels pre, .submit (.event e)] = (as ++ [.lookup .kels pre]) ++ [.submit (.event e)] by simp]
  refine OnlyOwn.trans ⟨fun id _ _ => after_lookup_kel env as .kels pre id, fun id => storedReceipts_congr (after_lookup_vec env as _ _ _ _)⟩ ?_
  exact onlyOwn_submit env _ e pre h

theorem quiet_calls {env : Env} {sg : SignFn} {c : Controller} {as : List Action} {s : IdState} (hb : env.Blake3Size)
    (R : c.Ready env sg ((after env as).kel c.pre) s) (hs : s.sn = 0) (cs : List Call) (hq : Quiet cs) (hn : cs.length ≤ u64max) :
    ∃ c' as' s', runCalls env sg (c, after env as) cs = (c', after env as') ∧ c'.pre = c.pre ∧
      c'.Ready env sg ((after env as').kel c'.pre) s' ∧ s'.sn = cs.length ∧ OnlyOwn c.pre (after env as) (after env as') := by
  induction cs using snoc_induction with
  | h0 => exact ⟨c, as, s, rfl, rfl, R, hs, fun _ _ _ => rfl, fun _ => rfl⟩
  | h1 cs call ih =>
    rw [List.length_append, List.length_singleton] at hn
    obtain ⟨c', as', s', h1, h2, h3, h4, h5⟩ := ih (fun x hx => hq x (by simp [hx])) (by omega)
    have mine : ∀ (c'' : Controller) (l : List SignedEvent) (n : IdState) (e : SignedEvent), c''.Ready env sg (l ++ [e]) n → c''.pre = c.pre → e.pre.toStr = c.pre.toStr := by
      intro c'' l n e h h'
      rw [← h']
      exact (h.log.noSeal e (by simp)).2
    have hrun : runCalls env sg (c, after env as) (cs ++ [call]) = (call.run env sg (c', after env as')).2 := by rw [runCalls_snoc, h1]
    rw [hrun, List.length_append, List.length_singleton]
    rcases hq call (by simp) with rfl | rfl
    · obtain ⟨e, new, g1, g2, g3⟩ := h3.rotate hb (by rw [h4]; omega)
      have hr : Call.rotate.run env sg (c', after env as') = (some (.ok e), { c' with km := c'.km.rotate }, after env (as' ++ [.lookup .kels c'.pre, .submit (.event e)])) := by
        simp only [Call.run, g1]
      obtain ⟨ev, bs, k1, _, k3, _⟩ := ready_rotate_says hb h3 (by rw [h4]; omega)
      rw [g1] at k1
      simp only [Prod.mk.injEq, Res.ok.injEq, true_and] at k1
      obtain ⟨k1, k4⟩ := k1
      subst k1
      rw [← k4] at k3
      have he : e.pre.toStr = c.pre.toStr := mine { c' with km := c'.km.rotate } _ new e (by rw [k3] at g2; exact g2) h2
      refine ⟨{ c' with km := c'.km.rotate }, as' ++ [.lookup .kels c'.pre, .submit (.event e)], new, by rw [hr], h2, g2, by rw [g3, h4], h5.trans (by rw [h2]; exact onlyOwn_call env as' e c.pre he)⟩
    · obtain ⟨e, new, g1, g2, g3⟩ := h3.ixn hb (by rw [h4]; omega) none
      have hr : (Call.ixn none).run env sg (c', after env as') = (some (.ok e), c', after env (as' ++ [.lookup .kels c'.pre, .submit (.event e)])) := by
        simp only [Call.run, g1]
      obtain ⟨ev, bs, k1, _, k3, _⟩ := ready_ixn_says hb h3 (by rw [h4]; omega) none
      rw [g1] at k1
      simp only [Prod.mk.injEq, Res.ok.injEq] at k1
      obtain ⟨k1, k4⟩ := k1
      subst k1
      rw [← k4] at k3
      have he : e.pre.toStr = c.pre.toStr := mine _ _ new e (by rw [k3] at g2; exact g2) h2
      refine ⟨c', as' ++ [.lookup .kels c'.pre, .submit (.event e)], new, by rw [hr], h2, g2, by rw [g3, h4], h5.trans (by rw [h2]; exact onlyOwn_call env as' e c.pre he)⟩

/-- everything `C73_handshake` asks of one side -/
theorem newNode_facts {env : Env} (hb : env.Blake3Size) {sg : SignFn} {km : CryptoBox} (hw : km.Works env sg) (rnd : BasicPrefix × BasicPrefix)
    {extra ws : List BasicPrefix} (hg : GoodInception extra ws) {cs : List Call} (hq : Quiet cs) (hn : cs.length ≤ u64max) :
    let n := newNode env sg km rnd extra ws cs
    Started env sg n.1 n.2 ∧ (∀ e ∈ n.2.kel n.1.pre, e.Exportable ∧ e.data.seals = []) ∧ (n.2.kel n.1.pre).length = cs.length + 1 ∧
    (∀ id : IdentifierPrefix, id.toStr ≠ [] → id.toStr ≠ n.1.pre.toStr → n.2.kel id = []) ∧ (∀ id : IdentifierPrefix, storedReceipts id n.2 = .ok []) ∧
    n.1.pre.toStr ≠ [] ∧ n.1.pre.rt = true := by
  obtain ⟨e, c0, db0, hin, hrt⟩ := C51_incept_succeeds env hb sg km hw rnd [] extra ws hg.1 hg.2.1 hg.2.2 (fun _ _ => rfl)
  have hni : ∀ p, Call.interact p ∉ cs := fun p hp => by rcases hq _ hp with h | h <;> cases h
  have hno : ∀ a, Call.other a ∉ cs := fun a ha => by rcases hq _ ha with h | h <;> cases h
  have hown : cs.countP Call.own ≤ u64max := Nat.le_trans (List.countP_le_length) hn
  have hD := C89_diary env hb sg km hw rnd [] extra ws e c0 db0 hin hrt cs hni (fun a ha => absurd ha (hno a)) hown
  obtain ⟨hdb, hpre, _, s, R, hs⟩ := incept_ready hb hw hin hrt
  subst hdb
  obtain ⟨c, as', s', g1, g2, g3, g4, g5⟩ := quiet_calls hb R hs cs hq hn
  have hnode : newNode env sg km rnd extra ws cs = (c, after env as') := by
    unfold newNode
    have : (Controller.new km rnd).inceptWith env sg extra ws Db.empty = (.ok e, c0, after env ([] ++ [.submit (.event e)])) := hin
    rw [this]
    exact g1
  rw [g1] at hD
  obtain ⟨d1, ⟨d2, b, sg', d3, d4, d5, d6⟩, d7, d8⟩ := hD
  have hlen := entries_quiet km cs hq env ⟨.blake3_256, []⟩
  have h0 := onlyOwn_submit env [] e c0.pre (by rw [hpre])
  have hwhole := h0.trans g5
  rw [hnode]
  refine ⟨⟨km, rnd, [], extra, ws, e, c0, _, cs, hw, hin, hrt, hni, fun a ha => absurd ha (hno a), hown, g1⟩, ?_, ?_, ?_, ?_, g3.preNe, g3.preRt⟩
  · show ∀ x ∈ (after env as').kel c.pre, _
    rw [g2]
    intro x hx
    obtain ⟨i, hi⟩ := List.getElem?_of_mem hx
    cases i with
    | zero =>
      have hx' : x = e := by
        have : ((after env as').kel c0.pre)[0]? = some e := by rw [d1]; rfl
        rw [this] at hi
        exact (Option.some.inj hi).symm
      subst hx'
      have hm : x.msg = inceptionMsg env km extra ws := by
        have h1 := congrArg Prod.fst hin
        change (submitOwn sled env ((Controller.new km rnd).makeInception env extra ws >>= (Controller.new km rnd).signEvent env sg) (after env [])).1 = .ok x at h1
        rw [makeInception_eq] at h1
        obtain ⟨k1, _⟩ := submitOwn_ok h1
        exact (signEvent_by k1).1
      have hdat : x.data = .icp ⟨⟨.simple 1, km.key :: extra, some (KeyConfig.nxtCommitment env (.simple 1) [km.nextKey] .blake3_256)⟩, 0, ws, [], []⟩ := by
        show x.msg.event.content.data = _
        rw [d2]
      have hss : sg'.length = 64 := by
        obtain ⟨sig, k1, k2, _⟩ := hw.signer.signs b
        rw [k1] at d4
        cases d4
        exact k2
      refine ⟨⟨by rw [hm]; exact inceptionMsg_representable hb hw hg, ?_, by rw [hdat]; intro t ht; cases ht⟩, by rw [hdat]; rfl⟩
      rw [d5]
      exact own_sigsOk hss
    | succ i =>
      have hlt : i < (entries km cs).length := by
        have := (List.getElem?_eq_some_iff.1 hi).1
        rw [d1, List.length_cons, d7] at this
        omega
      obtain ⟨before, ev, k1, k2, k3, k4⟩ := d8 i (entries km cs)[i].1 (entries km cs)[i].2 (List.getElem?_eq_getElem hlt)
      change ((after env as').kel c0.pre)[i + 1]? = some ev at k2
      rw [k2] at hi
      have hi := Option.some.inj hi
      subst hi
      have hseal := (entries_quiet km cs hq env before.dig).2 _ (List.getElem_mem hlt)
      have hdat : ev.data = (entries km cs)[i].1.data env before.dig := by
        show ev.msg.event.content.data = _
        rw [k3]
      refine ⟨?_, by rw [hdat]; exact hseal⟩
      refine g3.later ev (by rw [g2]; exact hx) ?_
      rw [hdat]
      cases (entries km cs)[i].1 with
      | rotation a b => rfl
      | interaction p => cases p <;> rfl
  · show ((after env as').kel c.pre).length = _
    have d1' : (after env as').kel c0.pre = e :: returned env sg (c0, after env ([] ++ [.submit (.event e)])) cs := d1
    rw [g2, d1', List.length_cons, d7, hlen.1]
  · intro id h1 h2
    show (after env as').kel id = []
    rw [hwhole.kels id h1 (by rw [← g2]; exact h2)]
    rfl
  · intro id
    show storedReceipts id (after env as') = _
    rw [hwhole.receipts id]
    rfl

/-- C73, with hypotheses about the inputs only: two new controllers, each on an empty database of its own, are incepted with any admissible keys and witnesses and
then rotate and interact as often as they like.  Then they complete the exchange the library is made for: the first sends its log; the second answers with its own
log and a receipt for each event; the first answers with a receipt for each event of the second; the second has nothing left to say.  Nothing fails or crashes;
afterwards both have both logs, one event for the inception and one for each call, and both have exactly one receipt by the other side for each event of a log and no
other receipt. -/
theorem C73_fresh (bin : Binary) (hbin : bin.RejectsJson) (env : Env) (hb : env.Blake3Size) (sg : SignFn) (kmA kmB : CryptoBox)
    (hwA : kmA.Works env sg) (hwB : kmB.Works env sg) (rndA rndB : BasicPrefix × BasicPrefix) (extraA wsA extraB wsB : List BasicPrefix)
    (hgA : GoodInception extraA wsA) (hgB : GoodInception extraB wsB) (callsA callsB : List Call) (hqA : Quiet callsA) (hqB : Quiet callsB)
    (hnA : callsA.length ≤ u64max) (hnB : callsB.length ≤ u64max) (a b : Controller) (dbA dbB : Db)
    (hA : newNode env sg kmA rndA extraA wsA callsA = (a, dbA)) (hB : newNode env sg kmB rndB extraB wsB callsB = (b, dbB)) (hne : a.pre ≠ b.pre) :
    ∃ (t1 t2 t3 : Bytes) (dbA0 dbA1 dbB1 dbB2 : Db) (byA byB : List TReceipt),
      getKerl sled a.pre dbA = (.ok (some t1), dbA0) ∧
      b.respond bin sled env sg t1 dbB = (.ok t2, dbB1) ∧
      a.respond bin sled env sg t2 dbA0 = (.ok t3, dbA1) ∧
      b.respond bin sled env sg t3 dbB1 = (.ok [], dbB2) ∧
      dbA1.kel a.pre = dbA.kel a.pre ∧ dbA1.kel b.pre = dbB.kel b.pre ∧ dbB2.kel a.pre = dbA.kel a.pre ∧ dbB2.kel b.pre = dbB.kel b.pre ∧
      (dbA.kel a.pre).length = callsA.length + 1 ∧ (dbB.kel b.pre).length = callsB.length + 1 ∧
      OneEach b.pre (callsA.length + 1) byB ∧ OneEach a.pre (callsB.length + 1) byA ∧
      storedReceipts a.pre dbA1 = .ok byB ∧ storedReceipts a.pre dbB2 = .ok byB ∧
      storedReceipts b.pre dbB2 = .ok byA ∧ storedReceipts b.pre dbA1 = .ok byA := by
  have FA := newNode_facts hb hwA rndA hgA hqA hnA
  have FB := newNode_facts hb hwB rndB hgB hqB hnB
  rw [hA] at FA
  rw [hB] at FB
  obtain ⟨a1, a2, a3, a4, a5, a6, a7⟩ := FA
  obtain ⟨b1, b2, b3, b4, b5, b6, b7⟩ := FB
  have hneq : a.pre.toStr ≠ b.pre.toStr := C10_other_text _ _ a7 b7 hne
  obtain ⟨t1, t2, t3, dbA0, dbA1, dbB1, dbB2, byA, byB, h1, h2, h3, h4, h5, h6, h7, h8, h9, h10, h11, h12, h13, h14⟩ :=
    C73_handshake bin hbin env hb sg a b dbA dbB a1 b1 hne a2 b2 (a4 _ b6 (fun h => hneq h.symm)) (b4 _ a6 hneq) [] [] [] [] (a5 _) (b5 _) (a5 _) (b5 _)
  exact ⟨t1, t2, t3, dbA0, dbA1, dbB1, dbB2, byA, byB, h1, h2, h3, h4, h5, h6, h7, h8, a3, b3, by rw [← a3]; exact h9, by rw [← b3]; exact h10,
    h11, h12, h13, h14⟩

/-- C73_fresh: a controller with a witness that rotates and interacts meets one with an additional key that interacts twice -/
example : ∃ (t1 t2 t3 : Bytes) (dbA0 dbA1 dbB1 dbB2 : Db) (byA byB : List TReceipt),
    let a := newNode Ex.env Ex.sg Ex.km (Ex.key 90, Ex.key 91) [] [Ex.key 51] [.rotate, .ixn none]
    let b := newNode Ex.env Ex.sg Ex.km2 (Ex.key 92, Ex.key 93) [Ex.key 50] [] [.ixn none, .rotate, .ixn none]
    getKerl sled a.1.pre a.2 = (.ok (some t1), dbA0) ∧ b.1.respond Ex.noBin sled Ex.env Ex.sg t1 b.2 = (.ok t2, dbB1) ∧
    a.1.respond Ex.noBin sled Ex.env Ex.sg t2 dbA0 = (.ok t3, dbA1) ∧ b.1.respond Ex.noBin sled Ex.env Ex.sg t3 dbB1 = (.ok [], dbB2) ∧
    OneEach b.1.pre 3 byB ∧ OneEach a.1.pre 4 byA ∧ storedReceipts a.1.pre dbB2 = .ok byB ∧ storedReceipts b.1.pre dbA1 = .ok byA := by
  have good : ∀ n, ∀ k ∈ [Ex.key n], k.Sized ∧ ¬ k.IsSecp := by
    intro n k hk
    rw [List.mem_singleton] at hk
    subst hk
    exact ⟨rfl, by intro h; rcases h with h | h <;> cases h⟩
  obtain ⟨t1, t2, t3, dbA0, dbA1, dbB1, dbB2, byA, byB, h1, h2, h3, h4, _, _, _, _, _, _, h5, h6, _, h7, _, h8⟩ :=
    C73_fresh Ex.noBin (fun _ _ => ⟨rfl, rfl⟩) Ex.env Ex.blake3Size Ex.sg Ex.km Ex.km2 Ex.km_works Ex.km2_works (Ex.key 90, Ex.key 91) (Ex.key 92, Ex.key 93)
      [] [Ex.key 51] [Ex.key 50] [] ⟨by simp, good 51, by decide⟩ ⟨good 50, by simp, by decide⟩ [.rotate, .ixn none] [.ixn none, .rotate, .ixn none]
      (by intro c hc; simpa using hc) (by intro c hc; rcases List.mem_cons.1 hc with rfl | hc; exact .inr rfl; simpa using hc) (by decide) (by decide) _ _ _ _ rfl rfl (by decide +kernel)
  exact ⟨t1, t2, t3, dbA0, dbA1, dbB1, dbB2, byA, byB, h1, h2, h3, h4, h5, h6, h7, h8⟩

end Keriox
