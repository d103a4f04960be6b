import Verif.Props.Local
import Verif.Props.Answers
/-!
# C102: handing on a log by its export
-/
namespace Keriox

/-! ## Specification -/

/-- the events, from the `k`-th on, up to the first one that carries a seal or is delegated -/
def handedOn (l : List SignedEvent) (k : Nat) : List SignedEvent :=
  ((l.takeWhile SignedEvent.noSeals).drop k).takeWhile fun e => !e.data.isDelegated

/-! ## Proof -/

/-- a computation on reachable databases that changes no log -/
def LeavesLogs {α : Type} (env : Env) (x : StM Db α) : Prop :=
  ∀ as, ∃ as', (x (after env as)).2 = after env as' ∧ ∀ id : IdentifierPrefix, (after env as').kel id = (after env as).kel id

namespace LeavesLogs
variable {α β : Type} {env : Env}
theorem lift (r : Res α) : LeavesLogs env (StM.lift r) := fun as => ⟨as, rfl, fun _ => rfl⟩
theorem pure (a : α) : LeavesLogs env (Pure.pure a : StM Db α) := fun as => ⟨as, rfl, fun _ => rfl⟩
theorem bind {x : StM Db α} {f : α → StM Db β} (hx : LeavesLogs env x) (hf : ∀ a, LeavesLogs env (f a)) : LeavesLogs env (x >>= f) := by
  intro as
  obtain ⟨as1, h1, h2⟩ := hx as
  rw [StM.bind_run]
  rcases hr : x (after env as) with ⟨r, db⟩
  rw [hr] at h1
  dsimp only at h1
  subst h1
  cases r with
  | ok a =>
    obtain ⟨as2, h3, h4⟩ := hf a as1
    exact ⟨as2, h3, fun id => (h4 id).trans (h2 id)⟩
  | err e => exact ⟨as1, rfl, h2⟩
  | panic => exact ⟨as1, rfl, h2⟩
theorem result {x : StM Db α} (hx : LeavesLogs env x) : LeavesLogs env x.result := by
  intro as
  obtain ⟨as1, h1, h2⟩ := hx as
  refine ⟨as1, ?_, h2⟩
  rw [← h1]
  unfold StM.result
  rcases x (after env as) with ⟨r, db⟩
  cases r <;> rfl
theorem read (t : Tbl) (id : IdentifierPrefix) : LeavesLogs env (sled.read t id) := fun as =>
  ⟨as ++ [.lookup t id], (after_other env as (.lookup t id)).symm ▸ rfl, fun _ => after_lookup_kel ..⟩
theorem submit (m : Message) (h : (Action.submit m).isEvent = false) : LeavesLogs env (process sled env m) := fun as =>
  ⟨as ++ [.submit m], (after_other env as (.submit m)).symm ▸ rfl, fun id => nonevent_kel env as _ h id⟩
end LeavesLogs

theorem answer_leaves (env : Env) (sg : SignFn) (c : Controller) (m : Message) : LeavesLogs env (c.answer sled env sg m) := by
  cases m with
  | event e =>
    refine .bind ?_ fun _ => .bind ?_ fun _ => .bind (.lift _) fun _ => .pure _
    · unfold Controller.ownKerl
      split
      · refine .bind ?_ fun b => ?_
        · refine .bind (.read _ _) fun o => ?_
          cases o <;> exact .pure _
        · cases b
          · refine .bind ?_ fun o => ?_
            · refine .bind (.read _ _) fun o => ?_
              cases o
              · exact .pure _
              · exact .bind (.lift _) fun _ => .pure _
            · cases o
              · exact .lift _
              · exact .pure _
          · exact .pure _
      · exact .pure _
    · refine .bind (.lift _) fun _ => .bind (.lift _) fun _ => .bind ?_ fun o => ?_
      · refine .bind (.read _ _) fun o => ?_
        cases o
        · exact .pure _
        · exact .bind (.lift _) fun _ => .pure _
      · cases o
        · exact .lift _
        · exact .bind (.lift _) fun _ => .bind (.submit _ rfl) fun _ => .pure _
  | rctT r => exact .pure _
  | rctNt r => exact .lift _
  | reply r => exact .lift _
  | query q => exact .lift _

/-- answering changes no log, whatever is answered and however it ends -/
theorem answers_leave (env : Env) (sg : SignFn) (c : Controller) (ms : List Message) : LeavesLogs env (c.answers sled env sg ms) := by
  induction ms with
  | nil => exact .pure _
  | cons m ms ih =>
    refine .bind (answer_leaves env sg c m).result fun r => .bind ih fun b => ?_
    cases r <;> exact .pure _

/-- how far a copy of `k` events gets when the events `es`, which start at position `j`, arrive -/
def gains : Nat → Nat → List SignedEvent → Nat
  | k, _, [] => k
  | k, j, e :: es => if j = k ∧ e.data.isDelegated = false then gains (k + 1) (j + 1) es else gains k (j + 1) es

theorem gains_past (k j : Nat) (es : List SignedEvent) (h : k < j) : gains k j es = k := by
  induction es generalizing j with
  | nil => rfl
  | cons e es ih =>
    rw [gains, if_neg (fun hh => by omega)]
    exact ih (j + 1) (by omega)

theorem gains_eq (k j : Nat) (es : List SignedEvent) (h : j ≤ k) :
    gains k j es = k + ((es.drop (k - j)).takeWhile fun e => !e.data.isDelegated).length := by
  induction es generalizing j k with
  | nil => simp [gains]
  | cons e es ih =>
    rw [gains]
    by_cases hjk : j = k
    · subst hjk
      simp only [Nat.sub_self, List.drop_zero, List.takeWhile_cons]
      cases hd : e.data.isDelegated with
      | true =>
        rw [if_neg (by simp)]
        simp [gains_past]
      | false =>
        rw [if_pos ⟨trivial, rfl⟩, ih (j + 1) (j + 1) (Nat.le_refl _)]
        simp
        omega
    · rw [if_neg (fun hh => hjk hh.1), ih k (j + 1) (by omega)]
      have : k - j = (k - (j + 1)) + 1 := by omega
      rw [this, List.drop_succ_cons]

theorem import_pass {env : Env} {id : IdentifierPrefix} (hid : id.toStr ≠ []) {l : List SignedEvent} (hlog : ∃ s, Log env id.toStr l s)
    (hread : Readable l) (hsigned : ∀ i, i < l.length → SignedInForce env l i) (es : List SignedEvent) (j : Nat)
    (hes : ∀ i e, es[i]? = some e → l[j + i]? = some e) (ds : List SignedEventData)
    (hds : ds.map SignedEventData.toMessage = es.map reimported) (bs : List Action) (k : Nat) (hk : k ≤ l.length)
    (hb : (after env bs).kel id = l.take k) :
    ∃ ms bs', respondAll sled env ds (after env bs) = (.ok ms, after env bs') ∧ gains k j es ≤ l.length ∧
      (after env bs').kel id = l.take (gains k j es) := by
  induction es generalizing ds bs k j with
  | nil =>
    cases ds with
    | nil => exact ⟨[], bs, rfl, hk, hb⟩
    | cons d ds => cases hds
  | cons e es ih =>
    cases ds with
    | nil => cases hds
    | cons d ds =>
      simp only [List.map_cons, List.cons.injEq] at hds
      have hes' : ∀ i x, es[i]? = some x → l[j + 1 + i]? = some x := by
        intro i x hx
        have := hes (i + 1) x (by simpa using hx)
        rw [show j + 1 + i = j + (i + 1) by omega]; exact this
      have hej := hes 0 e (by simp)
      rw [Nat.add_zero] at hej
      cases hdel : e.data.isDelegated with
      | true =>
        have hone : respondOne sled env d (after env bs) = (.err (.semantic "Missing attachment"), after env bs) := by
          unfold respondOne
          rw [hds.1]
          simp only [reimported, hdel]
          rfl
        obtain ⟨ms, bs', h1, h2, h3⟩ := ih (j + 1) hes' ds hds.2 bs k hk hb
        have hg : gains k j (e :: es) = gains k (j + 1) es := by rw [gains, if_neg (by rw [hdel]; simp)]
        rw [hg]
        exact ⟨ms, bs', StM.bind_ok (StM.result_err hone) (StM.bind_ok h1 rfl), h2, h3⟩
      | false =>
        have hone := respondOne_run env d (.event e) (by rw [hds.1]; simp [reimported, hdel]) (after env bs)
        obtain ⟨s1, s2⟩ := sync_plain hid hlog hread hsigned bs k hk hb j e hej hdel
        have hp2 : (process sled env (.event e) (after env bs)).2 = after env (bs ++ [.submit (.event e)]) := (after_snoc env bs _).symm
        rcases hp : process sled env (.event e) (after env bs) with ⟨r, db⟩
        rw [hp] at s1 s2 hone hp2
        dsimp only at hp2
        subst hp2
        by_cases hjk : j = k
        · obtain ⟨st, h1, h2, h3⟩ := s1 hjk
          dsimp only at h1
          subst h1
          have hlt : j < l.length := (List.getElem?_eq_some_iff.1 hej).1
          obtain ⟨ms, bs', g1, g2, g3⟩ := ih (j + 1) hes' ds hds.2 _ (k + 1) (by omega) h3
          have hg : gains k j (e :: es) = gains (k + 1) (j + 1) es := by rw [gains, if_pos ⟨hjk, hdel⟩]
          rw [hg]
          exact ⟨.event e :: ms, bs', StM.bind_ok (StM.result_ok hone) (StM.bind_ok g1 rfl), g2, g3⟩
        · obtain ⟨⟨er, h1⟩, h2⟩ := s2 hjk
          dsimp only at h1
          subst h1
          obtain ⟨ms, bs', g1, g2, g3⟩ := ih (j + 1) hes' ds hds.2 _ k hk (by
            unfold Db.kel at hb ⊢; rw [h2]; exact hb)
          have hg : gains k j (e :: es) = gains k (j + 1) es := by rw [gains, if_neg (fun h => hjk h.1)]
          rw [hg]
          exact ⟨ms, bs', StM.bind_ok (StM.result_err hone) (StM.bind_ok g1 rfl), g2, g3⟩

/-! ## C102 -/

/-- C102: a node that has the first `k` events of a log (possibly none) and is given the export of the log by another node gains exactly
the events from the `k`-th on up to the first one that carries a seal or is delegated — whatever its own identity, and also if the answer fails. -/
theorem C102_handed_on (env : Env) (as bs : List Action) (id : IdentifierPrefix) (hid : id.toStr ≠ []) (bin : Binary) (hb : bin.RejectsJson)
    (hne : (after env as).kel id ≠ []) (hx : ∀ e ∈ (after env as).kel id, e.Exportable)
    (hsig : ∀ i, i < ((after env as).kel id).length → SignedInForce env ((after env as).kel id) i)
    (k : Nat) (hk : k ≤ ((after env as).kel id).length) (hcopy : (after env bs).kel id = ((after env as).kel id).take k)
    (sg : SignFn) (c : Controller) :
    ∃ b, (getKerl sled id (after env as)).1 = .ok (some b) ∧
      (c.respond bin sled env sg b (after env bs)).2.kel id = ((after env as).kel id).take k ++ handedOn ((after env as).kel id) k := by
  obtain ⟨b, rest, ds, h1, h2, h3, _⟩ := C45_exported env as id hid bin hb hne hx
  refine ⟨b, h1, ?_⟩
  obtain ⟨s, hl⟩ := after_log env as id hid
  have hread : Readable ((after env as).kel id) := fun e he => rt_of_exportable (hx e he)
  generalize (after env as).kel id = l at *
  have hpre : l.takeWhile SignedEvent.noSeals <+: l := List.takeWhile_prefix _
  obtain ⟨ms, bs', g1, g2, g3⟩ := import_pass hid ⟨s, hl⟩ hread hsig (l.takeWhile SignedEvent.noSeals) 0 (by
    intro i e he
    obtain ⟨t, ht⟩ := hpre
    rw [Nat.zero_add, ← ht]
    have hi : i < (l.takeWhile SignedEvent.noSeals).length := (List.getElem?_eq_some_iff.1 he).1
    rw [List.getElem?_append_left hi]
    exact he) ds h3 bs k hk hcopy
  obtain ⟨bs'', a1, a2⟩ := answers_leave env sg c ms bs'
  rw [respond_parsed bin env sg c b ds rest h2]
  have : (respondAll sled env ds >>= fun ms => c.answers sled env sg ms) (after env bs) = c.answers sled env sg ms (after env bs') :=
    StM.bind_ok g1 rfl
  rw [this, a1, a2, g3, gains_eq k 0 _ (Nat.zero_le _), Nat.sub_zero]
  -- the events handed on are the next ones of the log
  obtain ⟨t, ht⟩ := hpre
  show l.take (k + (handedOn l k).length) = l.take k ++ handedOn l k
  have hsub : handedOn l k <+: l.drop k := by
    unfold handedOn
    refine (List.takeWhile_prefix _).trans ?_
    conv => rhs; rw [← ht]
    rw [List.drop_append]
    exact List.prefix_append _ _
  rw [List.take_add]
  congr 1
  exact (List.prefix_iff_eq_take.1 hsub).symm

/-- C102: so the export of a log without seals and without delegated events hands on the whole log … -/
theorem C102_plain (env : Env) (as bs : List Action) (id : IdentifierPrefix) (hid : id.toStr ≠ []) (bin : Binary) (hb : bin.RejectsJson)
    (hne : (after env as).kel id ≠ [])
    (hx : ∀ e ∈ (after env as).kel id, e.Exportable ∧ e.data.seals = [] ∧ e.data.isDelegated = false)
    (hsig : ∀ i, i < ((after env as).kel id).length → SignedInForce env ((after env as).kel id) i)
    (hcopy : (after env bs).kel id <+: (after env as).kel id) (sg : SignFn) (c : Controller) :
    ∃ b, (getKerl sled id (after env as)).1 = .ok (some b) ∧
      (c.respond bin sled env sg b (after env bs)).2.kel id = (after env as).kel id := by
  have hk := hcopy.length_le
  obtain ⟨b, h1, h2⟩ := C102_handed_on env as bs id hid bin hb hne (fun e he => (hx e he).1) hsig _ hk (List.prefix_iff_eq_take.1 hcopy) sg c
  refine ⟨b, h1, ?_⟩
  rw [h2]
  generalize (after env as).kel id = l at *
  have hA : l.takeWhile SignedEvent.noSeals = l := by
    rw [takeWhile_all]
    exact fun e he => by rw [SignedEvent.noSeals, (hx e he).2.1]; rfl
  have hB : ∀ k, ((l.drop k).takeWhile fun e => !e.data.isDelegated) = l.drop k := by
    intro k
    rw [takeWhile_all]
    exact fun e he => by rw [(hx e (List.mem_of_mem_drop he)).2.2]; rfl
  unfold handedOn
  rw [hA, hB, List.take_append_drop]

/-- … but the export of a delegated log teaches a node that does not know the identifier nothing, even if it has the log of the
delegator with all the anchors: the source seals are not exported. -/
theorem C102_fails_delegated (env : Env) (as bs : List Action) (id : IdentifierPrefix) (hid : id.toStr ≠ []) (bin : Binary) (hb : bin.RejectsJson)
    (hne : (after env as).kel id ≠ []) (hx : ∀ e ∈ (after env as).kel id, e.Exportable)
    (hsig : ∀ i, i < ((after env as).kel id).length → SignedInForce env ((after env as).kel id) i)
    (e : SignedEvent) (he : ((after env as).kel id)[0]? = some e) (hd : e.data.isDelegated = true)
    (hcopy : (after env bs).kel id = []) (sg : SignFn) (c : Controller) :
    ∃ b, (getKerl sled id (after env as)).1 = .ok (some b) ∧ (c.respond bin sled env sg b (after env bs)).2.kel id = [] := by
  obtain ⟨b, h1, h2⟩ := C102_handed_on env as bs id hid bin hb hne hx hsig 0 (Nat.zero_le _) (by rw [hcopy]; rfl) sg c
  refine ⟨b, h1, ?_⟩
  rw [h2]
  generalize (after env as).kel id = l at *
  cases l with
  | nil => cases he
  | cons x xs =>
    cases he
    unfold handedOn
    rw [List.take_zero, List.nil_append, List.drop_zero, List.takeWhile_cons]
    split
    · rw [List.takeWhile_cons, hd]; rfl
    · rfl

/-! ### Examples -/

/-- the hypotheses of `C102_handed_on` are met by a log of three events the last of which has a seal, and a node with the first of them:
it gains the second one -/
example :
    (∀ e ∈ (after Ex.env Ex.hist).kel Ex.id, e.Exportable) ∧
    (∀ i, i < ((after Ex.env Ex.hist).kel Ex.id).length → SignedInForce Ex.env ((after Ex.env Ex.hist).kel Ex.id) i) ∧
    (after Ex.env [.submit (.event Ex.icp)]).kel Ex.id = ((after Ex.env Ex.hist).kel Ex.id).take 1 ∧
    handedOn ((after Ex.env Ex.hist).kel Ex.id) 1 = [Ex.rot] := by
  have hk : ((after Ex.env Ex.hist).kel Ex.id) = [Ex.icp, Ex.rot, Ex.ixn] := by decide +kernel
  refine ⟨?_, Ex.hist_signed, by decide +kernel, by decide +kernel⟩
  rw [hk]
  simp only [List.mem_cons, List.not_mem_nil, or_false, forall_eq_or_imp, forall_eq]
  exact ex_exportable

/-- those of `C102_plain` by the same log without its last event -/
example : let as := [Action.submit (.event Ex.icp), .submit (.event Ex.rot)]
    (∀ e ∈ (after Ex.env as).kel Ex.id, e.Exportable ∧ e.data.seals = [] ∧ e.data.isDelegated = false) ∧
    ∀ i, i < ((after Ex.env as).kel Ex.id).length → SignedInForce Ex.env ((after Ex.env as).kel Ex.id) i := by
  intro as
  have hk : ((after Ex.env as).kel Ex.id) = [Ex.icp, Ex.rot] := by decide +kernel
  have hk3 : ((after Ex.env Ex.hist).kel Ex.id) = [Ex.icp, Ex.rot, Ex.ixn] := by decide +kernel
  rw [hk]
  constructor
  · simp only [List.mem_cons, List.not_mem_nil, or_false, forall_eq_or_imp, forall_eq]
    exact ⟨⟨ex_exportable.1, by decide +kernel, by decide +kernel⟩, ex_exportable.2.1, by decide +kernel, by decide +kernel⟩
  · intro i hi
    obtain ⟨e, kc, b, h1, h2, h3, h4⟩ := Ex.hist_signed i (by rw [hk3]; simp only [List.length_cons, List.length_nil] at hi ⊢; omega)
    rw [hk3] at h1 h2
    simp only [List.length_cons, List.length_nil] at hi
    refine ⟨e, kc, b, ?_, ?_, h3, h4⟩
    · rcases i with _ | _ | i
      · exact h1
      · exact h1
      · omega
    · rcases i with _ | _ | i
      · exact h2
      · exact h2
      · omega

/-- those of `C102_fails_delegated` by a node that knows the delegator and its anchor -/
example : let as := Ex.delHist Ex.dipSeal ++ [.submit (.event Ex.dip)]
    (after Ex.env as).kel Ex.dip.pre = [Ex.dip.stored] ∧ Ex.dip.stored.Exportable ∧ Ex.dip.stored.data.isDelegated = true ∧
    (∀ i, i < ((after Ex.env as).kel Ex.dip.pre).length → SignedInForce Ex.env ((after Ex.env as).kel Ex.dip.pre) i) ∧
    (after Ex.env (Ex.delHist Ex.dipSeal)).kel Ex.dip.pre = [] ∧ ((after Ex.env (Ex.delHist Ex.dipSeal)).kel Ex.id).length = 3 := by
  intro as
  have hk : (after Ex.env as).kel Ex.dip.pre = [Ex.dip.stored] := by decide +kernel
  refine ⟨hk, ex_dip_exportable, by decide +kernel, ?_, by decide +kernel, by decide +kernel⟩
  rw [hk]
  intro i hi
  have : i = 0 := by simpa using hi
  subst this
  have hs : (Ex.dip.stored.msg.serialize Ex.env).isOk = true := by decide +kernel
  cases hb : Ex.dip.stored.msg.serialize Ex.env with
  | ok b =>
    refine ⟨Ex.dip.stored, Ex.kc [11, 12] [13, 14] (.simple 2), b, rfl, by decide +kernel, hb, validSigs_of_verify ?_⟩
    have : ∀ r, Ex.dip.stored.msg.serialize Ex.env = r → (r >>= fun b => (Ex.kc [11, 12] [13, 14] (.simple 2)).verify Ex.env b Ex.dip.stored.sigs) = .ok true := by
      intro r hr; subst hr; decide +kernel
    exact this _ hb
  | err e => rw [hb] at hs; cases hs
  | panic => rw [hb] at hs; cases hs

end Keriox
