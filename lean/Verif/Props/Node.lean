import Verif.Async
import Verif.Props.Export
import Verif.Props.Signed
import Verif.Props.Binding
/-!
# C108: a node and everything that reaches it

A node is a controller with its processor and its database.  Its user calls its methods, strangers send it bytes, the application passes it messages.
-/
namespace Keriox

/-! ## Specification -/

/-- what can happen at a node: the methods of `Keri` except `interact` (see C52), the methods of the processor, and the turn of the stream processor -/
inductive NodeCall where
  | incept (witnesses : List BasicPrefix)
  | inceptExtra (keys : List BasicPrefix)
  | rotate
  | makeIxn (payload : Option Bytes)
  | makeRct (m : EventMessage)
  | makeNtr (m : EventMessage)
  /-- bytes from anywhere, for `respond` -/
  | respond (bytes : Bytes)
  /-- bytes from anywhere, for `respond` with the feature `query` -/
  | respondQ (bytes : Bytes)
  /-- bytes from anywhere, for `respond_single` -/
  | respondSingle (bytes : Bytes)
  /-- a message from anywhere in the stream of the stream processor -/
  | stream (bytes : Bytes)
  /-- `process`, `process_escrow` or a look-up in a table -/
  | pass (a : Action)

/-- the parts of a node that do not change: hash and signature functions, the readers of the binary formats -/
structure Around where
  env : Env
  sg : SignFn
  rd : Readers
  binVer : Bytes → Res (Option SerInfo)
  firstByte : UInt8

/-- the node afterwards, whatever the call returned (or after a panic) -/
def NodeCall.run (w : Around) (x : Controller × Db) : NodeCall → Controller × Db
  | .incept ws => (x.1.incept w.env w.sg ws x.2).2
  | .inceptExtra ks => (x.1.inceptExtra w.env w.sg ks x.2).2
  | .rotate => (x.1.rotate w.env w.sg x.2).2
  | .makeIxn p => (x.1, (x.1.makeIxn sled w.env w.sg p x.2).2)
  | .makeRct m => (x.1, (x.1.makeRct sled w.env w.sg m x.2).2)
  | .makeNtr m => (x.1, (x.1.makeNtr sled w.env w.sg m x.2).2)
  | .respond b => (x.1, (x.1.respond w.rd.toBinary sled w.env w.sg b x.2).2)
  | .respondQ b => (x.1, (x.1.respondQ w.rd sled w.env w.sg b x.2).2)
  | .respondSingle b => (x.1, (Keriox.respondSingle w.rd.toBinary sled w.env b x.2).2)
  | .stream b => (x.1, (Async.answer ⟨sled, w.env, w.sg, x.1, w.rd.toBinary, w.binVer, w.firstByte⟩ b x.2).2)
  | .pass a => (x.1, a.run sled w.env x.2)

/-- the node after a sequence of calls -/
def Around.after (w : Around) (x : Controller × Db) (cs : List NodeCall) : Controller × Db := cs.foldl (fun x c => c.run w x) x

/-- the call has been given the message -/
def NodeCall.Received (w : Around) (m : Message) : NodeCall → Prop
  | .respond b => ∃ rest ds d, signedEventStreamP w.rd.toBinary b = .ok rest ds ∧ d ∈ ds ∧ d.toMessage = .ok m
  | .respondQ b => ∃ rest ds d, signedStreamQ w.rd b = .ok rest ds ∧ d ∈ ds ∧ d.toMessage = .ok m
  | .respondSingle b => ∃ rest d, signedMessageP w.rd.toBinary b = .ok rest d ∧ d.toMessage = .ok m
  | .stream b => ∃ rest d, signedMessageP w.rd.toBinary b = .ok rest d ∧ d.toMessage = .ok m
  | .pass a => a = .submit m
  | _ => False

/-- the node, controlled by `c`, has made the event in the call: it has built it and signed it with its key manager (for a rotation, with the
rotated one) -/
def NodeCall.Made (w : Around) (c : Controller) (e : SignedEvent) : NodeCall → Prop
  | .incept ws => (c.makeInception w.env [] ws >>= c.signEvent w.env w.sg) = .ok e
  | .inceptExtra ks => (c.makeInception w.env ks [] >>= c.signEvent w.env w.sg) = .ok e
  | .rotate => ∃ s, ({ c with km := c.km.rotate }.rotationMsg w.env s >>= { c with km := c.km.rotate }.signEvent w.env w.sg) = .ok e
  | .makeIxn p => ∃ s, (c.ixnMsg w.env p s >>= c.signEvent w.env w.sg) = .ok e
  | _ => False

/-! ## Proof -/

/-- the database holds the logs that a history of submissions leaves -/
def Tracks (env : Env) (db : Db) (as : List Action) : Prop := db.Inv ∧ ∀ x, db.abs.log x = (Keriox.after env as).abs.log x

theorem Tracks.of_tables {env : Env} {db db' : Db} {as : List Action} (h : Tracks env db as) (hi : db'.Inv)
    (ht : ∀ x, db'.abs.tables .kels x = db.abs.tables .kels x) : Tracks env db' as :=
  ⟨hi, fun x => by rw [← h.2 x]; unfold MapDb.log; rw [ht x]⟩

theorem Tracks.action {env : Env} {db : Db} {as : List Action} (h : Tracks env db as) (a : Action) : Tracks env (a.run sled env db) (as ++ [a]) := by
  obtain ⟨hi, hl⟩ := h
  have hs := action_sim sled_sim env a db hi
  by_cases he : a.isEvent = true
  · cases a with
    | submit m =>
      cases m with
      | event e =>
        have hb := process_abs env _ (after_inv env as) (.event e)
        refine ⟨hs.1, fun x => ?_⟩
        rw [hs.2, after_snoc, hb.2.1]
        show (processEvent mapOps env e db.abs).2.log x = (processEvent mapOps env e (Keriox.after env as).abs).2.log x
        by_cases hx : x = e.pre.toStr
        · subst hx
          exact (processEvent_local env e (hl _) (fun d _ => hl _)).2
        · have h1 := processEvent_writes env e db.abs .kels x (.inl hx)
          have h2 := processEvent_writes env e (Keriox.after env as).abs .kels x (.inl hx)
          have h3 := hl x
          unfold MapDb.log at h3 ⊢
          rw [h1, h2, h3]
      | _ => cases he
    | _ => cases he
  · have he : a.isEvent = false := by cases h : a.isEvent <;> simp_all
    have same : ∀ b : MapDb, ∀ x, (a.run mapOps env b).tables .kels x = b.tables .kels x := by
      intro b x
      cases a with
      | reprocess => exact congrFun (escrow_writes env b .kels (by simp)) _
      | lookup t i => rw [Action.run, ReadOnly.read t i b]
      | submit m =>
        cases m with
        | rctNt r => exact witnessReceipt_writes env r b .kels _ (.inr (by simp))
        | rctT r => exact validatorReceipt_writes env r b .kels _ (.inr (by simp))
        | reply r => exact signedReply_writes env r b .kels _ (.inr (by simp))
        | query q => rfl
        | event e => cases he
    refine ⟨hs.1, fun x => ?_⟩
    have ha : (Keriox.after env (as ++ [a])).abs = a.run mapOps env (Keriox.after env as).abs := by
      rw [after_abs, after_abs, runHistory_append]; rfl
    rw [hs.2, ha]
    have := hl x
    unfold MapDb.log at this ⊢
    rw [same, same, this]

/-- a computation that leaves logs a history leaves, if it found such; the events submitted meanwhile satisfy `Q` -/
def Keeps {α : Type} (env : Env) (Q : SignedEvent → Prop) (x : StM Db α) : Prop :=
  ∀ db as, Tracks env db as → ∃ bs, Tracks env (x db).2 (as ++ bs) ∧ ∀ e, Action.submit (.event e) ∈ bs → Q e

namespace Keeps
variable {α β : Type} {env : Env} {Q : SignedEvent → Prop}
theorem still {as : List Action} {db : Db} (h : Tracks env db as) :
    ∃ bs, Tracks env db (as ++ bs) ∧ ∀ e, Action.submit (.event e) ∈ bs → Q e :=
  ⟨[], by rw [List.append_nil]; exact h, fun _ h => absurd h List.not_mem_nil⟩
theorem lift (r : Res α) : Keeps env Q (StM.lift r) := fun _ _ h => still h
theorem pure (a : α) : Keeps env Q (Pure.pure a : StM Db α) := .lift (.ok a)
theorem fail (e : Error) : Keeps env Q (StM.fail e : StM Db α) := .lift (.err e)
theorem bind {x : StM Db α} {f : α → StM Db β} (hx : Keeps env Q x) (hf : ∀ a, Keeps env Q (f a)) : Keeps env Q (x >>= f) := by
  intro db as h
  obtain ⟨bs, h1, h2⟩ := hx db as h
  rw [StM.bind_run]
  rcases hr : x db with ⟨r, db'⟩
  rw [hr] at h1
  cases r with
  | ok a =>
    obtain ⟨cs, h3, h4⟩ := hf a db' (as ++ bs) h1
    refine ⟨bs ++ cs, by rw [← List.append_assoc]; exact h3, fun e he => ?_⟩
    rcases List.mem_append.1 he with he | he
    · exact h2 e he
    · exact h4 e he
  | err e => exact ⟨bs, h1, h2⟩
  | panic => exact ⟨bs, h1, h2⟩
theorem bindLift {r : Res α} {f : α → StM Db β} (hf : ∀ a, r = .ok a → Keeps env Q (f a)) : Keeps env Q (StM.lift r >>= f) := by
  intro db as h
  rw [StM.bind_run]
  cases r with
  | ok a => exact hf a rfl db as h
  | err e => exact still h
  | panic => exact still h
theorem result {x : StM Db α} (hx : Keeps env Q x) : Keeps env Q x.result := by
  intro db as h
  obtain ⟨bs, h1, h2⟩ := hx db as h
  refine ⟨bs, ?_, h2⟩
  unfold StM.result
  rcases hr : x db with ⟨r, db'⟩
  rw [hr] at h1
  cases r <;> exact h1
theorem read (t : Tbl) (id : IdentifierPrefix) : Keeps env Q (sled.read t id) := fun _ _ h =>
  ⟨[.lookup t id], h.action (.lookup t id), fun e he => by cases List.mem_singleton.1 he⟩
theorem process (m : Message) (hq : ∀ e, m = .event e → Q e) : Keeps env Q (Keriox.process sled env m) := fun _ _ h =>
  ⟨[.submit m], h.action (.submit m), fun e he => hq e (Action.submit.inj (List.mem_singleton.1 he)).symm⟩
theorem push {t : Tbl} (ht : t ≠ .kels) (id : IdentifierPrefix) (v : t.Val) : Keeps env Q (sled.push t id v) := fun db as h => by
  have hs := sled_sim.push t id v db h.1
  refine still (h.of_tables hs.2.2 fun x => ?_)
  rw [hs.2.1]
  simp only [mapOps]
  rw [MapDb.set_other_tbl _ ht.symm, MapDb.touch_tables]
theorem remove {t : Tbl} (ht : t ≠ .kels) (id : IdentifierPrefix) (v : t.Val) : Keeps env Q (sled.remove t id v) := fun db as h => by
  have hs := sled_sim.remove t id v db h.1
  refine still (h.of_tables hs.2.2 fun x => ?_)
  rw [hs.2.1]
  simp only [mapOps]
  rw [MapDb.set_other_tbl _ ht.symm, MapDb.touch_tables]
theorem computeState (id : IdentifierPrefix) : Keeps env Q (computeState sled env id) := by
  refine .bind (.read _ _) fun o => ?_
  cases o with
  | none => exact .pure _
  | some l => exact .bind (.lift _) fun _ => .pure _
theorem lastEstSeal (id : IdentifierPrefix) : Keeps env Q (getLastEstSeal sled env id) := by
  refine .bind (.read _ _) fun o => ?_
  cases o with
  | none => exact .pure _
  | some l => exact .bind (.lift _) fun _ => .pure _
theorem kerl (id : IdentifierPrefix) : Keeps env Q (getKerl sled id) := by
  refine .bind (.read _ _) fun o => ?_
  cases o with
  | none => exact .pure _
  | some l => exact .bind (.lift _) fun _ => .pure _
theorem ownState (c : Controller) : Keeps env Q (c.ownState sled env) := by
  refine .bind (.computeState _) fun o => ?_
  cases o with
  | none => exact .fail _
  | some l => exact .pure _
theorem submitOwn {r : Res SignedEvent} (h : ∀ e, r = .ok e → Q e) : Keeps env Q (submitOwn sled env r) :=
  .bindLift fun e he => .bind (.process _ fun e' h' => by cases h'; exact h e he) fun _ => .pure _
theorem makeRct (sg : SignFn) (c : Controller) (m : EventMessage) : Keeps env Q (c.makeRct sled env sg m) := by
  refine .bind (.lift _) fun _ => .bind (.lift _) fun _ => .bind (.lastEstSeal _) fun o => ?_
  cases o with
  | none => exact .fail _
  | some sl => exact .bind (.lift _) fun r => .bind (.process _ fun e h => by cases h) fun _ => .pure _
theorem removeNts (id : IdentifierPrefix) (rs : List NtReceipt) : Keeps env Q (removeNts sled id rs) := by
  induction rs with
  | nil => exact .pure _
  | cons r rs ih => exact .bind (.remove (by simp) _ _) fun _ => ih
theorem makeNtr (sg : SignFn) (c : Controller) (m : EventMessage) : Keeps env Q (c.makeNtr sled env sg m) := by
  have hg : Keeps env Q (c.generateNtr sled env sg m) := .bind (.lift _) fun r => .bind (.push (by simp) _ _) fun _ => .pure _
  unfold Controller.makeNtr
  split
  · split
    · split
      · exact hg
      · exact .fail _
    · split
      · refine .bind ?_ fun _ => .fail _
        refine .bind (.read _ _) fun o => ?_
        cases o with
        | none => exact .pure _
        | some l => exact .removeNts _ _
      · split
        · exact hg
        · exact .fail _
    · exact .fail _
  · exact .fail _
theorem answer (sg : SignFn) (c : Controller) (m : Message) : Keeps env Q (c.answer sled env sg m) := by
  cases m with
  | event e =>
    refine .bind ?_ fun _ => .bind (.makeRct _ _ _) fun _ => .bind (.lift _) fun _ => .pure _
    unfold Controller.ownKerl
    split
    · refine .bind ?_ fun b => ?_
      · refine .bind (.read _ _) fun o => ?_
        cases o <;> exact .pure _
      · cases b
        · refine .bind (.kerl _) fun o => ?_
          cases o
          · exact .fail _
          · exact .pure _
        · exact .pure _
    · exact .pure _
  | rctT r => exact .pure _
  | rctNt r => exact .lift _
  | reply r => exact .lift _
  | query q => exact .lift _
theorem answers (sg : SignFn) (c : Controller) (ms : List Message) : Keeps env Q (c.answers sled env sg ms) := by
  induction ms with
  | nil => exact .pure _
  | cons m ms ih =>
    refine .bind (Keeps.answer sg c m).result fun r => .bind ih fun b => ?_
    cases r <;> exact .pure _
theorem respondAll {ds : List SignedEventData} (h : ∀ d ∈ ds, ∀ e, d.toMessage = .ok (.event e) → Q e) : Keeps env Q (respondAll sled env ds) := by
  induction ds with
  | nil => exact .pure _
  | cons d ds ih =>
    refine .bind (.result (.bindLift fun m hm => .bind (.process m fun e he => h d List.mem_cons_self e (he ▸ hm)) fun _ => .pure _)) fun r =>
      .bind (ih fun d hd => h d (List.mem_cons_of_mem _ hd)) fun ms => ?_
    cases r <;> exact .pure _
theorem respondAllQ {ds : List SignedDataQ} (h : ∀ d ∈ ds, ∀ e, d.toMessage = .ok (.event e) → Q e) : Keeps env Q (respondAllQ sled env ds) := by
  induction ds with
  | nil => exact .pure _
  | cons d ds ih =>
    refine .bind (.result (.bindLift fun m hm => .bind (.process m fun e he => h d List.mem_cons_self e (he ▸ hm)) fun _ => .pure _)) fun r =>
      .bind (ih fun d hd => h d (List.mem_cons_of_mem _ hd)) fun ms => ?_
    cases r <;> exact .pure _
theorem respondSingle {bin : Binary} {b : Bytes} (h : ∀ rest d e, signedMessageP bin b = .ok rest d → d.toMessage = .ok (.event e) → Q e) :
    Keeps env Q (respondSingle bin sled env b) := by
  refine .bindLift fun d hd => ?_
  have hp : ∃ rest, signedMessageP bin b = .ok rest d := by
    unfold parsed at hd
    split at hd
    · rename_i rest a hp; cases hd; exact ⟨rest, hp⟩
    · cases hd
    · cases hd
  obtain ⟨rest, hp⟩ := hp
  have key : ∀ m, d.toMessage = .ok m → Keeps env Q (Keriox.process sled env m >>= fun o => match o with
      | none => StM.fail .invalidIdentifierStat
      | some s => Pure.pure (s.prefix, s.toJson)) := by
    intro m hm
    refine .bind (.process m fun e he => h rest d e hp (he ▸ hm)) fun o => ?_
    cases o <;> exact .lift _
  intro db as ht
  rw [StM.bind_run]
  cases hm : d.toMessage with
  | ok m => exact key m hm db as ht
  | err e => exact still ht
  | panic => exact still ht
end Keeps

theorem parsed_ok {α : Type} {r : IRes α} {a : α} (h : parsed r = .ok a) : ∃ rest, r = .ok rest a := by
  unfold parsed at h
  split at h
  · cases h; exact ⟨_, rfl⟩
  · cases h
  · cases h

/-- one call -/
theorem NodeCall.keeps (w : Around) (x : Controller × Db) (c : NodeCall) (as : List Action) (h : Tracks w.env x.2 as) :
    ∃ bs, Tracks w.env (c.run w x).2 (as ++ bs) ∧
      ∀ e, Action.submit (.event e) ∈ bs → c.Received w (.event e) ∨ c.Made w x.1 e := by
  cases c with
  | incept ws => exact Keeps.submitOwn (Q := fun e => (NodeCall.incept ws).Received w (.event e) ∨ (NodeCall.incept ws).Made w x.1 e) (fun e he => .inr he) _ _ h
  | inceptExtra ks => exact Keeps.submitOwn (Q := fun e => (NodeCall.inceptExtra ks).Received w (.event e) ∨ (NodeCall.inceptExtra ks).Made w x.1 e) (fun e he => .inr he) _ _ h
  | rotate =>
    exact Keeps.bind (Q := fun e => NodeCall.rotate.Received w (.event e) ∨ NodeCall.rotate.Made w x.1 e) (.ownState _)
      (fun s => .submitOwn fun e he => .inr ⟨s, he⟩) _ _ h
  | makeIxn p =>
    exact Keeps.bind (Q := fun e => (NodeCall.makeIxn p).Received w (.event e) ∨ (NodeCall.makeIxn p).Made w x.1 e) (.ownState _)
      (fun s => .submitOwn fun e he => .inr ⟨s, he⟩) _ _ h
  | makeRct m => exact Keeps.makeRct w.sg x.1 m _ _ h
  | makeNtr m => exact Keeps.makeNtr w.sg x.1 m _ _ h
  | respond b =>
    refine Keeps.bindLift (fun ds hd => ?_) _ _ h
    obtain ⟨rest, hp⟩ := parsed_ok hd
    exact .bind (.respondAll fun d hd e he => .inl ⟨rest, ds, d, hp, hd, he⟩) fun ms => .answers _ _ ms
  | respondQ b =>
    refine Keeps.bindLift (fun ds hd => ?_) _ _ h
    obtain ⟨rest, hp⟩ := parsed_ok hd
    exact .bind (.respondAllQ fun d hd e he => .inl ⟨rest, ds, d, hp, hd, he⟩) fun ms => .answers _ _ ms
  | respondSingle b =>
    exact Keeps.respondSingle (Q := fun e => (NodeCall.respondSingle b).Received w (.event e) ∨ (NodeCall.respondSingle b).Made w x.1 e)
      (fun rest d e hp hd => .inl ⟨rest, d, hp, hd⟩) _ _ h
  | stream b =>
    refine Keeps.bind (.respondSingle (fun rest d e hp hd => .inl ⟨rest, d, hp, hd⟩)) (fun r => ?_) _ _ h
    split
    · refine .bind (.result (.makeNtr _ _ _)) fun o => ?_
      cases o
      · exact .pure _
      · exact .bind (.lift _) fun _ => .pure _
    · exact .lift _
  | pass a =>
    exact ⟨[a], h.action a, fun e he => .inl (List.mem_singleton.1 he).symm⟩

theorem node_keeps (w : Around) (x : Controller × Db) (cs : List NodeCall) (as : List Action) (h : Tracks w.env x.2 as) :
    ∃ bs, Tracks w.env (w.after x cs).2 (as ++ bs) ∧
      ∀ e, Action.submit (.event e) ∈ bs → ∃ before c rest, cs = before ++ c :: rest ∧
        (c.Received w (.event e) ∨ c.Made w (w.after x before).1 e) := by
  induction cs generalizing x as with
  | nil => exact Keeps.still h
  | cons c cs ih =>
    obtain ⟨bs, h1, h2⟩ := c.keeps w x as h
    obtain ⟨ds, h3, h4⟩ := ih (c.run w x) (as ++ bs) h1
    refine ⟨bs ++ ds, by rw [← List.append_assoc]; exact h3, fun e he => ?_⟩
    rcases List.mem_append.1 he with he | he
    · exact ⟨[], c, cs, rfl, h2 e he⟩
    · obtain ⟨before, c', rest, hc, hq⟩ := h4 e he
      exact ⟨c :: before, c', rest, by rw [hc]; rfl, hq⟩

theorem Tracks.kel {env : Env} {db : Db} {as : List Action} (h : Tracks env db as) (id : IdentifierPrefix) : db.kel id = (after env as).kel id := h.2 id.toStr

theorem Tracks.empty (env : Env) : Tracks env Db.empty [] := ⟨Db.empty_inv, fun _ => rfl⟩

/-- what is in a log has been submitted -/
theorem logged_submitted (env : Env) (as : List Action) (id : IdentifierPrefix) (hid : id.toStr ≠ []) (e : SignedEvent) (he : e ∈ (after env as).kel id) :
    ∃ sub, Action.submit (.event sub) ∈ as ∧ sub.stored = e := by
  induction as using snoc_induction with
  | h0 => cases he
  | h1 as a ih =>
    rcases C01_one_step env as a id hid with h | ⟨sub, h1, _, h3⟩
    · rw [h] at he
      obtain ⟨s, h1, h2⟩ := ih he
      exact ⟨s, List.mem_append_left _ h1, h2⟩
    · rw [h3] at he
      rcases List.mem_append.1 he with he | he
      · obtain ⟨s, h1, h2⟩ := ih he
        exact ⟨s, List.mem_append_left _ h1, h2⟩
      · exact ⟨sub, by rw [h1]; exact List.mem_append_right _ List.mem_cons_self, (List.mem_singleton.1 he).symm⟩

/-! ## C108 -/

/-- C108: whatever a node does and whatever reaches it, its logs are the logs that the submission of events to the processor leaves, event by event, with
nothing in between; and the longer it runs, the longer the same history.  So all that is proved of histories holds of nodes. -/
theorem C108_histories (w : Around) (c : Controller) (cs ds : List NodeCall) :
    ∃ as bs, (∀ id : IdentifierPrefix, (w.after (c, Db.empty) cs).2.kel id = (after w.env as).kel id) ∧
      ∀ id : IdentifierPrefix, (w.after (c, Db.empty) (cs ++ ds)).2.kel id = (after w.env (as ++ bs)).kel id := by
  obtain ⟨as, h1, _⟩ := node_keeps w (c, Db.empty) cs [] (.empty _)
  obtain ⟨bs, h2, _⟩ := node_keeps w (w.after (c, Db.empty) cs) ds _ h1
  refine ⟨[] ++ as, bs, h1.kel, fun id => ?_⟩
  rw [show w.after (c, Db.empty) (cs ++ ds) = w.after (w.after (c, Db.empty) cs) ds from List.foldl_append]
  exact h2.kel id

/-- C108: no call and no bytes take an event out of a log or put another in its place. -/
theorem C108_append_only (w : Around) (c : Controller) (cs ds : List NodeCall) (id : IdentifierPrefix) (hid : id.toStr ≠ []) :
    (w.after (c, Db.empty) cs).2.kel id <+: (w.after (c, Db.empty) (cs ++ ds)).2.kel id := by
  obtain ⟨as, bs, h1, h2⟩ := C108_histories w c cs ds
  rw [h1, h2]
  exact C01_append_only w.env as bs id hid

/-- C108: every log of the node is a well-formed log: numbered from zero, one inception at its head, each event naming the digest of the one before. -/
theorem C108_well_formed (w : Around) (c : Controller) (cs : List NodeCall) (id : IdentifierPrefix) (hid : id.toStr ≠ []) (i : Nat) (e : SignedEvent)
    (he : ((w.after (c, Db.empty) cs).2.kel id)[i]? = some e) :
    e.sn = i ∧ (e.data.isInception = true ↔ i = 0) ∧ e.pre.toStr = id.toStr ∧
    (∀ e', ((w.after (c, Db.empty) cs).2.kel id)[i + 1]? = some e' → e'.data.previous? = some e.dig) ∧
    (∀ r, e.data.rotation? = some r → ∃ kc n, keysInForce (((w.after (c, Db.empty) cs).2.kel id).take i) = some kc ∧ kc.nextDigest = some n ∧
      r.keyConfig.commit w.env n.derivation = n) := by
  obtain ⟨as, _, h1, _⟩ := C108_histories w c cs []
  rw [h1] at he ⊢
  have h := C03_contiguous w.env as id hid i e he
  exact ⟨h.1, h.2.1, h.2.2.1, fun e' he' => C04_chained w.env as id hid i e e' he he', fun r hr => C05_prerotation w.env as id hid i e r he hr⟩

/-- C108: every event in a log of the node came in with the bytes (or message) of some call, or was made by the node itself in some call; delegating
seals are not kept. -/
theorem C108_provenance (w : Around) (c : Controller) (cs : List NodeCall) (id : IdentifierPrefix) (hid : id.toStr ≠ []) (e : SignedEvent)
    (he : e ∈ (w.after (c, Db.empty) cs).2.kel id) :
    ∃ sub before call rest, sub.stored = e ∧ cs = before ++ call :: rest ∧
      (call.Received w (.event sub) ∨ call.Made w (w.after (c, Db.empty) before).1 sub) := by
  obtain ⟨as, h1, h2⟩ := node_keeps w (c, Db.empty) cs [] (.empty _)
  rw [h1.kel id] at he
  obtain ⟨sub, hs, hq⟩ := logged_submitted w.env _ id hid e he
  obtain ⟨before, call, rest, h3, h4⟩ := h2 sub hs
  exact ⟨sub, before, call, rest, hq, h3, h4⟩

/-! ## Example -/

namespace Ex
/-- a node's surroundings -/
def around : Around := ⟨env, sg, noReaders, fun _ => .err (.semantic ""), 123⟩
/-- incept; a stranger's stream; garbage; a rotation; a witness receipt for a stranger's event; a repeated message; an interaction; reprocessing; an unsigned event -/
def nodeCalls : List NodeCall := [.incept [key 51], .respondQ earlyText, .respond [1, 2, 3], .rotate, .makeNtr icp.msg, .respondSingle earlyText,
  .makeIxn none, .pass .reprocess, .pass (.submit (.event icpFinal)), .pass (.submit (.event thief))]
/-- the node in the end -/
def nodeEnd : Controller × Db := around.after (ctl, Db.empty) nodeCalls
end Ex

set_option maxRecDepth 20000 in
/-- the node has its own log of three events, the stranger's log from the stream, and the log passed by the application -/
example : (Ex.nodeEnd.2.kel Ex.nodeEnd.1.pre).map SignedEvent.sn = [0, 1, 2] ∧ Ex.nodeEnd.2.kel Ex.bob.1.pre = Ex.bob.2.kel Ex.bob.1.pre ∧
    (Ex.bob.2.kel Ex.bob.1.pre).length = 2 ∧ Ex.nodeEnd.2.kel Ex.icpFinal.pre = [Ex.icpFinal] := by decide +kernel

end Keriox
