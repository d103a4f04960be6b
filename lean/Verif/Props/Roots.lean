import Verif.Props.Deleg
/-!
# C106: chains of delegation

Delegation may be nested: a delegated identifier may delegate in its turn.  Whatever is submitted, in whatever order, every identifier a
node has a log of hangs on a finite chain of delegators that ends at an identifier nobody delegated, and every link of the chain is an anchor in
the delegator's log; no identifier ever delegates itself, neither directly nor through others.

The identifier with the empty text (the default identifier, which no reader accepts) is left out: its log is the subject of C10.
-/
namespace Keriox

/-! ## Specification -/

/-- the log of `id` begins with an inception delegated by `d` -/
def DelegatedBy (db : Db) (id d : IdentifierPrefix) : Prop :=
  ∃ e0, (db.kel id)[0]? = some e0 ∧ e0.data.delegator? = some d

/-- `id` has a log, and a finite chain of delegators leads from it to an inception that nobody delegated (or to a delegator without a text);
each delegator of the chain has anchored the inception below it -/
inductive Rooted (env : Env) (db : Db) : IdentifierPrefix → Prop
  | root (id : IdentifierPrefix) (e0 : SignedEvent) : (db.kel id)[0]? = some e0 → e0.data.delegator? = none → Rooted env db id
  | link (id d : IdentifierPrefix) (e0 : SignedEvent) (n : Nat) : (db.kel id)[0]? = some e0 → e0.data.delegator? = some d →
      AnchoredAt env (db.kel d) n e0.msg → Rooted env db d → Rooted env db id
  | nameless (id d : IdentifierPrefix) : DelegatedBy db id d → d.toStr = [] → Rooted env db id

/-- `d` is the delegator of `id`, or the delegator of its delegator, … (delegators without a text end the chain) -/
inductive Above (db : Db) : IdentifierPrefix → IdentifierPrefix → Prop
  | one {id d : IdentifierPrefix} : DelegatedBy db id d → d.toStr ≠ [] → Above db id d
  | more {id d x : IdentifierPrefix} : DelegatedBy db id d → d.toStr ≠ [] → Above db d x → Above db id x

/-! ## Proofs -/

theorem head_prefix {α : Type} {l l' : List α} (h : l <+: l') {x : α} (hx : l[0]? = some x) : l'[0]? = some x := by
  obtain ⟨t, rfl⟩ := h
  rw [List.getElem?_append_left (List.getElem?_eq_some_iff.1 hx).1]
  exact hx

/-- logs that only grow keep their roots -/
theorem Rooted.mono {env : Env} {db db' : Db} (h : ∀ id : IdentifierPrefix, id.toStr ≠ [] → db.kel id <+: db'.kel id) {id : IdentifierPrefix}
    (hr : Rooted env db id) (hid : id.toStr ≠ []) : Rooted env db' id := by
  induction hr with
  | root id e0 h0 hd => exact .root id e0 (head_prefix (h id hid) h0) hd
  | link id d e0 n h0 hd ha _ ih =>
    by_cases hn : d.toStr = []
    · exact .nameless id d ⟨e0, head_prefix (h id hid) h0, hd⟩ hn
    · exact .link id d e0 n (head_prefix (h id hid) h0) hd (ha.prefix (h d hn)) (ih hn)
  | nameless id d hd hn =>
    obtain ⟨e0, h0, hd⟩ := hd
    exact .nameless id d ⟨e0, head_prefix (h id hid) h0, hd⟩ hn

/-- logs go by the text of the identifier -/
theorem kel_congr (db : Db) {id id' : IdentifierPrefix} (h : id.toStr = id'.toStr) : db.kel id = db.kel id' := by
  unfold Db.kel; rw [h]

/-- C106: whatever a node was sent, every identifier it has a log of is rooted. -/
theorem C106_rooted (env : Env) (as : List Action) (id : IdentifierPrefix) (hid : id.toStr ≠ []) (hne : (after env as).kel id ≠ []) :
    Rooted env (after env as) id := by
  revert id
  refine snoc_induction (P := fun as => ∀ id : IdentifierPrefix, id.toStr ≠ [] → (after env as).kel id ≠ [] → Rooted env (after env as) id) as ?_ ?_
  · intro id _ hne
    exact absurd rfl hne
  · intro as act ih id hid hne
    have grow : ∀ id : IdentifierPrefix, id.toStr ≠ [] → (after env as).kel id <+: (after env (as ++ [act])).kel id :=
      fun id h => C01_append_only env as [act] id h
    by_cases hold : (after env as).kel id = []
    · rcases C01_one_step env as act id hid with h | ⟨sub, rfl, hp, h⟩
      · rw [h] at hne; exact absurd hold hne
      · rw [hold, List.nil_append] at h
        have hsub : sub.pre.toStr ≠ [] := by rw [hp]; exact hid
        have hkel : (after env as).kel sub.pre = [] := by rw [kel_congr _ hp]; exact hold
        have h0 : ((after env (as ++ [.submit (.event sub)])).kel id)[0]? = some sub.stored := by rw [h]; rfl
        cases hdel : sub.stored.data.delegator? with
        | none => exact .root id _ h0 hdel
        | some d0 =>
          have hd : sub.data.isDelegated = true := by
            have : sub.data.delegator? = some d0 := hdel
            revert this; cases sub.data <;> simp [EventData.delegator?, EventData.isDelegated]
          obtain ⟨s, hl, ho⟩ := event_outcome env as sub hsub
          generalize (process sled env (.event sub) (after env as)).1 = r at ho
          generalize ha : (after env (as ++ [.submit (.event sub)])).abs = a' at ho
          have hlog : a'.log sub.pre.toStr = [sub.stored] := by
            rw [← ha, ← h]; rw [kel_eq, hp]
          cases ho with
          | refused _ ht _ =>
            have := MapDb.log_congr ht sub.pre.toStr
            rw [hlog, ← kel_eq, hkel] at this
            simp at this
          | @stored new hcd _ hap _ _ =>
            obtain ⟨d, sl, _, h2, h3⟩ := checkDelegation_ok env _ (after_good env as) sub hsub hl hd hcd
            rw [← kel_eq, hkel] at h2
            have h2 : sub.data.delegator? = some d := by rcases h2 with h2 | h2 <;> simpa using h2
            have : sub.data.delegator? = some d0 := hdel
            rw [h2] at this
            cases this
            by_cases hn : d0.toStr = []
            · exact .nameless id d0 ⟨_, h0, hdel⟩ hn
            · have hanch : AnchoredAt env ((after env as).kel d0) sl.sn sub.msg := h3 hn
              have hdne : (after env as).kel d0 ≠ [] := by
                obtain ⟨a, es, h1, _⟩ := hanch
                intro h; rw [h] at h1; simp at h1
              exact .link id d0 _ sl.sn h0 hdel (hanch.prefix (grow d0 hn)) ((ih d0 hn hdne).mono grow hn)
    · exact (ih id hid hold).mono grow hid

theorem DelegatedBy.unique {db : Db} {id d d' : IdentifierPrefix} (h : DelegatedBy db id d) (h' : DelegatedBy db id d') : d = d' := by
  obtain ⟨e, h1, h2⟩ := h
  obtain ⟨e', h1', h2'⟩ := h'
  rw [h1] at h1'; cases h1'
  rw [h2] at h2'; cases h2'; rfl

theorem DelegatedBy.congr {db : Db} {id id' d : IdentifierPrefix} (h : DelegatedBy db id d) (hp : id.toStr = id'.toStr) : DelegatedBy db id' d := by
  unfold DelegatedBy at h ⊢
  rwa [← kel_congr db hp]

theorem Above.trans_one {db : Db} {x y d : IdentifierPrefix} (h : Above db x y) (h' : DelegatedBy db y d) (hd : d.toStr ≠ []) : Above db x d := by
  induction h with
  | one hb hn => exact .more hb hn (.one h' hd)
  | more hb hn _ ih => exact .more hb hn (ih h')

theorem Rooted.acyclic {env : Env} {db : Db} {id : IdentifierPrefix} (h : Rooted env db id) :
    ∀ x, Above db id x → x.toStr ≠ id.toStr := by
  induction h with
  | root id e0 h0 hd =>
    intro x hx
    have : ∀ d, ¬ DelegatedBy db id d := by
      rintro d ⟨e, h1, h2⟩
      rw [h0] at h1; cases h1
      rw [hd] at h2; cases h2
    cases hx with
    | one hb _ => exact absurd hb (this _)
    | more hb _ _ => exact absurd hb (this _)
  | nameless id d hd hn =>
    intro x hx
    cases hx with
    | one hb h => rw [hb.unique hd] at h; exact absurd hn h
    | more hb h _ => rw [hb.unique hd] at h; exact absurd hn h
  | link id d e0 n h0 hd _ _ ih =>
    intro x hx heq
    have hb0 : DelegatedBy db id d := ⟨e0, h0, hd⟩
    cases hx with
    | one hb h =>
      cases hb.unique hb0
      exact ih d (.one (hb0.congr heq.symm) h) rfl
    | more hb h hx =>
      cases hb.unique hb0
      exact ih d (hx.trans_one (hb0.congr heq.symm) h) rfl

/-- C106: no identifier is above itself, however long the chain, whatever was submitted. -/
theorem C106_no_cycle (env : Env) (as : List Action) (id x : IdentifierPrefix) (hid : id.toStr ≠ []) (h : Above (after env as) id x) :
    x.toStr ≠ id.toStr := by
  refine (C106_rooted env as id hid ?_).acyclic x h
  have : ∀ {d}, DelegatedBy (after env as) id d → (after env as).kel id ≠ [] := by
    rintro d ⟨e0, h0, _⟩ h
    rw [h] at h0; simp at h0
  cases h with
  | one hb _ => exact this hb
  | more hb _ _ => exact this hb

/-! ## Examples -/

/-- an inception delegated by the delegated identifier `Ex.dip` -/
def Ex.dip2Msg : EventMessage :=
  msgOr (inceptSelfAddressing env (.dip ⟨⟨kc [21, 22] [23, 24] (.simple 2), 0, [], [], []⟩, dip.pre⟩) .blake3_256 .json)
/-- signed, with the source seal naming number 1 of its delegator -/
def Ex.dip2 : SignedEvent := { signAll dip2Msg [21, 22] with delegatorSeal := some ⟨1, ⟨.blake3_256, dig b!"whatever"⟩⟩ }
/-- the anchor in the log of `Ex.dip` -/
def Ex.anchor3 : SignedEvent :=
  signAll (msgOr ((Event.mk dip.pre 1 (.ixn ⟨dip.dig, [.event ⟨dip2Msg.event.content.prefix, 0, dip2Msg.event.digest⟩]⟩)).toMessage env .json .blake3_256)) [11, 12]
/-- the delegator, its delegate, and the delegate of the delegate -/
def Ex.nested : List Action := delHist dipSeal ++ [.submit (.event dip), .submit (.event anchor3), .submit (.event dip2)]

/-- a chain of two delegations is accepted, and `C106_rooted` and `C106_no_cycle` speak about it -/
example : (after Ex.env Ex.nested).kel Ex.dip2.pre = [Ex.dip2.stored] ∧ Ex.dip2.pre.toStr ≠ [] ∧
    Ex.dip2.data.delegator? = some Ex.dip.pre ∧ Ex.dip.data.delegator? = some Ex.id ∧
    ((after Ex.env Ex.nested).kel Ex.dip.pre)[0]? = some Ex.dip.stored ∧
    ((after Ex.env Ex.nested).kel Ex.id)[0]? = some Ex.icp.stored ∧ Ex.icp.data.delegator? = none := by decide +kernel

example : Above (after Ex.env Ex.nested) Ex.dip2.pre Ex.id :=
  .more (d := Ex.dip.pre) ⟨Ex.dip2.stored, by decide +kernel, by decide +kernel⟩ (by decide +kernel)
    (.one ⟨Ex.dip.stored, by decide +kernel, by decide +kernel⟩ (by decide +kernel))

/-- and without the anchors the very same inceptions are refused, in any order -/
example : (after Ex.env [.submit (.event Ex.icp), .submit (.event Ex.dip2), .submit (.event Ex.dip), .submit (.event Ex.dip2)]).kel Ex.dip2.pre = [] := by
  decide +kernel

end Keriox
