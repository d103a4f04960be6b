import Verif.Props.Network
/-! C95: a log is changed behind its owner's back only by forging signatures, by opening a commitment with other keys, or by crashing the processor. -/
namespace Keriox

/-! ## Specification -/

/-- public keys with a signing threshold -/
abbrev Keyring := Threshold × List BasicPrefix

/-- the key sets a log has announced -/
def keySets (l : List SignedEvent) : List Keyring := l.filterMap fun e => e.data.keyConfig?.map fun kc => (kc.threshold, kc.publicKeys)

/-- the event carries signatures that satisfy one of the key sets -/
def Forged (env : Env) (sets : List Keyring) (e : SignedEvent) : Prop :=
  ∃ t ks b, (t, ks) ∈ sets ∧ e.msg.serialize env = .ok b ∧ ValidSigs env ⟨t, ks, none⟩ b e.sigs

/-- the event rotates to keys that open a commitment made in the log, but they are not one of the key sets -/
def Opened (env : Env) (l : List SignedEvent) (sets : List Keyring) (e : SignedEvent) : Prop :=
  ∃ r g kc, e.data.rotation? = some r ∧ g ∈ l ∧ g.data.keyConfig? = some kc ∧ kc.verifyNext env r.keyConfig = true ∧
    (r.keyConfig.threshold, r.keyConfig.publicKeys) ∉ sets

/-- processing the event crashes, or it cannot be encoded, or it contains a text that does not parse back -/
def Slipped (env : Env) (db : Db) (e : SignedEvent) : Prop :=
  (process sled env (.event e) db).1 = .panic ∨ e.rt = false ∨ ∃ er, e.msg.serialize env = .err er

/-- an event that arrives at the database `db`, is not in the log `l` of the owner, and is signed with keys of the owner (`prepared` are those prepared for later
rotations), opens one of the owner's commitments with other keys, or makes the processor fail -/
def Attack (env : Env) (l : List SignedEvent) (prepared : List Keyring) (db : Db) (e : SignedEvent) : Prop :=
  (∀ g ∈ l, g.msg ≠ e.msg) ∧ (Forged env (keySets l ++ prepared) e ∨ Opened env l (keySets l ++ prepared) e ∨ Slipped env db e)

/-- the messages of a log, without the signatures -/
def messages (l : List SignedEvent) : List EventMessage := l.map (·.msg)

variable {ι : Type} [DecidableEq ι]

/-- users rotate and interact; what arrives in the name of a node may be anything a processor can encode and read back, except an attack on that node, or an inception that
is not the node's while the receiver does not know the node yet -/
def Happening.Safe (env : Env) (x : Net ι) : Happening ι → Prop
  | .call _ c => c.own = true
  | .arrives n a => ∀ i e, a = .submit (.event e) → e.pre.toStr = (x.pre i).toStr →
      e.rt = true ∧ ¬ Attack env (x.own i) [(.simple 1, [(x i).1.km.nextKey])] (x n).2 e ∧
      (e.data.isInception = true → x.copy n i ≠ [] ∨ ∃ g ∈ x.own i, g.msg = e.msg)

/-- everything that happens is safe at the moment it happens -/
def Net.Safe (env : Env) (sg : SignFn) (x : Net ι) : List (Happening ι) → Prop
  | [] => True
  | h :: hs => h.Safe env x ∧ Net.Safe env sg (h.run env sg x) hs

/-- a network in the beginning: every node has just incepted, on a database with any earlier traffic; the identifiers are different texts; what nodes have of
each other's logs is genuine -/
structure Net.Starts (env : Env) (sg : SignFn) (x : Net ι) : Prop where
  born : ∀ n, ∃ (km : CryptoBox) (rnd : BasicPrefix × BasicPrefix) (extra ws : List BasicPrefix) (past : List Action) (e : SignedEvent), km.Works env sg ∧
    (Controller.new km rnd).inceptWith env sg extra ws (after env past) = (.ok e, (x n).1, (x n).2) ∧ e.rt = true
  distinct : ∀ i j, i ≠ j → (x.pre i).toStr ≠ (x.pre j).toStr
  genuine : ∀ n i, n ≠ i → messages (x.copy n i) <+: messages (x.own i) ∧ Readable (x.copy n i)

/-! ## Proof -/

theorem foldStrict_messages (env : Env) (l m : List SignedEvent) (h : messages l = messages m) (s : IdState) : foldStrict env s l = foldStrict env s m := by
  induction l generalizing m s with
  | nil =>
    cases m with
    | nil => rfl
    | cons a t => cases h
  | cons a t ih =>
    cases m with
    | nil => cases h
    | cons b u =>
      simp only [messages, List.map_cons, List.cons.injEq] at h
      unfold foldStrict
      rw [h.1]
      cases b.msg.applyTo env s with
      | ok s' => exact ih u h.2 s'
      | err x => rfl
      | panic => rfl

theorem Log.of_messages {env : Env} {x y : Bytes} {l m : List SignedEvent} {s s' : IdState} (h : Log env x l s) (h' : Log env y m s')
    (he : messages l = messages m) : s = s' := by
  have := h.fold
  rw [foldStrict_messages env l m he, h'.fold] at this
  exact (Res.ok.inj this).symm

theorem keysInForce_mem {l : List SignedEvent} {kc : KeyConfig} (h : keysInForce l = some kc) : ∃ g ∈ l, g.data.keyConfig? = some kc := by
  induction l with
  | nil => cases h
  | cons a t ih =>
    unfold keysInForce at h
    cases ht : keysInForce t with
    | none => rw [ht] at h; exact ⟨a, by simp, by simpa using h⟩
    | some k =>
      rw [ht] at h
      obtain ⟨g, h1, h2⟩ := ih (by rw [ht]; simpa using h)
      exact ⟨g, by simp [h1], h2⟩

theorem messages_take {l : List SignedEvent} {k : Nat} : messages (l.take k) = (messages l).take k := List.map_take

theorem forge_step {env : Env} {id : IdentifierPrefix} (hid : id.toStr ≠ []) {l : List SignedEvent} {sl : IdState} (hl : Log env id.toStr l sl)
    (prepared : List Keyring) {bs : List Action} {k : Nat} (hk : k ≤ l.length) (hm : messages ((after env bs).kel id) = messages (l.take k))
    {e : SignedEvent} (hp : e.pre.toStr = id.toStr) (hinc : e.data.isInception = true → k ≠ 0 ∨ ∃ g ∈ l, g.msg = e.msg) :
    (after env (bs ++ [.submit (.event e)])).kel id = (after env bs).kel id ∨
    ((after env (bs ++ [.submit (.event e)])).kel id = (after env bs).kel id ++ [e.stored] ∧ ∃ g, l[k]? = some g ∧ g.msg = e.msg) ∨
    Attack env l prepared (after env bs) e := by
  have hidE : e.pre.toStr ≠ [] := by rw [hp]; exact hid
  obtain ⟨s, hs, ho⟩ := event_outcome env bs e hidE
  rw [kel_text _ hp, hp] at hs
  obtain ⟨s0, hs0⟩ := hl.take k
  have hss : s = s0 := hs.of_messages hs0 hm
  subst hss
  have hlen : ((after env bs).kel id).length = k := by
    have := congrArg List.length hm
    simp only [messages, List.length_map, List.length_take] at this
    omega
  have hk0 : (after env bs).kel id = (after env bs).abs.log e.pre.toStr := by rw [← kel_text _ hp]; rfl
  have hk1 : (after env (bs ++ [.submit (.event e)])).kel id = (after env (bs ++ [.submit (.event e)])).abs.log e.pre.toStr := by
    rw [← kel_text _ hp]; rfl
  generalize hr : (process sled env (.event e) (after env bs)).1 = r at ho
  generalize (after env (bs ++ [.submit (.event e)])).abs = a' at ho hk1
  cases ho with
  | refused _ h2 _ =>
    left
    rw [hk0, hk1]
    exact MapDb.log_congr h2 _
  | @stored new hcd hrd hap hst _ =>
    have A := applyTo_ok hap
    rw [← hk0, ← hk1] at hst
    by_cases hgen : ∃ g ∈ l, g.msg = e.msg
    · obtain ⟨g, hg, hge⟩ := hgen
      obtain ⟨j, hj⟩ := List.mem_iff_getElem?.1 hg
      have hj' : j = k := by
        have h1 := ((hl.facts hid).2.2 j g hj).1
        have h2 : e.sn = k := by
          by_cases hz : k = 0
          · subst hz
            by_cases hi : e.data.isInception = true
            · exact A.incSn hi
            · have hi' : e.data.isInception = false := by simpa using hi
              have h3 := (hl.facts hid).2.2 j g hj
              have hnil : (after env bs).kel id = [] := List.eq_nil_of_length_eq_zero hlen
              have := A.nextPre hi'
              rw [(hs.facts hid).1 hnil] at this
              have h4 := congrArg IdentifierPrefix.toStr this
              rw [hp] at h4
              exact absurd h4 (by intro h; exact hid (h.trans rfl))
          · have hne : (after env bs).kel id ≠ [] := by intro h; rw [h] at hlen; exact hz hlen.symm
            have F := (hs.facts hid).2.1 hne
            by_cases hi : e.data.isInception = true
            · exact absurd (A.incPre hi) F.1
            · have := A.nextSn (by simpa using hi)
              omega
        have : g.sn = e.sn := by show g.msg.event.content.sn = _; rw [hge]
        omega
      subst hj'
      generalize hL : (after env (bs ++ [.submit (.event e)])).kel id = L at hst ⊢
      cases hst with
      | accepted => exact .inr (.inl ⟨rfl, g, hj, hge⟩)
      | undone => exact .inl rfl
      | unreadable => exact .inr (.inl ⟨rfl, g, hj, hge⟩)
      | noBytesErr => exact .inr (.inl ⟨rfl, g, hj, hge⟩)
      | noBytesPanic => exact .inr (.inl ⟨rfl, g, hj, hge⟩)
      | panicked => exact .inr (.inl ⟨rfl, g, hj, hge⟩)
    · have hno : ∀ g ∈ l, g.msg ≠ e.msg := fun g hg h => hgen ⟨g, hg, h⟩
      generalize hL : (after env (bs ++ [.submit (.event e)])).kel id = L at hst ⊢
      cases hst with
      | undone => exact .inl rfl
      | unreadable _ _ _ _ _ h => exact .inr (.inr ⟨hno, .inr (.inr (.inr (.inl h)))⟩)
      | noBytesErr er h => exact .inr (.inr ⟨hno, .inr (.inr (.inr (.inr ⟨er, h⟩)))⟩)
      | noBytesPanic => exact .inr (.inr ⟨hno, .inr (.inr (.inl hr))⟩)
      | panicked => exact .inr (.inr ⟨hno, .inr (.inr (.inl hr))⟩)
      | accepted bytes hser hver =>
        have V := validSigs_of_verify hver
        have hkne : k ≠ 0 := by
          rintro rfl
          have hnil : (after env bs).kel id = [] := List.eq_nil_of_length_eq_zero hlen
          by_cases hi : e.data.isInception = true
          · rcases hinc hi with h | h
            · exact h rfl
            · exact hgen h
          · have := A.nextPre (by simpa using hi)
            rw [(hs.facts hid).1 hnil] at this
            have h4 := congrArg IdentifierPrefix.toStr this
            rw [hp] at h4
            exact hid (h4.trans rfl)
        have hne : l.take k ≠ [] := by
          intro h
          have := congrArg List.length h
          simp only [List.length_take, List.length_nil] at this
          omega
        have hni : e.data.isInception = false := by
          by_cases hi : e.data.isInception = true
          · exact absurd (A.incPre hi) ((hs0.facts hid).2.1 hne).1
          · simpa using hi
        obtain ⟨g, hg, hgk⟩ := keysInForce_mem (hs0.keys hid hne)
        have hgl : g ∈ l := List.mem_of_mem_take hg
        have hset : (s.current.threshold, s.current.publicKeys) ∈ keySets l := by
          unfold keySets
          rw [List.mem_filterMap]
          exact ⟨g, hgl, by rw [hgk]; rfl⟩
        have forged : ∀ kc : KeyConfig, (kc.threshold, kc.publicKeys) ∈ keySets l ++ prepared → new.current = kc → Forged env (keySets l ++ prepared) e := by
          intro kc h1 h2
          rw [h2] at V
          exact ⟨kc.threshold, kc.publicKeys, bytes, h1, hser, ⟨V.distinct, V.valid, V.threshold⟩⟩
        refine .inr (.inr ⟨hno, ?_⟩)
        have rotated : ∀ r : RotationEvent, e.data.rotation? = some r → e.data.keyConfig? = some r.keyConfig →
            Forged env (keySets l ++ prepared) e ∨ Opened env l (keySets l ++ prepared) e ∨ Slipped env (after env bs) e := by
          intro r h1 h2
          by_cases hin : (r.keyConfig.threshold, r.keyConfig.publicKeys) ∈ keySets l ++ prepared
          · exact .inl (forged r.keyConfig hin (by rw [A.keys, h2]; rfl))
          · exact .inr (.inl ⟨r, g, s.current, h1, hgl, hgk, A.rot r h1, hin⟩)
        cases hd : e.data with
        | icp i => rw [hd] at hni; cases hni
        | dip i => rw [hd] at hni; cases hni
        | rot r => exact rotated r (by rw [hd]; rfl) (by rw [hd]; rfl)
        | drt r => exact rotated r (by rw [hd]; rfl) (by rw [hd]; rfl)
        | ixn r => exact .inl (forged s.current (List.mem_append_left _ hset) (by rw [A.keys, hd]; rfl))


theorem messages_append (l m : List SignedEvent) : messages (l ++ m) = messages l ++ messages m := List.map_append

theorem prefix_take {L l : List SignedEvent} (h : messages L <+: messages l) : L.length ≤ l.length ∧ messages L = messages (l.take L.length) := by
  have h1 := h.length_le
  simp only [messages, List.length_map] at h1
  refine ⟨h1, ?_⟩
  rw [messages_take]
  have := List.prefix_iff_eq_take.1 h
  rw [this]
  simp [messages]

theorem forge_next {env : Env} {id : IdentifierPrefix} (hid : id.toStr ≠ []) {l : List SignedEvent} {sl : IdState} (hl : Log env id.toStr l sl)
    (prepared : List Keyring) {bs : List Action} (hm : messages ((after env bs).kel id) <+: messages l)
    {e : SignedEvent} (hp : e.pre.toStr = id.toStr) (hinc : e.data.isInception = true → (after env bs).kel id ≠ [] ∨ ∃ g ∈ l, g.msg = e.msg) :
    (messages ((after env (bs ++ [.submit (.event e)])).kel id) <+: messages l ∧
      ((after env (bs ++ [.submit (.event e)])).kel id = (after env bs).kel id ∨
       (after env (bs ++ [.submit (.event e)])).kel id = (after env bs).kel id ++ [e.stored] ∧ ((after env bs).kel id).length < l.length)) ∨
    Attack env l prepared (after env bs) e := by
  obtain ⟨h1, h2⟩ := prefix_take hm
  rcases forge_step hid hl prepared h1 h2 hp (fun hi => (hinc hi).imp_left (fun h h0 => h (List.eq_nil_of_length_eq_zero h0))) with h | ⟨h, g, hg, hge⟩ | h
  · exact .inl ⟨by rw [h]; exact hm, .inl h⟩
  · obtain ⟨hlt, hgl⟩ := List.getElem?_eq_some_iff.1 hg
    refine .inl ⟨?_, .inr ⟨h, hlt⟩⟩
    rw [h, messages_append, h2, ← show messages [g] = messages [e.stored] by simp only [messages, List.map_cons, List.map_nil, hge]; rfl, ← messages_append,
      ← hgl, ← List.take_succ_eq_append_getElem hlt, messages_take]
    exact List.take_prefix _ _
  · exact .inr h

theorem sublist_last {l : List SignedEvent} {bs : List Action} {a : Action} (n : Nat) (hn : n ≤ l.length) (hs : (replay (l.take n)).Sublist (bs ++ [a])) :
    (replay (l.take n)).Sublist bs ∨ ∃ n' e, n = n' + 1 ∧ (replay (l.take n')).Sublist bs ∧ l[n']? = some e ∧ a = .submit (.event e) := by
  cases n with
  | zero => left; simp [replay]
  | succ n =>
    have hlt : n < l.length := by omega
    have hrep : replay (l.take (n + 1)) = replay (l.take n) ++ [.submit (.event l[n])] := by
      rw [List.take_succ_eq_append_getElem hlt, replay, List.map_append]; rfl
    rw [hrep] at hs
    by_cases ha : Action.submit (.event l[n]) = a
    · refine .inr ⟨n, l[n], rfl, ?_, List.getElem?_eq_getElem hlt, ha.symm⟩
      rw [ha] at hs
      have := List.reverse_sublist.2 hs
      simp only [List.reverse_append, List.reverse_cons, List.reverse_nil, List.nil_append, List.cons_append] at this
      have := (List.cons_sublist_cons.1 this)
      exact List.reverse_sublist.1 this
    · refine .inl ?_
      rw [hrep]
      have := List.reverse_sublist.2 hs
      simp only [List.reverse_append, List.reverse_cons, List.reverse_nil, List.nil_append, List.cons_append] at this
      rcases List.sublist_cons_iff.1 this with h4 | ⟨r, h4, _⟩
      · have := List.reverse_sublist.2 h4
        simpa using this
      · exact absurd (List.cons.inj h4).1 ha

theorem genuine_accepted {env : Env} {id : IdentifierPrefix} (hid : id.toStr ≠ []) {l : List SignedEvent} (P : Portable env id l) {bs : List Action}
    (hm : messages ((after env bs).kel id) <+: messages l) (hr : Readable ((after env bs).kel id)) {e : SignedEvent}
    (he : l[((after env bs).kel id).length]? = some e) :
    (after env (bs ++ [.submit (.event e)])).kel id = (after env bs).kel id ++ [e] := by
  obtain ⟨h1, h2⟩ := prefix_take hm
  generalize hj : ((after env bs).kel id).length = j at *
  obtain ⟨s, hl⟩ := P.log
  have hmem := List.mem_of_getElem? he
  obtain ⟨hseal, hpre⟩ := hl.noSeal e hmem
  have hje : j < l.length := (List.getElem?_eq_some_iff.1 he).1
  obtain ⟨s0, s1, hl0, hl1, hap⟩ := hl.step he
  obtain ⟨s', hs'⟩ := after_log env bs id hid
  have := hs'.of_messages hl0 h2
  subst this
  obtain ⟨e', kc, bytes, g1, g2, g3, g4⟩ := P.signed j hje
  rw [he] at g1
  cases g1
  have hkc : s1.current = kc := by
    have := hl1.keys hid (by rw [Ne, List.take_eq_nil_iff]; rintro (h | h); omega; rw [h] at he; simp at he)
    rw [g2] at this
    exact (Option.some.inj this).symm
  have acc := accepts env bs e (by rw [hpre]; exact hid) s' s1 bytes (by rw [kel_text _ hpre, hpre]; exact hs') (by rw [kel_text _ hpre]; exact hr)
    (plain_checkDelegation env e _ (plain_of (P.plain e hmem))) hap g3 (by rw [hkc]; exact verify_of_validSigs g4)
  rw [← kel_text _ hpre, acc.2, show e.stored = e by
    obtain ⟨m, sg, ds⟩ := e
    simp only at hseal
    subst hseal
    rfl, kel_text _ hpre]

structure SafeInv (env : Env) (sg : SignFn) (x : Net ι) (k : ι → Nat) : Prop where
  distinct : ∀ i j, i ≠ j → (x.pre i).toStr ≠ (x.pre j).toStr
  node : ∀ n, ∃ as s, (x n).2 = after env as ∧ (x n).1.Ready env sg ((after env as).kel (x n).1.pre) s ∧ s.sn = k n
  copies : ∀ n i, messages (x.copy n i) <+: messages (x.own i) ∧ Readable (x.copy n i)

theorem SafeInv.call {env : Env} {sg : SignFn} (hb : env.Blake3Size) {x : Net ι} {k : ι → Nat} (I : SafeInv env sg x k)
    (n : ι) (c : Call) (ho : c.own = true) (hk : k n + 1 ≤ u64max) :
    SafeInv env sg ((Happening.call n c).run env sg x) (fun i => if i = n then k i + 1 else k i) := by
  obtain ⟨as, s, h1, R, h3⟩ := I.node n
  have hx : x n = ((x n).1, after env as) := by rw [← h1]
  obtain ⟨e, c', new, g1, g2, g3, g4, g5, g6⟩ := ready_call hb R (by omega) c ho
  rw [← hx] at g1
  have hrun : ∀ i, (Happening.call n c).run env sg x i = if i = n then (c', after env (as ++ [.lookup .kels (x n).1.pre, .submit (.event e)])) else x i := by
    intro i
    show (if i = n then (c.run env sg (x n)).2 else x i) = _
    rw [g1]
  have hpre : ∀ i, ((Happening.call n c).run env sg x).pre i = x.pre i := by
    intro i
    unfold Net.pre
    rw [hrun]
    split
    · rename_i hi; subst hi; exact g2
    · rfl
  have hcopy : ∀ m i, ((Happening.call n c).run env sg x).copy m i = if m = n ∧ i = n then x.own n ++ [e] else x.copy m i := by
    intro m i
    unfold Net.copy
    rw [hpre, hrun]
    by_cases hm : m = n
    · subst hm
      rw [if_pos rfl]
      by_cases hi : i = m
      · subst hi
        rw [if_pos ⟨rfl, rfl⟩]
        unfold Net.own Net.copy Net.pre
        dsimp only
        rw [g6, h1]
      · rw [if_neg (fun h => hi h.2)]
        dsimp only
        have hpi : (x.pre i).toStr ≠ [] := by
          obtain ⟨_, _, _, R', _⟩ := I.node i
          exact R'.preNe
        rw [show as ++ [Action.lookup .kels (x m).1.pre, .submit (.event e)] = (as ++ [.lookup .kels (x m).1.pre]) ++ [.submit (.event e)] by simp,
          other_kel env _ _ _ hpi, after_lookup_kel, h1]
        intro hs
        have : e.pre.toStr = (x.pre i).toStr := hs
        exact I.distinct i m hi (by rw [← this, g5]; rfl)
    · rw [if_neg hm, if_neg (fun h => hm h.1)]
  refine ⟨fun i j hij => by rw [hpre, hpre]; exact I.distinct i j hij, fun m => ?_, fun m i => ?_⟩
  · by_cases hm : m = n
    · subst hm
      refine ⟨as ++ [.lookup .kels (x m).1.pre, .submit (.event e)], new, by rw [hrun, if_pos rfl], ?_, by rw [g4, h3, if_pos rfl]⟩
      rw [hrun, if_pos rfl]
      exact g3
    · obtain ⟨as', s', q1, q2, q3⟩ := I.node m
      exact ⟨as', s', by rw [hrun, if_neg hm]; exact q1, by rw [hrun, if_neg hm]; exact q2, by rw [if_neg hm]; exact q3⟩
  · unfold Net.own
    rw [hcopy, hcopy]
    obtain ⟨p1, p2⟩ := I.copies m i
    by_cases hi : i = n
    · subst hi
      rw [if_pos (⟨rfl, rfl⟩ : i = i ∧ i = i)]
      by_cases hm : m = i
      · subst hm
        rw [if_pos ⟨rfl, rfl⟩]
        refine ⟨List.prefix_refl _, ?_⟩
        have : x.own m ++ [e] = (after env (as ++ [.lookup .kels (x m).1.pre, .submit (.event e)])).kel c'.pre := by
          rw [g2, g6, ← h1]; rfl
        rw [this]
        exact g3.readable
      · rw [if_neg (fun h => hm h.1)]
        exact ⟨p1.trans (by rw [messages_append]; exact List.prefix_append _ _), p2⟩
    · rw [if_neg (fun h => hi h.2), if_neg (fun h => hi h.2)]
      exact ⟨p1, p2⟩

theorem SafeInv.arrives {env : Env} {sg : SignFn} {x : Net ι} {k : ι → Nat} (I : SafeInv env sg x k)
    (n : ι) (a : Action) (hh : (Happening.arrives n a).Safe env x) :
    SafeInv env sg ((Happening.arrives n a).run env sg x) k := by
  obtain ⟨as, s, h1, R, h3⟩ := I.node n
  have hrun : ∀ i, (Happening.arrives n a).run env sg x i = if i = n then ((x n).1, after env (as ++ [a])) else x i := by
    intro i
    show (if i = n then ((x n).1, a.run sled env (x n).2) else x i) = _
    rw [h1, after_other]
  have hpre : ∀ i, ((Happening.arrives n a).run env sg x).pre i = x.pre i := by
    intro i
    unfold Net.pre
    rw [hrun]
    split
    · rename_i hi; subst hi; rfl
    · rfl
  have hat : ∀ i, messages ((after env (as ++ [a])).kel (x.pre i)) <+: messages (x.own i) ∧ Readable ((after env (as ++ [a])).kel (x.pre i)) ∧
      (i = n → (after env (as ++ [a])).kel (x.pre i) = x.own i) := by
    intro i
    obtain ⟨p1, p2⟩ := I.copies n i
    have hc : x.copy n i = (after env as).kel (x.pre i) := by unfold Net.copy; rw [h1]
    obtain ⟨as', s', q1, R', _⟩ := I.node i
    have hown : x.own i = (after env as').kel (x i).1.pre := by show (x i).2.kel (x i).1.pre = _; rw [q1]
    by_cases hs : a.submitsFor (x.pre i)
    · obtain ⟨e, rfl, hp⟩ : ∃ e, a = .submit (.event e) ∧ e.pre.toStr = (x.pre i).toStr := by
        cases a with
        | submit m =>
          cases m with
          | event e => exact ⟨e, rfl, hs⟩
          | rctNt r => cases hs
          | rctT r => cases hs
          | reply r => cases hs
          | query q => cases hs
        | reprocess => cases hs
        | lookup t i => cases hs
      obtain ⟨w1, w2, w3⟩ := hh i e rfl hp
      rw [hc] at p1 p2 w3
      have hlog : Log env (x.pre i).toStr (x.own i) s' := by rw [hown]; exact R'.log
      rcases forge_next (id := x.pre i) R'.preNe hlog [(.simple 1, [(x i).1.km.nextKey])] p1 hp w3 with ⟨f1, f2⟩ | f
      · refine ⟨f1, ?_, fun hi => ?_⟩
        · rcases f2 with f2 | ⟨f2, _⟩
          · rw [f2]; exact p2
          · rw [f2]; exact p2.snoc w1
        · subst hi
          have ho : x.own i = (after env as).kel (x.pre i) := hc
          rcases f2 with f2 | ⟨_, f2⟩
          · rw [f2, ← ho]
          · rw [ho] at f2; omega
      · rw [h1] at w2
        exact absurd f w2
    · rw [other_kel env as a (x.pre i) R'.preNe hs, ← hc]
      exact ⟨p1, p2, fun hi => by subst hi; rfl⟩
  have hcopy : ∀ m i, ((Happening.arrives n a).run env sg x).copy m i = if m = n then (after env (as ++ [a])).kel (x.pre i) else x.copy m i := by
    intro m i
    unfold Net.copy
    rw [hpre, hrun]
    split <;> rfl
  have hown : ∀ i, ((Happening.arrives n a).run env sg x).own i = x.own i := by
    intro i
    unfold Net.own
    rw [hcopy]
    split
    · rename_i hi; exact (hat i).2.2 hi
    · rfl
  refine ⟨fun i j hij => by rw [hpre, hpre]; exact I.distinct i j hij, fun m => ?_, fun m i => ?_⟩
  · by_cases hm : m = n
    · subst hm
      refine ⟨as ++ [a], s, by rw [hrun, if_pos rfl], ?_, h3⟩
      rw [hrun, if_pos rfl]
      dsimp only
      have := (hat m).2.2 rfl
      unfold Net.pre at this
      rw [this]
      have hr := R
      rw [← h1] at hr
      exact hr
    · obtain ⟨as', s', q1, q2, q3⟩ := I.node m
      exact ⟨as', s', by rw [hrun, if_neg hm]; exact q1, by rw [hrun, if_neg hm]; exact q2, q3⟩
  · rw [hown, hcopy]
    split
    · exact ⟨(hat i).1, (hat i).2.1⟩
    · exact I.copies m i

theorem safe_run {env : Env} {sg : SignFn} (hb : env.Blake3Size) (hs : List (Happening ι)) : ∀ {x : Net ι} {k : ι → Nat},
    SafeInv env sg x k → x.Safe env sg hs → (∀ n, k n + calls n hs ≤ u64max) → SafeInv env sg (x.run env sg hs) (fun i => k i + calls i hs) := by
  induction hs with
  | nil =>
    intro x k I _ _
    simpa [calls, Net.run] using I
  | cons h hs ih =>
    intro x k I hon hk
    cases h with
    | call n c =>
      have hc : ∀ i, calls i (.call n c :: hs) = calls i hs + if n = i then 1 else 0 := by
        intro i
        unfold calls
        rw [List.countP_cons]
        simp
      have I' := I.call hb n c hon.1 (by have := hk n; rw [hc, if_pos rfl] at this; omega)
      have j2 := ih I' hon.2 (fun m => by
        have := hk m
        rw [hc] at this
        by_cases hm : m = n
        · subst hm; rw [if_pos rfl] at this ⊢; omega
        · rw [if_neg (fun h => hm h.symm)] at this; rw [if_neg hm]; omega)
      have h2 : (fun i => k i + calls i (.call n c :: hs)) = (fun i => (if i = n then k i + 1 else k i) + calls i hs) := by
        funext i
        rw [hc]
        by_cases hm : i = n
        · subst hm; rw [if_pos rfl, if_pos rfl]; omega
        · rw [if_neg (fun h => hm h.symm), if_neg hm]; omega
      rw [h2]
      exact j2
    | arrives n a =>
      have I' := I.arrives n a hon.1
      have hc : ∀ i, calls i (.arrives n a :: hs) = calls i hs := by
        intro i
        unfold calls
        rw [List.countP_cons]
        simp
      have j2 := ih I' hon.2 (fun m => by rw [← hc m]; exact hk m)
      have h2 : (fun i => k i + calls i (.arrives n a :: hs)) = (fun i => k i + calls i hs) := by funext i; rw [hc]
      rw [h2]
      exact j2

omit [DecidableEq ι] in
theorem net_starts {env : Env} {sg : SignFn} (hb : env.Blake3Size) {x : Net ι} (B : x.Starts env sg) : SafeInv env sg x (fun _ => 0) := by
  have node : ∀ n, ∃ as s, (x n).2 = after env as ∧ (x n).1.Ready env sg ((after env as).kel (x n).1.pre) s ∧ s.sn = 0 := by
    intro n
    obtain ⟨km, rnd, extra, ws, past, e, hw, hi, hrt⟩ := B.born n
    obtain ⟨hdb, hpre, _, s, R, hs⟩ := incept_ready hb hw hi hrt
    exact ⟨_, s, hdb, R, hs⟩
  refine ⟨B.distinct, node, fun n i => ?_⟩
  by_cases h : n = i
  · subst h
    obtain ⟨as, s, h1, R, _⟩ := node n
    refine ⟨List.prefix_refl _, ?_⟩
    show Readable ((x n).2.kel (x n).1.pre)
    rw [h1]
    exact R.readable
  · exact B.genuine n i h

/-! ## C95 -/

/-- C95: whoever has the genuine inception of an identifier can be made to log something its owner has not logged only by an attack: whatever arrives, the
messages of the log stay an initial piece of those of the owner (`l`), or the traffic contains an event in the name of the owner that is not the owner's
and either carries enough valid signatures of the owner's on a text the owner never published, or opens one of the owner's commitments with other keys, or
makes the processor crash or fail to encode or to read the event. -/
theorem C95_fork_needs_attack (env : Env) (as bs cs : List Action) (id : IdentifierPrefix) (hid : id.toStr ≠ []) (prepared : List Keyring)
    (hne : (after env bs).kel id ≠ []) (hm : messages ((after env bs).kel id) <+: messages ((after env as).kel id)) :
    messages ((after env (bs ++ cs)).kel id) <+: messages ((after env as).kel id) ∨
    ∃ before e rest, cs = before ++ .submit (.event e) :: rest ∧ e.pre.toStr = id.toStr ∧
      Attack env ((after env as).kel id) prepared (after env (bs ++ before)) e := by
  obtain ⟨sl, hl⟩ := after_log env as id hid
  suffices h : (messages ((after env (bs ++ cs)).kel id) <+: messages ((after env as).kel id) ∧ (after env (bs ++ cs)).kel id ≠ []) ∨
    ∃ before e rest, cs = before ++ .submit (.event e) :: rest ∧ e.pre.toStr = id.toStr ∧
      Attack env ((after env as).kel id) prepared (after env (bs ++ before)) e from h.imp_left (·.1)
  induction cs using snoc_induction with
  | h0 => left; rw [List.append_nil]; exact ⟨hm, hne⟩
  | h1 cs a ih =>
    rcases ih with ⟨h1, h2⟩ | ⟨before, e, rest, rfl, h2, h3⟩
    · rw [← List.append_assoc]
      by_cases hs : a.submitsFor id
      · cases a with
        | submit m =>
          cases m with
          | event e =>
            rcases forge_next hid hl prepared h1 (e := e) hs (fun _ => .inl h2) with ⟨h, hor⟩ | h
            · refine .inl ⟨h, ?_⟩
              rcases hor with hor | ⟨hor, _⟩
              · rw [hor]; exact h2
              · rw [hor]; simp
            · exact .inr ⟨cs, e, [], rfl, hs, h⟩
          | rctNt r => cases hs
          | rctT r => cases hs
          | reply r => cases hs
          | query q => cases hs
        | reprocess => cases hs
        | lookup t i => cases hs
      · rw [other_kel env _ a id hid hs]
        exact .inl ⟨h1, h2⟩
    · exact .inr ⟨before, e, rest ++ [a], by simp, h2, h3⟩

/-- C95, without an attack nothing that arrives keeps genuine events out either: once the missing events of the owner's log have arrived in order, with whatever else
before, in between and after, the messages of the log are those of the owner, and the state computed is the owner's. -/
theorem C95_not_blocked (env : Env) (as bs cs : List Action) (id : IdentifierPrefix) (hid : id.toStr ≠ []) (prepared : List Keyring)
    (hr : Readable ((after env as).kel id)) (hnd : ∀ e ∈ (after env as).kel id, e.data.isDelegated = false)
    (hsig : ∀ i, i < ((after env as).kel id).length → SignedInForce env ((after env as).kel id) i)
    (hne : (after env bs).kel id ≠ []) (hm : messages ((after env bs).kel id) <+: messages ((after env as).kel id)) (hrb : Readable ((after env bs).kel id))
    (hquiet : ∀ before e rest, cs = before ++ .submit (.event e) :: rest → e.pre.toStr = id.toStr →
      e.rt = true ∧ ¬ Attack env ((after env as).kel id) prepared (after env (bs ++ before)) e)
    (hall : (replay (((after env as).kel id).drop ((after env bs).kel id).length)).Sublist cs) :
    messages ((after env (bs ++ cs)).kel id) = messages ((after env as).kel id) ∧
    (computeState sled env id (after env (bs ++ cs))).1 = (computeState sled env id (after env as)).1 := by
  have P := portable env as id hid hr hnd hsig
  have key : messages ((after env (bs ++ cs)).kel id) <+: messages ((after env as).kel id) ∧ Readable ((after env (bs ++ cs)).kel id) ∧
      (after env (bs ++ cs)).kel id ≠ [] ∧
      ∀ n, n ≤ (((after env as).kel id).drop ((after env bs).kel id).length).length →
        (replay ((((after env as).kel id).drop ((after env bs).kel id).length).take n)).Sublist cs →
        ((after env bs).kel id).length + n ≤ ((after env (bs ++ cs)).kel id).length := by
    generalize (after env as).kel id = l at *
    obtain ⟨sl, hl⟩ := P.log
    clear hall
    generalize hk0 : ((after env bs).kel id).length = k0 at *
    revert hquiet
    refine snoc_induction (P := fun cs => (∀ before e rest, cs = before ++ .submit (.event e) :: rest → e.pre.toStr = id.toStr →
      e.rt = true ∧ ¬ Attack env l prepared (after env (bs ++ before)) e) →
      messages ((after env (bs ++ cs)).kel id) <+: messages l ∧ Readable ((after env (bs ++ cs)).kel id) ∧ (after env (bs ++ cs)).kel id ≠ [] ∧
      ∀ n, n ≤ (l.drop k0).length → (replay ((l.drop k0).take n)).Sublist cs → k0 + n ≤ ((after env (bs ++ cs)).kel id).length) cs ?_ ?_
    · intro _
      rw [List.append_nil]
      refine ⟨hm, hrb, hne, fun n hn hs => ?_⟩
      have := hs.length_le
      simp only [replay, List.length_map, List.length_take, List.length_nil] at this
      rw [Nat.min_eq_left hn] at this
      omega
    · intro cs a ih hquiet
      obtain ⟨i1, i2, i3, i4⟩ := ih (fun before e rest h => hquiet before e (rest ++ [a]) (by rw [h]; simp))
      rw [← List.append_assoc]
      by_cases hs : a.submitsFor id
      · obtain ⟨e, rfl, hp⟩ : ∃ e, a = .submit (.event e) ∧ e.pre.toStr = id.toStr := by
          cases a with
          | submit m =>
            cases m with
            | event e => exact ⟨e, rfl, hs⟩
            | rctNt r => cases hs
            | rctT r => cases hs
            | reply r => cases hs
            | query q => cases hs
          | reprocess => cases hs
          | lookup t i => cases hs
        obtain ⟨q1, q2⟩ := hquiet cs e [] rfl hp
        rcases forge_next hid hl prepared i1 (e := e) hp (fun _ => .inl i3) with ⟨h, hor⟩ | h
        · have hread : Readable ((after env (bs ++ cs ++ [.submit (.event e)])).kel id) := by
            rcases hor with hor | ⟨hor, _⟩
            · rw [hor]; exact i2
            · rw [hor]; exact i2.snoc q1
          have hge : ((after env (bs ++ cs)).kel id).length ≤ ((after env (bs ++ cs ++ [.submit (.event e)])).kel id).length := by
            rcases hor with hor | ⟨hor, _⟩ <;> rw [hor] <;> simp
          refine ⟨h, hread, ?_, fun n hn hsub => ?_⟩
          · intro h0
            rw [h0] at hge
            exact i3 (List.eq_nil_of_length_eq_zero (by simpa using hge))
          · rcases sublist_last n hn hsub with h' | ⟨n', e', rfl, h', he', ha⟩
            · exact Nat.le_trans (i4 n hn h') hge
            · cases ha
              have hn' := i4 n' (by omega) h'
              by_cases heq : k0 + n' = ((after env (bs ++ cs)).kel id).length
              · rw [genuine_accepted hid P i1 i2 (by rw [← heq]; rw [List.getElem?_drop] at he'; exact he')]
                simp only [List.length_append, List.length_cons, List.length_nil]
                omega
              · omega
        · exact absurd h q2
      · rw [other_kel env _ a id hid hs]
        refine ⟨i1, i2, i3, fun n hn hsub => ?_⟩
        rcases sublist_last n hn hsub with h' | ⟨n', e', rfl, h', he', ha⟩
        · exact i4 n hn h'
        · subst ha
          exact absurd (submitsFor_log P (List.mem_of_mem_drop (List.mem_of_getElem? he'))) hs
  obtain ⟨k1, k2, k3, k4⟩ := key
  have hlen := k4 _ (Nat.le_refl _) (by rw [List.take_length]; exact hall)
  have hmsg : messages ((after env (bs ++ cs)).kel id) = messages ((after env as).kel id) := by
    refine k1.eq_of_length ?_
    have := k1.length_le
    rw [List.length_drop] at hlen
    simp only [messages, List.length_map] at this ⊢
    omega
  have hnl : (after env as).kel id ≠ [] := by
    intro h
    rw [h] at hmsg
    exact k3 (List.map_eq_nil_iff.1 hmsg)
  obtain ⟨s1, l1, c1⟩ := computeState_log env (bs ++ cs) id hid k3 k2
  obtain ⟨s2, l2, c2⟩ := computeState_log env as id hid hnl hr
  have := l1.of_messages l2 hmsg
  subst this
  exact ⟨hmsg, by rw [c1, c2]⟩

/-- C95 for a network of controllers under attack: as long as nobody presents signatures of a node's keys on what the node did not publish, opens a node's
commitment with other keys, crashes a processor, or introduces a node with an inception that is not its own, then whatever else arrives anywhere, in the name of anyone, what any node has
of the log of any node is, up to the signatures attached, an initial piece of that log … -/
theorem C95_network (env : Env) (hb : env.Blake3Size) (sg : SignFn) (x : Net ι) (hx : x.Starts env sg) (hs : List (Happening ι)) (hsafe : x.Safe env sg hs)
    (hc : ∀ n, calls n hs ≤ u64max) (n i : ι) : messages ((x.run env sg hs).copy n i) <+: messages ((x.run env sg hs).own i) := by
  have := (safe_run hb hs (net_starts hb hx) hsafe (fun n => by have := hc n; omega)).copies n i
  exact this.1

/-- … and its own calls all succeed: its log is its inception and one event for each call. -/
theorem C95_network_progress (env : Env) (hb : env.Blake3Size) (sg : SignFn) (x : Net ι) (hx : x.Starts env sg) (hs : List (Happening ι))
    (hsafe : x.Safe env sg hs) (hc : ∀ n, calls n hs ≤ u64max) (n : ι) : ((x.run env sg hs).own n).length = 1 + calls n hs := by
  obtain ⟨as, s, h1, R, h3⟩ := (safe_run hb hs (net_starts hb hx) hsafe (fun n => by have := hc n; omega)).node n
  have := ((R.log.facts R.preNe).2.1 R.nonempty).2.2.1
  show ((x.run env sg hs n).2.kel (x.run env sg hs n).1.pre).length = _
  rw [h1]
  omega

/-! ## Examples -/

namespace Ex
/-- `Attack`, computed -/
def attacks (l : List SignedEvent) (prepared : List Keyring) (db : Db) (e : SignedEvent) : Bool :=
  l.all (fun g => !decide (g.msg = e.msg)) &&
  ((keySets l ++ prepared).any (fun s => match e.msg.serialize env with | .ok b => decide (KeyConfig.verify env ⟨s.1, s.2, none⟩ b e.sigs = .ok true) | _ => false) ||
   ((match e.data.rotation? with
     | some r => l.any (fun g => match g.data.keyConfig? with | some kc => kc.verifyNext env r.keyConfig | none => false) &&
        !(keySets l ++ prepared).contains (r.keyConfig.threshold, r.keyConfig.publicKeys)
     | none => false) ||
    (decide ((process sled env (.event e) db).1 = .panic) || !e.rt || (match e.msg.serialize env with | .err _ => true | _ => false))))

theorem attacks_of {l : List SignedEvent} {prepared : List Keyring} {db : Db} {e : SignedEvent} (h : Attack env l prepared db e) :
    attacks l prepared db e = true := by
  obtain ⟨h1, h2⟩ := h
  unfold attacks
  rw [Bool.and_eq_true, Bool.or_eq_true, Bool.or_eq_true]
  refine ⟨List.all_eq_true.2 fun g hg => by simpa using h1 g hg, ?_⟩
  rcases h2 with ⟨t, ks, b, g1, g2, g3⟩ | ⟨r, g, kc, g1, g2, g3, g4, g5⟩ | h
  · exact .inl (List.any_eq_true.2 ⟨(t, ks), g1, by rw [g2]; exact decide_eq_true (verify_of_validSigs g3)⟩)
  · refine .inr (.inl ?_)
    rw [g1]
    simp only [Bool.and_eq_true]
    refine ⟨List.any_eq_true.2 ⟨g, g2, by rw [g3]; exact g4⟩, ?_⟩
    simpa using g5
  · refine .inr (.inr ?_)
    rcases h with h | h | ⟨er, h⟩
    · simp [h]
    · simp [h]
    · simp [h]

/-- an interaction that is not the owner's; one of the two signatures is a stranger's -/
def fakeIxn : SignedEvent :=
  let m := msgOr ((Event.mk id 2 (.ixn ⟨rot.dig, []⟩)).toMessage env .json .blake3_256)
  ⟨m, [sig 4 0 (jsonText m.sval), sig 99 1 (jsonText m.sval)], none⟩
/-- a rotation to keys of a stranger, signed by the stranger -/
def fakeRot : SignedEvent :=
  signAll (msgOr ((Event.mk id 1 (.rot ⟨icp.dig, kc [97, 98, 99] [97, 98, 99] (.simple 2), 0, [], [], []⟩)).toMessage env .json .blake3_256)) [97, 98, 99]

/-- what arrives at a processor that has the inception of the example: forged events before, between and after the genuine ones -/
def attackTraffic : List Action :=
  [.submit (.event fakeRot), .submit (.event ixn), .submit (.event rot), .submit (.event fakeIxn), .reprocess, .submit (.event ixn), .submit (.event fakeIxn)]

theorem split_mem {α : Type} {cs before rest : List α} {a : α} (h : cs = before ++ a :: rest) : cs[before.length]? = some a ∧ before = cs.take before.length := by
  subst h
  simp

/-- none of it is an attack -/
def quiet : Bool := (List.range attackTraffic.length).all fun i => match attackTraffic[i]? with
  | some (.submit (.event e)) => e.rt && !attacks ((after env hist).kel id) [] (after env ([Action.submit (.event icp)] ++ attackTraffic.take i)) e
  | _ => true

theorem quiet_ok (before : List Action) (e : SignedEvent) (rest : List Action) (h : attackTraffic = before ++ .submit (.event e) :: rest) :
    e.rt = true ∧ ¬ Attack env ((after env hist).kel id) [] (after env ([.submit (.event icp)] ++ before)) e := by
  obtain ⟨h1, h2⟩ := split_mem h
  have hq : quiet = true := by decide +kernel
  have hlt : before.length < attackTraffic.length := (List.getElem?_eq_some_iff.1 h1).1
  have := List.all_eq_true.1 hq before.length (List.mem_range.2 hlt)
  rw [h1, ← h2] at this
  simp only [Bool.and_eq_true, Bool.not_eq_true'] at this
  exact ⟨this.1, fun ha => by rw [attacks_of ha] at this; exact absurd this.2 (by simp)⟩
end Ex

open Ex in
/-- the hypotheses of C95 are met: a processor with the inception of the example meets forged traffic and ends with the log of the owner -/
example : (after env [.submit (.event icp)]).kel id ≠ [] ∧
    messages ((after env [.submit (.event icp)]).kel id) <+: messages ((after env hist).kel id) ∧ Readable ((after env [.submit (.event icp)]).kel id) ∧
    (replay (((after env hist).kel id).drop ((after env [.submit (.event icp)]).kel id).length)).Sublist attackTraffic ∧
    (after env ([.submit (.event icp)] ++ attackTraffic)).kel id = (after env hist).kel id ∧
    (after env hist).kel id = [icp, rot, ixn] := by
  have hk : (after env hist).kel id = [icp, rot, ixn] := by decide +kernel
  refine ⟨by decide +kernel, ?_, by unfold Readable; decide +kernel, ?_, by decide +kernel, hk⟩
  · rw [hk]
    have : (after env [.submit (.event icp)]).kel id = [icp] := by decide +kernel
    rw [this]
    exact ⟨[rot.msg, ixn.msg], rfl⟩
  · rw [hk, show ((after env [.submit (.event icp)]).kel id).length = 1 by decide +kernel]
    exact .cons _ (.cons _ (.cons_cons _ (.cons _ (.cons _ (.cons_cons _ (.cons _ .slnil))))))


namespace Ex
/-- an interaction in the name of the first node, signed by a stranger -/
def netFake : SignedEvent :=
  signAll (msgOr ((Event.mk (net.pre true) 1 (.ixn ⟨(evOr aliceIcp.1).dig, []⟩)).toMessage env .json .blake3_256)) [99]

/-- the traffic of C94 with forged events in between -/
def unsafeSchedule : List (Happening Bool) :=
  let rot := evOr (Controller.rotate env sg (net true).1 (net true).2).1
  [.arrives true (.submit (.event netFake)), .call true .rotate, .arrives false (.submit (.event netFake)), .arrives false (.submit (.event (evOr aliceIcp.1))),
   .arrives false (.submit (.event netFake)), .arrives false (.submit (.event rot)), .call false (.ixn none), .arrives true (.submit (.event (evOr bobIcp.1)))]

/-- `Net.Safe`, computed for two nodes -/
def safe (x : Net Bool) : List (Happening Bool) → Bool
  | [] => true
  | h :: hs => (match h with
      | .call _ c => c.own
      | .arrives n (.submit (.event e)) => [true, false].all fun i => !decide (e.pre.toStr = (x.pre i).toStr) ||
          (e.rt && !attacks (x.own i) [(.simple 1, [(x i).1.km.nextKey])] (x n).2 e &&
            (!e.data.isInception || !decide (x.copy n i = []) || (x.own i).any fun g => decide (g.msg = e.msg)))
      | .arrives _ _ => true) && safe (h.run env sg x) hs

theorem safe_ok : ∀ (hs : List (Happening Bool)) (x : Net Bool), safe x hs = true → x.Safe env sg hs
  | [], _, _ => trivial
  | h :: hs, x, hh => by
    unfold safe at hh
    rw [Bool.and_eq_true] at hh
    refine ⟨?_, safe_ok hs _ hh.2⟩
    cases h with
    | call n c => exact hh.1
    | arrives n a =>
      intro i e ha hp
      subst ha
      have := List.all_eq_true.1 hh.1 i (by cases i <;> simp)
      simp only [hp, decide_true, Bool.not_true, Bool.false_or, Bool.and_eq_true, Bool.not_eq_true', Bool.or_eq_true] at this
      refine ⟨this.1.1, fun hat => ?_, fun hi => ?_⟩
      · rw [attacks_of hat] at this
        exact absurd this.1.2 (by simp)
      · rcases this.2 with (h | h) | h
        · rw [hi] at h; cases h
        · exact .inl (of_decide_eq_false h)
        · obtain ⟨g, hg, hge⟩ := List.any_eq_true.1 h
          exact .inr ⟨g, hg, of_decide_eq_true hge⟩
end Ex

open Ex in
/-- the hypotheses of C95_network are met by two controllers among forged traffic; the second ends with the log of the first -/
example : net.Starts env sg ∧ net.Safe env sg unsafeSchedule ∧ (∀ n, calls n unsafeSchedule ≤ u64max) ∧
    messages ((net.run env sg unsafeSchedule).copy false true) = messages ((net.run env sg unsafeSchedule).own true) ∧
    ((net.run env sg unsafeSchedule).own true).length = 2 := by
  refine ⟨⟨fun n => ?_, net_is.distinct, fun n i h => ?_⟩, safe_ok _ _ (by decide +kernel), by decide, by decide +kernel, by decide +kernel⟩
  · obtain ⟨km, rnd, extra, ws, e, h⟩ := net_is.born n
    exact ⟨km, rnd, extra, ws, _, e, h⟩
  · have hk : net.copy n i = [] := by
      cases n <;> cases i
      · exact absurd rfl h
      · decide +kernel
      · decide +kernel
      · exact absurd rfl h
    rw [hk]
    exact ⟨List.nil_prefix, fun e he => by cases he⟩

end Keriox
