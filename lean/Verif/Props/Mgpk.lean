import Verif.MgpkFacts
import Verif.Props.Cbor
import Verif.Spec
import Verif.Props.Kel
/-!
# Property C111: messages in MessagePack
-/
namespace Keriox

/-! ## Specification -/

/-- a seal after its field names have been dropped: nothing tells a root seal from a digest seal -/
def Seal.unnamed : Seal → Seal
  | .root d => .digest d
  | s => s
/-- event data with every root seal turned into the digest seal of the same digest -/
def EventData.unnamed : EventData → EventData
  | .icp e => .icp { e with data := e.data.map Seal.unnamed }
  | .rot e => .rot { e with data := e.data.map Seal.unnamed }
  | .ixn e => .ixn { e with data := e.data.map Seal.unnamed }
  | .dip e => .dip { e with inception := { e.inception with data := e.inception.data.map Seal.unnamed } }
  | .drt e => .drt { e with data := e.data.map Seal.unnamed }
/-- a key event with every root seal turned into the digest seal of the same digest -/
def KeyEvent.unnamed (e : KeyEvent) : KeyEvent := { e with content := { e.content with data := e.content.data.unnamed } }
/-- a message with every root seal turned into the digest seal of the same digest -/
def EventMessage.unnamed (m : EventMessage) : EventMessage := { m with event := m.event.unnamed }

/-! ## Seals -/

theorem desSeal_unnamed (s : Seal) (h : s.Representable) : desSeal s.sval.toM = .ok s.unnamed := by
  have dig : ∀ d : SelfAddressingPrefix, d.Sized → desSeal (.arr [.str d.toStr]) = .ok (.digest d) := by
    intro d hd
    have h1 : IdentifierPrefix.fromStr d.toStr = .ok (.selfAddressing d) :=
      C35_identifier_roundtrip (.selfAddressing d) hd (by simp [IdentifierPrefix.IsSecp])
    have h2 := C35_selfAddressing_roundtrip d hd
    unfold desSeal desLocationSeal desEventSeal desDigestSeal
    simp only [structFields, List.map_cons, List.map_nil, seqWalk, tried, desText_ok, h1, h2, Res.ok_bind]
    simp [orTry, optField, lookLast, desText_ok, h2, need, Res.ofOption]
  cases s with
  | location s =>
    obtain ⟨h1, h2, h3, h4⟩ := h
    have g1 := C35_identifier_roundtrip _ h1.1 h1.2
    have g2 := C35_selfAddressing_roundtrip _ h3
    have g3 := (desHex_iff _).2 h2
    simp only [Seal.sval, SVal.toM, SVal.toMValues, Seal.unnamed]
    unfold desSeal desLocationSeal
    simp only [structFields, List.map_cons, List.map_nil, seqWalk, tried, desText_ok, g1, g2, g3, Res.ok_bind]
    simp [orTry, optField, lookLast, desText_ok, g1, g2, g3, need, Res.ofOption]
  | event s =>
    obtain ⟨h1, h2, h3⟩ := h
    have g1 := C35_identifier_roundtrip _ h1.1 h1.2
    have g2 := C35_selfAddressing_roundtrip _ h3
    have g3 := (desHex_iff _).2 h2
    simp only [Seal.sval, SVal.toM, SVal.toMValues, Seal.unnamed]
    unfold desSeal desLocationSeal desEventSeal
    simp only [structFields, List.map_cons, List.map_nil, seqWalk, tried, desText_ok, g1, g2, g3, Res.ok_bind]
    simp [orTry, optField, lookLast, desText_ok, g1, g2, g3, need, Res.ofOption]
  | digest d => exact dig d h
  | root d => exact dig d h

theorem Seal.unnamed_representable {s : Seal} (h : s.Representable) : s.unnamed.Representable := by
  cases s <;> exact h

private theorem toMs_map {α : Type} (f : α → SVal) (l : List α) : SVal.toMs (l.map f) = l.map fun a => (f a).toM := by
  induction l with
  | nil => rfl
  | cons a l ih => simp only [List.map_cons, SVal.toMs, ih]
private theorem toJs_map' {α : Type} (f : α → SVal) (l : List α) : SVal.toJs (l.map f) = l.map fun a => (f a).toJ := by
  induction l with
  | nil => rfl
  | cons a l ih => simp only [List.map_cons, SVal.toJs, ih]

private theorem desAll_congr {α : Type} (p : JVal → Res α) : ∀ (xs ys : List JVal), xs.map p = ys.map p → desAll p xs = desAll p ys
  | [], [], _ => rfl
  | [], _ :: _, h => by cases h
  | _ :: _, [], h => by cases h
  | x :: xs, y :: ys, h => by
    simp only [List.map_cons, List.cons.injEq] at h
    unfold desAll
    rw [h.1, desAll_congr p xs ys h.2]

theorem seals_unnamed (ss : List Seal) (h : ∀ s ∈ ss, s.Representable) :
    desVec desSeal (SVal.seq (ss.map Seal.sval)).toM = desVec desSeal (SVal.seq ((ss.map Seal.unnamed).map Seal.sval)).toJ := by
  simp only [SVal.toM, SVal.toJ, toMs_map, toJs_map', desVec, List.map_map]
  refine desAll_congr _ _ _ ?_
  simp only [List.map_map]
  refine List.map_congr_left fun s hs => ?_
  simp only [Function.comp]
  rw [desSeal_unnamed s (h s hs), (desSeal_iff _).2 (Seal.rt_of (Seal.unnamed_representable (h s hs))).1]

/-! ## Members that differ only in how the seals are written -/

/-- the same members, up to the way the seals are written -/
inductive AlikeBut : List (Bytes × JVal) → List (Bytes × JVal) → Prop
  | nil : AlikeBut [] []
  | same (k : Bytes) (v : JVal) {fs gs} (h : AlikeBut fs gs) : AlikeBut ((k, v) :: fs) ((k, v) :: gs)
  | seals (v w : JVal) (e : desVec desSeal v = desVec desSeal w) {fs gs} (h : AlikeBut fs gs) : AlikeBut ((b!"a", v) :: fs) ((b!"a", w) :: gs)

theorem AlikeBut.refl : ∀ fs, AlikeBut fs fs
  | [] => .nil
  | (k, v) :: fs => .same k v (AlikeBut.refl fs)

theorem AlikeBut.append {fs gs fs' gs' : List (Bytes × JVal)} (h : AlikeBut fs gs) (h' : AlikeBut fs' gs') : AlikeBut (fs ++ fs') (gs ++ gs') := by
  induction h with
  | nil => exact h'
  | same k v _ ih => exact .same k v ih
  | seals v w e _ ih => exact .seals v w e ih

theorem AlikeBut.look {fs gs : List (Bytes × JVal)} (h : AlikeBut fs gs) (k : Bytes) :
    (k ≠ b!"a" → lookLast k fs = lookLast k gs) ∧
      (lookLast b!"a" fs).map (desVec desSeal) = (lookLast b!"a" gs).map (desVec desSeal) := by
  induction h with
  | nil => exact ⟨fun _ => rfl, rfl⟩
  | same k' v h ih =>
    refine ⟨fun hk => by simp only [lookLast, ih.1 hk], ?_⟩
    simp only [lookLast]
    have := ih.2
    revert this
    cases lookLast b!"a" _ <;> cases lookLast b!"a" _ <;> simp
  | seals v w e h ih =>
    refine ⟨fun hk => ?_, ?_⟩
    · simp only [lookLast, ih.1 hk, if_neg hk.symm]
    · simp only [lookLast]
      have := ih.2
      revert this
      cases lookLast b!"a" _ <;> cases lookLast b!"a" _ <;> simp [e]

theorem AlikeBut.opt {fs gs : List (Bytes × JVal)} (h : AlikeBut fs gs) {α : Type} (p : JVal → Res α) (k : Bytes) (hk : k ≠ b!"a") :
    optField p k fs = optField p k gs := by
  unfold optField; rw [(h.look k).1 hk]

theorem AlikeBut.optSeals {fs gs : List (Bytes × JVal)} (h : AlikeBut fs gs) :
    optField (desVec desSeal) b!"a" fs = optField (desVec desSeal) b!"a" gs := by
  have := (h.look b!"a").2
  unfold optField
  revert this
  cases lookLast b!"a" fs <;> cases lookLast b!"a" gs <;> simp
  intro e; rw [e]

theorem AlikeBut.data {fs gs : List (Bytes × JVal)} (h : AlikeBut fs gs) : desEventData fs = desEventData gs := by
  have kc : desKeyConfig fs = desKeyConfig gs := by
    unfold desKeyConfig
    rw [h.opt _ b!"k" (by decide), h.opt _ b!"kt" (by decide), h.opt _ b!"n" (by decide)]
  have ic : desInception fs = desInception gs := by
    unfold desInception
    rw [h.optSeals, h.opt _ b!"c" (by decide), kc, h.opt _ b!"b" (by decide), h.opt _ b!"bt" (by decide)]
  have ro : desRotation fs = desRotation gs := by
    unfold desRotation
    rw [h.optSeals, h.opt _ b!"p" (by decide), kc, h.opt _ b!"ba" (by decide), h.opt _ b!"br" (by decide), h.opt _ b!"bt" (by decide)]
  have ix : desInteraction fs = desInteraction gs := by
    unfold desInteraction
    rw [h.optSeals, h.opt _ b!"p" (by decide)]
  have di : desDelegatedInception fs = desDelegatedInception gs := by
    unfold desDelegatedInception
    rw [h.opt _ b!"di" (by decide), ic]
  unfold desEventData
  rw [h.opt _ b!"t" (by decide), ic, ro, ix, di]

/-- results that differ at most in how the seals of the remaining members are written -/
def AlikeRes {α : Type} (get : α → List (Bytes × JVal)) (core : α → α → Prop) : Res α → Res α → Prop
  | .ok a, .ok b => core a b ∧ AlikeBut (get a) (get b)
  | .err e, .err e' => e = e'
  | .panic, .panic => True
  | _, _ => False

theorem AlikeBut.own {fs gs : List (Bytes × JVal)} (h : AlikeBut fs gs) {α : Type} (p : JVal → Res α) (k : Bytes) (hk : k ≠ b!"a") :
    ∀ got, AlikeRes Prod.snd (fun a b => a.1 = b.1) (ownField p k fs got) (ownField p k gs got) := by
  induction h with
  | nil => intro got; exact ⟨rfl, .nil⟩
  | same k' v h ih =>
    intro got
    unfold ownField
    split
    · cases got with
      | some _ => rfl
      | none =>
        dsimp only
        cases p v with
        | ok a => exact ih _
        | err e => rfl
        | panic => trivial
    · have := ih got
      revert this
      cases ownField p k _ got <;> cases ownField p k _ got <;> simp [AlikeRes]
      intro h1 h2
      exact ⟨h1, .same k' v h2⟩
  | seals v w e h ih =>
    intro got
    unfold ownField
    rw [if_neg hk.symm, if_neg hk.symm]
    have := ih got
    revert this
    cases ownField p k _ got <;> cases ownField p k _ got <;> simp [AlikeRes]
    intro h1 h2
    exact ⟨h1, .seals v w e h2⟩

theorem AlikeBut.eventOwn {fs gs : List (Bytes × JVal)} (h : AlikeBut fs gs) :
    ∀ i s, AlikeRes (fun q => q.2.2) (fun a b => a.1 = b.1 ∧ a.2.1 = b.2.1) (eventOwn fs i s) (eventOwn gs i s) := by
  induction h with
  | nil => intro i s; exact ⟨⟨rfl, rfl⟩, .nil⟩
  | same k v h ih =>
    intro i s
    unfold Keriox.eventOwn
    split
    · cases i with
      | some _ => rfl
      | none =>
        dsimp only
        cases desText IdentifierPrefix.fromStr v with
        | ok a => exact ih _ _
        | err e => rfl
        | panic => trivial
    · split
      · cases s with
        | some _ => rfl
        | none =>
          dsimp only
          cases desHex v with
          | ok a => exact ih _ _
          | err e => rfl
          | panic => trivial
      · have := ih i s
        revert this
        cases Keriox.eventOwn _ i s <;> cases Keriox.eventOwn _ i s <;> simp [AlikeRes]
        intro h1 h2 h3
        exact ⟨⟨h1, h2⟩, .same k v h3⟩
  | seals v w e h ih =>
    intro i s
    unfold Keriox.eventOwn
    rw [if_neg (by decide), if_neg (by decide), if_neg (by decide), if_neg (by decide)]
    have := ih i s
    revert this
    cases Keriox.eventOwn _ i s <;> cases Keriox.eventOwn _ i s <;> simp [AlikeRes]
    intro h1 h2 h3
    exact ⟨⟨h1, h2⟩, .seals v w e h3⟩

theorem AlikeBut.keyEvent {fs gs : List (Bytes × JVal)} (h : AlikeBut fs gs) : desKeyEvent fs = desKeyEvent gs := by
  have h1 := h.own (desText SelfAddressingPrefix.fromStr) b!"d" (by decide) none
  unfold desKeyEvent
  revert h1
  cases ownField (desText SelfAddressingPrefix.fromStr) b!"d" fs none with
  | err e => cases ownField (desText SelfAddressingPrefix.fromStr) b!"d" gs none <;> simp [AlikeRes]
  | panic => cases ownField (desText SelfAddressingPrefix.fromStr) b!"d" gs none <;> simp [AlikeRes]
  | ok a =>
    cases ownField (desText SelfAddressingPrefix.fromStr) b!"d" gs none with
    | err e => simp [AlikeRes]
    | panic => simp [AlikeRes]
    | ok b =>
      rintro ⟨e1, e2⟩
      simp only [Res.ok_bind]
      rw [e1]
      have h2 := e2.eventOwn none none
      revert h2
      cases Keriox.eventOwn a.2 none none with
      | err e =>
        cases Keriox.eventOwn b.2 none none <;> simp [AlikeRes]
        intro he; rw [he]
      | panic => cases Keriox.eventOwn b.2 none none <;> simp [AlikeRes]
      | ok q =>
        cases Keriox.eventOwn b.2 none none with
        | err e => simp [AlikeRes]
        | panic => simp [AlikeRes]
        | ok q' =>
          rintro ⟨⟨e3, e4⟩, e5⟩
          simp only [Res.ok_bind]
          rw [e3, e4, e5.data]

/-! ## Reading back what was written -/

private theorem toMFields_append (fs gs : List (Bytes × SVal)) : SVal.toMFields (fs ++ gs) = SVal.toMFields fs ++ SVal.toMFields gs := by
  induction fs with
  | nil => rfl
  | cons f fs ih => obtain ⟨k, x⟩ := f; simp only [List.cons_append, SVal.toMFields, ih]
private theorem toJFields_append' (fs gs : List (Bytes × SVal)) : SVal.toJFields (fs ++ gs) = SVal.toJFields fs ++ SVal.toJFields gs := by
  induction fs with
  | nil => rfl
  | cons f fs ih => obtain ⟨k, x⟩ := f; simp only [List.cons_append, SVal.toJFields, ih]

private theorem keys_toM (ks : List BasicPrefix) : (keysSval ks).toM = (keysSval ks).toJ := by
  unfold keysSval
  simp only [SVal.toM, SVal.toJ, toMs_map, toJs_map']
private theorem strs_toM (ks : List Bytes) : (SVal.seq (ks.map .str)).toM = (SVal.seq (ks.map .str)).toJ := by
  simp only [SVal.toM, SVal.toJ, toMs_map, toJs_map']

private theorem threshold_toM (t : Threshold) : t.sval.toM = t.sval.toJ := by
  cases t with
  | simple n => rfl
  | single c => simp only [Threshold.sval, SVal.toM, SVal.toJ, toMs_map, toJs_map']
  | multi cs => simp only [Threshold.sval, SVal.toM, SVal.toJ, toMs_map, toJs_map']

private theorem keyConfig_toM (k : KeyConfig) : SVal.toMFields k.fields = SVal.toJFields k.fields := by
  unfold KeyConfig.fields
  simp only [SVal.toMFields, SVal.toJFields, threshold_toM]
  cases k.nextDigest <;> simp only [toMs_map, toJs_map', SVal.toM, SVal.toJ]

private theorem inception_alike (e : InceptionEvent) (h : ∀ s ∈ e.data, s.Representable) :
    AlikeBut (SVal.toMFields e.fields) (SVal.toJFields { e with data := e.data.map Seal.unnamed }.fields) := by
  unfold InceptionEvent.fields
  rw [toMFields_append, toJFields_append', keyConfig_toM]
  refine .append (.refl _) ?_
  simp only [SVal.toMFields, SVal.toJFields, keys_toM, strs_toM]
  exact .same _ _ (.same _ _ (.same _ _ (.seals _ _ (seals_unnamed e.data h) .nil)))

private theorem rotation_alike (e : RotationEvent) (h : ∀ s ∈ e.data, s.Representable) :
    AlikeBut (SVal.toMFields e.fields) (SVal.toJFields { e with data := e.data.map Seal.unnamed }.fields) := by
  unfold RotationEvent.fields
  rw [toMFields_append, toJFields_append', toMFields_append, toJFields_append', keyConfig_toM]
  refine .append (.append (.refl _) (.refl _)) ?_
  simp only [SVal.toMFields, SVal.toJFields, keys_toM]
  exact .same _ _ (.same _ _ (.same _ _ (.seals _ _ (seals_unnamed e.data h) .nil)))

theorem data_alike (e : EventData) (h : ∀ s ∈ e.seals, s.Representable) :
    AlikeBut (SVal.toMFields e.fields) (SVal.toJFields e.unnamed.fields) := by
  cases e with
  | icp e => exact inception_alike e h
  | rot e => exact rotation_alike e h
  | drt e => exact rotation_alike e h
  | ixn e => exact .same _ _ (.seals _ _ (seals_unnamed e.data h) .nil)
  | dip e =>
    unfold EventData.fields EventData.unnamed
    dsimp only
    rw [toMFields_append, toJFields_append']
    exact .append (inception_alike e.inception h) (.refl _)

private theorem type_unnamed (e : EventData) : e.unnamed.type = e.type := by cases e <;> rfl

theorem seals_representable {e : EventData} (h : e.Representable) : ∀ s ∈ e.seals, s.Representable := by
  cases e with
  | icp e => exact h.2.2.2.2
  | rot e => exact h.2.2.2.2.2
  | drt e => exact h.2.2.2.2.2
  | ixn e => exact h.2
  | dip e => exact h.1.2.2.2.2

theorem EventMessage.unnamed_representable {m : EventMessage} (h : m.Representable) : m.unnamed.Representable := by
  obtain ⟨h1, h2, h3, h4, h5, h6, h7⟩ := h
  refine ⟨h1, h2, h3, h4, h5, h6, ?_⟩
  have mp : ∀ {l : List Seal}, (∀ s ∈ l, s.Representable) → ∀ s ∈ l.map Seal.unnamed, s.Representable := by
    intro l hl s hs
    obtain ⟨t, ht, rfl⟩ := List.mem_map.1 hs
    exact Seal.unnamed_representable (hl t ht)
  unfold EventMessage.unnamed KeyEvent.unnamed
  dsimp only
  revert h7
  cases m.event.content.data with
  | icp e => exact fun h => ⟨h.1, h.2.1, h.2.2.1, h.2.2.2.1, mp h.2.2.2.2⟩
  | rot e => exact fun h => ⟨h.1, h.2.1, h.2.2.1, h.2.2.2.1, h.2.2.2.2.1, mp h.2.2.2.2.2⟩
  | drt e => exact fun h => ⟨h.1, h.2.1, h.2.2.1, h.2.2.2.1, h.2.2.2.2.1, mp h.2.2.2.2.2⟩
  | ixn e => exact fun h => ⟨h.1, mp h.2⟩
  | dip e => exact fun h => ⟨⟨h.1.1, h.1.2.1, h.1.2.2.1, h.1.2.2.2.1, mp h.1.2.2.2.2⟩, h.2⟩

/-- what the reader sees of a written key event message -/
theorem mgpkTop_message (m : EventMessage) (h : m.event.content.data.utf8 = true) (hl : (mgpkText m.sval).length < 2 ^ 32) (rest : Bytes) :
    mgpkTop (mgpkText m.sval ++ rest) = ((b!"v", .str m.info.toStr) :: (b!"t", .str m.event.content.data.type.toStr) ::
      (b!"d", .str m.event.digest.toStr) :: (b!"i", .str m.event.content.prefix.toStr) :: (b!"s", .str (hexStr m.event.content.sn)) ::
      SVal.toMFields m.event.content.data.fields, some rest) := by
  unfold EventMessage.sval at hl ⊢
  rw [mgpkTop_written _ _ _ hl]
  · rfl
  · refine FitsF_append _ _ _ ?_ ?_
    · simp only [SVal.FitsF, SVal.Fits]
      exact ⟨by decide, SerInfo.toStr_utf8 _, by decide, type_utf8 _, by decide, SelfAddressingPrefix.toStr_utf8 _, trivial⟩
    · unfold Event.fields
      refine FitsF_append _ _ _ ?_ (data_fits _ h 1020)
      simp only [SVal.FitsF, SVal.Fits]
      exact ⟨by decide, IdentifierPrefix.toStr_utf8 _, by decide, hexStr_utf8 _, trivial⟩

/-- C111: a representable key event message written as MessagePack and followed by anything is read, leaving exactly what followed, as
itself except that every root seal has become the digest seal of the same digest. -/
theorem C111_event (m : EventMessage) (rest : Bytes) (h : m.Representable) (hl : (mgpkText m.sval).length < 2 ^ 32) :
    mgpkMessage desKeyEvent (mgpkText m.sval ++ rest) = .ok rest (m.info, m.event.unnamed) := by
  have hu := EventMessage.unnamed_representable h
  have key := C44_roundtrip m.unnamed rest hu
  have hd := seals_representable h.2.2.2.2.2.2
  unfold jsonMessage at key
  unfold mgpkMessage
  rw [jsonTop_message _ (EventMessage.rt_of hu).2] at key
  rw [mgpkTop_message m (EventMessage.rt_of h).2 hl]
  have al : AlikeBut ((b!"t", .str m.event.content.data.type.toStr) :: (b!"d", .str m.event.digest.toStr) ::
      (b!"i", .str m.event.content.prefix.toStr) :: (b!"s", .str (hexStr m.event.content.sn)) :: SVal.toMFields m.event.content.data.fields)
      (eventMembers m.event.unnamed) := by
    unfold eventMembers KeyEvent.unnamed
    dsimp only
    rw [type_unnamed]
    exact .same _ _ (.same _ _ (.same _ _ (.same _ _ (data_alike _ hd))))
  have hv := al.own (desText SerInfo.fromStr) b!"v" (by decide) (some m.info)
  have hi : SerInfo.fromStr m.info.toStr = .ok m.info := (C41_exact _ h.1 h.2.1).2 h.2.2.1
  unfold desMessage at key ⊢
  unfold ownField at key ⊢
  rw [if_pos rfl] at key ⊢
  simp only [desText_ok] at key ⊢
  have hi' : SerInfo.fromStr m.unnamed.info.toStr = .ok m.info := hi
  rw [hi'] at key
  rw [hi]
  simp only [Res.ok_bind] at key ⊢
  have hue : m.unnamed.event = m.event.unnamed := rfl
  rw [hue] at key
  revert hv
  cases h1 : ownField (desText SerInfo.fromStr) b!"v" _ (some m.info) with
  | err e =>
    cases h2 : ownField (desText SerInfo.fromStr) b!"v" (eventMembers m.event.unnamed) (some m.info) with
    | ok q => simp [AlikeRes]
    | panic => simp [AlikeRes]
    | err e' => rw [h2] at key; cases key
  | panic =>
    cases h2 : ownField (desText SerInfo.fromStr) b!"v" (eventMembers m.event.unnamed) (some m.info) with
    | ok q => simp [AlikeRes]
    | panic => rw [h2] at key; cases key
    | err e' => simp [AlikeRes]
  | ok q =>
    cases h2 : ownField (desText SerInfo.fromStr) b!"v" (eventMembers m.event.unnamed) (some m.info) with
    | err e' => simp [AlikeRes]
    | panic => simp [AlikeRes]
    | ok q' =>
      rintro ⟨e1, e2⟩
      rw [h2] at key
      simp only [Res.ok_bind] at key ⊢
      rw [e1, e2.keyEvent]
      exact key

/-- C111: such a message comes back unchanged if and only if it has no root seal. -/
theorem C111_exact (m : EventMessage) (rest : Bytes) (h : m.Representable) (hl : (mgpkText m.sval).length < 2 ^ 32) :
    mgpkMessage desKeyEvent (mgpkText m.sval ++ rest) = .ok rest (m.info, m.event) ↔ ∀ d, Seal.root d ∉ m.event.content.data.seals := by
  rw [C111_event m rest h hl]
  have lst : ∀ l : List Seal, l.map Seal.unnamed = l ↔ ∀ d, Seal.root d ∉ l := by
    intro l
    induction l with
    | nil => simp
    | cons s l ih =>
      simp only [List.map_cons, List.cons.injEq, ih, List.mem_cons, not_or, forall_and]
      refine and_congr_left fun _ => ?_
      cases s <;> simp [Seal.unnamed]
  simp only [IRes.ok.injEq, true_and, Prod.mk.injEq]
  clear h hl
  obtain ⟨inf, ⟨dg, ⟨pre, sn, data⟩⟩⟩ := m
  simp only [KeyEvent.unnamed, KeyEvent.mk.injEq, Event.mk.injEq, true_and]
  cases data with
  | icp e => obtain ⟨a1, a2, a3, a4, a5⟩ := e; simp [EventData.unnamed, EventData.seals, lst]
  | rot e => obtain ⟨a1, a2, a3, a4, a5, a6⟩ := e; simp [EventData.unnamed, EventData.seals, lst]
  | drt e => obtain ⟨a1, a2, a3, a4, a5, a6⟩ := e; simp [EventData.unnamed, EventData.seals, lst]
  | ixn e => obtain ⟨a1, a2⟩ := e; simp [EventData.unnamed, EventData.seals, lst]
  | dip e => obtain ⟨⟨a1, a2, a3, a4, a5⟩, b⟩ := e; simp [EventData.unnamed, EventData.seals, lst]

/-! ## Two meanings of the same bytes -/

private theorem seals_text (ss : List Seal) : mgpkItems ((ss.map Seal.unnamed).map Seal.sval) = mgpkItems (ss.map Seal.sval) := by
  induction ss with
  | nil => rfl
  | cons s ss ih =>
    simp only [List.map_cons, mgpkItems, ih]
    cases s <;> rfl

private theorem seals_seq (ss : List Seal) : mgpkText (.seq ((ss.map Seal.unnamed).map Seal.sval)) = mgpkText (.seq (ss.map Seal.sval)) := by
  simp only [mgpkText, seals_text, List.length_map]

private theorem fields_append (fs gs : List (Bytes × SVal)) : mgpkFields (fs ++ gs) = mgpkFields fs ++ mgpkFields gs := by
  induction fs with
  | nil => rfl
  | cons f fs ih => obtain ⟨k, x⟩ := f; simp only [List.cons_append, mgpkFields, ih, List.append_assoc]

private theorem data_text (e : EventData) : mgpkFields e.unnamed.fields = mgpkFields e.fields ∧ e.unnamed.fields.length = e.fields.length := by
  cases e <;> simp only [EventData.unnamed, EventData.fields, InceptionEvent.fields, RotationEvent.fields, InteractionEvent.fields, fields_append,
    mgpkFields, seals_seq, List.length_append, List.length_cons, List.length_nil, and_self]

/-- C111: a message with root seals and the message with digest seals in their place are the same bytes in MessagePack; so are the
bytes their digests are computed from.  Whoever signed one has signed the other. -/
theorem C111_same_bytes (env : Env) (he : env.WritesMgpk) (m : EventMessage) (hk : m.info.kind = .mgpk) :
    m.unnamed.serialize env = m.serialize env ∧ m.unnamed.toDerivationData env = m.toDerivationData env := by
  have enc : ∀ fs gs : List (Bytes × SVal), mgpkFields fs = mgpkFields gs → fs.length = gs.length →
      Fmt.mgpk.encode env (.map fs) = Fmt.mgpk.encode env (.map gs) := by
    intro fs gs h1 h2
    simp only [Fmt.encode, he _, mgpkText, h1, h2]
  obtain ⟨d1, d2⟩ := data_text m.event.content.data
  have ty := type_unnamed m.event.content.data
  have incep : ∀ (d d' : EventData) (c : SelfAddressing), mgpkFields d'.fields = mgpkFields d.fields → d'.fields.length = d.fields.length → d'.type = d.type →
      dummyInceptionBytes env d' c .mgpk = dummyInceptionBytes env d c .mgpk := by
    intro d d' c h1 h2 h3
    have step : ∀ i, Fmt.mgpk.encode env (dummyInceptionSval i c d') = Fmt.mgpk.encode env (dummyInceptionSval i c d) := by
      intro i
      unfold dummyInceptionSval
      rw [h3]
      exact enc _ _ (by rw [fields_append, fields_append, h1]) (by simp only [List.length_append, h2])
    unfold dummyInceptionBytes dummyInceptionInfo
    rw [step]
    cases Fmt.mgpk.encode env (dummyInceptionSval (SerInfo.new .mgpk 0) c d) with
    | ok b => exact step _
    | err e => rfl
    | panic => rfl
  constructor
  · unfold EventMessage.serialize EventMessage.sval EventMessage.unnamed KeyEvent.unnamed
    dsimp only
    rw [hk, ty]
    unfold Event.fields
    dsimp only
    exact enc _ _ (by simp only [fields_append, d1]) (by simp only [List.length_append, d2])
  · unfold EventMessage.toDerivationData EventMessage.unnamed KeyEvent.unnamed
    dsimp only
    rw [hk]
    have other : ∀ (i : SerInfo) (c : SelfAddressing) , Fmt.mgpk.encode env (dummyEventSval i c { m.event.content with data := m.event.content.data.unnamed }) =
        Fmt.mgpk.encode env (dummyEventSval i c m.event.content) := by
      intro i c
      unfold dummyEventSval Event.fields
      dsimp only
      rw [ty]
      exact enc _ _ (by simp only [fields_append, d1]) (by simp only [List.length_append, d2])
    cases hd : m.event.content.data with
    | icp e => rw [hd] at d1 d2 ty; exact incep _ _ _ d1 d2 ty
    | dip e => rw [hd] at d1 d2 ty; exact incep _ _ _ d1 d2 ty
    | rot e => have := other m.info m.event.digest.derivation; rw [hd] at this; exact this
    | drt e => have := other m.info m.event.digest.derivation; rw [hd] at this; exact this
    | ixn e => have := other m.info m.event.digest.derivation; rw [hd] at this; exact this

/-- C111: in JSON and in CBOR two representable events never share their bytes. -/
theorem C111_others_tell (m m' : EventMessage) (h : m.Representable) (h' : m'.Representable) :
    (jsonText m.sval = jsonText m'.sval → m = m') ∧
      ((cborText m.sval).length < 2 ^ 64 → cborText m.sval = cborText m'.sval → m = m') := by
  constructor
  · intro he
    have a := C44_roundtrip m [] h
    have b := C44_roundtrip m' [] h'
    rw [he, b] at a
    obtain ⟨i, e⟩ := m; obtain ⟨i', e'⟩ := m'
    simp only [IRes.ok.injEq, true_and, Prod.mk.injEq] at a
    rw [a.1, a.2]
  · intro hl he
    have a := (C110_exact m [] (EventMessage.rt_of h).2 hl).2 (EventMessage.rt_of h).1
    have b := (C110_exact m' [] (EventMessage.rt_of h').2 (he ▸ hl)).2 (EventMessage.rt_of h').1
    rw [he, b] at a
    obtain ⟨i, e⟩ := m; obtain ⟨i', e'⟩ := m'
    simp only [IRes.ok.injEq, true_and, Prod.mk.injEq] at a
    rw [a.1, a.2]

/-! ### In the processor -/

private theorem pre_unnamed (m : EventMessage) : m.unnamed.event.content.prefix = m.event.content.prefix := rfl

private theorem checkDigest_unnamed (env : Env) (he : env.WritesMgpk) (m : EventMessage) (hk : m.info.kind = .mgpk) (sai : SelfAddressingPrefix) :
    m.unnamed.checkDigest env sai = m.checkDigest env sai := by
  unfold EventMessage.checkDigest
  rw [(C111_same_bytes env he m hk).2]
  rfl

private theorem matches_unnamed (env : Env) (he : env.WritesMgpk) (m : EventMessage) (hk : m.info.kind = .mgpk) (l : List Seal) :
    anySealMatches env m.unnamed l = anySealMatches env m l := by
  induction l with
  | nil => rfl
  | cons s l ih => cases s <;> simp only [anySealMatches, checkDigest_unnamed env he m hk, ih]

private theorem applyTo_unnamed (env : Env) (he : env.WritesMgpk) (m : EventMessage) (hk : m.info.kind = .mgpk) (s : IdState) :
    m.unnamed.applyTo env s = m.applyTo env s := by
  have hc := checkDigest_unnamed env he m hk
  have h1 : checkEventDigest env m.unnamed = checkEventDigest env m := by
    unfold checkEventDigest
    rw [hc]
    rfl
  have h2 : ∀ s, m.unnamed.event.content.applyTo env s = m.event.content.applyTo env s := by
    intro s
    unfold Event.applyTo EventMessage.unnamed KeyEvent.unnamed
    dsimp only
    cases m.event.content.data <;> rfl
  have h3 : verifyIdentifierBinding env m.unnamed = verifyIdentifierBinding env m := by
    unfold verifyIdentifierBinding
    rw [pre_unnamed]
    simp only [hc]
    unfold EventMessage.unnamed KeyEvent.unnamed
    dsimp only
    cases m.event.content.data <;> rfl
  have h4 : ∀ p s n, chain m.unnamed p s n = chain m p s n := fun _ _ _ => rfl
  unfold EventMessage.applyTo
  simp only [h1, h2, h3, h4]
  unfold EventMessage.unnamed KeyEvent.unnamed
  dsimp only
  cases m.event.content.data <;> rfl

/-- C111: whatever a node answers to an event in MessagePack, in whatever history, it answers to the event with digest seals in place of
root seals, under the same signatures: if one is accepted so is the other, and which of the two meanings is logged depends on what was
submitted. -/
theorem C111_same_verdict (env : Env) (he : env.WritesMgpk) (m : EventMessage) (hk : m.info.kind = .mgpk) (sigs : List AttachedSignaturePrefix)
    (ds : Option SourceSeal) (as : List Action) :
    (process sled env (.event ⟨m.unnamed, sigs, ds⟩) (after env as)).1 = (process sled env (.event ⟨m, sigs, ds⟩) (after env as)).1 := by
  rw [(process_abs env _ (after_inv env as) _).1, (process_abs env _ (after_inv env as) _).1]
  generalize (after env as).abs = a
  unfold process
  dsimp only
  have hv : ∀ sl, validateSeal mapOps env sl m.unnamed = validateSeal mapOps env sl m := by
    intro sl
    unfold validateSeal
    simp only [matches_unnamed env he m hk]
  have hdg : checkDelegation mapOps env ⟨m.unnamed, sigs, ds⟩ = checkDelegation mapOps env ⟨m, sigs, ds⟩ := by
    unfold checkDelegation
    simp only [hv, SignedEvent.pre, SignedEvent.data, pre_unnamed]
    unfold EventMessage.unnamed KeyEvent.unnamed
    dsimp only
    cases m.event.content.data <;> rfl
  have hap : applyToState mapOps env m.unnamed = applyToState mapOps env m := by
    unfold applyToState
    simp only [applyTo_unnamed env he m hk, pre_unnamed]
  have hst : ∀ new b, (storeAndVerify mapOps env ⟨m.unnamed, sigs, ds⟩ new b).1 = (storeAndVerify mapOps env ⟨m, sigs, ds⟩ new b).1 := by
    intro new b
    unfold storeAndVerify
    simp only [(C111_same_bytes env he m hk).1]
    rw [StM.bind_run, StM.bind_run]
    simp only [addKel, mapOps]
    rw [StM.bind_run, StM.bind_run]
    cases m.serialize env with
    | err e => rfl
    | panic => rfl
    | ok bytes =>
      simp only [StM.lift]
      rw [StM.bind_run, StM.bind_run]
      simp only [StM.result]
      cases verifyOutcome env new bytes sigs with
      | ok st => rfl
      | panic => rfl
      | err e =>
        have key : ∀ (x : SignedEvent) (c : MapDb), ((do noteDup mapOps x e; removeKel mapOps x.pre x; StM.fail e : StM MapDb (Option IdState)) c).1 = .err e := by
          intro x c
          by_cases hd : e = .eventDuplicate
          · rw [show noteDup mapOps x e = addDup mapOps x x.pre from if_pos hd]
            rfl
          · rw [show noteDup mapOps x e = pure () from if_neg hd]
            rfl
        exact (key _ _).trans (key _ _).symm
  unfold processEvent
  rw [hdg, StM.bind_run, StM.bind_run]
  rcases checkDelegation mapOps env ⟨m, sigs, ds⟩ a with ⟨r, a1⟩
  cases r with
  | err e => rfl
  | panic => rfl
  | ok u =>
    dsimp only
    rw [hap, StM.bind_run, StM.bind_run]
    rcases applyToState mapOps env m a1 with ⟨r, a2⟩
    cases r with
    | err e => rfl
    | panic => rfl
    | ok new => exact hst new a2

/-! ## Signed messages -/

/-- the JSON reader gives up on a MessagePack map at once -/
theorem jsonMessage_mgpk {α : Type} (inner : List (Bytes × JVal) → Res α) (fs : List (Bytes × SVal)) (hf : fs.length < 16) (rest : Bytes) :
    jsonMessage inner (mgpkText (.map fs) ++ rest) = .error := by
  have hb : ∀ n, n < 16 → isWs (UInt8.ofNat (0x80 + n)) = false ∧ UInt8.ofNat (0x80 + n) ≠ 123 := by decide
  have h : jsonTop (mgpkText (.map fs) ++ rest) = ([], none) := by
    simp only [mgpkText, mgpkMapHead, if_pos hf, List.cons_append, List.nil_append]
    unfold jsonTop
    rw [skipWs_cons _ _ (hb _ hf).1]
    dsimp only
    rw [if_neg (hb _ hf).2]
  unfold jsonMessage
  rw [h]
  rfl

private theorem event_fields_few (e : EventData) : e.fields.length ≤ 8 := by
  cases e <;> simp [EventData.fields, InceptionEvent.fields, RotationEvent.fields, InteractionEvent.fields, KeyConfig.fields]

/-- C111: in the reader of messages (`key_event_message`, which tries JSON, then CBOR, then MessagePack). -/
theorem C111_key_event (bin : Binary) (hm : bin.ReadsMgpk) (m : EventMessage) (rest : Bytes) (h : m.Representable)
    (hl : (mgpkText m.sval).length < 2 ^ 32) : keyEventMessageP bin (mgpkText m.sval ++ rest) = .ok rest (.keyEvent m.unnamed) := by
  unfold keyEventMessageP altP
  have hj : jsonMessage desKeyEvent (mgpkText m.sval ++ rest) = .error := by
    refine jsonMessage_mgpk _ _ ?_ _
    have := event_fields_few m.event.content.data
    simp only [Event.fields, List.length_append, List.length_cons, List.length_nil]
    omega
  rw [hj, hm.event _ (by rw [mgpkTop_message m (EventMessage.rt_of h).2 hl]; simp), C111_event m rest h hl]
  rfl

/-- the signed key events the wire carries in MessagePack: as `Message.Wireable`, but declared as MessagePack and shorter than 2^32 bytes -/
def SignedEvent.WireableMgpk (e : SignedEvent) : Prop :=
  e.msg.Representable ∧ e.msg.info.kind = .mgpk ∧ (mgpkText e.msg.sval).length < 2 ^ 32 ∧ SigsOk e.sigs ∧
    (match e.delegatorSeal with
      | some sl => e.msg.event.content.data.isDelegated = true ∧ sl.sn < 2 ^ 64 ∧ sl.digest.Sized
      | none => e.msg.event.content.data.isDelegated = false)

/-- C111: a signed key event in MessagePack, delegated or not, followed by the end of the stream or by a JSON message is read with its
signatures and its delegator seal, its root seals turned into digest seals. -/
theorem C111_signed_event (env : Env) (he : env.WritesMgpk) (bin : Binary) (hm : bin.ReadsMgpk) (e : SignedEvent) (h : e.WireableMgpk) :
    ∃ b, e.toData.toCesr env = .ok b ∧ (∀ rest, StartsBinary (b ++ rest)) ∧ (∀ next, StartsBinary next → signedMessageP bin (b ++ next) = .failure) ∧
      ∀ rest, StreamEnd rest → ∃ d', signedMessageP bin (b ++ rest) = .ok rest d' ∧ d'.toMessage = .ok (.event { e with msg := e.msg.unnamed }) := by
  obtain ⟨h1, h2, hl, h3, h4⟩ := h
  have hat : ∀ a ∈ e.toData.attachments, a.Ok := by
    cases hs : e.delegatorSeal with
    | none => simp only [SignedEvent.toData, hs, List.mem_singleton, forall_eq]; exact h3
    | some sl =>
      rw [hs] at h4
      simp only [SignedEvent.toData, hs, List.mem_cons, List.not_mem_nil, or_false, forall_eq_or_imp, forall_eq]
      exact ⟨⟨by simp, by simpa using h4.2⟩, h3⟩
  have hser : e.toData.event.serialize env = .ok (mgpkText e.msg.sval) := by
    simp [SignedEvent.toData, EventType.serialize, EventMessage.serialize, h2, Fmt.encode, he _, Res.ofOption]
  have hread : ∀ rest, altP (keyEventMessageP bin) (receiptMessageP bin) (mgpkText e.msg.sval ++ rest) = .ok rest (.keyEvent e.msg.unnamed) := by
    intro rest
    unfold altP
    rw [C111_key_event bin hm e.msg rest h1 hl]
  obtain ⟨u, h6, h7⟩ := attachments_roundtrip e.toData.attachments hat
  obtain ⟨u', h6', h8⟩ := attachments_binary e.toData.attachments hat
  rw [h6] at h6'; cases h6'
  refine ⟨mgpkText e.msg.sval ++ u, by unfold SignedEventData.toCesr; rw [h6, Res.ok_bind, hser, Res.ok_bind], fun rest => ?_, fun next hn => ?_,
    fun rest hr => ⟨⟨.keyEvent e.msg.unnamed, e.toData.attachments⟩, ?_, ?_⟩⟩
  · have hf : ([(b!"v", SVal.str e.msg.info.toStr), (b!"t", .str e.msg.event.content.data.type.toStr),
        (b!"d", .str e.msg.event.digest.toStr)] ++ e.msg.event.content.fields).length < 16 := by
      have := event_fields_few e.msg.event.content.data
      simp only [Event.fields, List.length_append, List.length_cons, List.length_nil]
      omega
    have hb : ∀ n, n < 16 → utf8Valid [UInt8.ofNat (0x80 + n), 0xa1] = false := by decide
    unfold EventMessage.sval
    simp only [mgpkText, mgpkMapHead]
    rw [if_pos hf]
    exact ⟨_, _, _, rfl, hb _ hf⟩
  · unfold signedMessageP
    rw [List.append_assoc, hread (u ++ next), IRes.andThen_ok, h8 next hn _ (Nat.le_refl _)]
    rfl
  · unfold signedMessageP
    rw [List.append_assoc, hread (u ++ rest), IRes.andThen_ok, h7 rest hr _ (Nat.le_refl _), IRes.andThen_ok]
  · obtain ⟨m, sigs, ds⟩ := e
    have hty : m.unnamed.event.content.data.isDelegated = m.event.content.data.isDelegated := by
      unfold EventMessage.unnamed KeyEvent.unnamed
      dsimp only
      cases m.event.content.data <;> rfl
    generalize hu : m.unnamed = m' at *
    cases ds with
    | none =>
      simp only [SignedEvent.toData, SignedEventData.toMessage, signedKeyEvent]
      cases hdat : m'.event.content.data <;> simp_all [EventData.isDelegated]
    | some sl =>
      simp only [SignedEvent.toData, SignedEventData.toMessage, signedKeyEvent]
      cases hdat : m'.event.content.data <;> simp_all [EventData.isDelegated, lastTwo, delegatedAtts]

/-! ## Sizes -/

mutual
theorem mgpkText_shape : ∀ v : SVal, (mgpkText v.shape).length = (mgpkText v).length
  | .null => rfl
  | .str s => by
    unfold SVal.shape
    split
    · simp only [mgpkText, List.length_append, List.length_replicate]
    · rfl
  | .seq xs => by
    simp only [SVal.shape, mgpkText, List.length_append, (mgpkItems_shape xs).1, (mgpkItems_shape xs).2]
  | .map fs => by
    simp only [SVal.shape, mgpkText, List.length_append, (mgpkFields_shape fs).1, (mgpkFields_shape fs).2.2]
  | .struct fs => by
    simp only [SVal.shape, mgpkText, List.length_append, (mgpkFields_shape fs).2.1, (mgpkFields_shape fs).2.2]
theorem mgpkItems_shape : ∀ xs : List SVal, (mgpkItems (SVal.shapes xs)).length = (mgpkItems xs).length ∧ (SVal.shapes xs).length = xs.length
  | [] => ⟨rfl, rfl⟩
  | x :: xs => by
    simp only [SVal.shapes, mgpkItems, List.length_append, List.length_cons, mgpkText_shape x, (mgpkItems_shape xs).1, (mgpkItems_shape xs).2,
      and_self]
theorem mgpkFields_shape : ∀ fs : List (Bytes × SVal),
    (mgpkFields (SVal.shapeFields fs)).length = (mgpkFields fs).length ∧ (mgpkUnnamed (SVal.shapeFields fs)).length = (mgpkUnnamed fs).length ∧
      (SVal.shapeFields fs).length = fs.length
  | [] => ⟨rfl, rfl, rfl⟩
  | (k, x) :: xs => by
    simp only [SVal.shapeFields, mgpkFields, mgpkUnnamed, List.length_append, List.length_cons, mgpkText_shape x, (mgpkFields_shape xs).1,
      (mgpkFields_shape xs).2.1, (mgpkFields_shape xs).2.2, and_self]
end

/-- C111: with these writers, the size of an encoding depends only on the shape of the value: what C42 and C93 assume of the two binary
formats. -/
theorem C111_sizes (env : Env) (hc : env.WritesCbor) (hm : env.WritesMgpk) : env.SizesByShape := by
  refine ⟨cbor_sizes env hc, fun v w h => ?_⟩
  rw [hm, hm, Option.map_some, Option.map_some, ← mgpkText_shape v, h, mgpkText_shape w]

/-! ## Concrete instances -/

namespace Ex

/-- the example environment with the real binary writers -/
def binEnv : Env := { env with cbor := fun v => some (cborText v), mgpk := fun v => some (mgpkText v) }

/-- binary readers: CBOR, then MessagePack -/
def binReaders : Binary where
  event s := if (cborTop s).2 ≠ none then cborMessage desKeyEvent s else if (mgpkTop s).2 ≠ none then mgpkMessage desKeyEvent s else .error
  receipt s := if (cborTop s).2 ≠ none then cborMessage (fun fs => desReceipt fs none none none) s
    else if (mgpkTop s).2 ≠ none then mgpkMessage (fun fs => desReceipt fs none none none) s else .error

/-- an interaction in MessagePack that anchors a tree root -/
def rootMsg : EventMessage :=
  msgOr ((Event.mk id 2 (.ixn ⟨rot.dig, [.root ⟨.blake3_256, dig b!"tree"⟩]⟩)).toMessage binEnv .mgpk .blake3_256)
/-- signed with two keys -/
def rootEvent : SignedEvent := ⟨rootMsg, [sig 4 0 (mgpkText rootMsg.sval), sig 5 1 (mgpkText rootMsg.sval)], none⟩
/-- the same interaction in CBOR -/
def cborMsg : EventMessage :=
  msgOr ((Event.mk id 2 (.ixn ⟨rot.dig, [.root ⟨.blake3_256, dig b!"tree"⟩]⟩)).toMessage binEnv .cbor .blake3_256)
/-- signed with two keys -/
def cborEvent : SignedEvent := ⟨cborMsg, [sig 4 0 (cborText cborMsg.sval), sig 5 1 (cborText cborMsg.sval)], none⟩

end Ex

example : Ex.binEnv.WritesCbor ∧ Ex.binEnv.WritesMgpk := ⟨fun _ => rfl, fun _ => rfl⟩

/-- no input is both a CBOR map and a MessagePack map -/
theorem not_both (s : Bytes) (h : (mgpkTop s).2 ≠ none) : (cborTop s).2 = none := by
  cases s with
  | nil => rfl
  | cons b r =>
    have hb : b.toNat / 32 ≠ 5 := by
      intro h5
      apply h
      unfold mgpkTop
      have : mgpkMapLen b r = none := by
        unfold mgpkMapLen
        rw [if_neg (by omega), if_neg (fun e => by subst e; revert h5; decide), if_neg (fun e => by subst e; revert h5; decide)]
      dsimp only
      rw [this]
    unfold cborTop
    dsimp only
    rw [if_neg hb]

/-- the hypotheses on the readers are met together -/
theorem binReaders_ok : Ex.binReaders.ReadsCbor ∧ Ex.binReaders.ReadsMgpk ∧ Ex.binReaders.RejectsJson := by
  refine ⟨⟨fun s h => if_pos h, fun s h => if_pos h⟩, ⟨fun s h => ?_, fun s h => ?_⟩, fun s h => ?_⟩
  · show (if _ then _ else _) = _
    rw [if_neg (by rw [not_both s h]; simp), if_pos h]
  · show (if _ then _ else _) = _
    rw [if_neg (by rw [not_both s h]; simp), if_pos h]
  · rcases h with rfl | ⟨r, rfl⟩
    · exact ⟨rfl, rfl⟩
    · exact ⟨rfl, rfl⟩

/-- the interaction in CBOR comes back with its root seal, the one in MessagePack with a digest seal -/
example : (∃ r, keyEventMessageP Ex.binReaders (cborText Ex.cborMsg.sval) = .ok [] (.keyEvent r) ∧ r.event.content.data.seals = [.root ⟨.blake3_256, Ex.dig b!"tree"⟩]) ∧
    (∃ r, keyEventMessageP Ex.binReaders (mgpkText Ex.rootMsg.sval) = .ok [] (.keyEvent r) ∧ r.event.content.data.seals = [.digest ⟨.blake3_256, Ex.dig b!"tree"⟩]) := by
  have h1 : keyEventMessageP Ex.binReaders (cborText Ex.cborMsg.sval) = .ok [] (.keyEvent Ex.cborMsg) := by decide +kernel
  have h2 : keyEventMessageP Ex.binReaders (mgpkText Ex.rootMsg.sval) = .ok [] (.keyEvent Ex.rootMsg.unnamed) := by decide +kernel
  exact ⟨⟨_, h1, by decide +kernel⟩, _, h2, by decide +kernel⟩

/-- both meanings of the signed bytes are accepted -/
example : ∃ st, (process sled Ex.binEnv (.event Ex.rootEvent) (after Ex.binEnv [.submit (.event Ex.icp), .submit (.event Ex.rot)])).1 = .ok st ∧
    (process sled Ex.binEnv (.event { Ex.rootEvent with msg := Ex.rootMsg.unnamed }) (after Ex.binEnv [.submit (.event Ex.icp), .submit (.event Ex.rot)])).1 = .ok st := by
  have h : (match (process sled Ex.binEnv (.event Ex.rootEvent) (after Ex.binEnv [.submit (.event Ex.icp), .submit (.event Ex.rot)])).1 with
      | .ok _ => true | _ => false) = true := by decide +kernel
  cases hr : (process sled Ex.binEnv (.event Ex.rootEvent) (after Ex.binEnv [.submit (.event Ex.icp), .submit (.event Ex.rot)])).1 with
  | err e => rw [hr] at h; cases h
  | panic => rw [hr] at h; cases h
  | ok st => exact ⟨st, rfl, by rw [← hr]; exact C111_same_verdict _ (fun _ => rfl) _ (by decide +kernel) _ _ _⟩

/-- the conditions of the theorems hold of these messages -/
example : (cborText Ex.cborMsg.sval).length < 2 ^ 64 ∧ (mgpkText Ex.rootMsg.sval).length < 2 ^ 32 ∧ Ex.cborMsg.info.kind = .cbor ∧
    Ex.rootMsg.info.kind = .mgpk ∧ Ex.cborMsg.rt = true ∧ Ex.rootMsg.rt = true ∧ Ex.cborMsg.info.size = (cborText Ex.cborMsg.sval).length ∧
    Ex.rootMsg.info.size = (mgpkText Ex.rootMsg.sval).length := by decide +kernel

/-- messages of all kinds that the wire carries in CBOR -/
private def cborEx1 : Message :=
  .event ⟨⟨SerInfo.new .cbor 300, ⟨⟨.blake3_256, List.replicate 32 1⟩, ⟨.basic (Ex.key 1), 3,
    .drt ⟨⟨.sha3_256, List.replicate 32 2⟩, ⟨.simple 1, [Ex.key 2], none⟩, 1, [Ex.key 4], [Ex.key 5], [.root ⟨.blake3_256, List.replicate 32 1⟩]⟩⟩⟩⟩,
    [⟨0, ⟨.ed25519Sha512, List.replicate 64 1⟩⟩], some ⟨4, ⟨.blake3_256, List.replicate 32 9⟩⟩⟩
private def cborEx2 : Message :=
  .rctNt ⟨⟨SerInfo.new .cbor 145, ⟨.blake3_256, List.replicate 32 1⟩, .basic (Ex.key 1), 3⟩, [(Ex.key 7, ⟨.ed25519Sha512, List.replicate 64 1⟩)]⟩
private def cborEx3 : Message :=
  .rctT ⟨⟨SerInfo.new .cbor 145, ⟨.blake3_256, List.replicate 32 1⟩, .basic (Ex.key 1), 3⟩,
    ⟨.basic (Ex.key 1), 7, ⟨.blake3_256, List.replicate 32 1⟩⟩, [⟨2, ⟨.ed25519Sha512, List.replicate 64 1⟩⟩]⟩
private def mgpkEx : SignedEvent :=
  ⟨⟨SerInfo.new .mgpk 300, ⟨⟨.blake3_256, List.replicate 32 1⟩, ⟨.basic (Ex.key 1), 3,
    .drt ⟨⟨.sha3_256, List.replicate 32 2⟩, ⟨.simple 1, [Ex.key 2], none⟩, 1, [Ex.key 4], [Ex.key 5], [.root ⟨.blake3_256, List.replicate 32 1⟩]⟩⟩⟩⟩,
    [⟨0, ⟨.ed25519Sha512, List.replicate 64 1⟩⟩], some ⟨4, ⟨.blake3_256, List.replicate 32 9⟩⟩⟩
example : ∀ m ∈ [cborEx1, cborEx2, cborEx3], m.WireableCbor := by
  have l1 : (match cborEx1 with | .event e => (cborText e.msg.sval).length | _ => 0) < 2 ^ 64 := by decide +kernel
  have l2 : (match cborEx2 with | .rctNt r => (cborText r.body.sval).length | _ => 0) < 2 ^ 64 := by decide +kernel
  have l3 : (match cborEx3 with | .rctT r => (cborText r.body.sval).length | _ => 0) < 2 ^ 64 := by decide +kernel
  simp only [List.mem_cons, List.not_mem_nil, or_false, forall_eq_or_imp, forall_eq]
  refine ⟨⟨?_, rfl, l1, ?_, ?_⟩, ⟨⟨rfl, ?_, l2⟩, ?_⟩, ⟨⟨rfl, ?_, l3⟩, ?_⟩⟩ <;>
  simp [ReceiptMsg.Representable, SigsOk, EventSealOk, EventData.isDelegated,
    EventMessage.Representable, EventData.Representable, RotationEvent.Representable, KeyConfig.Representable, Threshold.Representable,
    Seal.Representable, IdentifierPrefix.Representable, BasicPrefix.Representable, IdentifierPrefix.Sized, BasicPrefix.Sized,
    SelfAddressingPrefix.Sized, IdentifierPrefix.IsSecp, BasicPrefix.IsSecp, Ex.key, Basic.rawBytes, SelfAddressing.rawBytes,
    SelfAddressing.keyless, SerInfo.new, u64max, SigOk, SelfSigningPrefix.Sized, SelfSigning.rawBytes]
example : mgpkEx.WireableMgpk := by
  refine ⟨?_, rfl, by decide +kernel, ?_, ?_⟩ <;>
  simp [mgpkEx, ReceiptMsg.Representable, SigsOk, EventSealOk, EventData.isDelegated,
    EventMessage.Representable, EventData.Representable, RotationEvent.Representable, KeyConfig.Representable, Threshold.Representable,
    Seal.Representable, IdentifierPrefix.Representable, BasicPrefix.Representable, IdentifierPrefix.Sized, BasicPrefix.Sized,
    SelfAddressingPrefix.Sized, IdentifierPrefix.IsSecp, BasicPrefix.IsSecp, Ex.key, Basic.rawBytes, SelfAddressing.rawBytes,
    SelfAddressing.keyless, SerInfo.new, u64max, SigOk, SelfSigningPrefix.Sized, SelfSigning.rawBytes]

/-- a JSON event on its own is read; followed by the CBOR event, nothing is -/
example : ∃ a b, Ex.rot.toData.toCesr Ex.binEnv = .ok a ∧ Ex.cborEvent.toData.toCesr Ex.binEnv = .ok b ∧
    (match signedEventStreamP Ex.binReaders a with | .ok [] [_] => true | _ => false) = true ∧
    (match signedEventStreamP Ex.binReaders b with | .ok [] [_] => true | _ => false) = true ∧
    (match signedEventStreamP Ex.binReaders (b ++ a) with | .ok [] [_, _] => true | _ => false) = true ∧
    (match signedEventStreamP Ex.binReaders (a ++ b) with | .failure => true | _ => false) = true := by
  have h : (match Ex.rot.toData.toCesr Ex.binEnv, Ex.cborEvent.toData.toCesr Ex.binEnv with
      | .ok a, .ok b => (match signedEventStreamP Ex.binReaders a with | .ok [] [_] => true | _ => false) &&
        (match signedEventStreamP Ex.binReaders b with | .ok [] [_] => true | _ => false) &&
        (match signedEventStreamP Ex.binReaders (b ++ a) with | .ok [] [_, _] => true | _ => false) &&
        (match signedEventStreamP Ex.binReaders (a ++ b) with | .failure => true | _ => false)
      | _, _ => false) = true := by decide +kernel
  split at h
  · rename_i a b ha hb
    simp only [Bool.and_eq_true] at h
    exact ⟨a, b, ha, hb, h.1.1.1, h.1.1.2, h.1.2, h.2⟩
  · cases h

end Keriox
