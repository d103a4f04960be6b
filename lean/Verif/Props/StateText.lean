import Verif.Props.Notice
import Verif.Props.Respond
import Verif.Props.WitnessQuery

/-!
# C98: what `respond_single` answers

`respond_single` (keri/mod.rs:316-325) answers one message with the identifier and the JSON text of its key state.  The text says exactly what
the log says (unlike the key state notices of C77, whose numbers come back wrong), it is complete, and reading it gives the state back.  The
members `p` and `et` are `null` in every answer.  Whatever follows the first message is dropped without an error.
-/
namespace Keriox

variable {σ : Type}

/-- reading a state: one JSON object with the members of `IdentifierState`, and nothing but white space behind it
(`serde_json::from_slice::<IdentifierState>`, state/mod.rs:23-53) -/
def readState (t : Bytes) : Res IdState :=
  match jsonTop t with
  | (fs, some rest) => if (skipWs rest).isEmpty then desState fs else .err (.deserialize "")
  | (_, none) => .err (.deserialize "")

/-- every part of the state survives being written and read on its own -/
def IdState.Readable (s : IdState) : Prop :=
  s.prefix.rt = true ∧ s.sn ≤ u64max ∧ s.lastDigest.rt = true ∧ (∀ p, s.lastPrevious = some p → p.rt = true) ∧
  s.current.rt = true ∧ s.tally ≤ u64max ∧ s.witnesses.all BasicPrefix.rt = true ∧ (∀ d, s.delegator = some d → d.rt = true) ∧
  s.lastEst.sn ≤ u64max ∧ s.lastEst.digest.rt = true ∧ s.lastEst.br.all BasicPrefix.rt = true ∧ s.lastEst.ba.all BasicPrefix.rt = true

theorem state_fits (s : IdState) : SVal.FitsF 127 s.fields := by
  have hp : (match s.lastPrevious with | some p => SVal.str p.toStr | none => .null).Fits 127 := by
    cases s.lastPrevious with
    | none => simp [SVal.Fits]
    | some p => exact SelfAddressingPrefix.toStr_utf8 _
  have he : (match s.lastType with | some p => SVal.str p.toStr | none => .null).Fits 127 := by
    cases s.lastType with
    | none => simp [SVal.Fits]
    | some p => exact type_utf8 _
  have hd : (match s.delegator with | some d => SVal.str d.toStr | none => .null).Fits 127 := by
    cases s.delegator with
    | none => simp [SVal.Fits]
    | some p => exact IdentifierPrefix.toStr_utf8 _
  have hn : utf8Valid (match s.current.nextDigest with | some n => n.toStr | none => []) = true := by
    cases s.current.nextDigest with
    | none => decide
    | some p => exact SelfAddressingPrefix.toStr_utf8 _
  have hl : s.lastEst.sval.Fits 127 := by
    unfold LastEst.sval
    simp only [SVal.FitsF, SVal.Fits]
    exact ⟨by decide, by decide, hexStr_utf8 _, by decide, SelfAddressingPrefix.toStr_utf8 _, by decide, keys_fit _ 124, by decide, keys_fit _ 124, trivial⟩
  unfold IdState.fields KeyConfig.fields
  simp only [List.cons_append, List.nil_append, SVal.FitsF]
  exact ⟨by decide, IdentifierPrefix.toStr_utf8 _, by decide, hexStr_utf8 _, by decide, SelfAddressingPrefix.toStr_utf8 _, by decide, hp, by decide, he,
    by decide, threshold_fits _ 124, by decide, keys_fit _ 125, by decide, hn, by decide, hexStr_utf8 _, by decide, keys_fit _ 125, by decide, hd,
    by decide, hl, trivial⟩

/-- C98: the text of a key state reads back as that state, and as nothing else. -/
theorem C98_reads_back (s : IdState) (h : s.Readable) : readState s.toJson = .ok s := by
  obtain ⟨h1, h2, h3, h4, h5, h6, h7, h8, h9, h10, h11, h12⟩ := h
  simp only [KeyConfig.rt, Bool.and_eq_true] at h5
  obtain ⟨⟨h5a, h5b⟩, h5c⟩ := h5
  have ht := jsonTop_written s.fields [] (state_fits s)
  rw [List.append_nil] at ht
  unfold readState IdState.toJson
  rw [ht]
  show (if (skipWs []).isEmpty then desState (SVal.toJFields s.fields) else _) = _
  rw [if_pos (show (skipWs []).isEmpty = true from rfl), state_iff]
  unfold StateOf
  rw [Sole_eq id_iff (v := .str s.prefix.toStr) rfl ((IdentifierPrefix.rt_iff _).1 h1),
    Sole_eq hex_iff (v := .str (hexStr s.sn)) rfl ((desHex_iff _).2 h2),
    Sole_eq sa_iff (v := .str s.lastDigest.toStr) rfl ((SelfAddressingPrefix.rt_iff _).1 h3),
    Maybe_eq sa_iff (x := s.lastPrevious) (v := (match s.lastPrevious with | some p => SVal.str p.toStr | none => .null).toJ) rfl (by
      cases e : s.lastPrevious with
      | none => rfl
      | some p =>
        show desOption desSA (.str p.toStr) = _
        rw [desOption, desSA, desText_ok, (SelfAddressingPrefix.rt_iff _).1 (h4 p e)]; rfl
        exact fun h => by cases h),
    Maybe_eq tagQ_iff (x := s.lastType) (v := (match s.lastType with | some p => SVal.str p.toStr | none => .null).toJ) rfl (by
      cases s.lastType with
      | none => rfl
      | some p =>
        show desOption desTagQ (.str p.toStr) = _
        rw [desOption, (tagQ_iff _ p).2 (.inl rfl)]; rfl
        exact fun h => by cases h),
    Sole_eq hex_iff (v := .str (hexStr s.tally)) rfl ((desHex_iff _).2 h6),
    Sole_eq keyList_iff (v := (keysSval s.witnesses).toJ) rfl ((desKeys_iff _).2 h7),
    Maybe_eq id_iff (x := s.delegator) (v := (match s.delegator with | some p => SVal.str p.toStr | none => .null).toJ) rfl (by
      cases e : s.delegator with
      | none => rfl
      | some p =>
        show desOption desId (.str p.toStr) = _
        rw [desOption, desId, desText_ok, (IdentifierPrefix.rt_iff _).1 (h8 p e)]; rfl
        exact fun h => by cases h),
    Sole_eq est_iff (v := s.lastEst.sval.toJ) rfl (est_written _ h9 h10 h11 h12),
    Sole_eq threshold_iff (v := s.current.threshold.sval.toJ) rfl ((desThreshold_iff _).2 h5a),
    Sole_eq keyList_iff (v := (keysSval s.current.publicKeys).toJ) rfl ((desKeys_iff _).2 h5b),
    Sole_eq next_iff (v := .str (match s.current.nextDigest with | some n => n.toStr | none => [])) (x := s.current.nextDigest) rfl
      ((desNext_iff s.current.nextDigest).2 h5c)]
  exact ⟨rfl, rfl, rfl, rfl, rfl, rfl, rfl, rfl, rfl, rfl, rfl, rfl⟩

/-- C98: two key states with the same text are the same. -/
theorem C98_complete (s s' : IdState) (h : s.Readable) (h' : s'.Readable) (ht : s.toJson = s'.toJson) : s = s' := by
  have := C98_reads_back s h
  rw [ht, C98_reads_back s' h'] at this
  exact (Res.ok.inj this).symm

/-! ## The states of logs -/

theorem state_readable {env : Env} {x : Bytes} (hx : x ≠ []) {l : List SignedEvent} {s : IdState} (h : Log env x l s) (hr : Readable l) :
    (s.lastPrevious = none ∧ s.lastType = none ∧ ∀ d, s.delegator = some d → d.rt = true) ∧ (l ≠ [] → s.Readable) := by
  induction h with
  | nil => exact ⟨⟨rfl, rfl, fun d hd => by cases hd⟩, fun h => absurd rfl h⟩
  | @snoc l s e s' hl hp hds ha ih =>
    have hr' : Readable l := fun a h => hr a (List.mem_append_left _ h)
    have he : e.rt = true := hr e (List.mem_append_right _ (List.mem_singleton.2 rfl))
    obtain ⟨⟨i1, i2, i3⟩, i4⟩ := ih hr'
    have A := applyTo_ok ha
    have hinc : e.data.isInception = false → l ≠ [] := by
      intro hf hn
      have := ((Log.snoc hl hp hds ha).facts hx).2.2 l.length e (by simp)
      rw [hn] at this
      have := this.2.2.2 rfl
      rw [hf] at this
      cases this
    simp only [SignedEvent.rt, EventMessage.rt, Bool.and_eq_true, decide_eq_true_eq] at he
    obtain ⟨⟨⟨⟨⟨_, e2⟩, e3⟩, e4⟩, e5⟩, _⟩ := he
    have hpre : s'.lastPrevious = none := A.lastPrev.trans i1
    have hde : ∀ d, s'.delegator = some d → d.rt = true := by
      intro d hd
      rw [A.delegator] at hd
      cases hdat : e.data with
      | dip d' =>
        rw [hdat] at hd
        cases hd
        have e5' : e.data.rt = true := e5
        rw [hdat] at e5'
        simp only [EventData.rt, Bool.and_eq_true] at e5'
        exact e5'.2
      | icp _ => rw [hdat] at hd; exact i3 d hd
      | rot _ => rw [hdat] at hd; exact i3 d hd
      | drt _ => rw [hdat] at hd; exact i3 d hd
      | ixn _ => rw [hdat] at hd; exact i3 d hd
    refine ⟨⟨hpre, A.lastType.trans i2, hde⟩, fun _ => ?_⟩
    have e5' : e.data.rt = true := e5
    have hc := A.keys
    have ht := A.tally
    have hw := A.witnesses
    have hle := A.lastEst
    unfold IdState.Readable
    rw [A.pre, A.sn, A.dig, hpre]
    refine ⟨e3, e4, e2, fun p hp => (by cases hp), ?_⟩
    have hrot : ∀ ws : List BasicPrefix, ws.all BasicPrefix.rt = true → ∀ p g : List BasicPrefix, g.all BasicPrefix.rt = true →
        (rotateWitnesses ws p g).all BasicPrefix.rt = true := by
      intro ws h1 p g h2
      unfold rotateWitnesses
      split
      · rw [List.all_eq_true] at *
        intro x hx
        rcases List.mem_append.1 hx with hx | hx
        · exact h1 x (List.mem_filter.1 hx).1
        · exact h2 x hx
      · exact h1
    cases hdat : e.data with
    | icp i =>
      rw [hdat] at hc ht hw hle e5'
      simp only [EventData.rt, InceptionEvent.rt, Bool.and_eq_true, decide_eq_true_eq] at e5'
      obtain ⟨⟨⟨g1, g2⟩, g3⟩, _⟩ := e5'
      rw [hc, ht, hw, hle]
      exact ⟨g1, g2, g3, hde, e4, e2, rfl, rfl⟩
    | dip i =>
      rw [hdat] at hc ht hw hle e5'
      simp only [EventData.rt, InceptionEvent.rt, Bool.and_eq_true, decide_eq_true_eq] at e5'
      obtain ⟨⟨⟨⟨g1, g2⟩, g3⟩, _⟩, _⟩ := e5'
      rw [hc, ht, hw, hle]
      exact ⟨g1, g2, g3, hde, e4, e2, rfl, rfl⟩
    | rot r =>
      have I := i4 (hinc (by rw [hdat]; rfl))
      obtain ⟨_, _, j3, _, _, _, j7, _⟩ := I
      rw [hdat] at hc ht hw hle e5'
      simp only [EventData.rt, RotationEvent.rt, Bool.and_eq_true, decide_eq_true_eq] at e5'
      obtain ⟨⟨⟨⟨⟨_, g1⟩, g2⟩, g3⟩, g4⟩, _⟩ := e5'
      rw [hc, ht, hw, hle]
      exact ⟨g1, g2, hrot _ j7 _ _ g4, hde, e4, j3, g4, g3⟩
    | drt r =>
      have I := i4 (hinc (by rw [hdat]; rfl))
      obtain ⟨_, _, j3, _, _, _, j7, _⟩ := I
      rw [hdat] at hc ht hw hle e5'
      simp only [EventData.rt, RotationEvent.rt, Bool.and_eq_true, decide_eq_true_eq] at e5'
      obtain ⟨⟨⟨⟨⟨_, g1⟩, g2⟩, g3⟩, g4⟩, _⟩ := e5'
      rw [hc, ht, hw, hle]
      exact ⟨g1, g2, hrot _ j7 _ _ g4, hde, e4, j3, g4, g3⟩
    | ixn i =>
      have I := i4 (hinc (by rw [hdat]; rfl))
      obtain ⟨_, _, _, _, j5, j6, j7, j8, j9, j10, j11, j12⟩ := I
      rw [hdat] at hc ht hw hle
      rw [hc, ht, hw, hle]
      exact ⟨j5, j6, j7, hde, j9, j10, j11, j12⟩

/-- C98: after any history, whatever state is reported for an identifier with a log: its text reads back as that state, and says nothing about
the previous event and the kind of the last event, however long the log is. -/
theorem C98_state_text (env : Env) (as : List Action) (id : IdentifierPrefix) (hid : id.toStr ≠ []) (hne : (after env as).kel id ≠ [])
    (s : IdState) (h : (computeState sled env id (after env as)).1 = .ok (some s)) :
    readState s.toJson = .ok s ∧ s.lastPrevious = none ∧ s.lastType = none := by
  have hr : Readable ((after env as).kel id) := by
    rw [computeState_spec env _ (after_inv env as), vec_of_kel hne] at h
    dsimp only at h
    split at h
    · exact (readable_iff _).1 (by assumption)
    · cases h
  obtain ⟨s', hl, hc⟩ := computeState_log env as id hid hne hr
  rw [h] at hc
  cases hc
  obtain ⟨⟨h1, h2, _⟩, h3⟩ := state_readable hid hl hr
  exact ⟨C98_reads_back s (h3 hne), h1, h2⟩

/-! ## Answers -/

theorem single_run (bin : Binary) (o : Ops σ) (env : Env) (t rest : Bytes) (d : SignedEventData) (m : Message)
    (h1 : signedMessageP bin t = .ok rest d) (h2 : d.toMessage = .ok m) (db : σ) :
    respondSingle bin o env t db =
      match process o env m db with
      | (.ok (some s), db') => (.ok (s.prefix, s.toJson), db')
      | (.ok none, db') => (.err .invalidIdentifierStat, db')
      | (.err e, db') => (.err e, db')
      | (.panic, db') => (.panic, db') := by
  unfold respondSingle
  rw [h1]
  simp only [parsed, StM.lift, StM.bind_run, StM.result, h2]
  rcases process o env m db with ⟨r, db'⟩
  rcases r with (_ | s) | e | _ <;> rfl

/-- C98: the answer to the text of an event that is accepted, after any history: the identifier and a text that reads back as the state of
the log with the event appended — which is what a later question for the state reports.  Whatever stands behind the message (nothing, or
anything that begins like a message) is dropped without being looked at. -/
theorem C98_accepted (env : Env) (bin : Binary) (hb : bin.RejectsJson) (as : List Action) (e : SignedEvent) (hid : e.pre.toStr ≠ [])
    (hw : (Message.event e).Wireable) (t : Bytes) (ht : e.toData.toCesr env = .ok t) (rest : Bytes) (hr : StreamEnd rest) (st : Option IdState)
    (hacc : (process sled env (.event e) (after env as)).1 = .ok st) :
    ∃ text s, respondSingle bin sled env (t ++ rest) (after env as) = (.ok (e.pre, text), after env (as ++ [.submit (.event e)])) ∧
      readState text = .ok s ∧
      (after env (as ++ [.submit (.event e)])).kel e.pre = (after env as).kel e.pre ++ [e.stored] ∧
      stateAfter env ((after env as).kel e.pre ++ [e.stored]) = .ok s ∧
      (computeState sled env e.pre (after env (as ++ [.submit (.event e)]))).1 = .ok (some s) := by
  obtain ⟨d, b, g1, g2, g3⟩ := C61_signed_message_roundtrip env bin hb (.event e) hw
  cases g1
  rw [ht] at g2
  cases g2
  obtain ⟨d', g4, g5⟩ := g3 rest hr
  obtain ⟨s0, new, bytes, rfl, hl, _, _, ha, _, _, hk⟩ := accepted_inv env as e hid st hacc
  have hrt : e.rt = true := by
    unfold SignedEvent.rt
    rw [(EventMessage.rt_of hw.1).1, Bool.true_and, List.all_eq_true]
    intro p hp
    simp only [AttachedSignaturePrefix.rt, decide_eq_true_eq]
    exact C35_attached_roundtrip p (hw.2.2.1.2 p hp).1 (hw.2.2.1.2 p hp).2
  obtain ⟨f1, new', f2, f3⟩ := C08_state_is_fold env as e hid hrt _ hacc
  cases f2
  have f4 := (C98_state_text env (as ++ [.submit (.event e)]) e.pre hid (by rw [hk]; simp) new f1).1
  refine ⟨new.toJson, new, ?_, f4, hk, by rw [← hk]; exact f3, f1⟩
  rw [single_run bin sled env (t ++ rest) rest d' (.event e) g4 g5]
  rcases hx : process sled env (.event e) (after env as) with ⟨r, db'⟩
  rw [hx] at hacc
  cases hacc
  have hdb : after env (as ++ [.submit (.event e)]) = db' := by rw [after_snoc, hx]
  rw [hdb, ← (applyTo_ok ha).pre]

/-- C98: the answer to the text of any message that is not accepted is the reason, with the store as the processor left it; a message the
processor takes without knowing a state for the identifier (a witness receipt ahead of its event, which is put aside) is answered with an
error although it was kept. -/
theorem C98_refused (env : Env) (bin : Binary) (hb : bin.RejectsJson) (as : List Action) (m : Message) (hw : m.Wireable) (d : SignedEventData)
    (hd : m.data? = some d) (t : Bytes) (ht : d.toCesr env = .ok t) (rest : Bytes) (hr : StreamEnd rest) :
    (∀ err, (process sled env m (after env as)).1 = .err err →
      respondSingle bin sled env (t ++ rest) (after env as) = (.err err, after env (as ++ [.submit m]))) ∧
    ((process sled env m (after env as)).1 = .ok none →
      respondSingle bin sled env (t ++ rest) (after env as) = (.err .invalidIdentifierStat, after env (as ++ [.submit m]))) ∧
    ((process sled env m (after env as)).1 = .panic → (respondSingle bin sled env (t ++ rest) (after env as)).1 = .panic) := by
  obtain ⟨d', b, g1, g2, g3⟩ := C61_signed_message_roundtrip env bin hb m hw
  rw [hd] at g1
  cases g1
  rw [ht] at g2
  cases g2
  obtain ⟨d', g4, g5⟩ := g3 rest hr
  rw [single_run bin sled env (t ++ rest) rest d' m g4 g5, after_snoc]
  rcases hx : process sled env m (after env as) with ⟨r, db'⟩
  refine ⟨fun err h => ?_, fun h => ?_, fun h => ?_⟩ <;> · cases h; rfl

/-! ## Examples -/

theorem Ex.rot_wireable : (Message.event Ex.rot).Wireable := by
  have hd : Ex.rot.msg.event.content.data = .rot ⟨icp.dig, kc [4, 5, 6] [7, 8, 9] (.simple 2), 1, [key 30], [key 32], []⟩ := by decide +kernel
  have hp : Ex.rot.msg.event.content.prefix = .selfAddressing ⟨.blake3_256, icp.dig.digest⟩ := by decide +kernel
  have hs : ∀ x ∈ Ex.rot.sigs, x.signature.signature.length = x.signature.derivation.rawBytes ∧ x.index < 63 := by decide +kernel
  refine ⟨⟨by decide +kernel, by decide +kernel, by decide +kernel, ⟨by decide +kernel, by decide +kernel⟩, ?_, by decide +kernel, ?_⟩, by decide +kernel,
    ⟨by decide +kernel, hs⟩, ?_⟩
  · rw [hp]
    exact ⟨⟨by decide +kernel, rfl⟩, fun h => h⟩
  · rw [hd]
    refine ⟨⟨by decide +kernel, by decide +kernel⟩, ⟨by show 2 ≤ u64max; decide, ?_, ?_⟩, by show 1 ≤ u64max; decide, ?_, ?_, by intro s h; cases h⟩
    · intro k hk
      simp only [kc, List.map_cons, List.map_nil, List.mem_cons, List.not_mem_nil, or_false] at hk
      rcases hk with rfl | rfl | rfl <;> exact ⟨rfl, fun h => by rcases h with h | h <;> cases h⟩
    · intro n hn
      cases hn
      exact ⟨by decide +kernel, by decide +kernel⟩
    · intro k hk
      simp only [List.mem_cons, List.not_mem_nil, or_false] at hk
      rcases hk with rfl; exact ⟨rfl, fun h => by rcases h with h | h <;> cases h⟩
    · intro k hk
      simp only [List.mem_cons, List.not_mem_nil, or_false] at hk
      rcases hk with rfl; exact ⟨rfl, fun h => by rcases h with h | h <;> cases h⟩
  · show Ex.rot.msg.event.content.data.isDelegated = false
    rw [hd]
    rfl

open Ex in
/-- the text of a rotation arrives after its inception: the answer reads as the state with the new keys, the new witness set and number 1 -/
example : ∃ t text s, rot.toData.toCesr env = .ok t ∧
    respondSingle noReaders.toBinary sled env (t ++ b!"{\"garbage") (after env [.submit (.event icp)]) =
      (.ok (Ex.id, text), after env [.submit (.event icp), .submit (.event rot)]) ∧
    readState text = .ok s ∧ s.sn = 1 ∧ s.current.publicKeys = [key 4, key 5, key 6] ∧ s.witnesses = [key 31, key 32] := by
  obtain ⟨d, t, g1, g2, _⟩ := C61_signed_message_roundtrip env noReaders.toBinary (fun _ _ => ⟨rfl, rfl⟩) (.event rot) rot_wireable
  cases g1
  have hst : (process sled env (.event rot) (after env [.submit (.event icp)])).1 = .ok (some rotState) := by decide +kernel
  obtain ⟨text, s, h1, h2, _, _, h5⟩ := C98_accepted env noReaders.toBinary (fun _ _ => ⟨rfl, rfl⟩) [.submit (.event icp)] rot (by decide +kernel)
    rot_wireable t g2 b!"{\"garbage" (.inr ⟨_, rfl⟩) _ hst
  refine ⟨t, text, s, g2, h1, h2, ?_⟩
  have h6 := (C08_state_is_fold env [.submit (.event icp)] rot (by decide +kernel) (by decide +kernel) _ hst).1
  rw [h6] at h5
  cases h5
  decide +kernel

open Ex in
/-- a rotation ahead of its inception is refused; a readable state -/
example : (∃ err, (process sled env (.event rot) (after env [])).1 = .err err) ∧ ixnState.Readable := by
  refine ⟨?_, ?_⟩
  · have h : (match (process sled env (.event rot) (after env [])).1 with | .err _ => true | _ => false) = true := by decide +kernel
    split at h
    · exact ⟨_, by assumption⟩
    · cases h
  · refine ⟨by decide +kernel, by decide +kernel, by decide +kernel, ?_, by decide +kernel, by decide +kernel, by decide +kernel, ?_,
      by decide +kernel, by decide +kernel, by decide +kernel, by decide +kernel⟩
    · intro p hp; have : ixnState.lastPrevious = none := by decide +kernel
      rw [this] at hp; cases hp
    · intro p hp; have : ixnState.delegator = none := by decide +kernel
      rw [this] at hp; cases hp

open Ex in
/-- a witness receipt ahead of its event is kept, but there is no state to answer with -/
example : (process sled env (.rctNt ⟨⟨SerInfo.new .json 145, rot.dig, Ex.id, 1⟩, [(key 7, ⟨.ed25519Sha512, List.replicate 64 1⟩)]⟩) (after env [])).1 = .ok none ∧
    ((process sled env (.rctNt ⟨⟨SerInfo.new .json 145, rot.dig, Ex.id, 1⟩, [(key 7, ⟨.ed25519Sha512, List.replicate 64 1⟩)]⟩) (after env [])).2.vec .ures
      Ex.id.toStr).isSome = true := by
  decide +kernel

end Keriox
