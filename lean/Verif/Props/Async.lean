import Verif.Async
import Verif.Props.Wire
import Verif.KeriExample
/-!
# C67: the asynchronous stream processor

`/repo/src/processor/async_processing.rs` reads a message's length from its version string and tries to work out the length of the
attached material.  A message that announces its own length correctly never gets through.
-/
namespace Keriox
open Async
variable {σ : Type}

/-! ## Specification -/

/-- the version field of a message -/
def EventType.version : EventType → SerInfo
  | .keyEvent m => m.info
  | .receipt r => r.info

/-- `t` is the text of the key event or receipt body `e`: representable on the wire, JSON, and announcing its own length -/
def TrueText (e : EventType) (t : Bytes) : Prop :=
  (match e with
    | .keyEvent m => m.Representable ∧ t = jsonText m.sval
    | .receipt r => r.Representable ∧ t = jsonText r.sval) ∧
  e.version.kind = .json ∧ e.version.size = t.length

/-- the bytes the first read hands to the processor -/
def firstRead (chunks : List Bytes) : Bytes := (chunks.headD []).take 8192

/-- nothing has been done: the database is the one it was, nothing was written back, nothing was sent on -/
def Untouched (db : σ) (s : St σ) : Prop := s.db = db ∧ s.written = [] ∧ s.sent = []

/-- the processor never ends: it is still running after any number of turns, without having done anything -/
def NeverEnds (cfg : Cfg σ) (s : St σ) : Prop := ∀ n, ∃ s', run cfg n s = .go s' ∧ Untouched s.db s'

/-- the processor ends like this, having done nothing -/
def EndsWith (cfg : Cfg σ) (s : St σ) (r : Fate) : Prop := ∃ n s', run cfg n s = .stop r s' ∧ Untouched s.db s'

/-! ## Facts -/

theorem plainStr_version (i : SerInfo) : plainStr i.toStr = true := by
  have hx : ∀ n, plainStr (hexStr n) = true := fun n => plainStr_hex (toBase_chars 16 (by omega) (by omega) n)
  have e2 : plainStr i.kind.toStr = true := by cases i.kind <;> decide
  exact plainStr_append (plainStr_append (plainStr_append (plainStr_append (plainStr_append (by decide) (hx _)) (hx _)) e2)
    (plainStr_hex (padZero_chars 6 _ (toBase_chars 16 (by omega) (by omega) _)))) (by decide)

theorem version_length (i : SerInfo) (hma : i.major ≤ 15) (hmi : i.minor ≤ 15) (h : i.size ≤ 65535) : i.toStr.length = 17 := by
  have hl : (hexStr i.size).length ≤ 6 := (toBase_length_le 16 (by omega) 6 i.size (by omega)).2 (by
    have : (65535 : Nat) < 16 ^ 6 := by decide
    omega)
  have one : ∀ n ≤ 15, (hexStr n).length = 1 := by
    intro n hn
    have : ∀ v : Fin 16, (hexStr v.val).length = 1 := by decide +kernel
    exact this ⟨n, by omega⟩
  unfold SerInfo.toStr
  simp only [List.length_append, padZero_length 6 _ hl, Fmt.toStr_length, one _ hma, one _ hmi, List.length_cons, List.length_nil]

/-- the version field as the loop reads it -/
theorem version_read (binVer : Bytes → Res (Option SerInfo)) (i : SerInfo) (hma : i.major ≤ 15) (hmi : i.minor ≤ 15) (h : i.size ≤ 65535) :
    version binVer (34 :: (i.toStr ++ [34])) = .ok (some i) := by
  have h1 : jsonString (i.toStr ++ [34]) = some (i.toStr, []) := by
    have := jsonString_written i.toStr [] (SerInfo.toStr_utf8 i)
    rwa [jsonEscape_plain (plainStr_version i)] at this
  unfold version jsonVersion
  rw [skipWs_cons 34 _ (by decide)]
  simp only [h1, (C41_exact i hma hmi).2 h]
  rfl

/-- the text of a message begins with its version field -/
theorem text_begins (i : SerInfo) (fs : List (Bytes × SVal)) :
    ∃ u, jsonText (.map ((b!"v", .str i.toStr) :: fs)) = [123, 34, 118, 34, 58] ++ ((34 :: (i.toStr ++ [34])) ++ u) := by
  refine ⟨jsonFieldsTail fs ++ [125], ?_⟩
  rw [jsonText, jsonFields, jsonText, jsonStr_plain (plainStr_version i)]
  have : jsonStr b!"v" = [34, 118, 34] := by decide
  rw [this]
  simp only [List.append_assoc, List.cons_append, List.nil_append]

/-- what the loop and the parsers make of the text of a message -/
structure Opens (bin : Binary) (binVer : Bytes → Res (Option SerInfo)) (e : EventType) (t : Bytes) : Prop where
  long : 24 ≤ t.length
  ver : version binVer ((t.drop 5).take 19) = .ok (some e.version)
  size : e.version.size = t.length
  parse : ∀ rest, altP (keyEventMessageP bin) (receiptMessageP bin) (t ++ rest) = .ok rest e

theorem TrueText.opens {e : EventType} {t : Bytes} (h : TrueText e t) (bin : Binary) (hb : bin.RejectsJson)
    (binVer : Bytes → Res (Option SerInfo)) : Opens bin binVer e t := by
  obtain ⟨h1, h2, h3⟩ := h
  have key : ∀ (i : SerInfo) (fs : List (Bytes × SVal)), i.major ≤ 15 → i.minor ≤ 15 → i.size ≤ 65535 →
      t = jsonText (.map ((b!"v", .str i.toStr) :: fs)) → 24 ≤ t.length ∧ version binVer ((t.drop 5).take 19) = .ok (some i) := by
    intro i fs a b c ht
    obtain ⟨u, hu⟩ := text_begins i fs
    have hl := version_length i a b c
    rw [ht, hu]
    refine ⟨by simp [hl]; omega, ?_⟩
    have : (34 :: (i.toStr ++ [34])).length = 19 := by simp [hl]
    rw [List.drop_left' (by rfl), List.take_left' this]
    exact version_read binVer i a b c
  cases e with
  | keyEvent m =>
    obtain ⟨hr, ht⟩ := h1
    obtain ⟨a, b⟩ := key m.info _ hr.1 hr.2.1 hr.2.2.1 ht
    refine ⟨a, b, h3, fun rest => ?_⟩
    unfold altP keyEventMessageP altP
    rw [ht, C44_roundtrip m rest hr]
    rfl
  | receipt r =>
    obtain ⟨hr, ht⟩ := h1
    obtain ⟨a, b⟩ := key r.info _ hr.1 hr.2.1 hr.2.2.1 ht
    refine ⟨a, b, h3, fun rest => ?_⟩
    obtain ⟨q, hq⟩ := r.text_start
    have hs : ∃ u, jsonText r.sval ++ rest = 123 :: u := ⟨_, by rw [hq]; rfl⟩
    unfold altP keyEventMessageP receiptMessageP altP
    rw [ht, receipt_not_event r hr rest, (hb _ (Or.inr hs)).1, receipt_json r hr rest]
    rfl

/-- a prefix of a stream that begins with `t` -/
theorem prefix_split {b t rest : Bytes} (h : b <+: t ++ rest) :
    (b.length < t.length ∧ b <+: t) ∨ (∃ r, b = t ++ r) := by
  rcases Nat.lt_or_ge b.length t.length with hl | hl
  · exact Or.inl ⟨hl, List.prefix_of_prefix_length_le h (List.prefix_append t rest) (by omega)⟩
  · obtain ⟨r, hr⟩ := List.prefix_of_prefix_length_le (List.prefix_append t rest) h hl
    exact Or.inr ⟨r, hr.symm⟩

theorem window {b t rest : Bytes} (h : b <+: t ++ rest) (hb : 24 ≤ b.length) (ht : 24 ≤ t.length) :
    slice b 5 24 = .ok ((t.drop 5).take 19) := by
  unfold slice
  rw [if_pos (by omega)]
  have e : ∀ x : Bytes, (x.drop 5).take 19 = (x.take 24).drop 5 := fun x => by rw [List.take_drop]
  have hp : b.take 24 = t.take 24 := by
    obtain ⟨q, hq⟩ := h
    have h1 : (b ++ q).take 24 = b.take 24 := List.take_append_of_le_length hb
    have h2 : (t ++ rest).take 24 = t.take 24 := List.take_append_of_le_length ht
    rw [← h1, hq, h2]
  simp only [show 24 - 5 = 19 from rfl]
  rw [e, hp, ← e]

/-- a message without attachments is refused before anything is done -/
theorem respond_bare (bin : Binary) (o : Ops σ) (env : Env) (binVer : Bytes → Res (Option SerInfo)) {e : EventType} {t : Bytes}
    (h : Opens bin binVer e t) (db : σ) : ∃ err, respondSingle bin o env t db = (.err err, db) := by
  have hp : signedMessageP bin t = .ok [] ⟨e, []⟩ := by
    have := h.parse []
    rw [List.append_nil] at this
    unfold signedMessageP
    rw [this]
    rfl
  have hm : ∃ err, (SignedEventData.mk e []).toMessage = .err err := by
    cases e with
    | keyEvent m =>
      simp only [SignedEventData.toMessage, signedKeyEvent]
      cases m.event.content.data <;> exact ⟨_, rfl⟩
    | receipt r => exact ⟨_, rfl⟩
  obtain ⟨err, hm⟩ := hm
  refine ⟨.deserialize "", ?_⟩
  unfold respondSingle
  rw [hp, StM.bind_run]
  simp only [parsed, StM.lift, StM.bind_run, StM.result, hm]
  rfl

/-- a framing code the attachment parser has no case for makes it crash -/
theorem respond_other (bin : Binary) (o : Ops σ) (env : Env) (binVer : Bytes → Res (Option SerInfo)) {e : EventType} {t : Bytes}
    (h : Opens bin binVer e t) (db : σ) (a b : UInt8) (r : Bytes) (hu : utf8Valid [a, b] = true)
    (hc : PayloadType.tryFrom [a, b] = some .other) : respondSingle bin o env (t ++ a :: b :: r) db = (.panic, db) := by
  have ha : attachmentP (a :: b :: r) = .panic := by
    unfold attachmentP
    rw [attachmentF.eq_2]
    have : takeN 2 (a :: b :: r) = .ok r [a, b] := by unfold takeN; rw [if_pos (by simp)]; rfl
    rw [this]
    simp only [IRes.andThen, hu, hc]
    rfl
  have hp : signedMessageP bin (t ++ a :: b :: r) = .panic := by
    unfold signedMessageP
    rw [h.parse]
    simp only [IRes.andThen]
    rw [many0P.eq_2, ha]
  unfold respondSingle
  rw [hp]
  rfl

theorem answer_stops (cfg : Cfg σ) (msg : Bytes) (db : σ) :
    (∀ err, respondSingle cfg.bin cfg.ops cfg.env msg db = (.err err, db) → answer cfg msg db = (.err err, db)) ∧
    (respondSingle cfg.bin cfg.ops cfg.env msg db = (.panic, db) → answer cfg msg db = (.panic, db)) := by
  constructor
  · intro err h
    unfold answer
    rw [StM.bind_run, h]
  · intro h
    unfold answer
    rw [StM.bind_run, h]

/-- the codes that are looked at: their second character ends in 001 or 010 -/
theorem payload_cases {x y : UInt8} {p : Nat × Nat} (h : payload [x, y] = some p) (hy : low3 y = 1 ∨ low3 y = 2) :
    ([x, y] = b!"0A" ∧ p = (24, 2)) ∨ ([x, y] = b!"0B" ∧ p = (88, 2)) ∨ (([x, y] = b!"-A" ∨ [x, y] = b!"-B") ∧ p = (88, 4)) ∨
      (([x, y] = b!"-Y" ∨ [x, y] = b!"-Z") ∧ p = (0, 4)) := by
  have all : ∀ c ∈ [b!"0A", b!"0B", b!"0C", b!"0D", b!"0E", b!"0F", b!"0G", b!"0H", b!"-A", b!"-B", b!"-H", b!"-C", b!"-D", b!"-E", b!"-F",
      b!"-G", b!"-U", b!"-V", b!"-W", b!"-X", b!"-Y", b!"-Z"], (low3 (c.getD 1 0) = 1 ∨ low3 (c.getD 1 0) = 2) →
      (c = b!"0A" ∧ payload c = some (24, 2)) ∨ (c = b!"0B" ∧ payload c = some (88, 2)) ∨
        ((c = b!"-A" ∨ c = b!"-B") ∧ payload c = some (88, 4)) ∨ ((c = b!"-Y" ∨ c = b!"-Z") ∧ payload c = some (0, 4)) := by
    decide +kernel
  have mem : [x, y] ∈ [b!"0A", b!"0B", b!"0C", b!"0D", b!"0E", b!"0F", b!"0G", b!"0H", b!"-A", b!"-B", b!"-H", b!"-C", b!"-D", b!"-E", b!"-F",
      b!"-G", b!"-U", b!"-V", b!"-W", b!"-X", b!"-Y", b!"-Z"] := by
    apply Decidable.byContradiction
    intro hn
    simp only [List.mem_cons, List.not_mem_nil, or_false, not_or] at hn
    obtain ⟨a1, a2, a3, a4, a5, a6, a7, a8, a9, a10, a11, a12, a13, a14, a15, a16, a17, a18, a19, a20, a21, a22⟩ := hn
    unfold payload at h
    simp only [List.mem_cons, List.not_mem_nil, or_false, a1, a2, a3, a4, a5, a6, a7, a8, a9, a10, a11, a12, a13, a14, a15, a16, a17, a18,
      a19, a20, a21, a22, if_false] at h
    cases h
  have := all _ mem hy
  rw [h] at this
  simpa only [Option.some.injEq] using this

/-- the length the loop works out for a message with something behind it is wrong, or stops at an unknown framing code -/
theorem attachedLen_cases (t : Bytes) (x y : UInt8) (r : Bytes) (hy : low3 y = 1 ∨ low3 y = 2) (k : Nat)
    (h : attachedLen (t ++ x :: y :: r) t.length = .ok k) :
    8192 < k ∨ (k = 4 ∧ 2 ≤ r.length ∧ utf8Valid [x, y] = true ∧ PayloadType.tryFrom [x, y] = some .other) := by
  unfold attachedLen at h
  obtain ⟨two, h1, h⟩ := Res.bind_eq_ok.1 h
  have e1 : two = [x, y] := by
    unfold slice at h1
    split at h1
    · cases h1; simp [show t.length + 2 - t.length = 2 by omega]
    · cases h1
  subst e1
  obtain ⟨two, h2, h⟩ := Res.bind_eq_ok.1 h
  have hu : utf8Valid [x, y] = true ∧ two = [x, y] := by
    unfold toText at h2
    split at h2
    · cases h2; exact ⟨by assumption, rfl⟩
    · cases h2
  obtain ⟨hu, rfl⟩ := hu
  cases hp : payload [x, y] with
  | none => rw [hp] at h; cases h
  | some p =>
    obtain ⟨size, cl⟩ := p
    rw [hp] at h
    simp only at h
    obtain ⟨code, h3, h⟩ := Res.bind_eq_ok.1 h
    obtain ⟨code', h4, hk⟩ := Res.bind_eq_ok.1 h
    have e4 : code' = code := by
      unfold toText at h4
      split at h4
      · cases h4; rfl
      · cases h4
    subst e4
    have e3 : code' = (x :: y :: r).take cl ∧ cl ≤ (x :: y :: r).length := by
      unfold slice at h3
      split at h3
      · rename_i hle
        cases h3
        refine ⟨by simp [show t.length + cl - t.length = cl by omega], ?_⟩
        have := hle.2
        simp only [List.length_append] at this
        omega
      · cases h3
    obtain ⟨e3, hlen⟩ := e3
    have cnt : ∀ n, 2 ≤ cl → b64ToNum [x, y] = .ok n → k = n * size + cl := by
      intro n hcl hn
      have hc : code' = x :: y :: r.take (cl - 2) := by
        rw [e3]
        obtain ⟨c, rfl⟩ : ∃ c, cl = c + 2 := ⟨cl - 2, by omega⟩
        simp
      have ht : takeN 2 code' = .ok (r.take (cl - 2)) [x, y] := by rw [hc]; unfold takeN; rw [if_pos (by simp)]; rfl
      have hb : b64CountP code' = .ok (r.take (cl - 2)) n := by
        unfold b64CountP
        rw [ht]
        simp only [IRes.andThen]
        rw [hn]
        rfl
      rw [hb] at hk
      cases hk
      rfl
    rcases payload_cases hp hy with ⟨hc, h5⟩ | ⟨hc, h5⟩ | ⟨hc, h5⟩ | ⟨hc, h5⟩
    · cases h5
      refine Or.inl ?_
      rw [cnt 3328 (by omega) (by rw [hc]; decide +kernel)]
      omega
    · cases h5
      refine Or.inl ?_
      rw [cnt 3329 (by omega) (by rw [hc]; decide +kernel)]
      omega
    · cases h5
      refine Or.inl ?_
      rcases hc with hc | hc
      · rw [cnt 3968 (by omega) (by rw [hc]; decide +kernel)]
        omega
      · rw [cnt 3969 (by omega) (by rw [hc]; decide +kernel)]
        omega
    · cases h5
      refine Or.inr ⟨?_, by simp at hlen; omega, hu, ?_⟩
      · rcases hc with hc | hc
        · rw [cnt 3992 (by omega) (by rw [hc]; decide +kernel)]
        · rw [cnt 3993 (by omega) (by rw [hc]; decide +kernel)]
      · rcases hc with hc | hc <;> rw [hc] <;> decide +kernel

/-- the framing code of signatures is always understood, wrongly -/
theorem attachedLen_sigs (t : Bytes) (x y : UInt8) (r : Bytes) (hxy : [x, y] = b!"-A") (has : Ascii (r.take 2)) (er : Error) :
    attachedLen (t ++ x :: y :: r) t.length ≠ .err er := by
  cases hxy
  intro h
  have e1 : slice (t ++ 45 :: 65 :: r) t.length (t.length + 2) = .ok [45, 65] := by
    unfold slice
    rw [if_pos (by simp)]
    simp [show t.length + 2 - t.length = 2 by omega]
  have e2 : toText [45, 65] = .ok [45, 65] := by decide +kernel
  have e3 : payload [45, 65] = some (88, 4) := by decide +kernel
  unfold attachedLen at h
  rw [e1, Res.ok_bind, e2, Res.ok_bind, e3] at h
  simp only at h
  unfold slice at h
  split at h
  · rw [Res.ok_bind] at h
    have e4 : ((t ++ 45 :: 65 :: r).drop t.length).take (t.length + 4 - t.length) = 45 :: 65 :: r.take 2 := by
      simp [show t.length + 4 - t.length = 4 by omega]
    have hA : Ascii (45 :: 65 :: r.take 2) := by
      intro c hc
      simp only [List.mem_cons] at hc
      rcases hc with rfl | rfl | hc
      · decide
      · decide
      · exact has c hc
    rw [e4] at h
    unfold toText at h
    rw [if_pos hA.utf8, Res.ok_bind] at h
    have ht : b64CountP (45 :: 65 :: r.take 2) = .ok (r.take 2) 3968 := by
      have : b64ToNum [45, 65] = .ok 3968 := by decide +kernel
      unfold b64CountP takeN
      rw [if_pos (by simp)]
      simp only [IRes.andThen, List.take_succ_cons, List.take_zero, this]
      rfl
    rw [ht] at h
    cases h
  · cases h

/-- what one look at the buffer does, when it begins with a message announcing its own length -/
theorem turnMessage_true (cfg : Cfg σ) {e : EventType} {t rest : Bytes} (h : Opens cfg.bin cfg.binVer e t) (s : St σ)
    (hf : firstByteOk cfg.firstByte = true) (hpre : s.buf <+: t ++ rest) (h24 : 24 ≤ s.buf.length) (hmax : s.buf.length ≤ 8192)
    (h0 : s.processed = 0) :
    (s.buf.length < t.length → turnMessage cfg s = .go s) ∧
    (s.buf.length = t.length → turnMessage cfg s = .stop .failed s) ∧
    (s.buf.length = t.length + 1 → turnMessage cfg s = .stop .panicked s) ∧
    (t.length < s.buf.length → (∃ u, s.buf = t ++ b!"-A" ++ u ∧ Ascii (u.take 2)) → turnMessage cfg s = .stop .panicked s) ∧
    (∀ x y r, s.buf = t ++ x :: y :: r → ¬ (low3 y = 1 ∨ low3 y = 2) → turnMessage cfg s = .stop .failed s) ∧
    (t.length ≤ s.buf.length → turnMessage cfg s = .stop .failed s ∨ turnMessage cfg s = .stop .panicked s) := by
  have hw : slice s.buf (s.processed + 5) (s.processed + 24) = .ok ((t.drop 5).take 19) := by
    rw [h0]; exact window hpre h24 h.long
  have hfr : frame cfg.binVer cfg.firstByte s.buf s.processed =
      (if s.buf.length < t.length then .ok .again
        else if s.buf.length > t.length then do
          let b ← index s.buf (t.length + 1)
          if low3 b = 1 || low3 b = 2 then
            if s.buf.length < t.length + 2 then .ok .again
            else do
              let k ← attachedLen s.buf t.length
              .ok (.length (t.length + k))
          else if low3 cfg.firstByte = 7 then .panic
          else .ok (.length t.length)
        else .ok (.length t.length)) := by
    unfold frame
    rw [hw, Res.ok_bind, h.ver, Res.ok_bind, ← h.size]
  have bare : frame cfg.binVer cfg.firstByte s.buf s.processed = .ok (.length t.length) → t.length ≤ s.buf.length →
      turnMessage cfg s = .stop .failed s := by
    intro hl hle
    have hsl : slice s.buf s.processed (s.processed + t.length) = .ok t := by
      unfold slice
      rw [h0, if_pos (by omega)]
      rcases prefix_split hpre with ⟨h1, _⟩ | ⟨r, hr⟩
      · omega
      · rw [hr]; simp
    obtain ⟨err, hrs⟩ := respond_bare cfg.bin cfg.ops cfg.env cfg.binVer h s.db
    unfold turnMessage
    rw [hl]
    simp only [hsl, (answer_stops cfg t s.db).1 err hrs]
  have f7 : ¬ low3 cfg.firstByte = 7 := by
    intro h7
    simp [firstByteOk, h7] at hf
  have stopP : frame cfg.binVer cfg.firstByte s.buf s.processed = .panic → turnMessage cfg s = .stop .panicked s := by
    intro hl; unfold turnMessage; rw [hl]
  have big : ∀ k, s.buf.length < k → frame cfg.binVer cfg.firstByte s.buf s.processed = .ok (.length k) →
      turnMessage cfg s = .stop .panicked s := by
    intro k hk hl
    unfold turnMessage
    rw [hl]
    have : slice s.buf s.processed (s.processed + k) = .panic := by
      unfold slice; rw [if_neg (by omega)]
    simp only [this]
  have one : s.buf.length = t.length + 1 → turnMessage cfg s = .stop .panicked s := by
    intro hl
    refine stopP ?_
    rw [hfr, if_neg (by omega), if_pos (by omega)]
    have : index s.buf (t.length + 1) = .panic := by
      unfold index; rw [List.getElem?_eq_none (by omega)]
    rw [this]
    rfl
  have eqc : s.buf.length = t.length → turnMessage cfg s = .stop .failed s := by
    intro hl
    exact bare (by rw [hfr, if_neg (by omega), if_neg (by omega)]) (by omega)
  have more : ∀ x y r, s.buf = t ++ x :: y :: r →
      (turnMessage cfg s = .stop .failed s ∨ turnMessage cfg s = .stop .panicked s) ∧
      ([x, y] = b!"-A" → Ascii (r.take 2) → turnMessage cfg s = .stop .panicked s) ∧
      (¬ (low3 y = 1 ∨ low3 y = 2) → turnMessage cfg s = .stop .failed s) := by
    intro x y r hr
    have hlen : s.buf.length = t.length + (r.length + 2) := by rw [hr]; simp
    have hix : index s.buf (t.length + 1) = .ok y := by
      unfold index; rw [hr]; simp
    have hfr2 : frame cfg.binVer cfg.firstByte s.buf s.processed =
        (if low3 y = 1 || low3 y = 2 then do
            let k ← attachedLen s.buf t.length
            .ok (.length (t.length + k))
          else .ok (.length t.length)) := by
      rw [hfr, if_neg (by omega), if_pos (by omega), hix, Res.ok_bind, if_neg (show ¬ s.buf.length < t.length + 2 by omega), if_neg f7]
    by_cases hy : low3 y = 1 ∨ low3 y = 2
    · rw [if_pos (by simpa using hy)] at hfr2
      cases ha : attachedLen s.buf t.length with
      | panic =>
        rw [ha] at hfr2
        exact ⟨Or.inr (stopP hfr2), fun _ _ => stopP hfr2, fun hn => (hn hy).elim⟩
      | err er =>
        rw [ha] at hfr2
        have hst : turnMessage cfg s = .stop .failed s := by
          unfold turnMessage; rw [hfr2]; rfl
        refine ⟨Or.inl hst, fun hxy has => ?_, fun hn => (hn hy).elim⟩
        rw [hr] at ha
        exact (attachedLen_sigs t x y r hxy has er ha).elim
      | ok k =>
        rw [ha, Res.ok_bind] at hfr2
        have hst : turnMessage cfg s = .stop .panicked s := by
          rcases attachedLen_cases t x y r hy k (by rw [← hr]; exact ha) with hk | ⟨hk, hr2, hu, ho⟩
          · exact big _ (by omega) hfr2
          · subst hk
            obtain ⟨p, q, r', rfl⟩ : ∃ p q r', r = p :: q :: r' := by
              match r, hr2 with
              | p :: q :: r', _ => exact ⟨p, q, r', rfl⟩
            have hsl : slice s.buf s.processed (s.processed + (t.length + 4)) = .ok (t ++ x :: y :: [p, q]) := by
              unfold slice
              rw [h0, if_pos (by simp only [List.length_cons] at hlen; omega), hr]
              have : t ++ x :: y :: p :: q :: r' = (t ++ [x, y, p, q]) ++ r' := by simp
              rw [this]
              simp only [List.drop_zero, Nat.zero_add, Nat.sub_zero]
              rw [List.take_left' (by simp)]
            have hp := respond_other cfg.bin cfg.ops cfg.env cfg.binVer h s.db x y [p, q] hu ho
            unfold turnMessage
            rw [hfr2]
            simp only [hsl, (answer_stops cfg _ s.db).2 hp]
        exact ⟨Or.inr hst, fun _ _ => hst, fun hn => (hn hy).elim⟩
    · rw [if_neg (by simpa using hy)] at hfr2
      refine ⟨Or.inl (bare hfr2 (by omega)), fun hxy _ => ?_, fun _ => bare hfr2 (by omega)⟩
      cases hxy
      exact (hy (by decide)).elim
  have ge : t.length ≤ s.buf.length → turnMessage cfg s = .stop .failed s ∨ turnMessage cfg s = .stop .panicked s := by
    intro hle
    rcases prefix_split hpre with ⟨h1, _⟩ | ⟨r, hr⟩
    · omega
    · match r, hr with
      | [], hr => exact Or.inl (eqc (by rw [hr]; simp))
      | [x], hr => exact Or.inr (one (by rw [hr]; simp))
      | x :: y :: r, hr => exact (more x y r hr).1
  refine ⟨fun hl => ?_, eqc, one, fun _ hu => ?_, fun x y r hr => (more x y r hr).2.2, ge⟩
  · unfold turnMessage
    rw [hfr, if_pos hl]
  · obtain ⟨u, hu, has⟩ := hu
    exact (more 45 65 u (by rw [hu]; simp)).2.1 rfl has

/-! ## Running -/

theorem run_stays (cfg : Cfg σ) (s : St σ) (h : turn cfg s = .go s) (n : Nat) : run cfg n s = .go s := by
  induction n with
  | zero => rfl
  | succ n ih => rw [run, h]; exact ih

/-- the state after the first read -/
def afterRead (chunks : List Bytes) (ending : Ending) (writer : List Write) (db : σ) (inner : Bool) : St σ :=
  { fill (start chunks ending writer db) with inner := inner }

section
variable (cfg : Cfg σ) (hf : firstByteOk cfg.firstByte = true) (chunks : List Bytes) (ending : Ending) (writer : List Write) (db : σ)
include hf

theorem firstRead_buf (inner : Bool) : (afterRead chunks ending writer db inner).buf = firstRead chunks := by
  unfold afterRead fill start firstRead
  cases chunks <;> rfl

theorem turn_start (hne : firstRead chunks ≠ []) :
    turn cfg (start chunks ending writer db) = .go (afterRead chunks ending writer db (decide (24 ≤ (firstRead chunks).length))) := by
  have hb : (fill (start chunks ending writer db)).buf = firstRead chunks := firstRead_buf cfg hf chunks ending writer db false
  have hi : (fill (start chunks ending writer db)).inner = false := by
    unfold fill start
    cases chunks <;> rfl
  unfold turn
  rw [if_neg (by simp [hf]), if_neg (by simp [start])]
  simp only
  rw [if_neg (by rw [hb]; simpa using hne), hb]
  split
  · rw [show decide (24 ≤ (firstRead chunks).length) = false by simp; omega]
    unfold afterRead
    rw [← hi]
  · rw [show decide (24 ≤ (firstRead chunks).length) = true by simp; omega]
    rw [← hb]
    rfl

theorem turn_short (hne : firstRead chunks ≠ []) (hl : (firstRead chunks).length < 24) :
    turn cfg (afterRead chunks ending writer db false) = .go (afterRead chunks ending writer db false) := by
  have hb := firstRead_buf cfg hf chunks ending writer db false
  have hfill : fill (afterRead chunks ending writer db false) = afterRead chunks ending writer db false := by
    conv => lhs; unfold fill
    rw [if_neg (by rw [hb]; simpa using hne)]
  unfold turn
  rw [if_neg (by simp [hf]), if_neg (by simp [afterRead])]
  simp only [hfill, hb]
  rw [if_neg (by simpa using hne), if_pos hl]

theorem turn_long (hl : 24 ≤ (firstRead chunks).length) :
    turn cfg (afterRead chunks ending writer db true) = turnMessage cfg (afterRead chunks ending writer db true) := by
  unfold turn
  rw [if_neg (by simp [hf]), if_pos (by rfl), if_pos]
  rw [firstRead_buf cfg hf]
  have : (afterRead chunks ending writer db true).processed = 0 := by
    unfold afterRead fill start
    cases chunks <;> rfl
  omega
end

theorem afterRead_untouched (chunks : List Bytes) (ending : Ending) (writer : List Write) (db : σ) (inner : Bool) :
    Untouched db (afterRead chunks ending writer db inner) ∧ (afterRead chunks ending writer db inner).processed = 0 := by
  unfold afterRead fill start Untouched
  cases chunks <;> exact ⟨⟨rfl, rfl, rfl⟩, rfl⟩

theorem start_db (chunks : List Bytes) (ending : Ending) (writer : List Write) (db : σ) : (start chunks ending writer db).db = db := rfl

theorem never_of_spin (cfg : Cfg σ) (chunks : List Bytes) (ending : Ending) (writer : List Write) (db : σ) (inner : Bool)
    (h1 : turn cfg (start chunks ending writer db) = .go (afterRead chunks ending writer db inner))
    (h2 : turn cfg (afterRead chunks ending writer db inner) = .go (afterRead chunks ending writer db inner)) :
    NeverEnds cfg (start chunks ending writer db) := by
  intro n
  cases n with
  | zero => exact ⟨_, rfl, rfl, rfl, rfl⟩
  | succ n =>
    refine ⟨afterRead chunks ending writer db inner, ?_, (afterRead_untouched chunks ending writer db inner).1⟩
    rw [run, h1]
    exact run_stays cfg _ h2 n

theorem ends_of_stop (cfg : Cfg σ) (chunks : List Bytes) (ending : Ending) (writer : List Write) (db : σ) (inner : Bool) (r : Fate)
    (h1 : turn cfg (start chunks ending writer db) = .go (afterRead chunks ending writer db inner))
    (h2 : turn cfg (afterRead chunks ending writer db inner) = .stop r (afterRead chunks ending writer db inner)) :
    EndsWith cfg (start chunks ending writer db) r := by
  refine ⟨2, afterRead chunks ending writer db inner, ?_, (afterRead_untouched chunks ending writer db inner).1⟩
  rw [run, h1]
  simp only
  rw [run, h2]

theorem firstRead_le (chunks : List Bytes) : (firstRead chunks).length ≤ 8192 := by
  unfold firstRead
  rw [List.length_take]
  omega

theorem firstRead_prefix {chunks : List Bytes} {x : Bytes} (h : chunks.flatten = x) : firstRead chunks <+: x := by
  unfold firstRead
  cases chunks with
  | nil => simp
  | cons c cs =>
    subst h
    exact (List.take_prefix _ _).trans (List.prefix_append _ _)

/-! ## The property -/

/-- C67: when the first read returns fewer than 24 bytes, the processor never ends and never looks at anything else that arrives. -/
theorem C67_short_read_spins (cfg : Cfg σ) (hf : firstByteOk cfg.firstByte = true) (chunks : List Bytes) (ending : Ending)
    (writer : List Write) (db : σ) (hne : firstRead chunks ≠ []) (hl : (firstRead chunks).length < 24) :
    NeverEnds cfg (start chunks ending writer db) := by
  have h1 := turn_start cfg hf chunks ending writer db hne
  rw [show decide (24 ≤ (firstRead chunks).length) = false by simp; omega] at h1
  exact never_of_spin cfg chunks ending writer db false h1 (turn_short cfg hf chunks ending writer db hne hl)

/-- C67: the fate of a stream that begins with the text of a message announcing its own length, followed by anything: decided by the size
of the first read alone. -/
theorem C67_fate (cfg : Cfg σ) (hf : firstByteOk cfg.firstByte = true) (hb : cfg.bin.RejectsJson) (e : EventType) (t rest : Bytes)
    (ht : TrueText e t) (chunks : List Bytes) (hc : chunks.flatten = t ++ rest) (ending : Ending) (writer : List Write) (db : σ)
    (hne : firstRead chunks ≠ []) :
    ((firstRead chunks).length < t.length → NeverEnds cfg (start chunks ending writer db)) ∧
    ((firstRead chunks).length = t.length → EndsWith cfg (start chunks ending writer db) .failed) ∧
    ((firstRead chunks).length = t.length + 1 → EndsWith cfg (start chunks ending writer db) .panicked) ∧
    ((firstRead chunks).length ≥ t.length + 2 → EndsWith cfg (start chunks ending writer db) .failed ∨
      EndsWith cfg (start chunks ending writer db) .panicked) := by
  have ho := ht.opens cfg.bin hb cfg.binVer
  by_cases hl : (firstRead chunks).length < 24
  · have := ho.long
    exact ⟨fun _ => C67_short_read_spins cfg hf chunks ending writer db hne hl, fun _ => by omega, fun _ => by omega, fun _ => by omega⟩
  · have h1 := turn_start cfg hf chunks ending writer db hne
    rw [show decide (24 ≤ (firstRead chunks).length) = true by simp; omega] at h1
    have hbuf := firstRead_buf cfg hf chunks ending writer db true
    have h2 := turn_long cfg hf chunks ending writer db (by omega)
    obtain ⟨a, b, c, _, _, d⟩ := turnMessage_true cfg (rest := rest) ho (afterRead chunks ending writer db true) hf
      (by rw [hbuf]; exact firstRead_prefix hc) (by rw [hbuf]; omega) (by rw [hbuf]; exact firstRead_le chunks)
      (afterRead_untouched chunks ending writer db true).2
    rw [hbuf, ← h2] at a b c d
    refine ⟨fun h => never_of_spin cfg chunks ending writer db true h1 (a h), fun h => ends_of_stop cfg _ _ _ _ true _ h1 (b h),
      fun h => ends_of_stop cfg _ _ _ _ true _ h1 (c h), fun h => ?_⟩
    rcases d (by omega) with d | d
    · exact Or.inl (ends_of_stop cfg _ _ _ _ true _ h1 d)
    · exact Or.inr (ends_of_stop cfg _ _ _ _ true _ h1 d)

/-- C67: a first byte whose three low bits are not one of 011, 100, 101, 110 ends the processor at once. -/
theorem C67_first_byte (cfg : Cfg σ) (chunks : List Bytes) (ending : Ending) (writer : List Write) (db : σ)
    (hf : cfg.firstByte.toNat % 8 ≠ 3 ∧ cfg.firstByte.toNat % 8 ≠ 4 ∧ cfg.firstByte.toNat % 8 ≠ 5 ∧ cfg.firstByte.toNat % 8 ≠ 6) :
    EndsWith cfg (start chunks ending writer db) .failed := by
  refine ⟨1, start chunks ending writer db, ?_, rfl, rfl, rfl⟩
  have : firstByteOk cfg.firstByte = false := by simp [firstByteOk, low3, hf]
  rw [run]
  unfold turn
  rw [if_pos (by simp [this])]

theorem run_untouched_of (cfg : Cfg σ) (s : St σ) (P : Turn σ → Prop) (h0 : P (.go s))
    (h : (∀ n, ∃ s', run cfg (n + 1) s = .go s' ∧ P (.go s')) ∨
      (∃ s1 r, turn cfg s = .go s1 ∧ P (.go s1) ∧ turn cfg s1 = .stop r s1 ∧ P (.stop r s1)) ∨ (∃ r, turn cfg s = .stop r s ∧ P (.stop r s))) (n : Nat) :
    P (run cfg n s) := by
  cases n with
  | zero => exact h0
  | succ n =>
    rcases h with h | ⟨s1, r, h1, p1, h2, p2⟩ | ⟨r, h1, p1⟩
    · obtain ⟨s', hs, hp⟩ := h n
      rw [hs]; exact hp
    · rw [run, h1]
      cases n with
      | zero => exact p1
      | succ n => simp only; rw [run, h2]; exact p2
    · rw [run, h1]; exact p1

/-- C67: a message announcing its own length never gets in, whatever is attached to it or follows, in whatever pieces it arrives: at no
time has the database changed, and nothing is written back or sent on; if the processor ends, it is with an error or a crash. -/
theorem C67_nothing_gets_in (cfg : Cfg σ) (hb : cfg.bin.RejectsJson) (e : EventType) (t rest : Bytes) (ht : TrueText e t)
    (chunks : List Bytes) (hc : chunks.flatten = t ++ rest) (hne : ∀ c ∈ chunks, c ≠ []) (ending : Ending) (writer : List Write) (db : σ)
    (n : Nat) :
    match run cfg n (start chunks ending writer db) with
    | .go s => Untouched db s
    | .stop r s => Untouched db s ∧ (r = .failed ∨ r = .panicked) := by
  have ho := ht.opens cfg.bin hb cfg.binVer
  have hr : firstRead chunks ≠ [] := by
    unfold firstRead
    cases chunks with
    | nil =>
      have := ho.long
      have h2 := congrArg List.length hc
      simp at h2
      omega
    | cons c cs =>
      have := hne c (by simp)
      cases c with
      | nil => exact (this rfl).elim
      | cons a b => simp
  refine run_untouched_of cfg (start chunks ending writer db) (fun r => match r with
    | .go s => Untouched db s
    | .stop r s => Untouched db s ∧ (r = .failed ∨ r = .panicked)) ⟨rfl, rfl, rfl⟩ ?_ n
  by_cases hf : firstByteOk cfg.firstByte = true
  · by_cases hl : (firstRead chunks).length < 24
    · exact Or.inl fun n => C67_short_read_spins cfg hf chunks ending writer db hr hl (n + 1)
    · have h1 := turn_start cfg hf chunks ending writer db hr
      rw [show decide (24 ≤ (firstRead chunks).length) = true by simp; omega] at h1
      have hbuf := firstRead_buf cfg hf chunks ending writer db true
      have h2 := turn_long cfg hf chunks ending writer db (by omega)
      have hu := (afterRead_untouched chunks ending writer db true).1
      obtain ⟨a, _, _, _, _, d⟩ := turnMessage_true cfg (rest := rest) ho (afterRead chunks ending writer db true) hf
        (by rw [hbuf]; exact firstRead_prefix hc) (by rw [hbuf]; omega) (by rw [hbuf]; exact firstRead_le chunks)
        (afterRead_untouched chunks ending writer db true).2
      rw [hbuf, ← h2] at a d
      rcases Nat.lt_or_ge (firstRead chunks).length t.length with hlt | hge
      · exact Or.inl fun n => never_of_spin cfg chunks ending writer db true h1 (a hlt) (n + 1)
      · rcases d hge with d | d
        · exact Or.inr (Or.inl ⟨_, _, h1, hu, d, hu, Or.inl rfl⟩)
        · exact Or.inr (Or.inl ⟨_, _, h1, hu, d, hu, Or.inr rfl⟩)
  · refine Or.inr (Or.inr ⟨.failed, ?_, ⟨rfl, rfl, rfl⟩, Or.inl rfl⟩)
    unfold turn
    rw [if_pos (by simpa using hf)]

/-- the first bytes of what this library attaches to a message -/
theorem attached_first (d : SignedEventData) (m : Message) (h : m.Wireable) (hd : m.data? = some d) (u : Bytes)
    (hu : Attachment.toCesrList d.attachments = .ok u) :
    match m with
    | .event e => if e.delegatorSeal = none then ∃ k v, k < 63 ∧ u = b!"-A" ++ [65, b64Char k] ++ v else ∃ v, u = b!"-G" ++ v
    | .rctNt _ => ∃ v, u = b!"-C" ++ v
    | .rctT _ => ∃ v, u = b!"-F" ++ v
    | _ => True := by
  have one : ∀ (a : Attachment) (as : List Attachment), Attachment.toCesrList (a :: as) = .ok u →
      ∃ x y, a.toCesr = .ok x ∧ u = x ++ y := by
    intro a as ha
    rw [Attachment.toCesrList] at ha
    obtain ⟨x, h1, h2⟩ := Res.bind_eq_ok.1 ha
    obtain ⟨y, _, h3⟩ := Res.bind_eq_ok.1 h2
    cases h3
    exact ⟨x, y, h1, rfl⟩
  cases m with
  | event e =>
    cases hd
    obtain ⟨h1, h2, h3, h4⟩ := h
    simp only
    cases hs : e.delegatorSeal with
    | none =>
      rw [if_pos rfl]
      simp only [SignedEvent.toData, hs] at hu
      obtain ⟨x, y, hx, rfl⟩ := one _ _ hu
      rw [Attachment.toCesr] at hx
      unfold sigsToCesr at hx
      rw [adjust_small .MA _ h3.1 b!"-A" (Or.inl ⟨rfl, rfl⟩), Res.ok_bind] at hx
      cases hx
      exact ⟨e.sigs.length, _, h3.1, by rw [List.append_assoc]⟩
    | some sl =>
      rw [if_neg (by simp)]
      simp only [SignedEvent.toData, hs] at hu
      obtain ⟨x, y, hx, rfl⟩ := one _ _ hu
      rw [Attachment.toCesr, adjust_small .MG _ (by simp) b!"-G" (by simp), Res.ok_bind] at hx
      cases hx
      exact ⟨_, by simp only [List.append_assoc]; rfl⟩
  | rctNt r =>
    cases hd
    obtain ⟨x, y, hx, rfl⟩ := one _ _ hu
    rw [Attachment.toCesr, adjust_small .MC _ h.2.1 b!"-C" (by simp), Res.ok_bind] at hx
    cases hx
    exact ⟨_, by simp only [List.append_assoc]; rfl⟩
  | rctT r =>
    cases hd
    obtain ⟨x, y, hx, rfl⟩ := one _ _ hu
    rw [Attachment.toCesr] at hx
    obtain ⟨b, _, hx⟩ := Res.bind_eq_ok.1 hx
    rw [adjust_small .MF _ (by simp) b!"-F" (by simp), Res.ok_bind] at hx
    cases hx
    exact ⟨_, by simp only [List.append_assoc]; rfl⟩
  | reply r => exact h.elim
  | query q => exact h.elim

/-- the fate of a message written by this library, from the length `n` of its body and the length `l` of the first read (`none`: the
processor never ends) -/
def fateOf (m : Message) (n l : Nat) : Option Fate :=
  if l < n then none
  else if l = n then some .failed
  else if l = n + 1 then some .panicked
  else match m with
    | .event e => if e.delegatorSeal = none then some .panicked else some .failed
    | _ => some .failed

/-- C67: the exact fate of every signed event and receipt as this library writes it, followed by anything, in whatever pieces it arrives. -/
theorem C67_messages (env : Env) (cfg : Cfg σ) (hf : firstByteOk cfg.firstByte = true) (hb : cfg.bin.RejectsJson) (m : Message)
    (hw : m.Wireable) (d : SignedEventData) (hd : m.data? = some d) (b : Bytes) (hcesr : d.toCesr env = .ok b) (t : Bytes)
    (hser : d.event.serialize env = .ok t) (hsize : d.event.version.size = t.length) (rest : Bytes)
    (chunks : List Bytes) (hc : chunks.flatten = b ++ rest) (hne : firstRead chunks ≠ []) (ending : Ending) (writer : List Write) (db : σ) :
    match fateOf m t.length (firstRead chunks).length with
    | none => NeverEnds cfg (start chunks ending writer db)
    | some r => EndsWith cfg (start chunks ending writer db) r := by
  have hrep : (match d.event with
      | .keyEvent m => m.Representable ∧ t = jsonText m.sval
      | .receipt r => r.Representable ∧ t = jsonText r.sval) ∧ d.event.version.kind = .json := by
    cases m with
    | event e =>
      cases hd
      have hs := hser
      simp only [SignedEvent.toData, EventType.serialize, EventMessage.serialize, hw.2.1, Fmt.encode, Res.ok.injEq] at hs
      exact ⟨⟨hw.1, hs.symm⟩, hw.2.1⟩
    | rctNt r =>
      cases hd
      have hs := hser
      simp only [NtReceipt.toData, EventType.serialize, hw.1.2.2.2.1, Fmt.encode, Res.ok.injEq] at hs
      exact ⟨⟨hw.1, hs.symm⟩, hw.1.2.2.2.1⟩
    | rctT r =>
      cases hd
      have hs := hser
      simp only [TReceipt.toData, EventType.serialize, hw.1.2.2.2.1, Fmt.encode, Res.ok.injEq] at hs
      exact ⟨⟨hw.1, hs.symm⟩, hw.1.2.2.2.1⟩
    | reply r => exact hw.elim
    | query q => exact hw.elim
  have ht : TrueText d.event t := ⟨hrep.1, hrep.2, hsize⟩
  unfold SignedEventData.toCesr at hcesr
  obtain ⟨u, hu, hcesr⟩ := Res.bind_eq_ok.1 hcesr
  rw [hser, Res.ok_bind] at hcesr
  cases hcesr
  rw [List.append_assoc] at hc
  obtain ⟨f1, f2, f3, _⟩ := C67_fate cfg hf hb d.event t (u ++ rest) ht chunks hc ending writer db hne
  unfold fateOf
  by_cases l1 : (firstRead chunks).length < t.length
  · rw [if_pos l1]; exact f1 l1
  rw [if_neg l1]
  by_cases l2 : (firstRead chunks).length = t.length
  · rw [if_pos l2]; exact f2 l2
  rw [if_neg l2]
  by_cases l3 : (firstRead chunks).length = t.length + 1
  · rw [if_pos l3]; exact f3 l3
  rw [if_neg l3]
  have ho := ht.opens cfg.bin hb cfg.binVer
  have h1 := turn_start cfg hf chunks ending writer db hne
  rw [show decide (24 ≤ (firstRead chunks).length) = true by have := ho.long; simp; omega] at h1
  have hbuf := firstRead_buf cfg hf chunks ending writer db true
  have hl24 : 24 ≤ (firstRead chunks).length := by have := ho.long; omega
  have h2 := turn_long cfg hf chunks ending writer db hl24
  obtain ⟨_, _, _, pa, pf, _⟩ := turnMessage_true cfg (rest := u ++ rest) ho (afterRead chunks ending writer db true) hf
    (by rw [hbuf]; exact firstRead_prefix hc) (by rw [hbuf]; exact hl24) (by rw [hbuf]; exact firstRead_le chunks)
    (afterRead_untouched chunks ending writer db true).2
  rw [hbuf, ← h2] at pa pf
  obtain ⟨r, hr⟩ : ∃ r, firstRead chunks = t ++ r := by
    rcases prefix_split (firstRead_prefix hc) with ⟨h, _⟩ | h
    · omega
    · exact h
  have hru : r <+: u ++ rest := by
    have := firstRead_prefix hc
    rw [hr] at this
    exact (List.prefix_append_right_inj t).1 this
  have hr2 : 2 ≤ r.length := by
    have := congrArg List.length hr
    simp only [List.length_append] at this
    omega
  have other : ∀ c : UInt8, ¬ (low3 c = 1 ∨ low3 c = 2) → (∃ v, u = [45, c] ++ v) → EndsWith cfg (start chunks ending writer db) .failed := by
    intro c hcl hv
    obtain ⟨v, rfl⟩ := hv
    obtain ⟨x, y, r', rfl⟩ : ∃ x y r', r = x :: y :: r' := by
      match r, hr2 with
      | x :: y :: r', _ => exact ⟨x, y, r', rfl⟩
    have hxy := List.cons_prefix_cons.1 hru
    have hy := List.cons_prefix_cons.1 hxy.2
    refine ends_of_stop cfg _ _ _ _ true _ h1 (pf x y r' hr ?_)
    rw [hy.1]
    exact hcl
  have hfst := attached_first d m hw hd u hu
  cases m with
  | event e =>
    simp only at hfst ⊢
    by_cases hs : e.delegatorSeal = none
    · rw [if_pos hs] at hfst ⊢
      obtain ⟨k, v, hk, rfl⟩ := hfst
      refine ends_of_stop cfg _ _ _ _ true _ h1 (pa (by omega) ?_)
      obtain ⟨x, y, r', rfl⟩ : ∃ x y r', r = x :: y :: r' := by
        match r, hr2 with
        | x :: y :: r', _ => exact ⟨x, y, r', rfl⟩
      have hxy := List.cons_prefix_cons.1 hru
      have hy := List.cons_prefix_cons.1 hxy.2
      refine ⟨r', ?_, ?_⟩
      · rw [hr, hxy.1, hy.1]; simp
      · have hp : r'.take 2 <+: [65, b64Char k] := by
          have h3 : r'.take 2 <+: [65, b64Char k] ++ (v ++ rest) :=
            (List.take_prefix 2 r').trans (by simpa using hy.2)
          exact List.prefix_of_prefix_length_le h3 (List.prefix_append _ _) (by rw [List.length_take]; simp; omega)
        intro c hcm
        have := hp.subset hcm
        simp only [List.mem_cons, List.not_mem_nil, or_false] at this
        rcases this with rfl | rfl
        · decide
        · have : ∀ v : Fin 64, b64Char v.val < 128 := by decide +kernel
          exact this ⟨k, by omega⟩
    · rw [if_neg hs] at hfst ⊢
      exact other 71 (by decide) hfst
  | rctNt r => exact other 67 (by decide) hfst
  | rctT r => exact other 70 (by decide) hfst
  | reply r => exact hw.elim
  | query q => exact hw.elim

/-! ### Examples -/

namespace Ex

/-- a processor of the example controller -/
def stream : Cfg Db := ⟨sled, env, sg, ctl, ⟨fun _ => .error, fun _ => .error⟩, fun _ => .ok none, 123⟩
/-- a signed interaction whose version string states its length -/
def wireIxn : SignedEvent :=
  ⟨⟨SerInfo.new .json 203, ⟨⟨.blake3_256, List.replicate 32 1⟩, ⟨.basic (key 1), 3, .ixn ⟨⟨.blake3_256, List.replicate 32 2⟩, []⟩⟩⟩⟩,
    [⟨0, ⟨.ed25519Sha512, List.replicate 64 1⟩⟩], none⟩
/-- the text of a signed event -/
def cesr (e : SignedEvent) : Bytes :=
  match e.toData.toCesr env with
  | .ok b => b
  | _ => []
/-- an inception whose version string overstates its length: it includes the signature -/
def overstated : SignedEvent := signAll { icpFinal.msg with info := SerInfo.new .json ((jsonText icpFinal.msg.sval).length + 92) } [9]

theorem stream_json : stream.bin.RejectsJson := fun _ _ => ⟨rfl, rfl⟩

theorem wireIxn_true : TrueText (.keyEvent wireIxn.msg) (jsonText wireIxn.msg.sval) := by
  refine ⟨⟨?_, rfl⟩, rfl, by decide +kernel⟩
  simp [wireIxn, EventMessage.Representable, EventData.Representable, IdentifierPrefix.Representable, IdentifierPrefix.Sized,
    BasicPrefix.Sized, SelfAddressingPrefix.Sized, IdentifierPrefix.IsSecp, BasicPrefix.IsSecp, key, Basic.rawBytes,
    SelfAddressing.rawBytes, SelfAddressing.keyless, SerInfo.new, u64max]

end Ex

/-- the hypotheses of `C67_messages` are met: read in one piece, the event makes the processor crash; its first hundred bytes make it spin;
the body alone makes it fail -/
example : EndsWith Ex.stream (start [Ex.cesr Ex.wireIxn] .closed [] Db.empty) .panicked ∧
    NeverEnds Ex.stream (start [(Ex.cesr Ex.wireIxn).take 100, (Ex.cesr Ex.wireIxn).drop 100] .closed [] Db.empty) ∧
    EndsWith Ex.stream (start [(Ex.cesr Ex.wireIxn).take 203, (Ex.cesr Ex.wireIxn).drop 203] .closed [] Db.empty) .failed := by
  have hw : (Message.event Ex.wireIxn).Wireable := by
    refine ⟨Ex.wireIxn_true.1.1, rfl, ?_, rfl⟩
    simp [SigsOk, SigOk, Ex.wireIxn, SelfSigningPrefix.Sized, SelfSigning.rawBytes]
  have hc : Ex.wireIxn.toData.toCesr Ex.env = .ok (Ex.cesr Ex.wireIxn) := by decide +kernel
  have hs : Ex.wireIxn.toData.event.serialize Ex.env = .ok (jsonText Ex.wireIxn.msg.sval) := by decide +kernel
  have key := fun chunks hfl hne => C67_messages Ex.env Ex.stream (by decide) Ex.stream_json _ hw _ rfl _ hc _ hs Ex.wireIxn_true.2.2 []
    chunks hfl hne .closed [] Db.empty
  refine ⟨?_, ?_, ?_⟩
  · have := key [Ex.cesr Ex.wireIxn] (by simp) (by decide +kernel)
    rwa [show fateOf (.event Ex.wireIxn) (jsonText Ex.wireIxn.msg.sval).length (firstRead [Ex.cesr Ex.wireIxn]).length = some .panicked
      by decide +kernel] at this
  · have := key [(Ex.cesr Ex.wireIxn).take 100, (Ex.cesr Ex.wireIxn).drop 100] (by simp) (by decide +kernel)
    rwa [show fateOf (.event Ex.wireIxn) (jsonText Ex.wireIxn.msg.sval).length
      (firstRead [(Ex.cesr Ex.wireIxn).take 100, (Ex.cesr Ex.wireIxn).drop 100]).length = none by decide +kernel] at this
  · have := key [(Ex.cesr Ex.wireIxn).take 203, (Ex.cesr Ex.wireIxn).drop 203] (by simp) (by decide +kernel)
    rwa [show fateOf (.event Ex.wireIxn) (jsonText Ex.wireIxn.msg.sval).length
      (firstRead [(Ex.cesr Ex.wireIxn).take 203, (Ex.cesr Ex.wireIxn).drop 203]).length = some .failed by decide +kernel] at this

/-- what an example run has come to: how it ended, how much was written, sent and stored -/
def sumUp (r : Turn Db) : Option Fate × Nat × Nat × Nat :=
  match r with
  | .go s => (none, s.written.length, s.sent.length, (s.db.kel (.basic (Ex.key 9))).length)
  | .stop f s => (some f, s.written.length, s.sent.length, (s.db.kel (.basic (Ex.key 9))).length)

/-- C67: announcing the true length is what keeps a message out.  The same inception is refused when it states its length (the processor
crashes, nothing stored), and accepted, answered and passed on when it states a length that includes its signatures. -/
theorem C67_overstated_gets_in :
    sumUp (run Ex.stream 10 (start [Ex.cesr Ex.icpFinal] .closed [] Db.empty)) = (some .panicked, 0, 0, 0) ∧
    sumUp (run Ex.stream 10 (start [Ex.cesr Ex.overstated] .closed [] Db.empty)) = (some .done, 1, 1, 1) := by
  decide +kernel

/-! ## C68: a writer that is not ready -/

/-- C68: when the writer is not ready to take the answer to a message, the message is processed again from the start: two turns later the
processor looks at the same bytes once more, with the database the first pass left, having written and sent nothing. -/
theorem C68_pending_write_repeats (cfg : Cfg σ) (hf : firstByteOk cfg.firstByte = true) (s : St σ) (hi : s.inner = true)
    (h24 : 24 ≤ s.buf.length) (hp : s.processed < s.buf.length) (n : Nat) (msg : Bytes) (to : IdentifierPrefix) (rep : Reply) (db' : σ)
    (w : List Write) (hfr : frame cfg.binVer cfg.firstByte s.buf s.processed = .ok (.length n))
    (hsl : slice s.buf s.processed (s.processed + n) = .ok msg) (ha : answer cfg msg s.db = (.ok (to, rep), db'))
    (hw : s.writer = .pending :: w) :
    run cfg 2 s = .go { s with db := db', writer := w } ∧
    run cfg 3 s =
      (match answer cfg msg db' with
        | (.panic, db) => .stop .panicked { s with db := db, writer := w }
        | (.err _, db) => .stop .failed { s with db := db, writer := w }
        | (.ok (to, rep), db) => deliver { s with db := db, writer := w } n msg to rep) := by
  have t1 : turn cfg s = .go { s with db := db', writer := w, inner := false } := by
    unfold turn
    rw [if_neg (by simp [hf]), if_pos hi, if_pos hp]
    unfold turnMessage
    rw [hfr]
    simp only [hsl, ha]
    unfold deliver
    simp only [hw]
  have hne : s.buf ≠ [] := by intro h; rw [h] at h24; simp at h24
  have t2 : turn cfg { s with db := db', writer := w, inner := false } = .go { s with db := db', writer := w } := by
    have hfill : fill { s with db := db', writer := w, inner := false } = { s with db := db', writer := w, inner := false } := by
      unfold fill
      rw [if_neg (by simpa using hne)]
    unfold turn
    rw [if_neg (by simp [hf]), if_neg (by simp)]
    simp only [hfill]
    rw [if_neg (by simpa using hne), if_neg (by omega), ← hi]
  have t3 : turn cfg { s with db := db', writer := w } =
      (match answer cfg msg db' with
        | (.panic, db) => .stop .panicked { s with db := db, writer := w }
        | (.err _, db) => .stop .failed { s with db := db, writer := w }
        | (.ok (to, rep), db) => deliver { s with db := db, writer := w } n msg to rep) := by
    unfold turn
    rw [if_neg (by simp [hf]), if_pos hi, if_pos hp]
    unfold turnMessage
    simp only [hfr, hsl]
    rfl
  refine ⟨?_, ?_⟩
  · rw [run, t1]; simp only; rw [run, t2]; rfl
  · have r1 : ∀ x : St σ, run cfg 1 x = turn cfg x := by
      intro x
      rw [run]
      cases turn cfg x <;> rfl
    rw [run, t1]; simp only; rw [run, t2]; simp only; rw [r1, t3]

/-- C68, a case that meets the hypotheses above: the inception is stored in the first pass, refused as a duplicate in the second, and never
answered; a writer that takes one byte of the answer is treated like one that takes it all -/
theorem C68_answer_lost :
    sumUp (run Ex.stream 3 (start [Ex.cesr Ex.overstated] .closed [.pending] Db.empty)) = (none, 0, 0, 1) ∧
    sumUp (run Ex.stream 10 (start [Ex.cesr Ex.overstated] .closed [.pending] Db.empty)) = (some .failed, 0, 0, 1) ∧
    sumUp (run Ex.stream 10 (start [Ex.cesr Ex.overstated] .closed [.took 1] Db.empty)) = (some .done, 1, 1, 1) := by
  decide +kernel

end Keriox
