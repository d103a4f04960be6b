import Verif.Props.QueryPanic
import Verif.Props.Wire
import Verif.Props.Reply
/-!
# C77: key state notices on the wire (feature `query`)

What becomes of a reply that is written as JSON and read again.  Specification: `misread n`, the number obtained by reading the decimal
digits of `n` as hexadecimal ones.
-/
namespace Keriox

/-- the timestamp's text is text, and is read as the timestamp -/
def ReadsTime (env : Env) (time : Bytes → Option Timestamp) (t : Timestamp) : Prop :=
  utf8Valid (env.timeText t.micros t.offset) = true ∧ time (env.timeText t.micros t.offset) = some t

/-- every part of the reply, apart from the numbers and the presence of a delegator, survives being written and read on its own; there is
a commitment to next keys (without one writing panics) -/
def ReplyMsg.Readable (env : Env) (time : Bytes → Option Timestamp) (r : ReplyMsg) : Prop :=
  r.info.rt = true ∧ r.info.kind = .json ∧ r.digest.rt = true ∧ r.route.rt = true ∧ ReadsTime env time r.timestamp ∧
  r.ksn.info.rt = true ∧ ReadsTime env time r.ksn.timestamp ∧ r.ksn.config.all utf8Valid = true ∧
  r.ksn.state.prefix.rt = true ∧ r.ksn.state.lastDigest.rt = true ∧ (∀ p, r.ksn.state.lastPrevious = some p → p.rt = true) ∧
  r.ksn.state.current.rt = true ∧ r.ksn.state.current.nextDigest ≠ none ∧ r.ksn.state.witnesses.all BasicPrefix.rt = true ∧
  r.ksn.state.lastEst.sn ≤ u64max ∧ r.ksn.state.lastEst.digest.rt = true ∧ r.ksn.state.lastEst.br.all BasicPrefix.rt = true ∧
  r.ksn.state.lastEst.ba.all BasicPrefix.rt = true ∧ (∀ d, r.ksn.state.delegator = some d → d.rt = true)

/-- the reply with the numbers of its notice misread -/
def ReplyMsg.misread (r : ReplyMsg) : ReplyMsg :=
  { r with ksn := { r.ksn with
      state := { r.ksn.state with sn := Keriox.misread r.ksn.state.sn, tally := Keriox.misread r.ksn.state.tally }
      firstSeen := Keriox.misread r.ksn.firstSeen } }

/-! ## Written members -/

theorem Sole_eq {α : Type} {p : JVal → Res α} {R : JVal → α → Prop} (hR : ∀ v a, p v = .ok a ↔ R v a) {k : Bytes} {fs : List (Bytes × JVal)}
    {v : JVal} {x : α} (hv : vals k fs = [v]) (hx : p v = .ok x) (a : α) : Sole R k fs a ↔ a = x := by
  unfold Sole
  rw [hv]
  simp only [List.cons.injEq, and_true, exists_eq_left', ← hR, hx, Res.ok.injEq]
  exact eq_comm

theorem Sole_hex {k : Bytes} {fs : List (Bytes × JVal)} {n : Nat} (hv : vals k fs = [.str (decStr n)]) (a : Nat) :
    Sole HexOf k fs a ↔ decAsHex n = some a := by
  unfold Sole
  rw [hv]
  simp only [List.cons.injEq, and_true, exists_eq_left', HexOf, JVal.str.injEq, decAsHex]

theorem Maybe_eq {α : Type} {p : JVal → Res α} {R : JVal → α → Prop} (hR : ∀ v a, p v = .ok a ↔ R v a) {k : Bytes} {fs : List (Bytes × JVal)}
    {v : JVal} {x : Option α} (hv : vals k fs = [v]) (hx : desOption p v = .ok x) (a : Option α) : Maybe R k fs a ↔ a = x := by
  unfold Maybe
  rw [hv, Sole_eq (option_iff hR) hv hx]
  simp

/-- the members of a written notice -/
def noticeFields (env : Env) (k : Ksn) (n : SelfAddressingPrefix) : List (Bytes × SVal) := [
    (b!"v", .str k.info.toStr),
    (b!"i", .str k.state.prefix.toStr),
    (b!"s", .str (decStr k.state.sn)),
    (b!"p", match k.state.lastPrevious with | some p => .str p.toStr | none => .null),
    (b!"d", .str k.state.lastDigest.toStr),
    (b!"f", .str (decStr k.firstSeen)),
    (b!"dt", .str (env.timeText k.timestamp.micros k.timestamp.offset)),
    (b!"et", match k.state.lastType with | some t => .str t.toStr | none => .null),
    (b!"kt", k.state.current.threshold.sval),
    (b!"k", keysSval k.state.current.publicKeys),
    (b!"n", .str n.toStr),
    (b!"bt", .str (decStr k.state.tally)),
    (b!"b", keysSval k.state.witnesses),
    (b!"c", .seq (k.config.map .str)),
    (b!"ee", k.state.lastEst.sval),
    (b!"di", .str (match k.state.delegator with | some d => d.toStr | none => []))]

/-- the members of a written reply -/
def replyFields (env : Env) (r : ReplyMsg) (n : SelfAddressingPrefix) : List (Bytes × SVal) :=
  [(b!"v", .str r.info.toStr), (b!"t", .str EventTypeTag.rpy.toStr), (b!"d", .str r.digest.toStr),
    (b!"dt", .str (env.timeText r.timestamp.micros r.timestamp.offset)), (b!"r", .str r.route.toStr), (b!"a", .struct (noticeFields env r.ksn n))]

theorem reply_text (env : Env) (r : ReplyMsg) (n : SelfAddressingPrefix) (hn : r.ksn.state.current.nextDigest = some n) (hk : r.info.kind = .json) :
    r.serialize env = .ok (jsonText (.map (replyFields env r n))) := by
  unfold ReplyMsg.serialize ReplyMsg.svalWith Ksn.sval
  rw [hn, hk]
  rfl

theorem route_utf8 (r : Route) : utf8Valid r.toStr = true := by
  cases r with
  | log => decide
  | ksn => decide
  | replyKsn id =>
    have : Ascii (b!"/ksn/" ++ id.toStr) := by
      intro c hc
      rcases List.mem_append.1 hc with h | h
      · exact (by decide : ∀ c ∈ b!"/ksn/", c < 128) c h
      · exact (by cases id with
          | basic p => exact prefixText_ascii (Basic.toStr_ascii _) _
          | selfAddressing p => exact prefixText_ascii (SelfAddressing.toStr_ascii _) _
          | selfSigning p => exact prefixText_ascii (SelfSigning.toStr_ascii _) _ : Ascii id.toStr) c h
    exact this.utf8

theorem notice_fits (env : Env) (time : Bytes → Option Timestamp) (r : ReplyMsg) (n : SelfAddressingPrefix) (h : r.Readable env time) :
    SVal.FitsF 127 (replyFields env r n) := by
  obtain ⟨_, _, _, _, ⟨h5, _⟩, _, ⟨h7, _⟩, h8, _⟩ := h
  have hp : (match r.ksn.state.lastPrevious with | some p => SVal.str p.toStr | none => .null).Fits 126 := by
    cases r.ksn.state.lastPrevious with
    | none => simp [SVal.Fits]
    | some p => exact SelfAddressingPrefix.toStr_utf8 _
  have he : (match r.ksn.state.lastType with | some p => SVal.str p.toStr | none => .null).Fits 126 := by
    cases r.ksn.state.lastType with
    | none => simp [SVal.Fits]
    | some p => exact type_utf8 _
  have hd : utf8Valid (match r.ksn.state.delegator with | some d => d.toStr | none => []) = true := by
    cases r.ksn.state.delegator with
    | none => decide
    | some p => exact IdentifierPrefix.toStr_utf8 _
  have hl : r.ksn.state.lastEst.sval.Fits 126 := by
    unfold LastEst.sval
    simp only [SVal.FitsF, SVal.Fits]
    exact ⟨by decide, by decide, hexStr_utf8 _, by decide, SelfAddressingPrefix.toStr_utf8 _, by decide, keys_fit _ 123, by decide, keys_fit _ 123, trivial⟩
  unfold replyFields noticeFields
  simp only [SVal.FitsF, SVal.Fits]
  refine ⟨by decide, SerInfo.toStr_utf8 _, by decide, by decide, by decide, SelfAddressingPrefix.toStr_utf8 _, by decide, h5, by decide, route_utf8 _,
    by decide, ⟨by decide, by decide, SerInfo.toStr_utf8 _, by decide, IdentifierPrefix.toStr_utf8 _, by decide, (decStr_ascii _).utf8, by decide, hp,
    by decide, SelfAddressingPrefix.toStr_utf8 _, by decide, (decStr_ascii _).utf8, by decide, h7, by decide, he, by decide, threshold_fits _ 123,
    by decide, keys_fit _ 124, by decide, SelfAddressingPrefix.toStr_utf8 _, by decide, (decStr_ascii _).utf8, by decide, keys_fit _ 124, by decide,
    strings_fit _ h8 124, by decide, hl, by decide, hd, trivial⟩, trivial⟩

theorem est_written (l : LastEst) (h1 : l.sn ≤ u64max) (h2 : l.digest.rt = true) (h3 : l.br.all BasicPrefix.rt = true)
    (h4 : l.ba.all BasicPrefix.rt = true) : desLastEst l.sval.toJ = .ok l := by
  rw [est_iff]
  refine ⟨SVal.toJFields [(b!"s", .str (hexStr l.sn)), (b!"d", .str l.digest.toStr), (b!"br", keysSval l.br), (b!"ba", keysSval l.ba)], .inl rfl, ?_⟩
  exact ⟨(Sole_eq hex_iff (v := .str (hexStr l.sn)) rfl ((desHex_iff _).2 h1) _).2 rfl,
    (Sole_eq sa_iff (v := .str l.digest.toStr) rfl ((SelfAddressingPrefix.rt_iff _).1 h2) _).2 rfl,
    (Sole_eq keyList_iff (v := (keysSval l.br).toJ) rfl ((desKeys_iff _).2 h3) _).2 rfl,
    (Sole_eq keyList_iff (v := (keysSval l.ba).toJ) rfl ((desKeys_iff _).2 h4) _).2 rfl⟩

theorem route_written (r : Route) (h : r.rt = true) : desText Route.fromStr (.str r.toStr) = .ok r := by
  rw [route_iff]
  cases r with
  | log => rfl
  | ksn => rfl
  | replyKsn id => exact ⟨_, rfl, (IdentifierPrefix.rt_iff _).1 h⟩

theorem ident_nil (i : IdentifierPrefix) : IdentifierPrefix.fromStr [] ≠ .ok i := by intro h; cases h

theorem decAsHex_iff (n m : Nat) : decAsHex n = some m ↔ Keriox.misread n ≤ u64max ∧ m = Keriox.misread n := by
  rw [decAsHex_eq]
  by_cases h : Keriox.misread n ≤ u64max <;> simp [h, eq_comm]

theorem notice_written (env : Env) (time : Bytes → Option Timestamp) (r : ReplyMsg) (n : SelfAddressingPrefix)
    (hn : r.ksn.state.current.nextDigest = some n) (h : r.Readable env time) (k : Ksn) :
    NoticeOf time (SVal.struct (noticeFields env r.ksn n)).toJ k ↔
      r.ksn.state.delegator ≠ none ∧ Keriox.misread r.ksn.state.sn ≤ u64max ∧ Keriox.misread r.ksn.state.tally ≤ u64max ∧
      Keriox.misread r.ksn.firstSeen ≤ u64max ∧ k = r.misread.ksn := by
  obtain ⟨_, _, _, _, _, h6, ⟨_, h7⟩, _, h9, h10, h11, h12, _, h14, h15, h16, h17, h18, h19⟩ := h
  simp only [KeyConfig.rt, Bool.and_eq_true, hn] at h12
  obtain ⟨⟨h12a, h12b⟩, h12c⟩ := h12
  have ho : (SVal.struct (noticeFields env r.ksn n)).toJ = .obj (SVal.toJFields (noticeFields env r.ksn n)) := rfl
  rw [ho]
  unfold NoticeOf StateOf
  simp only [JVal.obj.injEq, exists_eq_left']
  rw [Sole_eq (text_iff _) (v := .str r.ksn.info.toStr) rfl (by rw [desText_ok]; simpa [SerInfo.rt] using h6),
    Sole_hex (n := r.ksn.firstSeen) rfl,
    Sole_eq (time_iff time) (v := .str (env.timeText r.ksn.timestamp.micros r.ksn.timestamp.offset)) rfl (by rw [desTime, desText_ok, h7]; rfl),
    Sole_eq strings_iff (v := (SVal.seq (r.ksn.config.map .str)).toJ) rfl (desStrings _),
    Sole_eq id_iff (v := .str r.ksn.state.prefix.toStr) rfl ((IdentifierPrefix.rt_iff _).1 h9),
    Sole_hex (n := r.ksn.state.sn) rfl,
    Sole_eq sa_iff (v := .str r.ksn.state.lastDigest.toStr) rfl ((SelfAddressingPrefix.rt_iff _).1 h10),
    Maybe_eq sa_iff (x := r.ksn.state.lastPrevious) (v := (match r.ksn.state.lastPrevious with | some p => SVal.str p.toStr | none => .null).toJ) rfl (by
      cases e : r.ksn.state.lastPrevious with
      | none => rfl
      | some p =>
        show desOption desSA (.str p.toStr) = _
        rw [desOption, desSA, desText_ok, (SelfAddressingPrefix.rt_iff _).1 (h11 p e)]; rfl
        exact fun h => by cases h),
    Maybe_eq tagQ_iff (x := r.ksn.state.lastType) (v := (match r.ksn.state.lastType with | some p => SVal.str p.toStr | none => .null).toJ) rfl (by
      cases r.ksn.state.lastType with
      | none => rfl
      | some p =>
        show desOption desTagQ (.str p.toStr) = _
        rw [desOption, (tagQ_iff _ p).2 (.inl rfl)]; rfl
        exact fun h => by cases h),
    Sole_hex (n := r.ksn.state.tally) rfl,
    Sole_eq keyList_iff (v := (keysSval r.ksn.state.witnesses).toJ) rfl ((desKeys_iff _).2 h14),
    Sole_eq est_iff (v := r.ksn.state.lastEst.sval.toJ) rfl (est_written _ h15 h16 h17 h18),
    Sole_eq threshold_iff (v := r.ksn.state.current.threshold.sval.toJ) rfl ((desThreshold_iff _).2 h12a),
    Sole_eq keyList_iff (v := (keysSval r.ksn.state.current.publicKeys).toJ) rfl ((desKeys_iff _).2 h12b),
    Sole_eq next_iff (v := .str n.toStr) (x := some n) rfl ((desNext_iff (some n)).2 h12c),
    decAsHex_iff, decAsHex_iff, decAsHex_iff]
  have hdi : Maybe (TextOf IdentifierPrefix.fromStr) b!"di" (SVal.toJFields (noticeFields env r.ksn n)) k.state.delegator ↔
      r.ksn.state.delegator ≠ none ∧ k.state.delegator = r.ksn.state.delegator := by
    have hv : vals b!"di" (SVal.toJFields (noticeFields env r.ksn n)) =
      [.str (match r.ksn.state.delegator with | some d => d.toStr | none => [])] := rfl
    unfold Maybe
    rw [hv]
    simp only [List.cons_ne_nil, false_and, false_or]
    cases e : r.ksn.state.delegator with
    | none =>
      simp only [ne_eq, not_true_eq_false, false_and, iff_false]
      rintro ⟨v, h1, h2⟩
      rw [hv, e] at h1
      simp only [List.cons.injEq, and_true] at h1
      subst h1
      cases ek : k.state.delegator with
      | none => rw [ek] at h2; cases h2
      | some i =>
        rw [ek] at h2
        obtain ⟨s, h3, h4⟩ := h2.2
        cases h3
        exact ident_nil _ h4
    | some d =>
      rw [e] at hv
      rw [Sole_eq (option_iff id_iff) (x := some d) hv (by
        show desOption desId (.str d.toStr) = _
        rw [desOption, desId, desText_ok, (IdentifierPrefix.rt_iff _).1 (h19 d e)]; rfl
        exact fun h => by cases h)]
      simp
  rw [hdi]
  constructor
  · rintro ⟨e1, ⟨b2, e2⟩, e3, e4, e5, ⟨b6, e6⟩, e7, e8, e9, ⟨b10, e10⟩, e11, ⟨b12, e12⟩, e13, e14, e15, e16⟩
    refine ⟨b12, b6, b10, b2, ?_⟩
    obtain ⟨i, ⟨pre, sn, ld, lp, lt, ⟨th, ks, nx⟩, ta, wi, de, le⟩, f, t, c⟩ := k
    simp only at *
    subst e1 e2 e3 e4 e5 e6 e7 e8 e9 e10 e11 e12 e13 e14 e15 e16
    unfold ReplyMsg.misread
    rw [← hn]
  · rintro ⟨b12, b6, b10, b2, rfl⟩
    exact ⟨rfl, ⟨b2, rfl⟩, rfl, rfl, rfl, ⟨b6, rfl⟩, rfl, rfl, rfl, ⟨b10, rfl⟩, rfl, ⟨b12, rfl⟩, rfl, rfl, rfl, hn⟩

/-- C77, exactly: the JSON text of a reply is read as some reply precisely when the notice names a delegator and the misread numbers fit in
64 bits; it is then read as the same reply with sequence number, witness threshold and first-seen number misread. -/
theorem C77_written_notice (env : Env) (time : Bytes → Option Timestamp) (r r' : ReplyMsg) (h : r.Readable env time) (b rest : Bytes)
    (hb : r.serialize env = .ok b) :
    jsonReply time (b ++ rest) = .ok rest r' ↔
      r.ksn.state.delegator ≠ none ∧ misread r.ksn.state.sn ≤ u64max ∧ misread r.ksn.state.tally ≤ u64max ∧
      misread r.ksn.firstSeen ≤ u64max ∧ r' = r.misread := by
  have h0 := h
  obtain ⟨h1, h2, h3, h4, ⟨_, h5⟩, _, _, _, _, _, _, _, h13, _⟩ := h
  obtain ⟨n, hn⟩ := Option.ne_none_iff_exists'.1 h13
  rw [reply_text env r n hn h2] at hb
  cases hb
  rw [C76_reply_reader_exact, jsonTop_written _ _ (notice_fits env time r n h0)]
  unfold ReplyOf
  have ha : vals b!"a" (SVal.toJFields (replyFields env r n)) = [(SVal.struct (noticeFields env r.ksn n)).toJ] := rfl
  have hs : Sole (NoticeOf time) b!"a" (SVal.toJFields (replyFields env r n)) r'.ksn ↔ NoticeOf time (SVal.struct (noticeFields env r.ksn n)).toJ r'.ksn := by
    unfold Sole; rw [ha]; simp only [List.cons.injEq, and_true, exists_eq_left']
  rw [hs, notice_written env time r n hn h0,
    Sole_eq (text_iff _) (v := .str r.info.toStr) rfl (by rw [desText_ok]; simpa [SerInfo.rt] using h1),
    Sole_eq sa_iff (v := .str r.digest.toStr) rfl ((SelfAddressingPrefix.rt_iff _).1 h3),
    Sole_eq (time_iff time) (v := .str (env.timeText r.timestamp.micros r.timestamp.offset)) rfl (by rw [desTime, desText_ok, h5]; rfl),
    Sole_eq route_iff (v := .str r.route.toStr) rfl (route_written _ h4)]
  simp only [true_and]
  constructor
  · rintro ⟨e1, e2, e3, e4, c1, c2, c3, c4, e5⟩
    refine ⟨c1, c2, c3, c4, ?_⟩
    obtain ⟨i, d, t, ro, k⟩ := r'
    simp only at *
    subst e1 e2 e3 e4 e5
    rfl
  · rintro ⟨c1, c2, c3, c4, rfl⟩
    exact ⟨rfl, rfl, rfl, rfl, c1, c2, c3, c4, rfl⟩

/-- reading decimal digits as hexadecimal ones changes nothing precisely below ten -/
theorem misread_same (n : Nat) : misread n = n ↔ n ≤ 9 := by
  constructor
  · intro h
    by_cases hn : n < 10
    · omega
    · exfalso
      have hlt : n < misread n := by
        clear h
        induction n using Nat.strongRecOn with
        | ind n ih =>
          rw [misread_eq, if_neg hn]
          by_cases h2 : n / 10 < 10
          · rw [misread_eq, if_pos h2]; omega
          · have := ih (n / 10) (by omega) h2; omega
      omega
  · intro h; rw [misread_eq, if_pos (by omega)]

/-- C77: the round trip is exact precisely when the notice names a delegator and its three numbers are single digits. -/
theorem C77_roundtrip (env : Env) (time : Bytes → Option Timestamp) (r : ReplyMsg) (h : r.Readable env time) (b rest : Bytes)
    (hb : r.serialize env = .ok b) :
    jsonReply time (b ++ rest) = .ok rest r ↔
      r.ksn.state.delegator ≠ none ∧ r.ksn.state.sn ≤ 9 ∧ r.ksn.state.tally ≤ 9 ∧ r.ksn.firstSeen ≤ 9 := by
  rw [C77_written_notice env time r r h b rest hb]
  have key : r = r.misread ↔ r.ksn.state.sn ≤ 9 ∧ r.ksn.state.tally ≤ 9 ∧ r.ksn.firstSeen ≤ 9 := by
    rw [← misread_same, ← misread_same, ← misread_same]
    constructor
    · intro e
      refine ⟨?_, ?_, ?_⟩
      · exact (congrArg (fun x : ReplyMsg => x.ksn.state.sn) e).symm
      · exact (congrArg (fun x : ReplyMsg => x.ksn.state.tally) e).symm
      · exact (congrArg (fun x : ReplyMsg => x.ksn.firstSeen) e).symm
    · rintro ⟨e1, e2, e3⟩
      unfold ReplyMsg.misread
      rw [e1, e2, e3]
  rw [key]
  constructor
  · rintro ⟨h1, _, _, _, h5⟩; exact ⟨h1, h5⟩
  · rintro ⟨h1, h2, h3, h4⟩
    have u : 9 ≤ u64max := by decide
    refine ⟨h1, ?_, ?_, ?_, h2, h3, h4⟩
    · rw [(misread_same _).2 h2]; omega
    · rw [(misread_same _).2 h3]; omega
    · rw [(misread_same _).2 h4]; omega

/-- C77: a notice with a number above nine that is read at all is read as one with other bytes: what the reader verifies digest and
signature of is not what was digested and signed. -/
theorem C77_fails_numbers (env : Env) (time : Bytes → Option Timestamp) (r r' : ReplyMsg) (h : r.Readable env time) (b rest : Bytes)
    (hb : r.serialize env = .ok b) (hr : jsonReply time (b ++ rest) = .ok rest r')
    (hn : 9 < r.ksn.state.sn ∨ 9 < r.ksn.state.tally ∨ 9 < r.ksn.firstSeen) : ∃ b', r'.serialize env = .ok b' ∧ b' ≠ b := by
  obtain ⟨c1, _, _, _, rfl⟩ := (C77_written_notice env time r r' h b rest hb).1 hr
  obtain ⟨n, hne⟩ := Option.ne_none_iff_exists'.1 h.2.2.2.2.2.2.2.2.2.2.2.2.1
  refine ⟨_, reply_text env r.misread n hne h.2.1, fun e => ?_⟩
  have h' : r.misread.Readable env time := h
  have h2 := (C77_written_notice env time r.misread r.misread h' _ rest (reply_text env r.misread n hne h.2.1)).1 (by rw [e]; exact hr)
  have key : ∀ n, misread (misread n) = misread n → n ≤ 9 := by
    intro n hm
    have := (misread_same _).1 hm
    by_cases hn : n < 10
    · omega
    · exfalso
      rw [misread_eq, if_neg hn] at this
      have h1 : 1 ≤ misread (n / 10) := by
        have : ∀ m, 1 ≤ m → 1 ≤ misread m := by
          intro m
          induction m using Nat.strongRecOn with
          | ind m ih =>
            intro hm
            rw [misread_eq]
            split
            · exact hm
            · have := ih (m / 10) (by omega) (by omega); omega
        exact this _ (by omega)
      omega
  have e2 := h2.2.2.2.2
  have k1 := key _ (congrArg (fun x : ReplyMsg => x.ksn.state.sn) e2).symm
  have k2 := key _ (congrArg (fun x : ReplyMsg => x.ksn.state.tally) e2).symm
  have k3 := key _ (congrArg (fun x : ReplyMsg => x.ksn.firstSeen) e2).symm
  omega

/-! ## Undelegated identifiers -/

/-- the readers of the binary formats reject an empty input and one starting with `{` -/
def Readers.RejectsJson (rd : Readers) : Prop :=
  rd.toBinary.RejectsJson ∧ ∀ s : Bytes, (s = [] ∨ ∃ r, s = 123 :: r) → rd.reply s = .error ∧ rd.query s = .error

theorem np_of {α : Type} {x : Res α} {a : α} (h : x = .ok a) : NP x := by rw [h]; exact NP.ok a

theorem jsonMessage_error {α : Type} {inner : List (Bytes × JVal) → Res α} {s : Bytes} (h1 : ∀ rest a, jsonMessage inner s ≠ .ok rest a)
    (h2 : jsonMessage inner s ≠ .panic) : jsonMessage inner s = .error := by
  unfold jsonMessage at *
  cases h : desMessage inner (jsonTop s) with
  | ok a => obtain ⟨i, e, r⟩ := a; rw [h] at h1; exact absurd rfl (h1 r (i, e))
  | err e => rfl
  | panic => rw [h] at h2; exact absurd rfl h2

theorem jsonMessage_np' {α : Type} {inner : List (Bytes × JVal) → Res α} {s : Bytes}
    (hv : ∀ v, (b!"v", v) ∈ (jsonTop s).1 → NP (desText SerInfo.fromStr v))
    (hi : NP (inner ((jsonTop s).1.filter fun f => f.1 ≠ b!"v"))) : jsonMessage inner s ≠ .panic := by
  have : NP (desMessage inner (jsonTop s)) := by
    unfold desMessage
    refine NP.bind (ownField_np hv) fun q hq => NP.bind (NP.ofOption _ _) fun _ _ => NP.bind (NP.need _) fun _ _ => NP.bind ?_ fun _ _ => NP.ok _
    rw [ownField_rest hq]; exact hi
  unfold jsonMessage
  split
  · simp
  · simp
  · rename_i hp; exact absurd hp this

theorem desReceipt_np' {fs : List (Bytes × JVal)} (h1 : ∀ v, (b!"d", v) ∈ fs → NP (desSA v)) (h2 : ∀ v, (b!"i", v) ∈ fs → NP (desId v))
    (d : Option SelfAddressingPrefix) (i : Option IdentifierPrefix) (s : Option Nat) : NP (desReceipt fs d i s) := by
  induction fs generalizing d i s with
  | nil => exact NP.bind (NP.need _) fun _ _ => NP.bind (NP.need _) fun _ _ => NP.bind (NP.need _) fun _ _ => NP.ok _
  | cons f fs ih =>
    obtain ⟨k, v⟩ := f
    have ih' := ih (fun v hv => h1 v (List.mem_cons_of_mem _ hv)) fun v hv => h2 v (List.mem_cons_of_mem _ hv)
    unfold desReceipt
    split
    · rename_i hk; subst hk
      split
      · exact NP.err _
      · exact NP.bind (h1 v List.mem_cons_self) fun _ _ => ih' _ _ _
    · split
      · rename_i hk; subst hk
        split
        · exact NP.err _
        · exact NP.bind (h2 v List.mem_cons_self) fun _ _ => ih' _ _ _
      · split
        · split
          · exact NP.err _
          · exact NP.bind (desHex_np _) fun _ _ => ih' _ _ _
        · exact ih' _ _ _

/-- texts without the members `i` and `s` are neither key events nor receipts -/
theorem not_plain {s : Bytes} (hv : ∀ v, (b!"v", v) ∈ (jsonTop s).1 → NP (desText SerInfo.fromStr v))
    (hd : ∀ v, (b!"d", v) ∈ (jsonTop s).1 → NP (desSA v)) (hi : b!"i" ∉ (jsonTop s).1.map Prod.fst) (hs : b!"s" ∉ (jsonTop s).1.map Prod.fst) :
    jsonMessage desKeyEvent s = .error ∧ jsonMessage (fun fs => desReceipt fs none none none) s = .error := by
  have hf : ∀ (p : Bytes × JVal → Bool) (k : Bytes), k ∉ (jsonTop s).1.map Prod.fst → k ∉ ((jsonTop s).1.filter p).map Prod.fst := by
    intro p k hk h
    obtain ⟨x, hx, rfl⟩ := List.mem_map.1 h
    exact hk (List.mem_map.2 ⟨x, (List.mem_filter.1 hx).1, rfl⟩)
  have hm := C75_missing_or_repeated s b!"i" (by decide) (by
    have : vals b!"i" (jsonTop s).1 = [] := by
      unfold vals
      rw [List.map_eq_nil_iff, List.filter_eq_nil_iff]
      intro x hx h
      exact hi (List.mem_map.2 ⟨x, hx, by simpa using h⟩)
    rw [this]; simp)
  constructor
  · refine jsonMessage_error hm.1 (jsonMessage_np' hv ?_)
    unfold desKeyEvent
    refine NP.bind (ownField_np fun v h => hd v (List.mem_filter.1 h).1) fun dq hq => NP.bind (NP.need _) fun _ _ => ?_
    rw [eventOwn_absent dq.2 none none (by rw [ownField_rest hq, List.filter_filter]; exact hf _ _ hi)
      (by rw [ownField_rest hq, List.filter_filter]; exact hf _ _ hs)]
    exact NP.err _
  · refine jsonMessage_error hm.2 (jsonMessage_np' hv (desReceipt_np' (fun v h => hd v (List.mem_filter.1 h).1) (fun v h => ?_) _ _ _))
    exact absurd (List.mem_map.2 ⟨_, h, rfl⟩) (hf _ _ hi)

theorem plain_event_error {rd : Readers} (hr : rd.RejectsJson) {s t : Bytes} (hs : s = 123 :: t) (h : jsonMessage desKeyEvent s = .error) :
    plainP (keyEventMessageP rd.toBinary) s = .error := by
  unfold plainP keyEventMessageP altP
  rw [h]
  simp only [(hr.1 s (.inr ⟨t, hs⟩)).1]
  rfl

theorem plain_receipt_error {rd : Readers} (hr : rd.RejectsJson) {s t : Bytes} (hs : s = 123 :: t)
    (h : jsonMessage (fun fs => desReceipt fs none none none) s = .error) : plainP (receiptMessageP rd.toBinary) s = .error := by
  unfold plainP receiptMessageP altP
  rw [h]
  simp only [(hr.1 s (.inr ⟨t, hs⟩)).2]
  rfl

theorem json_error {α β : Type} {inner : List (Bytes × JVal) → Res α} {s : Bytes} {g : Bytes → SerInfo × α → β}
    (h1 : ∀ rest a, ((jsonMessage inner s).andThen fun r a => .ok r (g r a)) ≠ .ok rest a)
    (h2 : ((jsonMessage inner s).andThen fun r a => .ok r (g r a)) ≠ .panic) : ((jsonMessage inner s).andThen fun r a => .ok r (g r a)) = .error := by
  unfold jsonMessage at *
  cases h : desMessage inner (jsonTop s) with
  | ok a => obtain ⟨i, e, r⟩ := a; rw [h] at h1; exact absurd rfl (h1 r (g r (i, e)))
  | err e => rfl
  | panic => rw [h] at h2; exact absurd rfl h2

section Written
variable (env : Env) (time : Bytes → Option Timestamp) (r : ReplyMsg) (n : SelfAddressingPrefix) (rest : Bytes)

theorem written_v (h : r.Readable env time) : ∀ v, (b!"v", v) ∈ SVal.toJFields (replyFields env r n) → NP (desText SerInfo.fromStr v) := by
  intro v hv
  rw [mem_vals (w := .str r.info.toStr) rfl hv]
  exact np_of (a := r.info) (by rw [desText_ok]; simpa [SerInfo.rt] using h.1)

theorem written_d (h : r.Readable env time) : ∀ v, (b!"d", v) ∈ SVal.toJFields (replyFields env r n) → NP (desSA v) := by
  intro v hv
  rw [mem_vals (w := .str r.digest.toStr) rfl hv]
  exact np_of ((SelfAddressingPrefix.rt_iff _).1 h.2.2.1)

theorem written_env (h : r.Readable env time) :
    ∀ e ∈ envelopeFields time, ∀ v, (e.1, v) ∈ SVal.toJFields (replyFields env r n) → NP (e.2 v) := by
  simp only [envelopeFields, List.forall_mem_cons, List.not_mem_nil, false_imp_iff, implies_true, and_true]
  refine ⟨fun v _ => tried_np (desTime_np time v), fun v hv => tried_np ?_⟩
  rw [mem_vals (w := .str r.route.toStr) rfl hv]
  exact np_of (route_written _ h.2.2.2.1)

theorem written_notice (hn : r.ksn.state.current.nextDigest = some n) (h : r.Readable env time) :
    NP (desKsn time (SVal.struct (noticeFields env r.ksn n)).toJ) := by
  obtain ⟨_, _, _, _, _, h6, ⟨_, h7⟩, _, h9, h10, h11, h12, _, h14, h15, h16, h17, h18, h19⟩ := h
  simp only [KeyConfig.rt, Bool.and_eq_true, hn] at h12
  obtain ⟨⟨h12a, h12b⟩, h12c⟩ := h12
  show NP (desKsnMembers time (SVal.toJFields (noticeFields env r.ksn n)))
  refine desKsnMembers_np ?_
  simp only [ksnFields, stateFields, configFields, List.cons_append, List.nil_append, List.forall_mem_cons, List.not_mem_nil, false_imp_iff,
    implies_true, and_true]
  refine ⟨fun v hv => tried_np ?_, fun v _ => tried_np (desHex_np v), fun v _ => tried_np (desTime_np time v),
    fun v _ => tried_np (desVec_np fun _ _ _ _ => desText_np fun _ _ => NP.ok _), fun v hv => tried_np ?_,
    fun v _ => tried_np (desHex_np v), fun v hv => tried_np ?_, fun v hv => tried_np ?_, fun v _ => tried_np (desOption_np (desTagQ_np v)),
    fun v _ => tried_np (desHex_np v), fun v hv => tried_np ?_, fun v hv => tried_np ?_, fun v hv => tried_np ?_,
    fun v _ => tried_np (desThreshold_np v), fun v hv => tried_np ?_, fun v hv => tried_np ?_⟩
  · rw [mem_vals (w := .str r.ksn.info.toStr) rfl hv]
    exact np_of (a := r.ksn.info) (by rw [desText_ok]; simpa [SerInfo.rt] using h6)
  · rw [mem_vals (w := .str r.ksn.state.prefix.toStr) rfl hv]
    exact np_of ((IdentifierPrefix.rt_iff _).1 h9)
  · rw [mem_vals (w := .str r.ksn.state.lastDigest.toStr) rfl hv]
    exact np_of ((SelfAddressingPrefix.rt_iff _).1 h10)
  · rw [mem_vals (w := (match r.ksn.state.lastPrevious with | some p => SVal.str p.toStr | none => .null).toJ) rfl hv]
    cases e : r.ksn.state.lastPrevious with
    | none => exact NP.ok _
    | some p => exact desOption_np (np_of ((SelfAddressingPrefix.rt_iff _).1 (h11 p e)))
  · rw [mem_vals (w := (keysSval r.ksn.state.witnesses).toJ) rfl hv]
    exact np_of ((desKeys_iff _).2 h14)
  · rw [mem_vals (w := .str (match r.ksn.state.delegator with | some d => d.toStr | none => [])) rfl hv]
    cases e : r.ksn.state.delegator with
    | none => refine desOption_np ?_; intro h; cases h
    | some d => exact desOption_np (np_of ((IdentifierPrefix.rt_iff _).1 (h19 d e)))
  · rw [mem_vals (w := r.ksn.state.lastEst.sval.toJ) rfl hv]
    exact np_of (est_written _ h15 h16 h17 h18)
  · rw [mem_vals (w := (keysSval r.ksn.state.current.publicKeys).toJ) rfl hv]
    exact np_of ((desKeys_iff _).2 h12b)
  · rw [mem_vals (w := .str n.toStr) rfl hv]
    exact np_of ((desNext_iff (some n)).2 h12c)

theorem written_top (h : r.Readable env time) : jsonTop (jsonText (.map (replyFields env r n)) ++ rest) = (SVal.toJFields (replyFields env r n), some rest) :=
  jsonTop_written _ _ (notice_fits env time r n h)

theorem written_others (h : r.Readable env time) :
    jsonMessage desKeyEvent (jsonText (.map (replyFields env r n)) ++ rest) = .error ∧
    jsonMessage (fun fs => desReceipt fs none none none) (jsonText (.map (replyFields env r n)) ++ rest) = .error := by
  have ht := written_top env time r n rest h
  have e1 : (jsonTop (jsonText (.map (replyFields env r n)) ++ rest)).1 = SVal.toJFields (replyFields env r n) := by rw [ht]
  have hk : (SVal.toJFields (replyFields env r n)).map Prod.fst = [b!"v", b!"t", b!"d", b!"dt", b!"r", b!"a"] := rfl
  refine not_plain ?_ ?_ ?_ ?_ <;> rw [e1]
  · exact written_v env time r n h
  · exact written_d env time r n h
  · rw [hk]; decide
  · rw [hk]; decide

theorem written_reply_np (hn : r.ksn.state.current.nextDigest = some n) (h : r.Readable env time) :
    jsonReply time (jsonText (.map (replyFields env r n)) ++ rest) ≠ .panic := by
  have e1 : (jsonTop (jsonText (.map (replyFields env r n)) ++ rest)).1 = SVal.toJFields (replyFields env r n) := by
    rw [written_top env time r n rest h]
  refine andThen_np (jsonMessage_np' (by rw [e1]; exact written_v env time r n h) ?_)
  rw [e1]
  refine desEnvelope_np (fun v hv => written_d env time r n h v (List.mem_filter.1 hv).1)
    (fun e he v hv => written_env env time r n h e he v (List.mem_filter.1 hv).1) fun gs hg => ?_
  have hw : ∀ e ∈ [(b!"a", tried (desKsn time))], ∀ v, (e.1, v) ∈ gs → NP (e.2 v) := by
    simp only [List.forall_mem_cons, List.not_mem_nil, false_imp_iff, implies_true, and_true]
    refine fun v hv => tried_np ?_
    rw [mem_vals (w := (SVal.struct (noticeFields env r.ksn n)).toJ) rfl (List.mem_filter.1 (hg _ hv)).1]
    exact written_notice env time r n hn h
  exact NP.bind (ownWalk_np hw) fun _ _ => NP.bind (own_np hw (by simp)) fun _ _ => NP.need _

theorem written_not_query (h : r.Readable env time) : jsonQuery time (jsonText (.map (replyFields env r n)) ++ rest) = .error := by
  have e1 : (jsonTop (jsonText (.map (replyFields env r n)) ++ rest)).1 = SVal.toJFields (replyFields env r n) := by
    rw [written_top env time r n rest h]
  refine json_error (fun rest' q hq => ?_) (andThen_np (jsonMessage_np' (by rw [e1]; exact written_v env time r n h) ?_))
  · obtain ⟨_, _, _, _, _, ⟨v, hv, _⟩, _⟩ := (C76_query_reader_exact _ _ _ _).1 hq
    rw [e1] at hv
    cases hv
  · rw [e1]
    refine desEnvelope_np (fun v hv => written_d env time r n h v (List.mem_filter.1 hv).1)
      (fun e he v hv => written_env env time r n h e he v (List.mem_filter.1 hv).1) fun gs hg => ?_
    have hk : ∀ k ∈ [b!"rr", b!"q"], ∀ v, (k, v) ∉ gs := by
      intro k hk v hv
      have hm : k ∈ (SVal.toJFields (replyFields env r n)).map Prod.fst := List.mem_map.2 ⟨_, (List.mem_filter.1 (hg _ hv)).1, rfl⟩
      have hk2 : (SVal.toJFields (replyFields env r n)).map Prod.fst = [b!"v", b!"t", b!"d", b!"dt", b!"r", b!"a"] := rfl
      rw [hk2] at hm
      exact (by decide : ∀ k ∈ [b!"rr", b!"q"], k ∉ [b!"v", b!"t", b!"d", b!"dt", b!"r", b!"a"]) k hk hm
    have hw : ∀ e ∈ [(b!"rr", tried (desText Res.ok)), (b!"q", tried desQueryArgs)], ∀ v, (e.1, v) ∈ gs → NP (e.2 v) := by
      simp only [List.forall_mem_cons, List.not_mem_nil, false_imp_iff, implies_true, and_true]
      exact ⟨fun v hv => absurd hv (hk _ (by simp) v), fun v hv => absurd hv (hk _ (by simp) v)⟩
    exact NP.bind (ownWalk_np hw) fun _ _ => NP.bind (own_np hw (by simp)) fun _ _ => NP.bind (own_np hw (by simp)) fun _ _ =>
      NP.bind (NP.need _) fun _ _ => NP.bind (NP.need _) fun _ _ => NP.ok _

end Written

/-- C77: the written notice of an identifier without a delegator is not a message to the parser … -/
theorem C77_fails_undelegated (env : Env) (rd : Readers) (hr : rd.RejectsJson) (r : ReplyMsg) (h : r.Readable env rd.time) (b rest : Bytes)
    (hb : r.serialize env = .ok b) (hd : r.ksn.state.delegator = none) : signedMessageQ rd (b ++ rest) = .error := by
  have hb0 := hb
  obtain ⟨n, hn⟩ := Option.ne_none_iff_exists'.1 h.2.2.2.2.2.2.2.2.2.2.2.2.1
  rw [reply_text env r n hn h.2.1] at hb
  cases hb
  have h1 : jsonReply rd.time (jsonText (.map (replyFields env r n)) ++ rest) = .error := by
    refine json_error (fun rest' r' hr' => ?_) (written_reply_np env rd.time r n rest hn h)
    have e := ((C76_reply_reader_exact _ _ _ _).1 hr').1
    rw [written_top env rd.time r n rest h] at e
    cases e
    exact ((C77_written_notice env rd.time r r' h _ rest hb0).1 hr').1 hd
  obtain ⟨t, ht⟩ : ∃ t, jsonText (.map (replyFields env r n)) ++ rest = 123 :: t := ⟨_, rfl⟩
  obtain ⟨h2, h3⟩ := written_others env rd.time r n rest h
  unfold signedMessageQ anyMessageP altP
  rw [plain_event_error hr ht h2]
  simp only [replyMessageP, queryMessageP, altP, h1, written_not_query env rd.time r n rest h, (hr.2 _ (.inr ⟨t, ht⟩)).1, (hr.2 _ (.inr ⟨t, ht⟩)).2,
    IRes.andThen, plain_receipt_error hr ht h3]

/-- … so that a controller given it, signed by whom and however, does nothing about it and nothing about whatever follows, and reports no
error: the answer is empty and the database is as it was. -/
theorem C77_dropped {σ : Type} (o : Ops σ) (env : Env) (sg : SignFn) (c : Controller) (rd : Readers) (hr : rd.RejectsJson) (r : ReplyMsg)
    (h : r.Readable env rd.time) (b rest : Bytes) (hb : r.serialize env = .ok b) (hd : r.ksn.state.delegator = none) (db : σ) :
    c.respondQ rd o env sg (b ++ rest) db = (.ok [], db) := by
  have hs : signedStreamQ rd (b ++ rest) = .ok (b ++ rest) [] := by
    unfold signedStreamQ
    rw [many0P, C77_fails_undelegated env rd hr r h b rest hb hd]
  unfold Controller.respondQ
  rw [hs]
  rfl

/-! ## Signed replies and queries on the wire -/

/-- a reply that can be read is found by the parser of messages -/
theorem reply_message (env : Env) (rd : Readers) (hr : rd.RejectsJson) (r : ReplyMsg) (h : r.Readable env rd.time) (b rest : Bytes)
    (hb : r.serialize env = .ok b) (hd : r.ksn.state.delegator ≠ none) (h1 : misread r.ksn.state.sn ≤ u64max)
    (h2 : misread r.ksn.state.tally ≤ u64max) (h3 : misread r.ksn.firstSeen ≤ u64max) : anyMessageP rd (b ++ rest) = .ok rest (.reply r.misread) := by
  have hj := (C77_written_notice env rd.time r r.misread h b rest hb).2 ⟨hd, h1, h2, h3, rfl⟩
  obtain ⟨n, hn⟩ := Option.ne_none_iff_exists'.1 h.2.2.2.2.2.2.2.2.2.2.2.2.1
  rw [reply_text env r n hn h.2.1] at hb
  cases hb
  obtain ⟨t, ht⟩ : ∃ t, jsonText (.map (replyFields env r n)) ++ rest = 123 :: t := ⟨_, rfl⟩
  unfold anyMessageP altP
  rw [plain_event_error hr ht (written_others env rd.time r n rest h).1]
  simp only [replyMessageP, altP, hj, IRes.andThen]

/-- what travels with a signed reply: one group with one seal and its signatures, or one key with its signature, and nothing else -/
def SignedReply.Carried (r : SignedReply) (atts : List Attachment) : Prop :=
  (∃ sl sigs, r.signature = .transferable sl sigs ∧ atts = [.sealSignaturesGroups [(sl, sigs)]]) ∨
  (∃ k s, r.signature = .nonTransferable k s ∧ atts = [.receiptCouplets [(k, s)]])

/-- C77 with signatures: what a receiver makes of a signed reply. -/
theorem C77_signed_notice (env : Env) (rd : Readers) (hr : rd.RejectsJson) (r : SignedReply) (h : r.reply.Readable env rd.time)
    (ha : ∀ a ∈ r.toData.attachments, a.Ok) (t rest : Bytes) (ht : r.toData.toCesr env = .ok t) (he : StreamEnd rest)
    (hd : r.reply.ksn.state.delegator ≠ none) (h1 : r.reply.ksn.state.sn ≤ 9) (h2 : r.reply.ksn.state.tally ≤ 9) (h3 : r.reply.ksn.firstSeen ≤ 9) :
    ∃ d, signedMessageQ rd (t ++ rest) = .ok rest d ∧ d.event = .reply r.reply ∧ r.Carried d.attachments ∧ d.toMessage = .ok (.reply r) := by
  obtain ⟨x, hx, hx'⟩ := attachments_roundtrip r.toData.attachments ha
  unfold SignedDataQ.toCesr at ht
  rw [hx, Res.ok_bind] at ht
  obtain ⟨b, hb, hbt⟩ := Res.bind_eq_ok.1 ht
  cases hbt
  have hm : r.reply.misread = r.reply := by
    unfold ReplyMsg.misread
    rw [(misread_same _).2 h1, (misread_same _).2 h2, (misread_same _).2 h3]
  have hle : ∀ n, n ≤ 9 → misread n ≤ u64max := fun n hn => by rw [(misread_same _).2 hn]; unfold u64max; omega
  have hp := reply_message env rd hr r.reply h b (x ++ rest) hb hd (hle _ h1) (hle _ h2) (hle _ h3)
  rw [hm] at hp
  refine ⟨r.toData, ?_, rfl, ?_, ?_⟩
  · unfold signedMessageQ
    rw [List.append_assoc, hp, IRes.andThen_ok, hx' rest he _ (Nat.le_refl _), IRes.andThen_ok]
    rfl
  · obtain ⟨rep, s⟩ := r
    cases s with
    | transferable sl sigs => exact .inl ⟨sl, sigs, rfl, rfl⟩
    | nonTransferable k s => exact .inr ⟨k, s, rfl, rfl⟩
  · obtain ⟨rep, s⟩ := r
    cases s <;> rfl

/-- every part of the query survives being written and read on its own -/
def QueryMsg.Readable (env : Env) (time : Bytes → Option Timestamp) (q : QueryMsg) : Prop :=
  q.info.rt = true ∧ q.info.kind = .json ∧ q.digest.rt = true ∧ ReadsTime env time q.timestamp ∧ q.route.rt = true ∧
  utf8Valid q.replyRoute = true ∧ q.id.rt = true

/-- the members of a written query -/
def queryFields (env : Env) (q : QueryMsg) : List (Bytes × SVal) :=
  [(b!"v", .str q.info.toStr), (b!"t", .str EventTypeTag.qry.toStr), (b!"d", .str q.digest.toStr),
    (b!"dt", .str (env.timeText q.timestamp.micros q.timestamp.offset)), (b!"r", .str q.route.toStr), (b!"rr", .str q.replyRoute),
    (b!"q", .struct [(b!"i", .str q.id.toStr)])]

/-- C76 for queries: every readable query comes back from its text, and no other kind of message is tried on it successfully. -/
theorem C76_query_roundtrip (env : Env) (rd : Readers) (hr : rd.RejectsJson) (q : QueryMsg) (h : q.Readable env rd.time)
    (signer : IdentifierPrefix) (sigs : List AttachedSignaturePrefix) (b rest : Bytes) (hb : (q.signed signer sigs).serialize env = .ok b) :
    anyMessageP rd (b ++ rest) = .ok rest (.query q) := by
  obtain ⟨h1, h2, h3, ⟨h4, h5⟩, h6, h7, h8⟩ := h
  have hb' : b = jsonText (.map (queryFields env q)) := by
    unfold SignedQuery.serialize QueryMsg.signed at hb
    simp only [h2, Fmt.encode, Res.ok.injEq] at hb
    exact hb.symm
  subst hb'
  have hf : SVal.FitsF 127 (queryFields env q) := by
    unfold queryFields
    simp only [SVal.FitsF, SVal.Fits]
    exact ⟨by decide, SerInfo.toStr_utf8 _, by decide, by decide, by decide, SelfAddressingPrefix.toStr_utf8 _, by decide, h4, by decide, route_utf8 _,
      by decide, h7, by decide, ⟨by decide, by decide, IdentifierPrefix.toStr_utf8 _, trivial⟩, trivial⟩
  have ht := jsonTop_written (queryFields env q) rest hf
  have e1 : (jsonTop (jsonText (.map (queryFields env q)) ++ rest)).1 = SVal.toJFields (queryFields env q) := by rw [ht]
  have hi' : desText SerInfo.fromStr (.str q.info.toStr) = .ok q.info := by rw [desText_ok]; simpa [SerInfo.rt] using h1
  have hd' : desSA (.str q.digest.toStr) = .ok q.digest := (SelfAddressingPrefix.rt_iff _).1 h3
  have hv : ∀ v, (b!"v", v) ∈ SVal.toJFields (queryFields env q) → NP (desText SerInfo.fromStr v) := by
    intro v hv; rw [mem_vals (w := .str q.info.toStr) rfl hv]; exact np_of hi'
  have hd : ∀ v, (b!"d", v) ∈ SVal.toJFields (queryFields env q) → NP (desSA v) := by
    intro v hv; rw [mem_vals (w := .str q.digest.toStr) rfl hv]; exact np_of hd'
  have hk : (SVal.toJFields (queryFields env q)).map Prod.fst = [b!"v", b!"t", b!"d", b!"dt", b!"r", b!"rr", b!"q"] := rfl
  have p1 := (not_plain (s := jsonText (.map (queryFields env q)) ++ rest) (by rw [e1]; exact hv) (by rw [e1]; exact hd)
    (by rw [e1, hk]; decide) (by rw [e1, hk]; decide)).1
  have p2 : jsonReply rd.time (jsonText (.map (queryFields env q)) ++ rest) = .error := by
    refine json_error (fun rest' r hq => ?_) (andThen_np (jsonMessage_np' (by rw [e1]; exact hv) ?_))
    · obtain ⟨_, _, _, _, _, ⟨v, hv, _⟩⟩ := (C76_reply_reader_exact _ _ _ _).1 hq
      rw [e1] at hv
      cases hv
    · rw [e1]
      refine desEnvelope_np (fun v hv => hd v (List.mem_filter.1 hv).1) (fun e he v hv => ?_) fun gs hg => ?_
      · revert e
        simp only [envelopeFields, List.forall_mem_cons, List.not_mem_nil, false_imp_iff, implies_true, and_true]
        refine ⟨fun _ => tried_np (desTime_np rd.time v), fun hv => tried_np ?_⟩
        rw [mem_vals (w := .str q.route.toStr) rfl (List.mem_filter.1 hv).1]
        exact np_of (route_written _ h6)
      · have hw : ∀ e ∈ [(b!"a", tried (desKsn rd.time))], ∀ v, (e.1, v) ∈ gs → NP (e.2 v) := by
          simp only [List.forall_mem_cons, List.not_mem_nil, false_imp_iff, implies_true, and_true]
          intro v hv
          have hm : b!"a" ∈ (SVal.toJFields (queryFields env q)).map Prod.fst := List.mem_map.2 ⟨_, (List.mem_filter.1 (hg _ hv)).1, rfl⟩
          rw [hk] at hm
          exact absurd hm (by decide)
        exact NP.bind (ownWalk_np hw) fun _ _ => NP.bind (own_np hw (by simp)) fun _ _ => NP.need _
  have p3 : jsonQuery rd.time (jsonText (.map (queryFields env q)) ++ rest) = .ok rest q := by
    rw [C76_query_reader_exact, ht]
    refine ⟨rfl, (Sole_eq (text_iff _) (v := .str q.info.toStr) rfl hi' _).2 rfl,
      (Sole_eq sa_iff (v := .str q.digest.toStr) rfl hd' _).2 rfl,
      (Sole_eq (time_iff rd.time) (v := .str (env.timeText q.timestamp.micros q.timestamp.offset)) rfl (by rw [desTime, desText_ok, h5]; rfl) _).2 rfl,
      (Sole_eq route_iff (v := .str q.route.toStr) rfl (route_written _ h6) _).2 rfl,
      (Sole_eq (text_iff _) (v := .str q.replyRoute) rfl (desText_ok _ _) _).2 rfl,
      ⟨_, rfl, ⟨[(b!"i", .str q.id.toStr)], .inl rfl, (Sole_eq id_iff (v := .str q.id.toStr) rfl ((IdentifierPrefix.rt_iff _).1 h8) _).2 rfl⟩⟩⟩
  obtain ⟨t, ht'⟩ : ∃ t, jsonText (.map (queryFields env q)) ++ rest = 123 :: t := ⟨_, rfl⟩
  unfold anyMessageP altP
  rw [plain_event_error hr ht' p1]
  simp only [replyMessageP, queryMessageP, altP, p2, p3, (hr.2 _ (.inr ⟨t, ht'⟩)).1, IRes.andThen]

/-! ## Non-vacuity -/
section
open Ex
set_option maxRecDepth 20000

/-- a reader of the timestamps the example environment writes -/
def Ex.readClock (s : Bytes) : Option Timestamp := (fromStrRadix 10 u64max s).map fun n => ⟨n, 0⟩

/-- readers that reject every binary text -/
def Ex.noReaders : Readers := { event := fun _ => .error, receipt := fun _ => .error, time := readClock, reply := fun _ => .error, query := fun _ => .error }

/-- replies of a state of the example identifier, with and without a delegator and with a chosen sequence number -/
def Ex.someReply (d : Option IdentifierPrefix) (n : Nat) : ReplyMsg := mkReply { ixnState with delegator := d, sn := n } 5 (.basic (key 40))

theorem opt_all {α : Type} {o : Option α} {p : α → Bool} (h : o.all p = true) : ∀ x, o = some x → p x = true := by
  rintro x rfl; exact h

theorem Ex.someReply_readable (d : Option IdentifierPrefix) (hd : d = none ∨ d = some Ex.id) (n : Nat) (hn : n = 2 ∨ n = 12) :
    (someReply d n).Readable env readClock := by
  rcases hd with rfl | rfl <;> rcases hn with rfl | rfl <;>
    exact ⟨by decide +kernel, by decide +kernel, by decide +kernel, by decide +kernel, ⟨by decide +kernel, by decide +kernel⟩, by decide +kernel,
      ⟨by decide +kernel, by decide +kernel⟩, by decide +kernel, by decide +kernel, by decide +kernel,
      opt_all (by decide +kernel), by decide +kernel, by decide +kernel, by decide +kernel, by decide +kernel, by decide +kernel,
      by decide +kernel, by decide +kernel, opt_all (by decide +kernel)⟩

theorem Ex.noReaders_reject : noReaders.RejectsJson := ⟨fun _ _ => ⟨rfl, rfl⟩, fun _ _ => ⟨rfl, rfl⟩⟩

/-- a notice about a delegated identifier comes back, one with the number 12 comes back with the number 18, and one about an undelegated
identifier stops everything after it -/
example : (∃ b, (someReply (some Ex.id) 2).serialize env = .ok b ∧ jsonReply readClock b = .ok [] (someReply (some Ex.id) 2)) ∧
    (∃ b r, (someReply (some Ex.id) 12).serialize env = .ok b ∧ jsonReply readClock b = .ok [] r ∧ r.ksn.state.sn = 18) ∧
    (∃ b, (someReply none 2).serialize env = .ok b ∧ ∀ rest, signedMessageQ noReaders (b ++ rest) = .error) := by
  refine ⟨⟨_, rfl, ?_⟩, ⟨_, (someReply (some Ex.id) 12).misread, rfl, ?_, by decide +kernel⟩, ⟨_, rfl, fun rest => ?_⟩⟩
  · have := (C77_roundtrip env readClock _ (someReply_readable (some Ex.id) (.inr rfl) 2 (.inl rfl)) _ [] rfl).2 (by decide +kernel)
    rwa [List.append_nil] at this
  · have := (C77_written_notice env readClock _ (someReply (some Ex.id) 12).misread (someReply_readable (some Ex.id) (.inr rfl) 12 (.inr rfl)) _ [] rfl).2
      ⟨by decide +kernel, by decide +kernel, by decide +kernel, by decide +kernel, rfl⟩
    rwa [List.append_nil] at this
  · exact C77_fails_undelegated env noReaders noReaders_reject _ (someReply_readable none (.inl rfl) 2 (.inl rfl)) _ rest rfl rfl

/-- a signed notice with a delegator and a query arrive as they were sent -/
example : ∃ t, (SignedReply.toData ⟨someReply (some Ex.id) 2, .nonTransferable (key 40) ⟨.ed25519Sha512, List.replicate 64 1⟩⟩).toCesr env = .ok t ∧
    ∃ d, signedMessageQ noReaders (t ++ b!"{\"") = .ok b!"{\"" d ∧ d.event = .reply (someReply (some Ex.id) 2) ∧
    SignedReply.Carried ⟨someReply (some Ex.id) 2, .nonTransferable (key 40) ⟨.ed25519Sha512, List.replicate 64 1⟩⟩ d.attachments ∧
    d.toMessage = .ok (.reply ⟨someReply (some Ex.id) 2, .nonTransferable (key 40) ⟨.ed25519Sha512, List.replicate 64 1⟩⟩) := by
  refine ⟨_, rfl, C77_signed_notice env noReaders noReaders_reject ⟨someReply (some Ex.id) 2, .nonTransferable (key 40) ⟨.ed25519Sha512, List.replicate 64 1⟩⟩
    (someReply_readable (some Ex.id) (.inr rfl) 2 (.inl rfl)) ?_ _ b!"{\"" rfl (.inr ⟨[], rfl⟩) ?_ ?_ ?_ ?_⟩
  · simp only [SignedReply.toData, List.mem_singleton, forall_eq]
    refine ⟨by decide, fun x hx => ?_⟩
    rw [List.mem_singleton] at hx
    subst hx
    exact ⟨by unfold BasicPrefix.Sized; decide +kernel, by unfold BasicPrefix.IsSecp; decide +kernel, by unfold SelfSigningPrefix.Sized; decide +kernel⟩
  all_goals decide +kernel

/-- a query of the example identifier -/
def Ex.someQuery : QueryMsg := ⟨SerInfo.new .json 0, (someReply none 2).digest, ⟨5, 0⟩, .replyKsn Ex.id, b!"route", Ex.id⟩

example : ∃ b, (someQuery.signed Ex.id []).serialize env = .ok b ∧ ∀ rest, anyMessageP noReaders (b ++ rest) = .ok rest (.query someQuery) :=
  ⟨_, rfl, fun rest => C76_query_roundtrip env noReaders noReaders_reject someQuery ⟨by decide +kernel, by decide +kernel, by decide +kernel,
    ⟨by decide +kernel, by decide +kernel⟩, by decide +kernel, by decide +kernel, by decide +kernel⟩ Ex.id [] _ rest rfl⟩
end
end Keriox
