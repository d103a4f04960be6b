import Verif.QueryWire
import Verif.Example

/-!
# C83: which attachments make a message

`Message::try_from` turns a parsed text and the attachments that follow it into a signed message.  `Understood` says, without the model's
functions, which attachments make which message.
-/

namespace Keriox

/-- The attachment that counts for a receipt, a reply or a query: the last one; and if that is a frame, the one that counts inside. -/
inductive Counts : List Attachment → Attachment → Prop
  | last (before : List Attachment) (a : Attachment) (h : ∀ l, a ≠ .frame l) : Counts (before ++ [a]) a
  | inside (before inner : List Attachment) (a : Attachment) (h : Counts inner a) : Counts (before ++ [.frame inner]) a

/-- the text is a delegated inception or rotation -/
def EventMessage.Delegated (m : EventMessage) : Prop := (∃ e, m.event.content.data = .dip e) ∨ ∃ e, m.event.content.data = .drt e

/-- which message a text and the attachments after it make -/
inductive Understood : EventTypeQ → List Attachment → Message → Prop
  /-- a key event that is not delegated: the first attachment is its signatures, whatever follows -/
  | own (m : EventMessage) (sigs : List AttachedSignaturePrefix) (others : List Attachment) (h : ¬ m.Delegated) :
      Understood (.plain (.keyEvent m)) (.attachedSignatures sigs :: others) (.event ⟨m, sigs, none⟩)
  /-- a delegated key event: the last two are one seal of the delegating event and the signatures -/
  | sealFirst (m : EventMessage) (others : List Attachment) (sl : SourceSeal) (sigs : List AttachedSignaturePrefix) (h : m.Delegated) :
      Understood (.plain (.keyEvent m)) (others ++ [.sealSourceCouplets [sl], .attachedSignatures sigs]) (.event ⟨m, sigs, some sl⟩)
  /-- or the other way round -/
  | sealLast (m : EventMessage) (others : List Attachment) (sl : SourceSeal) (sigs : List AttachedSignaturePrefix) (h : m.Delegated) :
      Understood (.plain (.keyEvent m)) (others ++ [.attachedSignatures sigs, .sealSourceCouplets [sl]]) (.event ⟨m, sigs, some sl⟩)
  /-- a receipt with all the couplets of the attachment that counts -/
  | couplets (r : ReceiptMsg) (atts : List Attachment) (cs : List (BasicPrefix × SelfSigningPrefix)) (h : Counts atts (.receiptCouplets cs)) :
      Understood (.plain (.receipt r)) atts (.rctNt ⟨r, cs⟩)
  /-- a receipt with the last group only -/
  | group (r : ReceiptMsg) (atts : List Attachment) (gs : List (EventSeal × List AttachedSignaturePrefix)) (sl : EventSeal)
      (sigs : List AttachedSignaturePrefix) (h : Counts atts (.sealSignaturesGroups (gs ++ [(sl, sigs)]))) :
      Understood (.plain (.receipt r)) atts (.rctT ⟨r, sl, sigs⟩)
  /-- a reply with the first couplet only -/
  | replyCouplet (r : ReplyMsg) (atts : List Attachment) (k : BasicPrefix) (s : SelfSigningPrefix) (cs : List (BasicPrefix × SelfSigningPrefix))
      (h : Counts atts (.receiptCouplets ((k, s) :: cs))) : Understood (.reply r) atts (.reply ⟨r, .nonTransferable k s⟩)
  /-- a reply with the last group only -/
  | replyGroup (r : ReplyMsg) (atts : List Attachment) (gs : List (EventSeal × List AttachedSignaturePrefix)) (sl : EventSeal)
      (sigs : List AttachedSignaturePrefix) (h : Counts atts (.sealSignaturesGroups (gs ++ [(sl, sigs)]))) :
      Understood (.reply r) atts (.reply ⟨r, .transferable sl sigs⟩)
  /-- a query with the first group only -/
  | query (q : QueryMsg) (atts : List Attachment) (i : IdentifierPrefix) (sigs : List AttachedSignaturePrefix)
      (gs : List (IdentifierPrefix × List AttachedSignaturePrefix)) (h : Counts atts (.lastEstSignaturesGroups ((i, sigs) :: gs))) :
      Understood (.query q) atts (.query (q.signed i sigs))

theorem getLast?_some {α : Type} {l : List α} {a : α} (h : l.getLast? = some a) : ∃ b, l = b ++ [a] := by
  obtain ⟨ys, hys⟩ := List.getLast?_eq_some_iff.1 h
  exact ⟨ys, hys⟩

theorem Counts.inv {atts : List Attachment} {a : Attachment} (h : Counts atts a) :
    (∀ l, a ≠ .frame l) ∧ (atts.getLast? = some a ∨ ∃ inner, atts.getLast? = some (.frame inner) ∧ Counts inner a) := by
  induction h with
  | last b a h => exact ⟨h, Or.inl (by simp)⟩
  | inside b i a h ih => exact ⟨ih.1, Or.inr ⟨i, by simp, h⟩⟩

theorem Counts.of_last {atts : List Attachment} {a : Attachment} (h : atts.getLast? = some a) (hn : ∀ l, a ≠ .frame l) : Counts atts a := by
  obtain ⟨b, rfl⟩ := getLast?_some h
  exact .last b a hn

theorem Counts.of_frame {atts inner : List Attachment} {a : Attachment} (h : atts.getLast? = some (.frame inner)) (hi : Counts inner a) :
    Counts atts a := by
  obtain ⟨b, rfl⟩ := getLast?_some h
  exact .inside b inner a hi

theorem depth_mem {a : Attachment} : ∀ {as : List Attachment}, a ∈ as → a.depth ≤ Attachment.depths as
  | b :: as, h => by
    rw [Attachment.depths]
    rcases List.mem_cons.1 h with rfl | h
    · exact Nat.le_max_left _ _
    · exact Nat.le_trans (depth_mem h) (Nat.le_max_right _ _)

theorem depth_inside {atts inner : List Attachment} (h : atts.getLast? = some (.frame inner)) :
    Attachment.depths inner + 1 ≤ Attachment.depths atts := by
  have := depth_mem (List.mem_of_getLast? h)
  rw [Attachment.depth] at this
  omega

/-- what the reader of a receipt, reply or query does with the attachment that counts -/
theorem counts_induction {P : Nat → List Attachment → Prop}
    (hnone : ∀ n atts, atts.getLast? = none → P (n + 1) atts)
    (hlast : ∀ n atts a, atts.getLast? = some a → (∀ l, a ≠ .frame l) → P (n + 1) atts)
    (hframe : ∀ n atts inner, atts.getLast? = some (.frame inner) → P n inner → P (n + 1) atts) :
    ∀ n atts, Attachment.depths atts < n → P n atts := by
  intro n
  induction n with
  | zero => intro _ h; omega
  | succ n ih =>
    intro atts h
    cases hl : atts.getLast? with
    | none => exact hnone n atts hl
    | some a =>
      by_cases ha : ∀ l, a ≠ .frame l
      · exact hlast n atts a hl ha
      · have : ∃ l, a = .frame l := Classical.byContradiction fun hc => ha fun l e => hc ⟨l, e⟩
        obtain ⟨inner, rfl⟩ := this
        exact hframe n atts inner hl (ih inner (by have := depth_inside hl; omega))

theorem counts_none {atts : List Attachment} (h : atts.getLast? = none) (a : Attachment) : ¬ Counts atts a := fun hc => by
  rcases hc.inv.2 with h' | ⟨i, h', _⟩ <;> rw [h] at h' <;> cases h'

theorem counts_last {atts : List Attachment} {b : Attachment} (h : atts.getLast? = some b) (hb : ∀ l, b ≠ .frame l) (a : Attachment) :
    Counts atts a ↔ a = b := by
  constructor
  · intro hc
    rcases hc.inv.2 with h' | ⟨i, h', _⟩ <;> rw [h] at h' <;> cases h'
    · rfl
    · exact absurd rfl (hb i)
  · rintro rfl
    exact .of_last h hb

theorem counts_frame {atts inner : List Attachment} (h : atts.getLast? = some (.frame inner)) (a : Attachment) :
    Counts atts a ↔ Counts inner a := by
  constructor
  · intro hc
    obtain ⟨hn, h' | ⟨i, h', hi⟩⟩ := hc.inv <;> rw [h] at h' <;> cases h'
    · exact absurd rfl (hn inner)
    · exact hi
  · exact .of_frame h

/-- at most one attachment counts -/
theorem Counts.unique {atts : List Attachment} {a : Attachment} (h : Counts atts a) : ∀ {b : Attachment}, Counts atts b → a = b := by
  induction h with
  | last bf a hn => intro b hb; exact (((counts_last (by simp) hn b).1 hb)).symm
  | inside bf inner a _ ih => intro b hb; exact ih ((counts_frame (by simp) b).1 hb)

theorem receipt_counts (r : ReceiptMsg) : ∀ n atts, Attachment.depths atts < n →
    (∀ m, signedReceipt n r atts = .ok m ↔
      (∃ cs, Counts atts (.receiptCouplets cs) ∧ m = .rctNt ⟨r, cs⟩) ∨
      ∃ gs sl sigs, Counts atts (.sealSignaturesGroups (gs ++ [(sl, sigs)])) ∧ m = .rctT ⟨r, sl, sigs⟩) ∧
    signedReceipt n r atts ≠ .panic := by
  refine counts_induction ?_ ?_ ?_
  · intro n atts h
    rw [signedReceipt, h]
    refine ⟨fun m => ⟨(nomatch ·), ?_⟩, by simp⟩
    rintro (⟨cs, hc, _⟩ | ⟨gs, sl, sigs, hc, _⟩) <;> exact absurd hc (counts_none h _)
  · intro n atts a h hn
    rw [signedReceipt, h]
    refine ⟨fun m => ?_, ?_⟩
    · simp only [counts_last h hn]
      cases a with
      | frame l => exact absurd rfl (hn l)
      | receiptCouplets cs =>
        simp only [Res.ok.injEq, Attachment.receiptCouplets.injEq, reduceCtorEq, false_and, exists_false, or_false, exists_eq_left]
        exact eq_comm
      | sealSignaturesGroups gs =>
        dsimp only
        simp only [reduceCtorEq, false_and, exists_false, false_or, Attachment.sealSignaturesGroups.injEq]
        cases hg : gs.getLast? with
        | none =>
          refine ⟨(nomatch ·), ?_⟩
          rintro ⟨gs', sl, sigs, rfl, _⟩
          simp at hg
        | some g =>
          obtain ⟨b, rfl⟩ := getLast?_some hg
          simp only [Res.ok.injEq]
          constructor
          · rintro rfl; exact ⟨b, g.1, g.2, rfl, rfl⟩
          · rintro ⟨gs', sl, sigs, he, rfl⟩
            obtain ⟨_, h2⟩ := List.append_inj' he rfl
            cases h2
            rfl
      | sealSourceCouplets l => simp
      | attachedSignatures l => simp
      | lastEstSignaturesGroups l => simp
    · cases a with
      | frame l => exact absurd rfl (hn l)
      | sealSignaturesGroups gs => dsimp only; cases gs.getLast? <;> simp
      | _ => simp
  · intro n atts inner h ih
    rw [signedReceipt, h]
    simp only [counts_frame h]
    exact ih

theorem reply_counts (r : ReplyMsg) : ∀ n atts, Attachment.depths atts < n →
    (∀ m, signedReply n r atts = .ok m ↔
      (∃ k s cs, Counts atts (.receiptCouplets ((k, s) :: cs)) ∧ m = .reply ⟨r, .nonTransferable k s⟩) ∨
      ∃ gs sl sigs, Counts atts (.sealSignaturesGroups (gs ++ [(sl, sigs)])) ∧ m = .reply ⟨r, .transferable sl sigs⟩) ∧
    (signedReply n r atts = .panic ↔ Counts atts (.receiptCouplets [])) := by
  refine counts_induction ?_ ?_ ?_
  · intro n atts h
    rw [signedReply, h]
    refine ⟨fun m => ⟨(nomatch ·), ?_⟩, ⟨(nomatch ·), fun hc => absurd hc (counts_none h _)⟩⟩
    rintro (⟨k, s, cs, hc, _⟩ | ⟨gs, sl, sigs, hc, _⟩) <;> exact absurd hc (counts_none h _)
  · intro n atts a h hn
    rw [signedReply, h]
    refine ⟨fun m => ?_, ?_⟩
    · simp only [counts_last h hn]
      cases a with
      | frame l => exact absurd rfl (hn l)
      | receiptCouplets cs =>
        cases cs with
        | nil => simp
        | cons c cs =>
          dsimp only
          simp only [Res.ok.injEq, Attachment.receiptCouplets.injEq, reduceCtorEq, false_and, exists_false, or_false]
          constructor
          · rintro rfl; exact ⟨c.1, c.2, cs, rfl, rfl⟩
          · rintro ⟨k, s, cs', he, rfl⟩; cases he; rfl
      | sealSignaturesGroups gs =>
        dsimp only
        simp only [reduceCtorEq, false_and, exists_false, false_or, Attachment.sealSignaturesGroups.injEq]
        cases hg : gs.getLast? with
        | none =>
          refine ⟨(nomatch ·), ?_⟩
          rintro ⟨gs', sl, sigs, rfl, _⟩
          simp at hg
        | some g =>
          obtain ⟨b, rfl⟩ := getLast?_some hg
          simp only [Res.ok.injEq]
          constructor
          · rintro rfl; exact ⟨b, g.1, g.2, rfl, rfl⟩
          · rintro ⟨gs', sl, sigs, he, rfl⟩
            obtain ⟨_, h2⟩ := List.append_inj' he rfl
            cases h2
            rfl
      | sealSourceCouplets l => simp
      | attachedSignatures l => simp
      | lastEstSignaturesGroups l => simp
    · rw [counts_last h hn]
      cases a with
      | frame l => exact absurd rfl (hn l)
      | receiptCouplets cs => cases cs <;> simp
      | sealSignaturesGroups gs => dsimp only; cases gs.getLast? <;> simp
      | _ => simp
  · intro n atts inner h ih
    rw [signedReply, h]
    simp only [counts_frame h]
    exact ih

theorem query_counts (q : QueryMsg) : ∀ n atts, Attachment.depths atts < n →
    (∀ m, signedQuery n q atts = .ok m ↔
      ∃ i sigs gs, Counts atts (.lastEstSignaturesGroups ((i, sigs) :: gs)) ∧ m = .query (q.signed i sigs)) ∧
    (signedQuery n q atts = .panic ↔ Counts atts (.lastEstSignaturesGroups [])) := by
  refine counts_induction ?_ ?_ ?_
  · intro n atts h
    rw [signedQuery, h]
    refine ⟨fun m => ⟨(nomatch ·), ?_⟩, ⟨(nomatch ·), fun hc => absurd hc (counts_none h _)⟩⟩
    rintro ⟨k, s, cs, hc, _⟩
    exact absurd hc (counts_none h _)
  · intro n atts a h hn
    rw [signedQuery, h]
    refine ⟨fun m => ?_, ?_⟩
    · simp only [counts_last h hn]
      cases a with
      | frame l => exact absurd rfl (hn l)
      | lastEstSignaturesGroups gs =>
        cases gs with
        | nil => simp
        | cons c cs =>
          dsimp only
          simp only [Res.ok.injEq, Attachment.lastEstSignaturesGroups.injEq]
          constructor
          · rintro rfl; exact ⟨c.1, c.2, cs, rfl, rfl⟩
          · rintro ⟨k, s, cs', he, rfl⟩; cases he; rfl
      | _ => simp
    · rw [counts_last h hn]
      cases a with
      | frame l => exact absurd rfl (hn l)
      | lastEstSignaturesGroups cs => cases cs <;> simp
      | _ => simp
  · intro n atts inner h ih
    rw [signedQuery, h]
    simp only [counts_frame h]
    exact ih

theorem lastTwo_iff (e : EventMessage) (m : Message) : ∀ atts : List Attachment, lastTwo e atts = .ok m ↔
    ∃ others a b, atts = others ++ [a, b] ∧ delegatedAtts e b a = .ok m
  | [] => by simp [lastTwo]
  | [a] => by
    simp only [lastTwo, reduceCtorEq, false_iff]
    rintro ⟨o, x, y, h, _⟩
    have := congrArg List.length h
    simp at this
  | [a, b] => by
    simp only [lastTwo]
    constructor
    · exact fun h => ⟨[], a, b, rfl, h⟩
    · rintro ⟨o, x, y, h, h'⟩
      obtain ⟨_, h2⟩ := List.append_inj' (s₁ := []) (t₁ := [a, b]) h rfl
      cases h2
      exact h'
  | a :: b :: c :: r => by
    rw [lastTwo, lastTwo_iff e m (b :: c :: r)]
    constructor
    · rintro ⟨o, x, y, h, h'⟩
      exact ⟨a :: o, x, y, by rw [h]; rfl, h'⟩
    · rintro ⟨o, x, y, h, h'⟩
      cases o with
      | nil => cases h
      | cons z o => simp only [List.cons_append, List.cons.injEq] at h; exact ⟨o, x, y, h.2, h'⟩

theorem delegatedAtts_iff (e : EventMessage) (m : Message) (b a : Attachment) : delegatedAtts e b a = .ok m ↔
    ∃ sl sigs, m = .event ⟨e, sigs, some sl⟩ ∧
      ((b = .sealSourceCouplets [sl] ∧ a = .attachedSignatures sigs) ∨ (b = .attachedSignatures sigs ∧ a = .sealSourceCouplets [sl])) := by
  unfold delegatedAtts
  constructor
  · intro h
    split at h <;> cases h
    · exact ⟨_, _, rfl, Or.inl ⟨rfl, rfl⟩⟩
    · exact ⟨_, _, rfl, Or.inr ⟨rfl, rfl⟩⟩
  · rintro ⟨sl, sigs, rfl, ⟨rfl, rfl⟩ | ⟨rfl, rfl⟩⟩ <;> rfl

theorem delegatedAtts_np (e : EventMessage) (b a : Attachment) : delegatedAtts e b a ≠ .panic := by
  unfold delegatedAtts
  split <;> simp

theorem lastTwo_np (e : EventMessage) : ∀ atts : List Attachment, lastTwo e atts ≠ .panic
  | [] => by simp [lastTwo]
  | [a] => by simp [lastTwo]
  | [a, b] => by rw [lastTwo]; exact delegatedAtts_np e b a
  | a :: b :: c :: r => by rw [lastTwo]; exact lastTwo_np e _

theorem keyEvent_understood (e : EventMessage) (atts : List Attachment) (m : Message) :
    signedKeyEvent e atts = .ok m ↔ Understood (.plain (.keyEvent e)) atts m := by
  by_cases hd : e.Delegated
  · have h1 : signedKeyEvent e atts = lastTwo e atts := by
      unfold signedKeyEvent
      rcases hd with ⟨x, hx⟩ | ⟨x, hx⟩ <;> rw [hx]
    rw [h1, lastTwo_iff]
    constructor
    · rintro ⟨o, a, b, rfl, h⟩
      obtain ⟨sl, sigs, rfl, ⟨rfl, rfl⟩ | ⟨rfl, rfl⟩⟩ := (delegatedAtts_iff e m b a).1 h
      · exact .sealLast e o sl sigs hd
      · exact .sealFirst e o sl sigs hd
    · intro h
      cases h with
      | own => contradiction
      | sealFirst _ o sl sigs => exact ⟨o, _, _, rfl, (delegatedAtts_iff e _ _ _).2 ⟨sl, sigs, rfl, Or.inr ⟨rfl, rfl⟩⟩⟩
      | sealLast _ o sl sigs => exact ⟨o, _, _, rfl, (delegatedAtts_iff e _ _ _).2 ⟨sl, sigs, rfl, Or.inl ⟨rfl, rfl⟩⟩⟩
  · have h1 : signedKeyEvent e atts = .ok m ↔ ∃ sigs o, atts = .attachedSignatures sigs :: o ∧ m = .event ⟨e, sigs, none⟩ := by
      unfold signedKeyEvent
      cases hx : e.event.content.data with
      | dip x => exact absurd (Or.inl ⟨x, hx⟩) hd
      | drt x => exact absurd (Or.inr ⟨x, hx⟩) hd
      | _ =>
        dsimp only
        cases atts with
        | nil => simp
        | cons a o => cases a <;> simp [eq_comm]
    rw [h1]
    constructor
    · rintro ⟨sigs, o, rfl, rfl⟩
      exact .own e sigs o hd
    · intro h
      cases h with
      | own _ sigs o => exact ⟨sigs, o, rfl, rfl⟩
      | sealFirst => contradiction
      | sealLast => contradiction

theorem keyEvent_np (e : EventMessage) (atts : List Attachment) : signedKeyEvent e atts ≠ .panic := by
  unfold signedKeyEvent
  split
  · exact lastTwo_np e atts
  · exact lastTwo_np e atts
  · split <;> simp

/-- C83: a text and the attachments after it make the message `m` exactly when `Understood` says so. -/
theorem C83_exact (d : SignedDataQ) (m : Message) : d.toMessage = .ok m ↔ Understood d.event d.attachments m := by
  obtain ⟨ev, atts⟩ := d
  cases ev with
  | plain p =>
    cases p with
    | keyEvent e => exact keyEvent_understood e atts m
    | receipt r =>
      refine Iff.trans ((receipt_counts r (Attachment.depths atts + 2) atts (by omega)).1 m) ⟨?_, fun h => ?_⟩
      · rintro (⟨cs, h, rfl⟩ | ⟨gs, sl, sigs, h, rfl⟩)
        · exact .couplets r atts cs h
        · exact .group r atts gs sl sigs h
      · cases h with
        | couplets _ _ cs h => exact Or.inl ⟨cs, h, rfl⟩
        | group _ _ gs sl sigs h => exact Or.inr ⟨gs, sl, sigs, h, rfl⟩
  | reply r =>
    refine Iff.trans ((reply_counts r (Attachment.depths atts + 2) atts (by omega)).1 m) ⟨?_, fun h => ?_⟩
    · rintro (⟨k, s, cs, h, rfl⟩ | ⟨gs, sl, sigs, h, rfl⟩)
      · exact .replyCouplet r atts k s cs h
      · exact .replyGroup r atts gs sl sigs h
    · cases h with
      | replyCouplet _ _ k s cs h => exact Or.inl ⟨k, s, cs, h, rfl⟩
      | replyGroup _ _ gs sl sigs h => exact Or.inr ⟨gs, sl, sigs, h, rfl⟩
  | query q =>
    refine Iff.trans ((query_counts q (Attachment.depths atts + 2) atts (by omega)).1 m) ⟨?_, fun h => ?_⟩
    · rintro ⟨i, sigs, gs, h, rfl⟩
      exact .query q atts i sigs gs h
    · cases h with
      | query _ _ i sigs gs h => exact ⟨i, sigs, gs, h, rfl⟩

/-- C83, crashes: the conversion crashes exactly on a reply whose attachment that counts is an empty group of couplets and on a query whose
attachment that counts is an empty group of signatures; never on a key event or receipt. -/
theorem C83_panics_iff (d : SignedDataQ) : d.toMessage = .panic ↔
    (∃ r, d.event = .reply r ∧ Counts d.attachments (.receiptCouplets [])) ∨
    (∃ q, d.event = .query q ∧ Counts d.attachments (.lastEstSignaturesGroups [])) := by
  obtain ⟨ev, atts⟩ := d
  cases ev with
  | plain p =>
    cases p with
    | keyEvent e => simpa [SignedDataQ.toMessage, SignedEventData.toMessage] using keyEvent_np e atts
    | receipt r => simpa [SignedDataQ.toMessage, SignedEventData.toMessage] using (receipt_counts r _ atts (by omega)).2
  | reply r => simpa [SignedDataQ.toMessage] using (reply_counts r (Attachment.depths atts + 2) atts (by omega)).2
  | query q => simpa [SignedDataQ.toMessage] using (query_counts q (Attachment.depths atts + 2) atts (by omega)).2

/-- C83: the text of the message is the text that was read, and every signature in it is one of an attachment (possibly inside frames):
nothing is made up. -/
theorem C83_nothing_made_up (e : EventMessage) (atts : List Attachment) (se : SignedEvent)
    (h : (SignedDataQ.mk (.plain (.keyEvent e)) atts).toMessage = .ok (.event se)) :
    se.msg = e ∧ .attachedSignatures se.sigs ∈ atts ∧ (e.Delegated ↔ ∃ sl, se.delegatorSeal = some sl ∧ .sealSourceCouplets [sl] ∈ atts) := by
  have h := (C83_exact _ _).1 h
  generalize hm : Message.event se = m at h
  generalize hv : EventTypeQ.plain (.keyEvent e) = v at h
  cases h <;> cases hv <;> cases hm
  · rename_i hd; exact ⟨rfl, by simp, ⟨fun h => absurd h hd, by rintro ⟨_, h, _⟩; cases h⟩⟩
  · rename_i sl _ hd; exact ⟨rfl, by simp, ⟨fun _ => ⟨sl, rfl, by simp⟩, fun _ => hd⟩⟩
  · rename_i sl _ hd; exact ⟨rfl, by simp, ⟨fun _ => ⟨sl, rfl, by simp⟩, fun _ => hd⟩⟩

namespace Ex

/-- an interaction event -/
def plainMsg : EventMessage :=
  ⟨SerInfo.new .json 200, ⟨⟨.blake3_256, List.replicate 32 1⟩, ⟨.basic (key 1), 3, .ixn ⟨⟨.blake3_256, List.replicate 32 2⟩, []⟩⟩⟩⟩

/-- a delegated rotation -/
def delegMsg : EventMessage :=
  ⟨SerInfo.new .json 300, ⟨⟨.blake3_256, List.replicate 32 1⟩, ⟨.basic (key 1), 3,
    .drt ⟨⟨.sha3_256, List.replicate 32 2⟩, ⟨.simple 1, [key 2], none⟩, 1, [], [], []⟩⟩⟩⟩

theorem plain_not_delegated : ¬ plainMsg.Delegated := by rintro (⟨_, h⟩ | ⟨_, h⟩) <;> cases h
theorem deleg_delegated : delegMsg.Delegated := Or.inr ⟨_, rfl⟩

/-- the seal of the delegating event -/
def delegSeal : SourceSeal := ⟨4, ⟨.blake3_256, List.replicate 32 9⟩⟩

end Ex

open Ex in
/-- a delegated rotation with its seal before or after its signatures and other attachments before makes the same message; two seals or
none are refused -/
example :
    (SignedDataQ.mk (.plain (.keyEvent delegMsg)) [.frame [], .sealSourceCouplets [delegSeal], .attachedSignatures [sig 2 0 []]]).toMessage =
      .ok (.event ⟨delegMsg, [sig 2 0 []], some delegSeal⟩) ∧
    (SignedDataQ.mk (.plain (.keyEvent delegMsg)) [.frame [], .attachedSignatures [sig 2 0 []], .sealSourceCouplets [delegSeal]]).toMessage =
      .ok (.event ⟨delegMsg, [sig 2 0 []], some delegSeal⟩) ∧
    ∀ m, (SignedDataQ.mk (.plain (.keyEvent delegMsg)) [.attachedSignatures [], .sealSourceCouplets [delegSeal, delegSeal]]).toMessage ≠ .ok m :=
  ⟨(C83_exact _ _).2 (.sealFirst _ [.frame []] _ _ deleg_delegated), (C83_exact _ _).2 (.sealLast _ [.frame []] _ _ deleg_delegated),
    fun m h => by cases h⟩

/-- a frame inside a frame -/
example (r : ReplyMsg) (k : BasicPrefix) (s : SelfSigningPrefix) :
    (SignedDataQ.mk (.reply r) [.attachedSignatures [], .frame [.frame [.receiptCouplets [(k, s)]]]]).toMessage = .ok (.reply ⟨r, .nonTransferable k s⟩) ∧
    (SignedDataQ.mk (.reply r) [.frame [.frame [.receiptCouplets []]]]).toMessage = .panic :=
  ⟨(C83_exact _ _).2 (.replyCouplet r _ k s [] (.inside [_] _ _ (.inside [] _ _ (.last [] _ (by simp))))),
    (C83_panics_iff _).2 (Or.inl ⟨r, rfl, .inside [] _ _ (.inside [] _ _ (.last [] _ (by simp)))⟩)⟩

/-- The expected statement that fails: the message carries all the signatures that came with the text. -/
def AllSignaturesKept : Prop := ∀ (d : SignedDataQ) (m : Message), d.toMessage = .ok m →
  ∀ sigs ∈ (match m with | .rctT r => [r.sigs] | .event e => [e.sigs] | _ => []),
    (∀ l, Attachment.attachedSignatures l ∈ d.attachments → l = sigs) ∧
    ∀ gs, Attachment.sealSignaturesGroups gs ∈ d.attachments → ∀ g ∈ gs, g.2 = sigs

/-- C83, refuted: of a receipt with the groups of several validators all but the last are dropped without an error, for every receipt and
every choice of validators, and so is every group of signatures of a key event but the first. -/
theorem C83_fails_dropped (r : ReceiptMsg) (gs : List (EventSeal × List AttachedSignaturePrefix)) (g : EventSeal × List AttachedSignaturePrefix)
    (e : EventMessage) (he : ¬ e.Delegated) (l : List AttachedSignaturePrefix) (others : List Attachment) :
    (SignedDataQ.mk (.plain (.receipt r)) [.sealSignaturesGroups (gs ++ [g])]).toMessage = .ok (.rctT ⟨r, g.1, g.2⟩) ∧
    (SignedDataQ.mk (.plain (.keyEvent e)) (.attachedSignatures l :: others)).toMessage = .ok (.event ⟨e, l, none⟩) :=
  ⟨(C83_exact _ _).2 (.group r _ gs g.1 g.2 (.last [] _ (by simp))), (C83_exact _ _).2 (.own e l others he)⟩

/-- C83, refuted by two signatures in two groups -/
theorem C83_fails : ¬ AllSignaturesKept := fun h => by
  have := (h ⟨.plain (.keyEvent Ex.plainMsg), [.attachedSignatures [], .attachedSignatures [Ex.sig 1 0 []]]⟩ _
    ((C83_exact _ _).2 (.own _ [] _ Ex.plain_not_delegated)) [] (by simp)).1 [Ex.sig 1 0 []] (by simp)
  cases this

/-- C83, refuted: key events whose attachments come in a frame (`-V`) are never understood, although receipts, replies and queries are. -/
theorem C83_fails_framed (e : EventMessage) (inner : List Attachment) (r : ReceiptMsg) (cs : List (BasicPrefix × SelfSigningPrefix)) :
    (∀ m, (SignedDataQ.mk (.plain (.keyEvent e)) [.frame inner]).toMessage ≠ .ok m) ∧
    (SignedDataQ.mk (.plain (.receipt r)) [.frame [.receiptCouplets cs]]).toMessage = .ok (.rctNt ⟨r, cs⟩) := by
  refine ⟨fun m h => ?_, (C83_exact _ _).2 (.couplets r _ cs (.inside [] _ _ (.last [] _ (by simp))))⟩
  have h := (C83_exact _ _).1 h
  generalize hv : EventTypeQ.plain (.keyEvent e) = v at h
  generalize ha : SignedDataQ.attachments ⟨v, [.frame inner]⟩ = a at h
  cases h with
  | own => cases ha
  | sealFirst _ o => have := congrArg List.length ha; simp at this
  | sealLast _ o => have := congrArg List.length ha; simp at this
  | _ => cases hv

end Keriox
