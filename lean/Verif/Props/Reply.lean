import Verif.ReplyFacts
import Verif.NumFacts
/-!
# C46–C50, C65, C66: signed replies with key state notices
-/
namespace Keriox

/-! ## C46 -/

/-- the replies accepted about an identifier, as stored -/
def Db.replies (db : Db) (id : IdentifierPrefix) : List SignedReply := (db.vec .knas id.toStr).getD []

/-- `new` is not older than `old`: with transferable signatures the (establishment sequence number, time) pairs are in lexicographic
order, with non-transferable ones the times are; after a non-transferable signature only non-transferable ones follow.  (A
transferable signature followed by a non-transferable one is not constrained here, see `C46_fails_mixed`.) -/
def NotOlder (old new : SignedReply) : Prop :=
  match old.signature, new.signature with
  | .transferable s _, .transferable s' _ =>
    s.sn < s'.sn ∨ (s.sn = s'.sn ∧ old.reply.timestamp.micros ≤ new.reply.timestamp.micros)
  | .nonTransferable _ _, .nonTransferable _ _ => old.reply.timestamp.micros ≤ new.reply.timestamp.micros
  | .nonTransferable _ _, .transferable _ _ => False
  | .transferable _ _, .nonTransferable _ _ => True

theorem NotOlder.refl (r : SignedReply) : NotOlder r r := by
  unfold NotOlder
  cases r.signature with
  | transferable s _ => exact .inr ⟨rfl, Int.le_refl _⟩
  | nonTransferable _ _ => exact Int.le_refl _

theorem NotOlder.trans {a b c : SignedReply} (h1 : NotOlder a b) (h2 : NotOlder b c) : NotOlder a c := by
  unfold NotOlder at *
  cases ha : a.signature <;> cases hb : b.signature <;> cases hc : c.signature <;>
    simp only [ha, hb, hc] at h1 h2 ⊢
  · omega
  · omega

/-- only the signature and the time matter -/
theorem NotOlder.congr {a b b' : SignedReply} (h : NotOlder a b) (h1 : b'.signature = b.signature) (h2 : b'.reply.timestamp = b.reply.timestamp) :
    NotOlder a b' := by
  unfold NotOlder at *
  rw [h1, h2]; exact h

theorem NotOlder.left {a a' b : SignedReply} (h : NotOlder a' b) (h1 : a'.signature = a.signature) (h2 : a'.reply.timestamp = a.reply.timestamp) :
    NotOlder a b := by
  unfold NotOlder at *
  rw [← h1, ← h2]; exact h

theorem badaCompare_notOlder {new old : SignedReply} (h : badaCompare new old = .ok ()) : NotOlder old new := by
  unfold badaCompare at h
  unfold NotOlder
  cases hn : new.signature with
  | transferable s g =>
    cases ho : old.signature with
    | transferable s' g' =>
      simp only [hn, ho] at h ⊢
      by_cases h1 : s'.sn < s.sn
      · exact .inl h1
      · rw [if_neg h1] at h
        by_cases h2 : s'.sn = s.sn
        · rw [if_pos h2] at h
          unfold checkDts at h
          by_cases h3 : old.reply.timestamp.micros ≤ new.reply.timestamp.micros
          · exact .inr ⟨h2, h3⟩
          · rw [if_neg h3] at h; cases h
        · rw [if_neg h2] at h; cases h
    | nonTransferable k g' => simp only [hn, ho] at h; cases h
  | nonTransferable k g =>
    cases ho : old.signature with
    | transferable s' g' => trivial
    | nonTransferable k' g' =>
      simp only [hn] at h
      unfold checkDts at h
      by_cases h3 : old.reply.timestamp.micros ≤ new.reply.timestamp.micros
      · exact h3
      · rw [if_neg h3] at h; cases h

theorem nodup_map_inj {α β : Type} {f : α → β} {l : List α} (h : (l.map f).Nodup) {a b : α} (ha : a ∈ l) (hb : b ∈ l) (he : f a = f b) : a = b := by
  induction l with
  | nil => simp at ha
  | cons x l ih =>
    rw [List.map_cons, List.nodup_cons] at h
    rcases List.mem_cons.1 ha with rfl | ha'
    · rcases List.mem_cons.1 hb with rfl | hb'
      · rfl
      · exact absurd (he ▸ List.mem_map_of_mem hb') h.1
    · rcases List.mem_cons.1 hb with rfl | hb'
      · exact absurd (he ▸ List.mem_map_of_mem ha') h.1
      · exact ih h.2 ha' hb'

/-- what is accepted stays represented on its route by something not older -/
theorem KReach.notOlder {env : Env} {K} {a b : MapDb} (h : KReach env K a b) (hI : ∀ x, AccOk x (a.acc x)) (x : Bytes) (old : SignedReply) (ho : old ∈ a.acc x) :
    ∃ new ∈ b.acc x, new.reply.route = old.reply.route ∧ NotOlder old new := by
  induction h with
  | refl h => rw [acc_congr h]; exact ⟨old, ho, rfl, .refl _⟩
  | @step b c r aid bytes o h hk ok hc ih =>
    obtain ⟨n, hn, hr, hno⟩ := ih
    rw [acc_congr hc, acc_set]
    split
    · rename_i hx
      subst hx
      have hd := iterValues_decAll ok.stored
      obtain ⟨n', hn', hdec⟩ := decAll_mem_of hd n hn
      have hs := SignedReply.dec_same hdec
      by_cases hrt : n'.reply.route = r.reply.route
      · refine ⟨r, by simp [acceptInto], by rw [← hrt, hs.1, hr], ?_⟩
        cases hf : onRoute (o.getD []) (.replyKsn aid) with
        | none =>
          have := List.find?_eq_none.1 hf n' hn'
          simp [hrt, ok.route] at this
        | some old' =>
          have hm := List.mem_of_find?_eq_some hf
          have hp : old'.reply.route = .replyKsn aid := by simpa using List.find?_some hf
          have hnd : ((o.getD []).map (·.reply.route)).Nodup := by rw [decAll_routes hd]; exact (h.acc hI _).distinct
          obtain rfl := nodup_map_inj hnd hn' hm (by rw [hp, hrt, ok.route])
          exact hno.trans ((badaCompare_notOlder (ok.newer _ hf).1).left hs.2.1 hs.2.2.1)
      · refine ⟨n', ?_, by rw [hs.1, hr], hno.congr hs.2.1 hs.2.2.1⟩
        unfold acceptInto
        exact List.mem_append_left _ (List.mem_filter.2 ⟨hn', by simp [hrt]⟩)
    · exact ⟨n, hn, hr, hno⟩

theorem after_replies (env : Env) (as : List Action) (id : IdentifierPrefix) : (after env as).replies id = (after env as).abs.acc id.toStr := rfl

theorem replies_notOlder (env : Env) (as bs : List Action) (id : IdentifierPrefix) (old : SignedReply) (ho : old ∈ (after env as).replies id) :
    ∃ new ∈ (after env (as ++ bs)).replies id, new.reply.route = old.reply.route ∧ NotOlder old new := by
  refine snoc_induction (P := fun bs => ∃ new ∈ (after env (as ++ bs)).replies id, new.reply.route = old.reply.route ∧ NotOlder old new) bs ?_ ?_
  · rw [List.append_nil]; exact ⟨old, ho, rfl, .refl _⟩
  · intro l a ⟨n, hn, hr, hno⟩
    have hk := action_knas env a (after env (as ++ l)).abs
    obtain ⟨n', hn', hr', hno'⟩ := hk.notOlder (after_acc env _) id.toStr n hn
    refine ⟨n', ?_, hr'.trans hr, hno.trans hno'⟩
    rw [← (action_sim sled_sim env a _ (after_inv env _)).2] at hn'
    rw [← List.append_assoc, after, runHistory_append]
    exact hn'

/-- C46: for one subject and route, a reply accepted later is never older than one accepted before: the pairs (sequence number of the
signing keys' event, time) of transferable signers and the times of non-transferable signers never decrease, over any history. -/
theorem C46_monotone (env : Env) (as bs : List Action) (id : IdentifierPrefix) (old new : SignedReply)
    (ho : old ∈ (after env as).replies id) (hn : new ∈ (after env (as ++ bs)).replies id) (hr : new.reply.route = old.reply.route) :
    NotOlder old new := by
  obtain ⟨n, h1, h2, h3⟩ := replies_notOlder env as bs id old ho
  rw [nodup_map_inj (after_acc env (as ++ bs) id.toStr).distinct hn h1 (hr.trans h2.symm)]
  exact h3

/-- C46, one call: an accepted reply is not older than the stored reply of its route, and its notice is not dated before that reply. -/
theorem C46_step (env : Env) (as : List Action) (r old : SignedReply) (s : Option IdState)
    (h : (process sled env (.reply r) (after env as)).1 = .ok s) (ho : old ∈ (after env as).replies r.pre)
    (hr : old.reply.route = r.reply.route) :
    NotOlder old r ∧ old.reply.timestamp.micros ≤ r.reply.ksn.timestamp.micros := by
  rw [show (process sled env (.reply r) (after env as)).1 = _ from (processSignedReply_sim sled_sim env r _ (after_inv env as)).1] at h
  obtain ⟨aid, bytes, o, ok, _⟩ := signedReply_ok h
  have hd := iterValues_decAll ok.stored
  obtain ⟨n, hn, hdec⟩ := decAll_mem_of hd old ho
  have hs := SignedReply.dec_same hdec
  have hnr : n.reply.route = .replyKsn aid := by rw [hs.1, hr, ok.route]
  have hnd : ((o.getD []).map (·.reply.route)).Nodup := by rw [decAll_routes hd]; exact (after_acc env as _).distinct
  cases hf : onRoute (o.getD []) (.replyKsn aid) with
  | none =>
    have := List.find?_eq_none.1 hf n hn
    simp [hnr] at this
  | some m =>
    have hm := List.mem_of_find?_eq_some hf
    have hp : m.reply.route = .replyKsn aid := by simpa using List.find?_some hf
    obtain rfl := nodup_map_inj hnd hn hm (by rw [hp, hnr])
    have hk := ok.newer _ hf
    exact ⟨(badaCompare_notOlder hk.1).left hs.2.1 hs.2.2.1, by rw [← hs.2.2.1]; exact hk.2⟩

/-! ## C48 -/

/-- C48: at most one accepted reply is kept per subject and route, each is about its subject and its route names its signer. -/
theorem C48_one_per_route (env : Env) (as : List Action) (id : IdentifierPrefix) :
    (((after env as).replies id).map (·.reply.route)).Nodup ∧
    ∀ r ∈ (after env as).replies id, r.pre.toStr = id.toStr ∧ r.reply.route = .replyKsn r.signature.signer :=
  ⟨(after_acc env as id.toStr).distinct, fun r hr => ⟨(after_acc env as id.toStr).about r hr, (after_acc env as id.toStr).route r hr⟩⟩

theorem replies_after_submit (env : Env) (as : List Action) (r : SignedReply) (id : IdentifierPrefix) :
    (after env (as ++ [.submit (.reply r)])).replies id = (processSignedReply mapOps env r (after env as).abs).2.acc id.toStr := by
  rw [after_snoc, ← (processSignedReply_sim sled_sim env r _ (after_inv env as)).2.1]
  rfl

/-- C48: accepting a reply replaces the one of its route and keeps the others (as read back from the store); the replies about other
identifiers are untouched. -/
theorem C48_accepted (env : Env) (as : List Action) (r : SignedReply) (s : Option IdState)
    (h : (process sled env (.reply r) (after env as)).1 = .ok s) :
    (∃ l, Tbl.knas.decAll ((after env as).replies r.pre) = some l ∧
      (after env (as ++ [.submit (.reply r)])).replies r.pre = l.filter (fun q => q.reply.route ≠ r.reply.route) ++ [r]) ∧
    ∀ id : IdentifierPrefix, id.toStr ≠ r.pre.toStr → (after env (as ++ [.submit (.reply r)])).replies id = (after env as).replies id := by
  rw [show (process sled env (.reply r) (after env as)).1 = _ from (processSignedReply_sim sled_sim env r _ (after_inv env as)).1] at h
  obtain ⟨aid, bytes, o, ok, _, a1, ha1, hset⟩ := signedReply_ok h
  refine ⟨⟨o.getD [], iterValues_decAll ok.stored, ?_⟩, fun id hid => ?_⟩
  · rw [replies_after_submit, hset, acc_set, if_pos rfl]; rfl
  · rw [replies_after_submit, hset, acc_set, if_neg hid]
    rw [after_replies]
    exact acc_congr (by rw [ha1]) _

/-- C48: a reply that is refused changes no accepted reply. -/
theorem C48_refused (env : Env) (as : List Action) (r : SignedReply) (h : ∀ s, (process sled env (.reply r) (after env as)).1 ≠ .ok s)
    (id : IdentifierPrefix) : (after env (as ++ [.submit (.reply r)])).replies id = (after env as).replies id := by
  rw [show (process sled env (.reply r) (after env as)).1 = _ from (processSignedReply_sim sled_sim env r _ (after_inv env as)).1] at h
  rw [replies_after_submit]
  exact acc_congr (signedReply_refused h) _

/-- C48: no other message changes an accepted reply. -/
theorem C48_others (env : Env) (as : List Action) (m : Message) (hm : ∀ r, m ≠ .reply r) (id : IdentifierPrefix) :
    (after env (as ++ [.submit m])).replies id = (after env as).replies id := by
  have h2 := (action_sim sled_sim env (.submit m) _ (after_inv env as)).2
  have h3 : (after env (as ++ [.submit m])).replies id = ((Action.submit m).run mapOps env (after env as).abs).acc id.toStr := by
    rw [← h2, after, runHistory_append]; rfl
  rw [h3, after_replies]
  refine acc_congr ?_ _
  cases m with
  | event e => exact WritesTbl.of (processEvent_kels env e) _ .knas (by simp)
  | rctNt r => exact WritesTbl.of (witnessReceipt_writes env r) _ .knas (by simp)
  | rctT r => exact WritesTbl.of (validatorReceipt_writes env r) _ .knas (by simp)
  | query q => rfl
  | reply r => exact absurd rfl (hm r)

/-! ## C47 -/

/-- the signature of `bytes` is valid given the logs `kel`: made by a key, or by the keys established by the logged event that its seal names -/
def SignatureOk (env : Env) (kel : IdentifierPrefix → List SignedEvent) (bytes : Bytes) : Signature → Prop
  | .nonTransferable k s => SigValid env k bytes s
  | .transferable sl sigs => ∃ (v : SignedEvent) (kc : KeyConfig), (kel sl.prefix)[sl.sn]? = some v ∧ NamesEvent env v.msg sl.eventDigest ∧
      v.data.keyConfig? = some kc ∧ ValidSigs env kc bytes sigs

/-- the reply is authentic and current with respect to the logs of the database: its route names its signer, its digest is that of its
content, its signature is valid for the signer (a key, or the keys established by the logged event that the signature's seal
names), and the notice names the last logged event of its subject by sequence number and digest -/
structure Db.Authentic (env : Env) (db : Db) (r : SignedReply) : Prop where
  route : r.reply.route = .replyKsn r.signature.signer
  digest : ∃ data, r.reply.dummyBytes env r.reply.info.kind r.reply.digest.derivation = .ok data ∧
    env.digest r.reply.digest.derivation data = r.reply.digest.digest
  signature : ∃ bytes, r.reply.serialize env = .ok bytes ∧ SignatureOk env db.kel bytes r.signature
  current : ∃ e, (db.kel r.pre).getLast? = some e ∧ e.sn = r.reply.ksn.state.sn ∧ NamesEvent env e.msg r.reply.ksn.state.lastDigest

theorem replyDigest_ok {env : Env} {r : ReplyMsg} (h : r.checkDigest env = .ok ()) :
    ∃ data, r.dummyBytes env r.info.kind r.digest.derivation = .ok data ∧ env.digest r.digest.derivation data = r.digest.digest := by
  unfold ReplyMsg.checkDigest at h
  obtain ⟨data, h1, h2⟩ := Res.bind_eq_ok.1 h
  refine ⟨data, h1, ?_⟩
  by_cases hb : r.digest.verifyBinding env data = true
  · exact of_decide_eq_true hb
  · rw [if_neg hb] at h2; cases h2

theorem verifySignature_ok {env : Env} {a : MapDb} (hg : a.Good env) {bytes : Bytes} {s : Signature} (hs : s.signer.toStr ≠ [])
    (h : (verifySignature mapOps env bytes s a).1 = .ok ()) : SignatureOk env (fun id => a.log id.toStr) bytes s := by
  unfold verifySignature at h
  cases s with
  | nonTransferable k g =>
    dsimp only at h ⊢
    obtain ⟨b, a1, h1, h2⟩ := bind_ok_inv h
    have hb : k.verify env bytes g = .ok b := congrArg Prod.fst h1
    cases b with
    | false => cases h2
    | true => exact (verify_iff_sigValid env k bytes g).1 hb
  | transferable sl sigs =>
    dsimp only at h ⊢
    obtain ⟨o, a1, h1, h2⟩ := bind_ok_inv h
    obtain ⟨v, kc, g1, g2, g3, rfl⟩ := getKeysAtEvent_ok h1
    dsimp only at h2
    obtain ⟨b, a2, h3, h4⟩ := bind_ok_inv h2
    have hb : kc.verify env bytes sigs = .ok b := congrArg Prod.fst h3
    cases b with
    | false => cases h4
    | true => exact ⟨v, kc, getEventAtSn_log env a hg _ hs _ _ g1, checkDigest_names g2, g3, validSigs_of_verify hb⟩

theorem replyOk_authentic {env : Env} {db : Db} {a : MapDb} {r : SignedReply} {aid : IdentifierPrefix} {bytes : Bytes} {o}
    (ok : ReplyOk env a r aid bytes o) (hg : db.abs.Good env) (hk : a.tables .kels = db.abs.tables .kels)
    (hp : r.pre.toStr ≠ []) (hs : r.signature.signer.toStr ≠ []) : db.Authentic env r := by
  have hlog : ∀ y, a.log y = db.abs.log y := fun y => by unfold MapDb.log; rw [hk]
  have hga : a.Good env := fun x hx => by rw [hlog]; exact hg x hx
  have hkel : ∀ id : IdentifierPrefix, db.kel id = a.log id.toStr := fun id => (hlog _).symm
  refine ⟨by rw [ok.route, ok.signer], replyDigest_ok ok.dig, ⟨bytes, ok.ser, ?_⟩, ?_⟩
  · rw [show db.kel = fun id => a.log id.toStr from funext hkel]
    exact verifySignature_ok hga hs ok.sig
  · obtain ⟨e, he, hd⟩ := ok.event
    obtain ⟨st, hst, hsn⟩ := ok.latest
    have he' := getEventAtSn_log env a hga _ hp _ _ he
    obtain ⟨s, hl⟩ := hga _ hp
    have hne : a.log r.pre.toStr ≠ [] := by intro h0; rw [h0] at he'; simp at he'
    have hss : st = s := by
      rw [computeState_run] at hst
      unfold MapDb.log at hl hne
      cases hv : a.tables .kels r.pre.toStr with
      | none => rw [hv] at hne; exact absurd rfl hne
      | some l =>
        rw [hv] at hl hst
        dsimp only [Option.getD_some] at hl hst
        by_cases hrt : l.all SignedEvent.rt = true
        · rw [if_pos hrt, hl.foldState hp] at hst
          exact (Option.some.inj (Res.ok.inj hst)).symm
        · rw [if_neg hrt] at hst; cases hst
    have hf := (hl.facts hp).2.1 hne
    refine ⟨e, ?_, hl.sn_eq hp he', checkDigest_names hd⟩
    rw [hkel, List.getLast?_eq_getElem?, ← he']
    congr 1
    rw [← hsn, hss]
    have := hf.2.2.1
    omega

/-- C47: `process` accepts a signed reply only if it is authentic and current with respect to the logs (for identifiers with a text). -/
theorem C47_accepted_authentic (env : Env) (as : List Action) (r : SignedReply) (s : Option IdState)
    (hp : r.pre.toStr ≠ []) (hs : r.signature.signer.toStr ≠ [])
    (h : (process sled env (.reply r) (after env as)).1 = .ok s) : (after env as).Authentic env r := by
  rw [show (process sled env (.reply r) (after env as)).1 = _ from (processSignedReply_sim sled_sim env r _ (after_inv env as)).1] at h
  obtain ⟨aid, bytes, o, ok, _⟩ := signedReply_ok h
  exact replyOk_authentic ok (after_good env as) rfl hp hs

/-- reading back from the store, any number of times -/
inductive Reread : SignedReply → SignedReply → Prop
  | refl (r : SignedReply) : Reread r r
  | step {r r' r'' : SignedReply} (h : Reread r r') (hd : r'.dec = some r'') : Reread r r''

theorem Reread.signer {r r' : SignedReply} (h : Reread r r') : r'.pre = r.pre ∧ r'.signature = r.signature := by
  induction h with
  | refl => exact ⟨rfl, rfl⟩
  | step _ hd ih => exact ⟨(SignedReply.dec_same hd).2.2.2.2.2.1.trans ih.1, (SignedReply.dec_same hd).2.1.trans ih.2⟩

theorem KReach.origin {env : Env} {K} {a b : MapDb} (h : KReach env K a b) (x : Bytes) (r : SignedReply) (hr : r ∈ b.acc x) :
    (∃ r0 ∈ a.acc x, Reread r0 r) ∨ ∃ r0 c aid bytes o, Reread r0 r ∧ c.tables .kels = K ∧ ReplyOk env c r0 aid bytes o := by
  induction h generalizing r with
  | refl h => rw [acc_congr h] at hr; exact .inl ⟨r, hr, .refl r⟩
  | @step b c q aid bytes o h hk ok hc ih =>
    rw [acc_congr hc, acc_set] at hr
    split at hr
    · rename_i hx
      subst hx
      unfold acceptInto at hr
      rcases List.mem_append.1 hr with hr | hr
      · obtain ⟨r1, hr1, hd⟩ := decAll_mem (iterValues_decAll ok.stored) r (List.mem_filter.1 hr).1
        rcases ih r1 hr1 with ⟨r0, h0, hrr⟩ | ⟨r0, c, aid, bytes, o, hrr, h1, h2⟩
        · exact .inl ⟨r0, h0, hrr.step hd⟩
        · exact .inr ⟨r0, c, aid, bytes, o, hrr.step hd, h1, h2⟩
      · rw [List.mem_singleton.1 hr]
        exact .inr ⟨q, b, aid, bytes, o, .refl _, hk, ok⟩
    · exact ih r hr

/-- C47 over histories: every accepted reply in the store (whichever way it got there, directly or from the escrow) is what storage
made of a reply that was authentic and current at some point of the history. -/
theorem C47_stored_authentic (env : Env) (as : List Action) (id : IdentifierPrefix) (r : SignedReply) (hr : r ∈ (after env as).replies id)
    (hid : id.toStr ≠ []) (hs : r.signature.signer.toStr ≠ []) :
    ∃ as' bs r0, as = as' ++ bs ∧ Reread r0 r ∧ (after env as').Authentic env r0 := by
  revert r
  refine snoc_induction (P := fun as => ∀ r, r ∈ (after env as).replies id → r.signature.signer.toStr ≠ [] →
    ∃ as' bs r0, as = as' ++ bs ∧ Reread r0 r ∧ (after env as').Authentic env r0) as ?_ ?_
  · intro r hr; simp [after, runHistory, Db.replies, Db.vec, Db.empty, keyByValue] at hr
  · intro l a ih r hr hs
    have h2 := (action_sim sled_sim env a _ (after_inv env l)).2
    have h3 : (after env (l ++ [a])).replies id = (a.run mapOps env (after env l).abs).acc id.toStr := by
      rw [← h2, after, runHistory_append]; rfl
    have hab := (after_acc env (l ++ [a]) id.toStr).about r hr
    rw [h3] at hr
    rcases (action_knas env a _).origin _ _ hr with ⟨r1, h1, hrr⟩ | ⟨r0, c, aid, bytes, o, hrr, hk, ok⟩
    · obtain ⟨as', bs, r0, e1, e2, e3⟩ := ih r1 h1 (by rw [← hrr.signer.2]; exact hs)
      refine ⟨as', bs ++ [a], r0, by rw [e1, List.append_assoc], ?_, e3⟩
      clear ih hr h1 e3
      induction hrr with
      | refl => exact e2
      | step _ hd ih => exact (ih (by rw [← (SignedReply.dec_same hd).2.1]; exact hs) (by rw [← (SignedReply.dec_same hd).2.2.2.2.2.1]; exact hab)).step hd
    · exact ⟨l, [a], r0, rfl, hrr, replyOk_authentic ok (after_good env l) hk (by rw [← hrr.signer.1, hab]; exact hid)
        (by rw [← hrr.signer.2]; exact hs)⟩

/-! ## Concrete replies -/

namespace Ex

/-- the bytes or nothing -/
def bytesOr (r : Res Bytes) : Bytes := match r with | .ok b => b | _ => []

/-- a reply at time `t` with a notice, of time `kt`, of state `st`, route naming `signer`; its digest is computed -/
def mkReplyAt (st : IdState) (t kt : Int) (signer : IdentifierPrefix) : ReplyMsg :=
  let ksn : Ksn := ⟨SerInfo.new .json 0, st, 0, ⟨kt, 0⟩, []⟩
  let r0 : ReplyMsg := ⟨SerInfo.new .json 0, ⟨.blake3_256, []⟩, ⟨t, 0⟩, .replyKsn signer, ksn⟩
  { r0 with digest := ⟨.blake3_256, env.digest .blake3_256 (bytesOr (r0.dummyBytes env .json .blake3_256))⟩ }

/-- reply and notice of the same time -/
def mkReply (st : IdState) (t : Int) (signer : IdentifierPrefix) : ReplyMsg := mkReplyAt st t t signer

/-- signed by key `k` on its own -/
def signNt (r : ReplyMsg) (k : UInt8) : SignedReply :=
  ⟨r, .nonTransferable (key k) ⟨.ed25519Sha512, List.replicate 32 k ++ dig (bytesOr (r.serialize env))⟩⟩

/-- signed by the keys `ks` established by the event of `sl` -/
def signT (r : ReplyMsg) (sl : EventSeal) (ks : List UInt8) : SignedReply :=
  ⟨r, .transferable sl ((List.range ks.length).map fun i => sig (ks.getD i 0) i (bytesOr (r.serialize env)))⟩

/-- the state after `hist` -/
def ixnState : IdState := { rotState with sn := 2, lastDigest := ixn.dig }

/-- a notice about `id` by the key 40 -/
def ntReply (t : Int) : SignedReply := signNt (mkReply ixnState t (.basic (key 40))) 40
/-- a notice of `id` about itself, signed with the keys of its rotation -/
def selfReply (t : Int) : SignedReply := signT (mkReply ixnState t id) ⟨id, 1, rot.dig⟩ [4, 5]

/-- a reply that claims to be signed by an identifier without a log; the signatures do not matter -/
def strangerReply : SignedReply := ⟨mkReply ixnState 5 (.basic (key 50)), .transferable ⟨.basic (key 50), 0, rot.dig⟩ [sig 50 0 []]⟩

/-- two accepted replies by the key, two by the identifier itself -/
def rpyHist : List Action := hist ++ [.submit (.reply (ntReply 5)), .submit (.reply (selfReply 6)), .submit (.reply (ntReply 8)),
  .submit (.reply (selfReply 9))]

end Ex

section
open Ex
set_option maxRecDepth 20000

/- the hypotheses of C46, C47 and C48 are met: the four replies are accepted, two routes remain, each with its latest reply -/
example : (process sled env (.reply (ntReply 5)) (after env hist)).1 = .ok (some ixnState) ∧
    (process sled env (.reply (selfReply 6)) (after env (hist ++ [.submit (.reply (ntReply 5))]))).1 = .ok (some ixnState) := by
  decide +kernel
example : (after env rpyHist).replies Ex.id = [ntReply 8, selfReply 9] ∧
    (after env (rpyHist.take 5)).replies Ex.id = [ntReply 5, selfReply 6] := by decide +kernel
/- an older reply, a reply with a wrong signature and one with an outdated notice are refused -/
example : (process sled env (.reply (ntReply 7)) (after env rpyHist)).1 = .err (.query .staleRpy) ∧
    (process sled env (.reply { ntReply 9 with signature := (ntReply 10).signature }) (after env rpyHist)).1 = .err .signatureVerification ∧
    (process sled env (.reply (signNt (mkReply { rotState with sn := 1, lastDigest := rot.dig } 12 (.basic (key 40))) 40)) (after env rpyHist)).1
      = .err (.query .staleKsn) := by decide +kernel

/-- an inception with basic identifier key 41 committing to key 42, and its rotation -/
def Ex.icpB : SignedEvent := signAll (msgOr ((Event.mk (.basic (key 41)) 0 (.icp ⟨kc [41] [42] (.simple 1), 0, [], [], []⟩)).toMessage env .json .blake3_256)) [41]
def Ex.rotB : SignedEvent := signAll (msgOr ((Event.mk (.basic (key 41)) 1 (.rot ⟨icpB.dig, kc [42] [43] (.simple 1), 0, [], [], []⟩)).toMessage env .json .blake3_256)) [42]
/-- a reply by that identifier with its first keys, then with its second keys, then by the bare key -/
def Ex.mixedHist : List Action := hist ++ [.submit (.event icpB), .submit (.event rotB),
  .submit (.reply (signT (mkReply ixnState 9 (.basic (key 41))) ⟨.basic (key 41), 0, icpB.dig⟩ [41])),
  .submit (.reply (signT (mkReplyAt ixnState 5 9 (.basic (key 41))) ⟨.basic (key 41), 1, rotB.dig⟩ [42])),
  .submit (.reply (signNt (mkReplyAt ixnState 6 9 (.basic (key 41))) 41))]

/-- C46, the limit: a signer with a basic identifier that switches from transferable to non-transferable signatures goes back in time,
and with a key it has rotated away (the bare key keeps its say for ever). -/
theorem C46_fails_mixed :
    (after env (mixedHist.take 6)).replies Ex.id = [signT (mkReply ixnState 9 (.basic (key 41))) ⟨.basic (key 41), 0, icpB.dig⟩ [41]] ∧
    (after env mixedHist).replies Ex.id = [signNt (mkReplyAt ixnState 6 9 (.basic (key 41))) 41] := by decide +kernel

end

/-! ## C49 -/

/-- the database of replies waiting for events -/
def Db.waiting (db : Db) (id : IdentifierPrefix) : Option (List SignedReply) := db.vec .knes id.toStr

theorem signedReply_knes (env : Env) (r : SignedReply) (a : MapDb) :
    (processSignedReply mapOps env r a).2.tables .knes = a.tables .knes ∨
    ((processSignedReply mapOps env r a).1 = .err (.query .outOfOrder) ∧
      (processSignedReply mapOps env r a).2.tables .knes = (a.set .knes r.pre.toStr (some (Tbl.knes.pushed (a.tables .knes r.pre.toStr) r))).tables .knes) := by
  have step : ∀ {α : Type} (x : StM MapDb α) (f : α → StM MapDb (Option IdState)) (b : MapDb), b.tables .knes = a.tables .knes →
      ((x b).2.tables .knes = a.tables .knes ∨ ((x b).1 = .err (.query .outOfOrder) ∧
        (x b).2.tables .knes = (a.set .knes r.pre.toStr (some (Tbl.knes.pushed (a.tables .knes r.pre.toStr) r))).tables .knes)) →
      (∀ v c, c.tables .knes = a.tables .knes → (f v c).2.tables .knes = a.tables .knes ∨ ((f v c).1 = .err (.query .outOfOrder) ∧
        (f v c).2.tables .knes = (a.set .knes r.pre.toStr (some (Tbl.knes.pushed (a.tables .knes r.pre.toStr) r))).tables .knes)) →
      ((x >>= f) b).2.tables .knes = a.tables .knes ∨ (((x >>= f) b).1 = .err (.query .outOfOrder) ∧
        ((x >>= f) b).2.tables .knes = (a.set .knes r.pre.toStr (some (Tbl.knes.pushed (a.tables .knes r.pre.toStr) r))).tables .knes) := by
    intro α x f b _ h2 h3
    rw [StM.bind_run]
    rcases hx : x b with ⟨y, c⟩
    rw [hx] at h2
    cases y with
    | ok v =>
      rcases h2 with h2 | h2
      · exact h3 v c h2
      · cases h2.1
    | err e => exact h2.imp _root_.id fun h => ⟨by cases h.1; rfl, h.2⟩
    | panic => exact h2.imp _root_.id fun h => by cases h.1
  have pushed : ∀ b : MapDb, b.tables .knes = a.tables .knes → (escrowReply mapOps r b).2.tables .knes =
      (a.set .knes r.pre.toStr (some (Tbl.knes.pushed (a.tables .knes r.pre.toStr) r))).tables .knes := by
    intro b hb
    unfold escrowReply addEscrowed
    simp only [mapOps, hb]
    funext y
    by_cases hy : y = r.pre.toStr
    · subst hy; rw [MapDb.set_same, MapDb.set_same]
    · rw [MapDb.set_other_id _ _ _ hy, MapDb.set_other_id _ _ _ hy, MapDb.touch_tables, hb]
  have pushfail : ∀ {α : Type} (b : MapDb), b.tables .knes = a.tables .knes →
      ((do escrowReply mapOps r; StM.fail (.query .outOfOrder) : StM MapDb α) b).1 = .err (.query .outOfOrder) ∧
      ((do escrowReply mapOps r; StM.fail (.query .outOfOrder) : StM MapDb α) b).2.tables .knes =
      (a.set .knes r.pre.toStr (some (Tbl.knes.pushed (a.tables .knes r.pre.toStr) r))).tables .knes := by
    intro α b hb
    rw [StM.bind_run]
    exact ⟨rfl, pushed b hb⟩
  by_cases hrr : ∃ aid, r.reply.route = .replyKsn aid
  · obtain ⟨aid, hr⟩ := hrr
    rw [processSignedReply_route hr]
    by_cases hs : r.signature.signer ≠ aid
    · rw [if_pos hs]; exact .inl rfl
    · rw [if_neg hs]
      refine step _ _ _ rfl ?_ fun _ b hb => step _ _ _ hb (.inl hb) fun _ b hb =>
        step _ _ _ hb (.inl (by rw [ignoring_ro (badaLogic_ro _) _ b]; exact hb)) fun _ b hb => step _ _ _ hb ?_ fun _ b hb => .inl ?_
      · unfold replySignature
        cases hser : r.reply.serialize env with
        | err e => exact .inl rfl
        | panic => exact .inl rfl
        | ok bytes =>
          rw [StM.bind_run]
          simp only [StM.lift]
          rw [StM.bind_run]
          have ro := verifySignature_ro env bytes r.signature a
          rcases hv : verifySignature mapOps env bytes r.signature a with ⟨x, a1⟩
          rw [hv] at ro
          cases x with
          | panic => rw [StM.result_panic hv]; exact .inl (by rw [ro])
          | ok u => rw [StM.result_ok hv]; exact .inl (by show a1.tables .knes = _; rw [ro])
          | err e =>
            rw [StM.result_err hv]
            dsimp only
            split
            · exact .inr (pushfail a1 (by rw [ro]))
            · exact .inl (by show a1.tables .knes = _; rw [ro])
      · unfold replyNotice
        rw [StM.bind_run]
        have ro := checkKsn_ro env r.reply.ksn aid b
        rcases hv : checkKsn mapOps env r.reply.ksn aid b with ⟨x, a1⟩
        rw [hv] at ro
        have ha1 : a1.tables .knes = a.tables .knes := by rw [ro]; exact hb
        cases x with
        | panic => rw [StM.result_panic hv]; exact .inl ha1
        | ok u => rw [StM.result_ok hv]; exact .inl ha1
        | err e =>
          rw [StM.result_err hv]
          dsimp only
          unfold escrowIf
          by_cases he : e = .query .outOfOrder
          · subst he
            rw [if_pos rfl]
            exact .inr (pushfail a1 ha1)
          · rw [if_neg he]
            exact .inl ha1
      · have hw : Writes (fun t => t = .knas) r.pre.toStr (do updateAccepted mapOps r r.pre; pure (some r.reply.ksn.state) : StM MapDb (Option IdState)) := by
          unfold updateAccepted
          refine .bind (.bind (.ofRo (.read _ _)) fun o => ?_) fun _ => .ofRo (.pure _)
          split
          · exact .put .knas (by simp) _ _
          · exact .push .knas (by simp) _ _
        rw [← hb]
        funext y
        exact hw b .knes y (.inr (by simp))
  · rw [processSignedReply_wrong (fun aid ha => hrr ⟨aid, ha⟩)]; exact .inl rfl

/-- not "the event is missing", the error that puts replies into escrow -/
def NotMissing {α : Type} (r : Res α) : Prop := r ≠ .err (.query .outOfOrder)

theorem NotMissing.bind {α β : Type} {x : Res α} {f : α → Res β} (hx : NotMissing x) (hf : ∀ v, NotMissing (f v)) : NotMissing (x >>= f) := by
  cases x with
  | ok v => exact hf v
  | err e => intro h; exact hx (by cases h; rfl)
  | panic => intro h; cases h

theorem NotMissing.encode (env : Env) (f : Fmt) (v : SVal) : NotMissing (f.encode env v) := by
  unfold Fmt.encode Res.ofOption NotMissing
  cases f <;> dsimp only
  · simp
  · split <;> simp
  · split <;> simp

theorem NotMissing.svalWith (env : Env) (info : SerInfo) (dig : Bytes) (r : ReplyMsg) : NotMissing (r.svalWith env info dig) := by
  unfold ReplyMsg.svalWith Ksn.sval
  refine .bind (.bind ?_ fun _ => ?_) fun _ => ?_
  · unfold Res.unwrap NotMissing; split <;> simp
  · unfold NotMissing; simp
  · unfold NotMissing; simp

theorem NotMissing.reply (env : Env) (r : ReplyMsg) : NotMissing (r.serialize env) ∧ NotMissing (r.checkDigest env) := by
  constructor
  · exact .bind (.svalWith _ _ _ _) fun _ => .encode _ _ _
  · unfold ReplyMsg.checkDigest ReplyMsg.dummyBytes
    refine .bind (.bind (.svalWith _ _ _ _) fun _ => .bind (.encode _ _ _) fun _ => .bind (.svalWith _ _ _ _) fun _ => .encode _ _ _) fun _ => ?_
    unfold NotMissing; split <;> simp

theorem NotMissing.checkDigest (env : Env) (m : EventMessage) (d : SelfAddressingPrefix) : NotMissing (m.checkDigest env d) := by
  unfold EventMessage.checkDigest
  split
  · unfold NotMissing; simp
  · refine .bind ?_ fun _ => by unfold NotMissing; simp
    unfold EventMessage.toDerivationData
    split <;> first | exact .encode _ _ _ | (unfold dummyInceptionBytes dummyInceptionInfo; exact .bind (.bind (.encode _ _ _) fun _ => by unfold NotMissing; simp) fun _ => .encode _ _ _)

theorem NotMissing.key (env : Env) (k : BasicPrefix) (data : Bytes) (s : SelfSigningPrefix) : NotMissing (k.verify env data s) := by
  unfold BasicPrefix.verify NotMissing
  split <;> (try split) <;> simp

theorem NotMissing.keys (env : Env) (kc : KeyConfig) (data : Bytes) (sigs : List AttachedSignaturePrefix) : NotMissing (kc.verify env data sigs) := by
  unfold KeyConfig.verify
  refine .bind ?_ fun b => ?_
  · intro h
    have hsum : ∀ (c : List Frac) (st : Nat) (l : List AttachedSignaturePrefix) (acc : Frac) (e : Error), Threshold.clauseSum c st l acc ≠ .err e := by
      intro c st l
      induction l with
      | nil => intro acc e h; cases h
      | cons s l ih =>
        intro acc e h
        unfold Threshold.clauseSum at h
        split at h
        · cases h
        · exact ih _ _ h
    have hcl : ∀ (c : List Frac) (st : Nat) (l : List AttachedSignaturePrefix) (e : Error), Threshold.clauseEnough c st l ≠ .err e := by
      intro c st l e h
      unfold Threshold.clauseEnough at h
      cases hs : Threshold.clauseSum c st l Frac.zero with
      | ok v => rw [hs] at h; cases h
      | err e' => exact hsum _ _ _ _ _ hs
      | panic => rw [hs] at h; cases h
    have hm : ∀ (cs : List (List Frac)) (st : Nat) (b : Bool) (e : Error), Threshold.multiEnough sigs cs st b ≠ .err e := by
      intro cs
      induction cs with
      | nil => intro st b e h; cases h
      | cons c cs ih =>
        intro st b e h
        unfold Threshold.multiEnough at h
        dsimp only at h
        split at h
        · generalize hc : Threshold.clauseEnough c st _ = r at h
          cases r with
          | ok v => exact ih _ _ _ h
          | err e' => exact hcl _ _ _ _ hc
          | panic => cases h
        · exact ih _ _ _ h
    unfold Threshold.enough at h
    split at h
    · cases h
    · exact hcl _ _ _ _ h
    · exact hm _ _ _ _ h
  · split
    · unfold NotMissing; simp
    · refine .bind ?_ fun v => ?_
      · unfold KeyConfig.validSet
        split
        · refine .bind ?_ fun _ => by unfold NotMissing; simp
          have hc : ∀ (l : List AttachedSignaturePrefix) (c : List Nat) (e : Error), KeyConfig.countIdx c l ≠ .err e := by
            intro l
            induction l with
            | nil => intro c e h; cases h
            | cons s l ih =>
              intro c e h
              unfold KeyConfig.countIdx at h
              split at h
              · cases h
              · exact ih _ _ h
          exact hc _ _ _
        · unfold NotMissing; simp
      · split
        · have hv : ∀ (l : List AttachedSignaturePrefix) (acc : Res Bool), NotMissing acc → NotMissing (KeyConfig.verifySigs env kc.publicKeys data l acc) := by
            intro l
            induction l with
            | nil => intro acc h; exact h
            | cons s l ih =>
              intro acc h
              refine ih _ ?_
              unfold KeyConfig.sigStep
              split
              · split
                · unfold NotMissing; simp
                · exact .key _ _ _ _
              · exact h
          exact hv _ _ (by unfold NotMissing; simp)
        · unfold NotMissing; simp

theorem NotMissing.stm {α β : Type} {x : StM MapDb α} {f : α → StM MapDb β} {a : MapDb} (hx : NotMissing (x a).1) (hf : ∀ v b, NotMissing (f v b).1) :
    NotMissing ((x >>= f) a).1 := by
  rw [StM.bind_run]
  rcases h : x a with ⟨y, b⟩
  rw [h] at hx
  cases y with
  | ok v => exact hf v b
  | err e => intro h; exact hx (by cases h; rfl)
  | panic => intro h; cases h

theorem NotMissing.signature (env : Env) (data : Bytes) (s : Signature) (a : MapDb) : NotMissing (verifySignature mapOps env data s a).1 := by
  unfold verifySignature
  split
  · refine .stm ?_ fun o b => ?_
    · unfold getKeysAtEvent
      rw [StM.bind_run]
      rcases h : getEventAtSn mapOps _ _ a with ⟨y, b⟩
      cases y with
      | panic => rw [StM.result_panic h]; unfold NotMissing; simp
      | err e => rw [StM.result_err h]; intro h; cases h
      | ok v =>
        rw [StM.result_ok h]
        cases v with
        | none => intro h; cases h
        | some e =>
          dsimp only
          refine .stm (.checkDigest _ _ _) fun b c => ?_
          cases b with
          | false => intro h; cases h
          | true =>
            rw [if_pos rfl]
            cases e.data.keyConfig? <;> (intro h; cases h)
    · split
      · refine .stm (.keys _ _ _ _) fun b c => ?_
        split <;> (intro h; cases h)
      · intro h; cases h
  · refine .stm (.key _ _ _ _) fun b c => ?_
    split <;> (intro h; cases h)

/-- a reply for which an event is missing is put into the escrow, even if it is there already -/
theorem signedReply_missing {env : Env} {r : SignedReply} {a : MapDb} (h : (processSignedReply mapOps env r a).1 = .err (.query .outOfOrder)) :
    (processSignedReply mapOps env r a).2.tables .knes r.pre.toStr = some (Tbl.knes.pushed (a.tables .knes r.pre.toStr) r) := by
  let Q : Res (Option IdState) × MapDb → Prop := fun p => p.1 = .err (.query .outOfOrder) →
    p.2.tables .knes r.pre.toStr = some (Tbl.knes.pushed (a.tables .knes r.pre.toStr) r)
  have step : ∀ {α : Type} (x : StM MapDb α) (f : α → StM MapDb (Option IdState)) (b : MapDb),
      ((x b).1 = .err (.query .outOfOrder) → (x b).2.tables .knes r.pre.toStr = some (Tbl.knes.pushed (a.tables .knes r.pre.toStr) r)) →
      (∀ v, (x b).1 = .ok v → Q (f v (x b).2)) → Q ((x >>= f) b) := by
    intro α x f b h1 h2 h3
    rw [StM.bind_run] at h3 ⊢
    rcases hx : x b with ⟨y, c⟩
    rw [hx] at h1 h2 h3
    cases y with
    | ok v => exact h2 v rfl h3
    | err e => exact h1 (by cases h3; rfl)
    | panic => cases h3
  have pushed : ∀ b : MapDb, b.tables = a.tables → (escrowReply mapOps r b).2.tables .knes r.pre.toStr =
      some (Tbl.knes.pushed (a.tables .knes r.pre.toStr) r) := by
    intro b hb
    unfold escrowReply addEscrowed
    simp only [mapOps, hb]
    rw [MapDb.set_same]
  revert h
  show Q _
  by_cases hrr : ∃ aid, r.reply.route = .replyKsn aid
  · obtain ⟨aid, hr⟩ := hrr
    rw [processSignedReply_route hr]
    by_cases hs : r.signature.signer ≠ aid
    · rw [if_pos hs]; intro h; cases h
    · rw [if_neg hs]
      have hsig : (∀ v, (replySignature mapOps env r a).1 = .ok v → (replySignature mapOps env r a).2.tables = a.tables) ∧
          ((replySignature mapOps env r a).1 = .err (.query .outOfOrder) → (replySignature mapOps env r a).2.tables .knes r.pre.toStr =
            some (Tbl.knes.pushed (a.tables .knes r.pre.toStr) r)) := by
        constructor
        · intro v hv
          obtain ⟨_, _, _, h⟩ := replySignature_ok (pair_of_fst hv)
          exact h
        · unfold replySignature
          cases hser : r.reply.serialize env with
          | err e => intro h; exact absurd (hser.trans (by cases h; rfl)) (NotMissing.reply env r.reply).1
          | panic => intro h; cases h
          | ok bytes =>
            rw [StM.bind_run]
            simp only [StM.lift]
            rw [StM.bind_run]
            have ro := verifySignature_ro env bytes r.signature a
            have nm := NotMissing.signature env bytes r.signature a
            rcases hv : verifySignature mapOps env bytes r.signature a with ⟨x, a1⟩
            rw [hv] at ro nm
            cases x with
            | panic => rw [StM.result_panic hv]; intro h; cases h
            | ok u => rw [StM.result_ok hv]; intro h; cases h
            | err e =>
              rw [StM.result_err hv]
              dsimp only
              split
              · intro _; rw [StM.bind_run]; exact pushed a1 ro
              · intro h; exact absurd (by cases h; rfl) nm
      refine step _ _ _ hsig.2 fun u h1 => step _ _ _ (fun h => absurd h (NotMissing.reply env r.reply).2) fun _ _ => ?_
      have t1 := hsig.1 u h1
      generalize (replySignature mapOps env r a).2 = a1 at t1
      refine step (ignoring (badaLogic mapOps r) (.query .noSavedReply)) _ a1 (fun h => ?_) fun _ _ => ?_
      · exfalso
        unfold ignoring at h
        have hb := badaLogic_run r a1
        rcases hx : badaLogic mapOps r a1 with ⟨y, a2⟩
        have hne : y ≠ .err (.query .outOfOrder) := by
          rintro rfl
          rw [hx] at hb
          have := congrArg Prod.fst hb
          dsimp only at this
          split at this
          · split at this
            · unfold badaCompare checkDts at this
              repeat' split at this
              all_goals cases this
            · cases this
          · rename_i e he; exact iterValues_ne_err he
          · cases this
        rw [StM.bind_run] at h
        cases y with
        | panic => rw [StM.result_panic hx] at h; cases h
        | ok u => rw [StM.result_ok hx] at h; cases h
        | err e =>
          rw [StM.result_err hx] at h
          dsimp only at h
          split at h
          · cases h
          · exact hne (by cases h; rfl)
      · have t2 : (ignoring (badaLogic mapOps r) (.query .noSavedReply) a1).2.tables = a.tables := by
          rw [ignoring_ro (badaLogic_ro _) _ a1, t1]
        generalize (ignoring (badaLogic mapOps r) (.query .noSavedReply) a1).2 = a2 at t2
        refine step _ _ _ ?_ fun _ _ => ?_
        · unfold replyNotice
          rw [StM.bind_run]
          have ro := checkKsn_ro env r.reply.ksn aid a2
          rcases hv : checkKsn mapOps env r.reply.ksn aid a2 with ⟨x, a3⟩
          rw [hv] at ro
          cases x with
          | panic => rw [StM.result_panic hv]; intro h; cases h
          | ok u => rw [StM.result_ok hv]; intro h; cases h
          | err e =>
            rw [StM.result_err hv]
            dsimp only
            rw [StM.bind_run]
            unfold escrowIf
            by_cases he : e = .query .outOfOrder
            · rw [if_pos he]
              intro _
              exact pushed a3 (ro.trans t2)
            · rw [if_neg he]
              intro h
              exact absurd (by cases h; rfl) he
        · generalize (replyNotice mapOps env r aid a2).2 = a3
          intro h
          exfalso
          unfold updateAccepted at h
          rw [StM.bind_run, StM.bind_run] at h
          simp only [mapOps] at h
          cases ho : Tbl.knas.iterValues (a3.tables .knas r.pre.toStr) with
          | err e => exact iterValues_ne_err ho
          | panic => rw [ho] at h; cases h
          | ok o => rw [ho] at h; cases o <;> cases h
  · rw [processSignedReply_wrong (fun aid ha => hrr ⟨aid, ha⟩)]
    intro h; cases h

theorem escrowStep_sim {o : Ops Db} (ho : OpsSim o) (env : Env) (r : SignedReply) : Sim (escrowStep o env r) (escrowStep mapOps env r) := by
  unfold escrowStep removeEscrowed
  refine Sim.bind (Sim.result (processSignedReply_sim ho env r)) fun x => ?_
  split
  · exact ho.remove _ _ _
  · split
    · exact ho.remove _ _ _
    · exact Sim.pure _

/-- C49, for one escrowed reply: if it is accepted, stale or wrongly signed, exactly the replies equal to it leave
the (readable) escrow of its subject; if it fails in another way than by a missing event, the escrow stays as it is; if an event is
missing, the escrow has it once more.  The escrow of other subjects never changes, nor does any log or receipt. -/
theorem C49_step (env : Env) (as : List Action) (r : SignedReply) :
    let db := after env as
    let db' := (escrowStep sled env r db).2
    ((∃ s, (process sled env (.reply r) db).1 = .ok s) ∨ (process sled env (.reply r) db).1 = .err .signatureVerification ∨
        (process sled env (.reply r) db).1 = .err (.query .staleRpy) →
      ∀ l, (db.waiting r.pre).bind Tbl.knes.decAll = some l → db'.waiting r.pre = some (l.filter fun q => ¬ q.norm = r.norm)) ∧
    (∀ e, (process sled env (.reply r) db).1 = .err e → e ≠ .signatureVerification → e ≠ .query .staleRpy → e ≠ .query .outOfOrder →
      db'.waiting r.pre = db.waiting r.pre) ∧
    ((process sled env (.reply r) db).1 = .err (.query .outOfOrder) →
      db'.waiting r.pre = some (((db.waiting r.pre).bind Tbl.knes.decAll).getD [] ++ [r])) ∧
    (∀ id : IdentifierPrefix, id.toStr ≠ r.pre.toStr → db'.waiting id = db.waiting id) ∧
    (∀ (t : Tbl) (x : Bytes), t ≠ .knas → t ≠ .knes → db'.vec t x = db.vec t x) := by
  intro db db'
  have h1 := (processSignedReply_sim sled_sim env r db (after_inv env as)).1
  have h2 := (escrowStep_sim sled_sim env r db (after_inv env as)).2.1
  have hp : (process sled env (.reply r) db).1 = (processSignedReply mapOps env r db.abs).1 := h1
  have hw : ∀ id : IdentifierPrefix, db'.waiting id = (escrowStep mapOps env r db.abs).2.tables .knes id.toStr := by
    intro id; rw [← h2]; rfl
  have hw0 : ∀ id : IdentifierPrefix, db.waiting id = db.abs.tables .knes id.toStr := fun _ => rfl
  have hk := signedReply_knes env r db.abs
  rw [hp]
  have wr : Writes (fun t => t = .knas ∨ t = .knes) r.pre.toStr (escrowStep mapOps env r) := by
    unfold escrowStep removeEscrowed
    refine .bind (.result (signedReply_writes env r)) fun x => ?_
    split
    · exact .remove .knes (by simp) _ _
    · split
      · exact .remove .knes (by simp) _ _
      · exact .ofRo (.pure _)
  have removed : ∀ b : MapDb, b.tables .knes = db.abs.tables .knes → ∀ l, (db.waiting r.pre).bind Tbl.knes.decAll = some l →
      (removeEscrowed mapOps r.pre r b).2.tables .knes r.pre.toStr = some (l.filter fun q => ¬ q.norm = r.norm) := by
    intro b hb l hl
    unfold removeEscrowed
    simp only [mapOps, MapDb.set_same, hb]
    unfold Tbl.removed Tbl.entry
    rw [hw0] at hl
    cases hv : db.abs.tables .knes r.pre.toStr with
    | none => rw [hv] at hl; cases hl
    | some l0 =>
      rw [hv] at hl
      dsimp only [Option.bind_some] at hl ⊢
      rw [hl]
      dsimp only
      congr 1
      refine List.filter_congr fun q _ => ?_
      simp [Tbl.same]
  refine ⟨?_, ?_, ?_, ?_, ?_⟩
  · intro hout l hl
    rw [hw]
    unfold escrowStep
    rw [StM.bind_run]
    rcases hx : processSignedReply mapOps env r db.abs with ⟨y, c⟩
    rw [hx] at hout hk
    cases y with
    | panic => rcases hout with ⟨s, h⟩ | h | h <;> cases h
    | ok s =>
      rw [StM.result_ok hx]
      exact removed c (hk.resolve_right fun h => by cases h.1) l hl
    | err e =>
      rw [StM.result_err hx]
      have he : e = .signatureVerification ∨ e = .query .staleRpy := by
        rcases hout with ⟨s, h⟩ | h | h
        · cases h
        · exact .inl (by cases h; rfl)
        · exact .inr (by cases h; rfl)
      dsimp only
      rw [if_pos he]
      refine removed c (hk.resolve_right fun h => ?_) l hl
      have h' := h.1
      rcases he with rfl | rfl <;> cases h'
  · intro e hout n1 n2 n3
    rw [hw, hw0]
    unfold escrowStep
    rw [StM.bind_run]
    rcases hx : processSignedReply mapOps env r db.abs with ⟨y, c⟩
    rw [hx] at hout hk
    cases y with
    | panic => cases hout
    | ok s => cases hout
    | err e' =>
      obtain rfl : e' = e := by cases hout; rfl
      rw [StM.result_err hx]
      dsimp only
      rw [if_neg (by rintro (h | h); exact n1 h; exact n2 h)]
      rcases hk with hk | hk
      · show c.tables .knes _ = _; rw [hk]
      · exact absurd (Res.err.inj hk.1) n3
  · intro hout
    rw [hw, hw0]
    unfold escrowStep
    rw [StM.bind_run]
    rcases hx : processSignedReply mapOps env r db.abs with ⟨y, c⟩
    rw [hx] at hout hk
    cases y with
    | panic => cases hout
    | ok s => cases hout
    | err e' =>
      obtain rfl : e' = .query .outOfOrder := by cases hout; rfl
      rw [StM.result_err hx]
      dsimp only
      rw [if_neg (by rintro (h | h) <;> cases h)]
      have hm := signedReply_missing (env := env) (r := r) (a := db.abs) (by rw [hx])
      rw [hx] at hm
      show c.tables .knes _ = _
      rw [hm, pushed_eq]
  · intro id hid
    rw [hw, hw0]
    exact wr _ .knes _ (.inl hid)
  · intro t x ht1 ht2
    show db'.abs.tables t x = db.abs.tables t x
    rw [h2]
    exact wr _ t x (.inr (by simp [ht1, ht2]))

/-- C49: reprocessing the escrow changes no log, receipt or duplicity record. -/
theorem C49_logs_untouched (env : Env) (as : List Action) (t : Tbl) (x : Bytes) (h1 : t ≠ .knas) (h2 : t ≠ .knes) :
    (after env (as ++ [.reprocess])).vec t x = (after env as).vec t x := by
  have h := (action_sim sled_sim env .reprocess _ (after_inv env as)).2
  have h3 : (after env (as ++ [.reprocess])).abs.tables t x = (Action.run mapOps env .reprocess (after env as).abs).tables t x := by
    rw [← h, after, runHistory_append]; rfl
  show (after env (as ++ [.reprocess])).abs.tables t x = _
  rw [h3]
  exact congrFun (escrow_writes env _ t (by simp [h1, h2])) x

/-! ### the escrow doubles -/

theorem decAll_replicate {r : SignedReply} (h : r.dec = some r) (k : Nat) : Tbl.knes.decAll (List.replicate k r) = some (List.replicate k r) := by
  induction k with
  | zero => rfl
  | succ k ih =>
    rw [List.replicate_succ]
    unfold Tbl.decAll
    rw [ih, show Tbl.knes.dec r = some r from h]

/-- a reply by an unknown transferable signer is pushed onto the escrow -/
theorem blocked_run {env : Env} {r : SignedReply} {sl : EventSeal} {sigs : List AttachedSignaturePrefix} {bytes : Bytes} {a : MapDb}
    (hsig : r.signature = .transferable sl sigs) (hroute : r.reply.route = .replyKsn sl.prefix) (hser : r.reply.serialize env = .ok bytes)
    (hunk : a.tables .kels sl.prefix.toStr = none) :
    processSignedReply mapOps env r a = (.err (.query .outOfOrder), ((a.touch sl.prefix.toStr).touch r.pre.toStr).set .knes r.pre.toStr
      (some (Tbl.knes.pushed (a.tables .knes r.pre.toStr) r))) := by
  have hg : getKeysAtEvent mapOps env sl.prefix sl.sn sl.eventDigest a = (.err .eventOutOfOrder, a.touch sl.prefix.toStr) := by
    have h1 : getEventAtSn mapOps sl.prefix sl.sn a = (.ok none, a.touch sl.prefix.toStr) := by
      unfold getEventAtSn getKel
      rw [StM.bind_run]
      simp only [mapOps, hunk]
      rfl
    unfold getKeysAtEvent
    rw [StM.bind_run, StM.result_ok h1]
    rfl
  have hv : verifySignature mapOps env bytes r.signature a = (.err .eventOutOfOrder, a.touch sl.prefix.toStr) := by
    rw [hsig]
    unfold verifySignature
    dsimp only
    exact StM.bind_err hg
  have hs : replySignature mapOps env r a = (.err (.query .outOfOrder), ((a.touch sl.prefix.toStr).touch r.pre.toStr).set .knes r.pre.toStr
      (some (Tbl.knes.pushed (a.tables .knes r.pre.toStr) r))) := by
    unfold replySignature
    rw [StM.bind_run, hser]
    simp only [StM.lift]
    rw [StM.bind_run, StM.result_err hv]
    dsimp only
    rw [if_pos rfl, StM.bind_run]
    unfold escrowReply addEscrowed
    simp only [mapOps, MapDb.touch_tables]
    rfl
  rw [processSignedReply_route hroute, if_neg (by rw [hsig]; simp [Signature.signer])]
  exact StM.bind_err hs

/-- the database holds `k` copies of `r` in escrow and nothing else there -/
structure Copies (r : SignedReply) (sl : EventSeal) (k : Nat) (a : MapDb) : Prop where
  unknown : a.tables .kels sl.prefix.toStr = none
  here : a.tables .knes r.pre.toStr = some (List.replicate k r)
  elsewhere : ∀ x, x ≠ r.pre.toStr → a.tables .knes x = none

theorem Copies.push {env : Env} {r : SignedReply} {sl : EventSeal} {sigs : List AttachedSignaturePrefix} {bytes : Bytes} {a : MapDb} {k : Nat}
    (hsig : r.signature = .transferable sl sigs) (hroute : r.reply.route = .replyKsn sl.prefix) (hser : r.reply.serialize env = .ok bytes)
    (hdec : r.dec = some r) (h : Copies r sl k a) :
    ∃ a', escrowStep mapOps env r a = (.ok (), a') ∧ Copies r sl (k + 1) a' := by
  have hb := blocked_run hsig hroute hser h.unknown
  refine ⟨((a.touch sl.prefix.toStr).touch r.pre.toStr).set .knes r.pre.toStr (some (Tbl.knes.pushed (a.tables .knes r.pre.toStr) r)), ?_, ?_⟩
  · unfold escrowStep
    rw [StM.bind_run, StM.result_err hb]
    dsimp only
    rw [if_neg (by rintro (h | h) <;> cases h)]
    rfl
  · refine ⟨?_, ?_, ?_⟩
    · rw [MapDb.set_other_tbl _ (by simp), MapDb.touch_tables, MapDb.touch_tables]; exact h.unknown
    · rw [MapDb.set_same, pushed_eq, h.here]
      dsimp only [Option.bind_some]
      rw [decAll_replicate hdec, List.replicate_succ']
      rfl
    · intro x hx
      rw [MapDb.set_other_id _ _ _ hx, MapDb.touch_tables, MapDb.touch_tables]; exact h.elsewhere x hx

theorem Copies.steps {env : Env} {r : SignedReply} {sl : EventSeal} {sigs : List AttachedSignaturePrefix} {bytes : Bytes}
    (hsig : r.signature = .transferable sl sigs) (hroute : r.reply.route = .replyKsn sl.prefix) (hser : r.reply.serialize env = .ok bytes)
    (hdec : r.dec = some r) (m : Nat) : ∀ (k : Nat) (a : MapDb), Copies r sl k a →
      ∃ a', escrowSteps mapOps env (List.replicate m r) a = (.ok (), a') ∧ Copies r sl (k + m) a' := by
  induction m with
  | zero => exact fun k a h => ⟨a, rfl, h⟩
  | succ m ih =>
    intro k a h
    obtain ⟨a1, e1, h1⟩ := h.push hsig hroute hser hdec
    obtain ⟨a2, e2, h2⟩ := ih (k + 1) a1 h1
    refine ⟨a2, ?_, by rw [show k + (m + 1) = k + 1 + m by omega]; exact h2⟩
    rw [List.replicate_succ]
    unfold escrowSteps
    rw [StM.bind_run, e1]
    exact e2

theorem filterMap_single {α β : Type} {f : α → Option β} {l : List α} (hn : l.Nodup) {x : α} (hx : x ∈ l) {b : β} (hb : f x = some b)
    (ho : ∀ y, y ≠ x → f y = none) : l.filterMap f = [b] := by
  induction l with
  | nil => simp at hx
  | cons y l ih =>
    rw [List.nodup_cons] at hn
    by_cases hy : y = x
    · subst hy
      have : l.filterMap f = [] := by
        rw [List.filterMap_eq_nil_iff]
        intro z hz
        exact ho z fun h => hn.1 (h ▸ hz)
      simp [hb, this]
    · rcases List.mem_cons.1 hx with h | h
      · exact absurd h.symm hy
      · simp [ho y hy, ih hn.2 h]

/-- C49 is FALSE: a reply whose signer's log is not known is put into the escrow again each time the escrow is reprocessed, together with
the old copies: after `n` reprocessings there are `2 ^ n` of it.  (`hdec` only says that storage does not change it.) -/
theorem C49_fails_for_all (env : Env) (as : List Action) (r : SignedReply) (sl : EventSeal) (sigs : List AttachedSignaturePrefix) (bytes : Bytes)
    (hsig : r.signature = .transferable sl sigs) (hroute : r.reply.route = .replyKsn sl.prefix) (hser : r.reply.serialize env = .ok bytes)
    (hdec : r.dec = some r) (hunk : (after env as).vec .kels sl.prefix.toStr = none) (hempty : ∀ x, (after env as).vec .knes x = none) (n : Nat) :
    (after env (as ++ .submit (.reply r) :: List.replicate n .reprocess)).waiting r.pre = some (List.replicate (2 ^ n) r) := by
  suffices h : Copies r sl (2 ^ n) (after env (as ++ .submit (.reply r) :: List.replicate n .reprocess)).abs from h.here
  have hsplit : as ++ .submit (.reply r) :: List.replicate n .reprocess = (as ++ [.submit (.reply r)]) ++ List.replicate n .reprocess := by simp
  rw [hsplit]
  induction n with
  | zero =>
    rw [List.replicate_zero, List.append_nil, after_snoc,
      show (process sled env (.reply r) (after env as)).2.abs = _ from (processSignedReply_sim sled_sim env r _ (after_inv env as)).2.1,
      blocked_run hsig hroute hser hunk]
    refine ⟨?_, ?_, ?_⟩
    · rw [MapDb.set_other_tbl _ (by simp), MapDb.touch_tables, MapDb.touch_tables]; exact hunk
    · rw [MapDb.set_same, pushed_eq, show (after env as).abs.tables .knes r.pre.toStr = none from hempty _]; rfl
    · intro x hx
      rw [MapDb.set_other_id _ _ _ hx, MapDb.touch_tables, MapDb.touch_tables]; exact hempty x
  | succ n ih =>
    have ih := ih (by simp)
    rw [List.replicate_succ', ← List.append_assoc]
    generalize as ++ [.submit (.reply r)] ++ List.replicate n .reprocess = cs at ih ⊢
    have h := (action_sim sled_sim env .reprocess _ (after_inv env cs)).2
    have h3 : (after env (cs ++ [.reprocess])).abs = Action.run mapOps env .reprocess (after env cs).abs := by
      rw [← h, after, runHistory_append]; rfl
    rw [h3]
    have hall : mapOps.all .knes (after env cs).abs = (.ok [some (List.replicate (2 ^ n) r)], (after env cs).abs) := by
      have hmem : r.pre.toStr ∈ (after env cs).abs.order := by
        rcases Decidable.em (r.pre.toStr ∈ (after env cs).abs.order) with hm | hm
        · exact hm
        · exfalso
          have := ih.here
          have hv : (after env cs).vec .knes r.pre.toStr = none := by
            unfold Db.vec
            rw [(keyByValue_none _ _).2 hm]
          rw [show (after env cs).abs.tables .knes r.pre.toStr = _ from hv] at this
          cases this
      simp only [mapOps]
      congr 2
      refine filterMap_single (after_inv env cs).texts hmem ?_ ?_
      · rw [ih.here, Option.map_some, decAll_replicate hdec]
      · intro y hy; rw [ih.elsewhere y hy]; rfl
    obtain ⟨a', e1, h1⟩ := Copies.steps hsig hroute hser hdec (2 ^ n) (2 ^ n) _ ih
    have : Action.run mapOps env .reprocess (after env cs).abs = a' := by
      show (processEscrow mapOps env (after env cs).abs).2 = a'
      unfold processEscrow
      rw [StM.bind_run, hall]
      dsimp only
      unfold escrowEntries
      rw [StM.bind_run, e1]
      rfl
    rw [this, Nat.pow_succ, Nat.mul_two]
    exact h1

/-- an instance of `C49_fails_for_all`: anybody can fill the store with copies of one unverifiable reply -/
theorem C49_fails (n : Nat) :
    (after Ex.env (Ex.hist ++ .submit (.reply Ex.strangerReply) :: List.replicate n .reprocess)).waiting Ex.id =
      some (List.replicate (2 ^ n) Ex.strangerReply) := by
  have hser : ∃ bytes, Ex.strangerReply.reply.serialize Ex.env = .ok bytes := ⟨Ex.bytesOr (Ex.strangerReply.reply.serialize Ex.env), by decide +kernel⟩
  obtain ⟨bytes, hser⟩ := hser
  have hpre : Ex.strangerReply.pre = Ex.id := rfl
  have h := C49_fails_for_all Ex.env Ex.hist Ex.strangerReply ⟨.basic (Ex.key 50), 0, Ex.rot.dig⟩ _ bytes rfl rfl hser (by decide +kernel)
    (by decide +kernel) ?_ n
  · rw [hpre] at h; exact h
  · intro x
    have : ((after Ex.env Ex.hist).tables .knes) = [] := by decide +kernel
    unfold Db.vec
    rw [this]
    split <;> rfl

/- `C49_step` speaks about real cases: a stored reply that has become stale leaves the escrow, one that is accepted leaves it -/
example : (escrowStep sled Ex.env (Ex.ntReply 7) (after Ex.env Ex.rpyHist)).1 = .ok () ∧
    (process sled Ex.env (.reply (Ex.ntReply 7)) (after Ex.env Ex.rpyHist)).1 = .err (.query .staleRpy) := by decide +kernel

/-! ## C50 -/

/-- the number obtained by reading decimal digits as hexadecimal ones -/
def misread (n : Nat) : Nat := if n < 10 then n else 16 * misread (n / 10) + n % 10
termination_by n
decreasing_by omega

theorem misread_eq (n : Nat) : misread n = if n < 10 then n else 16 * misread (n / 10) + n % 10 := by
  conv => lhs; unfold misread

theorem parse_dec_as_hex (n : Nat) : parseDigits 16 (toBase 10 n) 0 = some (misread n) := by
  induction n using Nat.strongRecOn with
  | ind n ih =>
    rw [toBase_unfold, misread_eq]
    by_cases h : n < 10
    · rw [if_pos (.inl h), if_pos h]
      unfold parseDigits
      rw [digitVal_hexDigit 16 (by omega) n (by omega)]
      simp [parseDigits]
    · rw [if_neg (by omega), if_neg h, parseDigits_append, ih (n / 10) (by omega)]
      dsimp only [Option.bind_some]
      unfold parseDigits
      rw [digitVal_hexDigit 16 (by omega) (n % 10) (by omega)]
      simp [parseDigits, Nat.mul_comm]

theorem decAsHex_eq (n : Nat) : decAsHex n = if misread n ≤ u64max then some (misread n) else none := by
  unfold decAsHex decStr
  rw [fromStrRadix_digits 16 _ _ (toBase_ne_nil 10 n) (toBase_chars 10 (by omega) (by omega) n), parse_dec_as_hex]
  rfl

theorem misread_ge (n : Nat) : n ≤ misread n ∧ (10 ≤ n → n < misread n) := by
  induction n using Nat.strongRecOn with
  | ind n ih =>
    rw [misread_eq]
    by_cases h : n < 10
    · rw [if_pos h]; omega
    · rw [if_neg h]
      have := (ih (n / 10) (by omega)).1
      omega

/-- a decimal number text read as a hexadecimal one is the same number exactly up to 9 -/
theorem decAsHex_same (n : Nat) : decAsHex n = some n ↔ n ≤ 9 := by
  rw [decAsHex_eq]
  constructor
  · intro h
    by_cases hm : misread n ≤ u64max
    · rw [if_pos hm] at h
      have h1 := Option.some.inj h
      have h2 := (misread_ge n).2
      omega
    · rw [if_neg hm] at h; cases h
  · intro h
    have hm : misread n = n := by rw [misread_eq, if_pos (by omega)]
    rw [hm, if_pos (by unfold u64max; omega)]

theorem Ksn.dec_numbers {k k' : Ksn} (h : k.dec = some k') : decAsHex k.state.sn = some k'.state.sn ∧ decAsHex k.firstSeen = some k'.firstSeen ∧
    decAsHex k.state.tally = some k'.state.tally ∧ k'.state.delegator = none := by
  unfold Ksn.dec at h
  simp only [Option.bind_eq_bind, Option.bind_eq_some_iff] at h
  obtain ⟨n, _, hk⟩ := h
  generalize hc : (_ && _) = c at hk
  cases c with
  | false => cases hk
  | true =>
    simp only [if_true, Option.bind_eq_some_iff, Option.some.injEq] at hk
    obtain ⟨sn, h1, f, h2, bt, h3, rfl⟩ := hk
    exact ⟨h1, h2, h3, rfl⟩

/-- C50 is FALSE for every number above 9: a stored reply whose notice has such a number reads back with a larger one; and the
delegator is always lost. -/
theorem C50_fails_for_all (r r' : SignedReply) (h : r.dec = some r') :
    (10 ≤ r.reply.ksn.state.sn → r.reply.ksn.state.sn < r'.reply.ksn.state.sn) ∧
    (10 ≤ r.reply.ksn.state.tally → r.reply.ksn.state.tally < r'.reply.ksn.state.tally) ∧ r'.reply.ksn.state.delegator = none := by
  unfold SignedReply.dec at h
  simp only [Option.bind_eq_bind, Option.bind_eq_some_iff] at h
  obtain ⟨k, hk, h⟩ := h
  obtain ⟨h1, _, h3, h4⟩ := Ksn.dec_numbers hk
  have hr : r'.reply.ksn = k := by
    split at h
    · cases h; rfl
    · cases h
  rw [hr]
  have key : ∀ n m, decAsHex n = some m → 10 ≤ n → n < m := by
    intro n m hm hn
    rw [decAsHex_eq] at hm
    by_cases hc : misread n ≤ u64max
    · rw [if_pos hc] at hm
      cases hm
      exact (misread_ge n).2 hn
    · rw [if_neg hc] at hm; cases hm
  exact ⟨key _ _ h1, key _ _ h3, h4⟩

/-- C50: the sequence number, the first-seen number and the tally of the notice in a stored reply are read back as the same numbers iff they
are at most 9; any larger number comes back larger (if the reply can be read at all). -/
theorem C50_exact (r r' : SignedReply) (h : r.dec = some r') :
    (r'.reply.ksn.state.sn = r.reply.ksn.state.sn ↔ r.reply.ksn.state.sn ≤ 9) ∧
    (r'.reply.ksn.firstSeen = r.reply.ksn.firstSeen ↔ r.reply.ksn.firstSeen ≤ 9) ∧
    (r'.reply.ksn.state.tally = r.reply.ksn.state.tally ↔ r.reply.ksn.state.tally ≤ 9) := by
  unfold SignedReply.dec at h
  simp only [Option.bind_eq_bind, Option.bind_eq_some_iff] at h
  obtain ⟨k, hk, h⟩ := h
  obtain ⟨h1, h2, h3, _⟩ := Ksn.dec_numbers hk
  have hr : r'.reply.ksn = k := by
    split at h
    · cases h; rfl
    · cases h
  rw [hr]
  have key : ∀ n m, decAsHex n = some m → (m = n ↔ n ≤ 9) := by
    intro n m hm
    rw [← decAsHex_same, hm]
    simp
  exact ⟨key _ _ h1, key _ _ h2, key _ _ h3⟩

/-- the state after `hist` with a claimed tally -/
def Ex.tallyReply (n : Nat) (t : Int) (k : UInt8) : SignedReply :=
  Ex.signNt (Ex.mkReply { Ex.ixnState with tally := n } t (.basic (Ex.key k))) k

/-- the tallies of the replies read -/
def Ex.tallies (r : Res (Option (List SignedReply))) : List Nat := match r with | .ok (some l) => l.map (·.reply.ksn.state.tally) | _ => []

section
open Ex
set_option maxRecDepth 20000

/-- C50 is FALSE: an accepted notice with tally 10 is read back with tally 16, and after the next acceptance with tally 22. -/
theorem C50_fails :
    tallies (getAccepted sled Ex.id (after env (hist ++ [.submit (.reply (tallyReply 10 5 40))]))).1 = [16] ∧
    tallies (getAccepted sled Ex.id (after env (hist ++ [.submit (.reply (tallyReply 10 5 40)), .submit (.reply (tallyReply 1 5 44))]))).1 = [22, 1] := by
  decide +kernel

end

/-! ## C65 -/

theorem KReach.stuck {env : Env} {K} {a b : MapDb} (h : KReach env K a b) (x : Bytes) (hx : Tbl.knas.decAll (a.acc x) = none) :
    b.acc x = a.acc x := by
  induction h with
  | refl h => exact acc_congr h x
  | @step b c r aid bytes o h hk ok hc ih =>
    rw [acc_congr hc, acc_set]
    split
    · rename_i hx'
      subst hx'
      have := iterValues_decAll ok.stored
      rw [show Option.getD (b.tables .knas r.pre.toStr) [] = b.acc r.pre.toStr from rfl, ih, hx] at this
      cases this
    · exact ih

/-- C65 is FALSE: once a reply that storage cannot read back (say with a tally of 2^63) has been accepted, which needs nothing but some key's signature, no
other reply about that subject by anybody is ever accepted: the store of accepted replies about the subject is stuck for ever. -/
theorem C65_fails_for_all (env : Env) (as bs : List Action) (r : SignedReply) (s : Option IdState)
    (h : (process sled env (.reply r) (after env as)).1 = .ok s) (hdec : r.dec = none) :
    let cs := as ++ .submit (.reply r) :: bs
    (after env cs).replies r.pre = (after env (as ++ [.submit (.reply r)])).replies r.pre ∧
    (getAccepted sled r.pre (after env cs)).1 = .panic ∧
    ∀ (r' : SignedReply) (s' : Option IdState), r'.pre.toStr = r.pre.toStr → (process sled env (.reply r') (after env cs)).1 ≠ .ok s' := by
  intro cs
  have hbad : Tbl.knas.decAll ((after env (as ++ [.submit (.reply r)])).replies r.pre) = none := by
    obtain ⟨l, _, h2⟩ := (C48_accepted env as r s h).1
    rw [h2]
    cases hd : Tbl.knas.decAll (l.filter (fun q => q.reply.route ≠ r.reply.route) ++ [r]) with
    | none => rfl
    | some d =>
      obtain ⟨v, _, hv⟩ := decAll_mem_of hd r (by simp)
      rw [show Tbl.knas.dec r = none from hdec] at hv
      cases hv
  have hst : (after env cs).replies r.pre = (after env (as ++ [.submit (.reply r)])).replies r.pre := by
    have : cs = (as ++ [.submit (.reply r)]) ++ bs := by simp [cs]
    rw [this]
    refine snoc_induction (P := fun bs => (after env (as ++ [.submit (.reply r)] ++ bs)).replies r.pre = (after env (as ++ [.submit (.reply r)])).replies r.pre) bs ?_ ?_
    · rw [List.append_nil]
    · intro l a ih
      rw [← List.append_assoc, ← ih]
      have h3 : (after env (as ++ [.submit (.reply r)] ++ l ++ [a])).replies r.pre =
          (a.run mapOps env (after env (as ++ [.submit (.reply r)] ++ l)).abs).acc r.pre.toStr := by
        rw [← (action_sim sled_sim env a _ (after_inv env _)).2, after, runHistory_append]; rfl
      rw [h3]
      exact (action_knas env a _).stuck _ (by rw [← after_replies, ih]; exact hbad)
  refine ⟨hst, ?_, ?_⟩
  · rw [show (getAccepted sled r.pre (after env cs)).1 = _ from read_run .knas r.pre _ (after_inv env cs)]
    rw [← hst] at hbad
    unfold Db.replies at hbad
    unfold Tbl.iterValues Tbl.entry
    cases hv : (after env cs).vec .knas r.pre.toStr with
    | none => rw [hv] at hbad; cases hbad
    | some l =>
      rw [hv] at hbad
      dsimp only [Option.getD_some] at hbad ⊢
      rw [hbad]
  · intro r' s' hp hacc
    obtain ⟨l, hl, _⟩ := (C48_accepted env cs r' s' hacc).1
    rw [show (after env cs).replies r'.pre = (after env cs).replies r.pre by unfold Db.replies; rw [hp], hst, hbad] at hl
    cases hl

/-- C65 is FALSE of a concrete log: a notice with tally 2^64-1, signed by a key that has nothing to do with the subject, is accepted;
after it the subject's own reply makes `process` panic. -/
theorem C65_fails :
    (process sled Ex.env (.reply (Ex.tallyReply u64max 5 40)) (after Ex.env Ex.hist)).1 = .ok (some { Ex.ixnState with tally := u64max }) ∧
    (Ex.tallyReply u64max 5 40).dec = none ∧
    (process sled Ex.env (.reply (Ex.selfReply 9)) (after Ex.env (Ex.hist ++ [.submit (.reply (Ex.tallyReply u64max 5 40))]))).1 = .panic := by
  decide +kernel

/-! ## C66 -/

/-- C66, what holds: the state returned for an accepted reply is the notice's; its identifier, sequence number and last digest name the
last logged event of the subject.  (Beyond this: keys, thresholds, witnesses, tally and delegator are not compared with anything.) -/
theorem C66_sn_and_digest (env : Env) (as : List Action) (r : SignedReply) (s : Option IdState)
    (hp : r.pre.toStr ≠ []) (hs : r.signature.signer.toStr ≠ [])
    (h : (process sled env (.reply r) (after env as)).1 = .ok s) :
    s = some r.reply.ksn.state ∧ ∃ e st, ((after env as).kel r.pre).getLast? = some e ∧
      (computeState sled env r.pre (after env as)).1 = .ok (some st) ∧ r.reply.ksn.state.sn = st.sn ∧
      NamesEvent env e.msg r.reply.ksn.state.lastDigest := by
  obtain ⟨e, h1, h2, h3⟩ := (C47_accepted_authentic env as r s hp hs h).current
  rw [show (process sled env (.reply r) (after env as)).1 = _ from (processSignedReply_sim sled_sim env r _ (after_inv env as)).1] at h
  obtain ⟨aid, bytes, o, ok, hst, _⟩ := signedReply_ok h
  obtain ⟨st, g1, g2⟩ := ok.latest
  exact ⟨hst, e, st, h1, by rw [(computeState_sim sled_sim env _ _ (after_inv env as)).1]; exact g1, g2.symm, h3⟩

theorem names_checkDigest {env : Env} {m : EventMessage} {d : SelfAddressingPrefix} (h : NamesEvent env m d) : m.checkDigest env d = .ok true := by
  unfold EventMessage.checkDigest
  rcases h with h | ⟨h1, data, h2, h3⟩
  · rw [if_pos (by rw [h]), h]; simp
  · rw [if_neg h1, Res.bind_eq_ok]
    exact ⟨data, h2, by rw [h3]⟩

/-- `new` may replace `old`: the notice is not dated before the stored reply, and by establishment sequence number and time (transferable
signatures) or by time alone (a non-transferable signature) the new reply is not older -/
def MayReplace (old new : SignedReply) : Prop :=
  old.reply.timestamp.micros ≤ new.reply.ksn.timestamp.micros ∧
  match old.signature, new.signature with
  | .transferable s _, .transferable s' _ =>
    s.sn < s'.sn ∨ (s.sn = s'.sn ∧ old.reply.timestamp.micros ≤ new.reply.timestamp.micros)
  | .nonTransferable _ _, .transferable _ _ => False
  | _, .nonTransferable _ _ => old.reply.timestamp.micros ≤ new.reply.timestamp.micros

theorem badaCompare_iff {new old : SignedReply} : (badaCompare new old = .ok () ∧ old.reply.timestamp.micros ≤ new.reply.ksn.timestamp.micros) ↔ MayReplace old new := by
  unfold badaCompare MayReplace checkDts
  rw [and_comm]
  refine and_congr_right fun _ => ?_
  cases hn : new.signature with
  | transferable s g =>
    cases ho : old.signature with
    | transferable s' g' =>
      dsimp only
      by_cases h1 : s'.sn < s.sn
      · simp [h1]
      · rw [if_neg h1]
        by_cases h2 : s'.sn = s.sn
        · rw [if_pos h2]
          by_cases h3 : old.reply.timestamp.micros ≤ new.reply.timestamp.micros
          · simp [h2, h3]
          · rw [if_neg h3]; simp [h2, h3]
        · rw [if_neg h2]; simp [h1, h2]
    | nonTransferable k g' => simp
  | nonTransferable k g =>
    cases ho : old.signature with
    | transferable s' g' =>
      by_cases h3 : old.reply.timestamp.micros ≤ new.reply.timestamp.micros <;> simp [h3]
    | nonTransferable k' g' =>
      by_cases h3 : old.reply.timestamp.micros ≤ new.reply.timestamp.micros <;> simp [h3]

theorem MayReplace.left {a a' b : SignedReply} (h : MayReplace a b) (h1 : a'.signature = a.signature) (h2 : a'.reply.timestamp = a.reply.timestamp) :
    MayReplace a' b := by
  unfold MayReplace at *
  rw [h1, h2]; exact h

/-- C47, completeness: an authentic and current reply that may replace the stored reply of its route is accepted, and `process` answers with
the state its notice claims - as long as the logs of the subject and of the signer and the accepted replies about the subject can be
read.  Nothing in the notice but the identifier, the sequence number, the digest and the time matters (C66). -/
theorem C47_complete (env : Env) (as : List Action) (r : SignedReply) (hp : r.pre.toStr ≠ []) (hs : r.signature.signer.toStr ≠ [])
    (hau : (after env as).Authentic env r) (hr1 : Readable ((after env as).kel r.pre)) (hr2 : Readable ((after env as).kel r.signature.signer))
    (hr3 : ∃ o, (sled.read .knas r.pre (after env as)).1 = .ok o)
    (hnew : ∀ old ∈ (after env as).replies r.pre, old.reply.route = r.reply.route → MayReplace old r) :
    (process sled env (.reply r) (after env as)).1 = .ok (some r.reply.ksn.state) := by
  rw [show (process sled env (.reply r) (after env as)).1 = _ from (processSignedReply_sim sled_sim env r _ (after_inv env as)).1]
  have hev : ∀ (id : IdentifierPrefix), id.toStr ≠ [] → Readable ((after env as).kel id) → ∀ n,
      (getEventAtSn mapOps id n (after env as).abs).1 = .ok (((after env as).kel id)[n]?) := by
    intro id hid hr n
    rw [← (getEventAtSn_sim sled_sim id n _ (after_inv env as)).1]
    rcases getEventAtSn_spec env as id hid n with h | h
    · exact h.1
    · exact absurd hr h.2
  obtain ⟨o, ho⟩ := hr3
  rw [read_run _ _ _ (after_inv env as)] at ho
  obtain ⟨bytes, hb, hsig⟩ := hau.signature
  obtain ⟨data, hd1, hd2⟩ := hau.digest
  obtain ⟨e, he1, he2, he3⟩ := hau.current
  have hne : (after env as).kel r.pre ≠ [] := by intro h0; rw [h0] at he1; simp at he1
  obtain ⟨st, hl, hc⟩ := computeState_log env as r.pre hp hne hr1
  have hidx : ((after env as).kel r.pre)[e.sn]? = some e := by
    have hm := List.getLast?_eq_getElem? (l := (after env as).kel r.pre) ▸ he1
    rw [hl.sn_eq hp hm]; exact hm
  refine replyOk_accepts (aid := r.signature.signer) (bytes := bytes) (o := o) ⟨hau.route, rfl, hb, ?_, ?_, ho, ?_, ?_, ?_⟩
  · unfold verifySignature
    cases hsg : r.signature with
    | nonTransferable k g =>
      rw [hsg] at hsig
      dsimp only
      rw [stm_ok_bind (show StM.lift (k.verify env bytes g) (after env as).abs = (.ok true, _) by rw [(verify_iff_sigValid env k bytes g).2 hsig]; rfl)]
      rfl
    | transferable sl sigs =>
      rw [hsg] at hsig
      obtain ⟨v, kc, g1, g2, g3, g4⟩ := hsig
      dsimp only
      have hg : (getKeysAtEvent mapOps env sl.prefix sl.sn sl.eventDigest (after env as).abs).1 = .ok (some kc) := by
        unfold getKeysAtEvent
        have := hev sl.prefix (by rw [hsg] at hs; exact hs) (by rw [hsg] at hr2; exact hr2) sl.sn
        rw [g1] at this
        rw [StM.bind_run, StM.result_ok (pair_of_fst this)]
        dsimp only
        rw [stm_ok_bind (show StM.lift (v.msg.checkDigest env sl.eventDigest) _ = (.ok true, _) by rw [names_checkDigest g2]; rfl), if_pos rfl, g3]
        rfl
      rw [stm_ok_bind (pair_of_fst hg)]
      dsimp only
      rw [stm_ok_bind (show StM.lift (kc.verify env bytes sigs) _ = (.ok true, _) by rw [verify_of_validSigs g4]; rfl)]
      rfl
  · unfold ReplyMsg.checkDigest
    rw [Res.bind_eq_ok]
    exact ⟨data, hd1, if_pos (decide_eq_true hd2)⟩
  · intro old hold
    have hd := iterValues_decAll ho
    obtain ⟨v, hv, hdec⟩ := decAll_mem hd old (List.mem_of_find?_eq_some hold)
    have hsame := SignedReply.dec_same hdec
    have hroute : old.reply.route = .replyKsn r.signature.signer := by simpa using List.find?_some hold
    have := hnew v hv (by rw [← hsame.1, hroute, hau.route])
    exact badaCompare_iff.2 (this.left hsame.2.1 hsame.2.2.1)
  · rw [hev r.pre hp hr1, ← he2, hidx]
    exact ⟨e, rfl, names_checkDigest he3⟩
  · refine ⟨st, ?_, ?_⟩
    · rw [← (computeState_sim sled_sim env _ _ (after_inv env as)).1]; exact hc
    · have hf := (hl.facts hp).2.1 hne
      have hm := List.getLast?_eq_getElem? (l := (after env as).kel r.pre) ▸ he1
      have := hl.sn_eq hp hm
      have := hf.2.2.1
      omega

/-- the hypotheses of `C47_complete` are met by a notice that claims a false key (and by honest ones) while a reply of the same route is stored -/
def Ex.lie (t : Int) : SignedReply :=
  Ex.signNt (Ex.mkReply { Ex.ixnState with current := Ex.kc [50] [51] (.simple 1), witnesses := [] } t (.basic (Ex.key 40))) 40

example : (after Ex.env (Ex.hist ++ [.submit (.reply (Ex.ntReply 5))])).Authentic Ex.env (Ex.lie 7) ∧
    Readable ((after Ex.env (Ex.hist ++ [.submit (.reply (Ex.ntReply 5))])).kel (Ex.lie 7).pre) ∧
    Readable ((after Ex.env (Ex.hist ++ [.submit (.reply (Ex.ntReply 5))])).kel (Ex.lie 7).signature.signer) ∧
    (sled.read .knas (Ex.lie 7).pre (after Ex.env (Ex.hist ++ [.submit (.reply (Ex.ntReply 5))]))).1.isOk = true ∧
    (after Ex.env (Ex.hist ++ [.submit (.reply (Ex.ntReply 5))])).replies (Ex.lie 7).pre = [Ex.ntReply 5] ∧
    MayReplace (Ex.ntReply 5) (Ex.lie 7) :=
  ⟨C47_accepted_authentic _ _ _ (some (Ex.lie 7).reply.ksn.state) (by decide +kernel) (by decide +kernel) (by decide +kernel),
    by unfold Readable; decide +kernel, by unfold Readable; decide +kernel, by decide +kernel, by decide +kernel,
    badaCompare_iff.1 (by decide +kernel)⟩

/-- C66 is FALSE: a notice about `id`, signed by an unrelated key, that claims the key 50 to be the only key of `id`, is accepted, and
`process` returns the claimed state as the state of `id`. -/
theorem C66_fails :
    (process sled Ex.env (.reply (Ex.signNt (Ex.mkReply { Ex.ixnState with current := Ex.kc [50] [51] (.simple 1), witnesses := [] } 5 (.basic (Ex.key 40))) 40))
      (after Ex.env Ex.hist)).1 = .ok (some { Ex.ixnState with current := Ex.kc [50] [51] (.simple 1), witnesses := [] }) ∧
    (computeState sled Ex.env Ex.id (after Ex.env Ex.hist)).1 = .ok (some Ex.ixnState) := by
  decide +kernel

end Keriox
