import Verif.Props.Notice
import Verif.Props.Panic2
/-!
# C78: crashes with the `query` feature

Any text with a route `/ksn/…` that names no identifier, any reply followed by `-CAA`, any well-formed signed query — whoever signed it —
and any reply that is accepted crash the process that responds to it.
-/
namespace Keriox
variable {σ : Type}

/-! ## Routes -/

/-- a text with version, digest and a route to `/ksn/x` -/
def routeText (info : SerInfo) (d : SelfAddressingPrefix) (x : Bytes) : Bytes :=
  jsonText (.map [(b!"v", .str info.toStr), (b!"d", .str d.toStr), (b!"r", .str (b!"/ksn/" ++ x))])

theorem utf8_ascii_cons' {a : UInt8} {r : Bytes} (ha : a < 0x80) (h : utf8Valid r = true) : utf8Valid (a :: r) = true := by
  unfold utf8Valid
  rwa [if_pos ha]

theorem utf8_ksn {x : Bytes} (h : utf8Valid x = true) : utf8Valid (b!"/ksn/" ++ x) = true :=
  utf8_ascii_cons' (by decide) (utf8_ascii_cons' (by decide) (utf8_ascii_cons' (by decide) (utf8_ascii_cons' (by decide) (utf8_ascii_cons' (by decide) h))))

theorem route_top (info : SerInfo) (d : SelfAddressingPrefix) (x rest : Bytes) (hx : utf8Valid x = true) :
    jsonTop (routeText info d x ++ rest) =
      ([(b!"v", .str info.toStr), (b!"d", .str d.toStr), (b!"r", .str (b!"/ksn/" ++ x))], some rest) := by
  unfold routeText
  rw [jsonTop_written]
  · rfl
  · simp only [SVal.FitsF, SVal.Fits]
    exact ⟨by decide, SerInfo.toStr_utf8 _, by decide, SelfAddressingPrefix.toStr_utf8 _, by decide, utf8_ksn hx, trivial⟩

/-- C78, routes: the text crashes the parser whenever what follows `/ksn/` is not an identifier. -/
theorem C78_fails_route (rd : Readers) (hr : rd.RejectsJson) (info : SerInfo) (d : SelfAddressingPrefix) (hi : info.rt = true) (hd : d.rt = true)
    (x rest : Bytes) (hu : utf8Valid x = true) (hx : ∀ id, IdentifierPrefix.fromStr x ≠ .ok id) :
    signedMessageQ rd (routeText info d x ++ rest) = .panic := by
  have ht := route_top info d x rest hu
  have hi' : desText SerInfo.fromStr (.str info.toStr) = .ok info := by rw [desText_ok]; simpa [SerInfo.rt] using hi
  have hd' : desSA (.str d.toStr) = .ok d := (SelfAddressingPrefix.rt_iff _).1 hd
  have hrt : desText Route.fromStr (.str (b!"/ksn/" ++ x)) = .panic := by
    rw [desText_ok]
    unfold Route.fromStr
    rw [if_pos ((ksn_prefix _).2 ⟨x, rfl⟩)]
    have : (b!"/ksn/" ++ x).drop 5 = x := rfl
    rw [this]
    cases h : IdentifierPrefix.fromStr x with
    | ok id => exact absurd h (hx id)
    | err e => rfl
    | panic => rfl
  have e1 : (jsonTop (routeText info d x ++ rest)).1 = [(b!"v", .str info.toStr), (b!"d", .str d.toStr), (b!"r", .str (b!"/ksn/" ++ x))] := by rw [ht]
  have h1 : jsonMessage desKeyEvent (routeText info d x ++ rest) = .error := by
    refine (not_plain ?_ ?_ ?_ ?_).1 <;> rw [e1]
    · intro v hv; rw [mem_vals (w := .str info.toStr) rfl hv]; exact np_of hi'
    · intro v hv; rw [mem_vals (w := .str d.toStr) rfl hv]; exact np_of hd'
    · simp
    · simp
  have h2 : jsonReply rd.time (routeText info d x ++ rest) = .panic := by
    have hw : ownWalk (envelopeFields rd.time) [(b!"r", .str (b!"/ksn/" ++ x))] [] = .panic := by
      show (tried (desText Route.fromStr) (.str (b!"/ksn/" ++ x)) >>= fun _ => _) = _
      unfold tried
      rw [hrt]
      rfl
    have h3 : desEnvelope rd.time (desReplyData rd.time) [(b!"d", .str d.toStr), (b!"r", .str (b!"/ksn/" ++ x))] = .panic := by
      unfold desEnvelope
      rw [ownField_here _ _ _ _ (by simp), hd', Res.ok_bind, Res.ok_bind]
      show (ownWalk (envelopeFields rd.time) [(b!"r", .str (b!"/ksn/" ++ x))] [] >>= fun _ => _) = _
      rw [hw]
      rfl
    have h4 : desMessage (desEnvelope rd.time (desReplyData rd.time)) (jsonTop (routeText info d x ++ rest)) = .panic := by
      unfold desMessage
      rw [ht, ownField_here _ _ _ _ (by simp), hi', Res.ok_bind, Res.ok_bind]
      show (desEnvelope rd.time (desReplyData rd.time) [(b!"d", .str d.toStr), (b!"r", .str (b!"/ksn/" ++ x))] >>= fun _ => _) = _
      rw [h3]
      rfl
    unfold jsonReply jsonMessage
    rw [h4]
    rfl
  obtain ⟨t, ht'⟩ : ∃ t, routeText info d x ++ rest = 123 :: t := ⟨_, rfl⟩
  unfold signedMessageQ anyMessageP altP
  rw [plain_event_error hr ht' h1]
  simp only [replyMessageP, altP, h2, IRes.andThen]

/-- … and the call. -/
theorem C78_fails_route_respond (o : Ops σ) (env : Env) (sg : SignFn) (c : Controller) (rd : Readers) (hr : rd.RejectsJson) (info : SerInfo)
    (d : SelfAddressingPrefix) (hi : info.rt = true) (hd : d.rt = true) (x rest : Bytes) (hu : utf8Valid x = true)
    (hx : ∀ id, IdentifierPrefix.fromStr x ≠ .ok id) (db : σ) :
    c.respondQ rd o env sg (routeText info d x ++ rest) db = (.panic, db) := by
  have hs : signedStreamQ rd (routeText info d x ++ rest) = .panic := by
    unfold signedStreamQ
    rw [many0P, C78_fails_route rd hr info d hi hd x rest hu hx]
  unfold Controller.respondQ
  rw [hs]
  rfl

/-! ## Messages that crash whoever processes them -/

/-- the message crashes before any answer is made: it cannot be taken apart, or it is a query -/
def Fatal (d : SignedDataQ) : Prop := d.toMessage = .panic ∨ ∃ q, d.toMessage = .ok (.query q)

theorem respondOneQ_fatal (o : Ops σ) (env : Env) {d : SignedDataQ} (h : Fatal d) (db : σ) : respondOneQ o env d db = (.panic, db) := by
  unfold respondOneQ
  rcases h with h | ⟨q, h⟩
  · rw [h]; rfl
  · rw [h]; rfl

theorem respondAllQ_fatal (o : Ops σ) (env : Env) (ds : List SignedDataQ) (h : ∃ d ∈ ds, Fatal d) (db : σ) :
    (respondAllQ o env ds db).1 = .panic := by
  induction ds generalizing db with
  | nil => obtain ⟨_, h, _⟩ := h; cases h
  | cons d ds ih =>
    unfold respondAllQ
    rcases hx : respondOneQ o env d db with ⟨q, db'⟩
    have step : q ≠ .panic → ∃ d ∈ ds, Fatal d := by
      intro hq
      obtain ⟨e, he, hf⟩ := h
      rcases List.mem_cons.1 he with rfl | he
      · rw [respondOneQ_fatal o env hf db] at hx
        cases hx
        exact absurd rfl hq
      · exact ⟨e, he, hf⟩
    cases q with
    | panic => rw [StM.bind_panic (StM.result_panic hx)]
    | ok a =>
      have := ih (step (by simp)) db'
      rcases hy : respondAllQ o env ds db' with ⟨r', db''⟩
      rw [hy] at this
      cases this
      rw [StM.bind_ok (StM.result_ok hx) (StM.bind_panic hy)]
    | err e =>
      have := ih (step (by simp)) db'
      rcases hy : respondAllQ o env ds db' with ⟨r', db''⟩
      rw [hy] at this
      cases this
      rw [StM.bind_ok (StM.result_err hx) (StM.bind_panic hy)]

/-- a stream with a fatal message anywhere in it crashes the call, whatever the database, the signer and the other messages -/
theorem respondQ_fatal (rd : Readers) (o : Ops σ) (env : Env) (sg : SignFn) (c : Controller) (text rest : Bytes) (ds : List SignedDataQ)
    (hp : signedStreamQ rd text = .ok rest ds) (h : ∃ d ∈ ds, Fatal d) (db : σ) : (c.respondQ rd o env sg text db).1 = .panic := by
  unfold Controller.respondQ
  rw [hp]
  show ((respondAllQ o env ds >>= c.answers o env sg) db).1 = _
  have := respondAllQ_fatal o env ds h db
  rcases hx : respondAllQ o env ds db with ⟨r, db'⟩
  rw [hx] at this
  cases this
  rw [StM.bind_panic hx]

/-- C78, queries: a stream with a query whose last attachment is a group of signatures of anybody crashes the call. -/
theorem C78_fails_query (rd : Readers) (o : Ops σ) (env : Env) (sg : SignFn) (c : Controller) (text rest : Bytes) (ds : List SignedDataQ)
    (hp : signedStreamQ rd text = .ok rest ds) (q : QueryMsg) (atts : List Attachment) (g : IdentifierPrefix × List AttachedSignaturePrefix)
    (gs : List (IdentifierPrefix × List AttachedSignaturePrefix)) (hd : ⟨.query q, atts⟩ ∈ ds)
    (ha : atts.getLast? = some (.lastEstSignaturesGroups (g :: gs))) (db : σ) : (c.respondQ rd o env sg text db).1 = .panic := by
  refine respondQ_fatal rd o env sg c text rest ds hp ⟨_, hd, .inr ⟨q.signed g.1 g.2, ?_⟩⟩ db
  show signedQuery (_ + 1) q atts = _
  rw [signedQuery, ha]

/-- C78, empty groups: so does a reply followed by an empty group of couplets (`-CAA`), and a query followed by an empty group of
signatures (`-HAA`). -/
theorem C78_fails_empty_group (rd : Readers) (o : Ops σ) (env : Env) (sg : SignFn) (c : Controller) (text rest : Bytes) (ds : List SignedDataQ)
    (hp : signedStreamQ rd text = .ok rest ds)
    (h : (∃ r atts, ⟨.reply r, atts⟩ ∈ ds ∧ atts.getLast? = some (.receiptCouplets [])) ∨
      ∃ q atts, ⟨.query q, atts⟩ ∈ ds ∧ atts.getLast? = some (.lastEstSignaturesGroups [])) (db : σ) :
    (c.respondQ rd o env sg text db).1 = .panic := by
  rcases h with ⟨r, atts, hd, ha⟩ | ⟨q, atts, hd, ha⟩
  · refine respondQ_fatal rd o env sg c text rest ds hp ⟨_, hd, .inl ?_⟩ db
    show signedReply (_ + 1) r atts = _
    rw [signedReply, ha]
  · refine respondQ_fatal rd o env sg c text rest ds hp ⟨_, hd, .inl ?_⟩ db
    show signedQuery (_ + 1) q atts = _
    rw [signedQuery, ha]

/-- C78, replies: a reply that is accepted is stored, and then the call crashes. -/
theorem C78_fails_reply (rd : Readers) (o : Ops σ) (env : Env) (sg : SignFn) (c : Controller) (text rest : Bytes) (d : SignedDataQ)
    (r : SignedReply) (hp : signedStreamQ rd text = .ok rest [d]) (hd : d.toMessage = .ok (.reply r)) (db db' : σ) (x : Option IdState)
    (ha : process o env (.reply r) db = (.ok x, db')) : c.respondQ rd o env sg text db = (.panic, db') := by
  unfold Controller.respondQ
  rw [hp]
  show (respondAllQ o env [d] >>= c.answers o env sg) db = _
  have h1 : respondOneQ o env d db = (.ok (.reply r), db') := by
    unfold respondOneQ
    rw [hd]
    show (process o env (.reply r) >>= fun _ => pure (Message.reply r)) db = _
    rw [StM.bind_ok ha]
    rfl
  have h2 : respondAllQ o env [d] db = (.ok [.reply r], db') := by
    unfold respondAllQ
    refine StM.bind_ok (StM.result_ok h1) ?_
    rfl
  rw [StM.bind_ok h2]
  unfold Controller.answers
  exact StM.bind_panic (StM.result_panic rfl)

/-! ## Non-vacuity -/
section
open Ex
set_option maxRecDepth 20000

/-- the query of `/repo/src/processor/tests.rs:478`, with its signature group (taken out of its `-VAj` frame) -/
def Ex.signedQry : Bytes := b!"{\"v\":\"KERI10JSON0000c9_\",\"t\":\"qry\",\"d\":\"EEFpGGlsAGe51BgyebzDUAs4ewWYz1HO9rytYVaxDo3c\",\"dt\":\"2022-01-13T15:53:32.020709+00:00\",\"r\":\"ksn\",\"rr\":\"\",\"q\":{\"i\":\"ESZVhKqI9F_UGQAQRYGNwqqdKOMjez7aupox9UZwZcBk\"}}-HABESZVhKqI9F_UGQAQRYGNwqqdKOMjez7aupox9UZwZcBk-AABAAMOLeXG1ClCtSPP4hhtvyoWMLOvMvaiveHCepL3zh1OQcAyn2GzEh2TwjKFyKFGBXD6-blmvg8M8hDMr-yjv6Bw"

/-- readers whose clock reads every timestamp -/
def Ex.clockReaders : Readers := { noReaders with time := clock }

/-- the repository's own signed query crashes every call of `respond` -/
example (o : Ops σ) (env : Env) (sg : SignFn) (c : Controller) (db : σ) : (c.respondQ clockReaders o env sg signedQry db).1 = .panic := by
  have h : (match signedStreamQ clockReaders signedQry with
    | .ok rest [⟨.query _, atts⟩] => match atts.getLast? with
      | some (.lastEstSignaturesGroups (_ :: _)) => true
      | _ => false
    | _ => false) = true := by decide +kernel
  split at h
  · rename_i rest q atts hp
    split at h
    · rename_i g gs ha
      exact C78_fails_query clockReaders o env sg c signedQry rest _ hp q atts g gs (by simp) ha db
    · cases h
  · cases h

/-- so does the repository's own reply followed by an empty group -/
example (o : Ops σ) (env : Env) (sg : SignFn) (c : Controller) (db : σ) : (c.respondQ clockReaders o env sg (rpyText ++ b!"-CAA") db).1 = .panic := by
  have h : (match signedStreamQ clockReaders (rpyText ++ b!"-CAA") with
    | .ok _ [⟨.reply _, atts⟩] => match atts.getLast? with
      | some (.receiptCouplets []) => true
      | _ => false
    | _ => false) = true := by decide +kernel
  split at h
  · rename_i rest r atts hp
    split at h
    · rename_i ha
      exact C78_fails_empty_group clockReaders o env sg c _ rest _ hp (.inl ⟨r, atts, by simp, ha⟩) db
    · cases h
  · cases h

/-- the text of the reply without the last member of the notice, followed by its attachments -/
def Ex.rpyStream (r : SignedReply) : Bytes :=
  let t := bytesOr (r.reply.serialize env)
  t.take (t.length - 10) ++ b!"}}" ++ (match Attachment.toCesrList r.toData.attachments with | .ok b => b | _ => [])

/-- an honest reply, without the member `di`, is stored and crashes the call -/
example (sg : SignFn) (c : Controller) :
    c.respondQ noReaders sled env sg (rpyStream (ntReply 5)) (after env hist) = (.panic, after env (hist ++ [.submit (.reply (ntReply 5))])) ∧
    (after env (hist ++ [.submit (.reply (ntReply 5))])).replies Ex.id = [ntReply 5] := by
  have h : (match signedStreamQ noReaders (rpyStream (ntReply 5)) with
    | .ok _ [d] => (match d.toMessage with | .ok (.reply r) => decide (r = ntReply 5) | _ => false)
    | _ => false) = true := by decide +kernel
  have ha : (process sled env (.reply (ntReply 5)) (after env hist)).1 = .ok (some ixnState) := by decide +kernel
  refine ⟨?_, by decide +kernel⟩
  split at h
  · rename_i rest d hp
    split at h
    · rename_i r hd
      have := of_decide_eq_true h
      subst this
      refine C78_fails_reply noReaders sled env sg c _ rest d _ hp hd _ _ (some ixnState) ?_
      rw [show after env (hist ++ [.submit (.reply (ntReply 5))]) = (process sled env (.reply (ntReply 5)) (after env hist)).2 from by
        rw [after_snoc], ← ha]
    · cases h
  · cases h

/-- a route to no identifier -/
example (o : Ops σ) (env : Env) (sg : SignFn) (c : Controller) (db : σ) :
    c.respondQ noReaders o env sg (routeText (SerInfo.new .json 100) (ntReply 5).reply.digest b!"nobody") db = (.panic, db) := by
  have := C78_fails_route_respond o env sg c noReaders noReaders_reject (SerInfo.new .json 100) (ntReply 5).reply.digest (by decide +kernel)
    (by decide +kernel) b!"nobody" [] (by decide +kernel) (fun i h => by
      have : (match IdentifierPrefix.fromStr b!"nobody" with | .ok _ => false | _ => true) = true := by decide +kernel
      rw [h] at this; cases this) db
  rwa [List.append_nil] at this

end
end Keriox
