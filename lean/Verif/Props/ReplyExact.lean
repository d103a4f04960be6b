import Verif.Props.RctExact
/-!
# C128: exactly which replies are accepted, and which crash the processor

C47 says that accepted replies are authentic and that authentic ones are accepted while everything can be read.  Here the condition is made exact, and
so are the conditions under which `process` never returns.
-/
namespace Keriox

/-! ## Specification -/

/-- by establishment sequence number and time (transferable signatures) or by time alone (a non-transferable signature) the new reply is not older -/
def Fresher (old new : SignedReply) : Prop :=
  match old.signature, new.signature with
  | .transferable s _, .transferable s' _ =>
    s.sn < s'.sn ∨ (s.sn = s'.sn ∧ old.reply.timestamp.micros ≤ new.reply.timestamp.micros)
  | .nonTransferable _ _, .transferable _ _ => False
  | _, .nonTransferable _ _ => old.reply.timestamp.micros ≤ new.reply.timestamp.micros

/-- the signature can be checked and is valid; the log of a transferable signer has to be read for it -/
def SignatureChecked (env : Env) (kel : IdentifierPrefix → List SignedEvent) (bytes : Bytes) (s : Signature) : Prop :=
  SignatureOk env kel bytes s ∧ ∀ sl sigs, s = .transferable sl sigs → Readable (kel sl.prefix)

/-- checking the signature crashes: the log of the signer cannot be read, or an index names no key or weight of the keys that the event it names
has established -/
def SignatureCrashes (env : Env) (kel : IdentifierPrefix → List SignedEvent) (s : Signature) : Prop :=
  ∃ sl sigs, s = .transferable sl sigs ∧ (¬ Readable (kel sl.prefix) ∨ ∃ v kc, (kel sl.prefix)[sl.sn]? = some v ∧
    NamesEvent env v.msg sl.eventDigest ∧ v.data.keyConfig? = some kc ∧ CrashesOn kc sigs)

/-- the digest of the reply is that of its content -/
def DigestOk (env : Env) (r : ReplyMsg) : Prop :=
  ∃ data, r.dummyBytes env r.info.kind r.digest.derivation = .ok data ∧ env.digest r.digest.derivation data = r.digest.digest

/-- the four ways a reply crashes the processor -/
inductive ReplyCrashes (env : Env) (db : Db) (r : SignedReply) : Prop
  /-- its notice names no next keys: it cannot be written to check its signature -/
  | noNext : r.reply.ksn.state.current.nextDigest = none → ReplyCrashes env db r
  /-- checking its signature -/
  | signature (bytes) : r.reply.serialize env = .ok bytes → SignatureCrashes env db.kel r.signature → ReplyCrashes env db r
  /-- the replies accepted before about the same identifier cannot be read -/
  | stored (bytes) : r.reply.serialize env = .ok bytes → SignatureChecked env db.kel bytes r.signature → DigestOk env r.reply →
      (getAccepted sled r.pre db).1 = .panic → ReplyCrashes env db r
  /-- it is fresh, and the log of the identifier cannot be read -/
  | log (bytes) : r.reply.serialize env = .ok bytes → SignatureChecked env db.kel bytes r.signature → DigestOk env r.reply →
      (∀ old ∈ db.replies r.pre, old.reply.route = r.reply.route → Fresher old r) → ¬ Readable (db.kel r.pre) → ReplyCrashes env db r

/-! ## Proof -/

theorem bind_panic_iff {σ α β : Type} {x : StM σ α} {f : α → StM σ β} {s : σ} :
    ((x >>= f) s).1 = .panic ↔ (x s).1 = .panic ∨ ∃ v s', x s = (.ok v, s') ∧ (f v s').1 = .panic := by
  rw [StM.bind_run]
  rcases x s with ⟨r, s'⟩
  cases r with
  | ok v =>
    constructor
    · intro h; exact .inr ⟨v, s', rfl, h⟩
    · rintro (h | ⟨v', s'', h, h'⟩)
      · cases h
      · cases h; exact h'
  | err e => simp
  | panic => simp

theorem badaCompare_fresher {new old : SignedReply} : badaCompare new old = .ok () ↔ Fresher old new := by
  unfold badaCompare Fresher checkDts
  cases hn : new.signature with
  | transferable s g =>
    cases ho : old.signature with
    | transferable s' g' =>
      dsimp only
      by_cases h1 : s'.sn < s.sn
      · simp [h1]
      · rw [if_neg h1]
        by_cases h2 : s'.sn = s.sn
        · rw [if_pos h2]
          by_cases h3 : old.reply.timestamp.micros ≤ new.reply.timestamp.micros
          · simp [h2, h3]
          · rw [if_neg h3]; simp [h2, h3]
        · rw [if_neg h2]; simp [h1, h2]
    | nonTransferable k g' => simp
  | nonTransferable k g =>
    cases ho : old.signature with
    | transferable s' g' =>
      by_cases h3 : old.reply.timestamp.micros ≤ new.reply.timestamp.micros <;> simp [h3]
    | nonTransferable k' g' =>
      by_cases h3 : old.reply.timestamp.micros ≤ new.reply.timestamp.micros <;> simp [h3]

theorem mayReplace_fresher {new old : SignedReply} : MayReplace old new ↔
    old.reply.timestamp.micros ≤ new.reply.ksn.timestamp.micros ∧ Fresher old new := by
  rw [← badaCompare_iff, badaCompare_fresher, and_comm]

theorem badaCompare_np (new old : SignedReply) : badaCompare new old ≠ .panic := by
  unfold badaCompare checkDts
  repeat' split
  all_goals intro h; cases h

theorem keyVerify_np (env : Env) (k : BasicPrefix) (b : Bytes) (s : SelfSigningPrefix) : k.verify env b s ≠ .panic := by
  obtain ⟨kd, kk⟩ := k
  obtain ⟨sd, ss⟩ := s
  cases kd <;> cases sd <;> simp [BasicPrefix.verify]

theorem digestOk_iff {env : Env} {r : ReplyMsg} : r.checkDigest env = .ok () ↔ DigestOk env r := by
  refine ⟨replyDigest_ok, ?_⟩
  rintro ⟨data, h1, h2⟩
  unfold ReplyMsg.checkDigest
  rw [Res.bind_eq_ok]
  exact ⟨data, h1, if_pos (decide_eq_true h2)⟩

theorem ksn_sval (env : Env) (k : Ksn) : (k.sval env = .panic ↔ k.state.current.nextDigest = none) ∧ ∀ e, k.sval env ≠ .err e := by
  unfold Ksn.sval Res.unwrap
  cases k.state.current.nextDigest with
  | none => exact ⟨iff_of_true rfl rfl, fun e h => by cases h⟩
  | some n => exact ⟨iff_of_false (by intro h; cases h) (by simp), fun e h => by cases h⟩

theorem svalWith_np {env : Env} {info : SerInfo} {dig : Bytes} {r : ReplyMsg} : r.svalWith env info dig = .panic ↔ r.ksn.state.current.nextDigest = none := by
  rw [← (ksn_sval env r.ksn).1]
  unfold ReplyMsg.svalWith
  cases h : r.ksn.sval env with
  | ok v => exact iff_of_false (by intro h; cases h) (by simp)
  | err e => exact absurd h ((ksn_sval env r.ksn).2 e)
  | panic => exact iff_of_true rfl rfl

theorem serialize_np {env : Env} {r : ReplyMsg} : r.serialize env = .panic ↔ r.ksn.state.current.nextDigest = none := by
  rw [← svalWith_np (env := env) (info := r.info) (dig := r.digest.toStr)]
  unfold ReplyMsg.serialize
  cases h : r.svalWith env r.info r.digest.toStr with
  | ok v => exact iff_of_false (Clean.encode _ _ _) (by simp)
  | err e => exact iff_of_false (by intro h; cases h) (by simp)
  | panic => exact iff_of_true rfl rfl

theorem replyDigest_np {env : Env} {r : ReplyMsg} (h : r.ksn.state.current.nextDigest ≠ none) : r.checkDigest env ≠ .panic := by
  have hs : ∀ info dig, r.svalWith env info dig ≠ .panic := fun info dig hp => h (svalWith_np.1 hp)
  unfold ReplyMsg.checkDigest ReplyMsg.dummyBytes
  refine Clean.bindRes (Clean.bindRes (hs _ _) fun _ => Clean.bindRes (Clean.encode _ _ _) fun _ => Clean.bindRes (hs _ _) fun _ => Clean.encode _ _ _) fun _ => ?_
  split <;> (intro h; cases h)

theorem getKeys_after (env : Env) (as : List Action) (id : IdentifierPrefix) (hid : id.toStr ≠ []) (n : Nat) (d : SelfAddressingPrefix) :
    ((getKeysAtEvent mapOps env id n d (after env as).abs).1 = .panic ↔ ¬ Readable ((after env as).kel id)) ∧
    ∀ o, (getKeysAtEvent mapOps env id n d (after env as).abs).1 = .ok o ↔ Readable ((after env as).kel id) ∧
      ∃ v kc, ((after env as).kel id)[n]? = some v ∧ NamesEvent env v.msg d ∧ v.data.keyConfig? = some kc ∧ o = some kc := by
  rw [getKeysAtEvent_fst]
  by_cases hR : Readable ((after env as).kel id)
  case neg =>
    rw [(getEvent_after env as _ hid _).2 hR]
    exact ⟨iff_of_true rfl hR, fun o => iff_of_false (by simp) fun h => hR h.1⟩
  rw [(getEvent_after env as _ hid _).1 hR]
  simp only [hR, not_true_eq_false, true_and]
  cases hg : ((after env as).kel id)[n]? with
  | none => simp
  | some g =>
    dsimp only
    have hn := checkDigest_iff (env := env) (m := g.msg) (d := d)
    cases hc : g.msg.checkDigest env d with
    | panic => exact absurd hc (checkDigest_np _ _ _)
    | err er =>
      refine ⟨by simp, fun o => iff_of_false (by simp) ?_⟩
      rintro ⟨v, kc, h, h2, _⟩
      cases h
      rw [hn.2 h2] at hc; cases hc
    | ok b =>
      cases b with
      | false =>
        refine ⟨by simp, fun o => iff_of_false (by simp) ?_⟩
        rintro ⟨v, kc, h, h2, _⟩
        cases h
        rw [hn.2 h2] at hc; cases hc
      | true =>
        dsimp only
        cases hkc : g.data.keyConfig? with
        | none =>
          refine ⟨by simp, fun o => iff_of_false (by simp) ?_⟩
          rintro ⟨v, kc, h, _, h2, _⟩
          cases h
          rw [hkc] at h2; cases h2
        | some kc =>
          refine ⟨by simp, fun o => ⟨fun h => ⟨g, kc, rfl, hn.1 hc, hkc, (Res.ok.inj h).symm⟩, ?_⟩⟩
          rintro ⟨v, kc', h, _, h2, rfl⟩
          cases h
          rw [hkc] at h2
          cases h2
          rfl

theorem verify_after (env : Env) (as : List Action) (bytes : Bytes) (s : Signature) (hs : s.signer.toStr ≠ []) :
    ((verifySignature mapOps env bytes s (after env as).abs).1 = .panic ↔ SignatureCrashes env (after env as).kel s) ∧
    ((verifySignature mapOps env bytes s (after env as).abs).1 = .ok () ↔ SignatureChecked env (after env as).kel bytes s) := by
  unfold verifySignature SignatureCrashes SignatureChecked SignatureOk
  cases s with
  | nonTransferable k g =>
    dsimp only
    rw [StM.bind_run, show (StM.lift (k.verify env bytes g) : StM MapDb Bool) (after env as).abs = (k.verify env bytes g, (after env as).abs) from rfl]
    rw [← verify_iff_sigValid env k bytes g]
    constructor
    · refine iff_of_false ?_ (by rintro ⟨_, _, h, _⟩; cases h)
      cases h : k.verify env bytes g with
      | panic => exact absurd h (keyVerify_np _ _ _ _)
      | err e => simp
      | ok b => cases b <;> (intro h; cases h)
    · cases h : k.verify env bytes g with
      | panic => simp
      | err e => simp
      | ok b => cases b with
        | true => exact iff_of_true rfl ⟨rfl, fun _ _ h => by cases h⟩
        | false => exact iff_of_false (by intro h; cases h) (by simp)
  | transferable sl sigs =>
    dsimp only
    obtain ⟨K1, K2⟩ := getKeys_after env as sl.prefix hs sl.sn sl.eventDigest
    constructor
    · rw [bind_panic_iff, K1]
      constructor
      · rintro (h | ⟨o, s', h, h'⟩)
        · exact ⟨sl, sigs, rfl, .inl h⟩
        · obtain ⟨_, v, kc, h1, h2, h3, rfl⟩ := (K2 o).1 (by rw [h])
          dsimp only at h'
          rw [bind_panic_iff] at h'
          rcases h' with h' | ⟨b, s'', _, h'⟩
          · exact ⟨sl, sigs, rfl, .inr ⟨v, kc, h1, h2, h3, (C23_panic_exact env kc bytes sigs).1 h'⟩⟩
          · cases b <;> cases h'
      · rintro ⟨sl', sigs', h, h'⟩
        cases h
        by_cases hR : Readable ((after env as).kel sl.prefix)
        case neg => exact .inl hR
        rcases h' with h' | ⟨v, kc, h1, h2, h3, h4⟩
        · exact .inl h'
        · have := (K2 (some kc)).2 ⟨hR, v, kc, h1, h2, h3, rfl⟩
          refine .inr ⟨_, _, pair_of_fst this, ?_⟩
          dsimp only
          rw [bind_panic_iff]
          exact .inl ((C23_panic_exact env kc bytes sigs).2 h4)
    · constructor
      · intro h
        obtain ⟨o, a1, h1, h2⟩ := bind_ok_inv h
        obtain ⟨hR, v, kc, g1, g2, g3, rfl⟩ := (K2 o).1 (by rw [h1])
        dsimp only at h2
        obtain ⟨b, a2, h3, h4⟩ := bind_ok_inv h2
        have hb : kc.verify env bytes sigs = .ok b := congrArg Prod.fst h3
        cases b with
        | false => cases h4
        | true => exact ⟨⟨v, kc, g1, g2, g3, validSigs_of_verify hb⟩, fun _ _ h => by cases h; exact hR⟩
      · rintro ⟨⟨v, kc, h1, h2, h3, h4⟩, h5⟩
        have := (K2 (some kc)).2 ⟨h5 sl sigs rfl, v, kc, h1, h2, h3, rfl⟩
        rw [stm_ok_bind (pair_of_fst this)]
        dsimp only
        rw [stm_ok_bind (show StM.lift (kc.verify env bytes sigs) _ = (.ok true, _) by rw [verify_of_validSigs h4]; rfl)]
        rfl

theorem accepted_read (env : Env) (as : List Action) (id : IdentifierPrefix) :
    (getAccepted sled id (after env as)).1 = Tbl.knas.iterValues ((after env as).abs.tables .knas id.toStr) := read_run .knas id _ (after_inv env as)

/-- the stored reply of a route, as found among the replies read -/
theorem onRoute_iff (env : Env) (as : List Action) (id : IdentifierPrefix) (o : Option (List SignedReply)) (route : Route) (P : SignedReply → Prop)
    (hP : ∀ v v' : SignedReply, v'.signature = v.signature → v'.reply.timestamp = v.reply.timestamp → (P v' ↔ P v))
    (ho : Tbl.knas.iterValues ((after env as).abs.tables .knas id.toStr) = .ok o) :
    (∀ old, onRoute (o.getD []) route = some old → P old) ↔ ∀ old ∈ (after env as).replies id, old.reply.route = route → P old := by
  have hd := iterValues_decAll ho
  have hnd : ((o.getD []).map (·.reply.route)).Nodup := by rw [decAll_routes hd]; exact (after_acc env as _).distinct
  constructor
  · intro h old hold hr
    obtain ⟨n, hn, hdec⟩ := decAll_mem_of hd old hold
    have hs := SignedReply.dec_same hdec
    have hnr : n.reply.route = route := by rw [hs.1, hr]
    rw [← hP old n hs.2.1 hs.2.2.1]
    apply h
    cases hf : onRoute (o.getD []) route with
    | none =>
      have := List.find?_eq_none.1 hf n hn
      simp [hnr] at this
    | some m =>
      have hm := List.mem_of_find?_eq_some hf
      have hp : m.reply.route = route := by simpa using List.find?_some hf
      rw [nodup_map_inj hnd hn hm (by rw [hp, hnr])]
  · intro h old hold
    obtain ⟨v, hv, hdec⟩ := decAll_mem hd old (List.mem_of_find?_eq_some hold)
    have hs := SignedReply.dec_same hdec
    have hroute : old.reply.route = route := by simpa using List.find?_some hold
    rw [hP v old hs.2.1 hs.2.2.1]
    exact h v hv (by rw [← hs.1, hroute])

theorem Fresher.left_iff {r : SignedReply} (v v' : SignedReply) (h1 : v'.signature = v.signature) (h2 : v'.reply.timestamp = v.reply.timestamp) :
    Fresher v' r ↔ Fresher v r := by
  unfold Fresher
  rw [h1, h2]

theorem MayReplace.left_iff {r : SignedReply} (v v' : SignedReply) (h1 : v'.signature = v.signature) (h2 : v'.reply.timestamp = v.reply.timestamp) :
    MayReplace v' r ↔ MayReplace v r := by
  unfold MayReplace
  rw [h1, h2]

/-- C128: a reply is accepted if and only if its route names its signer, its signature is valid and can be checked, its digest is right, the
replies accepted before about the same identifier can be read and the one of the same route may be replaced, and the log of the identifier can be
read and its last event has the number and digest of the notice. -/
theorem C128_accepted_exact (env : Env) (as : List Action) (r : SignedReply) (hp : r.pre.toStr ≠ []) (hs : r.signature.signer.toStr ≠ []) :
    (process sled env (.reply r) (after env as)).1.isOk = true ↔
      r.reply.route = .replyKsn r.signature.signer ∧
      (∃ bytes, r.reply.serialize env = .ok bytes ∧ SignatureChecked env (after env as).kel bytes r.signature) ∧
      DigestOk env r.reply ∧
      (∃ o, (getAccepted sled r.pre (after env as)).1 = .ok o) ∧
      (∀ old ∈ (after env as).replies r.pre, old.reply.route = r.reply.route → MayReplace old r) ∧
      Readable ((after env as).kel r.pre) ∧
      ∃ e, ((after env as).kel r.pre).getLast? = some e ∧ e.sn = r.reply.ksn.state.sn ∧ NamesEvent env e.msg r.reply.ksn.state.lastDigest := by
  constructor
  · intro h
    obtain ⟨st, h⟩ := Res.ok_of_isOk h
    have hau := C47_accepted_authentic env as r st hp hs h
    rw [show (process sled env (.reply r) (after env as)).1 = _ from (processSignedReply_sim sled_sim env r _ (after_inv env as)).1] at h
    obtain ⟨aid, bytes, o, ok, _⟩ := signedReply_ok h
    refine ⟨hau.route, ⟨bytes, ok.ser, (verify_after env as bytes r.signature hs).2.1 ok.sig⟩, hau.digest, ⟨o, by rw [accepted_read]; exact ok.stored⟩, ?_, ?_, hau.current⟩
    · rw [← onRoute_iff env as r.pre o r.reply.route (MayReplace · r) MayReplace.left_iff ok.stored, ok.route]
      intro old hold
      exact badaCompare_iff.1 (ok.newer old hold)
    · obtain ⟨e, he, _⟩ := ok.event
      exact Classical.byContradiction fun hR => by rw [(getEvent_after env as _ hp _).2 hR] at he; cases he
  · rintro ⟨h1, ⟨bytes, h2, h3⟩, h4, ⟨o, h5⟩, h6, h7, e, he1, he2, he3⟩
    rw [show (process sled env (.reply r) (after env as)).1 = _ from (processSignedReply_sim sled_sim env r _ (after_inv env as)).1]
    rw [accepted_read] at h5
    have hne : (after env as).kel r.pre ≠ [] := by intro h0; rw [h0] at he1; simp at he1
    obtain ⟨st, hl, hc⟩ := computeState_log env as r.pre hp hne h7
    have hidx : ((after env as).kel r.pre)[e.sn]? = some e := by
      have hm := List.getLast?_eq_getElem? (l := (after env as).kel r.pre) ▸ he1
      rw [hl.sn_eq hp hm]; exact hm
    rw [replyOk_accepts (aid := r.signature.signer) (bytes := bytes) (o := o) ⟨h1, rfl, h2, (verify_after env as bytes r.signature hs).2.2 h3, digestOk_iff.2 h4, h5, ?_, ?_, ?_⟩]
    · rfl
    · rw [← onRoute_iff env as r.pre o r.reply.route (MayReplace · r) MayReplace.left_iff h5, h1] at h6
      intro old hold
      exact badaCompare_iff.2 (h6 old hold)
    · rw [(getEvent_after env as _ hp _).1 h7, ← he2, hidx]
      exact ⟨e, rfl, names_checkDigest he3⟩
    · refine ⟨st, ?_, ?_⟩
      · rw [← (computeState_sim sled_sim env _ _ (after_inv env as)).1]; exact hc
      · have hf := (hl.facts hp).2.1 hne
        have hm := List.getLast?_eq_getElem? (l := (after env as).kel r.pre) ▸ he1
        have := hl.sn_eq hp hm
        have := hf.2.2.1
        omega

/-! ### Crashes -/

theorem ignoring_panic {x : StM MapDb Unit} {e : Error} {a : MapDb} : (ignoring x e a).1 = .panic ↔ (x a).1 = .panic := by
  unfold ignoring
  rw [StM.bind_run]
  rcases hx : x a with ⟨y, a1⟩
  cases y with
  | panic => rw [StM.result_panic hx]
  | ok v => rw [StM.result_ok hx]; exact iff_of_false (by intro h; cases h) (by intro h; cases h)
  | err e' =>
    rw [StM.result_err hx]
    dsimp only
    refine iff_of_false ?_ (by intro h; cases h)
    split <;> (intro h; cases h)

theorem replySignature_panic {env : Env} {r : SignedReply} {a : MapDb} : (replySignature mapOps env r a).1 = .panic ↔
    r.reply.serialize env = .panic ∨ ∃ bytes, r.reply.serialize env = .ok bytes ∧ (verifySignature mapOps env bytes r.signature a).1 = .panic := by
  unfold replySignature
  rw [bind_panic_iff]
  refine or_congr (Iff.rfl) ?_
  constructor
  · rintro ⟨bytes, a', h, h'⟩
    have hb : r.reply.serialize env = .ok bytes := congrArg Prod.fst h
    have ha : a = a' := congrArg Prod.snd h
    subst ha
    refine ⟨bytes, hb, ?_⟩
    rw [StM.bind_run] at h'
    rcases hv : verifySignature mapOps env bytes r.signature a with ⟨x, a1⟩
    cases x with
    | panic => rfl
    | ok u => rw [StM.result_ok hv] at h'; cases h'
    | err e =>
      rw [StM.result_err hv] at h'
      dsimp only at h'
      split at h' <;> cases h'
  · rintro ⟨bytes, hb, h⟩
    refine ⟨bytes, a, by rw [hb]; rfl, ?_⟩
    rw [StM.bind_run, StM.result_panic (pair_of_fst h)]

theorem replySignature_run {env : Env} {r : SignedReply} {a : MapDb} {bytes : Bytes} (hb : r.reply.serialize env = .ok bytes)
    (hv : (verifySignature mapOps env bytes r.signature a).1 = .ok ()) :
    ∃ a1 : MapDb, replySignature mapOps env r a = (.ok (), a1) ∧ a1.tables = a.tables := by
  have ro := verifySignature_ro env bytes r.signature a
  refine ⟨_, ?_, ro⟩
  unfold replySignature
  rw [stm_ok_bind (show StM.lift (r.reply.serialize env) a = (.ok bytes, a) by rw [hb]; rfl), StM.bind_run, StM.result_ok (pair_of_fst hv)]
  rfl

theorem checkKsn_panic (env : Env) (as : List Action) (k : Ksn) (aid : IdentifierPrefix) (hp : k.state.prefix.toStr ≠ []) (o : Option (List SignedReply))
    (ho : Tbl.knas.iterValues ((after env as).abs.tables .knas k.state.prefix.toStr) = .ok o) (a : MapDb) (ha : a.tables = (after env as).abs.tables) :
    (checkKsn mapOps env k aid a).1 = .panic ↔ ¬ Readable ((after env as).kel k.state.prefix) := by
  have hge : (getEventAtSn mapOps k.state.prefix k.state.sn a).1 = (getEventAtSn mapOps k.state.prefix k.state.sn (after env as).abs).1 :=
    getEventAtSn_congr ha _ _
  unfold checkKsn
  by_cases hR : Readable ((after env as).kel k.state.prefix)
  case neg =>
    rw [(getEvent_after env as _ hp _).2 hR] at hge
    exact iff_of_true (bind_panic_iff.2 (.inl hge)) hR
  refine iff_of_false ?_ (not_not_intro hR)
  rw [(getEvent_after env as _ hp _).1 hR] at hge
  rw [bind_panic_iff]
  rintro (h | ⟨x, a1, h, h'⟩)
  · rw [hge] at h; cases h
  have ro := getEventAtSn_ro k.state.prefix k.state.sn a
  rw [h] at ro
  cases x with
  | none => cases h'
  | some e =>
    dsimp only at h' ro
    rw [bind_panic_iff] at h'
    rcases h' with h' | ⟨b, a2, h2, h'⟩
    · exact checkDigest_np _ _ _ h'
    have e2 : a1 = a2 := congrArg Prod.snd h2
    subst e2
    cases b with
    | false => cases h'
    | true =>
      rw [if_pos rfl, bind_panic_iff] at h'
      have hio : Tbl.knas.iterValues (a1.tables .knas k.state.prefix.toStr) = .ok o := by rw [ro, ha]; exact ho
      rcases h' with h' | ⟨u, a3, h3, h'⟩
      · rw [ignoring_panic, checkTimestamp_run, hio] at h'
        dsimp only at h'
        split at h'
        · split at h' <;> cases h'
        · cases h'
      · obtain ⟨i1, _⟩ := ignoring_ok h3
        rw [checkTimestamp_run] at i1
        have t3 : a3.tables = (after env as).abs.tables := by rw [← i1]; simp [ro, ha]
        rw [bind_panic_iff] at h'
        obtain ⟨st, hst⟩ := state_after env as k.state.prefix hp a3 (by rw [t3]) hR
        rcases h' with h' | ⟨y, a4, h4, h'⟩
        · rw [hst] at h'; cases h'
        · cases y with
          | none => cases h'
          | some s =>
            dsimp only at h'
            split at h'
            · cases h'
            · split at h' <;> cases h'

theorem replyNotice_panic {env : Env} {r : SignedReply} {aid : IdentifierPrefix} {a : MapDb} :
    (replyNotice mapOps env r aid a).1 = .panic ↔ (checkKsn mapOps env r.reply.ksn aid a).1 = .panic := by
  unfold replyNotice
  rw [StM.bind_run]
  rcases hx : checkKsn mapOps env r.reply.ksn aid a with ⟨y, a1⟩
  cases y with
  | panic => rw [StM.result_panic hx]; exact iff_of_true rfl rfl
  | ok v => rw [StM.result_ok hx]; exact iff_of_false (by intro h; cases h) (by intro h; cases h)
  | err e =>
    rw [StM.result_err hx]
    dsimp only
    refine iff_of_false ?_ (by intro h; cases h)
    unfold escrowIf
    rw [bind_panic_iff]
    rintro (h | ⟨_, _, _, h⟩)
    · split at h <;> cases h
    · cases h

/-- C128: `process` crashes on a reply if and only if its route names its signer and one of the four conditions holds. -/
theorem C128_crash_exact (env : Env) (as : List Action) (r : SignedReply) (hp : r.pre.toStr ≠ []) (hs : r.signature.signer.toStr ≠ []) :
    (process sled env (.reply r) (after env as)).1 = .panic ↔
      r.reply.route = .replyKsn r.signature.signer ∧ ReplyCrashes env (after env as) r := by
  rw [show (process sled env (.reply r) (after env as)).1 = _ from (processSignedReply_sim sled_sim env r _ (after_inv env as)).1]
  by_cases hrr : r.reply.route = .replyKsn r.signature.signer
  case neg =>
    refine iff_of_false ?_ fun h => hrr h.1
    by_cases hra : ∃ aid, r.reply.route = .replyKsn aid
    · obtain ⟨aid, ha⟩ := hra
      rw [processSignedReply_route ha, if_pos (by rintro rfl; exact hrr ha)]
      intro h; cases h
    · rw [processSignedReply_wrong fun aid ha => hra ⟨aid, ha⟩]
      intro h; cases h
  simp only [hrr, true_and]
  rw [processSignedReply_route hrr, if_neg (by simp)]
  constructor
  · intro h
    rw [bind_panic_iff, replySignature_panic] at h
    rcases h with (h | ⟨bytes, hb, h⟩) | ⟨u, a1, h1, h⟩
    · exact .noNext (serialize_np.1 h)
    · exact .signature bytes hb ((verify_after env as bytes r.signature hs).1.1 h)
    obtain ⟨bytes, hb, hv, t1⟩ := replySignature_ok h1
    have hsig := (verify_after env as bytes r.signature hs).2.1 hv
    have hnx : r.reply.ksn.state.current.nextDigest ≠ none := fun h0 => by rw [serialize_np.2 h0] at hb; cases hb
    rw [bind_panic_iff] at h
    rcases h with h | ⟨u2, a2, h2, h⟩
    · exact absurd h (replyDigest_np hnx)
    have hd : r.reply.checkDigest env = .ok u2 := congrArg Prod.fst h2
    have e2 : a1 = a2 := congrArg Prod.snd h2
    subst e2
    have hdig := digestOk_iff.1 hd
    rw [bind_panic_iff, ignoring_panic] at h
    cases hio : Tbl.knas.iterValues ((after env as).abs.tables .knas r.pre.toStr) with
    | err e => exact absurd hio iterValues_ne_err
    | panic => exact .stored bytes hb hsig hdig (by rw [accepted_read]; exact hio)
    | ok o =>
      rcases h with h | ⟨u3, a3, h3, h⟩
      · rw [badaLogic_run, t1, hio] at h
        dsimp only at h
        split at h
        · exact absurd h (badaCompare_np _ _)
        · cases h
      obtain ⟨i1, i2⟩ := ignoring_ok h3
      rw [badaLogic_run] at i1 i2
      dsimp only at i1
      have t3 : a3.tables = (after env as).abs.tables := by rw [← i1, MapDb.touch_tables]; exact t1
      have hfr : ∀ old ∈ (after env as).replies r.pre, old.reply.route = r.reply.route → Fresher old r := by
        rw [← onRoute_iff env as r.pre o r.reply.route (Fresher · r) Fresher.left_iff hio]
        intro old hold
        rw [t1, hio] at i2
        dsimp only at i2
        rw [← hrr, hold] at i2
        rw [← badaCompare_fresher]
        rcases i2 with i2 | i2
        · exact i2
        · exfalso
          revert i2
          dsimp only
          unfold badaCompare checkDts
          repeat' split
          all_goals intro h; cases h
      refine .log bytes hb hsig hdig hfr ?_
      rw [bind_panic_iff, replyNotice_panic, checkKsn_panic env as r.reply.ksn _ hp o hio a3 t3] at h
      rcases h with h | ⟨u4, a4, h4, h⟩
      · exact h
      exfalso
      have t4 : a4.tables = a3.tables := by
        unfold replyNotice at h4
        rw [StM.bind_run] at h4
        have ro := checkKsn_ro env r.reply.ksn r.signature.signer a3
        rcases hx : checkKsn mapOps env r.reply.ksn r.signature.signer a3 with ⟨y, a5⟩
        rw [hx] at ro
        cases y with
        | panic => rw [StM.result_panic hx] at h4; cases h4
        | ok v => rw [StM.result_ok hx] at h4; cases h4; exact ro
        | err e =>
          rw [StM.result_err hx] at h4
          have := congrArg Prod.fst h4
          dsimp only at this
          obtain ⟨_, _, _, h6⟩ := bind_ok_inv this
          cases h6
      obtain ⟨a5, _, hu⟩ := updateAccepted_run r r.pre a4 o (by rw [t4, t3]; exact hio)
      rw [stm_ok_bind hu] at h
      cases h
  · intro h
    have go : ∀ bytes, r.reply.serialize env = .ok bytes → SignatureChecked env (after env as).kel bytes r.signature → DigestOk env r.reply →
        ∃ a1 : MapDb, a1.tables = (after env as).abs.tables ∧ ∀ f : Unit → StM MapDb (Option IdState),
          (f () a1).1 = .panic → ((replySignature mapOps env r >>= fun _ => StM.lift (r.reply.checkDigest env) >>= f) (after env as).abs).1 = .panic := by
      intro bytes hb hsig hdig
      obtain ⟨a1, h1, t1⟩ := replySignature_run hb ((verify_after env as bytes r.signature hs).2.2 hsig)
      refine ⟨a1, t1, fun f hf => ?_⟩
      rw [stm_ok_bind h1, stm_ok_bind (show StM.lift (r.reply.checkDigest env) a1 = (.ok (), a1) by rw [digestOk_iff.2 hdig]; rfl)]
      exact hf
    have stored : ∀ bytes, r.reply.serialize env = .ok bytes → SignatureChecked env (after env as).kel bytes r.signature → DigestOk env r.reply →
        Tbl.knas.iterValues ((after env as).abs.tables .knas r.pre.toStr) = .panic →
        ((replySignature mapOps env r >>= fun _ => StM.lift (r.reply.checkDigest env) >>= fun _ =>
          ignoring (badaLogic mapOps r) (.query .noSavedReply) >>= fun _ => replyNotice mapOps env r r.signature.signer >>= fun _ =>
          updateAccepted mapOps r r.pre >>= fun _ => pure (some r.reply.ksn.state)) (after env as).abs).1 = .panic := by
      intro bytes hb hsig hdig hio
      obtain ⟨a1, t1, hgo⟩ := go bytes hb hsig hdig
      refine hgo (fun _ => ignoring (badaLogic mapOps r) (.query .noSavedReply) >>= fun _ => replyNotice mapOps env r r.signature.signer >>= fun _ =>
        updateAccepted mapOps r r.pre >>= fun _ => pure (some r.reply.ksn.state)) ?_
      rw [bind_panic_iff, ignoring_panic, badaLogic_run, t1, hio]
      exact .inl rfl
    cases h with
    | noNext h => exact bind_panic_iff.2 (.inl (replySignature_panic.2 (.inl (serialize_np.2 h))))
    | signature bytes hb h =>
      exact bind_panic_iff.2 (.inl (replySignature_panic.2 (.inr ⟨bytes, hb, (verify_after env as bytes r.signature hs).1.2 h⟩)))
    | stored bytes hb hsig hdig h => exact stored bytes hb hsig hdig (by rw [← accepted_read]; exact h)
    | log bytes hb hsig hdig hfr hR =>
      cases hio : Tbl.knas.iterValues ((after env as).abs.tables .knas r.pre.toStr) with
      | err e => exact absurd hio iterValues_ne_err
      | panic => exact stored bytes hb hsig hdig hio
      | ok o =>
        obtain ⟨a1, t1, hgo⟩ := go bytes hb hsig hdig
        refine hgo (fun _ => ignoring (badaLogic mapOps r) (.query .noSavedReply) >>= fun _ => replyNotice mapOps env r r.signature.signer >>= fun _ =>
          updateAccepted mapOps r r.pre >>= fun _ => pure (some r.reply.ksn.state)) ?_
        rw [← onRoute_iff env as r.pre o r.reply.route (Fresher · r) Fresher.left_iff hio, hrr] at hfr
        have hrun := badaLogic_run r a1
        rw [t1, hio] at hrun
        dsimp only at hrun
        have hign : ignoring (badaLogic mapOps r) (.query .noSavedReply) a1 = (.ok (), a1.touch r.pre.toStr) := by
          unfold ignoring
          rw [StM.bind_run]
          cases hf : onRoute (o.getD []) (.replyKsn r.signature.signer) with
          | none =>
            rw [hf] at hrun
            rw [StM.result_err hrun]
            dsimp only
            rw [if_pos rfl]
            rfl
          | some old =>
            rw [hf] at hrun
            dsimp only at hrun
            rw [badaCompare_fresher.2 (hfr old hf)] at hrun
            rw [StM.result_ok hrun]
            rfl
        rw [stm_ok_bind hign, bind_panic_iff, replyNotice_panic]
        exact .inl ((checkKsn_panic env as r.reply.ksn _ hp o hio _ (by rw [MapDb.touch_tables]; exact t1)).2 hR)

/-- C128: a notice without next keys, as of an abandoned identifier, crashes every processor, whatever it has stored and whatever the signature is. -/
theorem C128_no_next_keys (env : Env) (as : List Action) (r : SignedReply) (hp : r.pre.toStr ≠ []) (hs : r.signature.signer.toStr ≠ [])
    (hr : r.reply.route = .replyKsn r.signature.signer) (hn : r.reply.ksn.state.current.nextDigest = none) :
    (process sled env (.reply r) (after env as)).1 = .panic :=
  (C128_crash_exact env as r hp hs).2 ⟨hr, .noNext hn⟩

/-! ## Examples -/

/-- the second index names no key of the rotation -/
def Ex.replyCrash : SignedReply :=
  { Ex.selfReply 5 with signature := .transferable ⟨Ex.id, 1, Ex.rot.dig⟩ [Ex.sig 4 0 (Ex.bytesOr ((Ex.selfReply 5).reply.serialize Ex.env)),
      Ex.sig 5 7 (Ex.bytesOr ((Ex.selfReply 5).reply.serialize Ex.env))] }
/-- a notice about an identifier that has no next keys -/
def Ex.replyNoNext : SignedReply :=
  Ex.signNt (Ex.mkReply { Ex.ixnState with current := { Ex.ixnState.current with nextDigest := none } } 5 (.basic (Ex.key 40))) 40

/-- accepted, crashing by an index, crashing for want of next keys (in an empty database, too), and refused as older -/
example : (process sled Ex.env (.reply (Ex.selfReply 5)) (after Ex.env Ex.hist)).1.isOk = true ∧
    (process sled Ex.env (.reply Ex.replyCrash) (after Ex.env Ex.hist)).1 = .panic ∧
    (process sled Ex.env (.reply Ex.replyNoNext) (after Ex.env Ex.hist)).1 = .panic ∧
    (process sled Ex.env (.reply Ex.replyNoNext) (after Ex.env [])).1 = .panic ∧
    (process sled Ex.env (.reply (Ex.selfReply 4)) (after Ex.env (Ex.hist ++ [.submit (.reply (Ex.selfReply 5))]))).1.isOk = false := by
  decide +kernel
example : ReplyCrashes Ex.env (after Ex.env Ex.hist) Ex.replyCrash :=
  ((C128_crash_exact _ _ _ (by decide +kernel) (by decide +kernel)).1 (by decide +kernel)).2

end Keriox
