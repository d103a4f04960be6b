import Verif.Build
import Verif.Processor
import Verif.Wire
/-!
# The controller and the witness — `/repo/src/keri/{mod,witness}.rs`, `/repo/src/signer/mod.rs`, `/repo/src/keys/mod.rs`

Poisoned mutexes: see `Poison.lean`.  Not modelled: the `u64` overflow of `sn + 1` (theorems bound the number of
events instead), and the JSON text of the state returned by `respond_single` (the state itself is returned).
-/
namespace Keriox
variable {σ : Type}

/-! ## Key manager -/

/-- a public key with its private key, `/repo/src/keys/mod.rs:7-10, 61-64` -/
structure KeyPair where
  pub : Bytes
  priv : Bytes
  deriving DecidableEq, Repr

/-- `PrivateKey::sign_ed priv msg`, `/repo/src/keys/mod.rs:76-83`; fails when the private key has the wrong length.
A parameter of the model, like `Env`. -/
abbrev SignFn := Bytes → Bytes → Res Bytes

/-- `CryptoBox`, `/repo/src/signer/mod.rs:17-21`; `fresh` lists the key pairs the random generator will still produce (`generate_key_pair`,
82-88) -/
structure CryptoBox where
  signer : KeyPair
  next : KeyPair
  fresh : Nat → KeyPair

/-- `CryptoBox::sign`, `/repo/src/signer/mod.rs:24-26, 77-79` -/
def CryptoBox.sign (sg : SignFn) (km : CryptoBox) (msg : Bytes) : Res Bytes := sg km.signer.priv msg

/-- `CryptoBox::rotate`, `/repo/src/signer/mod.rs:36-48` -/
def CryptoBox.rotate (km : CryptoBox) : CryptoBox := ⟨km.next, km.fresh 0, fun n => km.fresh (n + 1)⟩

/-- `Basic::Ed25519.derive(km.public_key()?)`, `/repo/src/signer/mod.rs:28-30` -/
def CryptoBox.key (km : CryptoBox) : BasicPrefix := ⟨.ed25519, km.signer.pub⟩
/-- `Basic::Ed25519.derive(km.next_public_key()?)`, `/repo/src/signer/mod.rs:32-34` -/
def CryptoBox.nextKey (km : CryptoBox) : BasicPrefix := ⟨.ed25519, km.next.pub⟩

/-! ## Controller -/

/-- `Keri<CryptoBox>` without its processor, `/repo/src/keri/mod.rs:41-45`; `rnd` are the random keys `EventMsgBuilder::new` draws
(event_msg_builder.rs:50-60), used only where the caller sets none -/
structure Controller where
  pre : IdentifierPrefix
  km : CryptoBox
  rnd : BasicPrefix × BasicPrefix

/-- `Keri::new`, keri/mod.rs:84-90 -/
def Controller.new (km : CryptoBox) (rnd : BasicPrefix × BasicPrefix) : Controller := ⟨IdentifierPrefix.default, km, rnd⟩

/-- the builder a controller starts from: `EventMsgBuilder::new(t).with_prefix(&self.prefix)`, keri/mod.rs:123-124, 168-169, 264-265, 289-290 -/
def Controller.builder (env : Env) (c : Controller) (t : EventTypeTag) : Builder :=
  { Builder.new env t c.rnd.1 c.rnd.2 with «prefix» := c.pre }

/-- `ev.sign(vec![AttachedSignaturePrefix::new(Ed25519Sha512, km.sign(&ev.serialize()?)?, 0)], None)`, keri/mod.rs:130-137, 174-181, 240-250,
296-306 -/
def Controller.signEvent (env : Env) (sg : SignFn) (c : Controller) (m : EventMessage) : Res SignedEvent := do
  let b ← m.serialize env
  let s ← c.km.sign sg b
  .ok ⟨m, [⟨0, ⟨.ed25519Sha512, s⟩⟩], none⟩

/-- `self.processor.process(Message::Event(signed.clone()))?; Ok(signed)`, keri/mod.rs:139-144, 182-186, 252-255, 308-311 -/
def submitOwn (o : Ops σ) (env : Env) (r : Res SignedEvent) : StM σ SignedEvent := do
  let e ← StM.lift r
  let _ ← process o env (.event e)
  pure e

/-- the inception event of `incept` (no extra keys) and `incept_with_extra_keys` (no witnesses), keri/mod.rs:122-128, 161-172 -/
def Controller.makeInception (env : Env) (c : Controller) (extra ws : List BasicPrefix) : Res EventMessage :=
  ({ c.builder env .icp with keys := c.km.key :: extra, nextKeys := [c.km.nextKey], witnesses := ws }).build env

/-- a method taking `&mut self` that sets the prefix at its end -/
def Controller.adopt (c : Controller) (r : Res SignedEvent) : Controller :=
  match r with
  | .ok e => { c with pre := e.pre }
  | _ => c

/-- `incept`, keri/mod.rs:118-145, and `incept_with_extra_keys`, keri/mod.rs:157-187: result, controller and database afterwards -/
def Controller.inceptWith (env : Env) (sg : SignFn) (c : Controller) (extra ws : List BasicPrefix) (db : Db) :
    Res SignedEvent × Controller × Db :=
  let r := submitOwn sled env (c.makeInception env extra ws >>= c.signEvent env sg) db
  (r.1, c.adopt r.1, r.2)

/-- `incept`, keri/mod.rs:118-145 -/
def Controller.incept (env : Env) (sg : SignFn) (c : Controller) (ws : List BasicPrefix) (db : Db) :
    Res SignedEvent × Controller × Db := c.inceptWith env sg [] ws db

/-- `incept_with_extra_keys`, keri/mod.rs:157-187 -/
def Controller.inceptExtra (env : Env) (sg : SignFn) (c : Controller) (extra : List BasicPrefix) (db : Db) :
    Res SignedEvent × Controller × Db := c.inceptWith env sg extra [] db

/-- `self.processor.compute_state(&self.prefix)?.ok_or_else(..)`, keri/mod.rs:259-262, 284-287 -/
def Controller.ownState (o : Ops σ) (env : Env) (c : Controller) : StM σ IdState := do
  match ← computeState o env c.pre with
  | some s => pure s
  | none => StM.fail (.semantic "There is no state")

/-- the rotation event built from a state, `make_rotation`, keri/mod.rs:263-272 -/
def Controller.rotationMsg (env : Env) (c : Controller) (s : IdState) : Res EventMessage :=
  ({ c.builder env .rot with sn := s.sn + 1, prev := s.lastDigest, keys := [c.km.key], nextKeys := [c.km.nextKey] }).build env

/-- `rotate` after the keys have been rotated, keri/mod.rs:239-255 -/
def Controller.submitRotation (o : Ops σ) (env : Env) (sg : SignFn) (c : Controller) : StM σ SignedEvent := do
  let s ← c.ownState o env
  submitOwn o env (c.rotationMsg env s >>= c.signEvent env sg)

/-- `rotate`, keri/mod.rs:234-256: the key manager is rotated first, whatever happens afterwards -/
def Controller.rotate (env : Env) (sg : SignFn) (c : Controller) (db : Db) : Res SignedEvent × Controller × Db :=
  let c' := { c with km := c.km.rotate }
  let r := c'.submitRotation sled env sg db
  (r.1, c', r.2)

/-- the seals of `make_ixn`, keri/mod.rs:276-283 -/
def ixnSeals (env : Env) (payload : Option Bytes) : List Seal :=
  match payload with
  | some p => [.digest (env.derive .blake3_256 p)]
  | none => []

/-- the interaction event built from a state, keri/mod.rs:289-294 -/
def Controller.ixnMsg (env : Env) (c : Controller) (payload : Option Bytes) (s : IdState) : Res EventMessage :=
  ({ c.builder env .ixn with sn := s.sn + 1, prev := s.lastDigest, data := ixnSeals env payload }).build env

/-- `make_ixn`, keri/mod.rs:275-312 -/
def Controller.makeIxn (o : Ops σ) (env : Env) (sg : SignFn) (c : Controller) (payload : Option Bytes) : StM σ SignedEvent := do
  let s ← c.ownState o env
  submitOwn o env (c.ixnMsg env payload s >>= c.signEvent env sg)

/-- the sequence number of `interact`, keri/mod.rs:193-199 -/
def Controller.nextSn (o : Ops σ) (c : Controller) : StM σ Nat := do
  match ← getKel o c.pre with
  | some evs =>
    match evs.getLast? with
    | some e => pure (e.sn + 1)
    | none => StM.fail .invalidIdentifierStat
  | none => StM.fail .invalidIdentifierStat

/-- the event of `interact`, keri/mod.rs:200-227: its prior-event digest is the peer's identifier; signed with the Ed25519 key but labelled
ECDSA -/
def Controller.interactEvent (env : Env) (sg : SignFn) (c : Controller) (sn : Nat) (peer : IdentifierPrefix) : Res SignedEvent :=
  match peer with
  | .selfAddressing p => do
    let m ← (Event.mk c.pre sn (.ixn ⟨p, [.digest p]⟩)).toMessage env .json .blake3_256
    let b ← m.serialize env
    let s ← c.km.sign sg b
    .ok ⟨m, [⟨0, ⟨.ecdsaSha256, s⟩⟩], none⟩
  | _ => .err (.semantic "Can interact with SelfAdressing prefixes only")

/-- `interact`, keri/mod.rs:192-232: stores the event without processing it -/
def Controller.interact (o : Ops σ) (env : Env) (sg : SignFn) (c : Controller) (peer : IdentifierPrefix) : StM σ SignedEvent := do
  let sn ← c.nextSn o
  let e ← StM.lift (c.interactEvent env sg sn peer)
  addKel o e c.pre
  pure e

/-- the receipt of `make_rct`, keri/mod.rs:389-401 -/
def Controller.rctFor (env : Env) (m : EventMessage) (ser sig : Bytes) (sl : EventSeal) : Res TReceipt := do
  let body ← ReceiptMsg.toMessage env (env.derive .blake3_256 ser) m.event.content.prefix m.event.content.sn .json
  .ok ⟨body, sl, [⟨0, ⟨.ed25519Sha512, sig⟩⟩]⟩

/-- `make_rct`, keri/mod.rs:375-407 -/
def Controller.makeRct (o : Ops σ) (env : Env) (sg : SignFn) (c : Controller) (m : EventMessage) : StM σ TReceipt := do
  let ser ← StM.lift (m.serialize env)
  let sig ← StM.lift (c.km.sign sg ser)
  match ← getLastEstSeal o env c.pre with
  | some sl => do
    let r ← StM.lift (Controller.rctFor env m ser sig sl)
    let _ ← process o env (.rctT r)
    pure r
  | none => StM.fail (.semantic "No establishment event seal")

/-- the receipt of `generate_ntr`, keri/mod.rs:489-505: it names the key manager's current key, not the controller's prefix -/
def Controller.ntrFor (env : Env) (sg : SignFn) (c : Controller) (m : EventMessage) : Res NtReceipt := do
  let ser ← m.serialize env
  let sig ← c.km.sign sg ser
  let body ← ReceiptMsg.toMessage env (env.derive .blake3_256 ser) m.event.content.prefix m.event.content.sn .json
  .ok ⟨body, [(c.km.key, ⟨.ed25519Sha512, sig⟩)]⟩

/-- `generate_ntr`, keri/mod.rs:485-510 -/
def Controller.generateNtr (o : Ops σ) (env : Env) (sg : SignFn) (c : Controller) (m : EventMessage) : StM σ NtReceipt := do
  let r ← StM.lift (c.ntrFor env sg m)
  addReceiptNt o r m.event.content.prefix
  pure r

/-- one `remove` per receipt read, database/sled/mod.rs:132-136 -/
def removeNts (o : Ops σ) (id : IdentifierPrefix) : List NtReceipt → StM σ Unit
  | [] => pure ()
  | r :: rs => do
    o.remove .rcts id r
    removeNts o id rs

/-- `remove_receipts_nt`, database/sled/mod.rs:131-139 -/
def removeReceiptsNt (o : Ops σ) (id : IdentifierPrefix) : StM σ Unit := do
  match ← getReceiptsNt o id with
  | some rs => removeNts o id rs
  | none => pure ()

/-- `make_ntr`, keri/mod.rs:417-464 -/
def Controller.makeNtr (o : Ops σ) (env : Env) (sg : SignFn) (c : Controller) (m : EventMessage) : StM σ NtReceipt :=
  match c.pre with
  | .basic bp =>
    match m.event.content.data with
    | .icp e =>
      if bp ∈ e.initialWitnesses then c.generateNtr o env sg m
      else StM.fail (.semantic "we are not in a witness list.")
    | .rot e =>
      if bp ∈ e.prune then do
        removeReceiptsNt o m.event.content.prefix
        StM.fail (.semantic "we were removed. no receipt to generate")
      else if bp ∈ e.graft then c.generateNtr o env sg m
      else StM.fail (.semantic "event does not change our status as a witness")
    | _ => StM.fail (.semantic "event without witness modifications")
  | _ => StM.fail (.semantic "we are not a witness - our prefix is not Basic")

/-- `get_state`, keri/mod.rs:466-468 -/
def Controller.getState (o : Ops σ) (env : Env) (c : Controller) : StM σ (Option IdState) := computeState o env c.pre

/-! ## Responding to messages -/

/-- the `map_err` and `.1` of `respond` and `respond_single`, keri/mod.rs:317, 328-330 -/
def parsed {α : Type} (r : IRes α) : Res α :=
  match r with
  | .ok _ a => .ok a
  | .panic => .panic
  | _ => .err (.deserialize "")

/-- `Serialize for IdentifierState` (derived; the flattened key configuration makes it a map), state/mod.rs:23-53: numbers in hexadecimal,
absent previous digests, event types and delegators as `null` -/
def IdState.fields (s : IdState) : List (Bytes × SVal) := [
    (b!"i", .str s.prefix.toStr),
    (b!"s", .str (hexStr s.sn)),
    (b!"d", .str s.lastDigest.toStr),
    (b!"p", match s.lastPrevious with | some p => .str p.toStr | none => .null),
    (b!"et", match s.lastType with | some t => .str t.toStr | none => .null)] ++ s.current.fields ++ [
    (b!"bt", .str (hexStr s.tally)),
    (b!"b", keysSval s.witnesses),
    (b!"di", match s.delegator with | some d => .str d.toStr | none => .null),
    (b!"ee", s.lastEst.sval)]

/-- `serde_json::to_vec(&state)`, keri/mod.rs:322 -/
def IdState.toJson (s : IdState) : Bytes := jsonText (.map s.fields)

/-- `respond_single`, keri/mod.rs:316-325 -/
def respondSingle (bin : Binary) (o : Ops σ) (env : Env) (msg : Bytes) : StM σ (IdentifierPrefix × Bytes) := do
  let d ← StM.lift (parsed (signedMessageP bin msg))
  match ← (StM.lift d.toMessage : StM σ Message).result with
  | .error _ => StM.fail (.deserialize "")
  | .ok m => do
    match ← process o env m with
    | none => StM.fail .invalidIdentifierStat
    | some s => pure (s.prefix, s.toJson)

/-- one message of `respond`'s first pass, keri/mod.rs:334-337 -/
def respondOne (o : Ops σ) (env : Env) (d : SignedEventData) : StM σ Message := do
  let m ← StM.lift d.toMessage
  let _ ← process o env m
  pure m

/-- the messages that were processed without error, in order, keri/mod.rs:332-338 -/
def respondAll (o : Ops σ) (env : Env) : List SignedEventData → StM σ (List Message)
  | [] => pure []
  | d :: ds => do
    let r ← (respondOne o env d).result
    let ms ← respondAll o env ds
    match r with
    | .ok m => pure (m :: ms)
    | .error _ => pure ms

/-- the answer to an inception event: the own log, unless that inception's controller has receipted ours, keri/mod.rs:347-359 -/
def Controller.ownKerl (o : Ops σ) (c : Controller) (e : SignedEvent) : StM σ Bytes :=
  match e.data with
  | .icp _ => do
    let b ← hasReceipt o c.pre 0 e.pre
    if b then pure []
    else do
      match ← getKerl o c.pre with
      | some k => pure k
      | none => StM.fail (.semantic "KEL is empty")
  | _ => pure []

/-- an `unwrap()` of a `Result` -/
def Res.orPanic {α : Type} : Res α → Res α
  | .ok a => .ok a
  | _ => .panic

/-- the answer to one processed message, keri/mod.rs:343-368; anything but an event or a transferable receipt is `todo!()` -/
def Controller.answer (o : Ops σ) (env : Env) (sg : SignFn) (c : Controller) (m : Message) : StM σ Bytes :=
  match m with
  | .event e => do
    let k ← c.ownKerl o e
    let r ← c.makeRct o env sg e.msg
    let b ← StM.lift (r.toData.toCesr env).orPanic
    pure (k ++ b)
  | .rctT _ => pure []
  | _ => StM.lift .panic

/-- the answers that did not fail, concatenated, keri/mod.rs:340-371 -/
def Controller.answers (o : Ops σ) (env : Env) (sg : SignFn) (c : Controller) : List Message → StM σ Bytes
  | [] => pure []
  | m :: ms => do
    let r ← (c.answer o env sg m).result
    let b ← c.answers o env sg ms
    match r with
    | .ok a => pure (a ++ b)
    | .error _ => pure b

/-- `respond`, keri/mod.rs:327-373 -/
def Controller.respond (bin : Binary) (o : Ops σ) (env : Env) (sg : SignFn) (c : Controller) (msg : Bytes) : StM σ Bytes := do
  let ds ← StM.lift (parsed (signedEventStreamP bin msg))
  let ms ← respondAll o env ds
  c.answers o env sg ms

/-! ## Witness -/

/-- `Witness` without its processor, `/repo/src/keri/witness.rs:21-25` -/
structure Witness where
  pre : BasicPrefix
  signer : CryptoBox

/-- `Witness::new`, witness.rs:28-40 -/
def Witness.new (km : CryptoBox) : Witness := ⟨km.key, km⟩

/-- `KeyStateNotice::new_ksn`, `/repo/src/query/key_state_notice.rs:61-73`; the clock reading is an argument -/
def newKsn (s : IdState) (f : Fmt) (now : Timestamp) : Ksn := ⟨SerInfo.new f 0, s, 0, now, []⟩

/-- `ReplyEvent::new_reply`, `/repo/src/query/reply.rs:28-37`, with `SaidEvent::to_message`, event_message/mod.rs:53-68; a placeholder digest
stands in until the real one is known -/
def newReply (env : Env) (k : Ksn) (r : Route) (c : SelfAddressing) (f : Fmt) (now : Timestamp) : Res ReplyMsg := do
  let r0 : ReplyMsg := ⟨SerInfo.new f 0, SelfAddressingPrefix.default, now, r, k⟩
  let v0 ← r0.svalWith env (SerInfo.new f 0) (dummyPrefix c)
  let b ← f.encode env v0
  let v1 ← r0.svalWith env (SerInfo.new f b.length) (dummyPrefix c)
  let b1 ← f.encode env v1
  .ok ⟨SerInfo.new f b.length, env.derive c b1, now, r, k⟩

/-- the signed key state notice of a witness, witness.rs:44-58, 96-108.  `t1` and `t2` are the two clock readings. -/
def Witness.notice (env : Env) (sg : SignFn) (w : Witness) (s : IdState) (t1 t2 : Timestamp) : Res SignedReply := do
  let rpy ← newReply env (newKsn s .json t1) (.replyKsn (.basic w.pre)) .blake3_256 .json t2
  let b ← rpy.serialize env
  let sig ← w.signer.sign sg b
  .ok ⟨rpy, .nonTransferable w.pre ⟨.ed25519Sha512, sig⟩⟩

/-- `get_ksn_for_prefix`, witness.rs:42-59; an unknown prefix or a failing state computation panics (`unwrap`).  A signer that fails also
panics there (witness.rs:53, `sign(..).unwrap()`) and is an error in `process_query` (witness.rs:103); the model says error in both. -/
def Witness.getKsn (o : Ops σ) (env : Env) (sg : SignFn) (w : Witness) (id : IdentifierPrefix) (t1 t2 : Timestamp) : StM σ SignedReply := do
  match ← (computeState o env id).result with
  | .ok (some s) => StM.lift (w.notice env sg s t1 t2)
  | _ => StM.lift .panic

/-- `ReplyType`, `/repo/src/query/mod.rs:105-108` -/
inductive ReplyType where
  | kel (b : Bytes)
  | rep (r : SignedReply)
  deriving DecidableEq, Repr

/-- `process_query`, witness.rs:81-113; a reply route is `todo!()` -/
def Witness.processQuery (o : Ops σ) (env : Env) (sg : SignFn) (w : Witness) (r : Route) (id : IdentifierPrefix) (t1 t2 : Timestamp) :
    StM σ ReplyType :=
  match r with
  | .log => do
    match ← getKerl o id with
    | some b => pure (.kel b)
    | none => StM.fail (.semantic "No identifier in db")
  | .ksn => do
    match ← (computeState o env id).result with
    | .ok (some s) => do
      let rpy ← StM.lift (w.notice env sg s t1 t2)
      pure (.rep rpy)
    | .ok none => StM.fail (.semantic "No id in database")
    | .error _ => StM.lift .panic
  | .replyKsn _ => StM.lift .panic

/-- `process_signed_query`, witness.rs:61-78 -/
def Witness.processSignedQuery (o : Ops σ) (env : Env) (sg : SignFn) (w : Witness) (q : SignedQuery) (t1 t2 : Timestamp) :
    StM σ ReplyType := do
  match ← computeState o env q.signer with
  | none => StM.fail (.semantic "No identifier in db")
  | some s => do
    let b ← StM.lift (q.serialize env).orPanic
    let ok ← StM.lift (s.current.verify env b q.sigs)
    if ok then w.processQuery o env sg q.route q.id t1 t2 else StM.fail .signatureVerification

end Keriox
