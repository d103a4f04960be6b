import Verif.Async
import Verif.QueryWire
/-!
# The lock of the key manager — `/repo/src/keri/mod.rs`

`Keri` keeps its key manager in an `Arc<Mutex<K>>` (keri/mod.rs:43).  A panic while the lock is held poisons the mutex, for ever; a later `lock()` gives an error,
which every method turns into `Error::MutexPoisoned`.  Here the methods of `Keri.lean` are written once more, with the places where they take the lock and how
long they hold it.  The state is the database together with the flag "poisoned".  No part that holds the lock takes it again, so there is no deadlock to model.
-/
namespace Keriox
variable {σ α : Type}

/-- a part of a method that does not touch the lock -/
def onStore (x : StM σ α) : StM (Bool × σ) α := fun s => ((x s.2).1, (s.1, (x s.2).2))

/-- a part of a method that holds the lock: `key_manager.lock().map_err(|_| Error::MutexPoisoned)?` and what follows until the guard is dropped -/
def locked (x : StM (Bool × σ) α) : StM (Bool × σ) α := fun s =>
  if s.1 then (.err .mutexPoisoned, s)
  else match x s with
    | (.ok a, s') => (.ok a, s')
    | (.err e, s') => (.err e, s')
    | (.panic, s') => (.panic, (true, s'.2))

/-- `incept`, keri/mod.rs:118-145, and `incept_with_extra_keys`, 157-187: the guard `km` is a variable and lives until the end of the method, so the
event is processed under the lock -/
def Controller.inceptWithG (env : Env) (sg : SignFn) (c : Controller) (extra ws : List BasicPrefix) (s : Bool × Db) :
    Res SignedEvent × Controller × Bool × Db :=
  let r := locked (onStore (submitOwn sled env (c.makeInception env extra ws >>= c.signEvent env sg))) s
  (r.1, c.adopt r.1, r.2)

/-- the second half of `rotate`, keri/mod.rs:239-255: `make_rotation` builds under the lock (the guard of the `match` lives through its arms, 263-272), then
the signature is made under the lock (243-246), then the event is processed without it -/
def Controller.submitRotationG (env : Env) (sg : SignFn) (c : Controller) : StM (Bool × Db) SignedEvent := do
  let s ← onStore (c.ownState sled env)
  let m ← locked (StM.lift (c.rotationMsg env s))
  let e ← locked (StM.lift (c.signEvent env sg m))
  let _ ← onStore (process sled env (.event e))
  pure e

/-- `rotate`, keri/mod.rs:234-256: the first thing is to take the lock and rotate the keys -/
def Controller.rotateG (env : Env) (sg : SignFn) (c : Controller) (s : Bool × Db) : Res SignedEvent × Controller × Bool × Db :=
  if s.1 then (.err .mutexPoisoned, c, s)
  else
    let c' := { c with km := c.km.rotate }
    let r := c'.submitRotationG env sg s
    (r.1, c', r.2)

/-- `make_ixn`, keri/mod.rs:275-312: the lock is held while the event is encoded and signed (299-302) -/
def Controller.makeIxnG (env : Env) (sg : SignFn) (c : Controller) (payload : Option Bytes) : StM (Bool × Db) SignedEvent := do
  let s ← onStore (c.ownState sled env)
  let m ← StM.lift (c.ixnMsg env payload s)
  let e ← locked (StM.lift (c.signEvent env sg m))
  let _ ← onStore (process sled env (.event e))
  pure e

/-- `interact`, keri/mod.rs:192-232: the lock is held while signing (217-221) -/
def Controller.interactG (env : Env) (sg : SignFn) (c : Controller) (peer : IdentifierPrefix) : StM (Bool × Db) SignedEvent := do
  let sn ← onStore (c.nextSn sled)
  match peer with
  | .selfAddressing p => do
    let m ← StM.lift ((Event.mk c.pre sn (.ixn ⟨p, [.digest p]⟩)).toMessage env .json .blake3_256)
    let b ← StM.lift (m.serialize env)
    let sig ← locked (StM.lift (c.km.sign sg b))
    let e : SignedEvent := ⟨m, [⟨0, ⟨.ecdsaSha256, sig⟩⟩], none⟩
    onStore (addKel sled e c.pre)
    pure e
  | _ => StM.fail (.semantic "Can interact with SelfAdressing prefixes only")

/-- `make_rct`, keri/mod.rs:375-407: the lock is held while signing (380-384) -/
def Controller.makeRctG (env : Env) (sg : SignFn) (c : Controller) (m : EventMessage) : StM (Bool × Db) TReceipt := do
  let ser ← StM.lift (m.serialize env)
  let sig ← locked (StM.lift (c.km.sign sg ser))
  match ← onStore (getLastEstSeal sled env c.pre) with
  | some sl => do
    let r ← StM.lift (Controller.rctFor env m ser sig sl)
    let _ ← onStore (process sled env (.rctT r))
    pure r
  | none => StM.fail (.semantic "No establishment event seal")

/-- `generate_ntr`, keri/mod.rs:485-510: the lock is held while the event is encoded and signed (491-497) -/
def Controller.generateNtrG (env : Env) (sg : SignFn) (c : Controller) (m : EventMessage) : StM (Bool × Db) NtReceipt := do
  let sig ← locked (StM.lift (m.serialize env >>= c.km.sign sg))
  let ser ← StM.lift (m.serialize env)
  let body ← StM.lift (ReceiptMsg.toMessage env (env.derive .blake3_256 ser) m.event.content.prefix m.event.content.sn .json)
  let r : NtReceipt := ⟨body, [(c.km.key, ⟨.ed25519Sha512, sig⟩)]⟩
  onStore (addReceiptNt sled r m.event.content.prefix)
  pure r

/-- `make_ntr`, keri/mod.rs:417-464 -/
def Controller.makeNtrG (env : Env) (sg : SignFn) (c : Controller) (m : EventMessage) : StM (Bool × Db) NtReceipt :=
  match c.pre with
  | .basic bp =>
    match m.event.content.data with
    | .icp e =>
      if bp ∈ e.initialWitnesses then c.generateNtrG env sg m
      else StM.fail (.semantic "we are not in a witness list.")
    | .rot e =>
      if bp ∈ e.prune then do
        onStore (removeReceiptsNt sled m.event.content.prefix)
        StM.fail (.semantic "we were removed. no receipt to generate")
      else if bp ∈ e.graft then c.generateNtrG env sg m
      else StM.fail (.semantic "event does not change our status as a witness")
    | _ => StM.fail (.semantic "event without witness modifications")
  | _ => StM.fail (.semantic "we are not a witness - our prefix is not Basic")

/-- the answer to one processed message, keri/mod.rs:343-368 -/
def Controller.answerG (env : Env) (sg : SignFn) (c : Controller) (m : Message) : StM (Bool × Db) Bytes :=
  match m with
  | .event e => do
    let k ← onStore (c.ownKerl sled e)
    let r ← c.makeRctG env sg e.msg
    let b ← StM.lift (r.toData.toCesr env).orPanic
    pure (k ++ b)
  | .rctT _ => pure []
  | _ => StM.lift .panic

/-- the answers that did not fail, concatenated, keri/mod.rs:340-371 -/
def Controller.answersG (env : Env) (sg : SignFn) (c : Controller) : List Message → StM (Bool × Db) Bytes
  | [] => pure []
  | m :: ms => do
    let r ← (c.answerG env sg m).result
    let b ← c.answersG env sg ms
    match r with
    | .ok a => pure (a ++ b)
    | .error _ => pure b

/-- `respond`, keri/mod.rs:327-373: the messages are processed without the lock -/
def Controller.respondG (bin : Binary) (env : Env) (sg : SignFn) (c : Controller) (msg : Bytes) : StM (Bool × Db) Bytes := do
  let ds ← StM.lift (parsed (signedEventStreamP bin msg))
  let ms ← onStore (respondAll sled env ds)
  c.answersG env sg ms

/-- `respond` with the `query` feature, keri/mod.rs:327-373 -/
def Controller.respondQG (rd : Readers) (env : Env) (sg : SignFn) (c : Controller) (msg : Bytes) : StM (Bool × Db) Bytes := do
  let ds ← StM.lift (parsed (signedStreamQ rd msg))
  let ms ← onStore (respondAllQ sled env ds)
  c.answersG env sg ms

/-- the answer of the stream processor to a message, async_processing.rs:137-153 -/
def Controller.streamG (bin : Binary) (env : Env) (sg : SignFn) (c : Controller) (msg : Bytes) : StM (Bool × Db) (IdentifierPrefix × Async.Reply) := do
  let r ← onStore (respondSingle bin sled env msg)
  match altP (jsonMessage desKeyEvent) bin.event msg with
  | .ok _ e => do
    match ← (c.makeNtrG env sg ⟨e.1, e.2⟩).result with
    | .ok rcp => do
      let b ← StM.lift (rcp.toData.toCesr env)
      pure (r.1, .receipt b)
    | .error _ => pure (r.1, .state r.2)
  | _ => StM.lift .panic

end Keriox
