import Verif.Db
/-!
# Event processor — `/repo/src/processor/mod.rs` over the database API `/repo/src/database/sled/mod.rs`

Every function takes the database operations `o`; `o = sled` is the real database.
-/
namespace Keriox
variable {σ : Type}

/-! ## `SledEventDatabase` API, database/sled/mod.rs -/

/-- `get_kel_finalized_events`, 80-86 -/
def getKel (o : Ops σ) (id : IdentifierPrefix) : StM σ (Option (List SignedEvent)) := o.read .kels id
/-- `add_kel_finalized_event`, 71-78 -/
def addKel (o : Ops σ) (e : SignedEvent) (id : IdentifierPrefix) : StM σ Unit := o.push .kels id e.stored
/-- `remove_kel_finalized_event`, 88-95 -/
def removeKel (o : Ops σ) (id : IdentifierPrefix) (e : SignedEvent) : StM σ Unit := o.remove .kels id e.stored
/-- `add_duplicious_event`, 215-222 -/
def addDup (o : Ops σ) (e : SignedEvent) (id : IdentifierPrefix) : StM σ Unit := o.push .dels id e.stored
/-- `get_duplicious_events`, 224-230 -/
def getDup (o : Ops σ) (id : IdentifierPrefix) : StM σ (Option (List SignedEvent)) := o.read .dels id
/-- `get_likely_duplicitous_events`, 207-213 -/
def getLikelyDup (o : Ops σ) (id : IdentifierPrefix) : StM σ (Option (List EventMessage)) := o.read .ldes id
/-- `add_receipt_t`, 97-104 -/
def addReceiptT (o : Ops σ) (r : TReceipt) (id : IdentifierPrefix) : StM σ Unit := o.push .vrcs id r
/-- `get_receipts_t`, 106-112 -/
def getReceiptsT (o : Ops σ) (id : IdentifierPrefix) : StM σ (Option (List TReceipt)) := o.read .vrcs id
/-- `add_receipt_nt`, 114-121 -/
def addReceiptNt (o : Ops σ) (r : NtReceipt) (id : IdentifierPrefix) : StM σ Unit := o.push .rcts id r
/-- `get_receipts_nt`, 123-129 -/
def getReceiptsNt (o : Ops σ) (id : IdentifierPrefix) : StM σ (Option (List NtReceipt)) := o.read .rcts id
/-- `add_escrow_t_receipt`, 141-148 -/
def addEscrowT (o : Ops σ) (r : TReceipt) (id : IdentifierPrefix) : StM σ Unit := o.push .vres id r
/-- `get_escrow_t_receipts`, 150-156 -/
def getEscrowT (o : Ops σ) (id : IdentifierPrefix) : StM σ (Option (List TReceipt)) := o.read .vres id
/-- `add_escrow_nt_receipt`, 167-174 -/
def addEscrowNt (o : Ops σ) (r : NtReceipt) (id : IdentifierPrefix) : StM σ Unit := o.push .ures id r
/-- `get_escrow_nt_receipts`, 176-182 -/
def getEscrowNt (o : Ops σ) (id : IdentifierPrefix) : StM σ (Option (List NtReceipt)) := o.read .ures id
/-- `get_accepted_replys`, 258-265 -/
def getAccepted (o : Ops σ) (id : IdentifierPrefix) : StM σ (Option (List SignedReply)) := o.read .knas id
/-- `update_accepted_reply`, 232-256 -/
def updateAccepted (o : Ops σ) (r : SignedReply) (id : IdentifierPrefix) : StM σ Unit := do
  match ← o.read .knas id with
  | some rs => o.put .knas id ((rs.filter fun s => s.reply.route ≠ r.reply.route) ++ [r])
  | none => o.push .knas id r
/-- `add_escrowed_reply`, 277-281 -/
def addEscrowed (o : Ops σ) (r : SignedReply) (id : IdentifierPrefix) : StM σ Unit := o.push .knes id r
/-- `get_escrowed_replys`, 283-290 -/
def getEscrowed (o : Ops σ) (id : IdentifierPrefix) : StM σ (Option (List SignedReply)) := o.read .knes id
/-- `remove_escrowed_reply`, 292-300 -/
def removeEscrowed (o : Ops σ) (id : IdentifierPrefix) (r : SignedReply) : StM σ Unit := o.remove .knes id r

/-! ## `EventProcessor` -/

/-- insertion step of a stable sort by sequence number -/
def insertBySn (e : SignedEvent) : List SignedEvent → List SignedEvent
  | [] => [e]
  | x :: xs => if e.sn ≤ x.sn then e :: x :: xs else x :: insertBySn e xs

/-- `Vec::sort` with the `Ord` of `TimestampedSignedEventMessage` (sequence number only),
`signed_event_message.rs:110-145`: a stable sort (its result does not depend on the algorithm) -/
def sortBySn : List SignedEvent → List SignedEvent
  | [] => []
  | x :: xs => insertBySn x (sortBySn xs)

/-- the loop of `compute_state`, processor/mod.rs:55-66 -/
def foldState (env : Env) : IdState → List SignedEvent → Res IdState
  | s, [] => .ok s
  | s, e :: es =>
    match e.applyTo env s with
    | .ok s' => foldState env s' es
    | .err .eventOutOfOrder => foldState env s es
    | .err .notEnoughSigs => foldState env s es
    | .err _ => .ok s
    | .panic => .panic

/-- `compute_state`, processor/mod.rs:48-73 -/
def computeState (o : Ops σ) (env : Env) (id : IdentifierPrefix) : StM σ (Option IdState) := do
  match ← getKel o id with
  | some evs => do
    let s ← StM.lift (foldState env IdState.default (sortBySn evs))
    pure (some s)
  | none => pure none

/-- the strict fold used by `compute_state_at_sn`, processor/mod.rs:88-93 -/
def foldStrict (env : Env) : IdState → List SignedEvent → Res IdState
  | s, [] => .ok s
  | s, e :: es =>
    match e.msg.applyTo env s with
    | .ok s' => foldStrict env s' es
    | .err x => .err x
    | .panic => .panic

/-- `compute_state_at_sn`, processor/mod.rs:79-98 -/
def computeStateAtSn (o : Ops σ) (env : Env) (id : IdentifierPrefix) (sn : Nat) : StM σ (Option IdState) := do
  match ← getKel o id with
  | some evs => do
    let s ← StM.lift (foldStrict env IdState.default ((sortBySn evs).filter fun e => e.sn ≤ sn))
    pure (some s)
  | none => pure none

/-- the loop of `get_last_establishment_event_seal`, processor/mod.rs:111-126: applies the bare events (no digest
chaining) and remembers the last `icp` or `rot` -/
def lastEstLoop (env : Env) : IdState → Option SignedEvent → List SignedEvent → Res (Option SignedEvent)
  | _, last, [] => .ok last
  | s, last, e :: es =>
    match e.msg.event.content.applyTo env s with
    | .ok s' => lastEstLoop env s' (match e.data with | .icp _ => some e | .rot _ => some e | _ => last) es
    | .err x => .err x
    | .panic => .panic

/-- `get_last_establishment_event_seal`, processor/mod.rs:104-134 -/
def getLastEstSeal (o : Ops σ) (env : Env) (id : IdentifierPrefix) : StM σ (Option EventSeal) := do
  match ← getKel o id with
  | some evs => do
    let l ← StM.lift (lastEstLoop env IdState.default none evs)
    pure (l.map fun e => ⟨e.pre, e.sn, e.dig⟩)
  | none => pure none

/-- `signed_event_message.serialize().unwrap_or_default()` of `get_kerl`, processor/mod.rs:144, concatenated -/
def kerlBytes : List SignedEvent → Res Bytes
  | [] => .ok []
  | e :: es =>
    match e.serialize with
    | .ok b => do
      let r ← kerlBytes es
      .ok (b ++ r)
    | .err _ => kerlBytes es
    | .panic => .panic

/-- `get_kerl`, processor/mod.rs:139-151 -/
def getKerl (o : Ops σ) (id : IdentifierPrefix) : StM σ (Option Bytes) := do
  match ← getKel o id with
  | some evs => do
    let b ← StM.lift (kerlBytes evs)
    pure (some b)
  | none => pure none

/-- `get_event_at_sn`, processor/mod.rs:425-435 -/
def getEventAtSn (o : Ops σ) (id : IdentifierPrefix) (sn : Nat) : StM σ (Option SignedEvent) := do
  match ← getKel o id with
  | some evs => pure (evs.find? fun e => e.sn = sn)
  | none => pure none

/-- key configuration of an establishment event, processor/mod.rs:173-183 -/
def EventData.keyConfig? : EventData → Option KeyConfig
  | .icp e => some e.keyConfig
  | .rot e => some e.keyConfig
  | .dip e => some e.inception.keyConfig
  | .drt e => some e.keyConfig
  | .ixn _ => none

/-- `get_keys_at_event`, processor/mod.rs:158-192 -/
def getKeysAtEvent (o : Ops σ) (env : Env) (id : IdentifierPrefix) (sn : Nat) (dig : SelfAddressingPrefix) :
    StM σ (Option KeyConfig) := do
  match ← (getEventAtSn o id sn).result with
  | .ok (some e) => do
    let b ← StM.lift (e.msg.checkDigest env dig)
    if b then
      match e.data.keyConfig? with
      | some kc => pure (some kc)
      | none => StM.fail (.semantic "Receipt binding incorrect")
    else StM.fail (.semantic "Event digests doesn't match")
  | _ => StM.fail .eventOutOfOrder

/-- seal list of a delegating event, processor/mod.rs:207-217 -/
def EventData.anchors? : EventData → Option (List Seal)
  | .rot e => some e.data
  | .ixn e => some e.data
  | .drt e => some e.data
  | _ => none

/-- `data.iter().any(..)`, processor/mod.rs:220-223; `check_digest(..).unwrap()` panics on an error -/
def anySealMatches (env : Env) (m : EventMessage) : List Seal → Res Bool
  | [] => .ok false
  | .event es :: r =>
    match m.checkDigest env es.eventDigest with
    | .ok true => .ok true
    | .ok false => anySealMatches env m r
    | _ => .panic
  | _ :: r => anySealMatches env m r

/-- `validate_seal`, processor/mod.rs:199-232 (the seal's digest is not used) -/
def validateSeal (o : Ops σ) (env : Env) (sl : EventSeal) (m : EventMessage) : StM σ Unit := do
  match ← (getEventAtSn o sl.prefix sl.sn).result with
  | .ok (some e) =>
    match e.data.anchors? with
    | some data => do
      let b ← StM.lift (anySealMatches env m data)
      if b then pure () else StM.fail (.semantic "Data field doesn't contain delegating event seal.")
    | none => StM.fail (.semantic "Improper event type")
  | _ => StM.fail .eventOutOfOrder

/-- `has_receipt`, processor/mod.rs:234-247 -/
def hasReceipt (o : Ops σ) (id : IdentifierPrefix) (sn : Nat) (validator : IdentifierPrefix) : StM σ Bool := do
  match ← getReceiptsT o id with
  | some rs => pure (rs.any fun r => r.body.sn = sn && r.validatorSeal.prefix = validator)
  | none => pure false

/-- the delegation check of `process_event`, processor/mod.rs:291-329 -/
def checkDelegation (o : Ops σ) (env : Env) (e : SignedEvent) : StM σ Unit :=
  match e.data with
  | .dip d =>
    match e.delegatorSeal with
    | some s => validateSeal o env ⟨d.delegator, s.sn, s.digest⟩ e.msg
    | none => StM.fail (.semantic "Missing source seal")
  | .drt _ => do
    match ← computeState o env e.pre with
    | none => StM.fail (.semantic "Missing state of delegated identifier")
    | some st =>
      match st.delegator with
      | none => StM.fail (.semantic "Missing delegator")
      | some del =>
        match e.delegatorSeal with
        | some s => validateSeal o env ⟨del, s.sn, s.digest⟩ e.msg
        | none => StM.fail (.semantic "Missing source seal")
  | _ => pure ()

/-- `apply_to_state`, processor/mod.rs:437-444 -/
def applyToState (o : Ops σ) (env : Env) (m : EventMessage) : StM σ IdState := do
  let s ← computeState o env m.event.content.prefix
  StM.lift (m.applyTo env (s.getD IdState.default))

/-- the verification result of `process_event`, processor/mod.rs:336-349, as a `Result<IdentifierState, Error>` -/
def verifyOutcome (env : Env) (new : IdState) (bytes : Bytes) (sigs : List AttachedSignaturePrefix) : Res IdState := do
  let b ← new.current.verify env bytes sigs
  if b then .ok new else .err .signatureVerification

/-- `if let Error::EventDuplicateError = e`, processor/mod.rs:348-350 -/
def noteDup (o : Ops σ) (e : SignedEvent) (err : Error) : StM σ Unit :=
  if err = .eventDuplicate then addDup o e e.pre else pure ()

/-- the second half of `process_event`, processor/mod.rs:333-357: store, verify, clean up on failure -/
def storeAndVerify (o : Ops σ) (env : Env) (e : SignedEvent) (new : IdState) : StM σ (Option IdState) := do
  addKel o e e.pre
  let bytes ← StM.lift (e.msg.serialize env)
  match ← (StM.lift (verifyOutcome env new bytes e.sigs) : StM σ IdState).result with
  | .ok st => pure (some st)
  | .error err => do
    noteDup o e err
    removeKel o e.pre e
    StM.fail err

/-- `process_event`, processor/mod.rs:282-358 -/
def processEvent (o : Ops σ) (env : Env) (e : SignedEvent) : StM σ (Option IdState) := do
  checkDelegation o env e
  let new ← applyToState o env e.msg
  storeAndVerify o env e new

/-- first part of `process_validator_receipt`, processor/mod.rs:369-389 -/
def validatorReceiptStep (o : Ops σ) (env : Env) (r : TReceipt) : StM σ Unit := do
  match ← (getEventAtSn o r.body.prefix r.body.sn).result with
  | .ok (some e) => do
    let kp ← getKeysAtEvent o env r.validatorSeal.prefix r.validatorSeal.sn r.validatorSeal.eventDigest
    match kp with
    | some kc => do
      let bytes ← StM.lift (e.msg.serialize env)
      let b ← StM.lift (kc.verify env bytes r.sigs)
      if b then addReceiptT o r r.body.prefix else StM.fail (.semantic "Incorrect receipt signatures")
    | none => StM.fail (.semantic "Incorrect receipt signatures")
  | _ => do
    addEscrowT o r r.body.prefix
    StM.fail (.semantic "Receipt escrowed")

/-- `process_validator_receipt`, processor/mod.rs:365-391 -/
def processValidatorReceipt (o : Ops σ) (env : Env) (r : TReceipt) : StM σ (Option IdState) := do
  validatorReceiptStep o env r
  computeState o env r.body.prefix

/-- the last error among the couplet checks (`errors.pop()`), processor/mod.rs:407-417 -/
def lastErr : List (Res Bool) → Option Error
  | [] => none
  | r :: rs =>
    match lastErr rs with
    | some e => some e
    | none => match r with
      | .err e => some e
      | _ => none

/-- first part of `process_witness_receipt`, processor/mod.rs:403-421: an `Ok(false)` check counts as success -/
def witnessReceiptStep (o : Ops σ) (env : Env) (r : NtReceipt) : StM σ Unit := do
  match ← (getEventAtSn o r.body.prefix r.body.sn).result with
  | .ok (some e) => do
    let ser ← StM.lift e.serialize
    match lastErr (r.couplets.map fun c => c.1.verify env ser c.2) with
    | none => addReceiptNt o r r.body.prefix
    | some err => StM.fail err
  | _ => addEscrowNt o r r.body.prefix

/-- `process_witness_receipt`, processor/mod.rs:399-423 -/
def processWitnessReceipt (o : Ops σ) (env : Env) (r : NtReceipt) : StM σ (Option IdState) := do
  witnessReceiptStep o env r
  computeState o env r.body.prefix

/-- `verify`, processor/mod.rs:446-459 -/
def verifySignature (o : Ops σ) (env : Env) (data : Bytes) (s : Signature) : StM σ Unit :=
  match s with
  | .transferable sl sigs => do
    match ← getKeysAtEvent o env sl.prefix sl.sn sl.eventDigest with
    | some kc => do
      let b ← StM.lift (kc.verify env data sigs)
      if b then pure () else StM.fail .signatureVerification
    | none => StM.fail .signatureVerification
  | .nonTransferable k sig => do
    let b ← StM.lift (k.verify env data sig)
    if b then pure () else StM.fail .signatureVerification

/-- `check_dts`, processor/mod.rs:470-478 -/
def checkDts (new old : ReplyMsg) : Res Unit :=
  if old.timestamp.micros ≤ new.timestamp.micros then .ok () else .err (.query .staleRpy)

/-- the comparison of `bada_logic` for the reply found, processor/mod.rs:494-517, 526-527 -/
def badaCompare (new old : SignedReply) : Res Unit :=
  match new.signature with
  | .transferable sl _ =>
    match old.signature with
    | .transferable osl _ =>
      if osl.sn < sl.sn then .ok ()
      else if osl.sn = sl.sn then checkDts new.reply old.reply
      else .err (.query .staleRpy)
    | .nonTransferable _ _ => .err (.query (.other "Improper signature type. Should be transferable."))
  | .nonTransferable _ _ => checkDts new.reply old.reply

/-- `bada_logic`, processor/mod.rs:462-530: the stored reply looked for is the one whose route names the signer -/
def badaLogic (o : Ops σ) (new : SignedReply) : StM σ Unit := do
  let acc ← getAccepted o new.pre
  match acc.bind fun rs => rs.find? fun r => r.reply.route = .replyKsn new.signature.signer with
  | some old => StM.lift (badaCompare new old)
  | none => StM.fail (.query .noSavedReply)

/-- `check_timestamp_with_last_ksn`, processor/mod.rs:577-604 -/
def checkTimestamp (o : Ops σ) (dt : Timestamp) (pre aid : IdentifierPrefix) : StM σ Unit := do
  match ← getAccepted o pre with
  | none => StM.fail (.query .outOfOrder)
  | some rs =>
    match rs.find? fun r => r.reply.route = .replyKsn aid with
    | some old =>
      if dt.micros < old.reply.timestamp.micros then StM.fail (.query .staleKsn) else pure ()
    | none => StM.fail (.query .outOfOrder)

/-- "no previous reply" outcomes are not errors, processor/mod.rs:551-558, 622-628 -/
def ignoring (x : StM σ Unit) (e : Error) : StM σ Unit := do
  match ← x.result with
  | .ok () => pure ()
  | .error e' => if e' = e then pure () else StM.fail e'

/-- `check_ksn`, processor/mod.rs:606-645 -/
def checkKsn (o : Ops σ) (env : Env) (k : Ksn) (aid : IdentifierPrefix) : StM σ (Option IdState) := do
  match ← getEventAtSn o k.state.prefix k.state.sn with
  | none => StM.fail (.query .outOfOrder)
  | some e => do
    let b ← StM.lift (e.msg.checkDigest env k.state.lastDigest)
    if b then do
      ignoring (checkTimestamp o k.timestamp k.state.prefix aid) (.query .outOfOrder)
      match ← computeState o env k.state.prefix with
      | none => StM.fail (.query .outOfOrder)
      | some st =>
        if st.sn < k.state.sn then StM.fail (.query .outOfOrder)
        else if st.sn = k.state.sn then pure (some st)
        else StM.fail (.query .staleKsn)
    else StM.fail .incorrectDigest

/-- `escrow_reply`, processor/mod.rs:647-651 -/
def escrowReply (o : Ops σ) (r : SignedReply) : StM σ Unit := addEscrowed o r r.pre

/-- escrow the reply when the error says that an event is missing, processor/mod.rs:562-564 -/
def escrowIf (o : Ops σ) (r : SignedReply) (e : Error) : StM σ Unit :=
  if e = .query .outOfOrder then escrowReply o r else pure ()

/-- signature step of `process_signed_reply`, processor/mod.rs:545-550 -/
def replySignature (o : Ops σ) (env : Env) (r : SignedReply) : StM σ Unit := do
  let bytes ← StM.lift (r.reply.serialize env)
  match ← (verifySignature o env bytes r.signature).result with
  | .ok () => pure ()
  | .error e =>
    if e = .eventOutOfOrder then do
      escrowReply o r
      StM.fail (.query .outOfOrder)
    else StM.fail e

/-- notice step of `process_signed_reply`, processor/mod.rs:560-565 -/
def replyNotice (o : Ops σ) (env : Env) (r : SignedReply) (aid : IdentifierPrefix) : StM σ Unit := do
  match ← (checkKsn o env r.reply.ksn aid).result with
  | .ok _ => pure ()
  | .error e => do
    escrowIf o r e
    StM.fail e

/-- `process_signed_reply`, processor/mod.rs:532-573 -/
def processSignedReply (o : Ops σ) (env : Env) (r : SignedReply) : StM σ (Option IdState) :=
  match r.reply.route with
  | .replyKsn aid =>
    if r.signature.signer ≠ aid then StM.fail (.query (.other "Wrong reply message signer"))
    else do
      replySignature o env r
      StM.lift (r.reply.checkDigest env)
      ignoring (badaLogic o r) (.query .noSavedReply)
      replyNotice o env r aid
      updateAccepted o r r.pre
      pure (some r.reply.ksn.state)
  | _ => StM.fail (.semantic "wrong route type")

/-- `process`, processor/mod.rs:252-262; queries hit `todo!()` -/
def process (o : Ops σ) (env : Env) (m : Message) : StM σ (Option IdState) :=
  match m with
  | .event e => processEvent o env e
  | .rctNt r => processWitnessReceipt o env r
  | .rctT r => processValidatorReceipt o env r
  | .reply r => processSignedReply o env r
  | .query _ => StM.lift .panic

/-- one escrowed reply in `process_escrow`, processor/mod.rs:656-668 -/
def escrowStep (o : Ops σ) (env : Env) (r : SignedReply) : StM σ Unit := do
  match ← (processSignedReply o env r).result with
  | .ok _ => removeEscrowed o r.pre r
  | .error e =>
    if e = .signatureVerification ∨ e = .query .staleRpy then removeEscrowed o r.pre r else pure ()

/-- all replies of one escrow entry -/
def escrowSteps (o : Ops σ) (env : Env) : List SignedReply → StM σ Unit
  | [] => pure ()
  | r :: rs => do
    escrowStep o env r
    escrowSteps o env rs

/-- entries in key order; an undecodable entry panics when reached -/
def escrowEntries (o : Ops σ) (env : Env) : List (Option (List SignedReply)) → StM σ Unit
  | [] => pure ()
  | none :: _ => StM.lift .panic
  | some rs :: es => do
    escrowSteps o env rs
    escrowEntries o env es

/-- `process_escrow`, processor/mod.rs:653-671.  The sled iterator is lazy over keys; processing a reply only
writes the escrow entry of its own subject, which has already been fetched, so taking the entries
at the start is equivalent. -/
def processEscrow (o : Ops σ) (env : Env) : StM σ Unit := do
  let es ← o.all .knes
  escrowEntries o env es

/-- What a user of the processor can do that touches the database: submit a message, reprocess the reply
escrow, or query a table (queries allocate table keys, tables.rs:220-233; every read of the processor starts with one). -/
inductive Action where
  | submit (m : Message)
  | reprocess
  | lookup (t : Tbl) (id : IdentifierPrefix)

/-- the database after one action; it keeps its contents when the call fails or panics (the caller catches
the panic or restarts the program) -/
def Action.run (o : Ops σ) (env : Env) (a : Action) (db : σ) : σ :=
  match a with
  | .submit m => (process o env m db).2
  | .reprocess => (processEscrow o env db).2
  | .lookup t id => (o.read t id db).2

/-- the database after a history of actions -/
def runHistory (o : Ops σ) (env : Env) (db : σ) (as : List Action) : σ :=
  as.foldl (fun d a => a.run o env d) db

end Keriox
