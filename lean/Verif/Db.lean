import Verif.Message
/-!
# The sled database — `/repo/src/database/sled/{tables,mod}.rs`

* A sled tree with 8-byte big-endian keys is an association list sorted by key; single sled calls are atomic.
* Values are written with `serde_cbor` and read back field by field through the same text codecs as on
  the wire; `Tbl.dec` says what reading a written value gives (`none`: undecodable).  Simplification: a value
  one of whose texts parses back as a *different* value is treated as undecodable, and storage errors do not occur.
-/
namespace Keriox

/-! ## State monad with errors and panics; the database survives both -/

/-- Computation of a method taking `&self` with access to a database: the database keeps its
contents when the method returns an error or panics. -/
def StM (σ α : Type) := σ → Res α × σ

namespace StM
variable {σ α β : Type}

/-- sequencing with `?` -/
def bind (x : StM σ α) (f : α → StM σ β) : StM σ β := fun s =>
  match x s with
  | (.ok a, s') => f a s'
  | (.err e, s') => (.err e, s')
  | (.panic, s') => (.panic, s')

instance : Monad (StM σ) where
  pure a := fun s => (.ok a, s)
  bind := StM.bind

/-- a pure step -/
def lift (r : Res α) : StM σ α := fun s => (r, s)

/-- return an error -/
def fail (e : Error) : StM σ α := lift (.err e)

/-- look at the `Result` of a call instead of propagating the error (`match f() {..}`, `if let Ok(..)`); panics propagate -/
def result (x : StM σ α) : StM σ (Except Error α) := fun s =>
  match x s with
  | (.ok a, s') => (.ok (.ok a), s')
  | (.err e, s') => (.ok (.error e), s')
  | (.panic, s') => (.panic, s')

end StM

/-! ## What survives a write and a read -/

/-- the text of the prefix parses back to it -/
def BasicPrefix.rt (p : BasicPrefix) : Bool := decide (BasicPrefix.fromStr p.toStr = .ok p)
/-- the text of the prefix parses back to it -/
def SelfAddressingPrefix.rt (p : SelfAddressingPrefix) : Bool := decide (SelfAddressingPrefix.fromStr p.toStr = .ok p)
/-- the text of the prefix parses back to it -/
def SelfSigningPrefix.rt (p : SelfSigningPrefix) : Bool := decide (SelfSigningPrefix.fromStr p.toStr = .ok p)
/-- the text of the prefix parses back to it -/
def AttachedSignaturePrefix.rt (p : AttachedSignaturePrefix) : Bool :=
  decide (AttachedSignaturePrefix.fromStr p.toStr = .ok p)
/-- the text of the prefix parses back to it -/
def IdentifierPrefix.rt (p : IdentifierPrefix) : Bool := decide (IdentifierPrefix.fromStr p.toStr = .ok p)
/-- the version string parses back -/
def SerInfo.rt (i : SerInfo) : Bool := decide (SerInfo.fromStr i.toStr = .ok i)
/-- a weight's text parses back to it -/
def Frac.rt (f : Frac) : Bool := decide (Frac.fromStr f.toStr = .ok f)

/-- threshold texts parse back, threshold.rs:57-79 (untagged; an empty list reads as a single clause) -/
def Threshold.rt : Threshold → Bool
  | .simple n => n ≤ u64max
  | .single c => c.all Frac.rt
  | .multi cs => !cs.isEmpty && cs.all fun c => c.all Frac.rt

/-- key_config.rs:11-21 -/
def KeyConfig.rt (k : KeyConfig) : Bool :=
  k.threshold.rt && k.publicKeys.all BasicPrefix.rt &&
    (match k.nextDigest with | some n => n.rt | none => true)

/-- seal.rs:5-52 -/
def Seal.rt : Seal → Bool
  | .location s => s.prefix.rt && s.sn ≤ u64max && s.priorDigest.rt
  | .event s => s.prefix.rt && s.sn ≤ u64max && s.eventDigest.rt
  | .digest d => d.rt
  | .root d => d.rt

/-- inception.rs:19-34 -/
def InceptionEvent.rt (e : InceptionEvent) : Bool :=
  e.keyConfig.rt && e.tally ≤ u64max && e.initialWitnesses.all BasicPrefix.rt && e.data.all Seal.rt
/-- rotation.rs:12-25 -/
def RotationEvent.rt (e : RotationEvent) : Bool :=
  e.previous.rt && e.keyConfig.rt && e.tally ≤ u64max && e.prune.all BasicPrefix.rt && e.graft.all BasicPrefix.rt &&
    e.data.all Seal.rt
/-- event_data/mod.rs:21-66 -/
def EventData.rt : EventData → Bool
  | .icp e => e.rt
  | .rot e => e.rt
  | .ixn e => e.previous.rt && e.data.all Seal.rt
  | .dip e => e.inception.rt && e.delegator.rt
  | .drt e => e.rt

/-- every text inside the event message parses back -/
def EventMessage.rt (m : EventMessage) : Bool :=
  m.info.rt && m.event.digest.rt && m.event.content.prefix.rt && m.event.content.sn ≤ u64max && m.event.content.data.rt

/-- every text inside the signed event (without the delegator seal) parses back -/
def SignedEvent.rt (e : SignedEvent) : Bool := e.msg.rt && e.sigs.all AttachedSignaturePrefix.rt

/-- the stored form of a signed event: `Serialize`, `signed_event_message.rs:56-62`, omits the delegator seal
(and reading gives `None`) -/
def SignedEvent.stored (e : SignedEvent) : SignedEvent := { e with delegatorSeal := none }

/-- receipt.rs:14-31 -/
def ReceiptMsg.rt (r : ReceiptMsg) : Bool := r.info.rt && r.digest.rt && r.prefix.rt && r.sn ≤ u64max
/-- signed_event_message.rs:205-209 -/
def NtReceipt.rt (r : NtReceipt) : Bool := r.body.rt && r.couplets.all fun c => c.1.rt && c.2.rt
/-- signed_event_message.rs:175-180 -/
def TReceipt.rt (r : TReceipt) : Bool :=
  r.body.rt && r.validatorSeal.prefix.rt && r.validatorSeal.sn ≤ u64max && r.validatorSeal.eventDigest.rt &&
    r.sigs.all AttachedSignaturePrefix.rt

/-- numbers of a key state notice: written in decimal (key_state_notice.rs:36,39,53), read by `SerHex::<Compact>` as
hexadecimal (state/mod.rs:27,41, key_state_notice.rs:18) -/
def decAsHex (n : Nat) : Option Nat := fromStrRadix 16 u64max (decStr n)

/-- reading a stored key state notice, key_state_notice.rs:10-63 and state/mod.rs:23-53.  The writer announces 15 members and writes 16
(key_state_notice.rs:33-60); in CBOR the last one, `di`, therefore falls out of the notice into the surrounding map of indefinite length
(the flattened reply), where it is an ignored extra member: the delegator is lost.  Without a next-key commitment writing panics, so
such a notice is never stored. -/
def Ksn.dec (k : Ksn) : Option Ksn := do
  let n ← k.state.current.nextDigest
  if k.info.rt && k.state.prefix.rt && (match k.state.lastPrevious with | some p => p.rt | none => true) &&
      k.state.lastDigest.rt && k.state.current.rt && n.rt && k.state.witnesses.all BasicPrefix.rt &&
      k.state.lastEst.sn ≤ u64max && k.state.lastEst.digest.rt && k.state.lastEst.br.all BasicPrefix.rt &&
      k.state.lastEst.ba.all BasicPrefix.rt then do
    let sn ← decAsHex k.state.sn
    let f ← decAsHex k.firstSeen
    let bt ← decAsHex k.state.tally
    some { k with state := { k.state with sn := sn, tally := bt, delegator := none }, firstSeen := f }
  else none

/-- query/mod.rs:73-103 -/
def Route.rt : Route → Bool
  | .replyKsn id => id.rt
  | _ => true
/-- signature.rs:8-12 -/
def Signature.rt : Signature → Bool
  | .transferable s sigs => s.prefix.rt && s.sn ≤ u64max && s.eventDigest.rt && sigs.all AttachedSignaturePrefix.rt
  | .nonTransferable k s => k.rt && s.rt

/-- reading a written signed reply, reply.rs:80-84 -/
def SignedReply.dec (r : SignedReply) : Option SignedReply := do
  let k ← r.reply.ksn.dec
  if r.reply.info.rt && r.reply.digest.rt && r.reply.route.rt && r.signature.rt then
    some { r with reply := { r.reply with ksn := k } }
  else none

/-- derived `PartialEq` of replies; instants are compared without their offsets -/
def SignedReply.norm (r : SignedReply) : SignedReply :=
  { r with reply := { r.reply with
      timestamp := { r.reply.timestamp with offset := 0 }
      ksn := { r.reply.ksn with timestamp := { r.reply.ksn.timestamp with offset := 0 } } } }

/-! ## Tables -/

/-- the `SledEventTreeVec` tables of `SledEventDatabase`, database/sled/mod.rs:24-47 (by tree name) -/
inductive Tbl where
  | kels | ldes | dels | rcts | ures | vrcs | vres | knas | knes
  deriving DecidableEq, Repr

/-- element type of each table, database/sled/mod.rs:24-47.  The timestamps of stored events are not modelled (nothing reads them). -/
@[reducible] def Tbl.Val : Tbl → Type
  | .kels => SignedEvent
  | .ldes => EventMessage
  | .dels => SignedEvent
  | .rcts => NtReceipt
  | .ures => NtReceipt
  | .vrcs => TReceipt
  | .vres => TReceipt
  | .knas => SignedReply
  | .knes => SignedReply

/-- keep a value whose texts all parse back -/
def guardRt {α : Type} (p : α → Bool) (a : α) : Option α := if p a then some a else none

/-- what reading back a written element gives -/
def Tbl.dec : (t : Tbl) → t.Val → Option t.Val
  | .kels => guardRt SignedEvent.rt
  | .ldes => guardRt EventMessage.rt
  | .dels => guardRt SignedEvent.rt
  | .rcts => guardRt NtReceipt.rt
  | .ures => guardRt NtReceipt.rt
  | .vrcs => guardRt TReceipt.rt
  | .vres => guardRt TReceipt.rt
  | .knas => SignedReply.dec
  | .knes => SignedReply.dec

/-- `PartialEq` of the element types -/
def Tbl.same : (t : Tbl) → t.Val → t.Val → Bool
  | .kels => SignedEvent.same
  | .ldes => fun a b => decide (a = b)
  | .dels => SignedEvent.same
  | .rcts => fun a b => decide (a = b)
  | .ures => fun a b => decide (a = b)
  | .vrcs => fun a b => decide (a = b)
  | .vres => fun a b => decide (a = b)
  | .knas => fun a b => decide (a.norm = b.norm)
  | .knes => fun a b => decide (a.norm = b.norm)

/-- decode a whole stored vector (`serde_cbor::from_slice::<Vec<T>>`, tables.rs:36) -/
def Tbl.decAll (t : Tbl) : List t.Val → Option (List t.Val)
  | [] => some []
  | v :: vs =>
    match t.dec v, t.decAll vs with
    | some v', some vs' => some (v' :: vs')
    | _, _ => none

/-! ## Trees -/

/-- contents of a sled tree, sorted by key -/
abbrev Tree (α : Type) := List (Nat × α)

/-- `sled::Tree::get` -/
def Tree.get {α} (t : Tree α) (k : Nat) : Option α :=
  match t with
  | [] => none
  | (k', v) :: r => if k' = k then some v else Tree.get r k

/-- `sled::Tree::insert` -/
def Tree.ins {α} (t : Tree α) (k : Nat) (v : α) : Tree α :=
  match t with
  | [] => [(k, v)]
  | (k', v') :: r =>
    if k < k' then (k, v) :: (k', v') :: r
    else if k = k' then (k, v) :: r
    else (k', v') :: Tree.ins r k v

/-- `SledEventDatabase`: the identifier tree (`iids`, holding the CBOR text of each identifier) and the element tables -/
structure Db where
  iids : Tree Bytes
  tables : (t : Tbl) → Tree (List t.Val)

/-- a fresh database -/
def Db.empty : Db := ⟨[], fun _ => []⟩

/-- replace one table -/
def Db.setTable (db : Db) (t : Tbl) (tr : Tree (List t.Val)) : Db :=
  { db with tables := fun t' => if h : t' = t then h ▸ tr else db.tables t' }

/-- `get_next_key`, tables.rs:193-199 (`u64` overflow of the key counter not modelled) -/
def nextKey (t : Tree Bytes) : Nat :=
  match t.getLast? with
  | some (k, _) => k + 1
  | none => 0

/-- `get_key_by_value`, tables.rs:204-214: linear scan comparing encoded values -/
def keyByValue (t : Tree Bytes) (v : Bytes) : Option Nat :=
  match t with
  | [] => none
  | (k, v') :: r => if v' = v then some k else keyByValue r v

/-- `designated_key`, tables.rs:220-233: allocates a key on first use, also for reads -/
def designatedKey (id : IdentifierPrefix) : StM Db Nat := fun db =>
  match keyByValue db.iids id.toStr with
  | some k => (.ok k, db)
  | none =>
    let k := nextKey db.iids
    (.ok k, { db with iids := db.iids.ins k id.toStr })

/-- What a processor needs from a database: the operations of `SledEventTreeVec` at `designated_key(id)`. -/
structure Ops (σ : Type) where
  /-- `iter_values(designated_key(id))` collected, tables.rs:105-115: panics when undecodable -/
  read : (t : Tbl) → IdentifierPrefix → StM σ (Option (List t.Val))
  /-- `push(designated_key(id), v)`, tables.rs:55-62 -/
  push : (t : Tbl) → IdentifierPrefix → t.Val → StM σ Unit
  /-- `remove(designated_key(id), &v)`, tables.rs:66-76 -/
  remove : (t : Tbl) → IdentifierPrefix → t.Val → StM σ Unit
  /-- `put(designated_key(id), vs)`, tables.rs:46-50 -/
  put : (t : Tbl) → IdentifierPrefix → List t.Val → StM σ Unit
  /-- the vectors of a table in key order, tables.rs:117-125 (`none`: undecodable) -/
  all : (t : Tbl) → StM σ (List (Option (List t.Val)))

/-- `SledEventTreeVec::get`, tables.rs:34-41: absent, undecodable, or the values -/
inductive Entry (α : Type) where
  | absent
  | bad
  | vals (l : List α)

/-- decode what is stored under a key -/
def Tbl.entry (t : Tbl) (o : Option (List t.Val)) : Entry t.Val :=
  match o with
  | none => .absent
  | some l =>
    match t.decAll l with
    | some l' => .vals l'
    | none => .bad

/-- the vector `push` writes, tables.rs:55-62: an absent or undecodable vector is replaced by the new element alone -/
def Tbl.pushed (t : Tbl) (o : Option (List t.Val)) (v : t.Val) : List t.Val :=
  match t.entry o with
  | .vals l => l ++ [v]
  | _ => [v]

/-- what `remove` leaves, tables.rs:66-76: nothing happens when absent or undecodable -/
def Tbl.removed (t : Tbl) (o : Option (List t.Val)) (v : t.Val) : Option (List t.Val) :=
  match t.entry o with
  | .vals l => some (l.filter fun e => !t.same e v)
  | _ => o

/-- what `iter_values` returns, tables.rs:105-115 -/
def Tbl.iterValues (t : Tbl) (o : Option (List t.Val)) : Res (Option (List t.Val)) :=
  match t.entry o with
  | .absent => .ok none
  | .bad => .panic
  | .vals l => .ok (some l)

/-- write or leave a table entry -/
def Db.setEntry (db : Db) (t : Tbl) (k : Nat) (o : Option (List t.Val)) : Db :=
  match o with
  | some l => db.setTable t ((db.tables t).ins k l)
  | none => db

/-- the real database -/
def sled : Ops Db where
  read t id := do
    let k ← designatedKey id
    fun db => (t.iterValues ((db.tables t).get k), db)
  push t id v := do
    let k ← designatedKey id
    fun db => (.ok (), db.setEntry t k (some (t.pushed ((db.tables t).get k) v)))
  remove t id v := do
    let k ← designatedKey id
    fun db => (.ok (), db.setEntry t k (t.removed ((db.tables t).get k) v))
  put t id vs := do
    let k ← designatedKey id
    fun db => (.ok (), db.setEntry t k (some vs))
  all t := fun db => (.ok ((db.tables t).map fun p => t.decAll p.2), db)

end Keriox
