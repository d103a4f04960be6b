import Verif.Keri
/-!
# The stream processor — `/repo/src/processor/async_processing.rs` (feature `async`)

`process` is one future; its `poll` is a loop over the bytes a buffered reader hands out.  It is modelled as a step function, so that a loop
that never ends is visible: it is a state that steps to itself.

Modelled: the reader (`async_std::io::BufReader`, which hands out the same bytes again until they are consumed, reads at most 8192 bytes at a
time, and takes an empty read for the end of the stream), the writer with short, pending and failing writes, the channel.
Not modelled: waking up (a future that returns `Pending` is polled again at once), the closed channel, the contents of error messages.
-/
namespace Keriox
namespace Async

/-- the three low bits of a byte: `bitpat!(_ _ _ _ _ a b c)`, async_processing.rs:59-62, 104-105, 125 -/
def low3 (b : UInt8) : Nat := b.toNat % 8

/-- the first-byte check, async_processing.rs:59-68 -/
def firstByteOk (b : UInt8) : Bool := low3 b = 4 || low3 b = 3 || low3 b = 5 || low3 b = 6

/-- `json_version`, `/repo/src/event_parsing/message.rs:118-123`: `serde_json::from_slice::<SerializationInfo>` — a JSON string with
nothing but white space around it; `none` is the parser error -/
def jsonVersion (s : Bytes) : Res (Option SerInfo) :=
  match skipWs s with
  | 34 :: t =>
    match jsonString t with
    | none => .ok none
    | some (v, rest) =>
      match SerInfo.fromStr v with
      | .panic => .panic
      | .err _ => .ok none
      | .ok i => if skipWs rest = [] then .ok (some i) else .ok none
  | _ => .ok none

/-- `version`, `/repo/src/event_parsing/message.rs:116-146`; the two binary readers (125-141) are kept abstract -/
def version (binVer : Bytes → Res (Option SerInfo)) (s : Bytes) : Res (Option SerInfo) :=
  match jsonVersion s with
  | .ok none => binVer s
  | r => r

/-- a two-character payload code with its `size` and `master_code_size(false)`, `/repo/src/event_parsing/payload_size.rs:92-157, 210-259` -/
def payload (code : Bytes) : Option (Nat × Nat) :=
  if code = b!"0A" then some (24, 2)
  else if code ∈ [b!"0B", b!"0C", b!"0D", b!"0E", b!"0F"] then some (88, 2)
  else if code = b!"0G" then some (88, 0)
  else if code = b!"0H" then some (8, 2)
  else if code ∈ [b!"-A", b!"-B"] then some (88, 4)
  else if code = b!"-H" then some (0, 0)
  else if code ∈ [b!"-C", b!"-D", b!"-E", b!"-F", b!"-G", b!"-U", b!"-V", b!"-W", b!"-X", b!"-Y", b!"-Z"] then some (0, 4)
  else none

/-- `&buffer[a..b]`: panics when out of range -/
def slice (s : Bytes) (a b : Nat) : Res Bytes := if a ≤ b ∧ b ≤ s.length then .ok ((s.drop a).take (b - a)) else .panic

/-- `buffer[i]`: panics when out of range -/
def index (s : Bytes) (i : Nat) : Res UInt8 :=
  match s[i]? with
  | some b => .ok b
  | none => .panic

/-- `slice_to_string`, async_processing.rs:189-191 -/
def toText (s : Bytes) : Res Bytes := if utf8Valid s then .ok s else .err (.semantic "utf8")

/-- the length of the attached material, async_processing.rs:110-123: the master code is read from the two bytes after the message, the
count from the *whole* framing code, so from its first two characters -/
def attachedLen (buf : Bytes) (len : Nat) : Res Nat := do
  let two ← slice buf len (len + 2)
  let two ← toText two
  match payload two with
  | none => .err .improperPrefixType
  | some (size, codeLen) => do
    let code ← slice buf len (len + codeLen)
    let code ← toText code
    match b64CountP code with
    | .ok _ count => .ok (count * size + codeLen)
    | .panic => .panic
    | _ => .err (.semantic "count")

/-- what the loop has found out about the message at the front, async_processing.rs:88-133 -/
inductive Found where
  /-- `continue` (97, 108): nothing is consumed -/
  | again
  /-- a message of this many bytes -/
  | length (n : Nat)

/-- the length of the message with its attachments, async_processing.rs:88-129.  The framing code is looked for at `len`, not at
`processed + len`. -/
def frame (binVer : Bytes → Res (Option SerInfo)) (firstByte : UInt8) (buf : Bytes) (processed : Nat) : Res Found := do
  let v ← slice buf (processed + 5) (processed + 24)
  match ← version binVer v with
  | none => .err (.semantic "not KERI message")
  | some info =>
    if buf.length < info.size then .ok .again
    else if buf.length > info.size then do
      let b ← index buf (info.size + 1)
      if low3 b = 1 || low3 b = 2 then
        if buf.length < info.size + 2 then .ok .again
        else do
          let k ← attachedLen buf info.size
          .ok (.length (info.size + k))
      else if low3 firstByte = 7 then .panic
      else .ok (.length info.size)
    else .ok (.length info.size)

/-- what is written back, async_processing.rs:141-153: a receipt, or the JSON text of the state computed by `respond_single` -/
inductive Reply where
  | receipt (b : Bytes)
  | state (b : Bytes)

/-- how the writer takes one write -/
inductive Write where
  /-- `Ready(Ok(n))`: `n` bytes were taken; the loop does not look at `n` -/
  | took (n : Nat)
  /-- `Pending` -/
  | pending
  /-- `Ready(Err(_))` -/
  | failed

/-- how the reader ends once the listed chunks have been read -/
inductive Ending where
  | closed | failed | waits
  deriving DecidableEq

/-- the future together with its surroundings, async_processing.rs:34-46 -/
structure St (σ : Type) where
  /-- what the reader will still deliver, chunk by chunk -/
  chunks : List Bytes
  ending : Ending
  /-- bytes handed out and not consumed -/
  buf : Bytes
  processed : Nat
  /-- inside the inner loop -/
  inner : Bool
  /-- how the writer will take the coming writes; it takes everything when the list is empty -/
  writer : List Write
  /-- what was written (with the number of bytes taken, when the writer said so) -/
  written : List (Reply × Option Nat)
  /-- what was sent to the channel -/
  sent : List (IdentifierPrefix × Bytes)
  db : σ

/-- how a future ends -/
inductive Fate where
  /-- `Ready(Ok(()))` -/
  | done
  /-- `Ready(Err(_))` -/
  | failed
  | panicked
  /-- `Pending`, and nothing will wake it -/
  | waiting
  deriving DecidableEq, Repr

/-- one turn of a loop -/
inductive Turn (σ : Type) where
  | go (s : St σ)
  | stop (r : Fate) (s : St σ)

variable {σ : Type}

/-- the parameters of a running processor: the controller with its keys, the binary readers, the first byte -/
structure Cfg (σ : Type) where
  ops : Ops σ
  env : Env
  sign : SignFn
  ctl : Controller
  bin : Binary
  binVer : Bytes → Res (Option SerInfo)
  firstByte : UInt8

/-- `poll_fill_buf`: the bytes not yet consumed, or else one read of at most 8192 bytes -/
def fill (s : St σ) : St σ :=
  if s.buf.isEmpty then
    match s.chunks with
    | [] => s
    | c :: cs => { s with buf := c.take 8192, chunks := if c.length ≤ 8192 then cs else c.drop 8192 :: cs }
  else s

/-- the answer to a message, async_processing.rs:137-153: `respond_single`, then `make_ntr` on the message parsed once more -/
def answer (cfg : Cfg σ) (msg : Bytes) : StM σ (IdentifierPrefix × Reply) := do
  let r ← respondSingle cfg.bin cfg.ops cfg.env msg
  match altP (jsonMessage desKeyEvent) cfg.bin.event msg with
  | .ok _ e => do
    match ← (cfg.ctl.makeNtr cfg.ops cfg.env cfg.sign ⟨e.1, e.2⟩).result with
    | .ok rcp => do
      let b ← StM.lift (rcp.toData.toCesr cfg.env)
      pure (r.1, .receipt b)
    | .error _ => pure (r.1, .state r.2)
  | _ => StM.lift .panic

/-- writing, sending and counting, async_processing.rs:146-163 -/
def deliver (s : St σ) (len : Nat) (msg : Bytes) (to : IdentifierPrefix) (rep : Reply) : Turn σ :=
  let fin (n : Option Nat) (w : List Write) : Turn σ :=
    .go { s with writer := w, written := s.written ++ [(rep, n)], sent := s.sent ++ [(to, msg)], processed := s.processed + len }
  match s.writer with
  | [] => fin none []
  | .took n :: w => fin (some n) w
  | .pending :: w => .go { s with writer := w, inner := false }
  | .failed :: w => .stop .failed { s with writer := w }

/-- one message of the inner loop, async_processing.rs:84-164 -/
def turnMessage (cfg : Cfg σ) (s : St σ) : Turn σ :=
  match frame cfg.binVer cfg.firstByte s.buf s.processed with
  | .panic => .stop .panicked s
  | .err _ => .stop .failed s
  | .ok .again => .go s
  | .ok (.length n) =>
    match slice s.buf s.processed (s.processed + n) with
    | .ok msg =>
      match answer cfg msg s.db with
      | (.panic, db) => .stop .panicked { s with db := db }
      | (.err _, db) => .stop .failed { s with db := db }
      | (.ok (to, rep), db) => deliver { s with db := db } n msg to rep
    | _ => .stop .panicked s

/-- one turn of `poll`, async_processing.rs:55-170 -/
def turn (cfg : Cfg σ) (s : St σ) : Turn σ :=
  if !firstByteOk cfg.firstByte then .stop .failed s
  else if s.inner then
    if s.processed < s.buf.length then turnMessage cfg s
    else .go { s with buf := [], processed := 0, inner := false }
  else
    let f := fill s
    if f.buf.isEmpty then
      match s.chunks, s.ending with
      | _ :: _, _ => .stop .done f
      | [], .closed => .stop .done f
      | [], .failed => .stop .failed f
      | [], .waits => .stop .waiting f
    else if f.buf.length < 24 then .go f
    else .go { f with inner := true }

/-- the first `n` turns; a finished future stays finished -/
def run (cfg : Cfg σ) : Nat → St σ → Turn σ
  | 0, s => .go s
  | n + 1, s =>
    match turn cfg s with
    | .go s' => run cfg n s'
    | r => r

/-- a processor that has just been started, async_processing.rs:177-186 -/
def start (chunks : List Bytes) (ending : Ending) (writer : List Write) (db : σ) : St σ :=
  ⟨chunks, ending, [], 0, false, writer, [], [], db⟩

end Async
end Keriox
