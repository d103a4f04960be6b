import Verif.Seal
/-!
# Stream parsers — `/repo/src/event_parsing/{prefix,attachment,payload_size}.rs` and the
CESR writer of `/repo/src/event_parsing/mod.rs`

nom 5 semantics: `Err::Error` (recoverable), `Err::Failure`, `Err::Incomplete`; positions inside errors are not modelled.
-/
namespace Keriox

/-- Result of a nom parser: remaining input and value, or the kind of error, or a panic. -/
inductive IRes (α : Type) where
  | ok (rest : Bytes) (a : α)
  | error
  | failure
  | incomplete
  | panic
  deriving DecidableEq, Repr

namespace IRes
/-- `?` on an `IResult`, passing remaining input and value on. -/
@[inline] def andThen {α β} (x : IRes α) (f : Bytes → α → IRes β) : IRes β :=
  match x with
  | .ok r a => f r a
  | .error => .error
  | .failure => .failure
  | .incomplete => .incomplete
  | .panic => .panic

/-- `map_err(|_| nom::Err::Error)?` on a `Res` -/
def ofResError {α} (x : Res α) (rest : Bytes) : IRes α :=
  match x with
  | .ok a => .ok rest a
  | .err _ => .error
  | .panic => .panic

/-- `map_err(|_| nom::Err::Failure)?` on a `Res` -/
def ofResFailure {α} (x : Res α) (rest : Bytes) : IRes α :=
  match x with
  | .ok a => .ok rest a
  | .err _ => .failure
  | .panic => .panic

@[simp] theorem andThen_ok {α β} (r : Bytes) (a : α) (f : Bytes → α → IRes β) :
    (IRes.ok r a).andThen f = f r a := rfl
end IRes

/-- `nom::bytes::complete::take(n)` -/
def takeN (n : Nat) (s : Bytes) : IRes Bytes :=
  if n ≤ s.length then .ok (s.drop n) (s.take n) else .error

/-- `nom::multi::count(p, n)` -/
def countP {α} (p : Bytes → IRes α) : Nat → Bytes → IRes (List α)
  | 0, s => .ok s []
  | n + 1, s => (p s).andThen fun r a => (countP p n r).andThen fun r' as => .ok r' (a :: as)

/-- `std::str::from_utf8` succeeds (RFC 3629 ranges). -/
def utf8Valid : Bytes → Bool
  | [] => true
  | a :: r =>
    if a < 0x80 then utf8Valid r
    else match r with
      | [] => false
      | b :: r =>
        if 0xC2 ≤ a && a ≤ 0xDF then isCont b && utf8Valid r
        else match r with
          | [] => false
          | c :: r =>
            if 0xE0 ≤ a && a ≤ 0xEF then
              isCont b && isCont c && (a != 0xE0 || 0xA0 ≤ b) && (a != 0xED || b < 0xA0) && utf8Valid r
            else match r with
              | [] => false
              | d :: r =>
                0xF0 ≤ a && a ≤ 0xF4 && isCont b && isCont c && isCont d &&
                  (a != 0xF0 || 0x90 ≤ b) && (a != 0xF4 || b < 0x90) && utf8Valid r

/-- `base64::decode_config(b, URL_SAFE)` as a result -/
def b64DecodeRes (b : Bytes) : Res Bytes := Res.ofOption (b64Decode b) .base64Decoding

/-- `attached_signature`, `/repo/src/event_parsing/prefix.rs:17-80` -/
def attachedSignatureP (s : Bytes) : IRes AttachedSignaturePrefix :=
  (takeN 1 s).andThen fun more typeC =>
    let sig (code : SelfSigning) (ni ns : Nat) (inp : Bytes) : IRes AttachedSignaturePrefix :=
      (takeN ni inp).andThen fun maybeSig indexC =>
        (IRes.ofResError (b64ToNum indexC) maybeSig).andThen fun maybeSig index =>
          (takeN ns maybeSig).andThen fun rest sigS =>
            (IRes.ofResError (b64DecodeRes sigS) rest).andThen fun rest sg => .ok rest ⟨index, ⟨code, sg⟩⟩
    if typeC = b!"A" then sig .ed25519Sha512 1 86 more
    else if typeC = b!"B" then sig .ecdsaSha256 1 86 more
    else if typeC = b!"0" then
      (takeN 1 more).andThen fun maybeCount typeC2 =>
        if typeC2 = b!"A" then sig .ed448 2 152 maybeCount else .error
    else .error

/-- Reading of a code: `String::from_utf8(code)?.parse()`, both errors are failures. -/
def codeParse {α} (parse : Bytes → Res α) (code rest : Bytes) : IRes α :=
  if utf8Valid code then IRes.ofResFailure (parse code) rest else .failure

/-- `basic_prefix`, `/repo/src/event_parsing/prefix.rs:82-103` -/
def basicPrefixP (s : Bytes) : IRes BasicPrefix :=
  (takeN 1 s).andThen fun _ typeC =>
    (takeN (if typeC = b!"1" then 4 else 1) s).andThen fun rest codeStr =>
      (codeParse Basic.fromStr codeStr rest).andThen fun rest code =>
        (takeN code.b64Len rest).andThen fun extra b =>
          (IRes.ofResError (b64DecodeRes b) extra).andThen fun extra pk => .ok extra ⟨code, pk⟩

/-- `self_addressing_prefix`, `/repo/src/event_parsing/prefix.rs:105-126` -/
def selfAddressingPrefixP (s : Bytes) : IRes SelfAddressingPrefix :=
  (takeN 1 s).andThen fun _ typeC =>
    (takeN (if typeC = b!"0" then 2 else 1) s).andThen fun rest codeStr =>
      (codeParse SelfAddressing.fromStr codeStr rest).andThen fun rest code =>
        (takeN code.b64Len rest).andThen fun extra b =>
          codeParse SelfAddressingPrefix.fromStr (codeStr ++ b) extra

/-- `self_signing_prefix`, `/repo/src/event_parsing/prefix.rs:128-148` -/
def selfSigningPrefixP (s : Bytes) : IRes SelfSigningPrefix :=
  (takeN 1 s).andThen fun _ typeC =>
    (takeN (if typeC = b!"1" then 4 else 2) s).andThen fun rest codeStr =>
      (codeParse SelfSigning.fromStr codeStr rest).andThen fun rest code =>
        (takeN code.b64Len rest).andThen fun extra b =>
          (IRes.ofResError (b64DecodeRes b) extra).andThen fun extra sg => .ok extra ⟨code, sg⟩

/-- `attached_sn`, `/repo/src/event_parsing/prefix.rs:150-171`: `b64decode[8..]` and `copy_from_slice` panic unless
exactly 16 bytes were decoded. -/
def attachedSnP (s : Bytes) : IRes Nat :=
  (takeN 2 s).andThen fun more typeC =>
    if typeC = b!"0A" then
      (takeN 22 more).andThen fun rest parsed =>
        (IRes.ofResFailure (b64DecodeRes parsed) rest).andThen fun rest d =>
          if d.length = 16 then .ok rest (beVal (d.drop 8)) else .panic
    else .error

/-- `prefix`, `/repo/src/event_parsing/prefix.rs:173-184`: self-addressing first, any error (but not a panic) falls back to basic. -/
def prefixP (s : Bytes) : IRes IdentifierPrefix :=
  match selfAddressingPrefixP s with
  | .ok r p => .ok r (.selfAddressing p)
  | .panic => .panic
  | _ => (basicPrefixP s).andThen fun r p => .ok r (.basic p)

/-- `b64_count`, `/repo/src/event_parsing/attachment.rs:57-63` -/
def b64CountP (s : Bytes) : IRes Nat :=
  (takeN 2 s).andThen fun rest t => IRes.ofResFailure (b64ToNum t) rest

/-- `Attachment`, `/repo/src/event_parsing/mod.rs:29-41` -/
inductive Attachment where
  | sealSourceCouplets (l : List SourceSeal)
  | attachedSignatures (l : List AttachedSignaturePrefix)
  | receiptCouplets (l : List (BasicPrefix × SelfSigningPrefix))
  | sealSignaturesGroups (l : List (EventSeal × List AttachedSignaturePrefix))
  | lastEstSignaturesGroups (l : List (IdentifierPrefix × List AttachedSignaturePrefix))
  | frame (l : List Attachment)
  deriving Repr

/-- The payload codes that matter for attachments, `/repo/src/event_parsing/payload_size.rs:9-89`. Two-character codes
other than the six attachment codes are collected in `other`. -/
inductive PayloadType where
  | MA | MC | MF | MG | MH | MV
  | other
  deriving DecidableEq, Repr

/-- `TryFrom<&str> for PayloadType` on two-character texts, `/repo/src/event_parsing/payload_size.rs:210-259`. -/
def PayloadType.tryFrom (s : Bytes) : Option PayloadType :=
  if s = b!"-A" then some .MA
  else if s = b!"-C" then some .MC
  else if s = b!"-F" then some .MF
  else if s = b!"-G" then some .MG
  else if s = b!"-H" then some .MH
  else if s = b!"-V" then some .MV
  else if s ∈ [b!"0A", b!"0B", b!"0C", b!"0D", b!"0E", b!"0F", b!"0G", b!"0H", b!"-B", b!"-D", b!"-E",
      b!"-U", b!"-W", b!"-X", b!"-Y", b!"-Z"] then some .other
  else none

/-- `tuple((p, q))` -/
def pairP {α β} (p : Bytes → IRes α) (q : Bytes → IRes β) (s : Bytes) : IRes (α × β) :=
  (p s).andThen fun r a => (q r).andThen fun r b => .ok r (a, b)

/-- `source_seal`, `/repo/src/event_parsing/attachment.rs:27-41` -/
def sourceSealP (s : Bytes) : IRes (List SourceSeal) :=
  (b64CountP s).andThen fun rest sc =>
    (countP (pairP attachedSnP selfAddressingPrefixP) sc rest).andThen fun rest l =>
      .ok rest (l.map fun x => ⟨x.1, x.2⟩)

/-- `event_seal`, `/repo/src/event_parsing/attachment.rs:43-55` -/
def eventSealP (s : Bytes) : IRes EventSeal :=
  (prefixP s).andThen fun rest p =>
    (attachedSnP rest).andThen fun rest sn =>
      (selfAddressingPrefixP rest).andThen fun rest d => .ok rest ⟨p, sn, d⟩

/-- `signatures`, `/repo/src/event_parsing/attachment.rs:65-68` -/
def signaturesP (s : Bytes) : IRes (List AttachedSignaturePrefix) :=
  (b64CountP s).andThen fun rest sc => countP attachedSignatureP sc rest

/-- `couplets`, `/repo/src/event_parsing/attachment.rs:70-77` -/
def coupletsP (s : Bytes) : IRes (List (BasicPrefix × SelfSigningPrefix)) :=
  (b64CountP s).andThen fun rest sc => countP (pairP basicPrefixP selfSigningPrefixP) sc rest

/-- `nom::multi::many0(p)` (nom 5): stops at the first recoverable error, an element that consumes nothing is
an error.  The fuel bounds the number of elements; each consumes input, so `s.length + 1` is enough. -/
def many0P {α} (p : Bytes → IRes α) : Nat → Bytes → IRes (List α)
  | 0, _ => .panic
  | n + 1, s =>
    match p s with
    | .error => .ok s []
    | .ok r a => if r.length = s.length then .error else (many0P p n r).andThen fun r' as => .ok r' (a :: as)
    | .failure => .failure
    | .incomplete => .incomplete
    | .panic => .panic

/-- `attachment`, `/repo/src/event_parsing/attachment.rs:106-168` together with `indexed_signatures` (79-84),
`identifier_signatures` (86-94) and `seal_signatures` (96-104).
The fuel bounds the nesting depth (the code recurses on strictly shorter input).
In the frame case the code computes `(sc * 4) as usize - rest.len()` for the error value; this subtraction underflows
(a panic in builds with overflow checks) when the frame has unparsed bytes and more than `sc * 4` bytes follow. -/
def attachmentF : Nat → Bytes → IRes Attachment
  | 0, _ => .panic
  | n + 1, s =>
    (takeN 2 s).andThen fun rest pt =>
      if !utf8Valid pt then .failure
      else match PayloadType.tryFrom pt with
        | none => .error
        | some .MG => (sourceSealP rest).andThen fun r l => .ok r (.sealSourceCouplets l)
        | some .MF =>
          (b64CountP rest).andThen fun r sc =>
            (countP (pairP eventSealP (fun inp =>
              (attachmentF n inp).andThen fun r a => match a with
                | .attachedSignatures sigs => .ok r sigs
                | _ => .error)) sc r).andThen fun r l => .ok r (.sealSignaturesGroups l)
        | some .MA => (signaturesP rest).andThen fun r l => .ok r (.attachedSignatures l)
        | some .MC => (coupletsP rest).andThen fun r l => .ok r (.receiptCouplets l)
        | some .MH =>
          (b64CountP rest).andThen fun r sc =>
            (countP (pairP prefixP (fun inp =>
              (attachmentF n inp).andThen fun r a => match a with
                | .attachedSignatures sigs => .ok r sigs
                | _ => .error)) sc r).andThen fun r l => .ok r (.lastEstSignaturesGroups l)
        | some .MV =>
          (b64CountP rest).andThen fun r sc =>
            match takeN (sc * 4) r with
            | .ok r' total =>
              (many0P (attachmentF n) (total.length + 1) total).andThen fun extra atts =>
                if extra.isEmpty then .ok r' (.frame atts)
                else if r'.length ≤ sc * 4 then .incomplete else .panic
            | .error => .incomplete
            | .failure => .failure
            | .incomplete => .incomplete
            | .panic => .panic
        | some .other => .panic

/-- `attachment` on a whole input -/
def attachmentP (s : Bytes) : IRes Attachment := attachmentF (s.length + 1) s

/-! ## Writing -/

/-- `PayloadType::adjust_with_num` for the two-character count codes, `/repo/src/event_parsing/payload_size.rs:160-207`:
`index_length` is 2 for these codes, except that `-H` reaches `todo!()`. -/
def adjustWithNum (t : PayloadType) (n : Nat) : Res Bytes :=
  let go (code : Bytes) : Res Bytes :=
    let i := numToB64 n
    .ok (code ++ List.replicate (2 - i.length) 65 ++ i)
  match t with
  | .MA => go b!"-A"
  | .MC => go b!"-C"
  | .MF => go b!"-F"
  | .MG => go b!"-G"
  | .MV => go b!"-V"
  | .MH => .panic
  | .other => .panic

/-- `pack_sn`, `/repo/src/event_parsing/mod.rs:111-128`: `24/4*3 - 2 - 8 = 8` zero bytes in front of the `u64`. -/
def packSn (sn : Nat) : Bytes := b!"0A" ++ b64Encode (List.replicate 8 0 ++ beBytes 8 sn)

/-- The `AttachedSignatures` branch of `to_cesr`, `/repo/src/event_parsing/mod.rs:68-73` (`as u16` truncates the count). -/
def sigsToCesr (l : List AttachedSignaturePrefix) : Res Bytes := do
  let c ← adjustWithNum .MA (l.length % 65536)
  .ok (c ++ (l.map AttachedSignaturePrefix.toStr).flatten)

/-- groups of `-F`, `/repo/src/event_parsing/mod.rs:53-67` -/
def sealGroupsToCesr : List (EventSeal × List AttachedSignaturePrefix) → Res Bytes
  | [] => .ok []
  | (sl, sigs) :: r => do
    let s ← sigsToCesr sigs
    let t ← sealGroupsToCesr r
    .ok (sl.prefix.toStr ++ packSn sl.sn ++ sl.eventDigest.toStr ++ s ++ t)

/-- groups of `-H`, `/repo/src/event_parsing/mod.rs:81-91` -/
def lastEstToCesr : List (IdentifierPrefix × List AttachedSignaturePrefix) → Res Bytes
  | [] => .ok []
  | (p, sigs) :: r => do
    let s ← sigsToCesr sigs
    let t ← lastEstToCesr r
    .ok (p.toStr ++ s ++ t)

mutual
/-- `Attachment::to_cesr`, `/repo/src/event_parsing/mod.rs:44-109`.  For `Frame` the count written is the *byte* length of the content. -/
def Attachment.toCesr : Attachment → Res Bytes
  | .sealSourceCouplets l => do
    let c ← adjustWithNum .MG (l.length % 65536)
    .ok (c ++ (l.map fun s => packSn s.sn ++ s.digest.toStr).flatten)
  | .sealSignaturesGroups l => do
    let body ← sealGroupsToCesr l
    let c ← adjustWithNum .MF (l.length % 65536)
    .ok (c ++ body)
  | .attachedSignatures l => sigsToCesr l
  | .receiptCouplets l => do
    let c ← adjustWithNum .MC (l.length % 65536)
    .ok (c ++ (l.map fun x => x.1.toStr ++ x.2.toStr).flatten)
  | .lastEstSignaturesGroups l => do
    let body ← lastEstToCesr l
    let c ← adjustWithNum .MH (l.length % 65536)
    .ok (c ++ body)
  | .frame l => do
    let body ← Attachment.toCesrList l
    let c ← adjustWithNum .MV (body.length % 65536)
    .ok (c ++ body)
/-- the folds over attachments (`/repo/src/event_parsing/mod.rs:92-95` and `SignedEventData::to_cesr`, 160-168) -/
def Attachment.toCesrList : List Attachment → Res Bytes
  | [] => .ok []
  | a :: r => do
    let x ← Attachment.toCesr a
    let y ← Attachment.toCesrList r
    .ok (x ++ y)
end

end Keriox
