import Verif.Async
/-!
# Payload codes — `/repo/src/event_parsing/payload_size.rs`
-/
namespace Keriox

/-- `PayloadType`, `/repo/src/event_parsing/payload_size.rs:9-89`: all of it (`PayloadType` of the stream parsers keeps only the codes an attachment can begin with) -/
inductive Payload where
  | A | B | C | D | E | F | G | H | I | J | K | L | M
  | OA | OB | OC | OD | OE | OF | OG | OH | IAAA | IAAB | IAAC | IAAD | IAAE | IAAF | IAAG
  | MA | MB | MC | MD | ME | MF | MG | MH | MU | MV | MW | MX | MY | MZ
  deriving DecidableEq, Repr

/-- all codes, in the order of declaration -/
def Payload.all : List Payload :=
  [.A, .B, .C, .D, .E, .F, .G, .H, .I, .J, .K, .L, .M, .OA, .OB, .OC, .OD, .OE, .OF, .OG, .OH, .IAAA, .IAAB, .IAAC, .IAAD, .IAAE, .IAAF, .IAAG, .MA, .MB, .MC, .MD, .ME, .MF, .MG, .MH, .MU, .MV, .MW, .MX, .MY, .MZ]

/-- `PayloadType::size`, payload_size.rs:92-115 -/
def Payload.size : Payload → Nat
  | .A | .B | .C | .D | .E | .F | .G | .H | .I | .J => 44
  | .K | .L => 76
  | .M => 4
  | .OA => 24
  | .OB | .OC | .OD | .OE | .OF | .OG => 88
  | .OH | .IAAF => 8
  | .IAAA | .IAAB => 48
  | .IAAC | .IAAD => 80
  | .IAAE => 156
  | .IAAG => 36
  | .MA | .MB => 88
  | _ => 0

/-- `PayloadType::master_code_size`, payload_size.rs:117-156 -/
def Payload.masterCodeSize (p : Payload) (qb2 : Bool) : Nat :=
  match p with
  | .A | .B | .C | .D | .E | .F | .G | .H | .I | .J | .K | .L | .M => 1
  | .OA | .OB | .OC | .OD | .OE | .OF | .OH => 2
  | .MA | .MB | .MC | .MD | .ME | .MF | .MG | .MU | .MV | .MW | .MX | .MY | .MZ => if qb2 then 3 else 4
  | _ => 0

/-- `PayloadType::index_length`, payload_size.rs:160-191; the rest is `todo!()` -/
def Payload.indexLength : Payload → Res Nat
  | .A | .B | .C | .D | .E | .F | .G | .H | .I | .J | .K | .L | .M => .ok 0
  | .OA | .OB | .OC | .OD | .OE | .OF | .OH => .ok 0
  | .MA | .MB | .MC | .MD | .ME | .MF | .MG | .MU | .MV | .MW | .MX | .MY | .MZ => .ok 2
  | _ => .panic

/-- `Display for PayloadType`, payload_size.rs:262-311 (`E` is written like `D`) -/
def Payload.toStr : Payload → Bytes
  | .A => b!"A"
  | .B => b!"B"
  | .C => b!"C"
  | .D => b!"D"
  | .E => b!"D"
  | .F => b!"F"
  | .G => b!"G"
  | .H => b!"H"
  | .I => b!"I"
  | .J => b!"J"
  | .K => b!"K"
  | .L => b!"L"
  | .M => b!"M"
  | .OA => b!"0A"
  | .OB => b!"0B"
  | .OC => b!"0C"
  | .OD => b!"0D"
  | .OE => b!"0E"
  | .OF => b!"0F"
  | .OG => b!"0G"
  | .OH => b!"0H"
  | .IAAA => b!"1AAA"
  | .IAAB => b!"1AAB"
  | .IAAC => b!"1AAC"
  | .IAAD => b!"1AAD"
  | .IAAE => b!"1AAE"
  | .IAAF => b!"1AAF"
  | .IAAG => b!"1AAG"
  | .MA => b!"-A"
  | .MB => b!"-B"
  | .MC => b!"-C"
  | .MD => b!"-D"
  | .ME => b!"-E"
  | .MF => b!"-F"
  | .MG => b!"-G"
  | .MH => b!"-H"
  | .MU => b!"-U"
  | .MV => b!"-V"
  | .MW => b!"-W"
  | .MX => b!"-X"
  | .MY => b!"-Y"
  | .MZ => b!"-Z"

/-- the arms of the `match` in `TryFrom<&str> for PayloadType`, payload_size.rs:213-256 -/
def Payload.table : List (Bytes × Payload) :=
  [(b!"A", .A), (b!"B", .B), (b!"C", .C), (b!"D", .D), (b!"E", .E), (b!"F", .F), (b!"G", .G), (b!"H", .H), (b!"I", .I), (b!"J", .J), (b!"K",
   .K), (b!"L", .L), (b!"M", .M), (b!"0A", .OA), (b!"0B", .OB), (b!"0C", .OC), (b!"0D", .OD), (b!"0E", .OE), (b!"0F", .OF), (b!"0G", .OG),
   (b!"0H", .OH), (b!"1AAA", .IAAA), (b!"1AAB", .IAAB), (b!"1AAC", .IAAC), (b!"1AAD", .IAAD), (b!"1AAE", .IAAE), (b!"1AAF", .IAAF), (b!"1AAG",
   .IAAG), (b!"-A", .MA), (b!"-B", .MB), (b!"-C", .MC), (b!"-D", .MD), (b!"-E", .ME), (b!"-F", .MF), (b!"-G", .MG), (b!"-H", .MH), (b!"-U",
   .MU), (b!"-V", .MV), (b!"-W", .MW), (b!"-X", .MX), (b!"-Y", .MY), (b!"-Z", .MZ)]

/-- `TryFrom<&str> for PayloadType`, payload_size.rs:210-260 -/
def Payload.tryFrom (s : Bytes) : Res Payload :=
  match table.lookup s with
  | some p => .ok p
  | none => .err .improperPrefixType

/-- `PayloadType::adjust_with_num`, payload_size.rs:193-207 -/
def Payload.adjustWithNum (p : Payload) (sn : Nat) : Res Bytes := do
  let expected ← p.indexLength
  if 0 < expected then
    let i := numToB64 sn
    if i.length < expected then .ok (p.toStr ++ List.replicate (expected - i.length) 65 ++ i)
    else .ok (p.toStr ++ i)
  else .ok p.toStr

end Keriox
