import Verif.Build
import Verif.Processor
/-!
# A concrete environment and concrete logs, used only in non-vacuity examples and counterexamples
-/
namespace Keriox.Ex

/-- a 16-bit checksum -/
def sum (d : Bytes) : Nat := d.foldl (fun a b => (a * 31 + b.toNat) % 65521) 7

/-- toy digest: the checksum written into 32 bytes -/
def dig (d : Bytes) : Bytes := List.replicate 30 1 ++ beBytes 2 (sum d)

/-- toy environment: a signature of `m` by key `k` is `k` followed by the digest of `m` (64 bytes) -/
def env : Env where
  digest := fun _ d => dig d
  ed := fun k m s => decide (s = k ++ dig m)
  ecdsa := fun k m s => decide (s = k ++ dig m)
  cbor := fun v => some (jsonText v)
  mgpk := fun v => some (jsonText v)
  timeText := fun t _ => decStr t.toNat

/-- key number `i` -/
def key (i : UInt8) : BasicPrefix := ⟨.ed25519, List.replicate 32 i⟩
/-- signature by key `i`, indexed `idx` -/
def sig (i : UInt8) (idx : Nat) (m : Bytes) : AttachedSignaturePrefix := ⟨idx, ⟨.ed25519Sha512, List.replicate 32 i ++ dig m⟩⟩

/-- the message or a dummy -/
def msgOr (r : Res EventMessage) : EventMessage :=
  match r with
  | .ok m => m
  | _ => ⟨SerInfo.new .json 0, ⟨SelfAddressingPrefix.default, ⟨IdentifierPrefix.default, 0, .ixn ⟨SelfAddressingPrefix.default, []⟩⟩⟩⟩

/-- sign a message with the keys `ks` (in index order) -/
def signAll (m : EventMessage) (ks : List UInt8) : SignedEvent :=
  ⟨m, (List.range ks.length).map fun i => sig (ks.getD i 0) i (jsonText m.sval), none⟩

/-- key configuration with current keys `ks`, committing to next keys `ns` -/
def kc (ks ns : List UInt8) (t : Threshold) : KeyConfig :=
  ⟨t, ks.map key, some (KeyConfig.nxtCommitment env t (ns.map key) .blake3_256)⟩

/-- inception with three keys, two of which must sign; self-addressing identifier -/
def icp : SignedEvent := signAll (msgOr (inceptSelfAddressing env (.icp ⟨kc [1, 2, 3] [4, 5, 6] (.simple 2), 1, [key 30, key 31], [], []⟩) .blake3_256 .json)) [1, 2]
/-- its identifier -/
def id : IdentifierPrefix := icp.pre
/-- a rotation to the committed keys -/
def rot : SignedEvent := signAll (msgOr ((Event.mk id 1 (.rot ⟨icp.dig, kc [4, 5, 6] [7, 8, 9] (.simple 2), 1, [key 30], [key 32], []⟩)).toMessage env .json .blake3_256)) [4, 5, 6]
/-- an interaction after the rotation -/
def ixn : SignedEvent := signAll (msgOr ((Event.mk id 2 (.ixn ⟨rot.dig, [.digest ⟨.blake3_256, dig b!"data"⟩]⟩)).toMessage env .json .blake3_256)) [4, 5]

/-- the history submitting the three events -/
def hist : List Action := [.submit (.event icp), .submit (.event rot), .submit (.event ixn)]

/-- the state after inception and rotation -/
def rotState : IdState :=
  ⟨id, 1, rot.dig, none, none, kc [4, 5, 6] [7, 8, 9] (.simple 2), 1, [key 31, key 32], none, ⟨1, icp.dig, [key 32], [key 30]⟩⟩

/-- inception of a basic identifier without a next-key commitment -/
def icpFinal : SignedEvent := signAll (msgOr ((Event.mk (.basic (key 9)) 0 (.icp ⟨⟨.simple 1, [key 9], none⟩, 0, [], [], []⟩)).toMessage env .json .blake3_256)) [9]
/-- an interaction of that identifier -/
def ixnFinal : SignedEvent := signAll (msgOr ((Event.mk (.basic (key 9)) 1 (.ixn ⟨icpFinal.dig, []⟩)).toMessage env .json .blake3_256)) [9]

end Keriox.Ex
