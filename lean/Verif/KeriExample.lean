import Verif.KeriFacts
import Verif.Example
import Verif.Props.Binding
/-!
# Concrete controllers, used only in non-vacuity examples and counterexamples
-/
namespace Keriox.Ex

/-- toy signing: the private key is the public key -/
def sg : SignFn := fun priv m => .ok (priv ++ dig m)
/-- key pair number `i` -/
def kp (i : UInt8) : KeyPair := ⟨List.replicate 32 i, List.replicate 32 i⟩
/-- a key manager -/
def km : CryptoBox := ⟨kp 40, kp 41, fun n => kp (42 + UInt8.ofNat n)⟩
/-- a controller before its inception -/
def ctl : Controller := Controller.new km (key 90, key 91)

theorem dig_length (d : Bytes) : (dig d).length = 32 := by
  unfold dig; rw [List.length_append, List.length_replicate, beBytes_length]

theorem blake3Size : env.Blake3Size := fun d => dig_length d

theorem kp_works (i : UInt8) : (kp i).Works env sg where
  size := by show (List.replicate 32 i).length = _; rw [List.length_replicate]
  signs m := ⟨List.replicate 32 i ++ dig m, rfl, by rw [List.length_append, List.length_replicate, dig_length],
    decide_eq_true rfl⟩

theorem km_works : km.Works env sg := ⟨kp_works _, kp_works _, fun _ => kp_works _⟩

/-- the outcome of inception with one extra key and one witness -/
def ctlIcp : Res SignedEvent × Controller × Db := ctl.inceptWith env sg [key 50] [key 51] (after env hist)

/-- inception of a controller with a witness key that does not parse back (C35) -/
def secpIcp : Res SignedEvent × Controller × Db := ctl.inceptWith env sg [] [⟨.ecdsa, List.replicate 33 2⟩] (after env [])

/-- the peer of the `interact` call -/
def peer : SelfAddressingPrefix := ⟨.blake3_256, dig b!"peer"⟩
end Keriox.Ex
