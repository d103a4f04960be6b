import Verif.Keri
import Verif.Props.Reply
import Verif.Props.Codec
import Verif.Props.Replay
import Verif.Props.Format
/-!
# Facts about controllers (helper lemmas; the property theorems are in `Props`)
-/
namespace Keriox

/-! ## Sizes of JSON texts -/

mutual
/-- an upper bound for the length of the JSON text -/
def SVal.weight : SVal → Nat
  | .null => 4
  | .str s => 6 * s.length + 2
  | .seq xs => 2 + SVal.weights xs
  | .map fs => 2 + SVal.weightFields fs
  | .struct fs => 2 + SVal.weightFields fs
/-- of a list -/
def SVal.weights : List SVal → Nat
  | [] => 0
  | x :: xs => 1 + x.weight + SVal.weights xs
/-- of fields -/
def SVal.weightFields : List (Bytes × SVal) → Nat
  | [] => 0
  | (k, x) :: xs => 6 * k.length + 4 + x.weight + SVal.weightFields xs
end

theorem jsonEscapeByte_le (b : UInt8) : (jsonEscapeByte b).length ≤ 6 := by
  unfold jsonEscapeByte
  repeat' split
  all_goals simp

theorem jsonStr_le (s : Bytes) : (jsonStr s).length ≤ 6 * s.length + 2 := by
  unfold jsonStr
  have : (s.flatMap jsonEscapeByte).length ≤ 6 * s.length := by
    induction s with
    | nil => simp
    | cons c s ih =>
      have := jsonEscapeByte_le c
      simp only [List.flatMap_cons, List.length_append, List.length_cons]
      omega
  simp only [List.length_append, List.length_cons, List.length_nil]
  omega

mutual
theorem jsonText_le : ∀ v : SVal, (jsonText v).length ≤ v.weight
  | .null => by simp [jsonText, SVal.weight]
  | .str s => by simp only [jsonText, SVal.weight]; exact jsonStr_le s
  | .seq xs => by
    have := jsonElems_le xs
    simp only [jsonText, SVal.weight, List.length_append, List.length_cons, List.length_nil]; omega
  | .map fs => by
    have := jsonFields_le fs
    simp only [jsonText, SVal.weight, List.length_append, List.length_cons, List.length_nil]; omega
  | .struct fs => by
    have := jsonFields_le fs
    simp only [jsonText, SVal.weight, List.length_append, List.length_cons, List.length_nil]; omega
theorem jsonElems_le : ∀ xs : List SVal, (jsonElems xs).length ≤ SVal.weights xs
  | [] => by simp [jsonElems, SVal.weights]
  | x :: xs => by
    have h1 := jsonText_le x
    have h2 := jsonElemsTail_le xs
    simp only [jsonElems, SVal.weights, List.length_append]; omega
theorem jsonElemsTail_le : ∀ xs : List SVal, (jsonElemsTail xs).length ≤ SVal.weights xs
  | [] => by simp [jsonElemsTail, SVal.weights]
  | x :: xs => by
    have h1 := jsonText_le x
    have h2 := jsonElemsTail_le xs
    simp only [jsonElemsTail, SVal.weights, List.length_append, List.length_cons, List.length_nil]; omega
theorem jsonFields_le : ∀ fs : List (Bytes × SVal), (jsonFields fs).length ≤ SVal.weightFields fs
  | [] => by simp [jsonFields, SVal.weightFields]
  | (k, x) :: xs => by
    have h0 := jsonStr_le k
    have h1 := jsonText_le x
    have h2 := jsonFieldsTail_le xs
    simp only [jsonFields, SVal.weightFields, List.length_append, List.length_cons, List.length_nil]; omega
theorem jsonFieldsTail_le : ∀ fs : List (Bytes × SVal), (jsonFieldsTail fs).length ≤ SVal.weightFields fs
  | [] => by simp [jsonFieldsTail, SVal.weightFields]
  | (k, x) :: xs => by
    have h0 := jsonStr_le k
    have h1 := jsonText_le x
    have h2 := jsonFieldsTail_le xs
    simp only [jsonFieldsTail, SVal.weightFields, List.length_append, List.length_cons, List.length_nil]; omega
end

theorem weightFields_append (a b : List (Bytes × SVal)) : SVal.weightFields (a ++ b) = SVal.weightFields a + SVal.weightFields b := by
  induction a with
  | nil => simp [SVal.weightFields]
  | cons x a ih => obtain ⟨k, v⟩ := x; simp only [List.cons_append, SVal.weightFields, ih]; omega

/-! ## Working keys -/

/-- the key pair works: 32-byte public key, and whatever is signed with the private key verifies under the public key -/
structure KeyPair.Works (env : Env) (sg : SignFn) (kp : KeyPair) : Prop where
  size : kp.pub.length = 32
  signs : ∀ m, ∃ s, sg kp.priv m = .ok s ∧ s.length = 64 ∧ env.ed kp.pub m s = true

/-- all present and future key pairs of the key manager work -/
structure CryptoBox.Works (env : Env) (sg : SignFn) (km : CryptoBox) : Prop where
  signer : km.signer.Works env sg
  next : km.next.Works env sg
  fresh : ∀ n, (km.fresh n).Works env sg

theorem CryptoBox.Works.rotate {env : Env} {sg : SignFn} {km : CryptoBox} (h : km.Works env sg) : km.rotate.Works env sg :=
  ⟨h.next, h.fresh 0, fun n => h.fresh (n + 1)⟩

/-- the 32-byte digests of the algorithm controllers use -/
def Env.Blake3Size (env : Env) : Prop := ∀ d, (env.digest .blake3_256 d).length = 32

/-- the commitment to the next key of a key manager -/
def CryptoBox.commitment (env : Env) (km : CryptoBox) : SelfAddressingPrefix :=
  KeyConfig.nxtCommitment env Threshold.default [km.nextKey] .blake3_256

theorem zipWith_length32 {a b : Bytes} (ha : a.length = 32) (hb : b.length = 32) : (KeyConfig.xorBytes a b).length = 32 := by
  simp [KeyConfig.xorBytes, ha, hb]

theorem commitment_sized {env : Env} (h : env.Blake3Size) (km : CryptoBox) : (km.commitment env).Sized := by
  refine ⟨?_, rfl⟩
  exact zipWith_length32 (h _) (h _)

theorem derive_sized {env : Env} (h : env.Blake3Size) (d : Bytes) : (env.derive .blake3_256 d).Sized := ⟨h d, rfl⟩

theorem sa_rt {p : SelfAddressingPrefix} (h : p.Sized) : p.rt = true := by
  unfold SelfAddressingPrefix.rt; exact decide_eq_true (C35_selfAddressing_roundtrip p h)

theorem ed_key_rt {k : Bytes} (h : k.length = 32) : (BasicPrefix.mk .ed25519 k).rt = true := by
  unfold BasicPrefix.rt
  exact decide_eq_true (C35_basic_roundtrip _ h (by simp [BasicPrefix.IsSecp]))

theorem own_sig_rt {s : Bytes} (h : s.length = 64) (c : SelfSigning) (hc : c.rawBytes = 64) : (AttachedSignaturePrefix.mk 0 ⟨c, s⟩).rt = true := by
  unfold AttachedSignaturePrefix.rt
  exact decide_eq_true (C35_attached_roundtrip _ (by show _ = _; rw [hc]; exact h) (by show 0 < 63; omega))

theorem sa_len {p : SelfAddressingPrefix} (h : p.Sized) (hb : p.derivation = .blake3_256) : p.toStr.length = 44 := by
  rw [SelfAddressingPrefix.toStr_sized p h, hb, List.length_append, b64Encode_length, show p.digest.length = 32 by rw [h.1, hb]; rfl]
  rfl

theorem ed_len {k : Bytes} (h : k.length = 32) : (BasicPrefix.mk .ed25519 k).toStr.length = 44 := by
  have hs : (BasicPrefix.mk .ed25519 k).Sized := h
  rw [BasicPrefix.toStr_sized _ hs, List.length_append, b64Encode_length]
  show _ + ((k.length * 4 + 2) / 3) = _
  rw [h]; rfl

/-! ## Messages of a controller -/

/-- what `SaidEvent::to_message` gives for JSON -/
def saidJson (env : Env) (e : Event) : EventMessage :=
  let info := SerInfo.new .json (jsonText (dummyEventSval (SerInfo.new .json 0) .blake3_256 e)).length
  ⟨info, ⟨env.derive .blake3_256 (jsonText (dummyEventSval info .blake3_256 e)), e⟩⟩

theorem saidMessage_json (env : Env) (e : Event) : e.saidMessage env .json .blake3_256 = .ok (saidJson env e) := rfl

/-- the key configuration a controller announces -/
def CryptoBox.config (env : Env) (km : CryptoBox) (extra : List BasicPrefix) : KeyConfig :=
  ⟨Threshold.default, km.key :: extra, some (km.commitment env)⟩

theorem rotationMsg_eq (env : Env) (c : Controller) (hp : c.pre ≠ IdentifierPrefix.default) (s : IdState) :
    c.rotationMsg env s = .ok (saidJson env ⟨c.pre, s.sn + 1, .rot ⟨s.lastDigest, c.km.config env [], 0, [], [], []⟩⟩) := by
  unfold Controller.rotationMsg Builder.build Builder.pre Controller.builder
  simp only [hp, if_false]
  show Event.toMessage _ _ _ _ = _
  unfold Event.toMessage
  cases c.pre <;> exact saidMessage_json env _

theorem ixnMsg_eq (env : Env) (c : Controller) (hp : c.pre ≠ IdentifierPrefix.default) (s : IdState) (payload : Option Bytes) :
    c.ixnMsg env payload s = .ok (saidJson env ⟨c.pre, s.sn + 1, .ixn ⟨s.lastDigest, ixnSeals env payload⟩⟩) := by
  unfold Controller.ixnMsg Builder.build Builder.pre Controller.builder
  simp only [hp, if_false]
  show Event.toMessage _ _ _ _ = _
  unfold Event.toMessage
  cases c.pre <;> exact saidMessage_json env _

theorem json_serialize (env : Env) (m : EventMessage) (h : m.info.kind = .json) : m.serialize env = .ok (jsonText m.sval) := by
  unfold EventMessage.serialize; rw [h]; rfl

theorem hexStr_u64 {n : Nat} (h : n ≤ u64max) : (hexStr n).length ≤ 16 :=
  (toBase_length_le 16 (by omega) 16 n (by omega)).2 (by unfold u64max at h; omega)

end Keriox
