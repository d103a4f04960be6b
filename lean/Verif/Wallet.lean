import Verif.Keri
/-!
# The wallet as key manager — `/repo/src/signer/wallet.rs`, `/repo/src/keri/mod.rs:46-80` (feature `wallet`)

The wallet itself is the external crate `universal_wallet`. What is assumed of it: it maps names to contents, `set_content` replaces what a
name stands for, `get_key` finds a content by its name, `get_content_by_controller` finds some content that carries the tag if there is one
(which one, if several do, is left open: `Pick`), and `sign_raw` signs with the private key of the named key pair.
`Error::PublicKeyError` and `Error::WalletError` are both `Error.other`.
Not modelled: entropy failures of `random_pair`, locking, the wallet's id, and the kind of the key-agreement pair.
-/
namespace Keriox

/-- `Content` of `universal_wallet`, as matched in signer/wallet.rs:29-42 and keri/mod.rs:60-66; `tags` is the field `controller` -/
inductive WContent where
  | keyPair (tags : List String) (kp : KeyPair)
  | publicKey (tags : List String) (pub : Bytes)
  | entropy
  deriving DecidableEq

/-- the tags of a content -/
def WContent.tags : WContent → List String
  | .keyPair t _ => t
  | .publicKey t _ => t
  | .entropy => []

/-- a wallet; `fresh` lists the key pairs the random generator will still produce -/
structure Wallet where
  contents : List (String × WContent)
  fresh : Nat → KeyPair

/-- `UnlockedWallet::new`: nothing in it -/
def Wallet.new (fresh : Nat → KeyPair) : Wallet := ⟨[], fresh⟩

/-- `CURRENT`, signer/wallet.rs:5 -/
def tagCurrent : String := "current"
/-- `NEXT`, signer/wallet.rs:6 -/
def tagNext : String := "next"
/-- `CRYPTO`, signer/wallet.rs:7 -/
def tagCrypto : String := "crypto"

/-- `set_content` -/
def Wallet.setContent (w : Wallet) (id : String) (c : WContent) : Wallet :=
  { w with contents := (id, c) :: w.contents.filter (fun x => x.1 ≠ id) }

/-- `get_key` -/
def Wallet.getKey (w : Wallet) (id : String) : Option WContent := (w.contents.find? (fun x => x.1 = id)).map (·.2)

/-- how `get_content_by_controller` chooses among contents -/
abbrev Pick := List (String × WContent) → String → Option WContent

/-- what `get_content_by_controller` promises: a content with that tag, if there is one -/
structure Pick.Ok (pick : Pick) : Prop where
  sound : ∀ cs tag c, pick cs tag = some c → ∃ id, (id, c) ∈ cs ∧ tag ∈ c.tags
  complete : ∀ cs tag, (∃ x ∈ cs, tag ∈ x.2.tags) → pick cs tag ≠ none

/-- `KeyPair::random_pair`: the next pair of the random generator -/
def Wallet.drawn (w : Wallet) : Wallet := { w with fresh := fun n => w.fresh (n + 1) }

/-- `incept_keys`, signer/wallet.rs:12-23 -/
def Wallet.inceptKeys (w : Wallet) : Wallet :=
  let w1 := w.drawn.setContent tagCurrent (.keyPair [tagCurrent] (w.fresh 0))
  let w2 := w1.drawn.setContent tagNext (.keyPair [tagNext] (w1.fresh 0))
  w2.drawn.setContent tagCrypto (.keyPair [tagCrypto] (w2.fresh 0))

/-- `get_public_key`, signer/wallet.rs:26-46 -/
def Wallet.getPublicKey (w : Wallet) (which : String) : Res Bytes :=
  match w.getKey which with
  | some (.keyPair _ kp) => if kp.pub = [] then .err .other else .ok kp.pub
  | some .entropy => .err .other
  | some (.publicKey _ pk) => if pk = [] then .err .other else .ok pk
  | none => .err .other

/-- `public_key`, signer/wallet.rs:54-56 -/
def Wallet.publicKey (w : Wallet) : Res Bytes := w.getPublicKey tagCurrent
/-- `next_public_key`, signer/wallet.rs:58-60 -/
def Wallet.nextPublicKey (w : Wallet) : Res Bytes := w.getPublicKey tagNext

/-- `sign`, signer/wallet.rs:49-52; `sign_raw` fails unless the name stands for a key pair -/
def Wallet.sign (sg : SignFn) (w : Wallet) (msg : Bytes) : Res Bytes :=
  match w.getKey tagCurrent with
  | some (.keyPair _ kp) => sg kp.priv msg
  | _ => .err .other

/-- the second half of `rotate`, signer/wallet.rs:70-78 -/
def Wallet.promote (w : Wallet) (kp : KeyPair) : Wallet :=
  let w1 := w.setContent tagCurrent (.keyPair [tagCurrent] kp)
  w1.drawn.setContent tagNext (.keyPair [tagNext] (w1.fresh 0))

/-- `rotate`, signer/wallet.rs:62-84: result and wallet afterwards -/
def Wallet.rotate (pick : Pick) (w : Wallet) : Res Unit × Wallet :=
  match w.nextPublicKey with
  | .ok pk =>
    if pk = [] then (.err .other, w)
    else match pick w.contents tagNext with
      | some (.keyPair _ kp) => (.ok (), w.promote kp)
      | some _ => (.err .other, w)
      | none => (.err .other, w)
  | .err e => (.err e, w)
  | .panic => (.panic, w)

/-- the wallet after `n` rotations, whatever they return -/
def Wallet.rotations (pick : Pick) (w : Wallet) : Nat → Wallet
  | 0 => w
  | n + 1 => ((w.rotations pick n).rotate pick).2

/-- the identifier of `new_with_fresh_wallet`, keri/mod.rs:57-70: the public key found under `CURRENT`, labelled as a secp256k1 key -/
def Wallet.freshPrefix (w : Wallet) : Res IdentifierPrefix :=
  match w.getKey tagCurrent with
  | some (.publicKey _ pk) => .ok (.basic ⟨.ecdsa, pk⟩)
  | some (.keyPair _ kp) => .ok (.basic ⟨.ecdsa, kp.pub⟩)
  | some .entropy => .err .other
  | none => .panic

end Keriox
