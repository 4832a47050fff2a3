import Verif.Model.Curves
/-!
Signatures and digests: the functions of `crypto/mod.rs` for Ed25519 and ECDSA and their host functions. Metering is left out. What the
libraries `ed25519_dalek`, `k256`, `p256`, `sha2` and `sha3` do with well-formed arguments is a parameter.
-/
namespace Soroban.Signatures

open Soroban.Curves (invalidInput)

/-- host/conversion.rs:86-108 `fixed_length_bytes_from_slice`: the error for a wrong length. -/
def unexpectedSize : Err := .host .object .unexpectedSize

/-- host/conversion.rs:86-108 `fixed_length_bytes_from_slice` -/
def fixedLength (n : Nat) (b : List Nat) : Res (List Nat) := if b.length = n then .ok b else .error unexpectedSize

/-- `ed25519_dalek`: keys that are points (`VerifyingKey::from_bytes`) and `verify_strict`. -/
structure EdLib where
  Key : Type
  fromBytes : List Nat → Option Key
  verifyStrict : Key → List Nat → List Nat → Bool

/-- crypto/mod.rs:46-67 `ed25519_pub_key_from_bytes` -/
def edPubKey (L : EdLib) (b : List Nat) : Res L.Key :=
  if b.length = 32 then
    match L.fromBytes b with
    | some k => .ok k
    | none => .error invalidInput
  else .error invalidInput

/-- crypto/mod.rs:78-97 `verify_sig_ed25519_internal` -/
def edVerify (L : EdLib) (payload : List Nat) (k : L.Key) (sig : List Nat) : Res Unit :=
  if L.verifyStrict k payload sig then .ok () else .error invalidInput

/-- host.rs:3035-3048 `verify_sig_ed25519`, with crypto/mod.rs:38-44 `ed25519_signature_from_bytesobj_input` -/
def verifySigEd25519 (L : EdLib) (k x s : List Nat) : Res Unit := do
  let key ← edPubKey L k
  let sig ← fixedLength 64 s
  edVerify L x key sig

/-- An ECDSA signature: `r` and `s`. -/
structure EcSig where
  r : Nat
  s : Nat

/-- `ecdsa::Signature::try_from` for a curve of order `n` with 32-byte scalars: two big-endian scalars, neither zero. -/
def ecSigParse (n : Nat) (b : List Nat) : Option EcSig :=
  if b.length = 64 then
    let r := fromLe (b.take 32).reverse
    let s := fromLe (b.drop 32).reverse
    if 0 < r ∧ r < n ∧ 0 < s ∧ s < n then some ⟨r, s⟩ else none
  else none

/-- `is_high` of the scalars of `k256` and `p256`: more than half of the order. -/
def isHigh (n s : Nat) : Bool := decide (n / 2 < s)

/-- crypto/mod.rs:168-195 `ecdsa_signature_from_bytes` -/
def ecSigFromBytes (n : Nat) (b : List Nat) : Res EcSig :=
  match ecSigParse n b with
  | none => .error invalidInput
  | some sig => if isHigh n sig.s then .error invalidInput else .ok sig

/-- The order of secp256k1. -/
def k1Order : Nat := 0xfffffffffffffffffffffffffffffffebaaedce6af48a03bbfd25e8cd0364141

/-- The order of secp256r1. -/
def r1Order : Nat := 0xffffffff00000000ffffffffffffffffbce6faada7179e84f3b9cac2fc632551

/-- crypto/mod.rs:214-235 `secp256k1_recovery_id_from_u32val`; `RecoveryId::MAX` is 3 and all numbers up to it are identifiers. -/
def recoveryId (rid : Nat) : Res Nat := if rid > 3 then .error invalidInput else .ok rid

/-- `k256::ecdsa::VerifyingKey::recover_from_prehash`: the coordinates of the key, if there is one. -/
abbrev K1Lib := List Nat → EcSig → Nat → Option (Nat × Nat)

/-- crypto/mod.rs:237-261 `recover_key_ecdsa_secp256k1_internal`: the key is written uncompressed. -/
def recoverKey (L : K1Lib) (hash : List Nat) (sig : EcSig) (rid : Nat) : Res (List Nat) :=
  match L hash sig rid with
  | none => .error invalidInput
  | some (x, y) => .ok (4 :: ((toLe 32 x).reverse ++ (toLe 32 y).reverse))

/-- host.rs:3050-3062 `recover_key_ecdsa_secp256k1` -/
def recoverKeyEcdsaSecp256k1 (L : K1Lib) (digest signature : List Nat) (rid : Nat) : Res (List Nat) := do
  let sig ← ecSigFromBytes k1Order signature
  let rid ← recoveryId rid
  let hash ← fixedLength 32 digest
  recoverKey L hash sig rid

/-- `p256`: `VerifyingKey::from_sec1_bytes` and `verify_prehash`. -/
structure R1Lib where
  Key : Type
  fromSec1 : List Nat → Option Key
  verifyPrehash : Key → List Nat → EcSig → Bool

/-- `sec1::point::Tag::from_u8`: the tags of the identity, compressed, uncompressed and compact points. -/
def isTag (b : Nat) : Bool := [0, 2, 3, 4, 5].contains b

/-- crypto/mod.rs:119-156 `secp256r1_decode_sec1_uncompressed_pubkey` -/
def r1PubKey (L : R1Lib) (b : List Nat) : Res L.Key :=
  match b with
  | [] => .error invalidInput
  | tag :: _ =>
    if !isTag tag then .error invalidInput
    else if tag ≠ 4 then .error invalidInput
    else
      match L.fromSec1 b with
      | some k => .ok k
      | none => .error invalidInput

/-- crypto/mod.rs:99-117 `secp256r1_verify_signature` -/
def r1Verify (L : R1Lib) (k : L.Key) (hash : List Nat) (sig : EcSig) : Res Unit :=
  if L.verifyPrehash k hash sig then .ok () else .error invalidInput

/-- host.rs:3064-3076 `verify_sig_ecdsa_secp256r1` -/
def verifySigEcdsaSecp256r1 (L : R1Lib) (key digest signature : List Nat) : Res Unit := do
  let pk ← r1PubKey L key
  let sig ← ecSigFromBytes r1Order signature
  let hash ← fixedLength 32 digest
  r1Verify L pk hash sig

end Soroban.Signatures
