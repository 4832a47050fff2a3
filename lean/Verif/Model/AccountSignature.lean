import Verif.Model.Account
import Verif.Model.ContractTypes
/-!
How the signatures of a Stellar account are read from the signature value of an authorization entry
(soroban-env-host/src/builtin_contracts/account_contract.rs:62-67 and 175-204).

The keys and signatures of `Model/Account` are numbers: here they are those that the bytes stand for, the most significant first. The
comparison of keys (account_contract.rs:205-215) is one of byte arrays of the same length, which is that of these numbers
(`C102_order`). Simplifications: budget charges and diagnostic events are dropped.
-/
namespace Soroban.AccountSig
open Soroban Soroban.ContractTypes
open Soroban.Account (Sig AccountEntry checkAccount)

/-- "public_key" -/
def nPublicKey : List Nat := [112, 117, 98, 108, 105, 99, 95, 107, 101, 121]
/-- "signature" -/
def nSignature : List Nat := [115, 105, 103, 110, 97, 116, 117, 114, 101]

/-- base_types.rs:96-135 `BytesN::try_from_val`, with the bytes (base_types.rs:164-170 `to_array`). -/
def readBytesN (objs : List HostObj) (n v : Nat) : Res (List Nat) := do
  let h ← asObj .BytesObject v
  let b ← visitBytes objs h
  if b.length = n then .ok b else .error (.host .value .unexpectedSize)

/-- The number of some bytes. -/
def ofBytes (b : List Nat) : Nat := b.foldl (fun n x => 256 * n + x) 0

/-- Reading `AccountEd25519Signature` (account_contract.rs:62-67), a struct of the macro in derive_type.rs:47-69. -/
def readSig (objs : List HostObj) (v : Nat) : Res Sig := do
  match ← readStruct objs [nPublicKey, nSignature] v with
  | [k, s] => do
    let k ← readBytesN objs 32 k
    let s ← readBytesN objs 64 s
    .ok ⟨ofBytes k, ofBytes s⟩
  | _ => .error conversionErr

/-- account_contract.rs:181 and 203-204: the conversion of the signature value to a vector, and of its elements, each of which is only
converted when the loop reaches it. -/
def readSigs (objs : List HostObj) (v : Nat) : Res (List (Res Sig)) := do
  let h ← asObj .VecObject v
  let l ← visitVec objs h
  .ok (l.map (readSig objs))

/-- account_contract.rs:175-263 `check_account_authentication`, of a signature value. -/
def checkSignature (verify : Nat → Nat → Nat → Bool) (account : Res AccountEntry) (payload : Nat) (objs : List HostObj) (v : Nat) :
    Res Unit :=
  checkAccount verify account payload (readSigs objs v)

end Soroban.AccountSig
