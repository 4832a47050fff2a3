import Verif.Spec.Account
import Verif.Spec.ContractTypes
/-!
The signature value of a Stellar account, for C102.
-/
namespace Soroban.AccountSig.Spec
open Soroban Soroban.ContractTypes.Spec

/-- A key and a signature, as bytes. -/
structure KeySig where
  key : List Nat
  sig : List Nat
  deriving DecidableEq

/-- The value of one signature. -/
def KeySig.value (p : KeySig) : ScVal := struct [(txt "public_key", .bytes p.key), (txt "signature", .bytes p.sig)]

/-- The value of a list of signatures. -/
def valueOf (l : List KeySig) : ScVal := .vec (some (l.map KeySig.value))

/-- The number that bytes stand for, the most significant first. -/
def number : List Nat → Nat
  | [] => 0
  | b :: bs => b * 256 ^ bs.length + number bs

/-- The lengths of keys and signatures. -/
def KeySig.Sized (p : KeySig) : Prop := p.key.length = 32 ∧ p.sig.length = 64

/-- A key and a signature, as numbers. -/
def KeySig.numbers (p : KeySig) : Account.Sig := ⟨number p.key, number p.sig⟩

end Soroban.AccountSig.Spec
