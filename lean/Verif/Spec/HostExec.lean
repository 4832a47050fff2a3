import Verif.Spec.Host
/-!
Which code a contract runs, for C81 and C82.
-/
namespace Soroban.Host.Spec
open Soroban Soroban.Auth Soroban.Host
open Soroban.Storage.Spec (Ledger)

/-- The code with a hash, or the built-in asset contract. -/
inductive Code where
  | wasm (hash : Nat)
  | asset
  deriving DecidableEq

/-- What the tag `t` of `o` stands for: a hash. -/
def tagged (E : HEnv) (L : Ledger LKey LVal) (o : Addr) (t : Nat) : Option Nat :=
  match L (.data o (.tag t) .persistent) with
  | some (.data v, _) => E.hashOf v
  | _ => none

/-- The code of an executable. -/
def code (E : HEnv) (L : Ledger LKey LVal) : Exec → Option Code
  | .wasm h => some (.wasm h)
  | .asset => some .asset
  | .ref o t => (tagged E L o t).map .wasm

/-- The code of a contract. -/
def codeOf (E : HEnv) (L : Ledger LKey LVal) (c : Nat) : Option Code :=
  match L (.inst c) with
  | some (.inst ex _, _) => code E L ex
  | _ => none

/-- Code that is there. -/
def Present (L : Ledger LKey LVal) : Code → Prop
  | .wasm h => ∃ e, L (.code h) = some e
  | .asset => True

/-- Every tag stands for code that is there, and every contract has code that is there. -/
structure Loadable (E : HEnv) (L : Ledger LKey LVal) : Prop where
  tag : ∀ o t e, L (.data o (.tag t) .persistent) = some e → ∃ h, tagged E L o t = some h ∧ Present L (.wasm h)
  inst : ∀ c ex m l, L (.inst c) = some (.inst ex m, l) → ∃ x, code E L ex = some x ∧ Present L x

/-- What an executable refers to is there: code, or a tag. -/
def RefersTo (L : Ledger LKey LVal) : Exec → Prop
  | .wasm h => ∃ e, L (.code h) = some e
  | .asset => True
  | .ref o t => ∃ e, L (.data o (.tag t) .persistent) = some e

/-- New executables and new contents of tags refer to what is there. -/
structure Sourced (E : HEnv) (L L' : Ledger LKey LVal) : Prop where
  inst : ∀ c ex m l, L' (.inst c) = some (.inst ex m, l) → (∃ m0 l0, L (.inst c) = some (.inst ex m0, l0)) ∨ RefersTo L' ex
  tag : ∀ o t v l, L' (.data o (.tag t) .persistent) = some (v, l) →
    (∃ l0, L (.data o (.tag t) .persistent) = some (v, l0)) ∨ ∃ h, tagged E L' o t = some h ∧ Present L' (.wasm h)

/-- What `get_address_executable` gives for code. -/
def Code.shown : Code → AddrExec
  | .wasm h => .wasm h
  | .asset => .asset

end Soroban.Host.Spec
