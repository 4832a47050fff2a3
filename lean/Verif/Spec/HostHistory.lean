import Verif.Spec.HostSerial
/-!
What a contract can rely on over whole histories of the ledger, for C99.

`dataOf L c` is the data of contract `c` in the ledger `L`. `Life` is all that can happen to it: functions of the contract are run, one
after the other and each as if it was alone, and temporary entries disappear.
-/
namespace Soroban.Host.Spec
open Soroban Soroban.Auth Soroban.Host
open Soroban.Storage.Spec (Ledger)

/-- The data of a contract in a ledger. -/
def dataOf (L : Ledger LKey LVal) (c : Nat) : Own :=
  { entries := fun k d => (L (.data (.contract c) k d)).map Prod.fst
    inst := fun k => (instOf L c).bind (fun m => m.get k) }

/-- The same data, but for temporary entries that are gone. -/
structure Faded (d d' : Own) : Prop where
  inst : d'.inst = d.inst
  persistent : ∀ k, d'.entries k .persistent = d.entries k .persistent
  temporary : ∀ k, d'.entries k .temporary = d.entries k .temporary ∨ d'.entries k .temporary = none

/-- Functions of contract `c`, with code in `Code`, have been run one after the other on its data, each to its end; between them
temporary entries have disappeared. -/
inductive Life (c : Nat) (Code : Name → Prog → Prop) : Own → Own → Prop
  | nil {d : Own} : Life c Code d d
  | run {fn : Name} {p : Prog} {d d1 d2 : Own} : Code fn p → Alone c p d d1 → Life c Code d1 d2 → Life c Code d d2
  | fade {d d1 d2 : Own} : Faded d d1 → Life c Code d1 d2 → Life c Code d d2

end Soroban.Host.Spec
