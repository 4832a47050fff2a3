import Verif.Model.Host
/-! What the events of a transaction say about the executables of contracts. -/
namespace Soroban.Host.Spec
open Soroban Soroban.Auth Soroban.Storage

/-- The executable a ledger has for a contract. -/
def execAt (L : LKey → Option (Entry LVal)) (c : Nat) : Option Exec :=
  match L (.inst c) with
  | some (.inst ex _, _) => some ex
  | _ => none

/-- The updates of the executable of a contract that a list of events has, each with the executable before and after it. -/
def updatesOf (c : Nat) : List Ev → List (Exec × Exec)
  | [] => []
  | e :: es =>
    match e.body with
    | .updated old new => if e.contract = c then (old, new) :: updatesOf c es else updatesOf c es
    | .contract _ => updatesOf c es

/-- The updates lead from the first executable to the last: each begins with the executable the one before it ended with. A contract
that has no executable at first may have been created with any. -/
def Leads : Option Exec → List (Exec × Exec) → Option Exec → Prop
  | none, [], _ => True
  | some x, [], y => y = some x
  | x, (old, new) :: us, y => (x = none ∨ x = some old) ∧ Leads (some new) us y

end Soroban.Host.Spec
