import Verif.Model.Diagnostics
import Verif.Spec.Objects
/-!
Specification vocabulary for executions with diagnostics.
-/
namespace Soroban.Diagnostics.Spec
open Soroban.Spec

/-- Values a host can start with: each word in an object and each argument is a valid 64-bit value and, if it is the handle of an
object, names an object of its type. -/
def Valid (objs : List HostObj) (args : List Nat) : Prop :=
  (∀ v ∈ args, v < 2^64 ∧ Val.isGood v = true ∧ Names objs v) ∧
    ∀ o ∈ objs, ∀ v ∈ elems o, v < 2^64 ∧ Val.isGood v = true ∧ Names objs v

/-- What a caller outside the host gets: the result as a ledger value, or an error. -/
def outcome {σ : Type} (r : Out σ) (forStorage : Bool) (depth : Nat) : Res ScVal :=
  match r.res with
  | .ok v => fromVal forStorage r.objs depth v
  | .error e => .error e

/-- The events a caller outside the host gets: the id of the contract, the topics and the data as ledger values, and whether the
event is from a failed call; or an error. -/
def events {σ : Type} (r : Out σ) (depth : Nat) : Res (List ((List Nat × List ScVal × ScVal) × Bool)) :=
  eventsXdr depth r.objs r.events

end Soroban.Diagnostics.Spec
