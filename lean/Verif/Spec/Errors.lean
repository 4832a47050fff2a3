import Verif.Model.Errors
/-!
Specification vocabulary for errors: the number of an error's type and of its code, and the failures that stop a transaction.
-/
namespace Soroban.Errors.Spec
open Soroban.VmCall

/-- The numbers of the types of errors in the order of XDR; a contract's own errors come first, as type 0. -/
def types : List ErrTy := [.wasmVm, .context, .storage, .object, .crypto, .events, .budget, .value, .auth]

/-- The codes of errors in the order of XDR. -/
def codes : List ErrCode :=
  [.arithDomain, .indexBounds, .invalidInput, .missingValue, .existingValue, .exceededLimit, .invalidAction, .internalError,
    .unexpectedType, .unexpectedSize]

/-- An error has type number `t` and code number `c`. -/
inductive HasNumbers : Err → Nat → Nat → Prop
  | contract {u : Nat} : u < 2^32 → HasNumbers (.contract u) 0 u
  | host {t : ErrTy} {c : ErrCode} {i j : Nat} : types[i]? = some t → codes[j]? = some c → HasNumbers (.host t c) (i + 1) j

/-- A host error that no caller may catch: the host is broken, or the budget or the footprint is exceeded. -/
def Fatal : Err → Prop
  | .contract _ => False
  | .host t c => c = .internalError ∨ (c = .exceededLimit ∧ (t = .storage ∨ t = .budget))

/-- The engine ran out of memory, table space, fuel or stack. -/
inductive OutOfResources : WasmiError → Prop
  | memory {e : MemoryError} : e = .outOfBoundsAllocation ∨ e = .outOfBoundsGrowth → OutOfResources (.memory e)
  | instantiationMemory {e : MemoryError} :
      e = .outOfBoundsAllocation ∨ e = .outOfBoundsGrowth → OutOfResources (.instantiationMemory e)
  | table : OutOfResources (.table .growOutOfBounds)
  | instantiationTable : OutOfResources (.instantiationTable .growOutOfBounds)
  | fuel : OutOfResources .storeOutOfFuel
  | trap {c : TrapCode} : c = .stackOverflow ∨ c = .outOfFuel ∨ c = .growthOperationLimited → OutOfResources (.trap (some c))

end Soroban.Errors.Spec
