/-!
Error values returned by host functions (soroban-env-common/src/error.rs, the XDR enums `ScErrorType` and `ScErrorCode`).
-/
namespace Soroban

/-- XDR `ScErrorType` without `Contract` (Stellar-contract.x; listed in soroban-env-common/src/error.rs:15-46). -/
inductive ErrTy where
  | wasmVm | context | storage | object | crypto | events | budget | value | auth
  deriving DecidableEq, Repr

/-- XDR `ScErrorCode` (Stellar-contract.x; listed in soroban-env-common/src/error.rs:15-46). -/
inductive ErrCode where
  | arithDomain | indexBounds | invalidInput | missingValue | existingValue | exceededLimit | invalidAction
  | internalError | unexpectedType | unexpectedSize
  deriving DecidableEq, Repr

/-- soroban-env-common/src/error.rs `Error` as carried by soroban-env-host/src/host/error.rs `HostError` (the debug
information of a `HostError` is not modelled). -/
inductive Err where
  | contract (code : Nat)
  | host (t : ErrTy) (c : ErrCode)
  deriving DecidableEq, Repr

/-- Result of a fallible host operation. -/
abbrev Res (α : Type) := Except Err α

end Soroban
