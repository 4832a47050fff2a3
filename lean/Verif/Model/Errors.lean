import Verif.Model.VmCall
import Verif.Model.Val
/-!
Errors as words, and the failures of libraries as errors: soroban-env-common/src/error.rs and `is_recoverable` of
soroban-env-host/src/host/error.rs. `Err` has the shape of XDR's `ScError`; the word of an error is a 64-bit `Val`.
-/
namespace Soroban.Errors
open Soroban.VmCall

/-- XDR `ScErrorType` as a number (Stellar-contract.x; used as `type_ as u32` in soroban-env-common/src/error.rs:291-313). -/
def tyNum : ErrTy → Nat
  | .wasmVm => 1 | .context => 2 | .storage => 3 | .object => 4 | .crypto => 5 | .events => 6 | .budget => 7 | .value => 8
  | .auth => 9

/-- XDR `ScErrorCode` as a number (Stellar-contract.x; used as `code as u32` in soroban-env-common/src/error.rs:296-313). -/
def codeNum : ErrCode → Nat
  | .arithDomain => 0 | .indexBounds => 1 | .invalidInput => 2 | .missingValue => 3 | .existingValue => 4 | .exceededLimit => 5
  | .invalidAction => 6 | .internalError => 7 | .unexpectedType => 8 | .unexpectedSize => 9

/-- The generated `TryFrom<i32> for ScErrorType` (Stellar-contract.x), without `Contract`. -/
def tyOf : Nat → Option ErrTy
  | 1 => some .wasmVm | 2 => some .context | 3 => some .storage | 4 => some .object | 5 => some .crypto | 6 => some .events
  | 7 => some .budget | 8 => some .value | 9 => some .auth | _ => none

/-- The generated `TryFrom<i32> for ScErrorCode` (Stellar-contract.x). A number of 2^31 and above is negative as `i32` and no
code either. -/
def codeOf : Nat → Option ErrCode
  | 0 => some .arithDomain | 1 => some .indexBounds | 2 => some .invalidInput | 3 => some .missingValue
  | 4 => some .existingValue | 5 => some .exceededLimit | 6 => some .invalidAction | 7 => some .internalError
  | 8 => some .unexpectedType | 9 => some .unexpectedSize | _ => none

/-- soroban-env-common/src/error.rs:306-308 `from_contract_error` -/
def fromContractError (code : Nat) : Nat := Val.fromMajorMinorAndTag code 0 .Error

/-- soroban-env-common/src/error.rs:311-313 `from_type_and_code` -/
def fromTypeAndCode (t : ErrTy) (c : ErrCode) : Nat := Val.fromMajorMinorAndTag (codeNum c) (tyNum t) .Error

/-- soroban-env-common/src/error.rs:316-329 `from_scerror` -/
def fromScError : Err → Nat
  | .contract u => fromContractError u
  | .host t c => fromTypeAndCode t c

/-- soroban-env-common/src/error.rs:96-113 `TryFrom<Error> for ScError`; the failure is left out. -/
def toScError (w : Nat) : Option Err :=
  if Val.minor w = 0 then some (.contract (Val.major w))
  else match tyOf (Val.minor w) with
    | none => none
    | some t => (codeOf (Val.major w)).map (.host t)

/-- soroban-env-common/src/error.rs:34-39 `PartialEq for Error` -/
def eqWord (a b : Nat) : Bool := a == b

/-- soroban-env-common/src/error.rs:50-56 `Ord for Error` -/
def cmpWord (a b : Nat) : Ordering :=
  (compare (Val.minor a) (Val.minor b)).then (compare (Val.major a) (Val.major b))

/-- soroban-env-common/src/error.rs:291-293 `is_type`; 0 is `ScErrorType::Contract`. -/
def isType (w t : Nat) : Bool := Val.minor w == t

/-- soroban-env-common/src/error.rs:296-298 `is_code` -/
def isCode (w : Nat) (c : ErrCode) : Bool := Val.major w == codeNum c

/-- soroban-env-common/src/error.rs:301-303 `get_code` -/
def getCode (w : Nat) : Nat := Val.major w

/-- host/error.rs:148-167 `is_recoverable`, on the word of the error. -/
def isRecoverable (w : Nat) : Bool :=
  if !isType w 0 && isCode w .internalError then false
  else if isCode w .exceededLimit && (isType w (tyNum .storage) || isType w (tyNum .budget)) then false
  else true

/-! ### failures of wasmi, of the Wasm parser and of XDR -/

/-- `wasmi::errors::MemoryError`: the cases that are told apart. -/
inductive MemoryError where
  | outOfBoundsAllocation | outOfBoundsGrowth | outOfBoundsAccess | other
  deriving DecidableEq, Repr

/-- `wasmi::errors::TableError`: the cases that are told apart. -/
inductive TableError where
  | growOutOfBounds | accessOutOfBounds | copyOutOfBounds | other
  deriving DecidableEq, Repr

/-- `wasmi::Error`. A trap has a code unless it carries an error of the host or a message. -/
inductive WasmiError where
  | memory (e : MemoryError)
  | table (e : TableError)
  | instantiationMemory (e : MemoryError)
  | instantiationTable (e : TableError)
  | instantiationOther
  | storeOutOfFuel
  | storeOther
  | trap (code : Option TrapCode)
  | func (e : FuncError)
  | globalTypeMismatch
  | globalOther
  | linker
  | module
  deriving DecidableEq, Repr

/-- The two inner matches of soroban-env-common/src/error.rs:224-229 and :237-242; `none` goes on to the end. -/
def memoryErr : MemoryError → Option Err
  | .outOfBoundsAllocation | .outOfBoundsGrowth => some (.host .budget .exceededLimit)
  | .outOfBoundsAccess => some (.host .wasmVm .indexBounds)
  | .other => none

/-- The two inner matches of soroban-env-common/src/error.rs:230-235 and :243-248. -/
def tableErr : TableError → Option Err
  | .growOutOfBounds => some (.host .budget .exceededLimit)
  | .accessOutOfBounds | .copyOutOfBounds => some (.host .wasmVm .indexBounds)
  | .other => none

/-- soroban-env-common/src/error.rs:216-277 `From<wasmi::Error>` -/
def wasmiErr (e : WasmiError) : Err :=
  (match e with
    | .memory e | .instantiationMemory e => memoryErr e
    | .table e | .instantiationTable e => tableErr e
    | .storeOutOfFuel => some (.host .budget .exceededLimit)
    | .trap c => c.map trapErr
    | .func e => some (funcErr e)
    | .globalTypeMismatch => some (.host .wasmVm .unexpectedType)
    | .instantiationOther | .storeOther | .globalOther | .linker | .module => none).getD (.host .wasmVm .invalidAction)

/-- `xdr::Error`: the cases that are told apart. -/
inductive XdrError where
  | depthLimitExceeded | lengthLimitExceeded | other
  deriving DecidableEq, Repr

/-- A failure of a library that becomes an error of the environment. -/
inductive Failure where
  | wasmi (e : WasmiError)
  | parser
  | xdr (e : XdrError)
  | symbol
  | conversion
  deriving DecidableEq, Repr

/-- soroban-env-common/src/error.rs:142-163 `From<SymbolError>`, `From<ConversionError>` and `From<xdr::Error>`, :216-277
`From<wasmi::Error>` and :280-284 `From<BinaryReaderError>`. -/
def failureErr : Failure → Err
  | .wasmi e => wasmiErr e
  | .parser => .host .wasmVm .invalidInput
  | .xdr .depthLimitExceeded | .xdr .lengthLimitExceeded => .host .context .exceededLimit
  | .xdr .other => .host .value .invalidInput
  | .symbol => .host .value .invalidInput
  | .conversion => .host .value .unexpectedType

end Soroban.Errors
