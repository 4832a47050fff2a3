import Verif.Model.Budget
import Verif.Model.Objects
import Verif.Model.Wasm
/-!
The boundary between the host and the Wasm virtual machine: `metered_func_call` and `invoke_function_raw` of
soroban-env-host/src/vm.rs, the dispatch functions of vm/dispatch.rs, vm/fuel_refillable.rs, and the conversion of wasmi's errors
in soroban-env-common/src/error.rs.

The code of a contract is any tree of what a virtual machine does that the host can see: it executes instructions, which cost
fuel, and then calls a host function, asks for more memory, returns or traps; how it goes on may depend on what it got. All
arguments and results are raw 64-bit words.
-/
namespace Soroban.VmCall
open Soroban.Budget

/-- `wasmi::core::TrapCode`. -/
inductive TrapCode where
  | unreachableCodeReached | memoryOutOfBounds | tableOutOfBounds | indirectCallToNull | integerDivisionByZero | integerOverflow
  | badConversionToInteger | stackOverflow | badSignature | outOfFuel | growthOperationLimited
  deriving DecidableEq, Repr

/-- `wasmi::errors::FuncError`. -/
inductive FuncError where
  | exportedFuncNotFound | mismatchingParameterLen | mismatchingParameterType | mismatchingResultLen | mismatchingResultType
  deriving DecidableEq, Repr

/-- soroban-env-common/src/error.rs:174-199 `From<TrapCode>`. -/
def trapErr : TrapCode → Err
  | .unreachableCodeReached => .host .wasmVm .invalidAction
  | .memoryOutOfBounds | .tableOutOfBounds => .host .wasmVm .indexBounds
  | .indirectCallToNull => .host .wasmVm .missingValue
  | .integerDivisionByZero | .integerOverflow | .badConversionToInteger => .host .wasmVm .arithDomain
  | .badSignature => .host .wasmVm .unexpectedType
  | .stackOverflow | .outOfFuel | .growthOperationLimited => .host .budget .exceededLimit

/-- soroban-env-common/src/error.rs:202-213 `From<FuncError>`. -/
def funcErr : FuncError → Err
  | .exportedFuncNotFound => .host .wasmVm .missingValue
  | .mismatchingParameterType | .mismatchingResultType => .host .wasmVm .unexpectedType
  | .mismatchingParameterLen | .mismatchingResultLen => .host .wasmVm .unexpectedSize

/-- What the host sees of the rest of an execution. The lists are the fuel costs of the instructions executed up to the next
event. A returned word comes with its type. -/
inductive Prog (F : Type) where
  | ret (costs : List Nat) (ty : Wasm.ValTy) (word : Nat)
  | trap (costs : List Nat) (code : TrapCode)
  | grow (costs : List Nat) (current desired : Nat) (maximum : Option Nat) (k : Bool → Prog F)
  | call (costs : List Nat) (f : F) (args : List Nat) (k : Nat → Prog F)

/-- The host's state: the budget with the linear memory of the frames, and everything else. -/
structure St (τ : Type) where
  s : S
  t : τ

/-- The host functions, in the three parts a dispatch function has (vm/dispatch.rs:219-275): the guard on protocol versions,
the conversion and check of the arguments, the function itself, and the check and conversion of its result. `name` is the
conversion of the name of the function to be called (vm.rs:285), `table` the relative objects of the current frame. -/
structure Fns (F τ : Type) where
  guard : F → Res Unit
  args : F → List Nat → St τ → St τ × Res (List Nat)
  call : F → List Nat → St τ → St τ × Res Nat
  result : F → Nat → St τ → St τ × Res Nat
  name : St τ → St τ × Res Unit
  table : τ → List Nat

/-- Index of `ContractCostType::DispatchHostFunction` and of `ContractCostType::InvokeVmFunction`. -/
structure CostIx where
  dispatch : Nat
  invokeVm : Nat

/-- wasmi's fuel metering: an instruction is executed if its cost is left, otherwise the machine traps. -/
def spend : List Nat → Fuel → Fuel × Bool
  | [], f => (f, true)
  | c :: cs, f => if f.consumed + c ≤ f.total then spend cs { f with consumed := f.consumed + c } else (f, false)

/-- A charge. -/
def charge {τ : Type} (ty : Nat) (st : St τ) : St τ × Res Unit :=
  let r := st.s.b.charge ty 1 none
  ({ st with s := { st.s with b := r.1 } }, r.2)

/-- vm/fuel_refillable.rs:35-40 `return_fuel_to_host`. -/
def returnFuel {τ : Type} (f : Fuel) (st : St τ) : St τ × Res Fuel :=
  let r := returnFuelToHost st.s.b f
  ({ st with s := { st.s with b := r.1 } }, r.2)

/-- vm/dispatch.rs:254-287: the part of a dispatch function after the arguments are converted. If the check of the result
fails the function returns at once, otherwise the machine is given fuel again, whether or not the function failed. -/
def finishDispatch {F τ : Type} (D : Fns F τ) (f : F) (args : List Nat) (fuel : Fuel) (st : St τ) : St τ × Fuel × Res Nat :=
  match D.call f args st with
  | (st, .ok v) =>
    match D.result f v st with
    | (st, .ok w) =>
      match addFuelToVm st.s.b fuel with
      | .ok fuel => (st, fuel, .ok w)
      | .error e => (st, fuel, .error e)
    | (st, .error e) => (st, fuel, .error e)
  | (st, .error e) =>
    match addFuelToVm st.s.b fuel with
    | .ok fuel => (st, fuel, .error e)
    | .error e => (st, fuel, .error e)

/-- vm/dispatch.rs:207-288: a dispatch function. An error becomes a trap that carries it. -/
def hostCall {F τ : Type} (ix : CostIx) (D : Fns F τ) (f : F) (args : List Nat) (fuel : Fuel) (st : St τ) :
    St τ × Fuel × Res Nat :=
  match D.guard f with
  | .error e => (st, fuel, .error e)
  | .ok _ =>
    match returnFuel fuel st with
    | (st, .error e) => (st, fuel, .error e)
    | (st, .ok fuel) =>
      match charge ix.dispatch st with
      | (st, .error e) => (st, fuel, .error e)
      | (st, .ok _) =>
        match D.args f args st with
        | (st, .error e) => (st, fuel, .error e)
        | (st, .ok args) => finishDispatch D f args fuel st

/-- How an execution ends: with a result, a trap of the machine's own, or a trap that carries a host error. -/
inductive End where
  | ret (ty : Wasm.ValTy) (word : Nat)
  | trap (code : TrapCode)
  | host (e : Err)
  deriving DecidableEq, Repr

/-- `wasmi::Func::call`, the execution: memory.grow asks the host through budget/wasmi_helper.rs:27-83. -/
def exec {F τ : Type} (ix : CostIx) (D : Fns F τ) : Prog F → Fuel → St τ → St τ × Fuel × End
  | .ret cs ty w, fuel, st =>
    match spend cs fuel with
    | (fuel, true) => (st, fuel, .ret ty w)
    | (fuel, false) => (st, fuel, .trap .outOfFuel)
  | .trap cs c, fuel, st =>
    match spend cs fuel with
    | (fuel, true) => (st, fuel, .trap c)
    | (fuel, false) => (st, fuel, .trap .outOfFuel)
  | .grow cs cur des mx k, fuel, st =>
    match spend cs fuel with
    | (fuel, true) =>
      match memGrowing st.s cur des mx with
      | (s, .ok _) => exec ix D (k true) fuel { st with s := s }
      | (s, .error _) => exec ix D (k false) fuel { st with s := s }
    | (fuel, false) => (st, fuel, .trap .outOfFuel)
  | .call cs f args k, fuel, st =>
    match spend cs fuel with
    | (fuel, true) =>
      match hostCall ix D f args fuel st with
      | (st, fuel, .ok w) => exec ix D (k w) fuel st
      | (st, fuel, .error e) => (st, fuel, .host e)
    | (fuel, false) => (st, fuel, .trap .outOfFuel)

/-- `wasmi::Extern`, as `Instance::get_export` returns it. -/
inductive Export (F : Type) where
  | func (params results : List Wasm.ValTy) (body : List Nat → Prog F)
  | other

/-- The checks `wasmi::Func::call` makes first; there is room for one result. -/
def checkCall (params results : List Wasm.ValTy) (args : List Nat) : Option FuncError :=
  if params.length ≠ args.length then some .mismatchingParameterLen
  else if params.any (fun t => t ≠ .i64) then some .mismatchingParameterType
  else if results.length ≠ 1 then some .mismatchingResultLen
  else none

/-- vm.rs:387-389: the result as an absolute value. -/
def takeResult (tbl : List Nat) (ty : Wasm.ValTy) (w : Nat) : Res Nat :=
  if ty = .i64 ∧ Val.isGood w then relToAbs tbl w else .error (.host .value .unexpectedType)

/-- vm.rs:346-389 in `metered_func_call`: what is made of the end of an execution when the fuel has been returned. -/
def finishCall {F τ : Type} (D : Fns F τ) (e : End) (st : St τ) : St τ × Res Nat :=
  match e with
  | .ret ty w => (st, takeResult (D.table st.t) ty w)
  | .trap c => (st, .error (trapErr c))
  | .host e => (st, .error e)

/-- vm.rs:325-389 in `metered_func_call`: the call of a function of the machine. -/
def callBody {F τ : Type} (ix : CostIx) (D : Fns F τ) (params results : List Wasm.ValTy) (body : List Nat → Prog F)
    (args : List Nat) (st : St τ) : St τ × Res Nat :=
  match addFuelToVm st.s.b ⟨0, 0⟩ with
  | .error e => (st, .error e)
  | .ok fuel =>
    match checkCall params results args with
    | some e =>
      match returnFuel fuel st with
      | (st, .error e) => (st, .error e)
      | (st, .ok _) => (st, .error (funcErr e))
    | none =>
      match exec ix D (body args) fuel st with
      | (st, fuel, e) =>
        match returnFuel fuel st with
        | (st, .error e) => (st, .error e)
        | (st, .ok _) => finishCall D e st

/-- vm.rs:275-391 `metered_func_call`. The store's fuel counters are zero outside calls. -/
def funcCall {F τ : Type} (ix : CostIx) (D : Fns F τ) (ex : Option (Export F)) (args : List Nat) (missingOk : Bool)
    (st : St τ) : St τ × Res Nat :=
  match charge ix.invokeVm st with
  | (st, .error e) => (st, .error e)
  | (st, .ok _) =>
    match D.name st with
    | (st, .error e) => (st, .error e)
    | (st, .ok _) =>
      match ex with
      | none => if missingOk then (st, .ok (Val.fromBodyAndTag 0 .Void)) else (st, .error (.host .wasmVm .missingValue))
      | some .other => (st, .error (.host .wasmVm .unexpectedType))
      | some (.func params results body) =>
        if args.length > Wasm.maxVmArgs then (st, .error (.host .wasmVm .invalidInput))
        else callBody ix D params results body args st

end Soroban.VmCall
