import Verif.Model.VmCall
/-!
Specification vocabulary for the boundary between the host and the virtual machine.
-/
namespace Soroban.VmCall.Spec
open Soroban.Budget

/-- The state of the budget changes only by metered computations. -/
def Works (s s' : S) : Prop := ∃ w, s' = (run w s).1

/-- A budget that is being charged for, with counters that fit 64 bits and a cpu limit below the largest number of 64 bits. -/
structure Sound (s : S) : Prop where
  real : s.b.inShadow = false
  depth : s.b.depth ≤ u32Max
  fits : s.b.cpu.net ≤ u64Max ∧ s.b.mem.net ≤ u64Max
  limit : s.b.cpu.limit < u64Max

/-- The host functions change the budget only by metered computations, whether they succeed or fail. -/
structure Metered {F τ : Type} (D : Fns F τ) : Prop where
  args : ∀ f a st, Works st.s (D.args f a st).1.s
  call : ∀ f a st, Works st.s (D.call f a st).1.s
  result : ∀ f v st, Works st.s (D.result f v st).1.s
  name : ∀ st, Works st.s (D.name st).1.s

/-- An execution has got from one point to another: the machine has executed instructions and made calls of host functions
that succeeded, and requests for memory. -/
inductive Reaches {F τ : Type} (ix : CostIx) (D : Fns F τ) (p₀ : Prog F) (fuel₀ : Fuel) (st₀ : St τ) :
    Prog F → Fuel → St τ → Prop
  | start : Reaches ix D p₀ fuel₀ st₀ p₀ fuel₀ st₀
  | call {cs : List Nat} {f : F} {args : List Nat} {k : Nat → Prog F} {fuel fuel₁ fuel₂ : Fuel} {st st' : St τ} {w : Nat} :
      Reaches ix D p₀ fuel₀ st₀ (.call cs f args k) fuel st → spend cs fuel = (fuel₁, true) →
      hostCall ix D f args fuel₁ st = (st', fuel₂, .ok w) → Reaches ix D p₀ fuel₀ st₀ (k w) fuel₂ st'
  | grow {cs : List Nat} {cur des : Nat} {mx : Option Nat} {k : Bool → Prog F} {fuel fuel₁ : Fuel} {st : St τ} {s' : S}
      {r : Res Unit} :
      Reaches ix D p₀ fuel₀ st₀ (.grow cs cur des mx k) fuel st → spend cs fuel = (fuel₁, true) →
      memGrowing st.s cur des mx = (s', r) → Reaches ix D p₀ fuel₀ st₀ (k r.isOk) fuel₁ { st with s := s' }

/-- The machine calls host function `f` with the words `args`, and the function is entered with the values `vs` in state
`st'`: it exists in the protocol, the fuel consumed so far and the dispatch are paid for, and the words are valid. -/
def Enters {F τ : Type} (ix : CostIx) (D : Fns F τ) (f : F) (args : List Nat) (fuel : Fuel) (st : St τ) (vs : List Nat)
    (st' : St τ) : Prop :=
  D.guard f = .ok () ∧ ∃ st₁ st₂ fuel₁, returnFuel fuel st = (st₁, .ok fuel₁) ∧ charge ix.dispatch st₁ = (st₂, .ok ()) ∧
    D.args f args st₂ = (st', .ok vs)

/-- Cost of the instructions executed up to the next event or the end of the fuel. -/
def spent (cs : List Nat) (fuel : Fuel) : Nat := (spend cs fuel).1.consumed - fuel.consumed

/-- Cost of all the instructions a machine executes before it ends. -/
def executed {F τ : Type} (ix : CostIx) (D : Fns F τ) : Prog F → Fuel → St τ → Nat
  | .ret cs _ _, fuel, _ => spent cs fuel
  | .trap cs _, fuel, _ => spent cs fuel
  | .grow cs cur des mx k, fuel, st =>
    spent cs fuel +
      match spend cs fuel with
      | (fuel, true) => executed ix D (k (memGrowing st.s cur des mx).2.isOk) fuel { st with s := (memGrowing st.s cur des mx).1 }
      | (_, false) => 0
  | .call cs f args k, fuel, st =>
    spent cs fuel +
      match spend cs fuel with
      | (fuel, true) =>
        match hostCall ix D f args fuel st with
        | (st, fuel, .ok w) => executed ix D (k w) fuel st
        | (_, _, .error _) => 0
      | (_, false) => 0

/-- The budget is used up. -/
def Over (b : B) : Prop := b.cpu.net > b.cpu.limit ∨ b.mem.net > b.mem.limit

/-- The budget has no proper entry for executing instructions. -/
def Faulty (b : B) : Prop :=
  (∀ t, b.trackers[0]? = some t → t.inputs.isSome = true) ∨ b.cpu.models[0]? = none ∨
    b.mem.models[0]? = none

/-- The error reported for a trap: a trap for want of stack, fuel or memory is an exceeded budget, all others are errors of the
virtual machine. -/
inductive Reported : TrapCode → Err → Prop
  | stack : Reported .stackOverflow (.host .budget .exceededLimit)
  | fuel : Reported .outOfFuel (.host .budget .exceededLimit)
  | memory : Reported .growthOperationLimited (.host .budget .exceededLimit)
  | unreachable : Reported .unreachableCodeReached (.host .wasmVm .invalidAction)
  | memoryBounds : Reported .memoryOutOfBounds (.host .wasmVm .indexBounds)
  | tableBounds : Reported .tableOutOfBounds (.host .wasmVm .indexBounds)
  | null : Reported .indirectCallToNull (.host .wasmVm .missingValue)
  | zero : Reported .integerDivisionByZero (.host .wasmVm .arithDomain)
  | overflow : Reported .integerOverflow (.host .wasmVm .arithDomain)
  | float : Reported .badConversionToInteger (.host .wasmVm .arithDomain)
  | signature : Reported .badSignature (.host .wasmVm .unexpectedType)

/-- What a call returns for the way its execution ended: a word of 64 bits that is a valid value, with its object, if any, named
by one of the contract's own handles, gives that value, and any other word a failure; a trap is reported; a host error is passed
on as it is. -/
def Outcome (tbl : List Nat) : End → Res Nat → Prop
  | .ret ty w, r => ∀ v, r = .ok v ↔ ty = .i64 ∧ Val.isGood w = true ∧ relToAbs tbl w = .ok v
  | .trap c, r => ∃ e, Reported c e ∧ r = .error e
  | .host e, r => r = .error e

/-- The word of the value void. -/
def void : Nat := 2

/-- The functions that can be called with `n` arguments: they take that many words of 64 bits and give one result. -/
def Callable (params results : List Wasm.ValTy) (n : Nat) : Prop := params = List.replicate n .i64 ∧ results.length = 1

end Soroban.VmCall.Spec
