import Verif.Model.Arith
import Verif.Model.Err
/-!
Model of the metering code: soroban-env-host/src/budget/model.rs, budget/dimension.rs, budget.rs, budget/limits.rs,
budget/util.rs, budget/wasmi_helper.rs, vm/fuel_refillable.rs and the linear memory bookkeeping of host/frame.rs.

The Rust functions mutate the budget before they fail, so here every operation returns the new state together with its
result. `RefCell` borrow errors are not modelled. `u64` fields are `Nat`.
-/
namespace Soroban.Budget
open Soroban

/-- budget/model.rs:89-92 `MeteredCostComponent`; the linear term is scaled by 128. -/
structure CostModel where
  constTerm : Nat
  linTerm : Nat
  deriving DecidableEq, Repr

/-- budget/model.rs:97-105 `try_from` for `MeteredCostComponent`. -/
def CostModel.ofParams (constTerm linearTerm : Int) : Res CostModel :=
  if constTerm < 0 || linearTerm < 0 then .error (.host .context .invalidInput)
  else .ok { constTerm := constTerm.toNat, linTerm := linearTerm.toNat }

/-- budget/model.rs:117-133 `evaluate`. -/
def CostModel.evaluate (m : CostModel) (iterations : Nat) (input : Option Nat) : Nat :=
  let constTerm := satMulU64 m.constTerm iterations
  match input with
  | some input =>
    if m.linTerm = 0 then constTerm
    else
      let linCost := satMulU64 (satMulU64 m.linTerm input) iterations
      satAddU64 constTerm (linCost >>> 7)
  | none => constTerm

/-- budget/dimension.rs:12-45 `BudgetDimension`. -/
structure Dim where
  models : List CostModel
  limit : Nat
  net : Nat
  peak : Nat
  shadowLimit : Nat
  shadowNet : Nat
  deriving DecidableEq, Repr

/-- budget/dimension.rs:105-117 `get_cost_model`. -/
def Dim.costModel (d : Dim) (ty : Nat) : Res CostModel :=
  match d.models[ty]? with
  | some m => .ok m
  | none => .error (.host .budget .internalError)

/-- budget/dimension.rs:141-143 `get_remaining`. -/
def Dim.remaining (d : Dim) : Nat := d.limit - d.net

/-- budget/dimension.rs:145-149 `reset`, with `reset_count`. -/
def Dim.reset (d : Dim) (limit : Nat) : Dim :=
  { d with limit := limit, shadowLimit := limit, net := 0, peak := 0, shadowNet := 0 }

/-- budget/dimension.rs:160-162 `refund`. -/
def Dim.refund (d : Dim) (amount : Nat) : Dim := { d with net := d.net - amount }

/-- budget/dimension.rs:164-176 `check_budget_limit`. -/
def Dim.checkLimit (d : Dim) (shadow : Bool) : Res Unit :=
  let over := if shadow then decide (d.shadowNet > d.shadowLimit) else decide (d.net > d.limit)
  if over then .error (.host .budget .exceededLimit) else .ok ()

/-- budget/dimension.rs:184-210 `charge`: the new dimension and the amount charged. -/
def Dim.charge (d : Dim) (ty iterations : Nat) (input : Option Nat) (shadow : Bool) : Res (Dim × Nat) :=
  match d.costModel ty with
  | .error e => .error e
  | .ok cm =>
    let amount := cm.evaluate iterations input
    if shadow then .ok ({ d with shadowNet := satAddU64 d.shadowNet amount }, amount)
    else
      let net := satAddU64 d.net amount
      .ok ({ d with net := net, peak := max d.peak net }, amount)

/-- budget.rs:27-32 `CostTracker`. `inputs` is `None` for the cost types with constant models. -/
structure Tracker where
  iterations : Nat
  inputs : Option Nat
  cpu : Nat
  mem : Nat
  deriving DecidableEq, Repr

/-- budget.rs:198-206 `BudgetImpl`, without wasmi's fuel cost table and the time tracker. -/
structure B where
  cpu : Dim
  mem : Dim
  trackers : List Tracker
  meterCount : Nat
  inShadow : Bool
  depth : Nat
  deriving DecidableEq, Repr

/-- budget.rs:247-257, the update of the per-cost-type report in `charge`; the `Bool` is false on a mismatch between the
input given and the kind of the cost type. -/
def Tracker.add (t : Tracker) (iterations : Nat) (input : Option Nat) : Tracker × Bool :=
  let t := { t with iterations := satAddU64 t.iterations iterations }
  match t.inputs, input with
  | none, none => (t, true)
  | some a, some i => ({ t with inputs := some (satAddU64 a (satMulU64 i iterations)) }, true)
  | _, _ => (t, false)

/-- budget.rs:259-270, the cpu part of `charge`. -/
def B.chargeCpu (b : B) (ty iterations : Nat) (input : Option Nat) : B × Res Unit :=
  match b.cpu.charge ty iterations input b.inShadow with
  | .error e => (b, .error e)
  | .ok (cpu, amount) =>
    let b := { b with cpu := cpu, trackers := if b.inShadow then b.trackers else
      b.trackers.modify ty (fun t => { t with cpu := satAddU64 t.cpu amount }) }
    (b, cpu.checkLimit b.inShadow)

/-- budget.rs:272-283, the memory part of `charge`. -/
def B.chargeMem (b : B) (ty iterations : Nat) (input : Option Nat) : B × Res Unit :=
  match b.mem.charge ty iterations input b.inShadow with
  | .error e => (b, .error e)
  | .ok (mem, amount) =>
    let b := { b with mem := mem, trackers := if b.inShadow then b.trackers else
      b.trackers.modify ty (fun t => { t with mem := satAddU64 t.mem amount }) }
    (b, mem.checkLimit b.inShadow)

/-- budget.rs:259-283, both dimensions in order, the second only if the first is within its limit. -/
def B.chargeDims (b : B) (ty iterations : Nat) (input : Option Nat) : B × Res Unit :=
  match b.chargeCpu ty iterations input with
  | (b, .error e) => (b, .error e)
  | (b, .ok ()) => b.chargeMem ty iterations input

/-- budget.rs:235-284 `charge`. -/
def B.charge (b : B) (ty iterations : Nat) (input : Option Nat) : B × Res Unit :=
  match b.trackers[ty]? with
  | none => (b, .error (.host .budget .internalError))
  | some t =>
    if b.inShadow then b.chargeDims ty iterations input
    else
      let r := t.add iterations input
      let b := { b with meterCount := satAddU32 b.meterCount 1, trackers := b.trackers.set ty r.1 }
      if r.2 then b.chargeDims ty iterations input else (b, .error (.host .budget .internalError))

/-- budget.rs:1410-1413 `get_cpu_insns_consumed`. -/
def B.cpuConsumed (b : B) : Nat := b.cpu.net

/-- budget.rs:1415-1420 `get_mem_bytes_consumed`. -/
def B.memConsumed (b : B) : Nat := b.mem.peak

/-- The index of `ContractCostType::WasmInsnExec`. -/
def wasmInsnExec : Nat := 0
/-- The index of `ContractCostType::MemAlloc`. -/
def memAlloc : Nat := 1

/-- budget.rs:286-303 `get_wasmi_fuel_remaining`. -/
def B.fuelRemaining (b : B) : Res Nat :=
  match b.cpu.costModel wasmInsnExec with
  | .error e => .error e
  | .ok m => .ok (b.cpu.remaining / max m.constTerm 1)

/-- A wasmi store's fuel counters: total supplied and consumed so far. -/
structure Fuel where
  total : Nat
  consumed : Nat
  deriving DecidableEq, Repr

/-- vm/fuel_refillable.rs:22-33 `add_fuel_to_vm`. -/
def addFuelToVm (b : B) (f : Fuel) : Res Fuel :=
  if f.consumed = 0 ∧ f.total = 0 then
    match b.fuelRemaining with
    | .error e => .error e
    | .ok fuel => .ok { total := fuel, consumed := 0 }
  else .error (.host .wasmVm .internalError)

/-- vm/fuel_refillable.rs:35-40 `return_fuel_to_host`. -/
def returnFuelToHost (b : B) (f : Fuel) : B × Res Fuel :=
  match b.charge wasmInsnExec f.consumed none with
  | (b, .error e) => (b, .error e)
  | (b, .ok ()) => (b, .ok { total := 0, consumed := 0 })

/-! ### metered computations -/

/-- The state metered code works on: the budget, and the linear memory charged to each frame of the context stack
(frame.rs:104 `linear_mem_charged`), the current frame first. -/
structure S where
  b : B
  frames : List Nat
  deriving DecidableEq, Repr

/-- Metered host computations, as far as the budget sees them. `seq` is Rust's `?` sequencing, `attempt` is code that goes on
after an error, `dep` is code whose next action depends on the state. -/
inductive Work where
  | skip
  | fail (e : Err)
  | charge (ty iterations : Nat) (input : Option Nat)
  | seq (a b : Work)
  | attempt (w : Work)
  | shadow (w : Work)
  | obsShadow (w : Work)
  | limited (w : Work)
  | memGrow (current desired : Nat) (maximum : Option Nat)
  | frame (w : Work)
  | vmFrame (instantiate body : Work)
  | dep (f : S → Work)

/-- budget.rs:1324-1334 and budget/util.rs:191-199: the test made on entering shadow mode. -/
def B.shadowCheck (b : B) : Res Unit :=
  match b.cpu.checkLimit true with
  | .error e => .error e
  | .ok () => b.mem.checkLimit true

/-- frame.rs:221-227 `charge_current_frame_linear_mem`. -/
def chargeFrame (frames : List Nat) (amount : Nat) : List Nat :=
  match frames with
  | f :: fs => satAddU64 f amount :: fs
  | [] => []

/-- frame.rs:195-200 `current_frame_linear_mem_charged`. -/
def currentFrameMem (frames : List Nat) : Nat := frames.headD 0

/-- frame.rs:206-216 `reclaim_frame_linear_mem_since`. -/
def reclaimSince (frames : List Nat) (mark : Nat) : List Nat × Nat :=
  match frames with
  | f :: fs => (mark :: fs, f - mark)
  | [] => ([], 0)

/-- frame.rs:253-289 `pop_context`, the refund of the popped frame's linear memory. -/
def popFrame (s : S) : S :=
  match s.frames with
  | f :: fs => { b := if f ≠ 0 then { s.b with mem := s.b.mem.refund f } else s.b, frames := fs }
  | [] => s

/-- budget/wasmi_helper.rs:27-83 `memory_growing`. All its failures are reported to wasmi as out of bounds growth. -/
def memGrowing (s : S) (current desired : Nat) (maximum : Option Nat) : S × Res Unit :=
  let delta := desired - current
  let allow := if delta > s.b.mem.remaining then false
    else match maximum with
      | some max => decide (desired ≤ max)
      | none => true
  if allow then
    match s.b.charge memAlloc 1 (some delta) with
    | (b, .error _) => ({ s with b := b }, .error (.host .wasmVm .indexBounds))
    | (b, .ok ()) =>
      if b.inShadow then ({ s with b := b }, .ok ())
      else match b.mem.costModel memAlloc with
        | .error _ => ({ s with b := b }, .error (.host .wasmVm .indexBounds))
        | .ok m => ({ b := b, frames := chargeFrame s.frames (m.evaluate 1 (some delta)) }, .ok ())
  else (s, .error (.host .wasmVm .indexBounds))

/-- Runs a metered computation: budget.rs:1343-1365 `with_shadow_mode`, budget/util.rs:190-215 `with_observable_shadow_mode`,
budget/limits.rs:71-79 `with_limited_depth`, `enter`, `leave`, frame.rs:964-979 (instantiate a VM, move its memory charge to
the new frame, run it, pop the frame). The other metered steps of pushing and popping a frame can be put into the bodies. -/
def run : Work → S → S × Res Unit
  | .skip, s => (s, .ok ())
  | .fail e, s => (s, .error e)
  | .charge ty n i, s => let r := s.b.charge ty n i; ({ s with b := r.1 }, r.2)
  | .seq a b, s =>
    match run a s with
    | (s, .error e) => (s, .error e)
    | (s, .ok ()) => run b s
  | .attempt w, s => ((run w s).1, .ok ())
  | .shadow w, s =>
    let prev := s.b.inShadow
    let s₁ := { s with b := { s.b with inShadow := true } }
    let s₂ := match s₁.b.shadowCheck with
      | .ok () => (run w s₁).1
      | .error _ => s₁
    ({ s₂ with b := { s₂.b with inShadow := prev } }, .ok ())
  | .obsShadow w, s =>
    let prev := s.b.inShadow
    let s₁ := { s with b := { s.b with inShadow := true } }
    let r := match s₁.b.shadowCheck with
      | .ok () => run w s₁
      | .error e => (s₁, .error e)
    ({ r.1 with b := { r.1.b with inShadow := prev } }, r.2)
  | .limited w, s =>
    match checkedSub s.b.depth 1 with
    | none => (s, .error (.host .context .exceededLimit))
    | some d =>
      let r := run w { s with b := { s.b with depth := d } }
      match checkedAddU32 r.1.b.depth 1 with
      | none => (r.1, .error (.host .context .internalError))
      | some d' => ({ r.1 with b := { r.1.b with depth := d' } }, r.2)
  | .memGrow c d m, s => memGrowing s c d m
  | .frame w, s =>
    let r := run w { s with frames := 0 :: s.frames }
    (popFrame r.1, r.2)
  | .vmFrame inst body, s =>
    let mark := currentFrameMem s.frames
    match run inst s with
    | (s, .error e) => (s, .error e)
    | (s, .ok ()) =>
      let rc := reclaimSince s.frames mark
      let r := run body { s with frames := rc.2 :: rc.1 }
      (popFrame r.1, r.2)
  | .dep f, s => run (f s) s

end Soroban.Budget
