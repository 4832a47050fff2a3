import Verif.Model.Events
/-! What events a transaction should have. -/
namespace Soroban.Events.Spec
open Soroban Soroban.Events

variable {C D : Type}

/-- All contract events emitted in a history, in the order of emission. -/
def emitted : Hist C D → List C
  | .done => []
  | .emit _ c next => c :: emitted next
  | .diag _ _ next => emitted next
  | .call body _ next => emitted body ++ emitted next

/-- The events of the history that are not inside of a failed call, in the order of emission. -/
def kept : Hist C D → List C
  | .done => []
  | .emit _ c next => c :: kept next
  | .diag _ _ next => kept next
  | .call body ok next => (if ok then kept body else []) ++ kept next

/-- The same history without diagnostics. -/
def erase : Hist C D → Hist C D
  | .done => .done
  | .emit ty c next => .emit ty c (erase next)
  | .diag _ _ next => erase next
  | .call body ok next => .call (erase body) ok (erase next)

/-- Events of contracts and of the host: no diagnostic is recorded as a contract event. -/
def NoFakes : Hist C D → Prop
  | .done => True
  | .emit ty _ next => ty ≠ .diagnostic ∧ NoFakes next
  | .diag _ _ next => NoFakes next
  | .call body _ next => NoFakes body ∧ NoFakes next

/-- What someone who watches is shown: contract events and the diagnostics that could be recorded, in order, with whether all calls around
them succeeded. `fine` says so for the calls around the whole history. -/
def shown (fine : Bool) : Hist C D → List ((C ⊕ D) × Bool)
  | .done => []
  | .emit _ c next => (.inl c, fine) :: shown fine next
  | .diag works d next => (if works then [(.inr d, fine)] else []) ++ shown fine next
  | .call body ok next => shown (fine && ok) body ++ shown fine next

end Soroban.Events.Spec
