import Verif.Model.Err
/-!
Model of soroban-env-host/src/events/internal.rs (the event buffer) and of the functions of e2e_invoke.rs and host.rs that turn the
buffer into the events of a transaction. Contract events (`C`) and diagnostic events (`D`) are left abstract; their
conversion to XDR is a parameter, which may fail. Metering is not modelled, except that a charge to the debug budget may fail:
whether it does is part of the history.
-/
namespace Soroban.Events
open Soroban

/-- XDR `ContractEventType`. -/
inductive Kind where
  | system | contract | diagnostic
  deriving DecidableEq, Repr

/-- events/internal.rs:156-159 `InternalEvent`. The type of contract events is that of `InternalContractEvent`
(events/internal.rs:15-20). -/
inductive Event (C D : Type) where
  | contract (type : Kind) (c : C)
  | diagnostic (d : D)

/-- events/internal.rs:162-165 `EventError` and events/internal.rs:169-171 `InternalEventsBuffer`: the flag says that the event
is from a failed call. -/
abbrev Buf (C D : Type) := List (Event C D × Bool)

variable {C D X : Type}

/-- host.rs:729-734 `with_debug_mode`, as used by the event buffer: `f` runs only if diagnostics are enabled, and a failure is ignored
(`works = false`: the charge to the debug budget fails). -/
def withDebugMode (debug works : Bool) (b : Buf C D) (f : Buf C D → Buf C D) : Buf C D :=
  if debug && works then f b else b

/-- events/internal.rs:175-193 `record` -/
def record (debug works : Bool) (b : Buf C D) (e : Event C D) : Buf C D :=
  match e with
  | .contract .. => b ++ [(e, false)]
  | .diagnostic _ => withDebugMode debug works b (fun b => b ++ [(e, false)])

/-- events/internal.rs:197-205 `rollback` -/
def rollback (b : Buf C D) (events : Nat) : Buf C D :=
  b.take events ++ (b.drop events).map (fun e => (e.1, true))

/-- events/mod.rs:20-24 `HostEvent`, with the type of its XDR event. -/
structure HostEvent (X : Type) where
  type : Kind
  event : X
  failedCall : Bool

/-- Conversion of events to XDR: events/internal.rs:24-39 `InternalContractEvent::to_xdr` and events/internal.rs:125-150
`InternalDiagnosticEvent::to_xdr`. -/
structure ToXdr (C D X : Type) where
  contract : C → Res X
  diagnostic : D → Res X

/-- events/internal.rs:211-249 `externalize` -/
def externalize (T : ToXdr C D X) (debug : Bool) : Buf C D → Res (List (HostEvent X))
  | [] => .ok []
  | (.contract ty c, failed) :: rest => do
    let x ← T.contract c
    let r ← externalize T debug rest
    return ⟨ty, x, failed⟩ :: r
  | (.diagnostic d, failed) :: rest => do
    let r ← externalize T debug rest
    return (if debug then
      match T.diagnostic d with
      | .ok x => ⟨.diagnostic, x, failed⟩ :: r
      | .error _ => r
    else r)

/-- e2e_invoke.rs:1007-1022 `encode_contract_events`; the encoding of an event is the event itself. -/
def encodeContractEvents (evs : List (HostEvent X)) : List X :=
  (evs.filter (fun e => !e.failedCall && e.type ≠ .diagnostic)).map HostEvent.event

/-- e2e_invoke.rs:1024-1033 `extract_diagnostic_events`: the flag is `in_successful_contract_call`. -/
def extractDiagnosticEvents (evs : List (HostEvent X)) : List (X × Bool) := evs.map (fun e => (e.event, !e.failedCall))

/-- What happens to the buffer during a transaction: events of contracts and of the host, diagnostics (with whether recording
them works), and calls, with what happens in them and whether they succeed. -/
inductive Hist (C D : Type) where
  | done
  | emit (type : Kind) (c : C) (next : Hist C D)
  | diag (works : Bool) (d : D) (next : Hist C D)
  | call (body : Hist C D) (ok : Bool) (next : Hist C D)

/-- The buffer after a history: host/frame.rs:233-248 `push_context`, `pop_context` (the rollback point has the length of the
buffer at the start of the call; the buffer is rolled back to it if the call fails), events/mod.rs:259-272
`record_contract_event`, events/diagnostic.rs:21-44 `record_diagnostic_event`. -/
def run (debug : Bool) : Hist C D → Buf C D → Buf C D
  | .done, b => b
  | .emit ty c next, b => run debug next (record debug true b (.contract ty c))
  | .diag w d next, b => run debug next (record debug w b (.diagnostic d))
  | .call body ok next, b =>
    let b' := run debug body b
    run debug next (if ok then b' else rollback b' b.length)

/-- host.rs:765-775 `try_finish` and e2e_invoke.rs:470-578 `invoke_host_function`: the contract events that a transaction returns when its
outermost frame ends with `ok`. -/
def transactionEvents (T : ToXdr C D X) (debug : Bool) (h : Hist C D) (ok : Bool) : Res (List X) := do
  let evs ← externalize T debug (run debug (.call h ok .done) [])
  return if ok then encodeContractEvents evs else []

end Soroban.Events
