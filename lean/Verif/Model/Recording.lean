import Verif.Model.Auth
/-!
Model of soroban-env-host/src/auth.rs in recording mode: how the requests for authorization made while a transaction is simulated
are written down as authorization entries, and the same sequence of requests made again in enforcing mode.

Simplifications: the nonces and the credentials of the entries are not part of the recorded trees here (auth.rs:2429-2450; the
nonces are random numbers that are stored in the ledger); that the address behind an object handle can be read is assumed; the
emulation of authentication (auth.rs:1755-1800), which does not touch the trees, is not modelled. In enforcing mode the addresses
are taken to authenticate themselves: what happens when they don't is in `Verif/Model/Host.lean`.
-/
namespace Soroban.Auth
open Soroban

/-- Adds a child at the end of the node at a path. In the code this is a push through the mutable reference returned by
`last_authorized_invocation_mut` (auth.rs:2049-2052). -/
def Inv.addSub : Inv → List Nat → Inv → Inv
  | .mk f subs u, [], x => .mk f (subs ++ [x]) u
  | .mk f subs u, i :: p, x => .mk f (subs.modify i (fun s => s.addSub p x)) u

/-- auth.rs:843-849 `new_recording`, a node. -/
def Inv.newRecording (f : AuthFn) : Inv := .mk f [] true

/-- auth.rs:1888-1902 `new_recording`, a tracker. -/
def Tracker.newRecording (f : AuthFn) (len : Nat) : Tracker :=
  { root := Inv.newRecording f
    stack := .root :: List.replicate (len - 1) .unmatched
    rootFrame := some (len - 1)
    fully := false }

/-- auth.rs:2031-2065 `record_invocation` -/
def Tracker.record (t : Tracker) (f : AuthFn) : Res Tracker :=
  if t.topMatched then .error (.host .auth .existingValue)
  else match walk t.stack.reverse t.root with
    | .error e => .error e
    | .ok none => .error (.host .auth .internalError)
    | .ok (some path) =>
      match t.root.at? path with
      | none => .error (.host .auth .internalError)
      | some node =>
        .ok { t with
          root := t.root.addSub path (Inv.newRecording f)
          stack := .sub node.subs.length :: t.stack.tail }

/-- auth.rs:2069-2071 `has_matched_invocations_in_stack` -/
def Tracker.inStack (t : Tracker) : Bool := t.stack.any MatchState.matched

/-- The authorization manager in recording mode: auth.rs:201-224 with auth.rs:322-332 `RecordingAuthInfo`. `byHandle` is
`tracker_by_address_handle` and `rootOnly` is `disable_non_root_auth`. -/
structure Rec where
  m : Mgr
  byHandle : Nat → Option Nat
  rootOnly : Bool

/-- auth.rs:986-997 `new_recording`, the manager. -/
def Rec.start (rootOnly : Bool) : Rec :=
  { m := { accts := [], invokers := [], stack := [], uses := [], ids := [], next := 0 }
    byHandle := fun _ => none
    rootOnly := rootOnly }

/-- auth.rs:945-965 `new_enforcing`, the manager. -/
def Mgr.start (accts : List Acct) : Mgr :=
  { accts := accts, invokers := [], stack := [], uses := [], ids := [], next := 0 }

/-- auth.rs:1371-1376, whether a request for an address can be recorded in a tracker. -/
def Acct.takes (a : Addr) (t : Acct) : Bool := decide (t.addr = a) && t.tr.inStack && !t.tr.topMatched

/-- Records an invocation in the tracker at an index. -/
def Rec.recordIn (r : Rec) (i : Nat) (t : Acct) (f : AuthFn) : Res Rec :=
  match t.tr.record f with
  | .error e => .error e
  | .ok tr => .ok { r with m := r.m.setAcct i (fun t => { t with tr := tr }) }

/-- auth.rs:1363-1434, the part of `require_auth_recording` that does not use the object handle, except to remember the tracker
it makes. -/
def Rec.requireAny (r : Rec) (h : Nat) (a : Addr) (f : AuthFn) : Res Rec :=
  match r.m.accts.findIdx? (Acct.takes a) with
  | some i => match r.m.accts[i]? with
    | some t => r.recordIn i t f
    | none => .error (.host .auth .internalError)
  | none =>
    if r.rootOnly = true ∧ r.m.stack.length ≠ 1 then .error (.host .auth .invalidAction)
    else if r.m.stack.length = 0 then .error (.host .auth .internalError)
    else .ok { r with
      m := { r.m with accts := r.m.accts ++ [{
        addr := a, tr := Tracker.newRecording f r.m.stack.length, source := false, verified := true, nonce := none,
        borrowed := false }] }
      byHandle := fun x => if x = h then some r.m.accts.length else r.byHandle x }

/-- auth.rs:1317-1434 `require_auth_recording`: `h` is the handle of the address object `a`. -/
def Rec.require (r : Rec) (h : Nat) (a : Addr) (f : AuthFn) : Res Rec :=
  match r.byHandle h with
  | none => r.requireAny h a f
  | some i => match r.m.accts[i]? with
    | none => .error (.host .auth .internalError)
    | some t =>
      if t.tr.inStack then r.recordIn i t f
      else ({ r with byHandle := fun x => if x = h then none else r.byHandle x }).requireAny h a f

/-- What the running contracts do to the authorization manager, in either mode. -/
inductive Ev where
  /-- a contract is called or a contract creation starts -/
  | push (f : Frame)
  /-- the call returns without an error -/
  | pop
  /-- `require_auth_for_args` on an address object, given by its handle (`require_auth` gives the arguments of the call) -/
  | require (h : Nat) (args : List Nat)
  /-- `authorize_as_curr_contract` -/
  | authAs (entries : List Inv)

/-- The two modes differ only in `req`, what is done with requests that contracts on the stack have not authorized:
auth.rs:1437-1456 `require_auth_internal` and auth.rs:1118-1139 `require_auth`. -/
def Mgr.step {σ : Type} (get : σ → Mgr) (put : σ → Mgr → σ) (addrOf : Nat → Addr)
    (req : σ → Nat → Addr → AuthFn → Res σ) (s : σ) : Ev → Res σ
  | .push f => .ok (put s ((get s).push f))
  | .pop => match (get s).stack with
    | [] => .error (.host .auth .internalError)
    | _ :: _ => .ok (put s (get s).popOnly)
  | .authAs entries => match (get s).stack with
    | .contract self _ :: _ => .ok (put s ((get s).addInvoker self entries))
    | _ => .error (.host .auth .internalError)
  | .require h args => match (get s).stack with
    | [] => .error (.host .auth .internalError)
    | fr :: _ => match (get s).checkInvoker (addrOf h) (fr.toFn args) with
      | (_, .error e) => .error e
      | (m, .ok true) => .ok (put s m)
      | (m, .ok false) => req (put s m) h (addrOf h) (fr.toFn args)

/-- One step in recording mode. -/
def Rec.step (addrOf : Nat → Addr) (r : Rec) (e : Ev) : Res Rec :=
  Mgr.step Rec.m (fun r m => { r with m := m }) addrOf Rec.require r e

/-- auth.rs:1227-1295 `require_auth_enforcing`, with addresses that authenticate themselves. -/
def Mgr.enforce (m : Mgr) (_h : Nat) (a : Addr) (f : AuthFn) : Res Mgr :=
  match acctLoop a f (!m.hasActive a) m.accts 0 with
  | .error e => .error e
  | .ok none => .error (.host .auth .invalidAction)
  | .ok (some (i, tr, p)) =>
    .ok ((m.recordMatch i tr p a f).setAcct i (fun t => { t with verified := true, borrowed := false }))

/-- One step in enforcing mode. -/
def Mgr.enforceStep (addrOf : Nat → Addr) (m : Mgr) (e : Ev) : Res Mgr :=
  Mgr.step id (fun _ m => m) addrOf Mgr.enforce m e

/-- A run of a list of steps that stops at the first error. -/
def runAll {σ ε : Type} (step : σ → ε → Res σ) : List ε → σ → Res σ
  | [], s => .ok s
  | e :: es, s => match step s e with
    | .error e => .error e
    | .ok s => runAll step es s

/-- A simulated transaction. -/
def Rec.run (addrOf : Nat → Addr) (es : List Ev) (rootOnly : Bool) : Res Rec :=
  runAll (Rec.step addrOf) es (Rec.start rootOnly)

/-- A transaction with authorization entries. -/
def Mgr.run (addrOf : Nat → Addr) (es : List Ev) (accts : List Acct) : Res Mgr :=
  runAll (Mgr.enforceStep addrOf) es (Mgr.start accts)

mutual
/-- auth.rs:852-867 `to_xdr`, of a whole tree: the XDR has no `is_exhausted`, and auth.rs:813-827 `from_xdr` sets it to false. -/
def Inv.unused : Inv → Inv
  | .mk f subs _ => .mk f (unusedAll subs) false
/-- auth.rs:859-865, the children. -/
def unusedAll : List Inv → List Inv
  | [] => []
  | t :: ts => t.unused :: unusedAll ts
end

/-- auth.rs:1731-1746 `get_recorded_auth_payloads`: the address and the tree of every entry. -/
def Rec.payloads (r : Rec) : List (Addr × Inv) := r.m.accts.map (fun t => (t.addr, t.tr.root.unused))

/-- auth.rs:1460-1511 `snapshot`, in recording mode: the trackers themselves and the map of handles. -/
structure RecSnap where
  accts : List Acct
  invokers : List InvSnap
  byHandle : Nat → Option Nat

/-- auth.rs:1460-1511 `snapshot`, in recording mode. -/
def Rec.snapshot (r : Rec) : RecSnap :=
  { accts := r.m.accts, invokers := r.m.invokers.map (fun t => t.tr.root.snapshot), byHandle := r.byHandle }

/-- auth.rs:1667-1724 `pop_frame` with the rollback of auth.rs:1515-1595 in recording mode: the end of a call that failed. -/
def Rec.popFailed (r : Rec) (s : RecSnap) : Res Rec :=
  if r.m.invokers.length < s.invokers.length then .error (.host .auth .internalError)
  else match rollbackInvokers (r.m.invokers.take s.invokers.length) s.invokers with
    | .error e => .error e
    | .ok ts => .ok { r with m := { r.m with accts := s.accts, invokers := ts }.popOnly, byHandle := s.byHandle }

/-! ### calls that fail -/

/-- What contracts do, with calls that fail: a call and what it does; a call that fails, at the end of what it does if not before,
and whose caller goes on (`try_call`); a request; an authorization given in advance. -/
inductive Act where
  | call (f : Frame) (body : List Act)
  | failed (f : Frame) (body : List Act)
  | require (h : Nat) (args : List Nat)
  | authAs (entries : List Inv)

/-- The steps of a mode, and the end of a call that failed: from the state in which its snapshot was taken and the state at its
end. -/
structure Mode (σ : Type) where
  step : σ → Ev → Res σ
  undo : σ → σ → Res σ

mutual
/-- host/frame.rs:253-289 `pop_context`, 466-641 `with_frame_and_initial_mem_charge` and host.rs:2515-2579 `try_call`, as far as they
concern authorization: a call that fails is rolled back, and
the error goes on to the caller unless it is caught. The state is kept on errors, and `false` stands for an error; what a request
that fails has changed is left out (it is rolled back). -/
def Mode.act {σ : Type} (M : Mode σ) : Act → σ → σ × Bool
  | .require h args, s => match M.step s (.require h args) with
    | .ok s' => (s', true)
    | .error _ => (s, false)
  | .authAs es, s => match M.step s (.authAs es) with
    | .ok s' => (s', true)
    | .error _ => (s, false)
  | .call f body, s => match M.step s (.push f) with
    | .error _ => (s, false)
    | .ok s1 => match M.acts body s1 with
      | (s2, true) => match M.step s2 .pop with
        | .ok s3 => (s3, true)
        | .error _ => (s2, false)
      | (s2, false) => match M.undo s1 s2 with
        | .ok s3 => (s3, false)
        | .error _ => (s2, false)
  | .failed f body, s => match M.step s (.push f) with
    | .error _ => (s, false)
    | .ok s1 => match M.undo s1 (M.acts body s1).1 with
      | .ok s3 => (s3, true)
      | .error _ => ((M.acts body s1).1, false)

/-- One after the other, up to the first error. -/
def Mode.acts {σ : Type} (M : Mode σ) : List Act → σ → σ × Bool
  | [], s => (s, true)
  | a :: as, s => match M.act a s with
    | (s', true) => M.acts as s'
    | (s', false) => (s', false)
end

/-- Recording mode. -/
def recMode (addrOf : Nat → Addr) : Mode Rec := { step := Rec.step addrOf, undo := fun s1 s2 => s2.popFailed s1.snapshot }

/-- Enforcing mode: auth.rs:1667-1724 `pop_frame` with a snapshot. -/
def enfMode (addrOf : Nat → Addr) : Mode Mgr :=
  { step := Mgr.enforceStep addrOf
    undo := fun s1 s2 => match s2.pop (some s1.snapshot) with
      | (m, .ok ()) => .ok m
      | (_, .error e) => .error e }

end Soroban.Auth
