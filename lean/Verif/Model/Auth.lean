import Verif.Model.Err
/-!
Model of soroban-env-host/src/auth.rs in enforcing mode: authorization trees, their trackers and the authorization manager.
The part of `require_auth` that runs account contracts is in `Verif/Model/Host.lean`.

Simplifications: addresses, function names and argument values are compared by equality (`host.compare(..).is_eq()` on
addresses and authorized functions; the comparison itself is the subject of C04); the tree of delegated signers
(auth.rs:2092-2343) is not part of this model; recording mode (auth.rs:1317-1434) is in `Verif/Model/Recording.lean`.
Errors of the budget are not modelled.
-/
namespace Soroban.Auth
open Soroban

/-- XDR `ScAddress`, accounts and contracts (auth.rs:2697-2715 rejects the others). -/
inductive Addr where
  | account (id : Nat)
  | contract (id : Nat)
  deriving DecidableEq, Repr

/-- A symbol as a list of bytes. -/
abbrev Name := List Nat

/-- XDR `ContractExecutable`. -/
inductive Exec where
  | wasm (hash : Nat)
  | ref (owner : Addr) (tag : Nat)
  | asset
  deriving DecidableEq, Repr

/-- XDR `CreateContractArgsV2`: `preimage` stands for the contents of the contract ID preimage and `fromAsset` for its kind. -/
structure CreateArgs where
  preimage : Nat
  fromAsset : Bool
  exec : Exec
  ctorArgs : List Nat
  deriving DecidableEq, Repr

/-- auth.rs:673-676 `AuthorizedFunction` -/
inductive AuthFn where
  | call (contract : Addr) (fn : Name) (args : List Nat)
  | create (args : CreateArgs)
  deriving DecidableEq, Repr

/-- auth.rs:681-689 `AuthorizedInvocation`; `used` is `is_exhausted`. -/
inductive Inv where
  | mk (fn : AuthFn) (subs : List Inv) (used : Bool)
  deriving Repr

/-- The authorized function of a node. -/
def Inv.fn : Inv → AuthFn | .mk f _ _ => f
/-- The children of a node. -/
def Inv.subs : Inv → List Inv | .mk _ s _ => s
/-- The `is_exhausted` flag of a node. -/
def Inv.used : Inv → Bool | .mk _ _ u => u

/-- auth.rs:692-695 `AuthorizedInvocationSnapshot` -/
inductive InvSnap where
  | mk (used : Bool) (subs : List InvSnap)
  deriving Repr

mutual
/-- auth.rs:903-914 `snapshot` -/
def Inv.snapshot : Inv → InvSnap
  | .mk _ subs u => .mk u (snapshots subs)
/-- auth.rs:908-913, the snapshots of the children. -/
def snapshots : List Inv → List InvSnap
  | [] => []
  | t :: ts => t.snapshot :: snapshots ts
end

mutual
/-- auth.rs:917-931 `rollback` -/
def Inv.rollback : Inv → InvSnap → Res Inv
  | .mk f subs _, .mk u ss =>
    if subs.length ≠ ss.length then .error (.host .auth .internalError)
    else match rollbacks subs ss with
      | .error e => .error e
      | .ok subs' => .ok (.mk f subs' u)
/-- auth.rs:922-929, rolling back the children. -/
def rollbacks : List Inv → List InvSnap → Res (List Inv)
  | t :: ts, s :: ss =>
    match t.rollback s with
    | .error e => .error e
    | .ok t' => match rollbacks ts ss with
      | .error e => .error e
      | .ok ts' => .ok (t' :: ts')
  | ts, _ => .ok ts
end

/-- The node at a path from the root: each number is the index of a child. -/
def Inv.at? : Inv → List Nat → Option Inv
  | t, [] => some t
  | t, i :: p => match t.subs[i]? with
    | none => none
    | some s => s.at? p

/-- Marks the node at a path as used. In the code this is an assignment through the mutable reference returned by
`last_authorized_invocation_mut` (auth.rs:1988-1998). -/
def Inv.use : Inv → List Nat → Inv
  | .mk f subs _, [] => .mk f subs true
  | .mk f subs u, i :: p => .mk f (subs.modify i (fun s => s.use p)) u

/-- auth.rs:374-378 `MatchState` -/
inductive MatchState where
  | unmatched
  | root
  | sub (i : Nat)
  deriving DecidableEq, Repr

/-- auth.rs:381-383 `is_matched` -/
def MatchState.matched : MatchState → Bool
  | .unmatched => false
  | _ => true

/-- auth.rs:428-455 `InvocationTracker`. `stack` is `match_stack` with the top of the stack first. -/
structure Tracker where
  root : Inv
  stack : List MatchState
  rootFrame : Option Nat
  fully : Bool

/-- auth.rs:1877-1884 `new` -/
def Tracker.new (root : Inv) : Tracker := { root := root, stack := [], rootFrame := none, fully := false }

/-- auth.rs:872-900 `last_authorized_invocation_mut`, on a node: returns the path to the node rather than a reference. The
stack is given bottom first. -/
def walkSub : List MatchState → Inv → Res (List Nat)
  | [], _ => .ok []
  | .unmatched :: r, t => walkSub r t
  | .root :: _, _ => .error (.host .auth .internalError)
  | .sub i :: r, t =>
    match t.subs[i]? with
    | none => .error (.host .auth .internalError)
    | some s => match walkSub r s with
      | .error e => .error e
      | .ok p => .ok (i :: p)

/-- auth.rs:1907-1925 `last_authorized_invocation_mut`, on a tracker. The stack is given bottom first. -/
def walk : List MatchState → Inv → Res (Option (List Nat))
  | [], _ => .ok none
  | .unmatched :: r, t => walk r t
  | .root :: r, t => match walkSub r t with
    | .error e => .error e
    | .ok p => .ok (some p)
  | .sub _ :: _, _ => .error (.host .auth .internalError)

/-- auth.rs:1928-1932 `push_frame` -/
def Tracker.push (t : Tracker) : Tracker := { t with stack := .unmatched :: t.stack }

/-- auth.rs:1935-1942 `pop_frame` -/
def Tracker.pop (t : Tracker) : Tracker :=
  { t with
    stack := t.stack.tail
    fully := match t.rootFrame with
      | some f => if f ≥ t.stack.tail.length then true else t.fully
      | none => t.fully }

/-- auth.rs:1950-1952 `is_active` -/
def Tracker.active (t : Tracker) : Bool := t.root.used && !t.fully

/-- auth.rs:1955-1960 `current_frame_is_already_matched` -/
def Tracker.topMatched (t : Tracker) : Bool :=
  match t.stack with
  | m :: _ => m.matched
  | [] => false

/-- auth.rs:1988-1998, the search for a child that is not exhausted and has the given function. -/
def findFree (f : AuthFn) : List Inv → Nat → Option Nat
  | [], _ => none
  | t :: ts, i => if t.used = false ∧ t.fn = f then some i else findFree f ts (i + 1)

/-- auth.rs:1972-2023 `maybe_extend_invocation_match`. Also returns the path of the node that was matched. -/
def Tracker.extend (t : Tracker) (f : AuthFn) (allowRoot : Bool) : Tracker × Res (Option (List Nat)) :=
  match t.stack with
  | [] => (t, .error (.host .auth .internalError))
  | top :: below =>
    if top.matched then (t, .ok none)
    else match walk t.stack.reverse t.root with
      | .error e => (t, .error e)
      | .ok (some path) =>
        match t.root.at? path with
        | none => (t, .ok none)
        | some node =>
          match findFree f node.subs 0 with
          | none => (t, .ok none)
          | some i => ({ t with root := t.root.use (path ++ [i]), stack := .sub i :: below }, .ok (some (path ++ [i])))
      | .ok none =>
        if t.root.used = false ∧ allowRoot = true ∧ t.root.fn = f then
          ({ t with root := t.root.use [], stack := .root :: below, rootFrame := some below.length }, .ok (some []))
        else (t, .ok none)

/-- auth.rs:2079-2089 `rollback` -/
def Tracker.rollback (t : Tracker) (s : InvSnap) : Res Tracker :=
  match t.root.rollback s with
  | .error e => .error e
  | .ok r =>
    if r.used = false then .ok { t with root := r, rootFrame := none, fully := false }
    else .ok { t with root := r }

/-- auth.rs:617-638 `AccountAuthorizationTracker`. `source` says that the credentials are those of the transaction source
account (auth.rs:588-590); `borrowed` is the state of the `RefCell` that holds the tracker, which is mutably borrowed while its
address is being authenticated (auth.rs:1268-1270). -/
structure Acct where
  addr : Addr
  tr : Tracker
  source : Bool
  verified : Bool
  nonce : Option (Int × Nat)
  borrowed : Bool

/-- auth.rs:648-651 `InvokerContractAuthorizationTracker` -/
structure Invoker where
  addr : Addr
  tr : Tracker

/-- auth.rs:654-657 `AuthStackFrame` -/
inductive Frame where
  | contract (addr : Addr) (fn : Name)
  | create (args : CreateArgs)
  deriving DecidableEq, Repr

/-- One use of an authorization: the entry, the path of the node in it, the address and function that were authorized and the
frames on the call stack when it was. -/
structure Use where
  entry : Nat
  path : List Nat
  addr : Addr
  fn : AuthFn
  frames : List Nat
  deriving DecidableEq, Repr

/-- auth.rs:201-224 `AuthorizationManager`, with the top of the call stack first. The last three fields are ghosts that nothing
else depends on: `uses` has the authorizations granted by account trackers and not rolled back since, latest first; `ids` numbers
the frames of the stack, no two frames having the same number, and `next` is the next number. -/
structure Mgr where
  accts : List Acct
  invokers : List Invoker
  stack : List Frame
  uses : List Use
  ids : List Nat
  next : Nat

/-- auth.rs:640-644 `AccountAuthorizationTrackerSnapshot` -/
structure AcctSnap where
  root : InvSnap
  verified : Bool

/-- auth.rs:298-303 `AuthorizationManagerSnapshot` (with the ghost `uses`). -/
structure Snap where
  accts : List (Option AcctSnap)
  invokers : List InvSnap
  uses : List Use

/-- auth.rs:1460-1511 `snapshot` -/
def Mgr.snapshot (m : Mgr) : Snap :=
  { accts := m.accts.map (fun a => if a.borrowed then none else some { root := a.tr.root.snapshot, verified := a.verified })
    invokers := m.invokers.map (fun t => t.tr.root.snapshot)
    uses := m.uses }

/-- auth.rs:2870-2896 `rollback` -/
def Acct.rollback (a : Acct) (s : AcctSnap) : Res Acct :=
  match a.tr.rollback s.root with
  | .error e => .error e
  | .ok t => .ok { a with tr := t, verified := s.verified }

/-- auth.rs:1531-1557, rolling back the account trackers one by one. -/
def rollbackAccts : List Acct → List (Option AcctSnap) → Res (List Acct)
  | a :: as, none :: ss => match rollbackAccts as ss with
    | .error e => .error e
    | .ok as' => .ok (a :: as')
  | a :: as, some s :: ss =>
    if a.borrowed then .error (.host .auth .internalError)
    else match a.rollback s with
      | .error e => .error e
      | .ok a' => match rollbackAccts as ss with
        | .error e => .error e
        | .ok as' => .ok (a' :: as')
  | as, _ => .ok as

/-- auth.rs:1576-1581, rolling back the trackers of contract authorizations one by one. -/
def rollbackInvokers : List Invoker → List InvSnap → Res (List Invoker)
  | t :: ts, s :: ss =>
    match t.tr.rollback s with
    | .error e => .error e
    | .ok tr => match rollbackInvokers ts ss with
      | .error e => .error e
      | .ok ts' => .ok ({ t with tr := tr } :: ts')
  | ts, _ => .ok ts

/-- auth.rs:1515-1595 `rollback` (all or nothing here; in the code an error, which is never recovered from, leaves the earlier
trackers rolled back). -/
def Mgr.rollback (m : Mgr) (s : Snap) : Res Mgr :=
  if m.accts.length ≠ s.accts.length then .error (.host .auth .internalError)
  else match rollbackAccts m.accts s.accts with
    | .error e => .error e
    | .ok as =>
      if m.invokers.length < s.invokers.length then .error (.host .auth .internalError)
      else match rollbackInvokers (m.invokers.take s.invokers.length) s.invokers with
        | .error e => .error e
        | .ok ts => .ok { m with accts := as, invokers := ts, uses := s.uses }

/-- auth.rs:1599-1605, the frame is pushed on account trackers that are not borrowed. -/
def Acct.push (a : Acct) : Acct := if a.borrowed then a else { a with tr := a.tr.push }

/-- auth.rs:1689-1696, the frame is popped from account trackers that are not borrowed. -/
def Acct.pop (a : Acct) : Acct := if a.borrowed then a else { a with tr := a.tr.pop }

/-- auth.rs:2929-2931 `push_frame` -/
def Invoker.push (t : Invoker) : Invoker := { t with tr := t.tr.push }

/-- auth.rs:2934-2936 `pop_frame` -/
def Invoker.pop (t : Invoker) : Invoker := { t with tr := t.tr.pop }

/-- auth.rs:1631-1661 `push_frame`, with auth.rs:1598-1613 `push_tracker_frame`; also auth.rs:1616-1625
`push_create_contract_host_fn_frame`. -/
def Mgr.push (m : Mgr) (f : Frame) : Mgr :=
  { m with
    accts := m.accts.map Acct.push
    invokers := m.invokers.map Invoker.push
    stack := f :: m.stack
    ids := m.next :: m.ids
    next := m.next + 1 }

/-- auth.rs:1707-1722, the loop that removes the last trackers of contract authorizations while their stack is empty. -/
def dropOutOfScope (ts : List Invoker) : List Invoker :=
  (ts.reverse.dropWhile (fun t => t.tr.stack.isEmpty)).reverse

/-- auth.rs:1667-1724 `pop_frame`, without the rollback. -/
def Mgr.popOnly (m : Mgr) : Mgr :=
  match m.stack with
  | [] => m
  | _ :: rest =>
    { m with
      accts := m.accts.map Acct.pop
      invokers := dropOutOfScope (m.invokers.map Invoker.pop)
      stack := rest
      ids := m.ids.tail }

/-- auth.rs:1667-1724 `pop_frame` -/
def Mgr.pop (m : Mgr) (snap : Option Snap) : Mgr × Res Unit :=
  match snap with
  | none => (m.popOnly, .ok ())
  | some s =>
    match m.rollback s with
    | .error e => (m, .error e)
    | .ok m' => (m'.popOnly, .ok ())

/-- auth.rs:747-764 `to_authorized_function` -/
def Frame.toFn (f : Frame) (args : List Nat) : AuthFn :=
  match f with
  | .contract a fn => .call a fn args
  | .create c => .create c

/-- auth.rs:1142-1161 `add_invoker_contract_auth_with_curr_contract_as_invoker`, the entries being already converted. -/
def Mgr.addInvoker (m : Mgr) (self : Addr) (entries : List Inv) : Mgr :=
  { m with invokers := m.invokers ++ entries.map (fun i => { addr := self, tr := Tracker.new i }) }

/-- auth.rs:1205-1221, the search among the trackers of contract authorizations. -/
def invokerLoop (cur : Option Addr) (a : Addr) (f : AuthFn) : List Invoker → List Invoker × Res Bool
  | [] => ([], .ok false)
  | t :: ts =>
    if some t.addr = cur ∨ t.addr ≠ a then
      let r := invokerLoop cur a f ts
      (t :: r.1, r.2)
    else match t.tr.extend f true with
      | (tr, .error e) => ({ t with tr := tr } :: ts, .error e)
      | (tr, .ok (some _)) => ({ t with tr := tr } :: ts, .ok true)
      | (tr, .ok none) =>
        let r := invokerLoop cur a f ts
        ({ t with tr := tr } :: r.1, r.2)

/-- auth.rs:1182-1185, the contract of the top frame. -/
def Frame.contract? : Frame → Option Addr
  | .contract a _ => some a
  | .create _ => none

/-- auth.rs:1164-1224 `maybe_check_invoker_contract_auth` -/
def Mgr.checkInvoker (m : Mgr) (a : Addr) (f : AuthFn) : Mgr × Res Bool :=
  match m.stack with
  | top :: below :: _ =>
    if below.contract? = some a then (m, .ok true)
    else
      let r := invokerLoop top.contract? a f m.invokers
      ({ m with invokers := r.1 }, r.2)
  | _ => (m, .ok false)

/-- auth.rs:1239-1251, whether there is an active tracker for the address not matched in the current frame. -/
def Mgr.hasActive (m : Mgr) (a : Addr) : Bool :=
  m.accts.any (fun t => !t.borrowed && decide (t.addr = a) && t.tr.active && !t.tr.topMatched)

/-- auth.rs:1255-1285, the search for an account tracker that matches: returns the index of the tracker, the tracker with the
match recorded in it, and the path of the matched node. `maybe_extend_invocation_match` leaves the trackers that do not match
unchanged. -/
def acctLoop (a : Addr) (f : AuthFn) (allowRoot : Bool) : List Acct → Nat → Res (Option (Nat × Tracker × List Nat))
  | [], _ => .ok none
  | t :: ts, i =>
    if t.borrowed = true ∨ t.addr ≠ a then acctLoop a f allowRoot ts (i + 1)
    else match t.tr.extend f allowRoot with
      | (_, .error e) => .error e
      | (tr, .ok (some p)) => .ok (some (i, tr, p))
      | (_, .ok none) => acctLoop a f allowRoot ts (i + 1)

/-- Replaces the account tracker at an index. -/
def Mgr.setAcct (m : Mgr) (i : Nat) (g : Acct → Acct) : Mgr := { m with accts := m.accts.modify i g }

/-- Records a match in the account tracker at an index and marks it as borrowed (and records the use). -/
def Mgr.recordMatch (m : Mgr) (i : Nat) (tr : Tracker) (p : List Nat) (a : Addr) (f : AuthFn) : Mgr :=
  { m.setAcct i (fun t => { t with tr := tr, borrowed := true }) with
    uses := { entry := i, path := p, addr := a, fn := f, frames := m.ids } :: m.uses }

end Soroban.Auth
