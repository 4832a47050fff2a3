import Verif.Model.Auth
/-!
Model of the delegated signers of soroban-env-host/src/auth.rs: the trees of signers supplied with an authorization entry, and
`delegate_account_auth`, by which the `__check_auth` function of an account contract passes its signature payload on to the
authentication of another address.

The model has the authorization entries of a transaction, the stack of authentications in progress and the part of the contract
code that matters to them: calls and failures of calls, `require_auth` for an entry that matches, and the two host functions for
delegated signers. Simplifications: the authorization trees (`Verif/Model/Auth.lean`), the storage and the results of contract
functions are not part of it; `account` (the authentication of a Stellar account, see `Verif/Model/Account.lean`) and `nonce` (the
use of a nonce) are parameters; a frame that cannot be added is a frame whose code fails at once; the depth limit of
`DelegatedAccountAuthSignerTreeNode::from_xdr` and the budget are not modelled.
-/
namespace Soroban.Delegates
open Soroban Soroban.Auth

/-- XDR `SorobanDelegateSignature` -/
inductive XDelegate where
  | mk (addr : Addr) (sig : Nat) (nested : List XDelegate)
  deriving Repr

/-- auth.rs:480-483 `DelegatedAccountAuthSignerTreeNode`, the nodes other than the root. -/
inductive DNode where
  | mk (addr : Addr) (sig : Nat) (used : Bool) (kids : List DNode)
  deriving Repr

/-- The address of a node. -/
def DNode.addr : DNode → Addr | .mk a _ _ _ => a
/-- The signature of a node. -/
def DNode.sig : DNode → Nat | .mk _ s _ _ => s
/-- `is_exhausted` of a node. -/
def DNode.used : DNode → Bool | .mk _ _ u _ => u
/-- `delegate_signers` of a node. -/
def DNode.kids : DNode → List DNode | .mk _ _ _ k => k

/-- auth.rs:511-517 `DelegatedAccountAuthTracker`: the `delegate_signers` of the root, and the stack of matches. -/
structure DTracker where
  kids : List DNode
  stack : List Nat

/-- auth.rs:2099-2130, the check of the order of the signers; `lt` is the order of addresses. -/
def sorted (lt : Addr → Addr → Bool) : List XDelegate → Bool
  | .mk a _ _ :: .mk b s n :: rest => lt a b && sorted lt (.mk b s n :: rest)
  | _ => true

mutual
/-- auth.rs:2093-2149 `from_xdr` of `DelegatedAccountAuthSignerTreeNode`, for a node other than the root. -/
def nodeFromXdr (lt : Addr → Addr → Bool) : XDelegate → Res DNode
  | .mk a s n =>
    if sorted lt n then
      match nodesFromXdr lt n with
      | .error e => .error e
      | .ok ks => .ok (.mk a s false ks)
    else .error (.host .auth .invalidInput)
/-- auth.rs:2141-2147, the children. -/
def nodesFromXdr (lt : Addr → Addr → Bool) : List XDelegate → Res (List DNode)
  | [] => .ok []
  | x :: xs =>
    match nodeFromXdr lt x with
    | .error e => .error e
    | .ok n => match nodesFromXdr lt xs with
      | .error e => .error e
      | .ok ns => .ok (n :: ns)
end

/-- auth.rs:2204-2216 `from_xdr` of `DelegatedAccountAuthTracker` -/
def trackerFromXdr (lt : Addr → Addr → Bool) (xs : List XDelegate) : Res DTracker :=
  if sorted lt xs then
    match nodesFromXdr lt xs with
    | .error e => .error e
    | .ok ks => .ok { kids := ks, stack := [] }
  else .error (.host .auth .invalidInput)

/-- The flags of a node and its children, auth.rs:458-461 `DelegatedAccountAuthSignerTreeNodeSnapshot`. -/
inductive DSnap where
  | mk (used : Bool) (kids : List DSnap)

mutual
/-- auth.rs:2151-2174 `snapshot` of a node -/
def DNode.snapshot : DNode → DSnap
  | .mk _ _ u ks => .mk u (nodeSnapshots ks)
/-- auth.rs:2155-2161, the children. -/
def nodeSnapshots : List DNode → List DSnap
  | [] => []
  | n :: ns => n.snapshot :: nodeSnapshots ns
end

mutual
/-- auth.rs:2176-2200 `rollback` of a node -/
def DNode.rollback : DNode → DSnap → Res DNode
  | .mk a s _ ks, .mk u sn =>
    match nodeRollbacks ks sn with
    | .error e => .error e
    | .ok ks => .ok (.mk a s u ks)
/-- auth.rs:2180-2199, the check of the number of children and the children. -/
def nodeRollbacks : List DNode → List DSnap → Res (List DNode)
  | [], [] => .ok []
  | n :: ns, s :: ss =>
    match n.rollback s with
    | .error e => .error e
    | .ok n => match nodeRollbacks ns ss with
      | .error e => .error e
      | .ok ns => .ok (n :: ns)
  | _, _ => .error (.host .auth .internalError)
end

/-- auth.rs:2218-2223 `snapshot` of the tracker -/
def DTracker.snapshot (t : DTracker) : List DSnap × List Nat := (nodeSnapshots t.kids, t.stack)

/-- auth.rs:2225-2233 `rollback` of the tracker -/
def DTracker.rollback (t : DTracker) (s : List DSnap × List Nat) : Res DTracker :=
  match nodeRollbacks t.kids s.1 with
  | .error e => .error e
  | .ok ks => .ok { kids := ks, stack := s.2 }

/-- auth.rs:2300-2319 `get_currently_matched_delegated_signer_node`: the children of the node at a path. -/
def kidsAt : List DNode → List Nat → Option (List DNode)
  | ks, [] => some ks
  | ks, i :: p =>
    match ks[i]? with
    | none => none
    | some n => kidsAt n.kids p

/-- auth.rs:2254-2271, the search for the address among the children. -/
def findAddr (a : Addr) : List DNode → Nat → Option (Nat × DNode)
  | [], _ => none
  | n :: ns, i => if n.addr = a then some (i, n) else findAddr a ns (i + 1)

/-- auth.rs:2270, sets `is_exhausted` of the node at a path. -/
def markUsed : List DNode → List Nat → List DNode
  | ks, [] => ks
  | ks, i :: p => ks.modify i (fun n => .mk n.addr n.sig (n.used || p.isEmpty) (markUsed n.kids p))

/-- auth.rs:2244-2292 `try_push_delegated_auth_frame` -/
def DTracker.tryPush (t : DTracker) (a : Addr) : Res (DTracker × Nat) :=
  match kidsAt t.kids t.stack with
  | none => .error (.host .auth .internalError)
  | some ks =>
    match findAddr a ks 0 with
    | none => .error (.host .auth .invalidInput)
    | some (i, n) =>
      if n.used then .error (.host .auth .invalidInput)
      else .ok ({ kids := markUsed t.kids (t.stack ++ [i]), stack := t.stack ++ [i] }, n.sig)

/-- auth.rs:2294-2296 `pop_delegated_auth_frame` -/
def DTracker.pop (t : DTracker) : DTracker := { t with stack := t.stack.dropLast }

/-- auth.rs:2323-2343 `get_current_delegated_signer_addresses` -/
def DTracker.signers (t : DTracker) : Res (List Addr) :=
  match kidsAt t.kids t.stack with
  | none => .error (.host .auth .internalError)
  | some ks => .ok (ks.map DNode.addr)

/-- A delegated authentication: the signer at a path in the tree of an entry. -/
structure Deleg where
  entry : Nat
  path : List Nat
  addr : Addr
  sig : Nat
  deriving DecidableEq, Repr

/-- The state: the trackers of the entries (none if the credentials are without delegated signers) and their `verified` flags
(auth.rs:612-640), and the stack of authentications, top first, as the indices of their entries (auth.rs:524-534; the tracker of an
entry in this list is mutably borrowed). `log` is not in the code: the delegated authentications, latest first. -/
structure DSt where
  trackers : List (Option DTracker)
  verified : List Bool
  frames : List Nat
  log : List Deleg

/-- What is known about an entry: its address, its signature, its signature payload and its context. -/
structure EntryInfo where
  addr : Addr
  sig : Nat
  payload : Nat
  context : Nat

/-- The parameters of the model. -/
structure DEnv where
  entry : Nat → EntryInfo
  account : Nat → Nat → Nat → Res Unit
  nonce : Nat → Res Unit

/-- The code of contract functions. The code of a `__check_auth` function depends on its payload, signature and context. -/
inductive CProg where
  | ret
  | fail (e : Err)
  | signers (k : List Addr → CProg)
  | delegate (a : Addr) (body : Nat → Nat → Nat → CProg) (k : CProg)
  | auth (i : Nat) (body : Nat → Nat → Nat → CProg) (k : CProg)
  | call (body : CProg) (k : CProg)
  | tryCall (body : CProg) (k : Bool → CProg)

/-- The snapshot of one entry, auth.rs:2836-2867 `snapshot` of `AccountAuthorizationTracker`. -/
abbrev EntrySnap := Bool × Option (List DSnap × List Nat)

/-- auth.rs:1460-1511 `snapshot` of the manager: the entries that can be borrowed, counted from index `i`. -/
def snapshotFrom (frames : List Nat) : Nat → List (Option DTracker) → List Bool → List (Option EntrySnap)
  | i, t :: ts, v :: vs =>
    (if i ∈ frames then none else some (v, t.map DTracker.snapshot)) :: snapshotFrom frames (i + 1) ts vs
  | _, _, _ => []

/-- auth.rs:2870-2896 `rollback` of `AccountAuthorizationTracker` -/
def entryRollback (t : Option DTracker) (s : EntrySnap) : Res (Option DTracker × Bool) :=
  match t, s.2 with
  | some t, some sn =>
    match t.rollback sn with
    | .error e => .error e
    | .ok t => .ok (some t, s.1)
  | t, _ => .ok (t, s.1)

/-- auth.rs:1515-1595 `rollback` of the manager, the account trackers. -/
def rollbackAll : List (Option DTracker) → List Bool → List (Option EntrySnap) → Res (List (Option DTracker) × List Bool)
  | t :: ts, v :: vs, s :: ss =>
    match rollbackAll ts vs ss with
    | .error e => .error e
    | .ok (ts, vs) =>
      match s with
      | none => .ok (t :: ts, v :: vs)
      | some s =>
        match entryRollback t s with
        | .error e => .error e
        | .ok (t, v) => .ok (t :: ts, v :: vs)
  | [], [], [] => .ok ([], [])
  | _, _, _ => .error (.host .auth .internalError)

/-- host/frame.rs:466-641 (with_frame), the part about authorization: the state is rolled back if the code of the frame fails. -/
def framed (s : DSt) (f : DSt → DSt × Res Unit) : DSt × Res Unit :=
  match f s with
  | (s', .ok v) => (s', .ok v)
  | (s', .error e) =>
    match rollbackAll s'.trackers s'.verified (snapshotFrom s.frames 0 s.trackers s.verified) with
    | .error e' => (s', .error e')
    | .ok (ts, vs) => ({ s' with trackers := ts, verified := vs, log := s.log }, .error e)

/-- The error code of `__check_auth` frames (host/frame.rs:1353-1390 `ensure_check_auth_frame`). -/
def notCheckAuth : Err := .host .context .invalidAction

/-- auth.rs:1099-1110 `get_delegated_signers_for_current_auth_check`, after the check of the frame at host.rs:3566-3575. -/
def currentSigners (inCheck : Bool) (s : DSt) : Res (List Addr) :=
  if !inCheck then .error notCheckAuth
  else match s.frames with
    | [] => .error (.host .auth .internalError)
    | i :: _ =>
      match s.trackers[i]? with
      | none => .error (.host .auth .internalError)
      | some none => .ok []
      | some (some t) => t.signers

/-- auth.rs:1036-1048, the first part of `delegate_account_auth`, after the check of the frame at host.rs:3554-3564: the new state,
the index of the entry and the signature. -/
def beginDelegate (inCheck : Bool) (s : DSt) (a : Addr) : Res (DSt × Nat × Nat) :=
  if !inCheck then .error notCheckAuth
  else match s.frames with
    | [] => .error (.host .auth .internalError)
    | i :: _ =>
      match s.trackers[i]? with
      | some (some t) =>
        match t.tryPush a with
        | .error e => .error e
        | .ok (t', sig) =>
          .ok ({ s with trackers := s.trackers.set i (some t'), log := ⟨i, t'.stack, a, sig⟩ :: s.log }, i, sig)
      | some none => .error (.host .auth .invalidInput)
      | none => .error (.host .auth .internalError)

/-- auth.rs:1077-1090, the last part of `delegate_account_auth`. -/
def endDelegate (s : DSt) : DSt × Res Unit :=
  match s.frames with
  | [] => (s, .error (.host .auth .internalError))
  | i :: _ =>
    match s.trackers[i]? with
    | some (some t) => ({ s with trackers := s.trackers.set i (some t.pop) }, .ok ())
    | _ => (s, .error (.host .auth .internalError))

/-- auth.rs:1051-1074, the authentication of an address: `check` is the code of the `__check_auth` function. -/
def checkAddr (E : DEnv) (s : DSt) (a : Addr) (payload sig : Nat) (check : DSt → DSt × Res Unit) : DSt × Res Unit :=
  match a with
  | .account id => (s, E.account id payload sig)
  | .contract _ => framed s check

/-- A failure that the caller can handle (host/error.rs:148-167 `is_recoverable`). -/
def recoverable : Err → Bool
  | .contract _ => true
  | .host t c => !(c = .internalError || (c = .exceededLimit && (t = .budget || t = .storage)))

/-- auth.rs:2486-2506, how the errors of authentication are reported. -/
def hideError (e : Err) : Err := if recoverable e then .host .auth .invalidAction else e

/-- auth.rs:2474-2520 `maybe_authorize_invocation`, after the match, with auth.rs:2665-2720 `authenticate`. -/
def verify (E : DEnv) (s : DSt) (i : Nat) (check : DSt → DSt × Res Unit) : DSt × Res Unit :=
  match s.verified[i]? with
  | none => (s, .error (.host .auth .internalError))
  | some true => (s, .ok ())
  | some false =>
    let r := checkAddr E { s with frames := i :: s.frames } (E.entry i).addr (E.entry i).payload (E.entry i).sig check
    let s' := { r.1 with frames := r.1.frames.tail }
    match r.2 with
    | .error e => (s', .error (hideError e))
    | .ok _ =>
      match E.nonce i with
      | .error e => (s', .error e)
      | .ok _ => ({ s' with verified := s'.verified.set i true }, .ok ())

/-- Runs the code of a function. `inCheck` says that it is a `__check_auth` function. -/
def run (E : DEnv) : CProg → Bool → DSt → DSt × Res Unit
  | .ret, _, s => (s, .ok ())
  | .fail e, _, s => (s, .error e)
  | .signers k, c, s =>
    match currentSigners c s with
    | .error e => (s, .error e)
    | .ok l => run E (k l) c s
  | .delegate a body k, c, s =>
    match beginDelegate c s a with
    | .error e => (s, .error e)
    | .ok (s1, i, sig) =>
      match checkAddr E s1 a (E.entry i).payload sig (run E (body (E.entry i).payload sig (E.entry i).context) true) with
      | (s2, .error e) => (s2, .error e)
      | (s2, .ok _) =>
        match endDelegate s2 with
        | (s3, .error e) => (s3, .error e)
        | (s3, .ok _) => run E k c s3
  | .auth i body k, c, s =>
    if i ∈ s.frames then (s, .error (.host .auth .invalidAction))
    else match verify E s i (run E (body (E.entry i).payload (E.entry i).sig (E.entry i).context) true) with
      | (s1, .error e) => (s1, .error e)
      | (s1, .ok _) => run E k c s1
  | .call body k, c, s =>
    match framed s (run E body false) with
    | (s1, .error e) => (s1, .error e)
    | (s1, .ok _) => run E k c s1
  | .tryCall body k, c, s =>
    match framed s (run E body false) with
    | (s1, .error e) => if recoverable e then run E (k false) c s1 else (s1, .error e)
    | (s1, .ok _) => run E (k true) c s1

end Soroban.Delegates
