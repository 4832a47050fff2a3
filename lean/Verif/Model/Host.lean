import Verif.Model.Auth
import Verif.Model.Storage
/-!
Model of contract calls: soroban-env-host/src/host/frame.rs (contexts, frames, rollback, calls), host/lifecycle.rs (contract
creation), events/internal.rs (the event buffer) and the part of auth.rs that authenticates addresses, on top of the models of
storage and authorization.

The code of contracts is arbitrary: it is a tree (`Prog`) whose nodes are host functions and whose branches are chosen by the
results. An error of a host function ends the code of the frame (vm/dispatch.rs:206-300: the error becomes a trap; the built-in
contracts propagate errors with `?`).

Simplifications: no metering, no diagnostic events, no lifecycle hooks; values are numbers; the memory refund of frames is in
`Verif/Model/Budget.lean`; the pseudo-random generator of a frame is in `Verif/Model/Prng.lean` if modelled at all.
Failures of a push or pop because the budget runs out are not modelled.
-/
namespace Soroban.Host
open Soroban Soroban.Auth Soroban.Storage

/-- A key of contract data: XDR `ScVal`, of which only the executable tags are distinguished (host/data_helper.rs:637-684). -/
inductive DKey where
  | val (n : Nat)
  | tag (n : Nat)
  deriving DecidableEq, Repr

/-- XDR `LedgerKey`: contract data of a contract, contract instance, contract code, nonce of an address, and the classic
entries. The contents of a contract data key come from a `Val` (host/data_helper.rs `storage_key_from_val`), which cannot be a
nonce key or an instance key (soroban-env-common/src/val.rs:633-641 `can_represent_scval`), so they are separate here. -/
inductive LKey where
  | data (c : Addr) (k : DKey) (d : Durability)
  | inst (c : Nat)
  | code (h : Nat)
  | nonce (a : Addr) (n : Int)
  | account (id : Nat)
  | classic (n : Nat)
  deriving DecidableEq, Repr

/-- XDR `LedgerEntryData`. -/
inductive LVal where
  | data (v : Nat)
  | inst (ex : Exec) (storage : FMap Nat Nat)
  | code (w : Nat)
  | void
  | classic (n : Nat)
  deriving DecidableEq, Repr

/-- ledger_info.rs:33-39 `get_key_durability` and the type checks of storage.rs:211-232: all keys here are supported. -/
def keysOf : Keys LKey LVal :=
  { supported := fun _ => true
    entrySupported := fun _ => true
    durability := fun k => match k with
      | .data _ _ d => some d
      | .inst _ => some .persistent
      | .code _ => some .persistent
      | .nonce _ _ => some .temporary
      | .account _ => none
      | .classic _ => none }

/-- What is outside the model: the ledger; the check of the signatures of a classic account against its ledger entry
(builtin_contracts/account_contract.rs), for the authorization entry at an index; contract IDs as hashes of preimages;
the values that are 32-byte hashes; and whether the Wasm with a hash was built for a protocol with constructors. -/
structure HEnv where
  sto : Storage.Env LKey LVal
  accountCheck : Nat → LVal → Res Unit
  newId : Nat → Bool → Nat
  hashOf : Nat → Option Nat
  hasCtor : Nat → Bool

/-- The return value of a contract: only `Void` and the error values matter to the host (frame.rs:510-556). -/
inductive RVal where
  | void
  | err (e : Err)
  | other (n : Nat)
  deriving DecidableEq, Repr

/-- events/internal.rs:14-19 `InternalContractEvent`: the type of the event with its topics and data. The event of a contract is
abstract; the only event of the host itself (the type `System`) has the executables before and after an update in its topics
(events/system_events.rs:16-31 `emit_update_contract_event`). -/
inductive EvBody where
  | contract (payload : Nat)
  | updated (old new : Exec)
  deriving DecidableEq, Repr

/-- events/internal.rs:156-159 `InternalEvent`: contract and system events, with the contract that emitted them. -/
structure Ev where
  contract : Nat
  body : EvBody
  deriving DecidableEq, Repr

/-- host/frame.rs:95-105 `Context`: the contract and function of the frame (`cid` is `none` for host function frames), the
instance storage found when the frame was created (`instance()` of the frame) and `storage`, the instance storage with its
`is_modified` flag if it has been loaded. -/
structure Ctx where
  cid : Option Nat
  fn : Name
  inst : FMap Nat Nat
  storage : Option (FMap Nat Nat × Bool)

/-- The state of the host that calls use: host.rs `HostImpl`, with the top of the context stack first. The flag of an event says
that it is from a failed call. The last two fields are ghosts that nothing else depends on: `trace` has the contents of the
context stack after each push, latest first; `fatal` says that an error that is not recoverable has reached the code of some
frame. -/
structure Host where
  st : Store LKey LVal
  events : List (Ev × Bool)
  auth : Mgr
  ctx : List Ctx
  trace : List (List (Option Nat × Name))
  fatal : Bool

/-- host/frame.rs:45-49 `RollbackPoint` -/
structure RollbackPoint where
  map : FMap LKey (Option (Entry LVal))
  events : Nat
  auth : Snap

/-- The name `__check_auth`. -/
def checkAuthName : Name := [95, 95, 99, 104, 101, 99, 107, 95, 97, 117, 116, 104]
/-- The name `__constructor` (host/lifecycle.rs:22). -/
def constructorName : Name := [95, 95, 99, 111, 110, 115, 116, 114, 117, 99, 116, 111, 114]
/-- The name `init_asset` (host/lifecycle.rs:163). -/
def initAssetName : Name := [105, 110, 105, 116, 95, 97, 115, 115, 101, 116]

/-- host/frame.rs `DEFAULT_HOST_DEPTH_LIMIT` (soroban-env-host/src/lib.rs). -/
def depthLimit : Nat := 100

/-- host/error.rs:148-167 `is_recoverable` -/
def recoverable : Err → Bool
  | .contract _ => true
  | .host t c =>
    if c = .internalError then false
    else if c = .exceededLimit ∧ (t = .storage ∨ t = .budget) then false
    else true

/-! ### storage and events -/

/-- Runs a storage function on the host's storage. -/
def liftSt {α : Type} (s : Host) (f : Store LKey LVal → Store LKey LVal × Res α) : Host × Res α :=
  let r := f s.st
  ({ s with st := r.1 }, r.2)

/-- events/internal.rs `record`, called by events/mod.rs `record_contract_event`. -/
def recordEvent (s : Host) (e : Ev) : Host := { s with events := s.events ++ [(e, false)] }

/-- events/internal.rs `rollback`: the events from an index on are marked as coming from a failed call. -/
def rollbackEvents (evs : List (Ev × Bool)) (n : Nat) : List (Ev × Bool) :=
  evs.take n ++ (evs.drop n).map (fun e => (e.1, true))

/-- events/internal.rs:211-249 `externalize` and e2e_invoke.rs:1007-1022 `encode_contract_events`: the events of the transaction
are those not from failed calls. -/
def successfulEvents (evs : List (Ev × Bool)) : List Ev := (evs.filter (fun e => !e.2)).map Prod.fst

/-- host/frame.rs:661-677 `get_current_contract_id_internal` -/
def currentContract (s : Host) : Res Nat :=
  match s.ctx with
  | c :: _ => match c.cid with
    | some id => .ok id
    | none => .error (.host .context .internalError)
  | [] => .error (.host .context .internalError)

/-- host/data_helper.rs:120-126 `retrieve_contract_instance_from_storage` -/
def getInstance (E : HEnv) (s : Host) (c : Nat) : Host × Res (Exec × FMap Nat Nat) :=
  match liftSt s (fun st => getEntry E.sto st (.inst c)) with
  | (s, .error e) => (s, .error e)
  | (s, .ok (.inst ex m, _)) => (s, .ok (ex, m))
  | (s, .ok _) => (s, .error (.host .storage .internalError))

/-- host/data_helper.rs:266-338 `store_contract_instance`, the contents of the updated instance. -/
def updInstance (ex : Option Exec) (m : Option (FMap Nat Nat)) : LVal → Res LVal
  | .inst ex0 m0 => .ok (.inst (ex.getD ex0) (m.getD m0))
  | _ => .error (.host .storage .internalError)

/-- host/data_helper.rs:266-338 `store_contract_instance` -/
def storeInstance (E : HEnv) (s : Host) (ex : Option Exec) (m : Option (FMap Nat Nat)) (c : Nat) : Host × Res Unit :=
  match liftSt s (fun st => has E.sto st (.inst c)) with
  | (s, .error e) => (s, .error e)
  | (s, .ok true) =>
    match liftSt s (fun st => getEntry E.sto st (.inst c)) with
    | (s, .error e) => (s, .error e)
    | (s, .ok (v, l)) =>
      match updInstance ex m v with
      | .error e => (s, .error e)
      | .ok v' => liftSt s (fun st => putOpt E.sto st (.inst c) (some (v', l)))
  | (s, .ok false) =>
    match ex with
    | none => (s, .error (.host .context .internalError))
    | some ex =>
      match newLiveUntil E.sto (.inst c) with
      | .error e => (s, .error e)
      | .ok l => liftSt s (fun st => putOpt E.sto st (.inst c) (some (.inst ex (m.getD []), l)))

/-- host/data_helper.rs:168-180 `verify_wasm_exists`, and host/data_helper.rs:211-230 `verify_executable_ref_entry_exists`. -/
def verifyExists (E : HEnv) (s : Host) (k : LKey) : Host × Res Unit :=
  match liftSt s (fun st => has E.sto st k) with
  | (s, .error e) => (s, .error e)
  | (s, .ok true) => (s, .ok ())
  | (s, .ok false) => (s, .error (.host .storage .missingValue))

/-- host/data_helper.rs:232-258 `resolve_external_ref_wasm_hash` -/
def resolveRef (E : HEnv) (s : Host) (owner : Addr) (tag : Nat) : Host × Res Nat :=
  match liftSt s (fun st => getEntry E.sto st (.data owner (.tag tag) .persistent)) with
  | (s, .error e) => (s, .error e)
  | (s, .ok (.data v, _)) => match E.hashOf v with
    | some h => (s, .ok h)
    | none => (s, .error (.host .storage .internalError))
  | (s, .ok _) => (s, .error (.host .storage .internalError))

/-- host/frame.rs:914-921 and host/frame.rs:1101-1111, the Wasm hash of an executable (`none` for the asset contract). -/
def wasmHash (E : HEnv) (s : Host) : Exec → Host × Res (Option Nat)
  | .wasm h => (s, .ok (some h))
  | .asset => (s, .ok none)
  | .ref o t => match resolveRef E s o t with
    | (s, .error e) => (s, .error e)
    | (s, .ok h) => (s, .ok (some h))

/-- builtin_contracts/common_types.rs:75-80 `AddressExecutable` -/
inductive AddrExec where
  | wasm (hash : Nat)
  | asset
  | account
  deriving DecidableEq, Repr

/-- host.rs:3685-3730 `get_address_executable`, with builtin_contracts/common_types.rs:82-103 `from_contract_executable_xdr`.
`none` is void. -/
def addressExecutable (E : HEnv) (s : Host) : Addr → Host × Res (Option AddrExec)
  | .account a => match liftSt s (fun st => has E.sto st (.account a)) with
    | (s, .error e) => (s, .error e)
    | (s, .ok true) => (s, .ok (some .account))
    | (s, .ok false) => (s, .ok none)
  | .contract c => match liftSt s (fun st => tryGet E.sto st (.inst c)) with
    | (s, .error e) => (s, .error e)
    | (s, .ok none) => (s, .ok none)
    | (s, .ok (some (.inst ex _, _))) => match wasmHash E s ex with
      | (s, .error e) => (s, .error e)
      | (s, .ok (some h)) => (s, .ok (some (.wasm h)))
      | (s, .ok none) => (s, .ok (some .asset))
    | (s, .ok (some _)) => (s, .error (.host .storage .internalError))

/-- host/data_helper.rs:139-166 `retrieve_wasm_from_storage`. With a module cache host/frame.rs:981-1000 looks at the same entry
with `has` and reads it only if it is missing, which has the same effect on the storage and fails in the same cases. -/
def loadCode (E : HEnv) (s : Host) (h : Nat) : Host × Res Unit :=
  match liftSt s (fun st => getEntry E.sto st (.code h)) with
  | (s, .error e) => (s, .error e)
  | (s, .ok _) => (s, .ok ())

/-! ### instance storage -/

/-- host/frame.rs:1269-1285 `maybe_init_instance_storage`, on a context: the instance storage it has or gets. -/
def Ctx.load (c : Ctx) : Res (FMap Nat Nat × Bool) :=
  match c.storage with
  | some s => .ok s
  | none => match c.cid with
    | some _ => .ok (c.inst, false)
    | none => .error (.host .context .internalError)

/-- host/frame.rs:1331-1351 `persist_instance_storage` -/
def persist (E : HEnv) (s : Host) : Host × Res Bool :=
  match s.ctx with
  | [] => (s, .error (.host .context .internalError))
  | c :: _ =>
    match c.storage with
    | some (m, true) =>
      match currentContract s with
      | .error e => (s, .error e)
      | .ok id => match storeInstance E s none (some m) id with
        | (s, .error e) => (s, .error e)
        | (s, .ok ()) => (s, .ok true)
    | _ => (s, .ok false)

/-- host/frame.rs:1317-1323, the loop of `maybe_reload_instance_storage_on_frame_pop` with host/frame.rs:1287-1300
`reload_instance_storage`, over the contexts below the top one. (The code starts from the bottom of the stack.) -/
def reloadBelow (E : HEnv) (s : Host) (id : Nat) : List Ctx → Host × Res (List Ctx)
  | [] => (s, .ok [])
  | c :: cs =>
    match reloadBelow E s id cs with
    | (s, .error e) => (s, .error e)
    | (s, .ok cs') =>
      if c.cid = some id then
        match getInstance E s id with
        | (s, .error e) => (s, .error e)
        | (s, .ok (_, m)) => (s, .ok ({ c with storage := some (m, false) } :: cs'))
      else (s, .ok (c :: cs'))

/-- host/frame.rs:1302-1325 `maybe_reload_instance_storage_on_frame_pop` (an error leaves all the contexts as they were here). -/
def reload (E : HEnv) (s : Host) : Host × Res Unit :=
  match s.ctx with
  | [] => (s, .error (.host .context .internalError))
  | c :: cs =>
    match c.cid with
    | none => (s, .error (.host .context .internalError))
    | some id => match reloadBelow E s id cs with
      | (s, .error e) => (s, .error e)
      | (s, .ok cs') => ({ s with ctx := c :: cs' }, .ok ())

/-! ### frames -/

/-- What the ghost trace records of the context stack. -/
def shape (cs : List Ctx) : List (Option Nat × Name) := cs.map (fun c => (c.cid, c.fn))

/-- host/frame.rs:233-248 `push_context`, with the frame pushed on the authorization manager unless it is a host function
frame (auth.rs:1642-1647). -/
def pushContext (s : Host) (c : Ctx) : Host × RollbackPoint :=
  let auth := match c.cid with
    | some id => s.auth.push (.contract (.contract id) c.fn)
    | none => s.auth
  ({ s with auth := auth, ctx := c :: s.ctx, trace := shape (c :: s.ctx) :: s.trace },
   { map := s.st.map, events := s.events.length, auth := auth.snapshot })

/-- host/frame.rs:253-289 `pop_context` -/
def popContext (s : Host) (rp : Option RollbackPoint) : Host × Res Unit :=
  match s.ctx with
  | [] => (s, .error (.host .context .internalError))
  | _ :: cs =>
    match rp with
    | none =>
      let r := s.auth.pop none
      ({ s with ctx := cs, auth := r.1 }, r.2)
    | some p =>
      let r := s.auth.pop (some p.auth)
      ({ s with ctx := cs, st := { s.st with map := p.map }, events := rollbackEvents s.events p.events, auth := r.1 }, r.2)

/-- host/frame.rs:508-556, error values returned by the code of a frame become errors. -/
def escalate : Res RVal → Res RVal
  | .ok (.err (.contract n)) => .error (.contract n)
  | .ok (.err (.host _ _)) => .error (.host .context .invalidAction)
  | r => r

/-- host/frame.rs:562-583, the end of a frame: if nothing failed the instance storage is written back, and reloaded in the
frames below for the same contract. -/
def finish (E : HEnv) (s : Host) (r : Res RVal) : Host × Res RVal :=
  match r with
  | .error e => (s, .error e)
  | .ok v =>
    match persist E s with
    | (s, .error e) => (s, .error e)
    | (s, .ok false) => (s, .ok v)
    | (s, .ok true) => match reload E s with
      | (s, .error e) => (s, .error e)
      | (s, .ok ()) => (s, .ok v)

/-- host/frame.rs:594-600, the rollback point is given to the pop if the frame failed. -/
def rollbackIf (r : Res RVal) (rp : RollbackPoint) : Option RollbackPoint :=
  match r with
  | .error _ => some rp
  | .ok _ => none

/-- host/frame.rs:466-641 `with_frame_and_initial_mem_charge` -/
def withFrame (E : HEnv) (s : Host) (c : Ctx) (f : Host → Host × Res RVal) : Host × Res RVal :=
  if s.ctx.length ≥ depthLimit then (s, .error (.host .context .exceededLimit))
  else
    let p := pushContext s c
    let b := f p.1
    let e := finish E b.1 (escalate b.2)
    let q := popContext e.1 (rollbackIf e.2 p.2)
    match q.2 with
    | .error err => (q.1, .error err)
    | .ok () =>
      if q.1.ctx.length ≠ s.ctx.length then (q.1, .error (.host .context .internalError))
      else (q.1, e.2)

/-- host/frame.rs:902-979 `call_contract_fn`: finds the instance and the code of the contract and runs the code, which is given
as `body`, in a new frame. -/
def callContractFn (E : HEnv) (s : Host) (id : Nat) (fn : Name) (body : Host → Host × Res RVal) : Host × Res RVal :=
  match getInstance E s id with
  | (s, .error e) => (s, .error e)
  | (s, .ok (ex, m)) =>
    match wasmHash E s ex with
    | (s, .error e) => (s, .error e)
    | (s, .ok none) => withFrame E s { cid := some id, fn := fn, inst := m, storage := none } body
    | (s, .ok (some h)) =>
      match loadCode E s h with
      | (s, .error e) => (s, .error e)
      | (s, .ok ()) => withFrame E s { cid := some id, fn := fn, inst := m, storage := none } body

/-- host/frame.rs:25-34 `ContractReentryMode` -/
inductive Reentry where
  | prohibited | selfAllowed | allowed
  deriving DecidableEq, Repr

/-- host/frame.rs:1154-1160, the position of a contract among the frames with a contract, from the top. -/
def reentryDistance (id : Nat) (cs : List Ctx) : Option Nat :=
  (cs.filterMap Ctx.cid).idxOf? id

/-- host/frame.rs `RESERVED_CONTRACT_FN_PREFIX`, `__`. -/
def reserved (fn : Name) : Bool := [95, 95].isPrefixOf fn

/-- host/frame.rs:1121-1195 `call_n_internal` -/
def callN (E : HEnv) (s : Host) (id : Nat) (fn : Name) (mode : Reentry) (internal : Bool)
    (body : Host → Host × Res RVal) : Host × Res RVal :=
  if internal = false ∧ reserved fn = true then (s, .error (.host .context .invalidAction))
  else match mode with
    | .allowed => callContractFn E s id fn body
    | .prohibited => match reentryDistance id s.ctx with
      | none => callContractFn E s id fn body
      | some _ => (s, .error (.host .context .invalidAction))
    | .selfAllowed => match reentryDistance id s.ctx with
      | none => callContractFn E s id fn body
      | some 0 => match persist E s with
        | (s, .error e) => (s, .error e)
        | (s, .ok _) => callContractFn E s id fn body
      | some (_ + 1) => (s, .error (.host .context .invalidAction))

/-- host.rs:2479-2512 `call` -/
def call (E : HEnv) (s : Host) (id : Nat) (fn : Name) (body : Host → Host × Res RVal) : Host × Res RVal :=
  callN E s id fn .prohibited false body

/-- host.rs:2540-2577, what `try_call` returns for the result of the call. -/
def tryResult : Res RVal → Res RVal
  | .ok v => .ok v
  | .error (.contract n) => .ok (.err (.contract n))
  | .error (.host t c) =>
    if recoverable (.host t c) then .ok (.err (.host .context .invalidAction)) else .error (.host t c)

/-- host.rs:2515-2579 `try_call` -/
def tryCall (E : HEnv) (s : Host) (id : Nat) (fn : Name) (body : Host → Host × Res RVal) : Host × Res RVal :=
  let r := callN E s id fn .prohibited false body
  (r.1, tryResult r.2)

/-! ### authorization -/

/-- auth.rs:2958-3014 `consume_nonce` -/
def consumeNonce (E : HEnv) (s : Host) (a : Addr) (n : Int) (liveUntil : Nat) : Host × Res Unit :=
  match E.sto.li.minLiveUntil .temporary with
  | none => (s, .error (.host .context .internalError))
  | some m =>
    match liftSt s (fun st => has E.sto st (.nonce a n)) with
    | (s, .error e) => (s, .error e)
    | (s, .ok true) => (s, .error (.host .auth .existingValue))
    | (s, .ok false) => liftSt s (fun st => putOpt E.sto st (.nonce a n) (some (.void, some (max liveUntil m))))

/-- auth.rs:2586-2626 `verify_and_consume_nonce` -/
def verifyNonce (E : HEnv) (s : Host) (t : Acct) : Host × Res Unit :=
  if t.source then (s, .ok ())
  else match t.nonce with
    | none => (s, .error (.host .auth .internalError))
    | some (n, l) =>
      if E.sto.li.seq > l then (s, .error (.host .auth .invalidInput))
      else match E.sto.li.maxLiveUntil with
        | none => (s, .error (.host .context .internalError))
        | some mx =>
          if l > mx then (s, .error (.host .auth .invalidInput))
          else consumeNonce E s t.addr n l

/-- builtin_contracts/account_contract.rs:151-172 `check_account_contract_auth`, the check of the return value of `__check_auth`. -/
def expectVoid : Res RVal → Res Unit
  | .ok .void => .ok ()
  | .ok _ => .error (.host .value .unexpectedType)
  | .error e => .error e

/-- auth.rs:2665-2720 `authenticate`: `run` is the code of `__check_auth` of the account for the entry at index `i`. -/
def authenticate (E : HEnv) (s : Host) (i : Nat) (t : Acct) (run : Host → Host × Res RVal) : Host × Res Unit :=
  if t.source then (s, .ok ())
  else match t.addr with
    | .account id =>
      match liftSt s (fun st => getEntry E.sto st (.account id)) with
      | (s, .error e) => (s, .error e)
      | (s, .ok (v, _)) => (s, E.accountCheck i v)
    | .contract id =>
      let r := callN E s id checkAuthName .selfAllowed true run
      (r.1, expectVoid r.2)

/-- Changes the account tracker at an index. -/
def setAcct (s : Host) (i : Nat) (g : Acct → Acct) : Host := { s with auth := s.auth.setAcct i g }

/-- auth.rs:2486-2506, how the errors of authentication are reported. -/
def hideAuthError (e : Err) : Err := if recoverable e then .host .auth .invalidAction else e

/-- auth.rs:2474-2520 `maybe_authorize_invocation`, after the match: `t` is the tracker at index `i`. -/
def verifyEntry (E : HEnv) (s : Host) (i : Nat) (t : Acct) (run : Host → Host × Res RVal) : Host × Res Unit :=
  if t.verified then (s, .ok ())
  else match authenticate E s i t run with
    | (s, .error e) => (s, .error (hideAuthError e))
    | (s, .ok ()) => match verifyNonce E s t with
      | (s, .error e) => (s, .error e)
      | (s, .ok ()) => (setAcct s i (fun t => { t with verified := true }), .ok ())

/-- auth.rs:1227-1295 `require_auth_enforcing` -/
def requireEnforcing (E : HEnv) (s : Host) (a : Addr) (f : AuthFn) (run : Nat → Host → Host × Res RVal) : Host × Res Unit :=
  match acctLoop a f (!s.auth.hasActive a) s.auth.accts 0 with
  | .error e => (s, .error e)
  | .ok none => (s, .error (.host .auth .invalidAction))
  | .ok (some (i, tr, p)) =>
    match s.auth.accts[i]? with
    | none => (s, .error (.host .auth .internalError))
    | some t =>
      let r := verifyEntry E { s with auth := s.auth.recordMatch i tr p a f } i t (run i)
      (setAcct r.1 i (fun t => { t with borrowed := false }), r.2)

/-- auth.rs:1437-1456 `require_auth_internal` -/
def requireInternal (E : HEnv) (s : Host) (a : Addr) (f : AuthFn) (run : Nat → Host → Host × Res RVal) : Host × Res Unit :=
  match s.auth.checkInvoker a f with
  | (m, .error e) => ({ s with auth := m }, .error e)
  | (m, .ok true) => ({ s with auth := m }, .ok ())
  | (m, .ok false) => requireEnforcing E { s with auth := m } a f run

/-- auth.rs:1118-1139 `require_auth` -/
def requireAuth (E : HEnv) (s : Host) (a : Addr) (args : List Nat) (run : Nat → Host → Host × Res RVal) : Host × Res Unit :=
  match s.auth.stack with
  | [] => (s, .error (.host .auth .internalError))
  | fr :: _ => requireInternal E s a (fr.toFn args) run

/-! ### contract creation -/

/-- host/lifecycle.rs:82-94, the executable of a new contract has to exist. -/
def verifyExec (E : HEnv) (s : Host) : Exec → Host × Res Unit
  | .wasm h => verifyExists E s (.code h)
  | .ref o t => verifyExists E s (.data o (.tag t) .persistent)
  | .asset => (s, .ok ())

/-- host/lifecycle.rs:63-99 `create_contract_with_id` -/
def createWithId (E : HEnv) (s : Host) (id : Nat) (ex : Exec) : Host × Res Unit :=
  match liftSt s (fun st => has E.sto st (.inst id)) with
  | (s, .error e) => (s, .error e)
  | (s, .ok true) => (s, .error (.host .storage .existingValue))
  | (s, .ok false) =>
    match verifyExec E s ex with
    | (s, .error e) => (s, .error e)
    | (s, .ok ()) => storeInstance E s (some ex) none id

/-- host/frame.rs:1093-1118 `get_contract_protocol_version`: whether the contract supports constructors. -/
def supportsCtor (E : HEnv) (s : Host) (id : Nat) : Host × Res Bool :=
  match getInstance E s id with
  | (s, .error e) => (s, .error e)
  | (s, .ok (ex, _)) =>
    match wasmHash E s ex with
    | (s, .error e) => (s, .error e)
    | (s, .ok none) => (s, .ok true)
    | (s, .ok (some h)) => match loadCode E s h with
      | (s, .error e) => (s, .error e)
      | (s, .ok ()) => (s, .ok (E.hasCtor h))

/-- host/lifecycle.rs:125-152, how the result of a constructor is reported. -/
def ctorResult : Res RVal → Res Unit
  | .ok .void => .ok ()
  | .ok _ => .error (.host .value .unexpectedType)
  | .error e => if recoverable e then .error (.host .context .invalidAction) else .error e

/-- host/lifecycle.rs:101-159 `call_constructor` -/
def callConstructor (E : HEnv) (s : Host) (id : Nat) (args : List Nat) (ctor : Host → Host × Res RVal) : Host × Res Unit :=
  match supportsCtor E s id with
  | (s, .error e) => (s, .error e)
  | (s, .ok false) => if args = [] then (s, .ok ()) else (s, .error (.host .context .invalidAction))
  | (s, .ok true) =>
    let r := callN E s id constructorName .prohibited true ctor
    (r.1, ctorResult r.2)

/-- host/lifecycle.rs:161-181 `maybe_initialize_stellar_asset_contract` -/
def initAsset (E : HEnv) (s : Host) (id : Nat) (ctor : Host → Host × Res RVal) : Host × Res Unit :=
  match callN E s id initAssetName .prohibited false ctor with
  | (s, .error e) => (s, .error e)
  | (s, .ok _) => (s, .ok ())

/-- host/lifecycle.rs:273-293 `create_instance_and_call_constructor` (asset preimages go with the asset executable here, which
`createWithAuth` has checked). -/
def createInstance (E : HEnv) (s : Host) (id : Nat) (args : CreateArgs) (ctor : Host → Host × Res RVal) : Host × Res Unit :=
  match createWithId E s id args.exec with
  | (s, .error e) => (s, .error e)
  | (s, .ok ()) =>
    if args.fromAsset then initAsset E s id ctor
    else callConstructor E s id args.ctorArgs ctor

/-- host/lifecycle.rs:225-242, the kind of preimage has to go with the kind of executable. -/
def preimageMatches (args : CreateArgs) : Bool :=
  match args.fromAsset, args.exec with
  | false, .wasm _ => true
  | false, .ref _ _ => true
  | true, .asset => true
  | _, _ => false

/-- host/lifecycle.rs:214-220, the deployer has to authorize the creation. -/
def requireDeployer (E : HEnv) (s : Host) (deployer : Option Addr) (run : Nat → Host → Host × Res RVal) : Host × Res Unit :=
  match deployer with
  | none => (s, .ok ())
  | some d => requireAuth E s d [] run

/-- host/lifecycle.rs:208-271 `create_contract_with_optional_auth` -/
def createWithAuth (E : HEnv) (s : Host) (deployer : Option Addr) (args : CreateArgs)
    (run : Nat → Host → Host × Res RVal) (ctor : Host → Host × Res RVal) : Host × Res RVal :=
  match requireDeployer E s deployer run with
  | (s, .error e) => (s, .error e)
  | (s, .ok ()) =>
    if preimageMatches args then
      match createInstance E s (E.newId args.preimage args.fromAsset) args ctor with
      | (s, .error e) => (s, .error e)
      | (s, .ok ()) => (s, .ok (.other (E.newId args.preimage args.fromAsset)))
    else (s, .error (.host .value .invalidInput))

/-- host/lifecycle.rs:183-206 `create_contract_internal` -/
def createContract (E : HEnv) (s : Host) (deployer : Option Addr) (args : CreateArgs)
    (run : Nat → Host → Host × Res RVal) (ctor : Host → Host × Res RVal) : Host × Res RVal :=
  match deployer with
  | none => createWithAuth E s none args run ctor
  | some d =>
    let r := createWithAuth E { s with auth := s.auth.push (.create args) } (some d) args run ctor
    ({ r.1 with auth := r.1.auth.popOnly }, r.2)

/-- host/lifecycle.rs:50-60 `update_current_contract_executable` after the check that the executable exists
(host.rs:2456-2474). -/
def updateExec (E : HEnv) (s : Host) (ex : Exec) : Host × Res Unit :=
  match verifyExec E s ex with
  | (s, .error e) => (s, .error e)
  | (s, .ok ()) =>
    match currentContract s with
    | .error e => (s, .error e)
    | .ok id =>
      match getInstance E s id with
      | (s, .error e) => (s, .error e)
      | (s, .ok old) => storeInstance E (recordEvent s ⟨id, .updated old.1 ex⟩) (some ex) none id

/-- host/lifecycle.rs:316-406 `upload_contract_wasm`: `h` is the hash of the code and `w` its contents with the cost inputs
(`ext`), which are stored again if they differ. The checks of the Wasm itself are not modelled. -/
def uploadWasm (E : HEnv) (s : Host) (h w : Nat) : Host × Res Unit :=
  match liftSt s (fun st => has E.sto st (.code h)) with
  | (s, .error e) => (s, .error e)
  | (s, .ok true) =>
    match liftSt s (fun st => getEntry E.sto st (.code h)) with
    | (s, .error e) => (s, .error e)
    | (s, .ok (v, _)) =>
      if v = .code w then (s, .ok ())
      else match newLiveUntil E.sto (.code h) with
        | .error e => (s, .error e)
        | .ok l => liftSt s (fun st => putOpt E.sto st (.code h) (some (.code w, l)))
  | (s, .ok false) =>
    match newLiveUntil E.sto (.code h) with
    | .error e => (s, .error e)
    | .ok l => liftSt s (fun st => putOpt E.sto st (.code h) (some (.code w, l)))

/-! ### contract data -/

/-- How a lifetime is to be extended: to a number of ledgers from now if no more than `threshold` are left (`extend_ttl`), or to
a number of ledgers from now, by at least and at most given numbers of ledgers (`extend_ttl_v2`). -/
inductive Ext where
  | upTo (threshold extendTo : Nat)
  | between (extendTo minExt maxExt : Nat)
  deriving DecidableEq, Repr

/-- soroban-env-common/src/storage_type.rs:40-47 `ContractTtlExtension` -/
inductive Scope where
  | both
  | inst
  | code
  deriving DecidableEq, Repr

/-- The contract data functions, on temporary and persistent data (host.rs:2076-2330) and, with `classic`, the accesses of the
asset contract to classic entries. -/
inductive DataOp where
  | get (k : DKey) (d : Durability)
  | has (k : DKey) (d : Durability)
  | put (k : DKey) (v : Nat) (d : Durability)
  | del (k : DKey) (d : Durability)
  | extend (k : DKey) (d : Durability) (threshold extendTo : Nat)
  | extendV2 (k : DKey) (d : Durability) (extendTo minExt maxExt : Nat)
  | extendContract (c : Option Nat) (scope : Scope) (x : Ext)
  | getClassic (n : Nat)
  | putClassic (n : Nat) (v : Nat)

/-- Forgets the result of a storage function. -/
def asUnit {α : Type} (r : Host × Res α) : Host × Res (Out LVal) :=
  (r.1, match r.2 with | .ok _ => .ok .unit | .error e => .error e)

/-- host/data_helper.rs:637-666 `validate_put_contract_data` -/
def validatePut (E : HEnv) (s : Host) (k : DKey) (v : Nat) (d : Durability) : Host × Res Unit :=
  match k with
  | .val _ => (s, .ok ())
  | .tag _ =>
    if d = .persistent then
      match E.hashOf v with
      | none => (s, .error (.host .storage .invalidInput))
      | some h => verifyExists E s (.code h)
    else (s, .error (.host .storage .invalidInput))

/-- Extension of the lifetime of one entry, by `extend_ttl` or `extend_ttl_v2` (storage.rs:589-700). -/
def extendKey (E : HEnv) (s : Host) (k : LKey) : Ext → Host × Res Unit
  | .upTo t e => liftSt s (fun st => extendTtl E.sto st k t e)
  | .between e a b => liftSt s (fun st => extendTtlV2 E.sto st k e a b)

/-- host/data_helper.rs:340-370 `extend_contract_code_ttl_from_contract_id` and host/data_helper.rs:388-436
`extend_contract_code_ttl_v2`. -/
def extendCode (E : HEnv) (s : Host) (c : Nat) (x : Ext) : Host × Res Unit :=
  match getInstance E s c with
  | (s, .error e) => (s, .error e)
  | (s, .ok (.wasm h, _)) => extendKey E s (.code h) x
  | (s, .ok (.asset, _)) => (s, .ok ())
  | (s, .ok (.ref o t, _)) =>
    match extendKey E s (.data o (.tag t) .persistent) x with
    | (s, .error e) => (s, .error e)
    | (s, .ok ()) =>
      match resolveRef E s o t with
      | (s, .error e) => (s, .error e)
      | (s, .ok h) => extendKey E s (.code h) x

/-- host.rs:2208-2275 `extend_current_contract_instance_and_code_ttl`, `extend_contract_instance_ttl`,
`extend_contract_instance_and_code_ttl`, `extend_contract_code_ttl` and host.rs:2307-2337
`extend_contract_instance_and_code_ttl_v2`. With both in the scope, the first version begins with the instance and the second
with the code. -/
def extendContract (E : HEnv) (s : Host) (c : Nat) (scope : Scope) (x : Ext) : Host × Res Unit :=
  match scope with
  | .inst => extendKey E s (.inst c) x
  | .code => extendCode E s c x
  | .both =>
    match x with
    | .upTo _ _ => match extendKey E s (.inst c) x with
      | (s, .error e) => (s, .error e)
      | (s, .ok ()) => extendCode E s c x
    | .between _ _ _ => match extendCode E s c x with
      | (s, .error e) => (s, .error e)
      | (s, .ok ()) => extendKey E s (.inst c) x

/-- One contract data function called by contract `id` (host.rs:2076-2337). -/
def dataOp (E : HEnv) (s : Host) (id : Nat) : DataOp → Host × Res (Out LVal)
  | .get k d => match liftSt s (fun st => getEntry E.sto st (.data (.contract id) k d)) with
    | (s, .ok e) => (s, .ok (.entry e))
    | (s, .error e) => (s, .error e)
  | .has k d => match liftSt s (fun st => Storage.has E.sto st (.data (.contract id) k d)) with
    | (s, .ok b) => (s, .ok (.bool b))
    | (s, .error e) => (s, .error e)
  | .put k v d => match validatePut E s k v d with
    | (s, .error e) => (s, .error e)
    | (s, .ok ()) => asUnit (liftSt s (fun st => Storage.write E.sto st (.data (.contract id) k d) (fun _ => .data v)))
  | .del k d => match k with
    | .tag _ => (s, .error (.host .storage .invalidAction))
    | .val n => asUnit (liftSt s (fun st => putOpt E.sto st (.data (.contract id) (.val n) d) none))
  | .extend k d t e => asUnit (liftSt s (fun st => extendTtl E.sto st (.data (.contract id) k d) t e))
  | .extendV2 k d e a b => asUnit (liftSt s (fun st => extendTtlV2 E.sto st (.data (.contract id) k d) e a b))
  | .extendContract c scope x => asUnit (extendContract E s (c.getD id) scope x)
  | .getClassic n => match liftSt s (fun st => getEntry E.sto st (.classic n)) with
    | (s, .ok e) => (s, .ok (.entry e))
    | (s, .error e) => (s, .error e)
  | .putClassic n v => asUnit (liftSt s (fun st => Storage.write E.sto st (.classic n) (fun _ => .classic v)))

/-- The contract data functions on instance storage (host.rs:2076-2190). -/
inductive InstOp where
  | get (k : Nat)
  | has (k : Nat)
  | put (k v : Nat)
  | del (k : Nat)

/-- Removes a key (host/metered_map.rs:254-288 `remove`). -/
def removeKey (m : FMap Nat Nat) (k : Nat) : FMap Nat Nat := m.filter (fun p => decide (p.1 ≠ k))

/-- What an instance storage function returns and the instance storage after it, with its `is_modified` flag
(host/data_helper.rs:38-53 `with_instance_storage`, `with_mut_instance_storage`). -/
def instStep (m : FMap Nat Nat × Bool) : InstOp → (FMap Nat Nat × Bool) × Res (Out LVal)
  | .get k => (m, match m.1.get k with
    | some v => .ok (.entry (.data v, none))
    | none => .error (.host .storage .missingValue))
  | .has k => (m, .ok (.bool (m.1.get k).isSome))
  | .put k v => ((m.1.insert k v, true), .ok .unit)
  | .del k => ((removeKey m.1 k, true), .ok .unit)

/-- One instance storage function (host.rs:2076-2190 with host/data_helper.rs:38-79). -/
def instOp (s : Host) (o : InstOp) : Host × Res (Out LVal) :=
  match s.ctx with
  | [] => (s, .error (.host .context .internalError))
  | c :: cs =>
    match c.load with
    | .error e => (s, .error e)
    | .ok m =>
      let r := instStep m o
      ({ s with ctx := { c with storage := some r.1 } :: cs }, r.2)

/-! ### programs -/

/-- The code of contracts: what a contract does with host functions. `check i` is the code of `__check_auth` of the account of
authorization entry `i`, if it has to be run; `body` is the code of the function that is called; `ctor` is the code of the
constructor. -/
inductive Prog where
  | ret (v : RVal)
  | fail (e : Err)
  | data (o : DataOp) (next : Out LVal → Prog)
  | inst (o : InstOp) (next : Out LVal → Prog)
  | event (payload : Nat) (next : Prog)
  | auth (a : Addr) (args : List Nat) (check : Nat → Prog) (next : Prog)
  | authAs (entries : List Inv) (next : Prog)
  | call (id : Nat) (fn : Name) (body : Prog) (next : RVal → Prog)
  | tryCall (id : Nat) (fn : Name) (body : Prog) (next : RVal → Prog)
  | create (deployer : Option Addr) (args : CreateArgs) (check : Nat → Prog) (ctor : Prog) (next : RVal → Prog)
  | update (ex : Exec) (next : Prog)
  | upload (h w : Nat) (next : Prog)

/-- Runs an operation that needs to know the current contract. -/
def withContract {α : Type} (s : Host) (f : Nat → Host × Res α) : Host × Res α :=
  match currentContract s with
  | .error e => (s, .error e)
  | .ok id => f id

/-- Notes that an error has reached the code of a frame. -/
def mark (s : Host) (e : Err) : Host := if recoverable e then s else { s with fatal := true }

/-- Goes on with the result of a host function, or ends the code of the frame if it is an error. -/
def andThen {α : Type} (r : Host × Res α) (k : α → Host → Host × Res RVal) : Host × Res RVal :=
  match r.2 with
  | .error e => (mark r.1 e, .error e)
  | .ok v => k v r.1

/-- Runs the code of a contract in the current frame. -/
def run (E : HEnv) : Prog → Host → Host × Res RVal
  | .ret v, s => (s, .ok v)
  | .fail e, s => (mark s e, .error e)
  | .data o next, s => andThen (withContract s (fun id => dataOp E s id o)) (fun v s => run E (next v) s)
  | .inst o next, s => andThen (instOp s o) (fun v s => run E (next v) s)
  | .event p next, s =>
    andThen (withContract s (fun id => (recordEvent s ⟨id, .contract p⟩, .ok ()))) (fun _ s => run E next s)
  | .auth a args check next, s =>
    andThen (requireAuth E s a args (fun i => run E (check i))) (fun _ s => run E next s)
  | .authAs es next, s =>
    andThen (withContract s (fun id => ({ s with auth := s.auth.addInvoker (.contract id) es }, .ok ())))
      (fun _ s => run E next s)
  | .call id fn body next, s => andThen (Host.call E s id fn (run E body)) (fun v s => run E (next v) s)
  | .tryCall id fn body next, s => andThen (Host.tryCall E s id fn (run E body)) (fun v s => run E (next v) s)
  | .create d args check ctor next, s =>
    andThen (createContract E s d args (fun i => run E (check i)) (run E ctor)) (fun v s => run E (next v) s)
  | .update ex next, s => andThen (updateExec E s ex) (fun _ s => run E next s)
  | .upload h w next, s => andThen (uploadWasm E s h w) (fun _ s => run E next s)

/-- XDR `HostFunction`: what a transaction asks for, with the code that it will run. -/
inductive HostFn where
  | invoke (id : Nat) (fn : Name) (body : Prog)
  | create (deployer : Option Addr) (args : CreateArgs) (check : Nat → Prog) (ctor : Prog)
  | upload (h w : Nat)

/-- host/frame.rs:1198-1256 `invoke_function_and_return_val`, the body of the host function frame. -/
def hostFnBody (E : HEnv) (hf : HostFn) (s : Host) : Host × Res RVal :=
  match hf with
  | .invoke id fn body => callN E s id fn .prohibited false (run E body)
  | .create d args check ctor => createContract E s d args (fun i => run E (check i)) (run E ctor)
  | .upload h w => match uploadWasm E s h w with
    | (s, .error e) => (s, .error e)
    | (s, .ok ()) => (s, .ok (.other h))

/-- host/frame.rs:1198-1256 `invoke_function_and_return_val` -/
def invoke (E : HEnv) (s : Host) (hf : HostFn) : Host × Res RVal :=
  withFrame E s { cid := none, fn := [], inst := [], storage := none } (hostFnBody E hf)

/-- A host at the start of a transaction (e2e_invoke.rs:470-578: storage from the ledger entries and authorization entries of
the transaction; auth.rs:945-965 `new_enforcing`): nothing on the stacks, no authorization used. -/
def Host.init (st : Store LKey LVal) (accts : List Acct) : Host :=
  { st := st, events := []
    auth := { accts := accts, invokers := [], stack := [], uses := [], ids := [], next := 0 }
    ctx := [], trace := [], fatal := false }

end Soroban.Host
