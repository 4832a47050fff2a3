import Verif.Model.Memory
import Verif.Model.Errors
import Verif.Model.Host
import Verif.Spec.ScVal
/-!
Host calls of contracts on a host that also makes objects of its own in debug mode: host.rs:695-734, vm/dispatch.rs, `try_call`
of host.rs and vm.rs:387-412.

Debug mode makes objects when it describes errors (storage.rs:890, host/error.rs:397 and :469 allow new objects). They are put
into the same table as the objects of contracts and stay there. Which objects these are, and when they are made, is arbitrary
here. The functions are those of the "map", "vec" and "buf" modules, with those on linear memory, and `obj_cmp` (Model/Objects and
Model/Memory), functions that get and give ledger values and act on a state outside the objects, such as those on the data of
contracts, those on instance storage, contract events, the log, and calls of other contracts. `Spec.nodes` is used for `peak` only.
-/
namespace Soroban.Diagnostics

variable {σ : Type}

/-- The functions on instance storage. -/
inductive InstOp where
  | put | get | has | del

/-- Where the instance storage of a contract is in the state: how it is read and how it is written. -/
structure Home (σ : Type) where
  load : σ → List (ScVal × ScVal)
  save : σ → List (ScVal × ScVal) → Res σ

/-- The instance of a frame: what was in the ledger when the frame started, and the map of host values (storage.rs:37-40
`InstanceStorageMap`) with whether it was modified, once it is in use. -/
structure Inst (σ : Type) where
  base : List (ScVal × ScVal)
  save : σ → List (ScVal × ScVal) → Res σ
  cur : Option (List (Nat × Nat) × Bool)

/-- The code of a contract as the host sees it: it returns a word, fails, calls a host function or calls another contract with
the arguments in a vector. `mem` is the linear memory of its machine at the call of a host function. How it goes on may depend on
all the words and the memory it got. `callee` is the code of the called contract. `ledger` calls any function `act` that takes its
arguments as ledger values, acts on the state and returns a ledger value. `event` emits an event of the contract `cid`.
`inst` works on instance storage, and `log` writes into the log of diagnostics. -/
inductive Code (σ : Type) where
  | ret (w : Nat)
  | trap (e : Err)
  | call (f : HFn) (ws : List Nat) (mem : List Nat) (k : Int → List Nat → Code σ)
  | ledger (ws : List Nat) (act : σ → List (Res ScVal × Res ScVal) → Res (σ × ScVal)) (k : Int → Code σ)
  | event (cid : List Nat) (ws : List Nat) (k : Int → Code σ)
  | inst (op : InstOp) (ws : List Nat) (k : Int → Code σ)
  | log (ws : List Nat) (k : Int → Code σ)
  | tryCall (args : Nat) (home : Home σ) (callee : List Nat → Code σ) (k : Int → Code σ)

/-- What a contract sees: the words of its arguments, the word and the memory after each call of a host function, and the word
each call of a contract, of a function on the state, on instance storage, of `contract_event` or of `log_from_linear_memory`
returned to it. -/
inductive Seen where
  | args (ws : List Nat)
  | after (n : Int) (mem : List Nat)
  | word (n : Int)
  deriving DecidableEq, Repr

/-- events/internal.rs:15-20 `InternalContractEvent`: absolute values of the host. -/
structure Ev where
  cid : Nat
  topics : Nat
  data : Nat

/-- The end of an execution: the objects, the diagnostics that are still to come, what the contracts have seen, the result, which
is an absolute value, the state, and the events with whether they are from a failed call. `peak` is no part of the code: there were
never more objects than that. A call of a host function makes at most one object, and one for the key at each eight bytes of
memory, or one for each value inside a ledger value. -/
structure Out (σ : Type) where
  objs : List HostObj
  junk : List (List HostObj)
  peak : Nat
  log : List Seen
  res : Res Nat
  state : σ
  events : List (Ev × Bool)

/-- host.rs:695-725 `with_debug_mode_allowing_new_objects`, as far as it changes the objects: those the next diagnostics make
are added. -/
def diagnose (objs : List HostObj) : List (List HostObj) → List HostObj × List (List HostObj)
  | [] => (objs, [])
  | j :: js => (objs ++ j, js)

/-- host.rs:2549-2575, the error of a failed call as a value of the caller. -/
def caught (e : Err) : Res Nat :=
  if Host.recoverable e then
    match e with
    | .contract u => .ok (Errors.fromContractError u)
    | .host _ _ => .ok (Errors.fromTypeAndCode .context .invalidAction)
  else .error e

/-- host/conversion.rs:192-194 `call_args_from_obj` and vm.rs:393-406: the table of a new frame and the words of its arguments.
Simplified: the table of the new frame is made before the call can be caught (it fails only with 2^31 arguments). -/
def enterCall (objs : List HostObj) (tbl : List Nat) (a : Nat) : Res (List Nat × List Nat) := do
  let v ← marshalArg objs tbl (.obj .VecObject) a
  let vs ← visitVec objs v
  enterFrame [] vs

/-- vm/dispatch.rs:272-276: the result of a call, or its error, as a word for the caller. -/
def leaveCall (objs : List HostObj) (tbl : List Nat) (r : Res Nat) : Res (List Nat × Nat) := do
  let v ← match r with
    | .ok v => .ok v
    | .error e => caught e
  checkIntegrity objs v
  absToRel tbl v

/-- vm/dispatch.rs:206-242, then host.rs:2076-2180 and host/data_helper.rs:686-747: the arguments of a function on the state. Each
is given as `from_host_val_for_storage` and as `from_host_val` convert it; the function may use either result, in any order, or
none. -/
def ledgerArgs (d : Nat) (objs : List HostObj) (tbl ws : List Nat) : Res (List (Res ScVal × Res ScVal)) := do
  let vs ← marshalArgs objs tbl (ws.map fun _ => .val) ws
  .ok (vs.map fun v => (fromVal true objs d v, fromVal false objs d v))

/-- host.rs:2129 `to_valid_host_val` and vm/dispatch.rs:272-276: a ledger value as a word for the contract. -/
def giveBack (d : Nat) (objs : List HostObj) (tbl : List Nat) (s : ScVal) : Res (List HostObj × List Nat × Nat) := do
  let p ← toVal d objs s
  checkIntegrity p.1 p.2
  let q ← absToRel tbl p.2
  .ok (p.1, q.1, q.2)

/-- host/frame.rs:253-289 `pop_context`: the state after a call, which is the state before it if it failed. -/
def keep (st : σ) (r : Out σ) : σ := match r.res with | .ok _ => r.state | .error _ => st

/-- The instance of a new frame. -/
def Home.open (h : Home σ) (st : σ) : Inst σ := ⟨h.load st, h.save, none⟩

/-- host.rs:2076-2180: the types of the arguments, without the type of storage. -/
def InstOp.args : InstOp → List ArgTy
  | .put => [.val, .val]
  | _ => [.val]

/-- host/data_helper.rs:58-79 `with_mut_instance_storage`: these make the storage modified. -/
def InstOp.writes : InstOp → Bool
  | .put | .del => true
  | .get | .has => false

/-- host/data_helper.rs:637-684, `validate_put_contract_data` and `validate_del_contract_data`, for instance storage. -/
def instCheck (op : InstOp) (vs : List Nat) : Res Unit :=
  if Val.tag (vs.headD 0) == .ExecutableTagObject then
    match op with
    | .put => .error (.host .storage .invalidInput)
    | .del => .error (.host .storage .invalidAction)
    | .get | .has => .ok ()
  else .ok ()

/-- host/frame.rs:1269-1285 `maybe_init_instance_storage` and storage.rs:50-70 `from_instance_xdr` -/
def instMap (d : Nat) (objs : List HostObj) (i : Inst σ) : Res (List HostObj × List (Nat × Nat)) :=
  match i.cur with
  | some p => .ok (objs, p.1)
  | none => do
    let p ← toEntries (toVal d) objs i.base
    let m ← fromMap (valCmp p.1 d) p.2
    .ok (p.1, m)

/-- host.rs:2087-2090, 2109-2111, 2138-2150 and 2165-2172: the cases for instance storage. (Here the key is looked up twice.) -/
def instStep (cmp : Nat → Nat → Res Ordering) (m : List (Nat × Nat)) : InstOp → List Nat → Res (List (Nat × Nat) × Nat)
  | .put, [k, v] => do
    let r ← mapPut cmp m k v
    .ok (r, valVoid)
  | .get, [k] => do
    let b ← mapHas cmp m k
    if b then
      let v ← mapGet cmp m k
      .ok (m, v)
    else .error (.host .storage .missingValue)
  | .has, [k] => do
    let b ← mapHas cmp m k
    .ok (m, valBool b)
  | .del, [k] => do
    let b ← mapHas cmp m k
    if b then
      let r ← mapDel cmp m k
      .ok (r, valVoid)
    else .ok (m, valVoid)
  | _, _ => .error (.host .context .internalError)

/-- Whether instance storage was modified. -/
def Inst.modified (i : Inst σ) : Bool := match i.cur with | some p => p.2 | none => false

/-- vm/dispatch.rs:206-300 for a function on instance storage: the objects, the table of the frame, the instance and the word the
contract gets. -/
def callInst (d : Nat) (objs : List HostObj) (tbl : List Nat) (i : Inst σ) (op : InstOp) (ws : List Nat) :
    Res (List HostObj × List Nat × Inst σ × Nat) := do
  let vs ← marshalArgs objs tbl op.args ws
  instCheck op vs
  let p ← instMap d objs i
  let q ← instStep (valCmp p.1 d) p.2 op vs
  checkIntegrity p.1 q.2
  let r ← absToRel tbl q.2
  .ok (p.1, r.1, { i with cur := some (q.1, op.writes || i.modified) }, r.2)

/-- host/conversion.rs:275-286 `instance_storage_map_to_scmap` -/
def toScMap (d : Nat) (objs : List HostObj) : List (Nat × Nat) → Res (List (ScVal × ScVal))
  | [] => .ok []
  | e :: es => do
    let k ← fromVal true objs d e.1
    let v ← fromVal false objs d e.2
    let es ← toScMap d objs es
    .ok ((k, v) :: es)

/-- host/frame.rs:1331-1351 `persist_instance_storage` -/
def persist (d : Nat) (objs : List HostObj) (i : Inst σ) (st : σ) : Res σ :=
  match i.cur with
  | some (m, true) => do
    let es ← toScMap d objs m
    i.save st es
  | _ => .ok st

/-- vm.rs:387-389 and host/frame.rs:562-583: the result of a frame and the state with its instance storage. -/
def leave (d : Nat) (objs : List HostObj) (tbl : List Nat) (i : Inst σ) (st : σ) (w : Nat) : Res (Nat × σ) := do
  let v ← VmCall.takeResult tbl .i64 w
  let s ← persist d objs i st
  .ok (v, s)

/-- events/internal.rs:197-205 `rollback` -/
def rollEvents (evs : List (Ev × Bool)) (n : Nat) : List (Ev × Bool) :=
  evs.take n ++ (evs.drop n).map fun e => (e.1, true)

/-- host/frame.rs:253-289 `pop_context`: the events after a call that started with `n` events. -/
def keepEvents (n : Nat) (r : Out σ) : List (Ev × Bool) :=
  match r.res with
  | .ok _ => r.events
  | .error _ => rollEvents r.events n

/-- vm/dispatch.rs:206-242, host.rs:1252-1260 `contract_event` and events/mod.rs:259-272 `record_contract_event`: the event, with an
object for the id of the contract. -/
def makeEvent (objs : List HostObj) (tbl : List Nat) (cid ws : List Nat) : Res (List HostObj × Ev) := do
  let t ← marshalArgs objs tbl [.obj .VecObject, .val] ws
  let p ← addObj objs (.bytes cid)
  .ok (p.1, ⟨p.2, t.headD 0, t.getLastD 0⟩)

/-- events/internal.rs:24-39 `InternalContractEvent::to_xdr`: the id of the contract, the topics and the data. -/
def eventXdr (d : Nat) (objs : List HostObj) (e : Ev) : Res (List Nat × List ScVal × ScVal) := do
  let ts ← visitVec objs e.topics
  let ts ← fromVals (fromVal false objs d) ts
  let v ← fromVal false objs d e.data
  let c ← visitBytes objs e.cid
  .ok (c, ts, v)

/-- events/internal.rs:211-249 `externalize`, for events of contracts. -/
def eventsXdr (d : Nat) (objs : List HostObj) : List (Ev × Bool) → Res (List ((List Nat × List ScVal × ScVal) × Bool))
  | [] => .ok []
  | e :: es => do
    let x ← eventXdr d objs e.1
    let xs ← eventsXdr d objs es
    .ok ((x, e.2) :: xs)

/-- Runs the code of a contract whose relative table is `tbl`. vm/dispatch.rs:206-300 for calls of host functions (an error ends
the execution); host.rs:1152-1189 `log_from_linear_memory`, all of whose work is done for diagnostics; host.rs:2515-2579
`try_call`; vm.rs:387-389 for the result. `d` is the number of levels left to comparisons.
An error value that a contract returns is taken as any other value here (frame.rs makes it a failure). -/
def run (d : Nat) : Code σ → Inst σ → σ → List (Ev × Bool) → List HostObj → List (List HostObj) → List Nat → Out σ
  | .ret w, i, st, evs, objs, junk, tbl =>
    match leave d objs tbl i st w with
    | .error e => ⟨objs, junk, objs.length, [], .error e, st, evs⟩
    | .ok x => ⟨objs, junk, objs.length, [], .ok x.1, x.2, evs⟩
  | .trap e, _, st, evs, objs, junk, _ => ⟨objs, junk, objs.length, [], .error e, st, evs⟩
  | .call f ws mem k, i, st, evs, objs, junk, tbl =>
    let h := diagnose objs junk
    let room := h.1.length + mem.length / 8 + 1
    match dispatchH (fun o => valCmp o d) ⟨mem, h.1, tbl⟩ f ws with
    | .error e => ⟨h.1, h.2, room, [], .error e, st, evs⟩
    | .ok (l, n) =>
      let r := run d (k n l.mem) i st evs l.objs h.2 l.tbl
      { r with log := .after n l.mem :: r.log, peak := max room r.peak }
  | .ledger ws act k, i, st, evs, objs, junk, tbl =>
    let h := diagnose objs junk
    match ledgerArgs d h.1 tbl ws >>= act st with
    | .error e => ⟨h.1, h.2, h.1.length, [], .error e, st, evs⟩
    | .ok x =>
      let room := h.1.length + Spec.nodes x.2
      match giveBack d h.1 tbl x.2 with
      | .error e => ⟨h.1, h.2, room, [], .error e, st, evs⟩
      | .ok y =>
        let r := run d (k y.2.2) i x.1 evs y.1 h.2 y.2.1
        { r with log := .word y.2.2 :: r.log, peak := max room r.peak }
  | .log ws k, i, st, evs, objs, junk, tbl =>
    let h := diagnose objs junk
    let g := diagnose h.1 h.2
    match marshalArgs h.1 tbl [.u32, .u32, .u32, .u32] ws with
    | .error e => ⟨g.1, g.2, g.1.length, [], .error e, st, evs⟩
    | .ok _ =>
      let r := run d (k valVoid) i st evs g.1 g.2 tbl
      { r with log := .word valVoid :: r.log, peak := max g.1.length r.peak }
  | .event cid ws k, i, st, evs, objs, junk, tbl =>
    let h := diagnose objs junk
    match makeEvent h.1 tbl cid ws with
    | .error e => ⟨h.1, h.2, h.1.length + 1, [], .error e, st, evs⟩
    | .ok x =>
      let r := run d (k valVoid) i st (evs ++ [(x.2, false)]) x.1 h.2 tbl
      { r with log := .word valVoid :: r.log, peak := max (h.1.length + 1) r.peak }
  | .inst op ws k, i, st, evs, objs, junk, tbl =>
    let h := diagnose objs junk
    let room := h.1.length + Spec.nodesEntries i.base
    match callInst d h.1 tbl i op ws with
    | .error e => ⟨h.1, h.2, room, [], .error e, st, evs⟩
    | .ok x =>
      let r := run d (k x.2.2.2) x.2.2.1 st evs x.1 h.2 x.2.1
      { r with log := .word x.2.2.2 :: r.log, peak := max room r.peak }
  | .tryCall a home callee k, i, st, evs, objs, junk, tbl =>
    let h := diagnose objs junk
    match enterCall h.1 tbl a with
    | .error e => ⟨h.1, h.2, h.1.length, [], .error e, st, evs⟩
    | .ok (tbl', rs) =>
      let r := run d (callee rs) (home.open st) st evs h.1 h.2 tbl'
      let g := diagnose r.objs r.junk
      match leaveCall g.1 tbl r.res with
      | .error e => ⟨g.1, g.2, max h.1.length (max r.peak g.1.length), .args rs :: r.log, .error e, st, keepEvents evs.length r⟩
      | .ok (tbl, w) =>
        let q := run d (k w) i (keep st r) (keepEvents evs.length r) g.1 g.2 tbl
        { q with log := .args rs :: r.log ++ .word w :: q.log, peak := max h.1.length (max r.peak (max g.1.length q.peak)) }

/-- vm.rs:393-412 `invoke_function_raw`: runs a contract with absolute arguments. -/
def invoke (d : Nat) (home : Home σ) (code : List Nat → Code σ) (st : σ) (objs : List HostObj) (args : List Nat)
    (junk : List (List HostObj)) : Out σ :=
  match enterFrame [] args with
  | .error e => ⟨objs, junk, objs.length, [], .error e, st, []⟩
  | .ok (tbl, rs) =>
    let r := run d (code rs) (home.open st) st [] objs junk tbl
    { r with log := .args rs :: r.log, state := keep st r, events := keepEvents 0 r }

end Soroban.Diagnostics
