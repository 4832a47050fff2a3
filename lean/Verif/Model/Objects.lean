import Verif.Model.Val
import Verif.Model.Containers
/-!
Model of the host object table, of relative and absolute handles (soroban-env-host/src/host_object.rs), of the map and vector
host functions on handles (host.rs), and of the dispatch of such a call from a contract's VM (vm/dispatch.rs).

Simplifications: budget charges and tracing are dropped. The functions modelled in `Fn` are those of the "map" and "vec"
modules that do not touch linear memory, and `obj_cmp`.
-/
namespace Soroban

/-- XDR `ScAddress`; keys, hashes and ids are natural numbers (big-endian readings of the byte strings). -/
inductive ScAddr where
  | account (key : Nat)
  | contract (id : Nat)
  | muxedAccount (id key : Nat)
  | claimableBalance (id : Nat)
  | liquidityPool (id : Nat)
  deriving DecidableEq, Repr

/-- host_object.rs:23-40 `HostObject`. Elements of vectors and maps are words (`Val`). -/
inductive HostObj where
  | vec (v : List Nat)
  | map (m : List (Nat × Nat))
  | u64 (n : Nat)
  | i64 (i : Int)
  | timepoint (n : Nat)
  | duration (n : Nat)
  | u128 (n : Nat)
  | i128 (i : Int)
  | u256 (n : Nat)
  | i256 (i : Int)
  | bytes (b : List Nat)
  | string (b : List Nat)
  | symbol (b : List Nat)
  | address (a : ScAddr)
  | muxedAddress (a : ScAddr)
  | executableTag (b : List Nat)
  deriving DecidableEq, Repr

/-- host.rs:815-832, the object tag each case of `HostObject` must be referred to with. -/
def HostObj.tag : HostObj → Tag
  | .vec _ => .VecObject | .map _ => .MapObject | .u64 _ => .U64Object | .i64 _ => .I64Object
  | .timepoint _ => .TimepointObject | .duration _ => .DurationObject | .u128 _ => .U128Object | .i128 _ => .I128Object
  | .u256 _ => .U256Object | .i256 _ => .I256Object | .bytes _ => .BytesObject | .string _ => .StringObject
  | .symbol _ => .SymbolObject | .address _ => .AddressObject | .muxedAddress _ => .MuxedAddressObject
  | .executableTag _ => .ExecutableTagObject

/-- host_object.rs:352-354 `is_relative_object_handle`. -/
def isRelative (handle : Nat) : Bool := handle &&& 1 == 0

/-- host_object.rs:356-358 `handle_to_index`. -/
def handleToIndex (handle : Nat) : Nat := handle >>> 1

/-- host_object.rs:360-371 `index_to_handle`. `u32::checked_shl(1)` always succeeds and drops the top bit. -/
def indexToHandle (index : Nat) (relative : Bool) : Res Nat :=
  if index ≤ u32Max then
    let shifted := (index <<< 1) % 2^32
    .ok (if relative then shifted else shifted ||| 1)
  else .error (.host .value .arithDomain)

/-- soroban-env-common/src/object.rs:27-29 `get_handle`. -/
def objHandle (v : Nat) : Nat := Val.major v

/-- host_object.rs:374-422 `relative_to_absolute`; `tbl` is the relative object table of the current frame, holding absolute
object words. -/
def relToAbs (tbl : List Nat) (v : Nat) : Res Nat :=
  if Val.isObject v then
    if isRelative (objHandle v) then
      match tbl[handleToIndex (objHandle v)]? with
      | some abs => if Val.tag abs = Val.tag v then .ok abs else .error (.host .value .invalidInput)
      | none => .error (.host .value .invalidInput)
    else .error (.host .value .invalidInput)
  else .ok v

/-- host_object.rs:424-453 `absolute_to_relative`: the new table and the relative word. -/
def absToRel (tbl : List Nat) (v : Nat) : Res (List Nat × Nat) :=
  if Val.isObject v then
    if isRelative (objHandle v) then .error (.host .context .internalError)
    else match indexToHandle tbl.length true with
      | .ok h => .ok (tbl ++ [v], valObject h (Val.tag v))
      | .error e => .error e
  else .ok (tbl, v)

/-- vm.rs:393-412 `invoke_function_raw`, frame.rs:967 (a new frame starts with an empty relative table): the table of the
new frame and the words its code receives as arguments. -/
def enterFrame : List Nat → List Nat → Res (List Nat × List Nat)
  | tbl, [] => .ok (tbl, [])
  | tbl, a :: as => do
    let (tbl₁, r) ← absToRel tbl a
    let (tbl₂, rs) ← enterFrame tbl₁ as
    .ok (tbl₂, r :: rs)

/-- host_object.rs:458-470 `add_host_object`. -/
def addObj (objs : List HostObj) (o : HostObj) : Res (List HostObj × Nat) :=
  match indexToHandle objs.length false with
  | .ok h => .ok (objs ++ [o], valObject h o.tag)
  | .error e => .error e

/-- host_object.rs:472-517 `visit_obj_untyped`: the object the handle refers to. The Rust parameter has type `Object`, so
the first branch cannot be taken there; it makes the function total on words. -/
def visitObj (objs : List HostObj) (v : Nat) : Res HostObj :=
  if !Val.isObject v then .error (.host .object .internalError)
  else if isRelative (objHandle v) then .error (.host .object .internalError)
  else match objs[handleToIndex (objHandle v)]? with
    | some o => .ok o
    | none => .error (.host .value .invalidInput)

/-- host_object.rs:521-540 `visit_obj` at type `HostVec`. -/
def visitVec (objs : List HostObj) (v : Nat) : Res (List Nat) :=
  match visitObj objs v with
  | .error e => .error e
  | .ok (.vec l) => .ok l
  | .ok _ => .error (.host .object .internalError)

/-- host_object.rs:521-540 `visit_obj` at type `HostMap`. -/
def visitMap (objs : List HostObj) (v : Nat) : Res (List (Nat × Nat)) :=
  match visitObj objs v with
  | .error e => .error e
  | .ok (.map m) => .ok m
  | .ok _ => .error (.host .object .internalError)

/-- soroban-env-common/src/env.rs:44-56 `check_val_integrity` with host.rs:813-839 `check_obj_integrity`. -/
def checkIntegrity (objs : List HostObj) (v : Nat) : Res Unit :=
  if !Val.isGood v then .error (.host .value .invalidInput)
  else if Val.isObject v then
    match visitObj objs v with
    | .error e => .error e
    | .ok o => if o.tag = Val.tag v then .ok () else .error (.host .value .invalidInput)
  else .ok ()

/-- Host functions of the "map" and "vec" modules and `obj_cmp` (soroban-env-common/env.json; host.rs:1192-1250 and
1661-2008). -/
inductive Fn where
  | objCmp
  | mapNew | mapPut | mapGet | mapDel | mapLen | mapHas | mapKeyByPos | mapValByPos | mapKeys | mapValues
  | vecNew | vecPut | vecGet | vecDel | vecLen | vecPushFront | vecPopFront | vecPushBack | vecPopBack | vecFront | vecBack
  | vecInsert | vecAppend | vecSlice | vecFirstIndexOf | vecLastIndexOf | vecBinarySearch
  deriving DecidableEq, Repr

/-- The argument types of host functions. -/
inductive ArgTy where
  | val | u32 | obj (t : Tag) | symbol
  deriving DecidableEq, Repr

/-- env.json, the signatures of the modelled host functions. -/
def Fn.args : Fn → List ArgTy
  | .objCmp => [.val, .val]
  | .mapNew => []
  | .mapPut => [.obj .MapObject, .val, .val]
  | .mapGet | .mapDel | .mapHas => [.obj .MapObject, .val]
  | .mapLen | .mapKeys | .mapValues => [.obj .MapObject]
  | .mapKeyByPos | .mapValByPos => [.obj .MapObject, .u32]
  | .vecNew => []
  | .vecPut | .vecInsert => [.obj .VecObject, .u32, .val]
  | .vecGet | .vecDel => [.obj .VecObject, .u32]
  | .vecLen | .vecPopFront | .vecPopBack | .vecFront | .vecBack => [.obj .VecObject]
  | .vecPushFront | .vecPushBack | .vecFirstIndexOf | .vecLastIndexOf | .vecBinarySearch => [.obj .VecObject, .val]
  | .vecAppend => [.obj .VecObject, .obj .VecObject]
  | .vecSlice => [.obj .VecObject, .u32, .u32]

/-- What a host function returns: a value word, or (for `u64` and `i64` results) a plain number. -/
inductive Ret where
  | val (v : Nat)
  | raw (n : Int)
  deriving DecidableEq, Repr

/-- soroban-env-common/src/num.rs:17-19 `from_u32`. -/
def valU32 (n : Nat) : Nat := Val.fromMajorMinorAndTag n 0 .U32Val

/-- Store a container as a new object and return its handle (`self.add_host_object(..)` at the end of the functions). -/
def retObj (objs : List HostObj) (o : Res HostObj) : Res (List HostObj × Ret) := do
  let o ← o
  let (objs', v) ← addObj objs o
  .ok (objs', .val v)

/-- Return a word without creating an object. -/
def retVal (objs : List HostObj) (v : Res Nat) : Res (List HostObj × Ret) := do let v ← v; .ok (objs, .val v)

/-- soroban-env-common/src/compare.rs:127-208 uses the sign of `obj_cmp`; host.rs:1192-1250 returns the ordering as -1, 0, 1. -/
def ordToInt : Ordering → Int
  | .lt => -1 | .eq => 0 | .gt => 1

/-- host.rs:1192-1250 and 1661-2008: the bodies of the host functions, on arguments that are already absolute. `cmp` is the
value comparison in the context of the current objects. -/
def runFn (cmp : List HostObj → Nat → Nat → Res Ordering) (objs : List HostObj) : Fn → List Nat → Res (List HostObj × Ret)
  | .objCmp, [a, b] =>
    if !Val.isObject a && !Val.isObject b then .error (.host .value .unexpectedType)
    else do let o ← cmp objs a b; .ok (objs, .raw (ordToInt o))
  | .mapNew, [] => retObj objs (.ok (.map mapNew))
  | .mapPut, [m, k, v] => retObj objs (do let hm ← visitMap objs m; let r ← mapPut (cmp objs) hm k v; .ok (.map r))
  | .mapGet, [m, k] => retVal objs (do let hm ← visitMap objs m; mapGet (cmp objs) hm k)
  | .mapDel, [m, k] => retObj objs (do let hm ← visitMap objs m; let r ← mapDel (cmp objs) hm k; .ok (.map r))
  | .mapLen, [m] => retVal objs (do let hm ← visitMap objs m; let n ← mapLen hm; .ok (valU32 n))
  | .mapHas, [m, k] => retVal objs (do let hm ← visitMap objs m; let b ← mapHas (cmp objs) hm k; .ok (valBool b))
  | .mapKeyByPos, [m, i] => retVal objs (do let hm ← visitMap objs m; mapKeyByPos hm (Val.major i))
  | .mapValByPos, [m, i] => retVal objs (do let hm ← visitMap objs m; mapValByPos hm (Val.major i))
  | .mapKeys, [m] => retObj objs (do let hm ← visitMap objs m; let r ← mapKeys hm; .ok (.vec r))
  | .mapValues, [m] => retObj objs (do let hm ← visitMap objs m; let r ← mapValues hm; .ok (.vec r))
  | .vecNew, [] => retObj objs (.ok (.vec []))
  | .vecPut, [v, i, x] => retObj objs (do let hv ← visitVec objs v; let r ← vecPut hv (Val.major i) x; .ok (.vec r))
  | .vecGet, [v, i] => retVal objs (do let hv ← visitVec objs v; vecGet hv (Val.major i))
  | .vecDel, [v, i] => retObj objs (do let hv ← visitVec objs v; let r ← vecDel hv (Val.major i); .ok (.vec r))
  | .vecLen, [v] => retVal objs (do let hv ← visitVec objs v; let n ← vecLen hv; .ok (valU32 n))
  | .vecPushFront, [v, x] => retObj objs (do let hv ← visitVec objs v; let r ← vPushFront hv x; .ok (.vec r))
  | .vecPopFront, [v] => retObj objs (do let hv ← visitVec objs v; let r ← vPopFront hv; .ok (.vec r))
  | .vecPushBack, [v, x] => retObj objs (do let hv ← visitVec objs v; let r ← vPushBack hv x; .ok (.vec r))
  | .vecPopBack, [v] => retObj objs (do let hv ← visitVec objs v; let r ← vPopBack hv; .ok (.vec r))
  | .vecFront, [v] => retVal objs (do let hv ← visitVec objs v; vFront hv)
  | .vecBack, [v] => retVal objs (do let hv ← visitVec objs v; vBack hv)
  | .vecInsert, [v, i, x] => retObj objs (do let hv ← visitVec objs v; let r ← vecInsert hv (Val.major i) x; .ok (.vec r))
  | .vecAppend, [a, b] =>
    retObj objs (do let ha ← visitVec objs a; let hb ← visitVec objs b; let r ← vecAppend ha hb; .ok (.vec r))
  | .vecSlice, [v, s, e] =>
    retObj objs (do let hv ← visitVec objs v; let r ← vecSlice hv (Val.major s) (Val.major e); .ok (.vec r))
  | .vecFirstIndexOf, [v, x] => retVal objs (do
      let hv ← visitVec objs v
      let r ← vecFirstIndexOf (cmp objs) hv x
      .ok (match r with | some i => valU32 i | none => valVoid))
  | .vecLastIndexOf, [v, x] => retVal objs (do
      let hv ← visitVec objs v
      let r ← vecLastIndexOf (cmp objs) hv x
      .ok (match r with | some i => valU32 i | none => valVoid))
  | .vecBinarySearch, [v, x] => do
      let hv ← visitVec objs v
      let r ← vecBinarySearch (cmp objs) hv x
      .ok (objs, .raw r)
  | _, _ => .error (.host .context .internalError)

/-- Whether a word can be marshalled at an argument type: val.rs:429-446 for `Val`, and the tag check of the typed wrappers
(wrapper_macros.rs) for the others. -/
def ArgTy.accepts (t : ArgTy) (w : Nat) : Bool :=
  Val.isGood w && (match t with
    | .val => true
    | .u32 => Val.tag w == .U32Val
    | .obj tg => Val.tag w == tg
    | .symbol => Val.tag w == .SymbolSmall || Val.tag w == .SymbolObject)

/-- vm/dispatch.rs:26-34 `try_marshal_from_relative_value` followed by `check_env_arg` (dispatch.rs:254). -/
def marshalArg (objs : List HostObj) (tbl : List Nat) (t : ArgTy) (w : Nat) : Res Nat :=
  if t.accepts w then do
    let a ← relToAbs tbl w
    checkIntegrity objs a
    .ok a
  else .error (.host .value .invalidInput)

/-- The arguments of a call, in order. -/
def marshalArgs (objs : List HostObj) (tbl : List Nat) : List ArgTy → List Nat → Res (List Nat)
  | [], [] => .ok []
  | t :: ts, w :: ws => do
    let a ← marshalArg objs tbl t w
    let as ← marshalArgs objs tbl ts ws
    .ok (a :: as)
  | _, _ => .error (.host .context .internalError)

/-- vm/dispatch.rs:206-300, one host call made by the VM of a frame whose relative table is `tbl`, with raw words as
arguments: new objects, new table and the word handed back. -/
def dispatch (cmp : List HostObj → Nat → Nat → Res Ordering) (objs : List HostObj) (tbl : List Nat) (f : Fn)
    (ws : List Nat) : Res (List HostObj × List Nat × Int) := do
  let as ← marshalArgs objs tbl f.args ws
  let (objs', r) ← runFn cmp objs f as
  match r with
  | .raw n => .ok (objs', tbl, n)
  | .val v => do
    checkIntegrity objs' v
    let (tbl', w) ← absToRel tbl v
    .ok (objs', tbl', (w : Int))

end Soroban
