import Verif.Model.ContractTypes
import Verif.Model.Sac
/-!
Model of how the values of a call reach the functions of the Stellar Asset Contract, and of the values of what the contract returns
and of the events it publishes:

* the entry point that the macro `contractimpl` writes for soroban-env-host/src/builtin_contracts/stellar_asset_contract/contract.rs:79-412
  (soroban-builtin-sdk-macros/src/derive_fn.rs:6-66),
* stellar_asset_contract/event.rs,
* the conversions of arguments in soroban-env-host/src/builtin_contracts/base_types.rs and soroban-env-common/src/convert.rs.

`Sac` models what the functions do once their arguments are Rust values.

Simplifications: names are lists of ASCII codes. All arguments are read, down to the account of a muxed address, before the function
starts; the code reads what an address is when it is used. An address in an event is a new object, where the code uses the handle it was
given; an event is made when the function has returned. The contract is one that was initialized with an asset whose name and symbol are
`nm` and `sy` (`AssetMeta` models these). `depth` is what is left of the depth limit of the budget.
-/
namespace Soroban.SacValues
open Soroban Soroban.Sac Soroban.ContractTypes
open Soroban.Auth (Addr)
open Soroban.Storage (Store)
open Soroban.Strkey (visitAddress)

/-- contract.rs:79-412: the names of the functions, in order ("init_asset", "allowance", "approve", "balance", "authorized", "transfer",
"transfer_from", "burn", "burn_from", "clawback", "set_authorized", "mint", "set_admin", "admin", "decimals", "name", "symbol", "trust"). -/
def fnNames : List (List Nat) :=
  [[105, 110, 105, 116, 95, 97, 115, 115, 101, 116],
   [97, 108, 108, 111, 119, 97, 110, 99, 101],
   [97, 112, 112, 114, 111, 118, 101],
   [98, 97, 108, 97, 110, 99, 101],
   [97, 117, 116, 104, 111, 114, 105, 122, 101, 100],
   [116, 114, 97, 110, 115, 102, 101, 114],
   [116, 114, 97, 110, 115, 102, 101, 114, 95, 102, 114, 111, 109],
   [98, 117, 114, 110],
   [98, 117, 114, 110, 95, 102, 114, 111, 109],
   [99, 108, 97, 119, 98, 97, 99, 107],
   [115, 101, 116, 95, 97, 117, 116, 104, 111, 114, 105, 122, 101, 100],
   [109, 105, 110, 116],
   [115, 101, 116, 95, 97, 100, 109, 105, 110],
   [97, 100, 109, 105, 110],
   [100, 101, 99, 105, 109, 97, 108, 115],
   [110, 97, 109, 101],
   [115, 121, 109, 98, 111, 108],
   [116, 114, 117, 115, 116]]

/-- What a call asks for: a function of `Sac.Op`, with the identifier of the muxed address a transfer goes to, or one of those that
`Sac` does not model. -/
inductive Call where
  | op (o : Op) (mux : Option Nat)
  | initAsset
  | decimals
  | name
  | symbol

/-! ### Arguments -/

/-- The contents of an `Address` argument (base_types.rs:335-343), with auth.rs:2697-2715 for other kinds of addresses. -/
def asAddr (objs : List HostObj) (v : Nat) : Res Addr := do
  let h ← asObj .AddressObject v
  match ← visitAddress objs h with
  | .account k => .ok (.account k)
  | .contract k => .ok (.contract k)
  | _ => .error (.host .object .internalError)

/-- base_types.rs:434-447 `MuxedAddress::try_from_val`, 488-500 `address` and 502-511 `id`, with host.rs:3647-3667
`get_address_from_muxed_address` and 3670-3685 `get_id_from_muxed_address`. -/
def asMuxed (objs : List HostObj) (v : Nat) : Res (Addr × Option Nat) := do
  if Val.tag v = .MuxedAddressObject then
    match ← visitObj objs v with
    | .muxedAddress (.muxedAccount i k) => .ok (.account k, some i)
    | .muxedAddress _ => .error (.host .object .internalError)
    | _ => .error (.host .object .unexpectedType)
  else
    let a ← asAddr objs v
    .ok (a, none)

/-- soroban-env-common/src/convert.rs:214-228, `i128::try_from_val` -/
def asI128 (objs : List HostObj) (v : Nat) : Res Int := do
  if Val.tag v = .I128Small then .ok (Val.signedBody v)
  else
    let h ← asObj .I128Object v
    match ← visitObj objs h with
    | .i128 i => .ok (i128FromPieces (i128Hi i) (i128Lo i))
    | _ => .error (.host .object .unexpectedType)

/-- soroban-env-common/src/val.rs:511-520, the conversion of a value to `u32`. -/
def asU32Val (v : Nat) : Res Nat := if Val.tag v = .U32Val then .ok (Val.major v) else .error conversionErr

/-- soroban-env-common/src/val.rs:490-509, the conversion of a value to `bool`. -/
def asBool (v : Nat) : Res Bool :=
  if Val.tag v = .True then .ok true else if Val.tag v = .False then .ok false else .error conversionErr

/-- derive_fn.rs:28-36: the number of arguments of the function with this number, and its arguments, in order. -/
def arguments (objs : List HostObj) : Nat → List Nat → Res Call
  | 0, [b] => do let _ ← asObj .BytesObject b; .ok .initAsset
  | 1, [f, s] => do let f ← asAddr objs f; let s ← asAddr objs s; .ok (.op (.allowance f s) none)
  | 2, [f, s, a, l] => do
    let f ← asAddr objs f
    let s ← asAddr objs s
    let a ← asI128 objs a
    let l ← asU32Val l
    .ok (.op (.approve f s a l) none)
  | 3, [a] => do let a ← asAddr objs a; .ok (.op (.balance a) none)
  | 4, [a] => do let a ← asAddr objs a; .ok (.op (.authorized a) none)
  | 5, [f, t, a] => do
    let f ← asAddr objs f
    let (t, i) ← asMuxed objs t
    let a ← asI128 objs a
    .ok (.op (.transfer f t a) i)
  | 6, [s, f, t, a] => do
    let s ← asAddr objs s
    let f ← asAddr objs f
    let t ← asAddr objs t
    let a ← asI128 objs a
    .ok (.op (.transferFrom s f t a) none)
  | 7, [f, a] => do let f ← asAddr objs f; let a ← asI128 objs a; .ok (.op (.burn f a) none)
  | 8, [s, f, a] => do
    let s ← asAddr objs s
    let f ← asAddr objs f
    let a ← asI128 objs a
    .ok (.op (.burnFrom s f a) none)
  | 9, [f, a] => do let f ← asAddr objs f; let a ← asI128 objs a; .ok (.op (.clawback f a) none)
  | 10, [a, b] => do let a ← asAddr objs a; let b ← asBool b; .ok (.op (.setAuthorized a b) none)
  | 11, [t, a] => do let t ← asAddr objs t; let a ← asI128 objs a; .ok (.op (.mint t a) none)
  | 12, [a] => do let a ← asAddr objs a; .ok (.op (.setAdmin a) none)
  | 13, [] => .ok (.op .admin none)
  | 14, [] => .ok .decimals
  | 15, [] => .ok .name
  | 16, [] => .ok .symbol
  | 17, [a] => do let a ← asAddr objs a; .ok (.op (.trust a) none)
  | _, _ => .error (.host .context .unexpectedSize)

/-- derive_fn.rs:43-62: which function a call is for (with `symbol_index_in_strs`, host.rs:1084-1103). -/
def decode (objs : List HostObj) (fn : Nat) (args : List Nat) : Res Call := do
  let t ← symbolText objs fn
  match firstMatch t 0 fnNames with
  | none => .error (.host .value .invalidInput)
  | some i => arguments objs i args

/-! ### Values the contract makes -/

/-- What the contract makes values of. -/
inductive Leaf where
  | sym (t : List Nat)
  | addr (a : Addr)
  | str (b : List Nat)
  | i128 (i : Int)
  | u64 (n : Nat)
  | u32 (n : Nat)
  | bool (b : Bool)

/-- The address as XDR. -/
def scAddr : Addr → ScAddr
  | .account k => .account k
  | .contract k => .contract k

/-- The conversions to values: soroban-env-common/src/convert.rs:246-260 for `i128`, 143-154 for `u64`, symbol.rs for symbols, val.rs for
the others. -/
def newLeaf (objs : List HostObj) : Leaf → Res (List HostObj × Nat)
  | .sym t => symbolFromSlice objs t
  | .addr a => addObj objs (.address (scAddr a))
  | .str b => addObj objs (.string b)
  | .i128 i =>
    if isSmallIWide i then .ok (objs, Val.fromBodyAndTag (asU64 (asI64 (asU64 i))) .I128Small)
    else addObj objs (.i128 (i128FromPieces (i128Hi i) (i128Lo i)))
  | .u64 n => if isSmallU64 n then .ok (objs, Val.fromBodyAndTag n .U64Small) else addObj objs (.u64 n)
  | .u32 n => .ok (objs, valU32 n)
  | .bool b => .ok (objs, valBool b)

/-- The elements of `host_vec!`, in order (soroban-env-host/src/macros.rs:62-69). -/
def newLeaves (objs : List HostObj) : List Leaf → Res (List HostObj × List Nat)
  | [] => .ok (objs, [])
  | l :: ls => do
    let (objs, v) ← newLeaf objs l
    let (objs, vs) ← newLeaves objs ls
    .ok (objs, v :: vs)

/-- `host_vec!`: the elements, then `vec_new_from_slice`. -/
def hostVec (objs : List HostObj) (ls : List Leaf) : Res (List HostObj × Nat) := do
  let (objs, vs) ← newLeaves objs ls
  newVec objs vs

/-- host.rs:1665-1674 `map_put`, of a map object. -/
def putObj (d : Nat) (objs : List HostObj) (m k v : Nat) : Res (List HostObj × Nat) := do
  let es ← visitMap objs m
  let es ← mapPut (valCmp objs d) es k v
  addObj objs (.map es)

/-- event.rs:67-92 `get_amount_data_maybe_muxed`; the names are "amount" and "to_muxed_id". -/
def amountData (d : Nat) (objs : List HostObj) (amount : Int) : Option Nat → Res (List HostObj × Nat)
  | none => newLeaf objs (.i128 amount)
  | some i => do
    let (objs, m) ← addObj objs (.map mapNew)
    let (objs, k) ← newLeaf objs (.sym [97, 109, 111, 117, 110, 116])
    let (objs, v) ← newLeaf objs (.i128 amount)
    let (objs, m) ← putObj d objs m k v
    let (objs, k) ← newLeaf objs (.sym [116, 111, 95, 109, 117, 120, 101, 100, 95, 105, 100])
    let (objs, v) ← newLeaf objs (.u64 i)
    putObj d objs m k v

/-- event.rs:28-167: the topics and the data of an event of the asset named `nm`; `mux` is the identifier of the muxed address of a
transfer. The names are "approve" (28-45), "transfer" (94-114), "mint" (116-128), "burn" (163-167), "clawback" (130-139),
"set_authorized" (141-150) and "set_admin" (152-161). -/
def newEvent (d : Nat) (nm : List Nat) (mux : Option Nat) (objs : List HostObj) : TokEvent → Res (List HostObj × Nat × Nat)
  | .approve f s a l => do
    let (objs, t) ← hostVec objs [.sym [97, 112, 112, 114, 111, 118, 101], .addr f, .addr s, .str nm]
    let (objs, x) ← hostVec objs [.i128 a, .u32 l]
    .ok (objs, t, x)
  | .transfer f t a => do
    let (objs, t) ← hostVec objs [.sym [116, 114, 97, 110, 115, 102, 101, 114], .addr f, .addr t, .str nm]
    let (objs, x) ← amountData d objs a mux
    .ok (objs, t, x)
  | .mint t a => do
    let (objs, t) ← hostVec objs [.sym [109, 105, 110, 116], .addr t, .str nm]
    let (objs, x) ← amountData d objs a mux
    .ok (objs, t, x)
  | .burn f a => do
    let (objs, t) ← hostVec objs [.sym [98, 117, 114, 110], .addr f, .str nm]
    let (objs, x) ← newLeaf objs (.i128 a)
    .ok (objs, t, x)
  | .clawback f a => do
    let (objs, t) ← hostVec objs [.sym [99, 108, 97, 119, 98, 97, 99, 107], .addr f, .str nm]
    let (objs, x) ← newLeaf objs (.i128 a)
    .ok (objs, t, x)
  | .setAuthorized a b => do
    let (objs, t) ← hostVec objs [.sym [115, 101, 116, 95, 97, 117, 116, 104, 111, 114, 105, 122, 101, 100], .addr a, .str nm]
    let (objs, x) ← newLeaf objs (.bool b)
    .ok (objs, t, x)
  | .setAdmin a n => do
    let (objs, t) ← hostVec objs [.sym [115, 101, 116, 95, 97, 100, 109, 105, 110], .addr a, .str nm]
    let (objs, x) ← newLeaf objs (.addr n)
    .ok (objs, t, x)

/-- The events of a call, oldest first. -/
def newEvents (d : Nat) (nm : List Nat) (mux : Option Nat) (objs : List HostObj) :
    List TokEvent → Res (List HostObj × List (Nat × Nat))
  | [] => .ok (objs, [])
  | e :: es => do
    let (objs, t, x) ← newEvent d nm mux objs e
    let (objs, r) ← newEvents d nm mux objs es
    .ok (objs, (t, x) :: r)

/-- derive_fn.rs:32: the value of what a function returns. -/
def newRet (objs : List HostObj) : Sac.Ret → Res (List HostObj × Nat)
  | .unit => .ok (objs, valVoid)
  | .amount x => newLeaf objs (.i128 x)
  | .bool b => newLeaf objs (.bool b)
  | .addr a => newLeaf objs (.addr a)

/-- A call of the contract as the host makes it (derive_fn.rs:43-62): the objects, the value returned, the topics and data of the events
published, and the storage. contract.rs:82-90: the contract is initialized already. 376-380
`decimals`: 7 (metadata.rs:22 `DECIMAL`). -/
def call (E : SEnv) (d : Nat) (nm sy : List Nat) (objs : List HostObj) (fn : Nat) (args : List Nat) (st : Store SKey SVal) :
    Res (List HostObj × Nat × List (Nat × Nat) × Store SKey SVal) := do
  match ← decode objs fn args with
  | .op o mux => do
    let (r, t) ← exec E o { st := st }
    let (objs, es) ← newEvents d nm mux objs t.events.reverse
    let (objs, v) ← newRet objs r
    .ok (objs, v, es, t.st)
  | .initAsset => .error (.contract 3)
  | .decimals => do let (objs, v) ← newLeaf objs (.u32 7); .ok (objs, v, [], st)
  | .name => do let (objs, v) ← newLeaf objs (.str nm); .ok (objs, v, [], st)
  | .symbol => do let (objs, v) ← newLeaf objs (.str sy); .ok (objs, v, [], st)

end Soroban.SacValues
