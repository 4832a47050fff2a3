import Verif.Model.Preimage
import Verif.Model.Memory
/-!
Model of the values by which the host and contracts tell each other about authorized invocations:

* what the host shows to the `__check_auth` function of an account contract
  (soroban-env-host/src/builtin_contracts/account_contract.rs:28-148),
* what a contract gives to `authorize_as_curr_contract`
  (soroban-env-host/src/builtin_contracts/invoker_contract_auth.rs:1-141, auth.rs:1142-1161 and 2909-2926).

Both go through types whose conversions are written by a macro (soroban-builtin-sdk-macros/src/derive_type.rs): a struct is a map from
the names of its fields, in ascending order, to their values; an enum is a vector of the name of the case and the value it carries.

Simplifications: names are lists of ASCII codes. Budget charges and diagnostic events are dropped; `depth` is what is left of the depth
limit of the budget. The handle types (`VecObject`, `BytesN`, …) are handles that passed the same check.
-/
namespace Soroban.ContractTypes
open Soroban Soroban.Preimage
open Soroban.Strkey (visitAddress)

/-! ### Names -/

/-- "args" -/
def nArgs : List Nat := [97, 114, 103, 115]
/-- "constructor_args" -/
def nCtorArgs : List Nat := [99, 111, 110, 115, 116, 114, 117, 99, 116, 111, 114, 95, 97, 114, 103, 115]
/-- "context" -/
def nContext : List Nat := [99, 111, 110, 116, 101, 120, 116]
/-- "contract" -/
def nContract : List Nat := [99, 111, 110, 116, 114, 97, 99, 116]
/-- "executable" -/
def nExecutable : List Nat := [101, 120, 101, 99, 117, 116, 97, 98, 108, 101]
/-- "fn_name" -/
def nFnName : List Nat := [102, 110, 95, 110, 97, 109, 101]
/-- "owner" -/
def nOwner : List Nat := [111, 119, 110, 101, 114]
/-- "salt" -/
def nSalt : List Nat := [115, 97, 108, 116]
/-- "sub_invocations" -/
def nSubs : List Nat := [115, 117, 98, 95, 105, 110, 118, 111, 99, 97, 116, 105, 111, 110, 115]
/-- "tag" -/
def nTag : List Nat := [116, 97, 103]
/-- "Wasm" -/
def cWasm : List Nat := [87, 97, 115, 109]
/-- "StellarAsset" -/
def cAsset : List Nat := [83, 116, 101, 108, 108, 97, 114, 65, 115, 115, 101, 116]
/-- "ExternalRef" -/
def cRef : List Nat := [69, 120, 116, 101, 114, 110, 97, 108, 82, 101, 102]
/-- "Contract" -/
def cContract : List Nat := [67, 111, 110, 116, 114, 97, 99, 116]
/-- "CreateContractHostFn" -/
def cCreate : List Nat := [67, 114, 101, 97, 116, 101, 67, 111, 110, 116, 114, 97, 99, 116, 72, 111, 115, 116, 70, 110]
/-- "CreateContractWithCtorHostFn" -/
def cCreateWith : List Nat :=
  [67, 114, 101, 97, 116, 101, 67, 111, 110, 116, 114, 97, 99, 116, 87, 105, 116, 104, 67, 116, 111, 114, 72, 111, 115, 116, 70, 110]

/-! ### Reading -/

/-- The conversion of a value to a handle of a type of objects (soroban-env-common/src/val.rs, `TryFrom<Val>` of the object types). -/
def asObj (t : Tag) (v : Nat) : Res Nat := if Val.tag v = t then .ok v else .error conversionErr

/-- soroban-env-common/src/symbol.rs, the conversion of a value to a symbol. -/
def asSym (v : Nat) : Res Nat :=
  if Val.tag v = .SymbolSmall then .ok v else if Val.tag v = .SymbolObject then .ok v else .error conversionErr

/-- soroban-env-host/src/builtin_contracts/base_types.rs:96-135 `BytesN::try_from_val` for 32 bytes -/
def asBytes32 (objs : List HostObj) (v : Nat) : Res Nat := do
  let h ← asObj .BytesObject v
  let b ← visitBytes objs h
  if b.length = 32 then .ok h else .error (.host .value .unexpectedSize)

/-- soroban-builtin-sdk-macros/src/derive_type.rs:47-69, up to the conversion of the fields: the values of the fields, in the order of
their names. -/
def readStruct (objs : List HostObj) (names : List (List Nat)) (v : Nat) : Res (List Nat) := do
  let h ← asObj .MapObject v
  let m ← visitMap objs h
  unpackTexts objs false m names

/-- derive_type.rs:177-199, up to the choice of the case: the number of the case and the elements of the vector
(with `symbol_index_in_strs`, host.rs:1084-1103). -/
def readEnum (objs : List HostObj) (cases : List (List Nat)) (v : Nat) : Res (Nat × List Nat) := do
  let h ← asObj .VecObject v
  let l ← visitVec objs h
  let c ← vGet l 0
  let c ← asSym c
  let t ← symbolText objs c
  match firstMatch t 0 cases with
  | none => .error (.host .value .invalidInput)
  | some i => .ok (i, l)

/-- builtin_contracts/common_types.rs:9-13 `ContractExecutableRef` and 43-49 `ContractExecutable`: handles. -/
inductive ExecH where
  | wasm (hash : Nat)
  | asset
  | ref (owner tag : Nat)

/-- Reading `ContractExecutableRef` (common_types.rs:7-12). -/
def readRef (objs : List HostObj) (v : Nat) : Res ExecH := do
  match ← readStruct objs [nOwner, nTag] v with
  | [o, t] => do
    let o ← asObj .AddressObject o
    let t ← asObj .StringObject t
    .ok (.ref o t)
  | _ => .error conversionErr

/-- Reading `ContractExecutable` (common_types.rs:43-49). -/
def readExec (objs : List HostObj) (v : Nat) : Res ExecH := do
  match ← readEnum objs [cWasm, cAsset, cRef] v with
  | (0, l) => do
    let x ← vGet l 1
    let h ← asBytes32 objs x
    .ok (.wasm h)
  | (1, _) => .ok .asset
  | (2, l) => do
    let x ← vGet l 1
    readRef objs x
  | _ => .error conversionErr

/-- The `ContractAuthorizationContext`, `CreateContractHostFnContext` and `CreateContractWithConstructorHostFnContext` of
account_contract.rs:30-52 and the `SubContractInvocation` of invoker_contract_auth.rs:22-27, by the case of
`InvokerContractAuthEntry` (33-39) they belong to. -/
inductive EntryH where
  | call (contract fn args subs : Nat)
  | create (exec : ExecH) (salt : Nat)
  | createWith (exec : ExecH) (salt args : Nat)

/-- Reading `SubContractInvocation` (invoker_contract_auth.rs:22-27) with its `ContractAuthorizationContext`
(account_contract.rs:30-36). -/
def readCall (objs : List HostObj) (v : Nat) : Res EntryH := do
  match ← readStruct objs [nContext, nSubs] v with
  | [c, s] => do
    match ← readStruct objs [nArgs, nContract, nFnName] c with
    | [a, k, f] => do
      let a ← asObj .VecObject a
      let k ← asObj .AddressObject k
      let f ← asSym f
      let s ← asObj .VecObject s
      .ok (.call k f a s)
    | _ => .error conversionErr
  | _ => .error conversionErr

/-- Reading `CreateContractHostFnContext` (account_contract.rs:38-43). -/
def readCreate (objs : List HostObj) (v : Nat) : Res EntryH := do
  match ← readStruct objs [nExecutable, nSalt] v with
  | [e, s] => do
    let e ← readExec objs e
    let s ← asBytes32 objs s
    .ok (.create e s)
  | _ => .error conversionErr

/-- Reading `CreateContractWithConstructorHostFnContext` (account_contract.rs:45-51). -/
def readCreateWith (objs : List HostObj) (v : Nat) : Res EntryH := do
  match ← readStruct objs [nCtorArgs, nExecutable, nSalt] v with
  | [a, e, s] => do
    let a ← asObj .VecObject a
    let e ← readExec objs e
    let s ← asBytes32 objs s
    .ok (.createWith e s a)
  | _ => .error conversionErr

/-- Reading `InvokerContractAuthEntry` (invoker_contract_auth.rs:33-39). -/
def readEntry (objs : List HostObj) (v : Nat) : Res EntryH := do
  match ← readEnum objs [cContract, cCreate, cCreateWith] v with
  | (0, l) => do
    let x ← vGet l 1
    readCall objs x
  | (1, l) => do
    let x ← vGet l 1
    readCreate objs x
  | (2, l) => do
    let x ← vGet l 1
    readCreateWith objs x
  | _ => .error conversionErr

/-- invoker_contract_auth.rs:118-131 `validate_executable_for_create_contract`, then common_types.rs:62-72 `to_xdr` (with 26-39). -/
def execToXdr (objs : List HostObj) : ExecH → Res Exec
  | .asset => .error (.host .auth .invalidInput)
  | .wasm h => do
    let b ← bytes32 objs h
    .ok (.wasm b)
  | .ref o t => do
    let a ← visitAddress objs o
    let b ← visitString objs t
    .ok (.ref a b)

/-- invoker_contract_auth.rs:66-70, the sub-invocations. -/
def parseAll (rec : Nat → Res AInv) : List Nat → Res (List AInv)
  | [] => .ok []
  | v :: vs => do
    let i ← rec v
    let is ← parseAll rec vs
    .ok (i :: is)

/-- invoker_contract_auth.rs:133-141 `invoker_contract_auth_to_authorized_invocation` and 43-112 `to_authorized_invocation`, for the
contract `self`. -/
def parse (self : ScAddr) (objs : List HostObj) : (depth : Nat) → Nat → Res AInv
  | 0, v => do
    let _ ← readEntry objs v
    .error depthErr
  | d + 1, v => do
    match ← readEntry objs v with
    | .call k f a s => do
      let as ← visitVec objs a
      let ss ← visitVec objs s
      let subs ← parseAll (parse self objs d) ss
      .ok (.mk (.call k f as) subs false)
    | .create e s => do
      let e ← execToXdr objs e
      let b ← bytes32 objs s
      .ok (.mk (.create ⟨.address self b, e, []⟩) [] false)
    | .createWith e s a => do
      let e ← execToXdr objs e
      let b ← bytes32 objs s
      let (as, _) ← ctorArgs d objs (some a)
      .ok (.mk (.create ⟨.address self b, e, as⟩) [] false)

/-- auth.rs:2909-2926 `new_with_curr_contract_as_invoker`, for the elements in order: each gets an object for the address of the
contract. The addresses of the trackers and their trees are returned. -/
def authorizeEach (d : Nat) (self : ScAddr) (objs : List HostObj) : List Nat → Res (List HostObj × List (Nat × AInv))
  | [] => .ok (objs, [])
  | v :: vs => do
    let i ← parse self objs d v
    let (objs, a) ← addObj objs (.address self)
    let (objs, is) ← authorizeEach d self objs vs
    .ok (objs, (a, i) :: is)

/-- auth.rs:1142-1161 `add_invoker_contract_auth_with_curr_contract_as_invoker`, called by host.rs:3575-3584
`authorize_as_curr_contract`: the trackers it adds for the current contract `self`. -/
def authorizeAs (d : Nat) (self : ScAddr) (objs : List HostObj) (entries : Nat) : Res (List HostObj × List (Nat × AInv)) := do
  let l ← visitVec objs entries
  authorizeEach d self objs l

/-! ### Writing -/

/-- host.rs:1053-1062 `vec_new_from_slice` -/
def newVec (objs : List HostObj) (vs : List Nat) : Res (List HostObj × Nat) := do
  checkAll objs vs
  let l ← vecFromIter vs
  addObj objs (.vec l)

/-- derive_type.rs:71-83 with host.rs:1011-1031 `map_new_from_slices`: the map of a struct. -/
def newStruct (d : Nat) (objs : List HostObj) (names : List (List Nat)) (vs : List Nat) : Res (List HostObj × Nat) := do
  let (objs, keys) ← symbolsFromSlices objs names
  let m ← mapFromSlices (valCmp objs d) (isSoundVal objs) (fun v => v == valVoid) false keys vs
  addObj objs (.map m)

/-- account_contract.rs:85-96, the executable: common_types.rs:48-60 `from_xdr` (with 14-24), except for assets. -/
def execFromXdr (objs : List HostObj) : Exec → Res (List HostObj × ExecH)
  | .wasm h => do
    let (objs, b) ← addObj objs (.bytes h)
    .ok (objs, .wasm b)
  | .asset => .error (.host .auth .invalidInput)
  | .ref o t => do
    let (objs, o) ← addObj objs (.address o)
    let (objs, t) ← addObj objs (.string t)
    .ok (objs, .ref o t)

/-- derive_type.rs:105-127 and 71-83: the vector of a `ContractExecutable` (common_types.rs:43-49). -/
def execVal (d : Nat) (objs : List HostObj) : ExecH → Res (List HostObj × Nat)
  | .wasm b => do
    let (objs, c) ← symbolFromSlice objs cWasm
    newVec objs [c, b]
  | .asset => do
    let (objs, c) ← symbolFromSlice objs cAsset
    newVec objs [c]
  | .ref o t => do
    let (objs, c) ← symbolFromSlice objs cRef
    let (objs, m) ← newStruct d objs [nOwner, nTag] [o, t]
    newVec objs [c, m]

/-- account_contract.rs:97-109, the salt. -/
def newSalt (objs : List HostObj) : IdPre → Res (List HostObj × Nat)
  | .address _ s => addObj objs (.bytes s)
  | .asset _ => .error (.host .auth .invalidInput)

/-- account_contract.rs:70-122 `AuthorizationContext::from_authorized_fn`, then derive_type.rs:120-127 and 71-83: the value of a
context. -/
def newContext (d : Nat) (objs : List HostObj) : AFn → Res (List HostObj × Nat)
  | .call k f as => do
    let (objs, a) ← newVec objs as
    let (objs, c) ← symbolFromSlice objs cContract
    let (objs, m) ← newStruct d objs [nArgs, nContract, nFnName] [a, k, f]
    newVec objs [c, m]
  | .create ⟨id, e, as⟩ => do
    let (objs, e) ← execFromXdr objs e
    let (objs, s) ← newSalt objs id
    if as.isEmpty then do
      let (objs, c) ← symbolFromSlice objs cCreate
      let (objs, e) ← execVal d objs e
      let (objs, m) ← newStruct d objs [nExecutable, nSalt] [e, s]
      newVec objs [c, m]
    else do
      let (objs, vs) ← toVals (toVal d) objs as
      let (objs, a) ← newVec objs vs
      let (objs, c) ← symbolFromSlice objs cCreateWith
      let (objs, e) ← execVal d objs e
      let (objs, m) ← newStruct d objs [nCtorArgs, nExecutable, nSalt] [a, e, s]
      newVec objs [c, m]

/-- base_types.rs:299-312 `push`, with host.rs `vec_push_back`. -/
def push (objs : List HostObj) (acc x : Nat) : Res (List HostObj × Nat) := do
  let l ← visitVec objs acc
  let l ← vPushBack l x
  addObj objs (.vec l)

mutual
/-- account_contract.rs:126-139 `invocation_tree_to_auth_contexts`; `acc` is the vector so far. -/
def pushContexts (d : Nat) (objs : List HostObj) (acc : Nat) : AInv → Res (List HostObj × Nat)
  | .mk f subs _ => do
    let (objs, x) ← newContext d objs f
    let (objs, acc) ← push objs acc x
    pushAll d objs acc subs
/-- account_contract.rs:135-137, the sub-invocations. -/
def pushAll (d : Nat) (objs : List HostObj) (acc : Nat) : List AInv → Res (List HostObj × Nat)
  | [] => .ok (objs, acc)
  | i :: is => do
    let (objs, acc) ← pushContexts d objs acc i
    pushAll d objs acc is
end

/-- account_contract.rs:141-148 `convert_to_auth_context_val` -/
def contexts (d : Nat) (objs : List HostObj) (i : AInv) : Res (List HostObj × Nat) := do
  let (objs, acc) ← addObj objs (.vec [])
  pushContexts d objs acc i

/-- auth.rs:2665-2704 `authenticate`, the part that is common to all addresses: the payload, as an object, and the contexts, both made
from the tree of the entry. `Signatures` and `Delegates` model what is done with them. -/
def shown (E : Cfg) (d : Nat) (objs : List HostObj) (t : Entry) : Res (List HostObj × Nat × Nat) := do
  let p ← signaturePayload E d objs t
  let (objs, b) ← addObj objs (.bytes (Xdr.be 32 p))
  let (objs, c) ← contexts d objs t.root
  .ok (objs, b, c)

end Soroban.ContractTypes
