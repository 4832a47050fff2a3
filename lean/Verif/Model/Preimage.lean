import Verif.Model.Xdr
import Verif.Model.Signatures
import Verif.Model.AssetMeta
/-!
Model of what the host hashes: contract ids (soroban-env-host/src/host/lifecycle.rs, host/data_helper.rs, host.rs) and the payloads
of authorization entries (soroban-env-host/src/auth.rs), down to the bytes. The types and their XDR forms come from the
`stellar-xdr` crate and are written from Stellar-contract.x, Stellar-transaction.x and Stellar-ledger-entries.x; the numbers and the
order of the fields of the two newest cases (external references to executables, authorization with an address) cannot be checked
against the sources at hand.

Simplifications: SHA-256 is the parameter `sha`. Budget charges are dropped. The crate's limit on nesting can only be met by the
arguments in an invocation tree; which trees pass it is the parameter `shallow`. Keys and ids in addresses are numbers, salts, hashes
and network ids byte strings. The numbers of executables and assets do not occur here (compare `Soroban.Auth`, which abstracts them).
-/
namespace Soroban.Preimage
open Soroban.Xdr (be writeVar writeAddr write writeList maxLen xdrError)
open Soroban.AssetMeta (Asset assetFromXdr)
open Soroban.Signatures (fixedLength)
open Soroban.Strkey (visitAddress)

/-- XDR `ContractIdPreimage`. -/
inductive IdPre where
  | address (deployer : ScAddr) (salt : List Nat)
  | asset (a : Asset)
  deriving DecidableEq, Repr

/-- XDR `ContractExecutable`. -/
inductive Exec where
  | wasm (hash : List Nat)
  | asset
  | ref (owner : ScAddr) (tag : List Nat)
  deriving DecidableEq, Repr

/-- XDR `CreateContractArgsV2`. -/
structure CreateArgs where
  id : IdPre
  exec : Exec
  args : List ScVal

/-- XDR `SorobanAuthorizedFunction`. -/
inductive XFn where
  | call (contract : ScAddr) (fn : List Nat) (args : List ScVal)
  | create (id : IdPre) (exec : Exec)
  | createV2 (args : CreateArgs)

/-- XDR `SorobanAuthorizedInvocation`. -/
inductive XInv where
  | mk (fn : XFn) (subs : List XInv)

/-- XDR `HashIdPreimage`, the cases the host makes. -/
inductive HashPre where
  | contractId (network : List Nat) (id : IdPre)
  | auth (network : List Nat) (nonce : Int) (expiration : Nat) (inv : XInv)
  | authAddr (network : List Nat) (nonce : Int) (expiration : Nat) (addr : ScAddr) (inv : XInv)

/-! ### The bytes -/

/-- XDR `Asset`: the type, the code, the type of the key, the key. -/
def writeAsset : Asset → List Nat
  | .native => be 4 0
  | .alpha4 code k => be 4 1 ++ code ++ be 4 0 ++ be 32 k
  | .alpha12 code k => be 4 2 ++ code ++ be 4 0 ++ be 32 k

/-- XDR `ContractIdPreimage`. -/
def writeId : IdPre → List Nat
  | .address a salt => be 4 0 ++ writeAddr a ++ salt
  | .asset a => be 4 1 ++ writeAsset a

/-- XDR `ContractExecutable`. -/
def writeExec : Exec → List Nat
  | .wasm h => be 4 0 ++ h
  | .asset => be 4 1
  | .ref o t => be 4 2 ++ writeAddr o ++ writeVar t

/-- An array of values: their number, then the values. -/
def writeVals (l : List ScVal) : List Nat := be 4 l.length ++ writeList l

/-- XDR `SorobanAuthorizedFunction`. -/
def writeFn : XFn → List Nat
  | .call c f as => be 4 0 ++ writeAddr c ++ writeVar f ++ writeVals as
  | .create id e => be 4 1 ++ writeId id ++ writeExec e
  | .createV2 a => be 4 2 ++ writeId a.id ++ writeExec a.exec ++ writeVals a.args

mutual
/-- XDR `SorobanAuthorizedInvocation`. -/
def writeInv : XInv → List Nat
  | .mk f subs => writeFn f ++ be 4 subs.length ++ writeInvs subs
/-- The children, one after the other. -/
def writeInvs : List XInv → List Nat
  | [] => []
  | x :: xs => writeInv x ++ writeInvs xs
end

/-- XDR `HashIdPreimage`. -/
def writePre : HashPre → List Nat
  | .contractId n id => be 4 8 ++ n ++ writeId id
  | .auth n nonce ex inv => be 4 9 ++ n ++ be 8 (asU64 nonce) ++ be 4 ex ++ writeInv inv
  | .authAddr n nonce ex a inv => be 4 10 ++ n ++ be 8 (asU64 nonce) ++ be 4 ex ++ writeAddr a ++ writeInv inv

/-- Whether the invocation tree in a preimage passes the limit on nesting. -/
def HashPre.ok (shallow : XInv → Bool) : HashPre → Bool
  | .contractId _ _ => true
  | .auth _ _ _ inv => shallow inv
  | .authAddr _ _ _ _ inv => shallow inv

/-- host/metered_xdr.rs:33-38 `metered_hash_xdr`, with `metered_write_xdr` (56-68). -/
def hashXdr {D : Type} (sha : List Nat → D) (shallow : XInv → Bool) (p : HashPre) : Res D :=
  if p.ok shallow && decide ((writePre p).length ≤ maxLen) then .ok (sha (writePre p)) else .error (.host .budget .exceededLimit)

/-! ### Contract ids -/

/-- host/conversion.rs:110-121 `fixed_length_bytes_from_bytesobj_input` for 32 bytes: `hash_from_bytesobj_input` (68-75) and
`u256_from_bytesobj_input` (77-84). -/
def bytes32 (objs : List HostObj) (h : Nat) : Res (List Nat) := do
  let b ← visitBytes objs h
  fixedLength 32 b

/-- What a host is given for the whole of its life: the network id, SHA-256, and which invocation trees XDR writing takes. -/
structure Cfg where
  network : List Nat
  sha : List Nat → Nat
  shallow : XInv → Bool

/-- host/data_helper.rs:457-466 `get_full_contract_id_preimage`: the network id is put in the table as a byte string
(`get_ledger_network_id`) and taken from there. -/
def fullPreimage (E : Cfg) (objs : List HostObj) (id : IdPre) : Res (List HostObj × HashPre) := do
  let (objs, h) ← addObj objs (.bytes E.network)
  let n ← bytes32 objs h
  .ok (objs, .contractId n id)

/-- The id of a contract. host/lifecycle.rs:310-314 `get_asset_contract_id_hash` for an asset, 305-307 for an address. -/
def idOf (E : Cfg) (objs : List HostObj) (id : IdPre) : Res (List HostObj × Nat) := do
  let (objs, p) ← fullPreimage E objs id
  let k ← hashXdr E.sha E.shallow p
  .ok (objs, k)

/-- host/lifecycle.rs:33-36 and 300-303, the preimage made of a deployer and a salt. -/
def addressPreimage (objs : List HostObj) (deployer salt : Nat) : Res IdPre := do
  let a ← visitAddress objs deployer
  let s ← bytes32 objs salt
  .ok (.address a s)

/-- host.rs:2416-2424 `get_contract_id` with host/lifecycle.rs:295-308 `get_contract_id_hash` -/
def getContractId (E : Cfg) (objs : List HostObj) (deployer salt : Nat) : Res (List HostObj × Nat) := do
  let p ← addressPreimage objs deployer salt
  let (objs, k) ← idOf E objs p
  addObj objs (.address (.contract k))

/-- `metered_from_xdr_obj` (host/metered_xdr.rs:48-53) at type `Asset`. -/
def assetFromObj (objs : List HostObj) (h : Nat) : Res Asset := do
  let b ← visitBytes objs h
  match assetFromXdr b with
  | some a => .ok a
  | none => .error xdrError

/-- host.rs:2427-2435 `get_asset_contract_id` -/
def getAssetContractId (E : Cfg) (objs : List HostObj) (asset : Nat) : Res (List HostObj × Nat) := do
  let a ← assetFromObj objs asset
  let (objs, k) ← idOf E objs (.asset a)
  addObj objs (.address (.contract k))

/-- host/lifecycle.rs:225-242: the kind of preimage has to go with the kind of executable. -/
def matchesExec : IdPre → Exec → Bool
  | .address _ _, .wasm _ => true
  | .address _ _, .ref _ _ => true
  | .asset _, .asset => true
  | _, _ => false

/-- The rest of contract creation: the deployer's authorization (with the frame pushed for it), and what is done with the new id (the instance, the asset's
initialization, the constructor). Both can add objects to the table. -/
structure Rest where
  auth : List HostObj → Nat → Res (List HostObj)
  make : List HostObj → Nat → CreateArgs → List Nat → Res (List HostObj)

/-- host/lifecycle.rs:183-206 `create_contract_internal` and 208-271 `create_contract_with_optional_auth` -/
def createInternal (E : Cfg) (R : Rest) (objs : List HostObj) (deployer : Option Nat) (args : CreateArgs) (ctor : List Nat) :
    Res (List HostObj × Nat) := do
  let objs ← match deployer with
    | some d => R.auth objs d
    | none => .ok objs
  if !matchesExec args.id args.exec then .error (.host .value .invalidInput)
  else do
    let (objs, k) ← idOf E objs args.id
    let objs ← R.make objs k args ctor
    addObj objs (.address (.contract k))

/-- host/conversion.rs:197-199 `vecobject_to_scval_vec` and 192-194 `call_args_from_obj` -/
def ctorArgs (d : Nat) (objs : List HostObj) : Option Nat → Res (List ScVal × List Nat)
  | none => .ok ([], [])
  | some v => do
    let l ← visitVec objs v
    let ss ← fromVals (fromVal false objs d) l
    .ok (ss, l)

/-- host/lifecycle.rs:26-48 `create_contract_from_obj_inputs` -/
def createFromInputs (E : Cfg) (R : Rest) (d : Nat) (objs : List HostObj) (deployer : Nat) (exec : Exec) (salt : Nat)
    (args : Option Nat) : Res (List HostObj × Nat) := do
  let p ← addressPreimage objs deployer salt
  let (ss, l) ← ctorArgs d objs args
  createInternal E R objs (some deployer) ⟨p, exec, ss⟩ l

/-- host.rs:2340-2354 `create_contract` (no arguments) and 2356-2371 `create_contract_with_constructor` -/
def createWasm (E : Cfg) (R : Rest) (d : Nat) (objs : List HostObj) (deployer wasm salt : Nat) (args : Option Nat) :
    Res (List HostObj × Nat) := do
  let h ← bytes32 objs wasm
  createFromInputs E R d objs deployer (.wasm h) salt args

/-- host_object.rs:521-540 `visit_obj` at type `ExecutableTag`. -/
def visitTag (objs : List HostObj) (v : Nat) : Res (List Nat) :=
  match visitObj objs v with
  | .error e => .error e
  | .ok (.executableTag b) => .ok b
  | .ok _ => .error (.host .object .internalError)

/-- host/data_helper.rs:182-195 `executable_ref_from_inputs` -/
def refFromInputs (objs : List HostObj) (owner tag : Nat) : Res Exec := do
  let o ← visitAddress objs owner
  let t ← visitTag objs tag
  .ok (.ref o t)

/-- host.rs:2373-2390 `create_external_ref_contract` -/
def createRef (E : Cfg) (R : Rest) (d : Nat) (objs : List HostObj) (deployer owner tag salt args : Nat) :
    Res (List HostObj × Nat) := do
  let e ← refFromInputs objs owner tag
  createFromInputs E R d objs deployer e salt (some args)

/-- host.rs:2393-2413 `create_asset_contract` -/
def createAsset (E : Cfg) (R : Rest) (objs : List HostObj) (asset : Nat) : Res (List HostObj × Nat) := do
  let a ← assetFromObj objs asset
  createInternal E R objs none ⟨.asset a, .asset, []⟩ []

/-! ### Payloads of authorization entries -/

/-- auth.rs:666-676 `ContractFunction` and `AuthorizedFunction`: the contract, the name and the arguments are host values. -/
inductive AFn where
  | call (contract name : Nat) (args : List Nat)
  | create (args : CreateArgs)

/-- auth.rs:681-689 `AuthorizedInvocation` -/
inductive AInv where
  | mk (fn : AFn) (subs : List AInv) (used : Bool)

/-- soroban-env-common/src/symbol.rs:107-122, a symbol made of bytes. -/
def symbolOf (objs : List HostObj) (b : List Nat) : Res (List HostObj × Nat) :=
  match symbolTryFromBytes b with
  | some v => .ok (objs, v)
  | none => do
    let o ← symbolObject b
    addObj objs o

/-- host/conversion.rs:255-261 `scsymbol_from_symbol` -/
def symbolToXdr (objs : List HostObj) (v : Nat) : Res (List Nat) :=
  if Val.tag v = .SymbolObject then visitSymbol objs v
  else if Val.tag v = .SymbolSmall then .ok (symbolChars v)
  else .error conversionErr

/-- auth.rs:769-789 `from_xdr` of `AuthorizedFunction`, with `d` levels of depth for each argument. -/
def fnFromXdr (d : Nat) (objs : List HostObj) : XFn → Res (List HostObj × AFn)
  | .call c f as => do
    let (objs, c) ← addObj objs (.address c)
    let (objs, f) ← symbolOf objs f
    let (objs, as) ← toVals (toVal d) objs as
    .ok (objs, .call c f as)
  | .create id e => .ok (objs, .create ⟨id, e, []⟩)
  | .createV2 a => .ok (objs, .create a)

/-- auth.rs:792-808 `to_xdr` of `AuthorizedFunction` -/
def fnToXdr (d : Nat) (objs : List HostObj) : AFn → Res XFn
  | .call c f as => do
    let f ← symbolToXdr objs f
    let c ← visitAddress objs c
    let as ← fromVals (fromVal false objs d) as
    .ok (.call c f as)
  | .create a => .ok (.createV2 a)

mutual
/-- auth.rs:813-827 `from_xdr` of `AuthorizedInvocation`: the children first. -/
def invFromXdr (d : Nat) (objs : List HostObj) : XInv → Res (List HostObj × AInv)
  | .mk f subs => do
    let (objs, subs) ← invsFromXdr d objs subs
    let (objs, f) ← fnFromXdr d objs f
    .ok (objs, .mk f subs false)
/-- auth.rs:817-821, the children. -/
def invsFromXdr (d : Nat) (objs : List HostObj) : List XInv → Res (List HostObj × List AInv)
  | [] => .ok (objs, [])
  | x :: xs => do
    let (objs, i) ← invFromXdr d objs x
    let (objs, is) ← invsFromXdr d objs xs
    .ok (objs, i :: is)
end

mutual
/-- auth.rs:852-867 `to_xdr` of `AuthorizedInvocation`, of all children (`exhausted_sub_invocations_only` is false for payloads). -/
def invToXdr (d : Nat) (objs : List HostObj) : AInv → Res XInv
  | .mk f subs _ => do
    let f ← fnToXdr d objs f
    let subs ← invsToXdr d objs subs
    .ok (.mk f subs)
/-- auth.rs:859-865, the children. -/
def invsToXdr (d : Nat) (objs : List HostObj) : List AInv → Res (List XInv)
  | [] => .ok []
  | i :: is => do
    let x ← invToXdr d objs i
    let xs ← invsToXdr d objs is
    .ok (x :: xs)
end

/-- The part of auth.rs:617-638 `AccountAuthorizationTracker` the payload depends on; `withAddress` is
`uses_preimage_with_address` (592-594) of its credentials. -/
structure Entry where
  addr : Nat
  withAddress : Bool
  nonce : Option (Int × Nat)
  root : AInv

/-- auth.rs:2631-2662 `get_signature_payload` -/
def signaturePayload (E : Cfg) (d : Nat) (objs : List HostObj) (t : Entry) : Res Nat :=
  match t.nonce with
  | none => .error (.host .auth .internalError)
  | some (nonce, ex) => do
    let inv ← invToXdr d objs t.root
    let p ← if t.withAddress then do
        let a ← visitAddress objs t.addr
        .ok (HashPre.authAddr E.network nonce ex a inv)
      else .ok (HashPre.auth E.network nonce ex inv)
    hashXdr E.sha E.shallow p

end Soroban.Preimage
