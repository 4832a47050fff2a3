import Verif.Model.SacValues
/-!
What the Stellar asset contract keeps in its storage, as values: the keys and the stored values that the conversions derived by
`contracttype` make, and how stored values are read
(soroban-env-host/src/builtin_contracts/stellar_asset_contract/storage_types.rs:14-43,
soroban-builtin-sdk-macros/src/derive_type.rs).

Simplifications: an address that goes into a key is made a new object, where the code uses the object that the `Address` holds (both
convert to the same ledger value); metering is left out.
-/
namespace Soroban.SacStorage
open Soroban Soroban.Sac Soroban.ContractTypes Soroban.SacValues
open Soroban.Auth (Addr)

/-- storage_types.rs:31-36 `DataKey`, with 11-15 `AllowanceDataKey` -/
inductive DataKey where
  | allowance (sender spender : Addr)
  | balance (a : Addr)
  deriving DecidableEq, Repr

/-- storage_types.rs:38-43 `InstanceDataKey`, and metadata.rs:12 `METADATA_KEY`, the third key of the instance storage. -/
inductive InstKey where
  | admin
  | assetInfo
  | metadata
  deriving DecidableEq, Repr

/-- "from" -/
def sFrom : List Nat := [102, 114, 111, 109]
/-- "spender" -/
def sSpender : List Nat := [115, 112, 101, 110, 100, 101, 114]
/-- "amount" -/
def sAmount : List Nat := [97, 109, 111, 117, 110, 116]
/-- "live_until_ledger" -/
def sLiveUntil : List Nat := [108, 105, 118, 101, 95, 117, 110, 116, 105, 108, 95, 108, 101, 100, 103, 101, 114]
/-- "authorized" -/
def sAuthorized : List Nat := [97, 117, 116, 104, 111, 114, 105, 122, 101, 100]
/-- "clawback" -/
def sClawback : List Nat := [99, 108, 97, 119, 98, 97, 99, 107]

/-- derive_type.rs:71-83 with host.rs:1011-1031: a struct made of its fields, converted in order. -/
def newRecord (d : Nat) (objs : List HostObj) (names : List (List Nat)) (ls : List Leaf) : Res (List HostObj × Nat) := do
  let (objs, vs) ← newLeaves objs ls
  newStruct d objs names vs

/-- derive_type.rs:116-125 for `DataKey`: the name of the case ("Allowance" or "Balance"), then its argument, in a vector. -/
def newDataKey (d : Nat) (objs : List HostObj) : DataKey → Res (List HostObj × Nat)
  | .allowance f s => do
    let (objs, c) ← newLeaf objs (.sym [65, 108, 108, 111, 119, 97, 110, 99, 101])
    let (objs, m) ← newRecord d objs [sFrom, sSpender] [.addr f, .addr s]
    newVec objs [c, m]
  | .balance a => hostVec objs [.sym [66, 97, 108, 97, 110, 99, 101], .addr a]

/-- derive_type.rs:101-108 for `InstanceDataKey` ("Admin" and "AssetInfo"); metadata.rs:183 for "METADATA", a plain symbol. -/
def newInstKey (objs : List HostObj) : InstKey → Res (List HostObj × Nat)
  | .admin => hostVec objs [.sym [65, 100, 109, 105, 110]]
  | .assetInfo => hostVec objs [.sym [65, 115, 115, 101, 116, 73, 110, 102, 111]]
  | .metadata => newLeaf objs (.sym [77, 69, 84, 65, 68, 65, 84, 65])

/-- storage_types.rs:23-28 `BalanceValue`, made a value -/
def newBalance (d : Nat) (objs : List HostObj) (b : BalanceV) : Res (List HostObj × Nat) :=
  newRecord d objs [sAmount, sAuthorized, sClawback] [.i128 b.amount, .bool b.authorized, .bool b.clawback]

/-- storage_types.rs:17-21 `AllowanceValue`, made a value -/
def newAllowance (d : Nat) (objs : List HostObj) (a : AllowanceV) : Res (List HostObj × Nat) :=
  newRecord d objs [sAmount, sLiveUntil] [.i128 a.amount, .u32 a.liveUntil]

/-- derive_type.rs:47-69 for `BalanceValue` -/
def readBalance (objs : List HostObj) (v : Nat) : Res BalanceV := do
  match ← readStruct objs [sAmount, sAuthorized, sClawback] v with
  | [a, u, c] =>
    let a ← asI128 objs a
    let u ← asBool u
    let c ← asBool c
    .ok { amount := a, authorized := u, clawback := c }
  | _ => .error (.host .object .internalError)

/-- derive_type.rs:47-69 for `AllowanceValue` -/
def readAllowance (objs : List HostObj) (v : Nat) : Res AllowanceV := do
  match ← readStruct objs [sAmount, sLiveUntil] v with
  | [a, l] =>
    let a ← asI128 objs a
    let l ← asU32Val l
    .ok { amount := a, liveUntil := l }
  | _ => .error (.host .object .internalError)

end Soroban.SacStorage
