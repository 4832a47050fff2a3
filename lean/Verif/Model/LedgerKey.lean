import Verif.Model.Preimage
/-!
Model of the comparison of ledger keys and of authorized functions: soroban-env-host/src/host/comparison.rs, storage.rs and auth.rs.
Ledger keys index the storage map and the footprint (both are ordered maps with this comparison); authorized functions are matched
against calls with theirs.

The derived orders of the XDR types come from the `stellar-xdr` crate: cases in the order of their declaration, fields in the order of
theirs. Simplifications: budget charges are dropped. Keys, hashes and ids of 32 bytes are numbers in ledger keys (their order is the
order of the bytes). What the unsupported ledger keys hold is one number.
-/
namespace Soroban.Keys
open Soroban.Preimage (IdPre Exec CreateArgs)
open Soroban.AssetMeta (Asset)

/-- XDR `TrustLineAsset`. -/
inductive LineAsset where
  | native
  | alpha4 (code : List Nat) (issuer : Nat)
  | alpha12 (code : List Nat) (issuer : Nat)
  | pool (id : Nat)
  deriving DecidableEq, Repr

/-- XDR `ContractDataDurability`. -/
inductive Durability where
  | temporary
  | persistent
  deriving DecidableEq, Repr

/-- XDR `LedgerKey`. -/
inductive LKey where
  | account (id : Nat)
  | trustline (id : Nat) (asset : LineAsset)
  | offer (content : Nat)
  | data (content : Nat)
  | claimableBalance (content : Nat)
  | liquidityPool (content : Nat)
  | contractData (contract : ScAddr) (key : ScVal) (durability : Durability)
  | contractCode (hash : Nat)
  | configSetting (content : Nat)
  | ttl (content : Nat)

/-- `LedgerKey::discriminant`: XDR `LedgerEntryType`. -/
def LKey.kind : LKey → Nat
  | .account _ => 0
  | .trustline _ _ => 1
  | .offer _ => 2
  | .data _ => 3
  | .claimableBalance _ => 4
  | .liquidityPool _ => 5
  | .contractData _ _ _ => 6
  | .contractCode _ => 7
  | .configSetting _ => 8
  | .ttl _ => 9

/-- soroban-env-host/src/storage.rs:225-232 `check_supported_ledger_key_type`. -/
def checkSupported : LKey → Res Unit
  | .account _ | .trustline _ _ | .contractData _ _ _ | .contractCode _ => .ok ()
  | .offer _ | .data _ | .claimableBalance _ | .liquidityPool _ | .configSetting _ | .ttl _ => .error (.host .storage .internalError)

/-- The derived `Ord` of XDR `TrustLineAsset`, host/comparison.rs:195 `impl_compare_fixed_size_ord_type!(TrustLineAsset)`. -/
def LineAsset.cmp : LineAsset → LineAsset → Ordering
  | .native, .native => .eq
  | .alpha4 c i, .alpha4 c' i' => (lexCmp c c').then (compare i i')
  | .alpha12 c i, .alpha12 c' i' => (lexCmp c c').then (compare i i')
  | .pool a, .pool b => compare a b
  | a, b => compare (rank a) (rank b)
where
  rank : LineAsset → Nat
    | .native => 0
    | .alpha4 _ _ => 1
    | .alpha12 _ _ => 2
    | .pool _ => 3

/-- The derived `Ord` of XDR `ContractDataDurability`, host/comparison.rs:196. -/
def Durability.cmp (a b : Durability) : Ordering := compare (rank a) (rank b)
where
  rank : Durability → Nat
    | .temporary => 0
    | .persistent => 1

/-- soroban-env-common/src/compare.rs:48-67 `impl_compare_for_tuple`: a further component, looked at if those before are equal. -/
def andCmp (o : Res Ordering) (next : Res Ordering) : Res Ordering := do
  match ← o with
  | .eq => next
  | o => .ok o

/-- host/comparison.rs:395-408 `Compare<LedgerKeyContractData>`: contract, key and durability. -/
def dataCmp (depth : Nat) (c : ScAddr) (k : ScVal) (t : Durability) (c' : ScAddr) (k' : ScVal) (t' : Durability) : Res Ordering :=
  andCmp (.ok (c.cmp c')) (andCmp (scValCmp depth k k') (andCmp (.ok (t.cmp t')) (.ok .eq)))

/-- host/comparison.rs:410-445 `Compare<LedgerKey>`, with `depth` levels left for values. Accounts, trustlines and contract codes by
their derived order (comparison.rs:203-206), that is, field by field. -/
def keyCmp (depth : Nat) (a b : LKey) : Res Ordering := do
  checkSupported a
  checkSupported b
  match a, b with
  | .account x, .account y => .ok (compare x y)
  | .trustline x p, .trustline y q => .ok ((compare x y).then (p.cmp q))
  | .contractData c k t, .contractData c' k' t' => dataCmp depth c k t c' k' t'
  | .contractCode x, .contractCode y => .ok (compare x y)
  | .offer _, _ | .data _, _ | .claimableBalance _, _ | .liquidityPool _, _ | .configSetting _, _ | .ttl _, _
  | _, .offer _ | _, .data _ | _, .claimableBalance _ | _, .liquidityPool _ | _, .configSetting _ | _, .ttl _ =>
    .error (.host .value .internalError)
  | a, b => .ok (compare a.kind b.kind)

/-- The derived `Ord` of XDR `Asset`. -/
def assetCmp : Asset → Asset → Ordering
  | .native, .native => .eq
  | .alpha4 c i, .alpha4 c' i' => (lexCmp c c').then (compare i i')
  | .alpha12 c i, .alpha12 c' i' => (lexCmp c c').then (compare i i')
  | a, b => compare (rank a) (rank b)
where
  rank : Asset → Nat
    | .native => 0
    | .alpha4 _ _ => 1
    | .alpha12 _ _ => 2

/-- The derived `Ord` of XDR `ContractIdPreimage`, host/comparison.rs:197. -/
def idCmp : IdPre → IdPre → Ordering
  | .address a s, .address a' s' => (a.cmp a').then (lexCmp s s')
  | .asset a, .asset b => assetCmp a b
  | .address _ _, .asset _ => .lt
  | .asset _, .address _ _ => .gt

/-- The derived `Ord` of XDR `ContractExecutable`, host/comparison.rs:188. -/
def execCmp : Exec → Exec → Ordering
  | .wasm h, .wasm h' => lexCmp h h'
  | .asset, .asset => .eq
  | .ref a t, .ref a' t' => (a.cmp a').then (lexCmp t t')
  | a, b => compare (rank a) (rank b)
where
  rank : Exec → Nat
    | .wasm _ => 0
    | .asset => 1
    | .ref _ _ => 2

/-- host/comparison.rs:264-284 `Compare<CreateContractArgsV2>`. -/
def createCmp (depth : Nat) (a b : CreateArgs) : Res Ordering :=
  match idCmp a.id b.id with
  | .eq =>
    match execCmp a.exec b.exec with
    | .eq => cmpVec (scValCmp depth) a.args b.args
    | o => .ok o
  | o => .ok o

/-- auth.rs:673-676 `AuthorizedFunction` and 666-670 `ContractFunction`; host values are words. -/
inductive AuthFn where
  | call (contract : Nat) (name : Nat) (args : List Nat)
  | create (args : CreateArgs)

/-- auth.rs:697-716 `Compare<ContractFunction>` and 718-745 `Compare<AuthorizedFunction>`. -/
def fnCmp (objs : List HostObj) (depth : Nat) : AuthFn → AuthFn → Res Ordering
  | .call c n a, .call c' n' a' => do
    match ← valCmp objs depth c c' with
    | .eq =>
      match ← valCmp objs depth n n' with
      | .eq => cmpVec (valCmp objs depth) a a'
      | o => .ok o
    | o => .ok o
  | .create a, .create b => createCmp depth a b
  | .call _ _ _, .create _ => .ok .lt
  | .create _, .call _ _ _ => .ok .gt

end Soroban.Keys
