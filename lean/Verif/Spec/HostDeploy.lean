import Verif.Spec.HostCallable
/-! When code is uploaded, contracts are created and executables updated. -/
namespace Soroban.Host.Spec
open Soroban Soroban.Auth Soroban.Host
open Soroban.Storage.Spec (Ledger)
open Soroban.Storage (Entry)

/-- An entry exists and the transaction may read it. -/
def Found (E : HEnv) (s : Host) (k : LKey) : Prop := CanAccess s k .readOnly ∧ (visible E s k).isSome = true

/-- The entry an executable refers to. -/
def execKey : Exec → List LKey
  | .wasm h => [.code h]
  | .ref o t => [.data o (.tag t) .persistent]
  | .asset => []

/-- A new persistent entry can be given its lifetime: the ledger sequence number does not overflow. -/
def Lasts (E : HEnv) : Prop := (E.sto.li.minLiveUntil .persistent).isSome = true

/-- The code `w` with hash `h` can be uploaded: it is there already, and may be read; or it may be written. -/
def CanUpload (E : HEnv) (s : Host) (h w : Nat) : Prop :=
  (∃ l, visible E s (.code h) = some (.code w, l) ∧ CanAccess s (.code h) .readOnly) ∨
  ((∀ l, visible E s (.code h) ≠ some (.code w, l)) ∧ CanAccess s (.code h) .readWrite ∧ Lasts E)

/-- The current contract `id` can take the executable `ex`: what it refers to exists, and the instance may be written. -/
structure CanUpdate (E : HEnv) (s : Host) (id : Nat) (ex : Exec) : Prop where
  code : ∀ k ∈ execKey ex, Found E s k
  declared : CanAccess s (.inst id) .readWrite

/-- The instance of a new contract `id` with executable `ex` can be stored: there is none, the executable exists, and the instance may be
written. -/
structure CanCreate (E : HEnv) (s : Host) (id : Nat) (ex : Exec) : Prop where
  new : visible E s (.inst id) = none
  code : ∀ k ∈ execKey ex, Found E s k
  declared : CanAccess s (.inst id) .readWrite
  lasts : Lasts E

/-- The host once a new instance, without instance storage, has been stored. -/
def created (E : HEnv) (s : Host) (id : Nat) (ex : Exec) : Host :=
  { s with st := { s.st with map := s.st.map.insert (.inst id) (some (.inst ex [], E.sto.li.minLiveUntil .persistent)) } }

/-- The names under which the host calls the constructor of code, and that of the asset contract. -/
def ctorName : Name := "__constructor".toList.map Char.toNat
def assetCtorName : Name := "init_asset".toList.map Char.toNat

/-- The constructor of the new contract `id` has been run, or there is none: the asset contract is initialized, with any result; other
contracts need their code, and either it has no constructors, and no arguments are given, or the constructor returns nothing. -/
def Constructed (E : HEnv) (s : Host) (id : Nat) (args : CreateArgs) (ctor : Prog) : Prop :=
  if args.fromAsset then
    ∃ m v, Enterable E s id m ∧ Returns id (run E ctor (inside s id assetCtorName m)).1 (run E ctor (inside s id assetCtorName m)).2 v
  else
    ∃ m, Callable E s id m ∧
      ((∃ h, code E (visible E s) args.exec = some (.wasm h) ∧ E.hasCtor h = false ∧ args.ctorArgs = []) ∨
       ((∀ h, code E (visible E s) args.exec = some (.wasm h) → E.hasCtor h = true) ∧ Enterable E s id m ∧
        Returns id (run E ctor (inside s id ctorName m)).1 (run E ctor (inside s id ctorName m)).2 .void))

end Soroban.Host.Spec
