import Verif.Model.SacStorage
import Verif.Spec.SacValues
/-! Specification for C88: the documented layout of what the asset contract stores. -/
namespace Soroban.SacStorage.Spec
open Soroban Soroban.Spec Soroban.Sac Soroban.ContractTypes.Spec Soroban.SacValues.Spec Soroban.SacStorage

/-- The ledger key of a user's data. -/
def keyOf : DataKey → ScVal
  | .allowance f s => tagged (txt "Allowance") (struct [(txt "from", address f), (txt "spender", address s)])
  | .balance a => tagged (txt "Balance") (address a)

/-- The keys in the instance's map. -/
def instKeyOf : InstKey → ScVal
  | .admin => .vec (some [.symbol (txt "Admin")])
  | .assetInfo => .vec (some [.symbol (txt "AssetInfo")])
  | .metadata => .symbol (txt "METADATA")

def balanceOf (b : BalanceV) : ScVal :=
  struct [(txt "amount", int128 b.amount), (txt "authorized", .bool b.authorized), (txt "clawback", .bool b.clawback)]

def allowanceOf (a : AllowanceV) : ScVal := struct [(txt "amount", int128 a.amount), (txt "live_until_ledger", .u32 a.liveUntil)]

/-- Whatever the limit on nesting, if it is at least this, `v` becomes `s` when it is made a storage key, and nothing else. -/
def StoredAs (objs : List HostObj) (v : Nat) (s : ScVal) (depth : Nat) : Prop :=
  (∀ d t, fromVal true objs d v = .ok t → t = s) ∧ ∀ d, depth ≤ d → fromVal true objs d v = .ok s

end Soroban.SacStorage.Spec
