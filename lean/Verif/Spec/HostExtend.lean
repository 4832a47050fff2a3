import Verif.Spec.HostExec
/-!
Lifetimes after extensions, and the entries a contract is made of, for C90.
-/
namespace Soroban.Host

/-- Requests that are not refused as such in ledger `seq`. -/
def Ext.Valid (seq : Nat) : Ext → Prop
  | .upTo threshold extendTo => threshold ≤ extendTo ∧ seq + extendTo ≤ u32Max
  | .between _ minExt maxExt => minExt ≤ maxExt

/-- The last ledger in which an entry lives after an extension in ledger `seq`, if it was `old` before and can be at most `M`: with at
most `threshold` ledgers left it is raised to `extendTo` ledgers from now; the other kind of request raises it to `extendTo` ledgers from
now, by no more than `maxExt`, and only if that is at least `minExt`. -/
def Ext.lifetime (seq M : Nat) : Ext → Nat → Nat
  | .upTo threshold extendTo, old => if old - seq ≤ threshold then max old (min (seq + extendTo) M) else old
  | .between extendTo minExt maxExt, old =>
    let by_ := min (min (seq + extendTo - old) maxExt) (M - old)
    if minExt ≤ by_ then old + by_ else old

end Soroban.Host

namespace Soroban.Host.Spec
open Soroban Soroban.Auth Soroban.Host
open Soroban.Storage.Spec (Ledger)

/-- The entries the code of an executable is in: none for the asset contract; for a reference the tag as well. -/
def codeKeys (E : HEnv) (L : Ledger LKey LVal) : Exec → List LKey
  | .wasm h => [.code h]
  | .asset => []
  | .ref o t => .data o (.tag t) .persistent :: (tagged E L o t).toList.map .code

/-- The entries of contract `c` in the scope of an extension. -/
def scopeKeys (E : HEnv) (L : Ledger LKey LVal) (c : Nat) (scope : Scope) : List LKey :=
  (if scope = .code then [] else [.inst c]) ++
  (if scope = .inst then [] else
    match L (.inst c) with
    | some (.inst ex _, _) => codeKeys E L ex
    | _ => [])

/-- The ledger after the lifetimes of some entries were extended. -/
def extendedLedger (L : Ledger LKey LVal) (keys : List LKey) (f : Nat → Nat) : Ledger LKey LVal :=
  fun k => if k ∈ keys then (L k).map (fun e => (e.1, e.2.map f)) else L k

/-- Entries there are, with lifetimes that are 32-bit numbers. -/
def Extendable (L : Ledger LKey LVal) (k : LKey) : Prop := ∃ v l, L k = some (v, some l) ∧ l ≤ u32Max

end Soroban.Host.Spec
