import Verif.Spec.HostDeploy
import Verif.Spec.HostExtend
/-! When the storage functions succeed, what they return and what they change, for C97. -/
namespace Soroban.Host.Spec
open Soroban Soroban.Auth Soroban.Host
open Soroban.Storage.Spec (Ledger)
open Soroban.Storage (Entry Durability Out)

/-- How far from now an extension asks an entry to live. -/
def goal : Ext → Nat
  | .upTo _ extendTo => extendTo
  | .between extendTo _ _ => extendTo

/-- A contract may store `v` under `k`: any value under an ordinary key; under an executable tag, only in persistent storage, and only the
hash of code that exists and may be read. -/
def Storable (E : HEnv) (s : Host) (v : Nat) (d : Durability) : DKey → Prop
  | .val _ => True
  | .tag _ => d = .persistent ∧ ∃ h, E.hashOf v = some h ∧ Found E s (.code h)

/-- The lifetime of an entry of durability `d` can be extended: the request is a valid one, the entry exists and may be read, and for a
temporary entry it is not asked to live longer than entries can. -/
structure Extends (E : HEnv) (s : Host) (k : LKey) (d : Durability) (x : Ext) : Prop where
  valid : x.Valid E.sto.li.seq
  found : Found E s k
  bounded : ∃ M, E.sto.li.maxLiveUntil = some M ∧ (d = .temporary → goal x ≤ M - E.sto.li.seq)

/-- The storage functions contract `id` can call with success. -/
def Allowed (E : HEnv) (s : Host) (id : Nat) : DataOp → Prop
  | .get k d => Found E s (.data (.contract id) k d)
  | .has k d => CanAccess s (.data (.contract id) k d) .readOnly
  | .put k v d => Storable E s v d k ∧ CanAccess s (.data (.contract id) k d) .readWrite ∧
    (visible E s (.data (.contract id) k d) = none → (E.sto.li.minLiveUntil d).isSome = true)
  | .del k d => (∃ n, k = .val n) ∧ CanAccess s (.data (.contract id) k d) .readWrite
  | .extend k d threshold extendTo => Extends E s (.data (.contract id) k d) d (.upTo threshold extendTo)
  | .extendV2 k d extendTo minExt maxExt => Extends E s (.data (.contract id) k d) d (.between extendTo minExt maxExt)
  | .getClassic n => Found E s (.classic n)
  | .putClassic n _ => CanAccess s (.classic n) .readWrite
  | .extendContract _ _ _ => False

/-- What they give. -/
def Gives (E : HEnv) (s : Host) (id : Nat) (r : Out LVal) : DataOp → Prop
  | .get k d => ∃ e, visible E s (.data (.contract id) k d) = some e ∧ r = .entry e
  | .has k d => r = .bool (visible E s (.data (.contract id) k d)).isSome
  | .getClassic n => ∃ e, visible E s (.classic n) = some e ∧ r = .entry e
  | _ => r = .unit

/-- The lifetime of a written entry: that of the entry it replaces; for a new one, `new`. -/
def keptLifetime (old : Option (Entry LVal)) (new : Option Nat) : Option Nat :=
  match old with
  | some (_, l) => l
  | none => new

/-- The ledger afterwards. -/
def ledgerAfter (E : HEnv) (s : Host) (id : Nat) : DataOp → Ledger LKey LVal
  | .put k v d => fun k' => if k' = .data (.contract id) k d then
      some (.data v, keptLifetime (visible E s k') (E.sto.li.minLiveUntil d)) else visible E s k'
  | .del k d => fun k' => if k' = .data (.contract id) k d then none else visible E s k'
  | .extend k d t x => extendedLedger (visible E s) [.data (.contract id) k d]
      ((Ext.upTo t x).lifetime E.sto.li.seq (E.sto.li.maxLiveUntil.getD 0))
  | .extendV2 k d x a b => extendedLedger (visible E s) [.data (.contract id) k d]
      ((Ext.between x a b).lifetime E.sto.li.seq (E.sto.li.maxLiveUntil.getD 0))
  | .putClassic n v => fun k' => if k' = .classic n then some (.classic v, keptLifetime (visible E s k') none) else visible E s k'
  | _ => visible E s

/-- Lifetimes are 32-bit numbers. -/
def Lifetimes32 (E : HEnv) (s : Host) : Prop := ∀ k v l, visible E s k = some (v, some l) → l ≤ u32Max

end Soroban.Host.Spec
