import Verif.Model.E2e
import Verif.Spec.Storage
import Verif.Spec.Host
/-! What an invocation should report, in terms of the ledgers before and after it. -/
namespace Soroban.E2e.Spec
open Soroban Soroban.Storage Soroban.Storage.Spec Soroban.E2e Soroban.Host Soroban.Host.Spec Soroban.Auth

section
variable {K V : Type} [DecidableEq K]

/-- The declared keys with the given entries, in the order of the footprint: read-only keys first. -/
def items (fp : LedgerFootprint K) (entries : List (Option V × Option TtlMeta)) : List ((Access × K) × (Option V × Option TtlMeta)) :=
  (fp.readOnly.map (fun k => (Access.readOnly, k)) ++ fp.readWrite.map (fun k => (Access.readWrite, k))).zip entries

/-- The ledger that the embedder has given: only what is declared, with the given lifetimes. -/
def givenLedger (fp : LedgerFootprint K) (entries : List (Option V × Option TtlMeta)) : Ledger K V :=
  (items fp entries).foldl (fun L x => L.set x.1.2 (x.2.1.map (fun v => (v, x.2.2.map TtlMeta.liveUntil)))) (fun _ => none)

/-- The live-until ledger of an entry, or 0. -/
def liveOf (e : Option (Entry V)) : Nat := match e with
  | some (_, some l) => l
  | _ => 0

/-- The keys at the given positions of the read-write footprint. -/
def IsRestored (fp : LedgerFootprint K) (restored : List Nat) (k : K) : Prop := ∃ i ∈ restored, fp.readWrite[i]? = some k

/-- The change reported for a key, with the access that was declared for it and the entry that was given for it, where the ledger was
`L` before and is `L'` after the invocation. `m` is the least lifetime of a restored entry. -/
structure ChangeOk (keys : Keys K V) (P : Sizes K V) (m : Nat) (restored : K → Prop) (L L' : Ledger K V) (x : (Access × K) × (Option V × Option TtlMeta))
    (c : Change K V) : Prop where
  /-- it is about that key -/
  key : c.key = x.1.2
  /-- and says whether the key is read-only -/
  access : c.readOnly = true ↔ x.1.1 = .readOnly
  /-- it has the new value exactly if the key is read-write and the entry still exists -/
  value : c.newValue = if x.1.1 = .readWrite then valueOf (L' x.1.2) else none
  /-- with its size -/
  size : ∀ v, c.newValue = some v → c.newSize = P.sizeForRent v
  /-- lifetimes are reported for contract data and code -/
  hasTtl : c.ttl.map LiveUntilChange.durability = keys.durability x.1.2
  code : ∀ t, c.ttl = some t → t.isCode = P.isCode x.1.2
  /-- the old lifetime and size are those given, 0 if the entry did not exist or has been restored -/
  old : ∀ t, c.ttl = some t → ¬ (x.1.1 = .readWrite ∧ restored x.1.2 ∧ (L' x.1.2).isSome) → t.oldLiveUntil = liveOf (L x.1.2) ∧
    c.oldSize = (x.2.2.map TtlMeta.sizeForRent).getD 0
  oldRestored : ∀ t, c.ttl = some t → x.1.1 = .readWrite → restored x.1.2 → (L' x.1.2).isSome → t.oldLiveUntil = 0 ∧ c.oldSize = 0
  /-- the new lifetime is that of the entry, but never less than the old one, nor, if it has been restored, than the minimum -/
  new : ∀ t, c.ttl = some t → (L' x.1.2).isSome → ¬ (x.1.1 = .readWrite ∧ restored x.1.2) → t.newLiveUntil = max (liveOf (L' x.1.2)) (liveOf (L x.1.2))
  newRestored : ∀ t, c.ttl = some t → (L' x.1.2).isSome → x.1.1 = .readWrite → restored x.1.2 →
    t.newLiveUntil = max (max (liveOf (L' x.1.2)) (liveOf (L x.1.2))) m
  /-- a removed entry has no new lifetime -/
  removed : ∀ t, c.ttl = some t → L' x.1.2 = none → t.newLiveUntil = 0

/-- What an embedder does with a change. For a read-only key it changes the lifetime only. -/
def applyChange (L : Ledger K V) (c : Change K V) : Ledger K V :=
  if c.readOnly then match L c.key with
    | some (v, _) => L.set c.key (some (v, c.ttl.map LiveUntilChange.newLiveUntil))
    | none => L
  else L.set c.key (c.newValue.map (fun v => (v, c.ttl.map LiveUntilChange.newLiveUntil)))

/-- What an embedder does with the changes of an invocation. -/
def applyChanges (L : Ledger K V) (cs : List (Change K V)) : Ledger K V := cs.foldl applyChange L

/-- All changes to entries with a lifetime, as input of the rent computation. -/
def allRentChanges (cs : List (Change K V)) : List Fees.RentChange := cs.filterMap (fun c => c.ttl.map (fun t =>
  { isPersistent := t.durability = .persistent
    isCodeEntry := t.isCode
    oldSizeBytes := c.oldSize
    newSizeBytes := if c.newValue.isSome then c.newSize else c.oldSize
    oldLiveUntilLedger := t.oldLiveUntil
    newLiveUntilLedger := t.newLiveUntil }))

end

variable {X : Type}

/-- The host at the end of the invocation, and the result of the host function. -/
def ended (E : HEnv) (I : Input X) : Option (Host × Res RVal) :=
  match setup E I with
  | .ok (st, _) => some (invoke E (Host.init st I.auth) I.hostFn)
  | .error _ => none

/-- The ledger as contracts see it at the end of the invocation. -/
def finalLedger (E : HEnv) (I : Input X) : Ledger LKey LVal := match ended E I with
  | some (s, _) => visible E s
  | none => fun _ => none

/-- Reasonable inputs: the authorization entries are as decoded. -/
structure InputOk (E : HEnv) (I : Input X) : Prop where
  keys : E.sto.keys = keysOf
  auth : Fresh I.auth

end Soroban.E2e.Spec
