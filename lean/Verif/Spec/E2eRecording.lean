import Verif.Model.E2eRecording
import Verif.Spec.E2e
/-! What preflight should report, in terms of the transaction that is submitted afterwards. -/
namespace Soroban.E2e.Spec
open Soroban Soroban.Storage Soroban.Storage.Spec Soroban.E2e Soroban.Host Soroban.Host.Spec Soroban.Auth

section
variable {K V : Type} [DecidableEq K]

/-- The entry has a lifetime that is over, and is kept in the archive. -/
def archived (E : Env K V) (src : K → Option (Entry V)) (k : K) : Bool :=
  match src k with
  | some (_, some l) => decide (l < E.li.seq) && decide (E.keys.durability k = some .persistent)
  | _ => false

/-- What the network supplies for a declared key when the transaction is applied: the entry as contracts may see it. An entry from the
archive comes with the least lifetime of a restored entry, an expired temporary entry does not exist. -/
def supplied (E : Env K V) (P : Sizes K V) (src : K → Option (Entry V)) (k : K) : Option V × Option TtlMeta :=
  match view E k (src k) with
  | none => (none, none)
  | some (v, l) => (some v, l.map (fun l => { liveUntil := l, sizeForRent := P.sizeForRent v }))

/-- The length of an entry that is read from disk: it is archived or not a contract entry. -/
def diskLen (E : Env K V) (len : V → Nat) (src : K → Option (Entry V)) (k : K) : Nat :=
  match src k with
  | some (v, _) => if archived E src k ∨ E.keys.durability k = none then len v else 0
  | none => 0

/-- The length of an entry that is written. -/
def writeLen (len : V → Nat) (c : Change K V) : Nat :=
  if c.readOnly then 0 else (c.newValue.map len).getD 0

/-- Two changes that are the same for an embedder: they are equal, except that the old size and old lifetime of an entry that is removed
may differ, for which no rent is due either way. -/
structure SameChange (c c' : Change K V) : Prop where
  key : c'.key = c.key
  access : c'.readOnly = c.readOnly
  value : c'.newValue = c.newValue
  live : c'.ttl.map LiveUntilChange.newLiveUntil = c.ttl.map LiveUntilChange.newLiveUntil
  same : ¬ (c.readOnly = false ∧ c.newValue = none) → c' = c
  rent : rentChange c' = rentChange c

end

variable {X : Type}

/-- The transaction with the footprint, the restored entries and the authorization that preflight has returned. -/
def submitted (E : HEnv) (R : RecInput X) (out : RecOutput X) : Input X :=
  { hostFn := R.hostFn
    footprint := out.footprint
    restored := out.restored
    auth := out.auth
    entries := (out.footprint.readOnly ++ out.footprint.readWrite).map (supplied E.sto R.sizes R.snapshot)
    sizes := R.sizes
    encodeResult := R.encodeResult
    encodeEvent := R.encodeEvent }

/-- The host at the end of preflight, and the result of the host function. -/
def recEnded (E : HEnv) (R : RecInput X) : Host × Res RVal :=
  invoke E (Host.init { footprint := [], mode := .recording R.snapshot, map := [] } R.auth) R.hostFn

/-- A declared key that was used only by calls that failed, so that nothing is left of it in the storage. -/
def onlyInFailedCalls (E : HEnv) (R : RecInput X) (k : LKey) : Bool := ((recEnded E R).1.st.map.get k).isNone

/-- Reasonable inputs: the code of recording mode is compiled in, contract entries of the snapshot have a lifetime and others have none,
restored entries can live for the minimum lifetime, and the authorization entries are as decoded. -/
structure RecInputOk (E : HEnv) (R : RecInput X) : Prop where
  keys : E.sto.keys = keysOf
  feature : E.sto.feature = true
  snapshot : ∀ k v l, R.snapshot k = some (v, l) → l.isSome = (E.sto.keys.durability k).isSome
  min : (E.sto.li.minLiveUntil .persistent).isSome
  auth : Fresh R.auth

end Soroban.E2e.Spec
