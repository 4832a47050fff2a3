import Verif.Model.E2e
import Verif.Model.Arith

/-!
# Preflight: `invoke_host_function_in_recording_mode`

Models soroban-env-host/src/e2e_invoke.rs:602-619 and 752-1004, with `RecordingInvocationAuthMode::Enforcing`: the transaction is run with
given authorization entries against a ledger snapshot, its footprint is recorded on the way, and the resources and ledger changes are
computed from what was recorded. Not modelled: XDR round trips, metering and the instruction count, diagnostics. Recording of
authorizations has its own model (`Verif.Model.Recording`).
-/

namespace Soroban.E2e

open Soroban.Storage

section
variable {K V : Type} [DecidableEq K]

/-- e2e_invoke.rs:602-619 `storage_footprint_to_ledger_footprint`. The order of the keys is the order of the footprint map; the code's map
is sorted. -/
def ledgerFootprint (fp : FMap K Access) : LedgerFootprint K :=
  { readOnly := (fp.filter (fun x => x.2 = .readOnly)).map Prod.fst
    readWrite := (fp.filter (fun x => x.2 = .readWrite)).map Prod.fst }

/-- e2e_invoke.rs:842-858: the declared keys, with the position of each read-write key. -/
def indexedKeys (fp : LedgerFootprint K) : List (Option Nat × K) :=
  fp.readOnly.map (fun k => (none, k)) ++ fp.readWrite.zipIdx.map (fun x => (some x.2, x.1))

/-- What e2e_invoke.rs:836-840 accumulates over the declared keys. -/
structure Snap (K V : Type) where
  diskBytes : Nat
  restoredIds : List Nat
  restoredKeys : List K
  entries : List (Option V × Option TtlMeta)

/-- e2e_invoke.rs:859-905, one iteration: a declared key's entry in the snapshot. -/
def snapKey (E : Env K V) (P : Sizes K V) (len : V → Nat) (src : K → Option (Entry V)) (x : Option Nat × K) (acc : Snap K V) :
    Res (Snap K V) :=
  match src x.2 with
  | none => .ok { acc with entries := acc.entries ++ [(none, none)] }
  | some (v, live) =>
    match E.keys.durability x.2 with
    | some d =>
      match live with
      | none => .error storageInternal
      | some l =>
        let item := (some v, some { liveUntil := l, sizeForRent := P.sizeForRent v : TtlMeta })
        if l < E.li.seq ∧ d = .persistent then
          match x.1 with
          | none => .error storageInternal
          | some i =>
            .ok { diskBytes := satAddU32 acc.diskBytes (len v)
                  restoredIds := acc.restoredIds ++ [i]
                  restoredKeys := acc.restoredKeys ++ [x.2]
                  entries := acc.entries ++ [item] }
        else .ok { acc with entries := acc.entries ++ [item] }
    | none => .ok { acc with diskBytes := satAddU32 acc.diskBytes (len v), entries := acc.entries ++ [(some v, none)] }

/-- e2e_invoke.rs:859-905, the loop. -/
def snapKeys (E : Env K V) (P : Sizes K V) (len : V → Nat) (src : K → Option (Entry V)) : List (Option Nat × K) → Snap K V →
    Res (Snap K V)
  | [], acc => .ok acc
  | x :: rest, acc => do
    let acc ← snapKey E P len src x acc
    snapKeys E P len src rest acc

/-- e2e_invoke.rs:1085-1161 with `is_recording_mode`: whether an entry and its lifetime fit together. The storage map built there is only
used for metering and is left out. -/
def checkEntry (E : Env K V) (k : K) (entry : Option V) (ttl : Option TtlMeta) : Res Unit :=
  if E.keys.supported k then
    match entry with
    | some _ => match ttl, E.keys.durability k with
      | some _, some _ => .ok ()
      | none, none => .ok ()
      | _, _ => .error storageInternal
    | none => if ttl.isSome then .error storageInternal else .ok ()
  else .error storageInternal

/-- e2e_invoke.rs:1061-1169 `build_storage_map_from_xdr_ledger_entries` in recording mode: the initial sizes. -/
def initialSizes (E : Env K V) : List (K × Option V × Option TtlMeta) → Res (List (Option Nat))
  | [] => .ok []
  | (k, entry, ttl) :: rest => do
    let _ ← checkEntry E k entry ttl
    let r ← initialSizes E rest
    return ttl.map TtlMeta.sizeForRent :: r

/-- e2e_invoke.rs:1199-1214 `get_live_until_ledger` of the snapshot. -/
def snapshotLiveUntil (src : K → Option (Entry V)) (k : K) : Option (Option Nat) := (src k).map Prod.snd

/-- e2e_invoke.rs:356-373 `add_footprint_only_ledger_changes` -/
def footprintOnly (st : Store K V) : List (Change K V) :=
  (st.footprint.filter (fun x => (st.map.get x.1).isNone)).map (fun x =>
    { readOnly := decide (x.2 = .readOnly), key := x.1, oldSize := 0, newValue := none, newSize := 0, ttl := none })

/-- e2e_invoke.rs:981-990, one iteration: the bytes written so far. -/
def addWrite (len : V → Nat) (acc : Nat) (c : Change K V) : Nat :=
  if c.readOnly then acc
  else match c.newValue with
    | some v => satAddU32 acc (len v)
    | none => acc

/-- e2e_invoke.rs:981-990: the bytes written. -/
def writeBytes (len : V → Nat) (cs : List (Change K V)) : Nat := cs.foldl (addWrite len) 0

end

section
open Soroban.Host Soroban.Auth

/-- The inputs of `invoke_host_function_in_recording_mode` with given authorization entries. `len`, `resultLen` and `eventLen` are the
lengths of the encodings, as 32-bit numbers. -/
structure RecInput (X : Type) where
  hostFn : HostFn
  auth : List Acct
  snapshot : LKey → Option (Entry LVal)
  sizes : Sizes LKey LVal
  encodeResult : RVal → Res RVal
  encodeEvent : Ev → Res X
  len : LVal → Nat
  resultLen : RVal → Nat
  eventLen : X → Nat

/-- e2e_invoke.rs:67-97 `InvokeHostFunctionRecordingModeResult`, without the instruction count. -/
structure RecOutput (X : Type) where
  result : Res RVal
  footprint : LedgerFootprint LKey
  diskReadBytes : Nat
  writeBytes : Nat
  restored : List Nat
  auth : List Acct
  changes : List (Change LKey LVal)
  events : List X
  eventsAndReturnSize : Nat

variable {X : Type}

/-- e2e_invoke.rs:786-789: the result must be encodable. -/
def encodedResult (I : RecInput X) : Res RVal → Res (Res RVal)
  | .ok v => (I.encodeResult v).map .ok
  | .error e => .ok (.error e)

/-- e2e_invoke.rs:785-1003: what is returned after the invocation. -/
def recCollect (E : HEnv) (I : RecInput X) (minLive : Nat) (r : Host × Res RVal) : Res (RecOutput X) := do
  let result ← encodedResult I r.2
  let fp := ledgerFootprint r.1.st.footprint
  let _ ← buildFootprint E.sto.keys fp
  let snap ← snapKeys E.sto I.sizes I.len I.snapshot (indexedKeys fp) { diskBytes := 0, restoredIds := [], restoredKeys := [], entries := [] }
  let sizes ← initialSizes E.sto ((fp.readOnly ++ fp.readWrite).zip snap.entries)
  let events ← externalizeAll I.encodeEvent r.1.events
  match result with
  | .ok v =>
    let changes ← getLedgerChanges E.sto I.sizes r.1.st.map (snapshotLiveUntil I.snapshot) fp sizes minLive
      (if snap.restoredKeys = [] then none else some snap.restoredKeys)
    let all := changes ++ footprintOnly r.1.st
    let evs := contractEvents events
    return { result := .ok v, footprint := fp, diskReadBytes := snap.diskBytes, writeBytes := writeBytes I.len all
             restored := snap.restoredIds, auth := I.auth, changes := all, events := evs
             eventsAndReturnSize := evs.foldl (fun n e => satAddU32 n (I.eventLen e)) (satAddU32 0 (I.resultLen v)) }
  | .error e =>
    return { result := .error e, footprint := fp, diskReadBytes := snap.diskBytes, writeBytes := writeBytes I.len ([] : List (Change LKey LVal))
             restored := snap.restoredIds, auth := I.auth, changes := [], events := [], eventsAndReturnSize := 0 }

/-- e2e_invoke.rs:752-1004 `invoke_host_function_in_recording_mode` -/
def recordInvocation (E : HEnv) (I : RecInput X) : Res (RecOutput X) :=
  match E.sto.li.minLiveUntil .persistent with
  | none => .error contextInternal
  | some m =>
    recCollect E I m (invoke E (Host.init { footprint := [], mode := .recording I.snapshot, map := [] } I.auth) I.hostFn)

end

end Soroban.E2e
