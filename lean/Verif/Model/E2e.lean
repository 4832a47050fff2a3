import Verif.Model.Host
import Verif.Model.Fees
/-!
Model of soroban-env-host/src/e2e_invoke.rs: invocation of a host function in enforcing mode, from the inputs of the embedder to
the ledger changes and events it gets back.

Simplifications: the XDR encodings of keys, entries, results and authorization entries are the things themselves, and
decoding them does not fail; encoding a result or converting an event may fail, which are parameters. Metering, the trace hook, the module
cache, the PRNG seed and diagnostic events (see `Verif/Model/Events.lean`) are left out.
-/
namespace Soroban.E2e
open Soroban Soroban.Storage

section
variable {K V : Type} [DecidableEq K]

/-- XDR `LedgerFootprint`. -/
structure LedgerFootprint (K : Type) where
  readOnly : List K
  readWrite : List K

/-- e2e_invoke.rs:41-44 `TtlLedgerEntryMeta`: the live-until ledger of an entry and its size for rent. -/
structure TtlMeta where
  liveUntil : Nat
  sizeForRent : Nat

/-- What the code needs to know of entries: e2e_invoke.rs:427-443 `entry_size_for_rent` of the encoded entry (the XDR size, and the
memory cost of Wasm), and whether the type of a key is `LedgerEntryType::ContractCode`. -/
structure Sizes (K V : Type) where
  sizeForRent : V → Nat
  isCode : K → Bool

/-- e2e_invoke.rs:126-138 `LedgerEntryLiveUntilChange`; the hash of the key is left out, the entry type reduced to whether it is code. -/
structure LiveUntilChange where
  isCode : Bool
  durability : Durability
  oldLiveUntil : Nat
  newLiveUntil : Nat
  deriving DecidableEq, Repr

/-- e2e_invoke.rs:104-123 `LedgerEntryChange`. -/
structure Change (K V : Type) where
  readOnly : Bool
  key : K
  oldSize : Nat
  newValue : Option V
  newSize : Nat
  ttl : Option LiveUntilChange
  deriving DecidableEq, Repr

/-- e2e_invoke.rs:179-184 `storage_internal_error`. -/
def storageInternal : Err := .host .storage .internalError

/-- e2e_invoke.rs:186-191 `context_internal_error`. -/
def contextInternal : Err := .host .context .internalError

/-- e2e_invoke.rs:156-166, the loop of `build_restored_key_set`. -/
def restoredKeys (rw : List K) : List Nat → Res (List K)
  | [] => .ok []
  | i :: is => match rw[i]? with
    | none => .error storageInternal
    | some k => do
      let r ← restoredKeys rw is
      return k :: r

/-- e2e_invoke.rs:146-169 `build_restored_key_set` -/
def buildRestoredKeySet (fp : LedgerFootprint K) (indices : List Nat) : Res (Option (List K)) :=
  if indices.isEmpty then .ok none else do
    let ks ← restoredKeys fp.readWrite indices
    return some ks

/-- e2e_invoke.rs:1041-1057, the loops of `build_storage_footprint_from_xdr`. -/
def addKeys (keys : Keys K V) (a : Access) : List K → FMap K Access → Res (FMap K Access)
  | [], m => .ok m
  | k :: ks, m => if keys.supported k then addKeys keys a ks (m.insert k a) else .error storageInternal

/-- e2e_invoke.rs:1035-1059 `build_storage_footprint_from_xdr` -/
def buildFootprint (keys : Keys K V) (fp : LedgerFootprint K) : Res (FMap K Access) := do
  let m ← addKeys keys .readWrite fp.readWrite []
  addKeys keys .readOnly fp.readOnly m

/-- e2e_invoke.rs:1096-1164, the entry of the storage map for one input. -/
def initialEntry (E : Env K V) (k : K) (entry : Option V) (ttl : Option TtlMeta) : Res (Option (Entry V)) :=
  match entry with
  | some v =>
    match ttl, E.keys.durability k with
    | some t, some _ => if t.liveUntil < E.li.seq then .error storageInternal else .ok (some (v, some t.liveUntil))
    | none, none => .ok (some (v, none))
    | _, _ => .error storageInternal
  | none => if ttl.isSome then .error storageInternal else .ok none

/-- e2e_invoke.rs:1091-1166, the loop of `build_storage_map_from_xdr_ledger_entries`. -/
def addEntries (E : Env K V) : List (K × Option V × Option TtlMeta) → FMap K (Option (Entry V)) → List (Option Nat) →
    Res (FMap K (Option (Entry V)) × List (Option Nat))
  | [], m, sizes => .ok (m, sizes)
  | (k, entry, ttl) :: rest, m, sizes =>
    if E.keys.supported k then do
      let e ← initialEntry E k entry ttl
      addEntries E rest (m.insert k e) (sizes ++ [ttl.map TtlMeta.sizeForRent])
    else .error storageInternal

/-- e2e_invoke.rs:1061-1169 `build_storage_map_from_xdr_ledger_entries`, not in recording mode. -/
def buildStorageMap (E : Env K V) (fp : LedgerFootprint K) (entries : List (Option V × Option TtlMeta)) :
    Res (FMap K (Option (Entry V)) × List (Option Nat)) :=
  if fp.readOnly.length + fp.readWrite.length ≠ entries.length then .error storageInternal
  else addEntries E ((fp.readOnly ++ fp.readWrite).zip entries) [] []

/-- e2e_invoke.rs:1185-1195 `get_live_until_ledger` of the initial storage map. -/
def initLiveUntil (init : FMap K (Option (Entry V))) (k : K) : Option (Option Nat) :=
  match init.get k with
  | some (some (_, l)) => some l
  | some none => none
  | none => none

/-- e2e_invoke.rs:248-262: a change with its key and, for keys with a durability, no lifetimes yet. -/
def emptyChange (E : Env K V) (P : Sizes K V) (k : K) : Change K V :=
  { readOnly := false, key := k, oldSize := 0, newValue := none, newSize := 0
    ttl := (E.keys.durability k).map (fun d => { isCode := P.isCode k, durability := d, oldLiveUntil := 0, newLiveUntil := 0 }) }

/-- e2e_invoke.rs:271-300: the old lifetime and size. -/
def withOld (E : Env K V) (init : K → Option (Option Nat)) (size : Option Nat) (c : Change K V) : Res (Change K V) :=
  match init c.key with
  | some live =>
    if size.isSome ≠ live.isSome then .error storageInternal
    else match c.ttl with
      | none => .ok c
      | some t =>
        match size, live with
        | some sz, some l =>
          if E.feature ∧ l < E.li.seq then .ok { c with oldSize := 0, ttl := some { t with oldLiveUntil := 0 } }
          else .ok { c with oldSize := sz, ttl := some { t with oldLiveUntil := l } }
        | _, _ => .error storageInternal
  | none => if size.isSome then .error storageInternal else .ok c

/-- e2e_invoke.rs:302-310: the new lifetime. -/
def withNew (new : Option (Entry V)) (c : Change K V) : Res (Change K V) :=
  match new with
  | some (_, live) => match c.ttl with
    | some t => match live with
      | some l => .ok { c with ttl := some { t with newLiveUntil := max l t.oldLiveUntil } }
      | none => .error storageInternal
    | none => .ok c
  | none => .ok c

/-- e2e_invoke.rs:327-337: restored entries count as new. -/
def withRestored (restored : Option (List K)) (minLiveUntil : Nat) (c : Change K V) : Change K V :=
  match restored with
  | some ks =>
    if c.key ∈ ks then
      { c with
        oldSize := 0
        ttl := c.ttl.map (fun t => { t with oldLiveUntil := 0, newLiveUntil := max t.newLiveUntil minLiveUntil }) }
    else c
  | none => c

/-- e2e_invoke.rs:311-340: the new value. -/
def withValue (P : Sizes K V) (restored : Option (List K)) (minLiveUntil : Nat) (a : Access) (new : Option (Entry V))
    (c : Change K V) : Change K V :=
  match a with
  | .readOnly => { c with readOnly := true }
  | .readWrite => match new with
    | some (v, _) => withRestored restored minLiveUntil { c with newSize := P.sizeForRent v, newValue := some v }
    | none => c

/-- e2e_invoke.rs:238-342, the loop of `get_ledger_changes`. `init` is the `EntryTTLSource`. -/
def ledgerChanges (E : Env K V) (P : Sizes K V) (final : FMap K (Option (Entry V))) (init : K → Option (Option Nat)) (minLiveUntil : Nat)
    (restored : Option (List K)) : List ((Access × K) × Option Nat) → Res (List (Change K V))
  | [] => .ok []
  | ((a, k), size) :: rest =>
    match final.get k with
    | none => ledgerChanges E P final init minLiveUntil restored rest
    | some new => do
      let c ← withOld E init size (emptyChange E P k)
      let c ← withNew new c
      let r ← ledgerChanges E P final init minLiveUntil restored rest
      return withValue P restored minLiveUntil a new c :: r

/-- e2e_invoke.rs:209-344 `get_ledger_changes` -/
def getLedgerChanges (E : Env K V) (P : Sizes K V) (final : FMap K (Option (Entry V))) (init : K → Option (Option Nat)) (fp : LedgerFootprint K)
    (sizes : List (Option Nat)) (minLiveUntil : Nat) (restored : Option (List K)) : Res (List (Change K V)) :=
  if fp.readOnly.length + fp.readWrite.length ≠ sizes.length then .error storageInternal
  else ledgerChanges E P final init minLiveUntil restored
    ((fp.readOnly.map (fun k => (Access.readOnly, k)) ++ fp.readWrite.map (fun k => (Access.readWrite, k))).zip sizes)

/-- e2e_invoke.rs:383-413, one iteration of `extract_rent_changes`. -/
def rentChange (c : Change K V) : Option Fees.RentChange :=
  match c.ttl with
  | none => none
  | some t =>
    let newSize := if c.newValue.isSome then c.newSize else c.oldSize
    if t.oldLiveUntil ≥ t.newLiveUntil ∧ c.oldSize ≥ newSize then none
    else some
      { isPersistent := t.durability = .persistent
        isCodeEntry := t.isCode
        oldSizeBytes := c.oldSize
        newSizeBytes := newSize
        oldLiveUntilLedger := t.oldLiveUntil
        newLiveUntilLedger := t.newLiveUntil }

/-- e2e_invoke.rs:380-417 `extract_rent_changes` -/
def extractRentChanges (cs : List (Change K V)) : List Fees.RentChange := cs.filterMap rentChange

end

open Soroban.Host Soroban.Auth

/-- The inputs of `invoke_host_function`, decoded, and what can fail after the invocation: encoding the result and converting an
event. -/
structure Input (X : Type) where
  hostFn : HostFn
  footprint : LedgerFootprint LKey
  restored : List Nat
  auth : List Acct
  entries : List (Option LVal × Option TtlMeta)
  sizes : Sizes LKey LVal
  encodeResult : RVal → Res RVal
  encodeEvent : Ev → Res X

/-- e2e_invoke.rs:47-64 `InvokeHostFunctionResult`. -/
structure Output (X : Type) where
  result : Res RVal
  changes : List (Change LKey LVal)
  events : List X

variable {X : Type}

/-- events/internal.rs:211-249 `externalize`, which converts all events, also those of failed calls. -/
def externalizeAll (f : Ev → Res X) : List (Ev × Bool) → Res (List (X × Bool))
  | [] => .ok []
  | (e, failed) :: rest => do
    let x ← f e
    let r ← externalizeAll f rest
    return (x, failed) :: r

/-- e2e_invoke.rs:1007-1022 `encode_contract_events` -/
def contractEvents (evs : List (X × Bool)) : List X := (evs.filter (fun e => !e.2)).map Prod.fst

/-- e2e_invoke.rs:492-508: the storage of the transaction, its initial sizes, the restored keys and the lifetime of restored entries. -/
def setup (E : HEnv) (I : Input X) : Res (Store LKey LVal × List (Option Nat) × Option (List LKey) × Nat) := do
  let restored ← buildRestoredKeySet I.footprint I.restored
  let fp ← buildFootprint E.sto.keys I.footprint
  let minLive ← match E.sto.li.minLiveUntil .persistent with
    | some m => (Except.ok m : Res Nat)
    | none => .error contextInternal
  let (map, sizes) ← buildStorageMap E.sto I.footprint I.entries
  return ({ footprint := fp, mode := .enforcing, map := map }, sizes, restored, minLive)

/-- e2e_invoke.rs:539-577: what is returned after the invocation. -/
def collect (E : HEnv) (I : Input X) (init : Store LKey LVal) (sizes : List (Option Nat)) (restored : Option (List LKey)) (minLive : Nat)
    (r : Host × Res RVal) : Res (Output X) := do
  let events ← externalizeAll I.encodeEvent r.1.events
  match r.2.bind I.encodeResult with
  | .ok v =>
    let changes ← getLedgerChanges E.sto I.sizes r.1.st.map (initLiveUntil init.map) I.footprint sizes minLive restored
    return { result := .ok v, changes := changes, events := contractEvents events }
  | .error e => return { result := .error e, changes := [], events := [] }

/-- e2e_invoke.rs:470-578 `invoke_host_function` -/
def invokeHostFunction (E : HEnv) (I : Input X) : Res (Output X) :=
  match setup E I with
  | .error e => .error e
  | .ok (st, sizes, restored, minLive) => collect E I st sizes restored minLive (invoke E (Host.init st I.auth) I.hostFn)

end Soroban.E2e
