import Verif.Model.Arith
import Verif.Model.Err
import Verif.Model.FMap
/-!
Model of soroban-env-host/src/storage.rs, ledger_info.rs and the contract data functions of host/data_helper.rs.

Functions that mutate the storage return the new storage together with the result, because some mutations survive a failure.
Metering is not modelled here (see `Verif/Model/Budget.lean`). Entries are kept decoded: the lazy decoding of
host/ledger_entry.rs:74-83 and the check at storage.rs:288-300 that the decoded entry has the key it is stored under are in
`Verif/Model/LazyEntry.lean`, and cannot be observed if the entries that are read are sound (C96). Snapshot sources do not fail.
-/
namespace Soroban.Storage
open Soroban

/-- XDR `ContractDataDurability`. -/
inductive Durability where
  | temporary | persistent
  deriving DecidableEq, Repr

/-- ledger_info.rs:4-13 `LedgerInfo`, the fields used by storage. -/
structure LedgerInfo where
  seq : Nat
  minTemp : Nat
  minPersistent : Nat
  maxTtl : Nat
  deriving DecidableEq, Repr

/-- ledger_info.rs:16-23 `min_live_until_ledger_checked`. -/
def LedgerInfo.minLiveUntil (li : LedgerInfo) (d : Durability) : Option Nat :=
  checkedAddU32 li.seq ((match d with | .temporary => li.minTemp | .persistent => li.minPersistent) - 1)

/-- ledger_info.rs:25-30 `max_live_until_ledger_checked`. -/
def LedgerInfo.maxLiveUntil (li : LedgerInfo) : Option Nat := checkedAddU32 li.seq (li.maxTtl - 1)

/-- What storage needs to know about ledger keys and entries: storage.rs:211-218 `check_supported_ledger_entry_type`,
storage.rs:225-232 `check_supported_ledger_key_type`, ledger_info.rs:33-39 `get_key_durability`. -/
structure Keys (K V : Type) where
  supported : K → Bool
  entrySupported : V → Bool
  durability : K → Option Durability

/-- storage.rs:77-84 `AccessType`. -/
inductive Access where
  | readOnly | readWrite
  deriving DecidableEq, Repr

/-- storage.rs:29 `EntryWithLiveUntil`. -/
abbrev Entry (V : Type) := V × Option Nat

/-- storage.rs:162-167 `FootprintMode`; the snapshot source is a function. -/
inductive Mode (K V : Type) where
  | recording (src : K → Option (Entry V))
  | enforcing

/-- storage.rs:183-187 `Storage`. -/
structure Store (K V : Type) where
  footprint : FMap K Access
  mode : Mode K V
  map : FMap K (Option (Entry V))

section
variable {K V : Type} [DecidableEq K]

/-- storage.rs:110-132 `record_access`. -/
def recordAccess (fp : FMap K Access) (k : K) (ty : Access) : FMap K Access :=
  match fp.get k with
  | some existing =>
    match existing, ty with
    | .readOnly, .readOnly => fp
    | .readOnly, .readWrite => fp.insert k ty
    | .readWrite, .readOnly => fp
    | .readWrite, .readWrite => fp
  | none => fp.insert k ty

/-- storage.rs:134-158 `enforce_access`. -/
def enforceAccess (fp : FMap K Access) (k : K) (ty : Access) : Res Unit :=
  match fp.get k with
  | some existing =>
    match existing, ty with
    | .readOnly, .readOnly => .ok ()
    | .readOnly, .readWrite => .error (.host .storage .exceededLimit)
    | .readWrite, .readOnly => .ok ()
    | .readWrite, .readWrite => .ok ()
  | none => .error (.host .storage .exceededLimit)

/-- Everything the storage functions read but do not change: the kinds of keys, the ledger, and whether the host is built with
the `recording_mode` feature (storage.rs:381, 490). -/
structure Env (K V : Type) where
  keys : Keys K V
  li : LedgerInfo
  feature : Bool

/-- storage.rs:808-857 `handle_maybe_expired_entry`. -/
def handleMaybeExpired (E : Env K V) (s : Store K V) (k : K) : Store K V × Res Unit :=
  match s.map.get k with
  | some (some (entry, liveUntil)) =>
    match E.keys.durability k with
    | none => (s, .ok ())
    | some d =>
      match liveUntil with
      | none => (s, .error (.host .storage .internalError))
      | some l =>
        if l < E.li.seq then
          match d with
          | .temporary => ({ s with map := s.map.insert k none }, .ok ())
          | .persistent =>
            let s := { s with footprint := recordAccess s.footprint k .readWrite }
            match E.li.minLiveUntil .persistent with
            | none => (s, .error (.host .storage .internalError))
            | some m => ({ s with map := s.map.insert k (some (entry, some m)) }, .ok ())
        else (s, .ok ())
  | _ => (s, .ok ())

/-- storage.rs:110-132, `record_access` on the storage's own footprint. -/
def Store.record (s : Store K V) (k : K) (ty : Access) : Store K V := { s with footprint := recordAccess s.footprint k ty }

/-- storage.rs:761-794, reading through to the snapshot if the map does not have the key. -/
def Store.load (s : Store K V) (src : K → Option (Entry V)) (k : K) : Store K V :=
  if s.map.contains k then s else { s with map := s.map.insert k (src k) }

/-- storage.rs:752-805 `prepare_read_only_access`. -/
def prepareReadOnly (E : Env K V) (s : Store K V) (k : K) : Store K V × Res Unit :=
  match s.mode with
  | .recording src => handleMaybeExpired E (((s.record k .readOnly).load src k).record k .readOnly) k
  | .enforcing => (s, enforceAccess s.footprint k .readOnly)

/-- storage.rs:260-274 `try_get_host_ledger_entry`. -/
def tryGet (E : Env K V) (s : Store K V) (k : K) : Store K V × Res (Option (Entry V)) :=
  if E.keys.supported k then
    match prepareReadOnly E s k with
    | (s, .error e) => (s, .error e)
    | (s, .ok ()) =>
      match s.map.get k with
      | none => (s, .error (.host .storage .internalError))
      | some v => (s, .ok v)
  else (s, .error (.host .storage .internalError))

/-- storage.rs:357-368 `get_with_live_until_ledger` (and `get`, storage.rs:319-329, which drops the second component). -/
def getEntry (E : Env K V) (s : Store K V) (k : K) : Store K V × Res (Entry V) :=
  match tryGet E s k with
  | (s, .error e) => (s, .error e)
  | (s, .ok none) => (s, .error (.host .storage .missingValue))
  | (s, .ok (some e)) => (s, .ok e)

/-- storage.rs:466-477 `has`. -/
def has (E : Env K V) (s : Store K V) (k : K) : Store K V × Res Bool :=
  match tryGet E s k with
  | (s, .error e) => (s, .error e)
  | (s, .ok v) => (s, .ok v.isSome)

/-- storage.rs:384-392, the access check of a write. -/
def accessForWrite (s : Store K V) (k : K) : Store K V × Res Unit :=
  match s.mode with
  | .recording _ => (s.record k .readWrite, .ok ())
  | .enforcing => (s, enforceAccess s.footprint k .readWrite)

/-- storage.rs:374-377, the check of the type of the new entry. -/
def checkEntry (E : Env K V) (val : Option (Entry V)) : Res Unit :=
  match val with
  | some (v, _) => if E.keys.entrySupported v then .ok () else .error (.host .storage .internalError)
  | none => .ok ()

/-- storage.rs:371-403 `put_opt_helper`; `put` (storage.rs:425-435) and `del` (storage.rs:446-455) are its two uses. -/
def putOpt (E : Env K V) (s : Store K V) (k : K) (val : Option (Entry V)) : Store K V × Res Unit :=
  if E.keys.supported k then
    match checkEntry E val with
    | .error e => (s, .error e)
    | .ok () =>
      match (if E.feature then handleMaybeExpired E s k else (s, .ok ())) with
      | (s, .error e) => (s, .error e)
      | (s, .ok ()) =>
        match accessForWrite s k with
        | (s, .error e) => (s, .error e)
        | (s, .ok ()) => ({ s with map := s.map.insert k val }, .ok ())
  else (s, .error (.host .storage .internalError))

/-- storage.rs:190-195 `TtlExtensionInfo`. -/
structure ExtInfo (V : Type) where
  entry : V
  oldLiveUntil : Nat
  currentTtl : Nat
  maxLiveUntil : Nat

/-- storage.rs:504-555, the second half of `prepare_extend_ttl`: checks that need no access. -/
def extendInfo (E : Env K V) (k : K) (extendTo : Nat) (entry : V) (oldLiveUntil : Option Nat) : Res (ExtInfo V) :=
  match oldLiveUntil with
  | none => .error (.host .storage .internalError)
  | some old =>
    if old < E.li.seq then .error (.host .storage .internalError)
    else match E.li.maxLiveUntil with
      | none => .error (.host .context .internalError)
      | some maxLive =>
        match E.keys.durability k with
        | none => .error (.host .storage .internalError)
        | some d =>
          if d = .temporary ∧ extendTo > maxLive - E.li.seq then .error (.host .storage .invalidAction)
          else .ok { entry := entry, oldLiveUntil := old, currentTtl := old - E.li.seq, maxLiveUntil := maxLive }

/-- storage.rs:481-555 `prepare_extend_ttl`. -/
def prepareExtend (E : Env K V) (s : Store K V) (k : K) (extendTo : Nat) : Store K V × Res (ExtInfo V) :=
  if E.keys.supported k then
    match (if E.feature then handleMaybeExpired E s k else (s, .ok ())) with
    | (s, .error e) => (s, .error e)
    | (s, .ok ()) =>
      match getEntry E s k with
      | (s, .error e) => (s, .error e)
      | (s, .ok (entry, old)) => (s, extendInfo E k extendTo entry old)
  else (s, .error (.host .storage .internalError))

/-- storage.rs:558-573 `apply_ttl_extension`. -/
def applyExtension (s : Store K V) (k : K) (i : ExtInfo V) (newLive : Nat) : Store K V :=
  if newLive > i.oldLiveUntil then { s with map := s.map.insert k (some (i.entry, some newLive)) } else s

/-- storage.rs:589-631 `extend_ttl`. -/
def extendTtl (E : Env K V) (s : Store K V) (k : K) (threshold extendTo : Nat) : Store K V × Res Unit :=
  if threshold > extendTo then (s, .error (.host .storage .invalidInput))
  else match prepareExtend E s k extendTo with
    | (s, .error e) => (s, .error e)
    | (s, .ok i) =>
      match checkedAddU32 E.li.seq extendTo with
      | none => (s, .error (.host .context .internalError))
      | some newLive =>
        let newLive := min newLive i.maxLiveUntil
        if i.currentTtl ≤ threshold then (applyExtension s k i newLive, .ok ()) else (s, .ok ())

/-- storage.rs:651-700 `extend_ttl_v2`. -/
def extendTtlV2 (E : Env K V) (s : Store K V) (k : K) (extendTo minExt maxExt : Nat) : Store K V × Res Unit :=
  if maxExt < minExt then (s, .error (.host .storage .invalidInput))
  else match prepareExtend E s k extendTo with
    | (s, .error e) => (s, .error e)
    | (s, .ok i) =>
      let ext := min (min (extendTo - i.currentTtl) maxExt) (i.maxLiveUntil - i.oldLiveUntil)
      if ext < minExt then (s, .ok ())
      else match checkedAddU32 i.oldLiveUntil ext with
        | none => (s, .error (.host .context .internalError))
        | some newLive => (applyExtension s k i newLive, .ok ())

/-- The live-until ledger of a new entry: data_helper.rs:728-735 for contract data; classic entries have none. -/
def newLiveUntil (E : Env K V) (k : K) : Res (Option Nat) :=
  match E.keys.durability k with
  | none => .ok none
  | some d =>
    match E.li.minLiveUntil d with
    | none => .error (.host .context .internalError)
    | some m => .ok (some m)

/-- host/data_helper.rs:686-741 `put_contract_data_into_ledger`, on a key and a value already converted: an existing entry
keeps its live-until ledger. (`upd` computes the new entry from the existing one; for contract data it replaces the value.) -/
def write (E : Env K V) (s : Store K V) (k : K) (upd : Option V → V) : Store K V × Res Unit :=
  match has E s k with
  | (s, .error e) => (s, .error e)
  | (s, .ok true) =>
    match getEntry E s k with
    | (s, .error e) => (s, .error e)
    | (s, .ok (v, l)) => putOpt E s k (some (upd (some v), l))
  | (s, .ok false) =>
    match newLiveUntil E k with
    | .error e => (s, .error e)
    | .ok l => putOpt E s k (some (upd none, l))

/-! ### programs -/

/-- The storage operations of the host. `mark`, `commit` and `abort` are what a frame does with the storage map when it is
pushed and popped (host/frame.rs:233-289: `push_context` saves the map, `pop_context` restores it on failure; the footprint
is not restored). -/
inductive Op (K V : Type) where
  | get (k : K)
  | has (k : K)
  | del (k : K)
  | put (k : K) (v : V) (liveUntil : Option Nat)
  | write (k : K) (upd : Option V → V)
  | extend (k : K) (threshold extendTo : Nat)
  | extendV2 (k : K) (extendTo minExt maxExt : Nat)
  | mark
  | commit
  | abort

/-- What an operation returns to its caller. -/
inductive Out (V : Type) where
  | entry (e : Entry V)
  | bool (b : Bool)
  | unit

/-- A storage with the maps saved by the frames on the stack. -/
structure Machine (K V : Type) where
  st : Store K V
  saved : List (FMap K (Option (Entry V)))

/-- Wraps the result of an operation. -/
def wrap {α : Type} (m : Machine K V) (f : α → Out V) (r : Store K V × Res α) : Machine K V × Res (Out V) :=
  ({ m with st := r.1 }, match r.2 with | .ok a => .ok (f a) | .error e => .error e)

/-- One operation. -/
def step (E : Env K V) (m : Machine K V) : Op K V → Machine K V × Res (Out V)
  | .get k => wrap m .entry (getEntry E m.st k)
  | .has k => wrap m .bool (has E m.st k)
  | .del k => wrap m (fun _ => .unit) (putOpt E m.st k none)
  | .put k v l => wrap m (fun _ => .unit) (putOpt E m.st k (some (v, l)))
  | .write k u => wrap m (fun _ => .unit) (write E m.st k u)
  | .extend k t e => wrap m (fun _ => .unit) (extendTtl E m.st k t e)
  | .extendV2 k e a b => wrap m (fun _ => .unit) (extendTtlV2 E m.st k e a b)
  | .mark => ({ m with saved := m.st.map :: m.saved }, .ok .unit)
  | .commit => ({ m with saved := m.saved.tail }, .ok .unit)
  | .abort => match m.saved with
    | old :: rest => ({ st := { m.st with map := old }, saved := rest }, .ok .unit)
    | [] => (m, .ok .unit)

/-- Code using the storage: each operation may depend on the results, successes or failures, of the previous ones. -/
inductive Prog (K V : Type) where
  | done
  | op (o : Op K V) (next : Res (Out V) → Prog K V)

/-- Runs a program; returns all the results it saw. -/
def runProg (E : Env K V) : Prog K V → Machine K V → Machine K V × List (Res (Out V))
  | .done, m => (m, [])
  | .op o next, m =>
    let r := step E m o
    let r' := runProg E (next r.2) r.1
    (r'.1, r.2 :: r'.2)

end
end Soroban.Storage
