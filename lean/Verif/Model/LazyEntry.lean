import Verif.Model.Storage
/-!
Model of soroban-env-host/src/host/ledger_entry.rs and of what storage.rs does with lazily decoded entries.

The storage map holds pointers to cells; the cells are in a heap. Rolling back the map does not roll back the heap, because the
saved maps share the cells (`Rc<LazyLedgerEntry>`). The functions of storage.rs that do not look into the entries are those of
`Verif/Model/Storage.lean`, used here with pointers in place of entries.
-/
namespace Soroban.LazyEntry
open Soroban Soroban.Storage

/-- host/ledger_entry.rs:32-42 `LazyLedgerEntry`. -/
structure Cell (B V : Type) where
  encoded : Option B
  decoded : Option V

/-- The decoder and the encoder of entries (host/metered_xdr.rs), and host/ledger_entry.rs:110-139 `ledger_entry_to_ledger_key`
(`none` for the kinds of entries it does not know). -/
structure Codec (K B V : Type) where
  dec : B → Res V
  enc : V → B
  keyOf : V → Option K

/-- A storage with lazily decoded entries. `snapshot` are the encoded entries of the snapshot source, used in recording mode only
(storage.rs:768-780 encodes them). `log` is not in the code: it lists the cells in the order in which they were decoded, each of
them paid for as `ValDeser`. -/
structure Lazy (K B V : Type) where
  st : Store K Nat
  snapshot : K → Option (B × Option Nat)
  heap : List (Cell B V)
  log : List Nat

section
variable {K B V : Type} [DecidableEq K]

/-- Pointers are never refused: the types of entries are checked before they are put into cells. -/
def refEnv (E : Env K V) : Env K Nat :=
  { keys := { supported := E.keys.supported, entrySupported := fun _ => true, durability := E.keys.durability },
    li := E.li, feature := E.feature }

/-- storage.rs:761-794, reading through to the snapshot if the map does not have the key: the entry is kept encoded, in a new
cell (host/ledger_entry.rs:57-62 `from_encoded`). -/
def load (L : Lazy K B V) (k : K) : Lazy K B V :=
  match L.st.mode with
  | .enforcing => L
  | .recording _ =>
    if L.st.map.contains k then L
    else match L.snapshot k with
      | none => { L with st := { L.st with map := L.st.map.insert k none } }
      | some (b, l) =>
        { L with st := { L.st with map := L.st.map.insert k (some (L.heap.length, l)) },
                 heap := L.heap ++ [{ encoded := some b, decoded := none }] }

/-- storage.rs:260-274 `try_get_host_ledger_entry`. (The code records the access before loading the entry; neither depends on the
other.) -/
def tryGetHost (E : Env K V) (L : Lazy K B V) (k : K) : Lazy K B V × Res (Option (Entry Nat)) :=
  let L := if E.keys.supported k then load L k else L
  let r := tryGet (refEnv E) L.st k
  ({ L with st := r.1 }, r.2)

/-- host/ledger_entry.rs:68-70 `is_decoded`. -/
def isDecoded (L : Lazy K B V) (r : Nat) : Bool :=
  match L.heap[r]? with
  | some c => c.decoded.isSome
  | none => false

/-- host/ledger_entry.rs:74-83 `decoded`. -/
def decodedAt (C : Codec K B V) (L : Lazy K B V) (r : Nat) : Lazy K B V × Res V :=
  match L.heap[r]? with
  | none => (L, .error (.host .storage .internalError))
  | some c =>
    match c.decoded with
    | some v => (L, .ok v)
    | none =>
      match c.encoded with
      | none => (L, .error (.host .storage .internalError))
      | some b =>
        match C.dec b with
        | .error e => (L, .error e)
        | .ok v => ({ L with heap := L.heap.set r { c with decoded := some v }, log := L.log ++ [r] }, .ok v)

/-- storage.rs:286-300, the key of an entry is checked when it has just been decoded. -/
def checkKey (C : Codec K B V) (k : K) (v : V) : Res Unit :=
  match C.keyOf v with
  | none => .error (.host .storage .internalError)
  | some k' => if k = k' then .ok () else .error (.host .storage .internalError)

/-- storage.rs:277-305 `try_get_full_helper`. -/
def tryGetFull (E : Env K V) (C : Codec K B V) (L : Lazy K B V) (k : K) : Lazy K B V × Res (Option (Entry V)) :=
  match tryGetHost E L k with
  | (L, .error e) => (L, .error e)
  | (L, .ok none) => (L, .ok none)
  | (L, .ok (some (r, l))) =>
    match decodedAt C L r with
    | (L', .error e) => (L', .error e)
    | (L', .ok v) =>
      if isDecoded L r then (L', .ok (some (v, l)))
      else match checkKey C k v with
        | .error e => (L', .error e)
        | .ok () => (L', .ok (some (v, l)))

/-- storage.rs:357-368 `get_with_live_until_ledger`. -/
def getEntry (E : Env K V) (C : Codec K B V) (L : Lazy K B V) (k : K) : Lazy K B V × Res (Entry V) :=
  match tryGetFull E C L k with
  | (L, .error e) => (L, .error e)
  | (L, .ok none) => (L, .error (.host .storage .missingValue))
  | (L, .ok (some e)) => (L, .ok e)

/-- storage.rs:466-477 `has`: nothing is decoded. -/
def has (E : Env K V) (L : Lazy K B V) (k : K) : Lazy K B V × Res Bool :=
  match tryGetHost E L k with
  | (L, .error e) => (L, .error e)
  | (L, .ok v) => (L, .ok v.isSome)

/-- storage.rs:371-403 `put_opt_helper`: new entries are put into new cells, decoded (host/ledger_entry.rs:47-52
`from_decoded`). Simplification: the cell is made even if the access is refused; nothing points to it then. -/
def putOpt (E : Env K V) (L : Lazy K B V) (k : K) (val : Option (Entry V)) : Lazy K B V × Res Unit :=
  if E.keys.supported k then
    match checkEntry E val with
    | .error e => (L, .error e)
    | .ok () =>
      match val with
      | none =>
        let r := Storage.putOpt (refEnv E) L.st k none
        ({ L with st := r.1 }, r.2)
      | some (v, l) =>
        let r := Storage.putOpt (refEnv E) L.st k (some (L.heap.length, l))
        ({ L with st := r.1, heap := L.heap ++ [{ encoded := none, decoded := some v }] }, r.2)
  else (L, .error (.host .storage .internalError))

/-- storage.rs:481-555 `prepare_extend_ttl`: nothing is decoded. -/
def prepareExtend (E : Env K V) (L : Lazy K B V) (k : K) (extendTo : Nat) : Lazy K B V × Res (ExtInfo Nat) :=
  if E.keys.supported k then
    match (if E.feature then handleMaybeExpired (refEnv E) L.st k else (L.st, .ok ())) with
    | (s, .error e) => ({ L with st := s }, .error e)
    | (s, .ok ()) =>
      match tryGetHost E { L with st := s } k with
      | (L, .error e) => (L, .error e)
      | (L, .ok none) => (L, .error (.host .storage .missingValue))
      | (L, .ok (some (r, old))) => (L, extendInfo (refEnv E) k extendTo r old)
  else (L, .error (.host .storage .internalError))

/-- storage.rs:558-573 `apply_ttl_extension`: the cell is kept. -/
def applyExtension (L : Lazy K B V) (k : K) (i : ExtInfo Nat) (newLive : Nat) : Lazy K B V :=
  { L with st := Storage.applyExtension L.st k i newLive }

/-- storage.rs:589-631 `extend_ttl`. -/
def extendTtl (E : Env K V) (L : Lazy K B V) (k : K) (threshold extendTo : Nat) : Lazy K B V × Res Unit :=
  if threshold > extendTo then (L, .error (.host .storage .invalidInput))
  else match prepareExtend E L k extendTo with
    | (L, .error e) => (L, .error e)
    | (L, .ok i) =>
      match checkedAddU32 E.li.seq extendTo with
      | none => (L, .error (.host .context .internalError))
      | some newLive =>
        let newLive := min newLive i.maxLiveUntil
        if i.currentTtl ≤ threshold then (applyExtension L k i newLive, .ok ()) else (L, .ok ())

/-- storage.rs:651-700 `extend_ttl_v2`. -/
def extendTtlV2 (E : Env K V) (L : Lazy K B V) (k : K) (extendTo minExt maxExt : Nat) : Lazy K B V × Res Unit :=
  if maxExt < minExt then (L, .error (.host .storage .invalidInput))
  else match prepareExtend E L k extendTo with
    | (L, .error e) => (L, .error e)
    | (L, .ok i) =>
      let ext := min (min (extendTo - i.currentTtl) maxExt) (i.maxLiveUntil - i.oldLiveUntil)
      if ext < minExt then (L, .ok ())
      else match checkedAddU32 i.oldLiveUntil ext with
        | none => (L, .error (.host .context .internalError))
        | some newLive => (applyExtension L k i newLive, .ok ())

/-- host/data_helper.rs:686-741 `put_contract_data_into_ledger` (see `Storage.write`). -/
def write (E : Env K V) (C : Codec K B V) (L : Lazy K B V) (k : K) (upd : Option V → V) : Lazy K B V × Res Unit :=
  match has E L k with
  | (L, .error e) => (L, .error e)
  | (L, .ok true) =>
    match getEntry E C L k with
    | (L, .error e) => (L, .error e)
    | (L, .ok (v, l)) => putOpt E L k (some (upd (some v), l))
  | (L, .ok false) =>
    match newLiveUntil E k with
    | .error e => (L, .error e)
    | .ok l => putOpt E L k (some (upd none, l))

/-! ### programs -/

/-- A storage with the maps saved by the frames on the stack (host/frame.rs:233-289). -/
structure LMachine (K B V : Type) where
  lz : Lazy K B V
  saved : List (FMap K (Option (Entry Nat)))

/-- Wraps the result of an operation. -/
def wrap {α : Type} (m : LMachine K B V) (f : α → Out V) (r : Lazy K B V × Res α) : LMachine K B V × Res (Out V) :=
  ({ m with lz := r.1 }, match r.2 with | .ok a => .ok (f a) | .error e => .error e)

/-- One operation, as `Storage.step`: `abort` restores the map, but not the cells. -/
def step (E : Env K V) (C : Codec K B V) (m : LMachine K B V) : Op K V → LMachine K B V × Res (Out V)
  | .get k => wrap m .entry (getEntry E C m.lz k)
  | .has k => wrap m .bool (has E m.lz k)
  | .del k => wrap m (fun _ => .unit) (putOpt E m.lz k none)
  | .put k v l => wrap m (fun _ => .unit) (putOpt E m.lz k (some (v, l)))
  | .write k u => wrap m (fun _ => .unit) (write E C m.lz k u)
  | .extend k t e => wrap m (fun _ => .unit) (extendTtl E m.lz k t e)
  | .extendV2 k e a b => wrap m (fun _ => .unit) (extendTtlV2 E m.lz k e a b)
  | .mark => ({ m with saved := m.lz.st.map :: m.saved }, .ok .unit)
  | .commit => ({ m with saved := m.saved.tail }, .ok .unit)
  | .abort => match m.saved with
    | old :: rest => ({ lz := { m.lz with st := { m.lz.st with map := old } }, saved := rest }, .ok .unit)
    | [] => (m, .ok .unit)

/-- Runs a program; returns all the results it saw. -/
def runProg (E : Env K V) (C : Codec K B V) : Prog K V → LMachine K B V → LMachine K B V × List (Res (Out V))
  | .done, m => (m, [])
  | .op o next, m =>
    let r := step E C m o
    let r' := runProg E C (next r.2) r.1
    (r'.1, r.2 :: r'.2)

/-! ### the beginning and the end of a transaction -/

/-- e2e_invoke.rs:1061-1169 `build_storage_map_from_xdr_ledger_entries`: the entries are put into the map encoded, one cell each.
(The checks of live-until ledgers are in `Verif/Model/E2e.lean`.) -/
def build : List (K × Option (B × Option Nat)) → FMap K (Option (Entry Nat)) × List (Cell B V) →
    FMap K (Option (Entry Nat)) × List (Cell B V)
  | [], a => a
  | (k, none) :: es, (m, h) => build es (m.insert k none, h)
  | (k, some (b, l)) :: es, (m, h) =>
    build es (m.insert k (some (h.length, l)), h ++ [{ encoded := some b, decoded := none }])

/-- The storage of an enforcing transaction at its start. -/
def enforcing (fp : FMap K Access) (es : List (K × Option (B × Option Nat))) : LMachine K B V :=
  { lz := { st := { footprint := fp, mode := .enforcing, map := (build (V := V) es ([], [])).1 }, snapshot := fun _ => none,
            heap := (build es ([], [])).2, log := [] }, saved := [] }

/-- The storage of a recording transaction at its start (storage.rs:248-254 `with_recording_footprint`). -/
def recording (src : K → Option (B × Option Nat)) : LMachine K B V :=
  { lz := { st := { footprint := [], mode := .recording (fun _ => none), map := [] }, snapshot := src, heap := [], log := [] },
    saved := [] }

/-- e2e_invoke.rs:315-326, the new value of a key declared read-write: the entry is decoded, if it was not, and encoded again. -/
def newValue (C : Codec K B V) (L : Lazy K B V) (k : K) : Lazy K B V × Res (Option B) :=
  match L.st.map.get k with
  | some (some (r, _)) =>
    match decodedAt C L r with
    | (L, .error e) => (L, .error e)
    | (L, .ok v) => (L, .ok (some (C.enc v)))
  | _ => (L, .ok none)

/-- e2e_invoke.rs:209-344 `get_ledger_changes`, the new values of the keys declared read-write, `ks`. -/
def newValues (C : Codec K B V) : Lazy K B V → List K → Lazy K B V × Res (List (Option B))
  | L, [] => (L, .ok [])
  | L, k :: ks =>
    match newValue C L k with
    | (L, .error e) => (L, .error e)
    | (L, .ok b) =>
      match newValues C L ks with
      | (L, .error e) => (L, .error e)
      | (L, .ok bs) => (L, .ok (b :: bs))

end
end Soroban.LazyEntry
