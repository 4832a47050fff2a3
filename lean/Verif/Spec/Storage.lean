import Verif.Model.Storage
/-!
What ledger storage should do (C17-C21): a ledger is a function from keys to entries, operations read or update it at one
key, and a footprint only says which accesses are allowed.
-/
namespace Soroban.Storage.Spec
open Soroban Soroban.Storage
variable {K V : Type} [DecidableEq K]

/-- Whether a footprint allows an access: reading needs the key to be declared, writing needs it declared read-write. -/
def allows (fp : FMap K Access) (k : K) : Access → Bool
  | .readOnly => (fp.get k).isSome
  | .readWrite => fp.get k == some .readWrite

/-- What a contract sees of a ledger entry: an expired temporary entry is gone, an expired persistent entry is restored with
the minimum lifetime. -/
def view (E : Env K V) (k : K) (e : Option (Entry V)) : Option (Entry V) :=
  match e, E.keys.durability k with
  | none, _ => none
  | some e, none => some e
  | some (v, some l), some d =>
    if E.li.seq ≤ l then some (v, some l)
    else match d with
      | .temporary => none
      | .persistent => some (v, E.li.minLiveUntil .persistent)
  | some (v, none), some _ => some (v, none)

/-- Ledger `M` is the last one an entry can live in: with the current one, the maximum number of ledgers; and it is a ledger number. -/
def LastPossible (li : LedgerInfo) (M : Nat) : Prop := M = li.seq + (li.maxTtl - 1) ∧ M ≤ 4294967295

/-- The ledger as contracts see it. -/
abbrev Ledger (K V : Type) := K → Option (Entry V)

/-- The value part of an entry. -/
def valueOf (e : Option (Entry V)) : Option V := e.map Prod.fst
/-- The ledger with one key changed. -/
def Ledger.set (L : Ledger K V) (k : K) (e : Option (Entry V)) : Ledger K V := fun k' => if k' = k then e else L k'

/-- The new entry after a requested extension "to `extendTo` ledgers from now if at most `threshold` ledgers are left". -/
def extended (E : Env K V) (k : K) (threshold extendTo : Nat) (e : Entry V) : Res (Entry V) :=
  match extendInfo E k extendTo e.1 e.2 with
  | .error err => .error err
  | .ok i =>
    if u32Max < E.li.seq + extendTo then .error (.host .context .internalError)
    else
      let target := min (E.li.seq + extendTo) i.maxLiveUntil
      if i.oldLiveUntil - E.li.seq ≤ threshold ∧ i.oldLiveUntil < target then .ok (e.1, some target) else .ok e

/-- The new entry after a requested extension "to `extendTo` ledgers from now, by at least `minExt` and at most `maxExt`". -/
def extendedV2 (E : Env K V) (k : K) (extendTo minExt maxExt : Nat) (e : Entry V) : Res (Entry V) :=
  match extendInfo E k extendTo e.1 e.2 with
  | .error err => .error err
  | .ok i =>
    let by_ := min (min (E.li.seq + extendTo - i.oldLiveUntil) maxExt) (i.maxLiveUntil - i.oldLiveUntil)
    if by_ < minExt then .ok e
    else if u32Max < i.oldLiveUntil + by_ then .error (.host .context .internalError)
    else if by_ = 0 then .ok e
    else .ok (e.1, some (i.oldLiveUntil + by_))

/-- A ledger with the ledgers saved by the frames on the stack. -/
structure LM (K V : Type) where
  L : Ledger K V
  saved : List (Ledger K V)

/-- Read access to a key. -/
def readAt (E : Env K V) (perm : K → Access → Bool) (L : Ledger K V) (k : K) : Res (Option (Entry V)) :=
  if E.keys.supported k then
    if perm k .readOnly then .ok (L k) else .error (.host .storage .exceededLimit)
  else .error (.host .storage .internalError)

/-- Read access to a key that must exist. -/
def getAt (E : Env K V) (perm : K → Access → Bool) (L : Ledger K V) (k : K) : Res (Entry V) :=
  match readAt E perm L k with
  | .error e => .error e
  | .ok none => .error (.host .storage .missingValue)
  | .ok (some e) => .ok e

/-- Write access to a key. -/
def writeAt (E : Env K V) (perm : K → Access → Bool) (L : Ledger K V) (k : K) (e : Option (Entry V)) : Res (Ledger K V) :=
  if E.keys.supported k then
    match checkEntry E e with
    | .error err => .error err
    | .ok () => if perm k .readWrite then .ok (L.set k e) else .error (.host .storage .exceededLimit)
  else .error (.host .storage .internalError)

/-- Read, then write with the lifetime kept, or the minimum lifetime for a new entry. -/
def updateAt (E : Env K V) (perm : K → Access → Bool) (L : Ledger K V) (k : K) (upd : Option V → V) : Res (Ledger K V) :=
  match readAt E perm L k with
  | .error e => .error e
  | .ok (some (v, l)) => writeAt E perm L k (some (upd (some v), l))
  | .ok none =>
    match newLiveUntil E k with
    | .error e => .error e
    | .ok l => writeAt E perm L k (some (upd none, l))

/-- Extension of the lifetime of an entry: only read access is needed. -/
def extendAt (E : Env K V) (perm : K → Access → Bool) (L : Ledger K V) (k : K) (f : Entry V → Res (Entry V)) :
    Res (Ledger K V) :=
  match getAt E perm L k with
  | .error e => .error e
  | .ok e =>
    match f e with
    | .error err => .error err
    | .ok e' => .ok (L.set k (some e'))

/-- A failed operation leaves the ledger as it is. -/
def change (m : LM K V) (r : Res (Ledger K V)) : LM K V × Res (Out V) :=
  match r with
  | .ok L => ({ m with L := L }, .ok .unit)
  | .error e => (m, .error e)

/-- One operation on a ledger. -/
def step (E : Env K V) (perm : K → Access → Bool) (m : LM K V) : Op K V → LM K V × Res (Out V)
  | .get k => (m, match getAt E perm m.L k with | .ok e => .ok (.entry e) | .error e => .error e)
  | .has k => (m, match readAt E perm m.L k with | .ok e => .ok (.bool e.isSome) | .error e => .error e)
  | .del k => change m (writeAt E perm m.L k none)
  | .put k v l => change m (writeAt E perm m.L k (some (v, l)))
  | .write k u => change m (updateAt E perm m.L k u)
  | .extend k t e =>
    if t > e then (m, .error (.host .storage .invalidInput)) else change m (extendAt E perm m.L k (extended E k t e))
  | .extendV2 k e a b =>
    if b < a then (m, .error (.host .storage .invalidInput)) else change m (extendAt E perm m.L k (extendedV2 E k e a b))
  | .mark => ({ m with saved := m.L :: m.saved }, .ok .unit)
  | .commit => ({ m with saved := m.saved.tail }, .ok .unit)
  | .abort => match m.saved with
    | old :: rest => ({ L := old, saved := rest }, .ok .unit)
    | [] => (m, .ok .unit)

/-- A program run on a ledger. -/
def runProg (E : Env K V) (perm : K → Access → Bool) : Prog K V → LM K V → LM K V × List (Res (Out V))
  | .done, m => (m, [])
  | .op o next, m =>
    let r := step E perm m o
    let r' := runProg E perm (next r.2) r.1
    (r'.1, r.2 :: r'.2)

/-- The ledger a storage stands for: what is in its map, and for keys not loaded yet what the snapshot shows. Reads return its
entries (`C18_read`). -/
def absMap (E : Env K V) (mode : Mode K V) (map : FMap K (Option (Entry V))) : Ledger K V := fun k =>
  match map.get k with
  | some e => e
  | none => match mode with
    | .recording src => view E k (src k)
    | .enforcing => none

/-- Entries with a lifetime are stored with one that has not ended. -/
def LiveEntry (E : Env K V) (k : K) (e : Option (Entry V)) : Prop :=
  ∀ v l d, e = some (v, l) → E.keys.durability k = some d → ∃ l', l = some l' ∧ E.li.seq ≤ l'

/-- New entries are given a lifetime that has not ended (as the host's callers of `put` do). -/
def OpOk (E : Env K V) : Op K V → Prop
  | .put k v l => LiveEntry E k (some (v, l))
  | _ => True

/-- All the operations of a program are such. -/
inductive ProgOk (E : Env K V) : Prog K V → Prop
  | done : ProgOk E .done
  | op {o next} : OpOk E o → (∀ r, ProgOk E (next r)) → ProgOk E (.op o next)

/-- The ledger snapshot gives every contract entry a lifetime, and the network settings do not overflow. -/
def SnapshotOk (E : Env K V) (src : K → Option (Entry V)) : Prop :=
  (∀ k v d, src k = some (v, none) → E.keys.durability k ≠ some d) ∧ (E.li.minLiveUntil .persistent).isSome

/-- The inputs of an enforcing host: every declared key is loaded, with a live entry or with nothing. -/
structure Loaded (E : Env K V) (fp : FMap K Access) (map : FMap K (Option (Entry V))) : Prop where
  cover : ∀ k, (fp.get k).isSome → (map.get k).isSome
  live : ∀ k e, map.get k = some e → LiveEntry E k e

/-- A host in enforcing mode about to run. -/
def enforcing (fp : FMap K Access) (map : FMap K (Option (Entry V))) : Machine K V :=
  { st := { footprint := fp, mode := .enforcing, map := map }, saved := [] }

/-- A host in recording mode about to run. -/
def recording (src : K → Option (Entry V)) : Machine K V :=
  { st := { footprint := [], mode := .recording src, map := [] }, saved := [] }

/-- A list of operations run one after the other, whatever their results. -/
def runOps (E : Env K V) : List (Op K V) → Machine K V → Machine K V × List (Res (Out V))
  | [], m => (m, [])
  | o :: os, m =>
    let r := Storage.step E m o
    let r' := runOps E os r.1
    (r'.1, r.2 :: r'.2)

/-- A host about to run, in either mode. -/
inductive Start (E : Env K V) : Machine K V → Prop
  | enforcing {fp map} : Loaded E fp map → Start E (enforcing fp map)
  | recording {src} : SnapshotOk E src → E.feature = true → Start E (recording src)

/-- A host after some operations. -/
def Reachable (E : Env K V) (m : Machine K V) : Prop :=
  ∃ m₀ os, Start E m₀ ∧ (∀ o ∈ os, OpOk E o) ∧ m = (runOps E os m₀).1

/-- The entry a contract would see under a key. -/
def current (E : Env K V) (m : Machine K V) (k : K) : Option (Entry V) := absMap E m.st.mode m.st.map k

/-- The value of a key according to a history of operations and their results: the last successful write that has not been
rolled back. `saved` holds the values to roll back to. -/
def lastWrite (k : K) : List (Op K V) → List (Res (Out V)) → Option V → List (Option V) → Option V
  | .put k' v _ :: os, .ok _ :: rs, cur, saved => lastWrite k os rs (if k' = k then some v else cur) saved
  | .del k' :: os, .ok _ :: rs, cur, saved => lastWrite k os rs (if k' = k then none else cur) saved
  | .write k' u :: os, .ok _ :: rs, cur, saved => lastWrite k os rs (if k' = k then some (u cur) else cur) saved
  | .mark :: os, _ :: rs, cur, saved => lastWrite k os rs cur (cur :: saved)
  | .commit :: os, _ :: rs, cur, saved => lastWrite k os rs cur saved.tail
  | .abort :: os, _ :: rs, cur, saved => lastWrite k os rs (saved.headD cur) saved.tail
  | _ :: os, _ :: rs, cur, saved => lastWrite k os rs cur saved
  | _, _, cur, _ => cur

end Soroban.Storage.Spec
