import Verif.Model.LazyEntry
/-! What lazily decoded entries are compared with: a storage that has the entries decoded from the start. -/
namespace Soroban.LazyEntry.Spec
open Soroban Soroban.Storage Soroban.LazyEntry

section
variable {K B V : Type} [DecidableEq K]

/-- `b` is the encoding of the entry `v`, and `v` is an entry of the key `k`. -/
def Says (C : Codec K B V) (k : K) (b : B) (v : V) : Prop := C.dec b = .ok v ∧ C.keyOf v = some k

/-- An encoded entry and a decoded one that are both absent, or have the same live-until ledger, and the same content if `G`. -/
def Match (C : Codec K B V) (G : K → Prop) (k : K) : Option (B × Option Nat) → Option (Entry V) → Prop
  | none, none => True
  | some (b, l), some (v, l') => l = l' ∧ (G k → Says C k b v)
  | _, _ => False

/-- An enforcing storage given its entries decoded. -/
def eager (fp : FMap K Access) (ds : List (K × Option (Entry V))) : Machine K V :=
  { st := { footprint := fp, mode := .enforcing, map := ds.foldl (fun m d => m.insert d.1 d.2) [] }, saved := [] }

/-- A recording storage over a snapshot with decoded entries. -/
def eagerRecording (src : K → Option (Entry V)) : Machine K V :=
  { st := { footprint := [], mode := .recording src, map := [] }, saved := [] }

/-- The key whose entry an operation reads. Tests for existence, deletions, unconditional writes and extensions do not read. -/
def readKey : Op K V → List K
  | .get k => [k]
  | .write k _ => [k]
  | _ => []

/-- The keys a program reads. -/
def readsOf (E : Env K V) (C : Codec K B V) : Prog K V → LMachine K B V → List K
  | .done, _ => []
  | .op o next, m => readKey o ++ readsOf E C (next (step E C m o).2) (step E C m o).1

/-- The keys of the entries that are there, in order: the entry in cell `i` is the `i`th. -/
def loadedKeys (es : List (K × Option (B × Option Nat))) : List K := (es.filter (fun e => e.2.isSome)).map Prod.fst

/-- The value of a key in a storage with decoded entries. -/
def valueAt (s : Store K V) (k : K) : Option V :=
  match s.map.get k with
  | some (some (v, _)) => some v
  | _ => none

/-- What is known about a key without looking into its entry: whether it is loaded, present, and its live-until ledger. -/
def outline {A : Type} (s : Store K A) (k : K) : Option (Option (Option Nat)) := (s.map.get k).map (fun e => e.map Prod.snd)

/-- The key `k` is stored with the encoded entry `b`, which has not been decoded. -/
def Raw (L : Lazy K B V) (k : K) (b : B) (l : Option Nat) : Prop :=
  ∃ r, L.st.map.get k = some (some (r, l)) ∧ L.heap[r]? = some { encoded := some b, decoded := none }

/-- The transaction may read the key. -/
def MayRead (E : Env K V) (L : Lazy K B V) (k : K) : Prop :=
  L.st.mode = .enforcing ∧ E.keys.supported k = true ∧ (L.st.footprint.get k).isSome = true

end
end Soroban.LazyEntry.Spec
