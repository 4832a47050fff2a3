import Verif.Model.Collections
/-!
Specification vocabulary for the metering of collections: what an operation has done and what it has paid for, from its log.
-/
namespace Soroban.Coll.Spec
open Soroban.Budget (B)

/-- The bytes of the elements read. -/
def readBytes : List Ev → Nat
  | [] => 0
  | .read n :: t => n + readBytes t
  | _ :: t => readBytes t

/-- The bytes copied. -/
def copiedBytes : List Ev → Nat
  | [] => 0
  | .copied n :: t => n + copiedBytes t
  | _ :: t => copiedBytes t

/-- The sum of the inputs of the charges of a cost type. -/
def paidFor (ty : Nat) : List Ev → Nat
  | [] => 0
  | .paid ty' n :: t => (if ty' = ty then n else 0) + paidFor ty t
  | _ :: t => paidFor ty t

/-- How many elements were looked at. -/
def looks : List Ev → Nat
  | [] => 0
  | .read _ :: t => looks t + 1
  | _ :: t => looks t

/-- The errors with which a budget refuses a charge. -/
def Refusal (e : Err) : Prop := e = .host .budget .exceededLimit ∨ e = .host .budget .internalError

instance (e : Err) : Decidable (Refusal e) := by unfold Refusal; exact inferInstance

/-- An operation pays for its work. The memory-copy charges (type 2) of each moment cover the bytes it has read and copied so far, except
for `k` bytes; those it has covered as well when it ends, unless the budget refuses; and then the allocation charges (type 1) cover what
it has copied. -/
def Fair {α : Type} (k : Nat) (op : Op α) : Prop :=
  ∀ m, ∃ new, (op m).1.log = new ++ m.log ∧
    (∀ t, t <:+ new → readBytes t + copiedBytes t ≤ paidFor 2 t + k) ∧
    ((∀ e, (op m).2 = .error e → ¬ Refusal e) → readBytes new + copiedBytes new ≤ paidFor 2 new ∧ copiedBytes new ≤ paidFor 1 new)

/-- An operation has the result of an unmetered one, unless a charge is refused. -/
def Same {α : Type} (op : Op α) (r : Res α) : Prop := ∀ m, (op m).2 = r ∨ ∃ e, (op m).2 = .error e ∧ Refusal e

/-- Metered code has the result of an unmetered one, unless a charge is refused. -/
def SameB {α : Type} (f : B → B × Res α) (r : Res α) : Prop := ∀ b, (f b).2 = r ∨ ∃ e, (f b).2 = .error e ∧ Refusal e

/-- Code that only charges: it does not take back what was charged, and does not change limits and cost parameters. -/
def Honest {α : Type} (f : B → B × Res α) : Prop :=
  ∀ b, b.inShadow = false → (f b).1.inShadow = false ∧ (f b).1.cpu.models = b.cpu.models ∧ (f b).1.cpu.limit = b.cpu.limit ∧
    b.cpu.net ≤ (f b).1.cpu.net

/-- The operations on a vector. -/
inductive VecCmd (A : Type) where
  | ofIter (xs : List A)
  | set (v : List A) (i : Nat) (x : A)
  | get (v : List A) (i : Nat)
  | pushFront (v : List A) (x : A)
  | popFront (v : List A)
  | pushBack (v : List A) (x : A)
  | popBack (v : List A)
  | remove (v : List A) (i : Nat)
  | front (v : List A)
  | back (v : List A)
  | insert (v : List A) (i : Nat) (x : A)
  | append (a b : List A)
  | slice (v : List A) (s e : Nat)
  | firstIndexOf (f : A → B → B × Res Ordering) (v : List A)
  | lastIndexOf (f : A → B → B × Res Ordering) (v : List A)
  | search (f : A → B → B × Res Ordering) (v : List A)
  | toVec (v : List A)
  | compare (cmp : A → A → B → B × Res Ordering) (a b : List A)

/-- The operations on a map. -/
inductive MapCmd (K V : Type) where
  | ofMap (m : List (K × V))
  | ofIter (m : List (K × V))
  | insert (m : List (K × V)) (k : K) (v : V)
  | get (m : List (K × V)) (k : K)
  | getAt (m : List (K × V)) (i : Nat)
  | remove (m : List (K × V)) (k : K)
  | contains (m : List (K × V)) (k : K)
  | iter (m : List (K × V))
  | compare (pair : K × V → K × V → B → B × Res Ordering) (a b : List (K × V))

/-- An operation without its result. -/
def void {α : Type} (op : Op α) : Op Unit := fun m => ((op m).1, (op m).2.map (fun _ => ()))

/-- The run of an operation on a vector. -/
def VecCmd.run {A : Type} (E : Elt A) : VecCmd A → Op Unit
  | .ofIter xs => void (vecOfIter E xs)
  | .set v i x => void (Coll.set E v i x)
  | .get v i => void (vget E v i)
  | .pushFront v x => void (Coll.pushFront E v x)
  | .popFront v => void (Coll.popFront E v)
  | .pushBack v x => void (Coll.pushBack E v x)
  | .popBack v => void (Coll.popBack E v)
  | .remove v i => void (vremove E v i)
  | .front v => void (Coll.front E v)
  | .back v => void (Coll.back E v)
  | .insert v i x => void (vinsert E v i x)
  | .append a b => void (Coll.append E a b)
  | .slice v s e => void (Coll.slice E v s e)
  | .firstIndexOf f v => void (Coll.firstIndexOf E f v)
  | .lastIndexOf f v => void (Coll.lastIndexOf E f v)
  | .search f v => void (Coll.search E.size v f)
  | .toVec v => void (Coll.toVec E v)
  | .compare cmp a b => void (vcompare E cmp a b)

/-- The run of an operation on a map, with a comparison of keys and the charge for a copy of a value. -/
def MapCmd.run {K V : Type} (E : Elt (K × V)) (cmp : K → K → B → B × Res Ordering) (clone : V → B → B × Res Unit) : MapCmd K V → Op Unit
  | .ofMap m => void (fromMap E cmp m)
  | .ofIter m => void (mapOfIter E cmp m)
  | .insert m k v => void (Coll.insert E cmp m k v)
  | .get m k => void (Coll.get E cmp m k)
  | .getAt m i => void (Coll.getAt E m i)
  | .remove m k => void (Coll.remove E cmp clone m k)
  | .contains m k => void (containsKey E cmp m k)
  | .iter m => void (Coll.iter E m)
  | .compare pair a b => void (mcompare E pair a b)

/-- The collections an operation is given: no longer than the host's vectors are. -/
def VecCmd.inputs {A : Type} : VecCmd A → List (List A)
  | .ofIter _ => []
  | .set v _ _ | .get v _ | .pushFront v _ | .popFront v | .pushBack v _ | .popBack v | .remove v _ | .front v | .back v | .insert v _ _
  | .slice v _ _ | .firstIndexOf _ v | .lastIndexOf _ v | .search _ v | .toVec v => [v]
  | .append a b | .compare _ a b => [a, b]

def MapCmd.inputs {K V : Type} : MapCmd K V → List (List (K × V))
  | .ofMap _ | .ofIter _ => []
  | .insert m _ _ | .get m _ | .getAt m _ | .remove m _ | .contains m _ | .iter m => [m]
  | .compare _ a b => [a, b]

/-- The number of elements that an operation copies before it pays: those of the new collection, where it makes one from parts of others. -/
def VecCmd.ahead {A : Type} : VecCmd A → Nat
  | .ofIter xs => xs.length
  | .pushFront v _ | .pushBack v _ | .insert v _ _ => v.length + 1
  | .popFront v | .popBack v | .remove v _ | .slice v _ _ => v.length
  | .append a b => a.length + b.length
  | _ => 0

def MapCmd.ahead {K V : Type} : MapCmd K V → Nat
  | .ofIter m => m.length
  | .insert m _ _ => m.length + 1
  | .remove m _ => m.length
  | _ => 0

/-- An operation on some collection. -/
inductive Cmd : Type 1 where
  | vec {A : Type} (E : Elt A) (c : VecCmd A)
  | map {K V : Type} (E : Elt (K × V)) (cmp : K → K → B → B × Res Ordering) (clone : V → B → B × Res Unit) (c : MapCmd K V)

def Cmd.run : Cmd → Op Unit
  | .vec E c => c.run E
  | .map E cmp clone c => c.run E cmp clone

/-- The bytes an operation copies before it pays. -/
def Cmd.ahead : Cmd → Nat
  | .vec E c => E.size * c.ahead
  | .map E _ _ c => E.size * c.ahead

/-- Collections of a host: at most `u32::MAX` elements, whose declared size is less than 2^31 bytes. -/
def Cmd.Sound : Cmd → Prop
  | .vec E c => E.size < 2 ^ 31 ∧ ∀ v ∈ c.inputs, v.length ≤ u32Max
  | .map E _ _ c => E.size < 2 ^ 31 ∧ ∀ m ∈ c.inputs, m.length ≤ u32Max

/-- The comparisons and clones a command comes with only charge. -/
def VecCmd.Honest {A : Type} : VecCmd A → Prop
  | .firstIndexOf f _ | .lastIndexOf f _ | .search f _ => ∀ x, Spec.Honest (f x)
  | .compare cmp _ _ => ∀ x y, Spec.Honest (cmp x y)
  | _ => True

def MapCmd.Honest {K V : Type} : MapCmd K V → Prop
  | .compare pair _ _ => ∀ x y, Spec.Honest (pair x y)
  | _ => True

def Cmd.Honest : Cmd → Prop
  | .vec E c => (∀ xs, Spec.Honest (E.subs xs)) ∧ c.Honest
  | .map E cmp clone c => (∀ xs, Spec.Honest (E.subs xs)) ∧ (∀ x y, Spec.Honest (cmp x y)) ∧ (∀ v, Spec.Honest (clone v)) ∧ c.Honest

/-- Operations one after another. An error of one does not stop the rest, unless it is that of a refused charge. -/
def runAll : List Cmd → Op Unit
  | [] => .ret ()
  | c :: cs => fun m =>
    match c.run m with
    | (m', .ok ()) => runAll cs m'
    | (m', .error e) => if Refusal e then (m', .error e) else runAll cs m'

end Soroban.Coll.Spec
