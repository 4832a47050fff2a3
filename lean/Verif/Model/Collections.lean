import Verif.Model.Budget
import Verif.Model.Containers
import Verif.Model.ScVal
/-!
Model of the metering of the host's maps and vectors: soroban-env-host/src/host/metered_map.rs and host/metered_vector.rs once more,
this time with what they charge, and with a log of what they do. What they compute is in `Verif.Model.Containers`.

The log has one entry for each charge the budget has allowed, for each element that is looked at (compared or handed out) and for each
block of elements that is copied. It is not part of the code: it is what the theorems are about.

Simplifications: comparisons of elements, and the charges for what elements own (`charge_for_substructure`), are parameters: functions that
may change the budget and may fail. `usize` is unbounded.
-/
namespace Soroban.Coll
open Soroban.Budget (B)

/-- What happens while an operation runs: a charge of a cost type with an input, the reading of an element of some size in bytes, the copying
of a number of bytes. -/
inductive Ev where
  | paid (ty n : Nat)
  | read (n : Nat)
  | copied (n : Nat)
  deriving DecidableEq, Repr

/-- The budget, and the log, with the latest entry first. -/
structure M where
  b : B
  log : List Ev
  deriving DecidableEq, Repr

/-- A metered operation: `Result<T, HostError>` with the changes it has made, also when it fails. -/
def Op (α : Type) : Type := M → M × Res α

/-- `Ok(x)` -/
def Op.ret {α : Type} (a : α) : Op α := fun m => (m, .ok a)
/-- Rust's `?` -/
def Op.andThen {α β : Type} (x : Op α) (f : α → Op β) : Op β := fun m =>
  match x m with
  | (m, .ok a) => f a m
  | (m, .error e) => (m, .error e)
/-- `Err(e)` -/
def Op.fail {α : Type} (e : Err) : Op α := fun m => (m, .error e)

instance : Monad Op where
  pure := Op.ret
  bind := Op.andThen

/-- XDR `ContractCostType::MemAlloc` -/
def memAlloc : Nat := 1
/-- XDR `ContractCostType::MemCpy` -/
def memCpy : Nat := 2
/-- XDR `ContractCostType::MemCmp` -/
def memCmp : Nat := 3

/-- budget.rs:1321-1323 `charge` -/
def charge (ty n : Nat) : Op Unit := fun m =>
  match m.b.charge ty 1 (some n) with
  | (b, .ok ()) => ({ b := b, log := .paid ty n :: m.log }, .ok ())
  | (b, .error e) => ({ m with b := b }, .error e)

/-- An element of `n` bytes is read. -/
def look (n : Nat) : Op Unit := fun m => ({ m with log := .read n :: m.log }, .ok ())
/-- A block of `n` bytes is copied. -/
def copy (n : Nat) : Op Unit := fun m => ({ m with log := .copied n :: m.log }, .ok ())
/-- Code that is a parameter: it works on the budget. -/
def lift {α : Type} (f : B → B × Res α) : Op α := fun m => ({ m with b := (f m.b).1 }, (f m.b).2)

/-- `64 - n.leading_zeros()` for a `u64` -/
def bits (n : Nat) : Nat := if n = 0 then 0 else Nat.log2 n + 1

/-- host/metered_map.rs:63-68 and host/metered_vector.rs:38-43 `charge_access`, for elements of declared size `size` -/
def chargeAccess (size count : Nat) : Op Unit := charge memCpy (satMulU64 size count)

/-- host/metered_map.rs:70-72 and host/metered_vector.rs:45-50 `charge_scan` -/
def chargeScan (size len : Nat) : Op Unit := charge memCpy (satMulU64 size len)

/-- host/metered_map.rs:77-83 and host/metered_vector.rs:54-60 `charge_binsearch` -/
def chargeBinsearch (size len : Nat) : Op Unit := charge memCpy (satMulU64 size (satAddU32 (bits len) 1))

/-- What metering knows of a type of elements: host/declared_size.rs `DECLARED_SIZE`, and host/metered_clone.rs:217-230
`bulk_charge_for_substructure`. -/
structure Elt (α : Type) where
  size : Nat
  subs : List α → B → B × Res Unit

/-- host/metered_clone.rs:234-241 `charge_deep_clone` of a `Vec<T>` (declared size 24), with host/metered_clone.rs:415-422
`charge_for_substructure` -/
def deepClone {α : Type} (E : Elt α) (xs : List α) : Op Unit := do
  charge memCpy (satMulU64 1 24)
  charge memAlloc (satMulU64 xs.length E.size)
  charge memCpy (satMulU64 xs.length E.size)
  lift (E.subs xs)

/-- host/metered_vector.rs:404-445 `binary_search_by_pre_rust_182`, with a comparison that may charge; see `bsearchLoop`. -/
def searchLoop {α : Type} (size : Nat) (xs : List α) (f : α → B → B × Res Ordering) (left right : Nat) : Op Found :=
  if _h : left < right then
    let mid := left + (right - left) / 2
    match xs[mid]? with
    | none => .fail (.host .context .internalError)
    | some x => do
      look size
      match ← lift (f x) with
      | .lt => searchLoop size xs f (mid + 1) right
      | .gt => searchLoop size xs f left mid
      | .eq => .ret (.found mid)
  else .ret (.notFound left)
  termination_by right - left
  decreasing_by all_goals omega

/-- host/metered_vector.rs:280-308 `binary_search_by`, and the body of host/metered_map.rs:168-194 `find` -/
def search {α : Type} (size : Nat) (xs : List α) (f : α → B → B × Res Ordering) : Op Found := do
  chargeBinsearch size xs.length
  searchLoop size xs f 0 xs.length

/-- soroban-env-common/src/compare.rs:75-92 `Compare<Vec<T>>` -/
def cmpLoop {α : Type} (size : Nat) (cmp : α → α → B → B × Res Ordering) : List α → List α → Op Ordering
  | [], [] => .ret .eq
  | [], _ :: _ => .ret .lt
  | _ :: _, [] => .ret .gt
  | a :: as, b :: bs => do
    look size
    match ← lift (cmp a b) with
    | .eq => cmpLoop size cmp as bs
    | o => .ret o

/-! ### vectors -/
section Vec
variable {A : Type} (E : Elt A)

/-- host/metered_vector.rs:83-89 `from_vec` -/
def fromVec (xs : List A) : Op (List A) := if xs.length > u32Max then .fail oob else .ret xs

/-- host/metered_vector.rs:103-124 `from_exact_iter`: the elements are copied first and charged for then. -/
def vecOfIter (xs : List A) : Op (List A) :=
  if xs.length > u32Max then .fail oob
  else do
    copy (E.size * xs.length)
    deepClone E xs
    fromVec xs

/-- host/metered_vector.rs:126-132 `set` -/
def set (v : List A) (i : Nat) (x : A) : Op (List A) := do
  deepClone E v
  copy (E.size * v.length)
  chargeAccess E.size 1
  look E.size
  if i < v.length then .ret (v.set i x) else .fail oob

/-- host/metered_vector.rs:134-137 `get` -/
def vget (v : List A) (i : Nat) : Op A := do
  chargeAccess E.size 1
  look E.size
  match v[i]? with
  | some x => .ret x
  | none => .fail oob

/-- host/metered_vector.rs:143-150 `push_front` -/
def pushFront (v : List A) (x : A) : Op (List A) := if v.length == u32Max then .fail oob else vecOfIter E (x :: v)

/-- host/metered_vector.rs:152-159 `pop_front` -/
def popFront (v : List A) : Op (List A) := if v.isEmpty then .fail oob else vecOfIter E (v.drop 1)

/-- host/metered_vector.rs:161-168 `push_back` -/
def pushBack (v : List A) (x : A) : Op (List A) := if v.length == u32Max then .fail oob else vecOfIter E (v ++ [x])

/-- host/metered_vector.rs:187-195 `pop_back` -/
def popBack (v : List A) : Op (List A) := if v.isEmpty then .fail oob else vecOfIter E (v.take (v.length - 1))

/-- host/metered_vector.rs:197-208 `remove` -/
def vremove (v : List A) (i : Nat) : Op (List A) :=
  if i ≥ v.length then .fail oob
  else match addOrErr i 1 with
    | .error e => .fail e
    | .ok skip => vecOfIter E (v.take i ++ v.drop skip)

/-- host/metered_vector.rs:210-213 `front` -/
def front (v : List A) : Op A := do
  chargeAccess E.size 1
  look E.size
  match v.head? with
  | some x => .ret x
  | none => .fail oob

/-- host/metered_vector.rs:215-218 `back` -/
def back (v : List A) : Op A := do
  chargeAccess E.size 1
  look E.size
  match v.getLast? with
  | some x => .ret x
  | none => .fail oob

/-- host/metered_vector.rs:220-237 `insert` -/
def vinsert (v : List A) (i : Nat) (x : A) : Op (List A) :=
  if v.length == u32Max then .fail oob
  else if i > v.length then .fail oob
  else if i == v.length then pushBack E v x
  else if i == 0 then pushFront E v x
  else vecOfIter E (v.take i ++ [x] ++ v.drop i)

/-- host/metered_vector.rs:239-243 `append` -/
def append (a b : List A) : Op (List A) :=
  match addOrErr a.length b.length with
  | .error e => .fail e
  | .ok _ => vecOfIter E (a ++ b)

/-- host/metered_vector.rs:245-250 `slice` -/
def slice (v : List A) (s e : Nat) : Op (List A) :=
  if s > e || e > v.length then .fail oob else vecOfIter E ((v.take e).drop s)

/-- host/metered_vector.rs:258-262, the loop of `first_index_of` from index `i` -/
def firstLoop (size : Nat) (f : A → B → B × Res Ordering) (i : Nat) : List A → Op (Option Nat)
  | [] => .ret none
  | x :: xs => do
    look size
    let o ← lift (f x)
    if o == .eq then .ret (some i) else firstLoop size f (i + 1) xs

/-- host/metered_vector.rs:252-264 `first_index_of` -/
def firstIndexOf (f : A → B → B × Res Ordering) (v : List A) : Op (Option Nat) := do
  chargeScan E.size v.length
  firstLoop E.size f 0 v

/-- host/metered_vector.rs:272-276, the loop of `last_index_of`, over the reversed elements: the head has index `xs.length - 1` -/
def lastLoop (size : Nat) (f : A → B → B × Res Ordering) : List A → Op (Option Nat)
  | [] => .ret none
  | x :: xs => do
    look size
    let o ← lift (f x)
    if o == .eq then .ret (some xs.length) else lastLoop size f xs

/-- host/metered_vector.rs:266-278 `last_index_of` -/
def lastIndexOf (f : A → B → B × Res Ordering) (v : List A) : Op (Option Nat) := do
  chargeScan E.size v.length
  lastLoop E.size f v.reverse

/-- host/metered_vector.rs:314-316 `to_vec` -/
def toVec (v : List A) : Op (List A) := do
  deepClone E v
  copy (E.size * v.length)
  .ret v

/-- host/metered_vector.rs:341-393 `compare`: an access and a comparison are charged for each position both have. -/
def vcompare (cmp : A → A → B → B × Res Ordering) (a b : List A) : Op Ordering := do
  charge memCpy (satMulU64 E.size (min a.length b.length))
  charge memCmp (satMulU64 E.size (min a.length b.length))
  cmpLoop E.size cmp a b

end Vec

/-! ### maps -/
section Map
variable {K V : Type} (E : Elt (K × V)) (cmp : K → K → B → B × Res Ordering)

/-- host/metered_map.rs:128-136, the `windows(2)` loop of `from_map` -/
def sortedLoop (size : Nat) : List (K × V) → Op Unit
  | a :: b :: rest => do
    look size
    match ← lift (cmp a.1 b.1) with
    | .lt => sortedLoop size (b :: rest)
    | _ => .fail (.host .object .invalidInput)
  | _ => .ret ()

/-- host/metered_map.rs:117-138 `from_map` -/
def fromMap (m : List (K × V)) : Op (List (K × V)) :=
  if m.length > u32Max then .fail oob
  else do
    chargeScan E.size m.length
    sortedLoop cmp E.size m
    .ret m

/-- host/metered_map.rs:144-166 `from_exact_iter`: the entries are copied first and charged for then. -/
def mapOfIter (m : List (K × V)) : Op (List (K × V)) :=
  if m.length > u32Max then .fail oob
  else do
    copy (E.size * m.length)
    deepClone E m
    fromMap E cmp m

/-- host/metered_map.rs:168-194 `find` -/
def find (m : List (K × V)) (k : K) : Op Found := search E.size m (fun p => cmp p.1 k)

/-- host/metered_map.rs:196-225 `insert` -/
def insert (m : List (K × V)) (k : K) (v : V) : Op (List (K × V)) := do
  chargeAccess E.size 1
  match ← find E cmp m k with
  | .found i => mapOfIter E cmp (m.take i ++ [(k, v)] ++ m.drop (i + 1))
  | .notFound i =>
    if m.length == u32Max then .fail oob
    else mapOfIter E cmp (m.take i ++ [(k, v)] ++ m.drop i)

/-- host/metered_map.rs:227-242 `get` -/
def get (m : List (K × V)) (k : K) : Op (Option V) := do
  match ← find E cmp m k with
  | .found i =>
    chargeAccess E.size 1
    look E.size
    match m[i]? with
    | some p => .ret (some p.2)
    | none => .fail (.host .object .internalError)
  | .notFound _ => .ret none

/-- host/metered_map.rs:244-249 `get_at_index` -/
def getAt (m : List (K × V)) (i : Nat) : Op (K × V) := do
  chargeAccess E.size 1
  look E.size
  match m[i]? with
  | some p => .ret p
  | none => .fail (.host .object .indexBounds)

/-- host/metered_map.rs:254-288 `remove`; `clone` is the `metered_clone` of the value. -/
def remove (clone : V → B → B × Res Unit) (m : List (K × V)) (k : K) : Op (Option (List (K × V) × V)) := do
  match ← find E cmp m k with
  | .found i =>
    let new ← mapOfIter E cmp (if i > 0 then m.take i ++ m.drop (i + 1) else m.drop 1)
    look E.size
    match m[i]? with
    | none => .fail (.host .object .internalError)
    | some p => do
      lift (clone p.2)
      .ret (some (new, p.2))
  | .notFound _ => .ret none

/-- host/metered_map.rs:294-300 `contains_key` -/
def containsKey (m : List (K × V)) (k : K) : Op Bool := do
  match ← find E cmp m k with
  | .found _ => .ret true
  | .notFound _ => .ret false

/-- Entries that an iterator hands out. -/
def lookAll {α : Type} (size : Nat) : List α → Op Unit
  | [] => .ret ()
  | _ :: xs => do look size; lookAll size xs

/-- host/metered_map.rs:302-315 `keys`, `values` and `iter`, with the use of all of the iterator -/
def iter (m : List (K × V)) : Op (List (K × V)) := do
  chargeScan E.size m.length
  lookAll E.size m
  .ret m

/-- host/metered_map.rs:376-417 `compare`; `pair` compares entries. -/
def mcompare (pair : K × V → K × V → B → B × Res Ordering) (a b : List (K × V)) : Op Ordering := do
  charge memCpy (satMulU64 E.size (min a.length b.length))
  cmpLoop E.size pair a b

end Map
end Soroban.Coll
