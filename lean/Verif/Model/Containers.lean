import Verif.Model.Arith
import Verif.Model.Err
/-!
Model of the host's ordered maps and vectors: soroban-env-host/src/host/metered_map.rs, host/metered_vector.rs, the checks
of host/validity.rs, the bodies of the `map_*` and `vec_*` host functions in host.rs after their handle arguments have been
resolved, and the map construction and unpacking loops of host/data_helper.rs.

Simplifications, everywhere in this file: budget charges are dropped (the budget is modelled separately); a `Vec<T>` is a
`List`; `usize` is unbounded (a `usize` overflow would need more than 2^64 elements). Comparison is a parameter
`cmp : K → K → Res Ordering` because the code takes it from the context (`Ctx: Compare<K>`), and it may fail.
-/
namespace Soroban

/-- metered_map.rs:12 `MAP_OOB` and metered_vector.rs:10 `VEC_OOB`. -/
def oob : Err := .host .object .indexBounds

/-- The `Result<usize, usize>` of a binary search. -/
inductive Found where
  | found (i : Nat)
  | notFound (i : Nat)
  deriving DecidableEq, Repr

/-- metered_vector.rs:404-445 `binary_search_by_pre_rust_182`, the loop from `left` and `right` (`size = right - left` holds
at the head of the loop, so it is not a separate variable). The closure wrappers of metered_map.rs:175-193 and
metered_vector.rs:288-308 stop the search at the first comparison error and return that error; here the error is returned
directly. A failed `slice.get(mid).unwrap()` would panic; here it is an internal error. -/
def bsearchLoop {α : Type} (xs : List α) (f : α → Res Ordering) (left right : Nat) : Res Found :=
  if _h : left < right then
    let mid := left + (right - left) / 2
    match xs[mid]? with
    | none => .error (.host .context .internalError)
    | some x =>
      match f x with
      | .error e => .error e
      | .ok .lt => bsearchLoop xs f (mid + 1) right
      | .ok .gt => bsearchLoop xs f left mid
      | .ok .eq => .ok (.found mid)
  else .ok (.notFound left)
  termination_by right - left
  decreasing_by all_goals omega

/-- metered_vector.rs:404-445 `binary_search_by_pre_rust_182`. -/
def bsearch {α : Type} (xs : List α) (f : α → Res Ordering) : Res Found := bsearchLoop xs f 0 xs.length

section Map
variable {K V : Type} (cmp : K → K → Res Ordering)

/-- metered_map.rs:128-136, the `windows(2)` loop of `from_map`. -/
def checkSorted : List (K × V) → Res Unit
  | a :: b :: rest =>
    match cmp a.1 b.1 with
    | .error e => .error e
    | .ok .lt => checkSorted (b :: rest)
    | .ok _ => .error (.host .object .invalidInput)
  | _ => .ok ()

/-- metered_map.rs:117-138 `MeteredOrdMap::from_map`. -/
def fromMap (m : List (K × V)) : Res (List (K × V)) :=
  if m.length > u32Max then .error oob
  else match checkSorted cmp m with
    | .error e => .error e
    | .ok () => .ok m

/-- metered_map.rs:144-166 `MeteredOrdMap::from_exact_iter`; all iterators used report their exact size. -/
def fromExactIter (m : List (K × V)) : Res (List (K × V)) :=
  if m.length > u32Max then .error oob else fromMap cmp m

/-- metered_map.rs:168-194 `MeteredOrdMap::find`. -/
def find (m : List (K × V)) (k : K) : Res Found := bsearch m (fun probe => cmp probe.1 k)

/-- metered_map.rs:196-225 `MeteredOrdMap::insert`. The `replace_pos == usize::MAX - 1` check cannot fire and is dropped. -/
def insert (m : List (K × V)) (k : K) (v : V) : Res (List (K × V)) :=
  match find cmp m k with
  | .error e => .error e
  | .ok (.found i) => fromExactIter cmp (m.take i ++ [(k, v)] ++ m.drop (i + 1))
  | .ok (.notFound i) =>
    if m.length == u32Max then .error oob
    else fromExactIter cmp (m.take i ++ [(k, v)] ++ m.drop i)

/-- metered_map.rs:227-242 `MeteredOrdMap::get`. -/
def get (m : List (K × V)) (k : K) : Res (Option V) :=
  match find cmp m k with
  | .error e => .error e
  | .ok (.found i) =>
    match m[i]? with
    | some p => .ok (some p.2)
    | none => .error (.host .object .internalError)
  | .ok (.notFound _) => .ok none

/-- metered_map.rs:244-249 `MeteredOrdMap::get_at_index`. -/
def getAtIndex (m : List (K × V)) (i : Nat) : Res (K × V) :=
  match m[i]? with
  | some p => .ok p
  | none => .error (.host .object .indexBounds)

/-- metered_map.rs:254-288 `MeteredOrdMap::remove`. -/
def remove (m : List (K × V)) (k : K) : Res (Option (List (K × V) × V)) :=
  match find cmp m k with
  | .error e => .error e
  | .ok (.notFound _) => .ok none
  | .ok (.found i) =>
    let rest := if i > 0 then m.take i ++ m.drop (i + 1) else m.drop 1
    match fromExactIter cmp rest with
    | .error e => .error e
    | .ok new =>
      match m[i]? with
      | some p => .ok (some (new, p.2))
      | none => .error (.host .object .internalError)

/-- metered_map.rs:294-300 `MeteredOrdMap::contains_key`. -/
def containsKey (m : List (K × V)) (k : K) : Res Bool :=
  match find cmp m k with
  | .error e => .error e
  | .ok (.found _) => .ok true
  | .ok (.notFound _) => .ok false

/-- host/conversion.rs:27-37 `usize_to_u32`, used by `usize_to_u32val`. -/
def usizeToU32 (n : Nat) : Res Nat :=
  if n ≤ u32Max then .ok n else .error (.host .value .arithDomain)

/-- metered_vector.rs:103-124 `MeteredVector::from_exact_iter` with `from_vec`. -/
def vecFromIter {α : Type} (v : List α) : Res (List α) := if v.length > u32Max then .error oob else .ok v

/-- host.rs:1661-1663 `map_new`. -/
def mapNew : List (K × V) := []

/-- host.rs:1665-1674 `map_put`. -/
def mapPut (m : List (K × V)) (k : K) (v : V) : Res (List (K × V)) := insert cmp m k v

/-- host.rs:1676-1692 `map_get`. -/
def mapGet (m : List (K × V)) (k : K) : Res V :=
  match get cmp m k with
  | .error e => .error e
  | .ok (some v) => .ok v
  | .ok none => .error (.host .object .missingValue)

/-- host.rs:1694-1709 `map_del`. -/
def mapDel (m : List (K × V)) (k : K) : Res (List (K × V)) :=
  match remove cmp m k with
  | .error e => .error e
  | .ok (some p) => .ok p.1
  | .ok none => .error (.host .object .missingValue)

/-- host.rs:1711-1714 `map_len`. -/
def mapLen (m : List (K × V)) : Res Nat := usizeToU32 m.length

/-- host.rs:1716-1723 `map_has`. -/
def mapHas (m : List (K × V)) (k : K) : Res Bool := containsKey cmp m k

/-- host.rs:1725-1735 `map_key_by_pos`. -/
def mapKeyByPos (m : List (K × V)) (i : Nat) : Res K := (getAtIndex m i).map (·.1)

/-- host.rs:1737-1747 `map_val_by_pos`. -/
def mapValByPos (m : List (K × V)) (i : Nat) : Res V := (getAtIndex m i).map (·.2)

/-- host.rs:1749-1758 `map_keys`. -/
def mapKeys (m : List (K × V)) : Res (List K) := vecFromIter (m.map (·.1))

/-- host.rs:1760-1769 `map_values`. -/
def mapValues (m : List (K × V)) : Res (List V) := vecFromIter (m.map (·.2))

/-- data_helper.rs:768-784 and 894-906: the check of a key against `prev_key`, made when `active`. -/
def checkPrev (active : Bool) (prev : Option K) (k : K) : Res Unit :=
  match prev with
  | none => .ok ()
  | some p =>
    if active then
      match cmp p k with
      | .error e => .error e
      | .ok .lt => .ok ()
      | .ok _ => .error (.host .object .invalidInput)
    else .ok ()

/-- data_helper.rs:765-790, the loop of `map_new_from_slices_impl`. `prev` is `prev_key`, `good` is `check_val_integrity`,
`isVoid` is `Val::is_void`; the accumulated `map_vec` is returned. The key conversion `Symbol::try_from_val` is done by the
caller of the model. -/
def mapFromSlicesLoop (good isVoid : V → Bool) (sparse : Bool) (prev : Option K) : List (K × V) → Res (List (K × V))
  | [] => .ok []
  | (k, v) :: rest =>
    match checkPrev cmp sparse prev k with
    | .error e => .error e
    | .ok () =>
      if !good v then .error (.host .value .invalidInput)
      else match mapFromSlicesLoop good isVoid sparse (some k) rest with
        | .error e => .error e
        | .ok m => .ok (if !sparse || !isVoid v then (k, v) :: m else m)

/-- data_helper.rs:745-794 `map_new_from_slices_impl`. In the code an ill-formed value and a misplaced key are reported in
list order; the same order is kept here. -/
def mapFromSlices (good isVoid : V → Bool) (sparse : Bool) (keys : List K) (vals : List V) : Res (List (K × V)) :=
  if keys.length != vals.length then .error (.host .object .unexpectedSize)
  else match mapFromSlicesLoop cmp good isVoid sparse none (keys.zip vals) with
    | .error e => .error e
    | .ok m => fromMap cmp m

/-- data_helper.rs:909-949, the inner `while let` of `map_unpack_impl` for one key: returns the output value and the map
iterator's remaining entries. `void` is `Val::VOID`. Map keys and query keys are compared by `cmp` (in the code, symbol
against bytes); a map key that is not a symbol is a comparison error. -/
def unpackOne (void : V) (sparse : Bool) (k : K) : List (K × V) → Res (V × List (K × V))
  | [] => .ok (void, [])
  | (mk, mv) :: rest =>
    match cmp mk k with
    | .error e => .error e
    | .ok o =>
      if sparse then
        match o with
        | .lt => unpackOne void sparse k rest
        | .eq => .ok (mv, rest)
        | .gt => .ok (void, (mk, mv) :: rest)
      else if o != .eq then .error (.host .object .invalidInput)
      else .ok (mv, rest)

/-- data_helper.rs:880-949, the loop over the output slots of `map_unpack_impl`. -/
def unpackLoop (void : V) (sparse : Bool) (prev : Option K) (m : List (K × V)) : List K → Res (List V × List (K × V))
  | [] => .ok ([], m)
  | k :: ks =>
    match checkPrev cmp true prev k with
    | .error e => .error e
    | .ok () =>
      match unpackOne cmp void sparse k m with
      | .error e => .error e
      | .ok (v, m') =>
        match unpackLoop void sparse (some k) m' ks with
        | .error e => .error e
        | .ok (vs, rest) => .ok (v :: vs, rest)

/-- data_helper.rs:853-960 `map_unpack_impl`; `isKeySymbol` is the final `Symbol::try_from_val` check on the keys that were
not reached. -/
def mapUnpack (isKeySymbol : K → Bool) (void : V) (sparse : Bool) (m : List (K × V)) (keys : List K) : Res (List V) :=
  if !sparse && m.length != keys.length then .error (.host .object .unexpectedSize)
  else match unpackLoop cmp void sparse none m keys with
    | .error e => .error e
    | .ok (vs, rest) =>
      if rest.all (fun p => isKeySymbol p.1) then .ok vs else .error (.host .value .unexpectedType)

end Map

section Vector
variable {A : Type}

/-- validity.rs:10-19 `validate_index_lt_bound`. -/
def indexLt (i bound : Nat) : Res Unit := if i ≥ bound then .error oob else .ok ()

/-- validity.rs:22-31 `validate_index_le_bound`. -/
def indexLe (i bound : Nat) : Res Unit := if i > bound then .error oob else .ok ()

/-- metered_vector.rs:126-132 `set`. -/
def vSet (v : List A) (i : Nat) (x : A) : Res (List A) := if i < v.length then .ok (v.set i x) else .error oob

/-- metered_vector.rs:134-137 `get`. -/
def vGet (v : List A) (i : Nat) : Res A := match v[i]? with | some x => .ok x | none => .error oob

/-- metered_vector.rs:143-150 `push_front`. -/
def vPushFront (v : List A) (x : A) : Res (List A) :=
  if v.length == u32Max then .error oob else vecFromIter ([x] ++ v)

/-- metered_vector.rs:152-159 `pop_front`. -/
def vPopFront (v : List A) : Res (List A) := if v.isEmpty then .error oob else vecFromIter (v.drop 1)

/-- metered_vector.rs:161-168 `push_back`. -/
def vPushBack (v : List A) (x : A) : Res (List A) :=
  if v.length == u32Max then .error oob else vecFromIter (v ++ [x])

/-- metered_vector.rs:187-195 `pop_back`. -/
def vPopBack (v : List A) : Res (List A) := if v.isEmpty then .error oob else vecFromIter (v.take (v.length - 1))

/-- metered_vector.rs:174-181 `add_or_err`. -/
def addOrErr (x y : Nat) : Res Nat := if x + y > u32Max then .error oob else .ok (x + y)

/-- metered_vector.rs:197-208 `remove` (the `usize::MAX - 1` test cannot fire and is dropped). -/
def vRemove (v : List A) (i : Nat) : Res (List A) :=
  if i ≥ v.length then .error oob
  else match addOrErr i 1 with
    | .error e => .error e
    | .ok skip => vecFromIter (v.take i ++ v.drop skip)

/-- metered_vector.rs:210-213 `front`. -/
def vFront (v : List A) : Res A := match v.head? with | some x => .ok x | none => .error oob

/-- metered_vector.rs:215-218 `back`. -/
def vBack (v : List A) : Res A := match v.getLast? with | some x => .ok x | none => .error oob

/-- metered_vector.rs:220-237 `insert`. -/
def vInsert (v : List A) (i : Nat) (x : A) : Res (List A) :=
  if v.length == u32Max then .error oob
  else if i > v.length then .error oob
  else if i == v.length then vPushBack v x
  else if i == 0 then vPushFront v x
  else vecFromIter (v.take i ++ [x] ++ v.drop i)

/-- metered_vector.rs:239-243 `append`. -/
def vAppend (a b : List A) : Res (List A) :=
  match addOrErr a.length b.length with
  | .error e => .error e
  | .ok _ => vecFromIter (a ++ b)

/-- metered_vector.rs:245-250 `slice`; `slice::get(range)` is `None` when `start > end` or `end > len`. -/
def vSlice (v : List A) (s e : Nat) : Res (List A) :=
  if s > e || e > v.length then .error oob else vecFromIter ((v.take e).drop s)

/-- metered_vector.rs:252-264 `first_index_of`: the loop, starting at index `i`. -/
def firstIndexLoop (f : A → Res Ordering) (i : Nat) : List A → Res (Option Nat)
  | [] => .ok none
  | x :: xs =>
    match f x with
    | .error e => .error e
    | .ok o => if o == .eq then .ok (some i) else firstIndexLoop f (i + 1) xs

/-- metered_vector.rs:266-278 `last_index_of`: the loop over the reversed enumeration; `xs` is the reversed prefix, so the
head has index `xs.length - 1`. -/
def lastIndexLoop (f : A → Res Ordering) : List A → Res (Option Nat)
  | [] => .ok none
  | x :: xs =>
    match f x with
    | .error e => .error e
    | .ok o => if o == .eq then .ok (some xs.length) else lastIndexLoop f xs

/-- host.rs:1820-1833 `vec_put`. -/
def vecPut (v : List A) (i : Nat) (x : A) : Res (List A) := do indexLt i v.length; vSet v i x

/-- host.rs:1835-1846 `vec_get`. -/
def vecGet (v : List A) (i : Nat) : Res A := do indexLt i v.length; vGet v i

/-- host.rs:1848-1860 `vec_del`. -/
def vecDel (v : List A) (i : Nat) : Res (List A) := do indexLt i v.length; vRemove v i

/-- host.rs:1862-1865 `vec_len`. -/
def vecLen (v : List A) : Res Nat := usizeToU32 v.length

/-- host.rs:1917-1930 `vec_insert`. -/
def vecInsert (v : List A) (i : Nat) (x : A) : Res (List A) := do indexLe i v.length; vInsert v i x

/-- host.rs:1932-1948 `vec_append`. `u32::MAX - hv2.len()` cannot wrap since a vector's length is at most `u32::MAX`. -/
def vecAppend (a b : List A) : Res (List A) :=
  if a.length > u32Max - b.length then .error (.host .value .arithDomain) else vAppend a b

/-- validity.rs:34-54 `valid_range_from_start_end_bound`. -/
def validRange (s e bound : Nat) : Res (Nat × Nat) := do
  indexLe s bound
  indexLe e bound
  if s > e then .error (.host .object .invalidInput) else .ok (s, e)

/-- host.rs:1950-1964 `vec_slice`. -/
def vecSlice (v : List A) (s e : Nat) : Res (List A) := do let r ← validRange s e v.length; vSlice v r.1 r.2

/-- host.rs:1966-1980 `vec_first_index_of`; `none` is `Void`. -/
def vecFirstIndexOf (cmp : A → A → Res Ordering) (v : List A) (x : A) : Res (Option Nat) :=
  match firstIndexLoop (fun other => cmp x other) 0 v with
  | .error e => .error e
  | .ok none => .ok none
  | .ok (some i) => (usizeToU32 i).map some

/-- host.rs:1982-1996 `vec_last_index_of`; `none` is `Void`. -/
def vecLastIndexOf (cmp : A → A → Res Ordering) (v : List A) (x : A) : Res (Option Nat) :=
  match lastIndexLoop (fun other => cmp x other) v.reverse with
  | .error e => .error e
  | .ok none => .ok none
  | .ok (some i) => (usizeToU32 i).map some

/-- host/conversion.rs:176-190 `u64_from_binary_search_result`. -/
def u64FromSearch : Found → Res Nat
  | .found i => (usizeToU32 i).map (fun v => v ||| (1 <<< 32))
  | .notFound i => usizeToU32 i

/-- host.rs:1998-2008 `vec_binary_search`. -/
def vecBinarySearch (cmp : A → A → Res Ordering) (v : List A) (x : A) : Res Nat :=
  match bsearch v (fun probe => cmp probe x) with
  | .error e => .error e
  | .ok r => u64FromSearch r

end Vector
end Soroban
