import Verif.Model.Objects
import Verif.Model.ScVal
/-! The functions on containers commute with a renaming of the elements. -/
namespace Soroban
variable {A B : Type} (g : A → B)

section Vector

theorem nat_vecFromIter (l : List A) : vecFromIter (l.map g) = (vecFromIter l).map (List.map g) := by
  unfold vecFromIter
  rw [List.length_map]
  split <;> rfl

theorem nat_vecPut (l : List A) (i : Nat) (x : A) : vecPut (l.map g) i (g x) = (vecPut l i x).map (List.map g) := by
  unfold vecPut indexLt vSet
  rw [List.length_map]
  by_cases h : i ≥ l.length
  · rw [if_pos h]; rfl
  · rw [if_neg h, ← List.map_set]
    by_cases h2 : i < l.length
    · rw [if_pos h2, if_pos h2]; rfl
    · rw [if_neg h2, if_neg h2]; rfl

theorem nat_vecGet (l : List A) (i : Nat) : vecGet (l.map g) i = (vecGet l i).map g := by
  unfold vecGet indexLt vGet
  rw [List.length_map, List.getElem?_map]
  by_cases h : i ≥ l.length
  · rw [if_pos h]; rfl
  · rw [if_neg h]
    cases l[i]? <;> rfl

theorem nat_vRemove (l : List A) (i : Nat) : vRemove (l.map g) i = (vRemove l i).map (List.map g) := by
  unfold vRemove
  rw [List.length_map]
  by_cases h : i ≥ l.length
  · rw [if_pos h, if_pos h]; rfl
  · rw [if_neg h, if_neg h]
    cases addOrErr i 1 with
    | error e => rfl
    | ok s =>
      simp only
      rw [← List.map_take, ← List.map_drop, ← List.map_append, nat_vecFromIter]

theorem nat_vecDel (l : List A) (i : Nat) : vecDel (l.map g) i = (vecDel l i).map (List.map g) := by
  unfold vecDel
  rw [List.length_map, nat_vRemove]
  cases indexLt i l.length <;> rfl

theorem nat_vecLen (l : List A) : vecLen (l.map g) = vecLen l := by
  unfold vecLen
  rw [List.length_map]

theorem nat_vPushFront (l : List A) (x : A) : vPushFront (l.map g) (g x) = (vPushFront l x).map (List.map g) := by
  unfold vPushFront
  rw [List.length_map]
  split
  · rfl
  · rw [show [g x] ++ l.map g = ([x] ++ l).map g from rfl, nat_vecFromIter]

theorem nat_vPushBack (l : List A) (x : A) : vPushBack (l.map g) (g x) = (vPushBack l x).map (List.map g) := by
  unfold vPushBack
  rw [List.length_map]
  split
  · rfl
  · rw [show l.map g ++ [g x] = (l ++ [x]).map g from by simp, nat_vecFromIter]

theorem nat_vPopFront (l : List A) : vPopFront (l.map g) = (vPopFront l).map (List.map g) := by
  unfold vPopFront
  rw [List.isEmpty_map]
  split
  · rfl
  · rw [← List.map_drop, nat_vecFromIter]

theorem nat_vPopBack (l : List A) : vPopBack (l.map g) = (vPopBack l).map (List.map g) := by
  unfold vPopBack
  rw [List.isEmpty_map, List.length_map]
  split
  · rfl
  · rw [← List.map_take, nat_vecFromIter]

theorem nat_vFront (l : List A) : vFront (l.map g) = (vFront l).map g := by
  unfold vFront
  cases l <;> rfl

theorem nat_vBack (l : List A) : vBack (l.map g) = (vBack l).map g := by
  unfold vBack
  rw [List.getLast?_map]
  cases l.getLast? <;> rfl

theorem nat_vecInsert (l : List A) (i : Nat) (x : A) : vecInsert (l.map g) i (g x) = (vecInsert l i x).map (List.map g) := by
  unfold vecInsert vInsert
  rw [List.length_map, nat_vPushBack, nat_vPushFront]
  cases indexLe i l.length with
  | error e => rfl
  | ok u =>
    simp only [bind, Except.bind]
    split
    · rfl
    split
    · rfl
    split
    · rfl
    split
    · rfl
    · rw [← List.map_take, ← List.map_drop, show [g x] = [x].map g from rfl, ← List.map_append, ← List.map_append,
        nat_vecFromIter]

theorem nat_vecAppend (a b : List A) : vecAppend (a.map g) (b.map g) = (vecAppend a b).map (List.map g) := by
  unfold vecAppend vAppend
  rw [List.length_map, List.length_map]
  split
  · rfl
  · cases addOrErr a.length b.length with
    | error e => rfl
    | ok n =>
      simp only
      rw [← List.map_append, nat_vecFromIter]

theorem nat_vecSlice (l : List A) (s e : Nat) : vecSlice (l.map g) s e = (vecSlice l s e).map (List.map g) := by
  unfold vecSlice vSlice
  rw [List.length_map]
  cases validRange s e l.length with
  | error e => rfl
  | ok r =>
    simp only [bind, Except.bind]
    split
    · rfl
    · rw [← List.map_take, ← List.map_drop, nat_vecFromIter]

theorem nat_firstIndexLoop (f : B → Res Ordering) (l : List A) : ∀ i, firstIndexLoop f i (l.map g) = firstIndexLoop (fun a => f (g a)) i l := by
  induction l with
  | nil => intro i; rfl
  | cons x xs ih =>
    intro i
    rw [List.map_cons]
    unfold firstIndexLoop
    cases f (g x) with
    | error e => rfl
    | ok o => simp only [ih]

theorem nat_lastIndexLoop (f : B → Res Ordering) (l : List A) : lastIndexLoop f (l.map g) = lastIndexLoop (fun a => f (g a)) l := by
  induction l with
  | nil => rfl
  | cons x xs ih =>
    rw [List.map_cons]
    unfold lastIndexLoop
    cases f (g x) with
    | error e => rfl
    | ok o => simp only [ih, List.length_map]

theorem nat_vecFirstIndexOf (cmp : B → B → Res Ordering) (l : List A) (x : A) :
    vecFirstIndexOf cmp (l.map g) (g x) = vecFirstIndexOf (fun a b => cmp (g a) (g b)) l x := by
  unfold vecFirstIndexOf
  rw [nat_firstIndexLoop]

theorem nat_vecLastIndexOf (cmp : B → B → Res Ordering) (l : List A) (x : A) :
    vecLastIndexOf cmp (l.map g) (g x) = vecLastIndexOf (fun a b => cmp (g a) (g b)) l x := by
  unfold vecLastIndexOf
  rw [← List.map_reverse, nat_lastIndexLoop]

theorem nat_bsearchLoop {A B : Type} (g : A → B) (f : B → Res Ordering) (l : List A) (left right : Nat) :
    bsearchLoop (l.map g) f left right = bsearchLoop l (fun a => f (g a)) left right := by
  generalize hn : right - left = n
  induction n using Nat.strongRecOn generalizing left right with
  | _ n ih =>
    unfold bsearchLoop
    split
    · rename_i hlt
      simp only [List.getElem?_map]
      cases l[left + (right - left) / 2]? with
      | none => rfl
      | some x =>
        simp only [Option.map_some]
        cases f (g x) with
        | error e => rfl
        | ok o =>
          cases o with
          | lt => exact ih _ (by omega) _ _ rfl
          | eq => rfl
          | gt => exact ih _ (by omega) _ _ rfl
    · rfl

theorem nat_bsearch {A B : Type} (g : A → B) (f : B → Res Ordering) (l : List A) :
    bsearch (l.map g) f = bsearch l (fun a => f (g a)) := by
  unfold bsearch
  rw [List.length_map, nat_bsearchLoop]

theorem nat_vecBinarySearch (cmp : B → B → Res Ordering) (l : List A) (x : A) :
    vecBinarySearch cmp (l.map g) (g x) = vecBinarySearch (fun a b => cmp (g a) (g b)) l x := by
  unfold vecBinarySearch
  rw [nat_bsearch]

end Vector

section Map
variable (cmp : B → B → Res Ordering)

/-- The renaming of keys and values. -/
abbrev renPair (p : A × A) : B × B := (g p.1, g p.2)

theorem nat_checkSorted (m : List (A × A)) : checkSorted cmp (m.map (renPair g)) = checkSorted (fun a b => cmp (g a) (g b)) m := by
  induction m with
  | nil => rfl
  | cons a rest ih =>
    cases rest with
    | nil => rfl
    | cons b rest =>
      rw [List.map_cons, List.map_cons]
      unfold checkSorted
      rw [← List.map_cons, ih]

theorem nat_fromMap (m : List (A × A)) :
    fromMap cmp (m.map (renPair g)) = (fromMap (fun a b => cmp (g a) (g b)) m).map (List.map (renPair g)) := by
  unfold fromMap
  rw [List.length_map, nat_checkSorted]
  split
  · rfl
  · cases checkSorted (fun a b => cmp (g a) (g b)) m <;> rfl

theorem nat_fromExactIter (m : List (A × A)) :
    fromExactIter cmp (m.map (renPair g)) = (fromExactIter (fun a b => cmp (g a) (g b)) m).map (List.map (renPair g)) := by
  unfold fromExactIter
  rw [List.length_map, nat_fromMap]
  split <;> rfl

theorem nat_find (m : List (A × A)) (k : A) : find cmp (m.map (renPair g)) (g k) = find (fun a b => cmp (g a) (g b)) m k := by
  unfold find
  rw [nat_bsearch]

theorem nat_mapPut (m : List (A × A)) (k v : A) :
    mapPut cmp (m.map (renPair g)) (g k) (g v) = (mapPut (fun a b => cmp (g a) (g b)) m k v).map (List.map (renPair g)) := by
  unfold mapPut insert
  rw [nat_find, List.length_map]
  cases find (fun a b => cmp (g a) (g b)) m k with
  | error e => rfl
  | ok r =>
    cases r with
    | found i =>
      simp only
      rw [← List.map_take, ← List.map_drop, show [(g k, g v)] = [(k, v)].map (renPair g) from rfl, ← List.map_append,
        ← List.map_append, nat_fromExactIter]
    | notFound i =>
      simp only
      split
      · rfl
      · rw [← List.map_take, ← List.map_drop, show [(g k, g v)] = [(k, v)].map (renPair g) from rfl, ← List.map_append,
          ← List.map_append, nat_fromExactIter]

theorem nat_mapGet (m : List (A × A)) (k : A) :
    mapGet cmp (m.map (renPair g)) (g k) = (mapGet (fun a b => cmp (g a) (g b)) m k).map g := by
  unfold mapGet get
  rw [nat_find]
  cases find (fun a b => cmp (g a) (g b)) m k with
  | error e => rfl
  | ok r =>
    cases r with
    | found i =>
      simp only [List.getElem?_map]
      cases m[i]? <;> rfl
    | notFound i => rfl

theorem nat_mapDel (m : List (A × A)) (k : A) :
    mapDel cmp (m.map (renPair g)) (g k) = (mapDel (fun a b => cmp (g a) (g b)) m k).map (List.map (renPair g)) := by
  unfold mapDel remove
  rw [nat_find]
  cases find (fun a b => cmp (g a) (g b)) m k with
  | error e => rfl
  | ok r =>
    cases r with
    | found i =>
      simp only [List.getElem?_map]
      have : (if i > 0 then (m.map (renPair g)).take i ++ (m.map (renPair g)).drop (i + 1) else (m.map (renPair g)).drop 1) =
          (if i > 0 then m.take i ++ m.drop (i + 1) else m.drop 1).map (renPair g) := by
        split
        · rw [List.map_append, List.map_take, List.map_drop]
        · rw [List.map_drop]
      rw [this, nat_fromExactIter]
      cases fromExactIter (fun a b => cmp (g a) (g b)) (if i > 0 then m.take i ++ m.drop (i + 1) else m.drop 1) with
      | error e => rfl
      | ok new => cases m[i]? <;> rfl
    | notFound i => rfl

theorem nat_mapHas (m : List (A × A)) (k : A) :
    mapHas cmp (m.map (renPair g)) (g k) = mapHas (fun a b => cmp (g a) (g b)) m k := by
  unfold mapHas containsKey
  rw [nat_find]

theorem nat_mapLen (m : List (A × A)) : mapLen (m.map (renPair g)) = mapLen m := by
  unfold mapLen
  rw [List.length_map]

theorem nat_mapKeyByPos (m : List (A × A)) (i : Nat) : mapKeyByPos (m.map (renPair g)) i = (mapKeyByPos m i).map g := by
  unfold mapKeyByPos getAtIndex
  rw [List.getElem?_map]
  cases m[i]? <;> rfl

theorem nat_mapValByPos (m : List (A × A)) (i : Nat) : mapValByPos (m.map (renPair g)) i = (mapValByPos m i).map g := by
  unfold mapValByPos getAtIndex
  rw [List.getElem?_map]
  cases m[i]? <;> rfl

theorem nat_mapKeys (m : List (A × A)) : mapKeys (m.map (renPair g)) = (mapKeys m).map (List.map g) := by
  unfold mapKeys
  rw [List.map_map, show (fun p : B × B => p.1) ∘ renPair g = g ∘ (fun p : A × A => p.1) from rfl, ← List.map_map,
    nat_vecFromIter]

theorem nat_mapValues (m : List (A × A)) : mapValues (m.map (renPair g)) = (mapValues m).map (List.map g) := by
  unfold mapValues
  rw [List.map_map, show (fun p : B × B => p.2) ∘ renPair g = g ∘ (fun p : A × A => p.2) from rfl, ← List.map_map,
    nat_vecFromIter]

theorem nat_cmpVec {A B : Type} (g : A → B) (cmp : B → B → Res Ordering) (a b : List A) :
    cmpVec cmp (a.map g) (b.map g) = cmpVec (fun x y => cmp (g x) (g y)) a b := by
  induction a generalizing b with
  | nil => cases b <;> rfl
  | cons x xs ih =>
    cases b with
    | nil => rfl
    | cons y ys =>
      rw [List.map_cons, List.map_cons]
      unfold cmpVec
      cases cmp (g x) (g y) with
      | error e => rfl
      | ok o => cases o <;> first | exact ih ys | rfl

end Map
end Soroban
