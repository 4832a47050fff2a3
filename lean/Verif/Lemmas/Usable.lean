import Verif.Lemmas.Convert
import Verif.Spec.Containers
/-!
The container functions compare only the keys they are given, so two comparisons that agree on those keys give the same
results. With C05 this makes the container theorems statements about real host values.
-/
namespace Soroban

theorem bsearchLoop_congr {α : Type} {xs : List α} {f g : α → Res Ordering} (h : ∀ x ∈ xs, f x = g x) :
    ∀ n l r, r - l = n → bsearchLoop xs f l r = bsearchLoop xs g l r := by
  intro n
  induction n using Nat.strongRecOn with
  | _ n ih =>
    intro l r hn
    rw [bsearchLoop, bsearchLoop]
    split
    · rename_i hlt
      simp only
      cases hx : xs[l + (r - l) / 2]? with
      | none => rfl
      | some x =>
        simp only
        rw [h x (List.mem_of_getElem? hx)]
        cases g x with
        | error e => rfl
        | ok o =>
          cases o
          · exact ih _ (by omega) _ _ rfl
          · rfl
          · exact ih _ (by omega) _ _ rfl
    · rfl

theorem bsearch_congr {α : Type} {xs : List α} {f g : α → Res Ordering} (h : ∀ x ∈ xs, f x = g x) :
    bsearch xs f = bsearch xs g := bsearchLoop_congr h _ _ _ rfl

section
variable {K V : Type} {cmp cmp' : K → K → Res Ordering} {S : K → Prop}

theorem checkSorted_congr (hS : ∀ a b, S a → S b → cmp a b = cmp' a b) : ∀ {m : List (K × V)}, (∀ p ∈ m, S p.1) →
    checkSorted cmp m = checkSorted cmp' m
  | [], _ => rfl
  | [_], _ => rfl
  | a :: b :: m, h => by
    rw [checkSorted, checkSorted, hS _ _ (h a (by simp)) (h b (by simp)),
      checkSorted_congr hS (m := b :: m) (fun p hp => h p (by simp [List.mem_cons.1 hp]))]

theorem fromMap_congr (hS : ∀ a b, S a → S b → cmp a b = cmp' a b) {m : List (K × V)} (h : ∀ p ∈ m, S p.1) :
    fromMap cmp m = fromMap cmp' m := by
  unfold fromMap; rw [checkSorted_congr hS h]

theorem fromExactIter_congr (hS : ∀ a b, S a → S b → cmp a b = cmp' a b) {m : List (K × V)} (h : ∀ p ∈ m, S p.1) :
    fromExactIter cmp m = fromExactIter cmp' m := by
  unfold fromExactIter; rw [fromMap_congr hS h]

theorem find_congr (hS : ∀ a b, S a → S b → cmp a b = cmp' a b) {m : List (K × V)} (h : ∀ p ∈ m, S p.1) {k : K} (hk : S k) :
    find cmp m k = find cmp' m k := by
  unfold find
  exact bsearch_congr fun p hp => hS _ _ (h p hp) hk

theorem mapPut_congr (hS : ∀ a b, S a → S b → cmp a b = cmp' a b) {m : List (K × V)} (h : ∀ p ∈ m, S p.1) {k : K} (hk : S k)
    (v : V) : mapPut cmp m k v = mapPut cmp' m k v := by
  unfold mapPut insert
  rw [find_congr hS h hk]
  have hm : ∀ i j, ∀ p ∈ m.take i ++ [(k, v)] ++ m.drop j, S p.1 := by
    intro i j p hp
    simp only [List.mem_append, List.mem_singleton] at hp
    rcases hp with (hp | rfl) | hp
    · exact h p (List.mem_of_mem_take hp)
    · exact hk
    · exact h p (List.mem_of_mem_drop hp)
  cases find cmp' m k with
  | error e => rfl
  | ok r =>
    cases r with
    | found i => exact fromExactIter_congr hS (hm _ _)
    | notFound i =>
      simp only
      split
      · rfl
      · exact fromExactIter_congr hS (hm _ _)

theorem mapGet_congr (hS : ∀ a b, S a → S b → cmp a b = cmp' a b) {m : List (K × V)} (h : ∀ p ∈ m, S p.1) {k : K} (hk : S k) :
    mapGet cmp m k = mapGet cmp' m k := by
  unfold mapGet get; rw [find_congr hS h hk]

theorem mapHas_congr (hS : ∀ a b, S a → S b → cmp a b = cmp' a b) {m : List (K × V)} (h : ∀ p ∈ m, S p.1) {k : K} (hk : S k) :
    mapHas cmp m k = mapHas cmp' m k := by
  unfold mapHas containsKey; rw [find_congr hS h hk]

theorem mapDel_congr (hS : ∀ a b, S a → S b → cmp a b = cmp' a b) {m : List (K × V)} (h : ∀ p ∈ m, S p.1) {k : K} (hk : S k) :
    mapDel cmp m k = mapDel cmp' m k := by
  unfold mapDel remove
  rw [find_congr hS h hk]
  have hm : ∀ i, ∀ p ∈ (if i > 0 then m.take i ++ m.drop (i + 1) else m.drop 1), S p.1 := by
    intro i p hp
    split at hp
    · rcases List.mem_append.1 hp with hp | hp
      · exact h p (List.mem_of_mem_take hp)
      · exact h p (List.mem_of_mem_drop hp)
    · exact h p (List.mem_of_mem_drop hp)
  cases find cmp' m k with
  | error e => rfl
  | ok r =>
    cases r with
    | found i => simp only [fromExactIter_congr hS (hm i)]
    | notFound i => rfl

theorem checkPrev_congr (hS : ∀ a b, S a → S b → cmp a b = cmp' a b) (act : Bool) {prev : Option K} (hp : ∀ p, prev = some p → S p)
    {k : K} (hk : S k) : checkPrev cmp act prev k = checkPrev cmp' act prev k := by
  unfold checkPrev
  cases prev with
  | none => rfl
  | some p => simp only [hS _ _ (hp p rfl) hk]

theorem mapFromSlicesLoop_congr (hS : ∀ a b, S a → S b → cmp a b = cmp' a b) (good isVoid : V → Bool) (sparse : Bool) :
    ∀ {l : List (K × V)} {prev : Option K}, (∀ p, prev = some p → S p) → (∀ p ∈ l, S p.1) →
    mapFromSlicesLoop cmp good isVoid sparse prev l = mapFromSlicesLoop cmp' good isVoid sparse prev l
  | [], _, _, _ => rfl
  | (k, v) :: l, prev, hp, hl => by
    have hk : S k := hl (k, v) (by simp)
    rw [mapFromSlicesLoop, mapFromSlicesLoop, checkPrev_congr hS sparse hp hk,
      mapFromSlicesLoop_congr hS good isVoid sparse (l := l) (prev := some k) (fun p h => by cases h; exact hk)
        (fun p h => hl p (by simp [h]))]

theorem mapFromSlicesLoop_keys {good isVoid : V → Bool} {sparse : Bool} : ∀ {l m : List (K × V)} {prev : Option K},
    mapFromSlicesLoop cmp good isVoid sparse prev l = .ok m → ∀ p ∈ m, p ∈ l
  | [], m, _, h => by cases h; simp
  | (k, v) :: l, m, prev, h => by
    rw [mapFromSlicesLoop] at h
    cases h1 : checkPrev cmp sparse prev k with
    | error e => rw [h1] at h; cases h
    | ok u =>
      rw [h1] at h
      dsimp only at h
      split at h
      · cases h
      · cases h2 : mapFromSlicesLoop cmp good isVoid sparse (some k) l with
        | error e => rw [h2] at h; cases h
        | ok r =>
          rw [h2] at h
          have ih := mapFromSlicesLoop_keys h2
          dsimp only at h
          cases h
          intro p hp
          split at hp
          · rcases List.mem_cons.1 hp with rfl | hp
            · simp
            · simp [ih p hp]
          · simp [ih p hp]

theorem mapFromSlices_congr (hS : ∀ a b, S a → S b → cmp a b = cmp' a b) (good isVoid : V → Bool) (sparse : Bool)
    {keys : List K} (hk : ∀ k ∈ keys, S k) (vals : List V) :
    mapFromSlices cmp good isVoid sparse keys vals = mapFromSlices cmp' good isVoid sparse keys vals := by
  have hz : ∀ p ∈ keys.zip vals, S p.1 := fun p hp => hk _ (List.of_mem_zip hp).1
  unfold mapFromSlices
  rw [mapFromSlicesLoop_congr hS good isVoid sparse (prev := none) (by simp) hz]
  split
  · rfl
  · cases h : mapFromSlicesLoop cmp' good isVoid sparse none (keys.zip vals) with
    | error e => rfl
    | ok m => exact fromMap_congr hS fun p hp => hz p (mapFromSlicesLoop_keys h p hp)

theorem unpackOne_congr {void : V} {sparse : Bool} {k : K} : ∀ {m : List (K × V)}, (∀ p ∈ m, cmp p.1 k = cmp' p.1 k) →
    unpackOne cmp void sparse k m = unpackOne cmp' void sparse k m
  | [], _ => rfl
  | (mk, mv) :: m, h => by
    rw [unpackOne, unpackOne, h (mk, mv) (by simp), unpackOne_congr (m := m) (fun p hp => h p (by simp [hp]))]

theorem unpackOne_rest {void : V} {sparse : Bool} {k : K} : ∀ {m : List (K × V)} {v : V} {m' : List (K × V)},
    unpackOne cmp void sparse k m = .ok (v, m') → ∀ p ∈ m', p ∈ m
  | [], _, _, h => by cases h; simp
  | (mk, mv) :: m, v, m', h => by
    rw [unpackOne] at h
    cases hc : cmp mk k with
    | error e => rw [hc] at h; cases h
    | ok o =>
      rw [hc] at h
      dsimp only at h
      cases sparse with
      | true =>
        rw [if_pos rfl] at h
        cases o with
        | lt => exact fun p hp => List.mem_cons_of_mem _ (unpackOne_rest h p hp)
        | eq => cases h; exact fun p hp => List.mem_cons_of_mem _ hp
        | gt => cases h; exact fun p hp => hp
      | false =>
        rw [if_neg (by simp)] at h
        split at h
        · cases h
        · cases h; exact fun p hp => List.mem_cons_of_mem _ hp

theorem unpackLoop_congr (hS : ∀ a b, S a → S b → cmp a b = cmp' a b) (void : V) (sparse : Bool) :
    ∀ {keys : List K} {prev : Option K} {m : List (K × V)}, (∀ k ∈ keys, S k) → (∀ p, prev = some p → S p) →
    (∀ p ∈ m, S p.1) → unpackLoop cmp void sparse prev m keys = unpackLoop cmp' void sparse prev m keys
  | [], _, _, _, _, _ => rfl
  | k :: keys, prev, m, hk, hp, hm => by
    have h0 := hk k (by simp)
    rw [unpackLoop, unpackLoop, checkPrev_congr hS true hp h0,
      unpackOne_congr (m := m) (fun p hp => hS _ _ (hm p hp) h0)]
    cases checkPrev cmp' true prev k with
    | error e => rfl
    | ok u =>
      dsimp only
      cases h1 : unpackOne cmp' void sparse k m with
      | error e => rfl
      | ok r =>
        obtain ⟨v, m'⟩ := r
        dsimp only
        rw [unpackLoop_congr hS void sparse (keys := keys) (fun k' h => hk k' (by simp [h])) (by rintro p ⟨⟩; exact h0)
          (fun p hp => hm p (unpackOne_rest h1 p hp))]

theorem mapUnpack_congr (hS : ∀ a b, S a → S b → cmp a b = cmp' a b) (isSym : K → Bool) (void : V) (sparse : Bool)
    {m : List (K × V)} (hm : ∀ p ∈ m, S p.1) {keys : List K} (hk : ∀ k ∈ keys, S k) :
    mapUnpack cmp isSym void sparse m keys = mapUnpack cmp' isSym void sparse m keys := by
  unfold mapUnpack
  rw [unpackLoop_congr hS void sparse hk (by simp) hm]

theorem fromExactIter_val {x m : List (K × V)} (h : fromExactIter cmp x = .ok m) : m = x := by
  unfold fromExactIter fromMap at h
  split at h
  · cases h
  · revert h
    cases checkSorted cmp x with
    | error e => intro h; cases h
    | ok u => intro h; cases h; rfl

theorem mapPut_keys {m m' : List (K × V)} {k : K} {v : V} (h : mapPut cmp m k v = .ok m') : ∀ p ∈ m', p ∈ m ∨ p.1 = k := by
  unfold mapPut insert at h
  intro p hp
  have fin : ∀ i j, p ∈ m.take i ++ [(k, v)] ++ m.drop j → p ∈ m ∨ p.1 = k := by
    intro i j hp
    simp only [List.mem_append, List.mem_singleton] at hp
    rcases hp with (hp | rfl) | hp
    · exact Or.inl (List.mem_of_mem_take hp)
    · exact Or.inr rfl
    · exact Or.inl (List.mem_of_mem_drop hp)
  revert h
  cases find cmp m k with
  | error e => intro h; cases h
  | ok r =>
    cases r with
    | found i => intro h; rw [fromExactIter_val h] at hp; exact fin _ _ hp
    | notFound i =>
      intro h
      dsimp only at h
      split at h
      · cases h
      · rw [fromExactIter_val h] at hp; exact fin _ _ hp

theorem mapDel_keys {m m' : List (K × V)} {k : K} (h : mapDel cmp m k = .ok m') : ∀ p ∈ m', p ∈ m := by
  unfold mapDel remove at h
  intro p hp
  revert h
  cases find cmp m k with
  | error e => intro h; cases h
  | ok r =>
    cases r with
    | notFound i => intro h; cases h
    | found i =>
      dsimp only
      cases hx : fromExactIter cmp (if i > 0 then m.take i ++ m.drop (i + 1) else m.drop 1) with
      | error e => intro h; cases h
      | ok new =>
        have := fromExactIter_val hx
        dsimp only
        cases m[i]? with
        | none => intro h; cases h
        | some q =>
          intro h
          cases h
          subst this
          dsimp only at hp
          split at hp
          · rcases List.mem_append.1 hp with hp | hp
            · exact List.mem_of_mem_take hp
            · exact List.mem_of_mem_drop hp
          · exact List.mem_of_mem_drop hp

end

section
variable {A : Type} {cmp cmp' : A → A → Res Ordering}

theorem firstIndexLoop_congr {f g : A → Res Ordering} : ∀ {l : List A} (i : Nat), (∀ x ∈ l, f x = g x) →
    firstIndexLoop f i l = firstIndexLoop g i l
  | [], _, _ => rfl
  | x :: l, i, h => by
    rw [firstIndexLoop, firstIndexLoop, h x (by simp), firstIndexLoop_congr (l := l) (i + 1) (fun y hy => h y (by simp [hy]))]

theorem lastIndexLoop_congr {f g : A → Res Ordering} : ∀ {l : List A}, (∀ x ∈ l, f x = g x) →
    lastIndexLoop f l = lastIndexLoop g l
  | [], _ => rfl
  | x :: l, h => by
    rw [lastIndexLoop, lastIndexLoop, h x (by simp), lastIndexLoop_congr (l := l) (fun y hy => h y (by simp [hy]))]

theorem vecFirstIndexOf_congr {v : List A} {x : A} (h : ∀ y ∈ v, cmp x y = cmp' x y) :
    vecFirstIndexOf cmp v x = vecFirstIndexOf cmp' v x := by
  unfold vecFirstIndexOf; rw [firstIndexLoop_congr 0 h]

theorem vecLastIndexOf_congr {v : List A} {x : A} (h : ∀ y ∈ v, cmp x y = cmp' x y) :
    vecLastIndexOf cmp v x = vecLastIndexOf cmp' v x := by
  unfold vecLastIndexOf; rw [lastIndexLoop_congr (fun y hy => h y (by simpa using hy))]

theorem vecBinarySearch_congr {v : List A} {x : A} (h : ∀ y ∈ v, cmp y x = cmp' y x) :
    vecBinarySearch cmp v x = vecBinarySearch cmp' v x := by
  unfold vecBinarySearch; rw [bsearch_congr h]

end

end Soroban
