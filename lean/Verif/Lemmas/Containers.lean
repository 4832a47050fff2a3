import Verif.Spec.Containers
/-! Lemmas about binary search and ordered maps. -/
namespace Soroban
open Spec

theorem bsearchLoop_spec {α : Type} (xs : List α) (f : α → Res Ordering) (o : α → Ordering)
    (hf : ∀ x ∈ xs, f x = .ok (o x))
    (hlt : ∀ (i j : Nat) x y, i ≤ j → xs[i]? = some x → xs[j]? = some y → o y = .lt → o x = .lt)
    (hgt : ∀ (i j : Nat) x y, i ≤ j → xs[i]? = some x → xs[j]? = some y → o x = .gt → o y = .gt) :
    ∀ n left right, right - left = n → left ≤ right → right ≤ xs.length →
      (∀ i x, i < left → xs[i]? = some x → o x = .lt) →
      (∀ i x, right ≤ i → xs[i]? = some x → o x = .gt) →
      (∃ i x, bsearchLoop xs f left right = .ok (.found i) ∧ xs[i]? = some x ∧ o x = .eq) ∨
      (∃ i, bsearchLoop xs f left right = .ok (.notFound i) ∧ i ≤ xs.length ∧
        (∀ j x, j < i → xs[j]? = some x → o x = .lt) ∧ (∀ j x, i ≤ j → xs[j]? = some x → o x = .gt)) := by
  intro n
  induction n using Nat.strongRecOn with
  | _ n ih =>
    intro left right hn hlr hr hl hg
    unfold bsearchLoop
    by_cases h : left < right
    · rw [dif_pos h]
      have hmid : left + (right - left) / 2 < xs.length := by omega
      have hx : xs[left + (right - left) / 2]? = some xs[left + (right - left) / 2] := by simp [hmid]
      simp only [hx]
      have hfx := hf _ (List.getElem_mem hmid)
      rw [hfx]
      cases ho : o xs[left + (right - left) / 2] with
      | lt =>
        simp only []
        refine ih (right - (left + (right - left) / 2 + 1)) (by omega) _ _ rfl (by omega) hr ?_ hg
        intro i x hi hxi
        exact hlt i (left + (right - left) / 2) x _ (by omega) hxi hx ho
      | gt =>
        simp only []
        refine ih (left + (right - left) / 2 - left) (by omega) _ _ rfl (by omega) (by omega) hl ?_
        intro i x hi hxi
        exact hgt (left + (right - left) / 2) i _ x hi hx hxi ho
      | eq =>
        exact Or.inl ⟨_, _, rfl, hx, ho⟩
    · rw [dif_neg h]
      have : left = right := by omega
      subst this
      exact Or.inr ⟨left, rfl, hr, hl, hg⟩

/-- Without any order assumption a hit is still a hit, and the search only fails if a comparison does. -/
theorem bsearchLoop_found {α : Type} (xs : List α) (f : α → Res Ordering) :
    ∀ n left right, right - left = n → right ≤ xs.length →
      ∀ r, bsearchLoop xs f left right = r →
      (∀ i, r = .ok (.found i) → ∃ x, xs[i]? = some x ∧ f x = .ok .eq) ∧
      (∀ e, r = .error e → ∃ x ∈ xs, f x = .error e) := by
  intro n
  induction n using Nat.strongRecOn with
  | _ n ih =>
    intro left right hn hr r hres
    unfold bsearchLoop at hres
    by_cases h : left < right
    · rw [dif_pos h] at hres
      have hmid : left + (right - left) / 2 < xs.length := by omega
      have hx : xs[left + (right - left) / 2]? = some xs[left + (right - left) / 2] := by simp [hmid]
      simp only [hx] at hres
      cases hfx : f xs[left + (right - left) / 2] with
      | error e =>
        rw [hfx] at hres
        subst hres
        exact ⟨by simp, fun e' he => ⟨_, List.getElem_mem hmid, by rw [hfx]; simpa using he⟩⟩
      | ok o =>
        rw [hfx] at hres
        cases o with
        | lt => exact ih (right - (left + (right - left) / 2 + 1)) (by omega) _ _ rfl hr _ hres
        | gt => exact ih (left + (right - left) / 2 - left) (by omega) _ _ rfl (by omega) _ hres
        | eq =>
          simp only [] at hres
          subst hres
          refine ⟨fun i hi => ?_, by simp⟩
          simp only [Except.ok.injEq, Found.found.injEq] at hi
          subst hi
          exact ⟨_, hx, hfx⟩
    · rw [dif_neg h] at hres
      subst hres
      simp

theorem bsearchLoop_bound {α : Type} (xs : List α) (f : α → Res Ordering) :
    ∀ n left right, right - left = n → left ≤ right →
      ∀ i, bsearchLoop xs f left right = .ok (.notFound i) → i ≤ right := by
  intro n
  induction n using Nat.strongRecOn with
  | _ n ih =>
    intro left right hn hr i hres
    unfold bsearchLoop at hres
    by_cases h : left < right
    · rw [dif_pos h] at hres
      simp only [] at hres
      split at hres
      · cases hres
      · split at hres
        · cases hres
        · exact ih (right - (left + (right - left) / 2 + 1)) (by omega) _ _ rfl (by omega) _ hres
        · have := ih (left + (right - left) / 2 - left) (by omega) _ _ rfl (by omega) _ hres
          omega
        · cases hres
    · rw [dif_neg h] at hres
      cases hres
      omega

section
variable {K V : Type} {cmp : K → K → Res Ordering} {ord : K → K → Ordering}

theorem ascending_get {m : List (K × V)} (hm : Ascending ord m) {i j : Nat} {x y : K × V} (hij : i < j)
    (hx : m[i]? = some x) (hy : m[j]? = some y) : ord x.1 y.1 = .lt := by
  unfold Ascending at hm
  rw [List.pairwise_iff_getElem] at hm
  obtain ⟨hi, rfl⟩ := List.getElem?_eq_some_iff.mp hx
  obtain ⟨hj, rfl⟩ := List.getElem?_eq_some_iff.mp hy
  exact hm i j hi hj hij

theorem find_spec [Std.TransCmp ord] (hc : Computes cmp ord) {m : List (K × V)} (hm : Ascending ord m) (k : K) :
    (∃ i p, find cmp m k = .ok (.found i) ∧ m[i]? = some p ∧ ord p.1 k = .eq) ∨
    (∃ i, find cmp m k = .ok (.notFound i) ∧ i ≤ m.length ∧
      (∀ j p, j < i → m[j]? = some p → ord p.1 k = .lt) ∧ (∀ j p, i ≤ j → m[j]? = some p → ord p.1 k = .gt)) := by
  unfold find bsearch
  refine bsearchLoop_spec m _ (fun p => ord p.1 k) (fun x _ => hc _ _) ?_ ?_ _ 0 m.length rfl (by omega) (by omega)
    (by omega) ?_
  · intro i j x y hij hx hy h
    rcases Nat.lt_or_eq_of_le hij with hlt | rfl
    · exact Std.TransCmp.lt_trans (ascending_get hm hlt hx hy) h
    · rw [hx] at hy; cases hy; exact h
  · intro i j x y hij hx hy h
    rcases Nat.lt_or_eq_of_le hij with hlt | rfl
    · have h1 := ascending_get hm hlt hx hy
      rw [Std.OrientedCmp.gt_iff_lt] at h ⊢
      exact Std.TransCmp.lt_trans h h1
    · rw [hx] at hy; cases hy; exact h
  · intro i x hi hx
    rw [List.getElem?_eq_none hi] at hx
    cases hx

theorem ascending_cons_cons [Std.TransCmp ord] (a b : K × V) (rest : List (K × V)) :
    Ascending ord (a :: b :: rest) ↔ ord a.1 b.1 = .lt ∧ Ascending ord (b :: rest) := by
  unfold Ascending
  rw [List.pairwise_cons]
  constructor
  · rintro ⟨h1, h2⟩
    exact ⟨h1 b (by simp), h2⟩
  · rintro ⟨h1, h2⟩
    refine ⟨fun c hc => ?_, h2⟩
    rcases List.mem_cons.mp hc with rfl | hc
    · exact h1
    · exact Std.TransCmp.lt_trans h1 ((List.pairwise_cons.mp h2).1 c hc)

theorem checkSorted_eq [Std.TransCmp ord] (hc : Computes cmp ord) (m : List (K × V)) :
    (Ascending ord m ∧ checkSorted cmp m = .ok ()) ∨
    (¬ Ascending ord m ∧ checkSorted cmp m = .error (.host .object .invalidInput)) := by
  induction m with
  | nil => left; simp [checkSorted, Ascending]
  | cons a m ih =>
    cases m with
    | nil => left; simp [checkSorted, Ascending]
    | cons b rest =>
      unfold checkSorted
      rw [hc, ascending_cons_cons]
      cases ho : ord a.1 b.1 with
      | lt => simpa using ih
      | eq => simp
      | gt => simp

theorem fromExactIter_eq (m : List (K × V)) : fromExactIter cmp m = fromMap cmp m := by
  unfold fromExactIter fromMap
  split <;> simp_all

theorem fromMap_ok [Std.TransCmp ord] (hc : Computes cmp ord) {m : List (K × V)} (hl : m.length ≤ u32Max)
    (ha : Ascending ord m) : fromMap cmp m = .ok m := by
  unfold fromMap
  rcases checkSorted_eq hc m with ⟨_, h⟩ | ⟨h, _⟩
  · rw [if_neg (Nat.not_lt.mpr hl), h]
  · exact absurd ha h

theorem fromMap_ok_iff [Std.TransCmp ord] (hc : Computes cmp ord) (m m' : List (K × V)) :
    fromMap cmp m = .ok m' ↔ m' = m ∧ m.length ≤ u32Max ∧ Ascending ord m := by
  unfold fromMap
  by_cases hl : m.length > u32Max
  · rw [if_pos hl]
    constructor
    · intro h; cases h
    · rintro ⟨_, h, _⟩; exact absurd h (Nat.not_le.mpr hl)
  · rw [if_neg hl]
    have hl' := Nat.not_lt.mp hl
    rcases checkSorted_eq hc m with ⟨ha, h⟩ | ⟨ha, h⟩
    · rw [h]
      simp only [Except.ok.injEq]
      exact ⟨fun h => ⟨h.symm, hl', ha⟩, fun h => h.1.symm⟩
    · rw [h]
      simp [ha]

/-- The result of a lookup, as a split of the map around the key. -/
theorem find_split [Std.TransCmp ord] (hc : Computes cmp ord) {m : List (K × V)} (hm : Ascending ord m) (k : K) :
    (∃ A p B, m = A ++ p :: B ∧ find cmp m k = .ok (.found A.length) ∧ ord p.1 k = .eq ∧
      (∀ q ∈ A, ord q.1 k = .lt) ∧ (∀ q ∈ B, ord q.1 k = .gt)) ∨
    (∃ A B, m = A ++ B ∧ find cmp m k = .ok (.notFound A.length) ∧
      (∀ q ∈ A, ord q.1 k = .lt) ∧ (∀ q ∈ B, ord q.1 k = .gt)) := by
  rcases find_spec hc hm k with ⟨i, p, hf, hp, he⟩ | ⟨i, hf, hi, hl, hg⟩
  · left
    obtain ⟨hi, hpi⟩ := List.getElem?_eq_some_iff.mp hp
    have hsplit : m = m.take i ++ p :: m.drop (i+1) := by
      rw [← hpi, List.getElem_cons_drop, List.take_append_drop]
    refine ⟨m.take i, p, m.drop (i+1), hsplit, ?_, he, ?_, ?_⟩
    · rw [hf, List.length_take, Nat.min_eq_left (by omega)]
    · intro q hq
      have h' := hm
      rw [hsplit] at h'
      unfold Ascending at h'
      rw [List.pairwise_append] at h'
      exact Std.TransCmp.lt_of_lt_of_eq (h'.2.2 q hq p (by simp)) he
    · intro q hq
      have h' := hm
      rw [hsplit] at h'
      unfold Ascending at h'
      rw [List.pairwise_append, List.pairwise_cons] at h'
      rw [Std.OrientedCmp.gt_iff_lt]
      exact Std.TransCmp.lt_of_eq_of_lt (Std.OrientedCmp.eq_symm he) (h'.2.1.1 q hq)
  · right
    refine ⟨m.take i, m.drop i, (List.take_append_drop i m).symm, ?_, ?_, ?_⟩
    · rw [hf, List.length_take, Nat.min_eq_left (by omega)]
    · intro q hq
      obtain ⟨j, hj, rfl⟩ := List.getElem_of_mem hq
      rw [List.length_take] at hj
      refine hl j _ (by omega) ?_
      rw [List.getElem_take]
      simp only [List.getElem?_eq_some_iff]
      exact ⟨by omega, trivial⟩
    · intro q hq
      obtain ⟨j, hj, rfl⟩ := List.getElem_of_mem hq
      rw [List.length_drop] at hj
      refine hg (i+j) _ (by omega) ?_
      rw [List.getElem_drop]
      simp only [List.getElem?_eq_some_iff]
      exact ⟨by omega, trivial⟩

theorem ascending_mid [Std.TransCmp ord] {A B : List (K × V)} {k : K} (v : V) (hA : Ascending ord A)
    (hB : Ascending ord B) (hl : ∀ q ∈ A, ord q.1 k = .lt) (hg : ∀ q ∈ B, ord q.1 k = .gt) :
    Ascending ord (A ++ (k, v) :: B) := by
  unfold Ascending at *
  rw [List.pairwise_append, List.pairwise_cons]
  have hg' : ∀ q ∈ B, ord k q.1 = .lt := fun q hq => Std.OrientedCmp.gt_iff_lt.mp (hg q hq)
  refine ⟨hA, ⟨fun q hq => hg' q hq, hB⟩, ?_⟩
  intro a ha b hb
  rcases List.mem_cons.mp hb with rfl | hb
  · exact hl a ha
  · exact Std.TransCmp.lt_trans (hl a ha) (hg' b hb)

theorem ascending_append_left {A B : List (K × V)} (h : Ascending ord (A ++ B)) : Ascending ord A :=
  (List.pairwise_append.mp h).1

theorem ascending_append_right {A B : List (K × V)} (h : Ascending ord (A ++ B)) : Ascending ord B :=
  (List.pairwise_append.mp h).2.1

theorem ascending_drop_mid {A B : List (K × V)} {p : K × V} (h : Ascending ord (A ++ p :: B)) :
    Ascending ord (A ++ B) := by
  unfold Ascending at *
  rw [List.pairwise_append, List.pairwise_cons] at h
  rw [List.pairwise_append]
  exact ⟨h.1, h.2.1.2, fun a ha b hb => h.2.2 a ha b (by simp [hb])⟩

end
end Soroban
