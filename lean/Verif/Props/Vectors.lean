import Mathlib.Data.List.Induction
import Verif.Props.Maps
/-!
C08: host vectors behave as sequences. C09: binary search.

A host vector never has more than `u32::MAX` elements (every constructor checks it), hence the hypothesis
`v.length ≤ u32Max`; `C08_lengths_fit` shows that every operation keeps it.
-/
namespace Soroban.Props
open Spec

variable {A : Type}

theorem vecFromIter_ok {v : List A} (h : v.length ≤ u32Max) : vecFromIter v = .ok v := by
  unfold vecFromIter
  rw [if_neg (Nat.not_lt.mpr h)]

/-- C08: `vec_get` returns the element at the index and fails exactly past the end. -/
theorem C08_get (v : List A) (i : Nat) :
    (∀ x, vecGet v i = .ok x ↔ v[i]? = some x) ∧
    (v.length ≤ i ↔ vecGet v i = .error (.host .object .indexBounds)) := by
  unfold vecGet indexLt vGet
  rcases Nat.lt_or_ge i v.length with h | h
  · have hn : ¬ i ≥ v.length := by omega
    simp [hn, h, bind, Except.bind]
  · simp [h, bind, Except.bind, oob]

/-- C08: `vec_put` changes exactly the element at the index, and fails exactly past the end. -/
theorem C08_put (v : List A) (i : Nat) (x : A) :
    (i < v.length → ∃ w, vecPut v i x = .ok w ∧ w.length = v.length ∧ w[i]? = some x ∧ ∀ j, j ≠ i → w[j]? = v[j]?) ∧
    (v.length ≤ i → vecPut v i x = .error (.host .object .indexBounds)) := by
  unfold vecPut indexLt vSet
  constructor
  · intro h
    have hn : ¬ i ≥ v.length := by omega
    refine ⟨v.set i x, by simp [hn, h, bind, Except.bind], by simp, by simp [h], ?_⟩
    intro j hj
    exact List.getElem?_set_ne (by omega)
  · intro h
    simp [h, bind, Except.bind, oob]

/-- C08: `vec_del` closes the gap at the index: earlier elements stay, later ones move down by one. -/
theorem C08_del (v : List A) (hl : v.length ≤ u32Max) (i : Nat) :
    (i < v.length → ∃ w, vecDel v i = .ok w ∧ w.length + 1 = v.length ∧ (∀ j, j < i → w[j]? = v[j]?) ∧
      ∀ j, i ≤ j → w[j]? = v[j+1]?) ∧
    (v.length ≤ i → vecDel v i = .error (.host .object .indexBounds)) := by
  unfold vecDel indexLt vRemove addOrErr
  constructor
  · intro h
    have hn : ¬ i ≥ v.length := by omega
    have h1 : ¬ i + 1 > u32Max := by omega
    have hlen : (v.take i ++ v.drop (i+1)).length + 1 = v.length := by
      rw [List.length_append, List.length_take, List.length_drop]; omega
    refine ⟨v.take i ++ v.drop (i+1), ?_, hlen, ?_, ?_⟩
    · rw [if_neg hn]
      simp only [bind, Except.bind]
      rw [if_neg hn, if_neg h1]
      exact vecFromIter_ok (by omega)
    · intro j hj
      rw [List.getElem?_append_left (by rw [List.length_take]; omega), List.getElem?_take_of_lt hj]
    · intro j hj
      rw [List.getElem?_append_right (by rw [List.length_take]; omega), List.getElem?_drop, List.length_take]
      congr 1
      omega
  · intro h
    simp [h, bind, Except.bind, oob]

/-- C08: `vec_insert` opens a gap at the index; it fails exactly when the index is beyond the length or the vector is full. -/
theorem C08_insert (v : List A) (hl : v.length ≤ u32Max) (i : Nat) (x : A) :
    (i ≤ v.length ∧ v.length < u32Max → ∃ w, vecInsert v i x = .ok w ∧ w.length = v.length + 1 ∧
      (∀ j, j < i → w[j]? = v[j]?) ∧ w[i]? = some x ∧ ∀ j, i ≤ j → w[j+1]? = v[j]?) ∧
    (v.length < i ∨ v.length = u32Max → vecInsert v i x = .error (.host .object .indexBounds)) := by
  unfold vecInsert indexLe vInsert
  constructor
  · rintro ⟨hi, hlt⟩
    have hn : ¬ i > v.length := by omega
    have hne : ¬ ((v.length == u32Max) = true) := by rw [beq_iff_eq]; omega
    have hw : (do
        (if i > v.length then (Except.error oob : Res Unit) else Except.ok ())
        if (v.length == u32Max) = true then Except.error oob
        else if i > v.length then Except.error oob
        else if (i == v.length) = true then vPushBack v x
        else if (i == 0) = true then vPushFront v x
        else vecFromIter (v.take i ++ [x] ++ v.drop i) : Res (List A)) = .ok (v.take i ++ [x] ++ v.drop i) := by
      rw [if_neg hn, if_neg hne, if_neg hn]
      simp only [bind, Except.bind]
      by_cases h1 : i = v.length
      · rw [if_pos (by simpa using h1)]
        unfold vPushBack
        rw [if_neg hne, vecFromIter_ok (by simp; omega)]
        subst h1
        simp
      · rw [if_neg (by simpa using h1)]
        by_cases h2 : i = 0
        · rw [if_pos (by simpa using h2)]
          unfold vPushFront
          rw [if_neg hne, vecFromIter_ok (by simp; omega)]
          subst h2
          simp
        · rw [if_neg (by simpa using h2)]
          refine vecFromIter_ok ?_
          rw [List.length_append, List.length_append, List.length_take, List.length_drop, List.length_singleton]
          omega
    refine ⟨_, hw, ?_, ?_, ?_, ?_⟩
    · rw [List.length_append, List.length_append, List.length_take, List.length_drop, List.length_singleton]
      omega
    · intro j hj
      rw [List.append_assoc, List.getElem?_append_left (by rw [List.length_take]; omega), List.getElem?_take_of_lt hj]
    · have hlen : (v.take i).length = i := by rw [List.length_take]; omega
      rw [List.append_assoc, List.getElem?_append_right (by omega), hlen]
      simp
    · intro j hj
      have hlen : (v.take i).length = i := by rw [List.length_take]; omega
      rw [List.getElem?_append_right (by simp [hlen]; omega), List.getElem?_drop, List.length_append, hlen]
      congr 1
      simp
      omega
  · rintro (h | h)
    · have hn : i > v.length := h
      rw [if_pos hn]
      rfl
    · by_cases hn : i > v.length
      · rw [if_pos hn]; rfl
      · rw [if_neg hn, if_pos (by simpa using h)]
        rfl

/-- C08: pushes and pops at either end. They fail exactly on a full vector (push) or an empty one (pop). -/
theorem C08_ends (v : List A) (hl : v.length ≤ u32Max) (x : A) :
    (v.length < u32Max → vPushFront v x = .ok (x :: v) ∧ vPushBack v x = .ok (v ++ [x])) ∧
    (v.length = u32Max → vPushFront v x = .error (.host .object .indexBounds) ∧
      vPushBack v x = .error (.host .object .indexBounds)) ∧
    vPopFront (x :: v) = .ok v ∧
    vPopBack (v ++ [x]) = .ok v ∧ vFront (x :: v) = .ok x ∧ vBack (v ++ [x]) = .ok x ∧
    vPopFront ([] : List A) = .error (.host .object .indexBounds) ∧
    vPopBack ([] : List A) = .error (.host .object .indexBounds) ∧
    vFront ([] : List A) = .error (.host .object .indexBounds) ∧
    vBack ([] : List A) = .error (.host .object .indexBounds) := by
  refine ⟨fun h => ?_, fun h => ?_, ?_, ?_, rfl, ?_, rfl, rfl, rfl, rfl⟩
  · have hne : ¬ ((v.length == u32Max) = true) := by rw [beq_iff_eq]; omega
    unfold vPushFront vPushBack
    rw [if_neg hne, if_neg hne, vecFromIter_ok (by simp; omega), vecFromIter_ok (by simp; omega)]
    exact ⟨rfl, rfl⟩
  · unfold vPushFront vPushBack
    rw [if_pos (by simpa using h), if_pos (by simpa using h)]
    exact ⟨rfl, rfl⟩
  · unfold vPopFront
    simp [vecFromIter_ok hl]
  · unfold vPopBack
    simp [vecFromIter_ok hl]
  · unfold vBack
    simp

/-- C08: `vec_append` concatenates, and fails exactly when the sum of the lengths does not fit in 32 bits. -/
theorem C08_append (a b : List A) (hb : b.length ≤ u32Max) :
    (a.length + b.length ≤ u32Max → vecAppend a b = .ok (a ++ b)) ∧
    (u32Max < a.length + b.length → vecAppend a b = .error (.host .value .arithDomain)) := by
  unfold vecAppend vAppend addOrErr
  constructor
  · intro h
    rw [if_neg (by omega), if_neg (by omega)]
    simp only []
    exact vecFromIter_ok (by simpa using h)
  · intro h
    rw [if_pos (by omega)]

/-- C08: `vec_slice` returns the elements from `start` to `end`, and fails exactly when the range is not inside the vector. -/
theorem C08_slice (v : List A) (hl : v.length ≤ u32Max) (s e : Nat) :
    (s ≤ e ∧ e ≤ v.length → ∃ w, vecSlice v s e = .ok w ∧ w.length = e - s ∧ ∀ j, j < e - s → w[j]? = v[s+j]?) ∧
    (v.length < s ∨ v.length < e → vecSlice v s e = .error (.host .object .indexBounds)) ∧
    (s ≤ v.length ∧ e ≤ v.length ∧ e < s → vecSlice v s e = .error (.host .object .invalidInput)) := by
  unfold vecSlice validRange indexLe vSlice
  refine ⟨?_, ?_, ?_⟩
  · rintro ⟨h1, h2⟩
    have ha : ¬ s > v.length := by omega
    have hb : ¬ e > v.length := by omega
    have hc : ¬ s > e := by omega
    have hlen : ((v.take e).drop s).length = e - s := by rw [List.length_drop, List.length_take]; omega
    refine ⟨(v.take e).drop s, ?_, hlen, ?_⟩
    · simp only [if_neg ha, if_neg hb, if_neg hc, bind, Except.bind]
      rw [if_neg (by simp; omega)]
      exact vecFromIter_ok (by omega)
    · intro j hj
      rw [List.getElem?_drop, List.getElem?_take_of_lt (by omega)]
  · intro h
    by_cases ha : s > v.length
    · rw [if_pos ha]; rfl
    · rw [if_neg ha, if_pos (by omega)]; rfl
  · rintro ⟨h1, h2, h3⟩
    have ha : ¬ s > v.length := by omega
    have hb : ¬ e > v.length := by omega
    rw [if_neg ha, if_neg hb, if_pos h3]
    rfl

theorem firstIndexLoop_spec (f : A → Res Ordering) (o : A → Ordering) (hf : ∀ x, f x = .ok (o x)) (v : List A) :
    ∀ i, (∃ n x, firstIndexLoop f i v = .ok (some (i + n)) ∧ v[n]? = some x ∧ o x = .eq ∧
        ∀ m y, m < n → v[m]? = some y → o y ≠ .eq) ∨
      (firstIndexLoop f i v = .ok none ∧ ∀ y ∈ v, o y ≠ .eq) := by
  induction v with
  | nil => intro i; right; simp [firstIndexLoop]
  | cons x xs ih =>
    intro i
    unfold firstIndexLoop
    rw [hf]
    by_cases h : o x = .eq
    · left
      exact ⟨0, x, by simp [h], by simp, h, by simp⟩
    · have hb : ¬ (o x == .eq) = true := by simpa using h
      simp only [if_neg hb]
      rcases ih (i+1) with ⟨n, y, h1, h2, h3, h4⟩ | ⟨h1, h2⟩
      · left
        refine ⟨n+1, y, by rw [h1]; congr 2; omega, by simpa using h2, h3, ?_⟩
        intro m z hm hz
        cases m with
        | zero => simp at hz; subst hz; exact h
        | succ m => exact h4 m z (by omega) (by simpa using hz)
      · right
        exact ⟨h1, by simp [h]; exact h2⟩

theorem lastIndexLoop_spec (f : A → Res Ordering) (o : A → Ordering) (hf : ∀ x, f x = .ok (o x)) (v : List A) :
    (∃ n x, lastIndexLoop f v.reverse = .ok (some n) ∧ v[n]? = some x ∧ o x = .eq ∧
        ∀ m y, n < m → v[m]? = some y → o y ≠ .eq) ∨
      (lastIndexLoop f v.reverse = .ok none ∧ ∀ y ∈ v, o y ≠ .eq) := by
  induction v using List.reverseRecOn with
  | nil => right; simp [lastIndexLoop]
  | append_singleton xs x ih =>
    rw [List.reverse_append]
    simp only [List.reverse_cons, List.reverse_nil, List.nil_append, List.singleton_append]
    unfold lastIndexLoop
    rw [hf]
    by_cases h : o x = .eq
    · left
      refine ⟨xs.length, x, by simp [h], by simp, h, ?_⟩
      intro m y hm hy
      rw [List.getElem?_eq_none (by simp; omega)] at hy
      cases hy
    · have hb : ¬ (o x == .eq) = true := by simpa using h
      simp only [if_neg hb]
      rcases ih with ⟨n, y, h1, h2, h3, h4⟩ | ⟨h1, h2⟩
      · left
        have hn : n < xs.length := (List.getElem?_eq_some_iff.mp h2).1
        refine ⟨n, y, h1, by rw [List.getElem?_append_left hn]; exact h2, h3, ?_⟩
        intro m z hm hz
        rcases Nat.lt_or_ge m xs.length with hlt | hge
        · exact h4 m z hm (by rw [List.getElem?_append_left hlt] at hz; exact hz)
        · rw [List.getElem?_append_right hge] at hz
          obtain ⟨_, hz⟩ := List.getElem?_eq_some_iff.mp hz
          simp at hz
          subst hz
          exact h
      · right
        refine ⟨h1, ?_⟩
        intro y hy
        rcases List.mem_append.mp hy with hy | hy
        · exact h2 y hy
        · simp at hy; subst hy; exact h

/-- C08: `vec_first_index_of` and `vec_last_index_of` return the first and the last position holding a value equal to `x`,
and void exactly when there is none. -/
theorem C08_index_of {cmp : A → A → Res Ordering} {ord : A → A → Ordering} (hc : Computes cmp ord) (v : List A)
    (hl : v.length ≤ u32Max) (x : A) :
    ((∃ n y, vecFirstIndexOf cmp v x = .ok (some n) ∧ v[n]? = some y ∧ ord x y = .eq ∧
        ∀ m z, m < n → v[m]? = some z → ord x z ≠ .eq) ∨
      (vecFirstIndexOf cmp v x = .ok none ∧ ∀ y ∈ v, ord x y ≠ .eq)) ∧
    ((∃ n y, vecLastIndexOf cmp v x = .ok (some n) ∧ v[n]? = some y ∧ ord x y = .eq ∧
        ∀ m z, n < m → v[m]? = some z → ord x z ≠ .eq) ∨
      (vecLastIndexOf cmp v x = .ok none ∧ ∀ y ∈ v, ord x y ≠ .eq)) := by
  unfold vecFirstIndexOf vecLastIndexOf usizeToU32
  constructor
  · rcases firstIndexLoop_spec (fun other => cmp x other) (fun other => ord x other) (fun y => hc x y) v 0 with
      ⟨n, y, h1, h2, h3, h4⟩ | ⟨h1, h2⟩
    · left
      have hn : n < v.length := (List.getElem?_eq_some_iff.mp h2).1
      refine ⟨n, y, ?_, h2, h3, h4⟩
      rw [h1]
      simp only [Nat.zero_add]
      rw [if_pos (by omega)]
      rfl
    · exact Or.inr ⟨by rw [h1], h2⟩
  · rcases lastIndexLoop_spec (fun other => cmp x other) (fun other => ord x other) (fun y => hc x y) v with
      ⟨n, y, h1, h2, h3, h4⟩ | ⟨h1, h2⟩
    · left
      have hn : n < v.length := (List.getElem?_eq_some_iff.mp h2).1
      refine ⟨n, y, ?_, h2, h3, h4⟩
      rw [h1]
      simp only []
      rw [if_pos (by omega)]
      rfl
    · exact Or.inr ⟨by rw [h1], h2⟩

/-- C08: every vector an operation returns has a length that fits in 32 bits again, and its reported length is exact. -/
theorem C08_lengths_fit (v w : List A) (hl : v.length ≤ u32Max) (i s e : Nat) (x : A)
    (h : vecPut v i x = .ok w ∨ vecDel v i = .ok w ∨ vecInsert v i x = .ok w ∨ vPushFront v x = .ok w ∨
      vPushBack v x = .ok w ∨ vPopFront v = .ok w ∨ vPopBack v = .ok w ∨ vecSlice v s e = .ok w ∨
      ∃ u, vecAppend v u = .ok w) :
    w.length ≤ u32Max ∧ vecLen w = .ok w.length := by
  have hfit : ∀ {a b : List A}, vecFromIter a = .ok b → b.length ≤ u32Max := by
    intro a b hab
    unfold vecFromIter at hab
    by_cases hh : a.length > u32Max
    · rw [if_pos hh] at hab; cases hab
    · rw [if_neg hh] at hab; cases hab; omega
  have hpf : ∀ {b : List A}, vPushFront v x = .ok b → b.length ≤ u32Max := by
    intro b hb
    unfold vPushFront at hb
    split at hb
    · cases hb
    · exact hfit hb
  have hpb : ∀ {b : List A}, vPushBack v x = .ok b → b.length ≤ u32Max := by
    intro b hb
    unfold vPushBack at hb
    split at hb
    · cases hb
    · exact hfit hb
  suffices hw : w.length ≤ u32Max by
    exact ⟨hw, by unfold vecLen usizeToU32; rw [if_pos hw]⟩
  rcases h with h | h | h | h | h | h | h | h | ⟨u, h⟩
  · rcases Nat.lt_or_ge i v.length with hi | hi
    · obtain ⟨w', h1, h2, _⟩ := (C08_put v i x).1 hi
      rw [h1] at h; cases h; omega
    · rw [(C08_put v i x).2 hi] at h; cases h
  · rcases Nat.lt_or_ge i v.length with hi | hi
    · obtain ⟨w', h1, h2, _⟩ := (C08_del v hl i).1 hi
      rw [h1] at h; cases h; omega
    · rw [(C08_del v hl i).2 hi] at h; cases h
  · by_cases hi : i ≤ v.length ∧ v.length < u32Max
    · obtain ⟨w', h1, h2, _⟩ := (C08_insert v hl i x).1 hi
      rw [h1] at h; cases h; omega
    · rw [(C08_insert v hl i x).2 (by omega)] at h; cases h
  · exact hpf h
  · exact hpb h
  · unfold vPopFront at h
    split at h
    · cases h
    · exact hfit h
  · unfold vPopBack at h
    split at h
    · cases h
    · exact hfit h
  · by_cases hse : s ≤ e ∧ e ≤ v.length
    · obtain ⟨w', h1, h2, _⟩ := (C08_slice v hl s e).1 hse
      rw [h1] at h; cases h; omega
    · by_cases h' : v.length < s ∨ v.length < e
      · rw [(C08_slice v hl s e).2.1 h'] at h; cases h
      · rw [(C08_slice v hl s e).2.2 (by omega)] at h; cases h
  · unfold vecAppend vAppend addOrErr at h
    split at h
    · cases h
    · split at h
      · cases h
      · exact hfit h

/-- C09: in a vector sorted by the value order, binary search finds a position exactly when the value is present; the
returned word is `2^32 + i` for a hit at `i`, and `i` for a miss, where `i` is the number of smaller elements. -/
theorem C09_binary_search {cmp : A → A → Res Ordering} {ord : A → A → Ordering} [Std.TransCmp ord] (hc : Computes cmp ord)
    (v : List A) (hl : v.length ≤ u32Max) (hs : NonDescending ord v) (x : A) :
    (∃ i y, vecBinarySearch cmp v x = .ok (2^32 + i) ∧ v[i]? = some y ∧ ord y x = .eq) ∨
    (∃ i, vecBinarySearch cmp v x = .ok i ∧ i ≤ v.length ∧ (∀ y ∈ v, ord y x ≠ .eq) ∧
      (∀ j y, j < i → v[j]? = some y → ord y x = .lt) ∧ (∀ j y, i ≤ j → v[j]? = some y → ord y x = .gt)) := by
  have hle : ∀ (i j : Nat) a b, i ≤ j → v[i]? = some a → v[j]? = some b → ord a b ≠ .gt := by
    intro i j a b hij ha hb
    rcases Nat.lt_or_eq_of_le hij with hlt | rfl
    · obtain ⟨hi, rfl⟩ := List.getElem?_eq_some_iff.mp ha
      obtain ⟨hj, rfl⟩ := List.getElem?_eq_some_iff.mp hb
      exact List.pairwise_iff_getElem.mp hs i j hi hj hlt
    · rw [ha] at hb; cases hb; rw [Std.ReflCmp.compare_self (cmp := ord)]; simp
  have hcase : ∀ {a b : A}, ord a b ≠ .gt → ord a b = .lt ∨ ord a b = .eq := by
    intro a b h
    cases ho : ord a b
    · exact Or.inl rfl
    · exact Or.inr rfl
    · exact absurd ho h
  have hkey := bsearchLoop_spec v (fun probe => cmp probe x) (fun y => ord y x) (fun y _ => hc y x)
    (by
      intro i j a b hij ha hb hlt
      rcases hcase (hle i j a b hij ha hb) with h | h
      · exact Std.TransCmp.lt_trans h hlt
      · exact Std.TransCmp.lt_of_eq_of_lt h hlt)
    (by
      intro i j a b hij ha hb hgt
      rw [Std.OrientedCmp.gt_iff_lt] at hgt ⊢
      rcases hcase (hle i j a b hij ha hb) with h | h
      · exact Std.TransCmp.lt_trans hgt h
      · exact Std.TransCmp.lt_of_lt_of_eq hgt h)
    _ 0 v.length rfl (by omega) (by omega) (by omega)
    (by intro i y hi hy; rw [List.getElem?_eq_none hi] at hy; cases hy)
  unfold vecBinarySearch bsearch
  rcases hkey with ⟨i, y, h1, h2, h3⟩ | ⟨i, h1, h2, h3, h4⟩
  · left
    refine ⟨i, y, ?_, h2, h3⟩
    have hi : i < v.length := (List.getElem?_eq_some_iff.mp h2).1
    rw [h1]
    simp only [u64FromSearch, usizeToU32]
    rw [if_pos (by omega)]
    simp only [Except.map, Except.ok.injEq]
    have hi32 : i < 2^32 := by unfold u32Max at hl; omega
    rw [Nat.or_comm, show (1 <<< 32 : Nat) = 2^32 * 1 from by decide, ← Nat.two_pow_add_eq_or_of_lt hi32]
  · right
    refine ⟨i, ?_, h2, ?_, h3, h4⟩
    · rw [h1]
      simp only [u64FromSearch, usizeToU32]
      rw [if_pos (by omega)]
    · intro y hy
      obtain ⟨j, hj, rfl⟩ := List.getElem_of_mem hy
      rcases Nat.lt_or_ge j i with h | h
      · rw [h3 j v[j] h (by simp [hj])]; simp
      · rw [h4 j v[j] h (by simp [hj])]; simp

/-- C09: on any vector, sorted or not, a reported hit is a real one, and the search fails only if a comparison does. -/
theorem C09_hits_are_real {cmp : A → A → Res Ordering} (v : List A) (hl : v.length ≤ u32Max) (x : A) :
    (∀ i, vecBinarySearch cmp v x = .ok (2^32 + i) → ∃ y, v[i]? = some y ∧ cmp y x = .ok .eq) ∧
    (∀ e, vecBinarySearch cmp v x = .error e → ∃ y ∈ v, cmp y x = .error e) := by
  have key := bsearchLoop_found v (fun probe => cmp probe x) _ 0 v.length rfl (by omega) _ rfl
  have bound := bsearchLoop_bound v (fun probe => cmp probe x) _ 0 v.length rfl (by omega)
  unfold vecBinarySearch bsearch
  cases hr : bsearchLoop v (fun probe => cmp probe x) 0 v.length with
  | error e =>
    simp only [reduceCtorEq, false_implies, implies_true, true_and]
    intro e' he
    cases he
    exact key.2 e hr
  | ok r =>
    cases r with
    | found i =>
      obtain ⟨y, hy, hc⟩ := key.1 i hr
      have hi : i < v.length := (List.getElem?_eq_some_iff.mp hy).1
      simp only [u64FromSearch, usizeToU32]
      rw [if_pos (by omega)]
      simp only [Except.map, reduceCtorEq, false_implies, implies_true, and_true, Except.ok.injEq]
      have hi32 : i < 2^32 := by unfold u32Max at hl; omega
      rw [Nat.or_comm, show (1 <<< 32 : Nat) = 2^32 * 1 from by decide, ← Nat.two_pow_add_eq_or_of_lt hi32]
      intro j hj
      have : i = j := by omega
      subst this
      exact ⟨y, hy, hc⟩
    | notFound i =>
      have hi := bound i hr
      simp only [u64FromSearch, usizeToU32]
      rw [if_pos (by omega)]
      simp only [Except.ok.injEq, reduceCtorEq, false_implies, implies_true, and_true]
      intro j hj
      unfold u32Max at hl
      omega

example : NonDescending (compare : Nat → Nat → Ordering) [1, 3, 3, 8] := by
  simp only [NonDescending, List.pairwise_cons]; decide

example : vecBinarySearch natCmp [1, 3, 4, 8] 4 = .ok (2^32 + 2) ∧ vecBinarySearch natCmp [1, 3, 4, 8] 5 = .ok 3 := by decide +kernel

example : vecInsert [10, 20] 1 15 = .ok [10, 15, 20] ∧ vecSlice [1, 2, 3, 4] 1 3 = .ok [2, 3] := ⟨rfl, rfl⟩

end Soroban.Props
