import Verif.Lemmas.Poseidon
/-!
The linear layers of Poseidon2 are multiplications by matrices, and its loops compute the rounds of the specification.
-/
namespace Soroban.Poseidon

open Spec Matrix
open Soroban.Curves (invalidInput)

section
variable {F : Type} [CommRing F] {t : Nat}

/-- The remainder modulo four, as an index. -/
def mod4 (i : Nat) : Fin 4 := ⟨i % 4, Nat.mod_lt _ (by decide)⟩

/-- One entry of a product with `M4`, for the group `q` of a list. -/
def grp (r : Fin 4) (s : List F) (q : Nat) : F := ∑ l : Fin 4, (M4 r l : F) * s.getD (4 * q + l) 0

theorem m4_length : ∀ s : List F, (m4 s).length = s.length
  | [] => rfl
  | [_] => rfl
  | [_, _] => rfl
  | [_, _, _] => rfl
  | a :: b :: c :: d :: rest => by simp [m4, m4_length rest]

theorem m4_get : ∀ (k : Nat) (s : List F), s.length = 4 * k → ∀ i, i < 4 * k → (m4 s).getD i 0 = grp (mod4 i) s (i / 4)
  | 0, _, _, i, hi => by omega
  | k + 1, s, hs, i, hi => by
    match s, hs with
    | a :: b :: c :: d :: rest, hs =>
      have hr : rest.length = 4 * k := by simp at hs; omega
      by_cases h4 : i < 4
      · interval_cases i <;> simp [m4, grp, mod4, M4, Fin.sum_univ_four] <;> ring
      · obtain ⟨i, rfl⟩ : ∃ j, i = j + 4 := ⟨i - 4, by omega⟩
        have ih := m4_get k rest hr i (by omega)
        have e1 : mod4 (i + 4) = mod4 i := by
          apply Fin.ext; show (i + 4) % 4 = i % 4; omega
        have e2 : (i + 4) / 4 = i / 4 + 1 := by omega
        rw [e1, e2]
        have e3 : (m4 (a :: b :: c :: d :: rest)).getD (i + 4) 0 = (m4 rest).getD i 0 := by
          simp [m4, List.getD_eq_getElem?_getD]
        rw [e3, ih]
        unfold grp
        apply Finset.sum_congr rfl
        intro l _
        congr 1
        have : 4 * (i / 4 + 1) + l.val = (4 * (i / 4) + l.val) + 4 := by omega
        rw [this]
        simp [List.getD_eq_getElem?_getD]

theorem foldl_add_range (f : Nat → F) : ∀ (n : Nat) (a : F), (List.range n).foldl (fun acc j => acc + f j) a = a + ∑ j ∈ Finset.range n, f j
  | 0, a => by simp
  | n + 1, a => by
    rw [List.range_succ, List.foldl_append, foldl_add_range f n, Finset.sum_range_succ]
    simp [add_assoc]

theorem stored_eq {k : Nat} (hk : 0 < k) (s : List F) (l : Nat) : stored k s l = ∑ j ∈ Finset.range k, s.getD (4 * j + l) 0 := by
  obtain ⟨k, rfl⟩ : ∃ n, k = n + 1 := ⟨k - 1, by omega⟩
  unfold stored
  rw [foldl_add_range, Finset.sum_range_succ', Nat.add_sub_cancel, add_comm]
  simp

theorem sum_groups (g : Nat → F) : ∀ k, ∑ j ∈ Finset.range (4 * k), g j = ∑ q ∈ Finset.range k, ∑ l : Fin 4, g (4 * q + l)
  | 0 => by simp
  | k + 1 => by
    rw [Finset.sum_range_succ _ k, ← sum_groups g k]
    rw [show 4 * (k + 1) = 4 * k + 1 + 1 + 1 + 1 by ring]
    rw [Finset.sum_range_succ, Finset.sum_range_succ, Finset.sum_range_succ, Finset.sum_range_succ, Fin.sum_univ_four]
    simp [add_assoc]

theorem getD_ofFn (x : Fin t → F) (i : Fin t) : (List.ofFn x).getD i 0 = x i := congrFun (vec_ofFn x) i

/-- A row of the product with the external matrix, by groups. -/
theorem external_row {k : Nat} (hk : 2 ≤ k) (x : Fin (4 * k) → F) (i : Fin (4 * k)) :
    (external (4 * k) *ᵥ x) i =
      ∑ q ∈ Finset.range k, (if i.val / 4 = q then 2 else 1) * grp (mod4 i) (List.ofFn x) q := by
  have e : (external (4 * k) *ᵥ x) i =
      ∑ j : Fin (4 * k), (M4 (mod4 i) (mod4 j) : F) * (if i.val / 4 = j.val / 4 then 2 else 1) * (List.ofFn x).getD j 0 := by
    unfold Matrix.mulVec dotProduct
    apply Finset.sum_congr rfl
    intro j _
    rw [getD_ofFn]
    unfold external
    dsimp only
    rw [if_neg (show ¬ 4 * k < 4 by omega), if_neg (show ¬ 4 * k = 4 by omega)]
    rfl
  rw [e]
  rw [← Finset.sum_range (fun j => (M4 (mod4 i) (mod4 j) : F) * (if i.val / 4 = j / 4 then 2 else 1) * (List.ofFn x).getD j 0)]
  rw [sum_groups]
  apply Finset.sum_congr rfl
  intro q _
  unfold grp
  rw [Finset.mul_sum]
  apply Finset.sum_congr rfl
  intro l _
  have h1 : mod4 (4 * q + l) = l := by
    apply Fin.ext; show (4 * q + l.val) % 4 = l.val; omega
  have h2 : (4 * q + l.val) / 4 = q := by omega
  rw [h1, h2]
  ring

theorem external_big {k : Nat} (hk : 2 ≤ k) (x : Fin (4 * k) → F) :
    ((m4 (List.ofFn x)).mapIdx fun i y => y + stored k (m4 (List.ofFn x)) (i % 4)) = List.ofFn (external (4 * k) *ᵥ x) := by
  have hl : (m4 (List.ofFn x)).length = 4 * k := by rw [m4_length]; simp
  apply List.ext_getElem
  · simp [hl]
  · intro i h1 h2
    have hi : i < 4 * k := by simpa using h2
    rw [List.getElem_mapIdx, List.getElem_ofFn]
    have hg : (m4 (List.ofFn x))[i]'(by omega) = (m4 (List.ofFn x)).getD i 0 := by
      simp [List.getD_eq_getElem?_getD, hl, hi]
    rw [hg, m4_get k _ (by simp) i hi, external_row hk, stored_eq (by omega)]
    have hs : ∑ q ∈ Finset.range k, (m4 (List.ofFn x)).getD (4 * q + i % 4) 0 =
        ∑ q ∈ Finset.range k, grp (mod4 i) (List.ofFn x) q := by
      apply Finset.sum_congr rfl
      intro q hq
      have hq := Finset.mem_range.mp hq
      rw [m4_get k _ (by simp) _ (by omega)]
      have h1 : mod4 (4 * q + i % 4) = mod4 i := by
        apply Fin.ext; show (4 * q + i % 4) % 4 = i % 4; omega
      have h2 : (4 * q + i % 4) / 4 = q := by omega
      rw [h1, h2]
    rw [hs]
    have hsplit : ∀ q, (if i / 4 = q then (2 : F) else 1) * grp (mod4 i) (List.ofFn x) q =
        (if i / 4 = q then grp (mod4 i) (List.ofFn x) q else 0) + grp (mod4 i) (List.ofFn x) q := by
      intro q
      split
      · ring
      · ring
    simp only [hsplit]
    rw [Finset.sum_add_distrib, Finset.sum_ite_eq, if_pos (Finset.mem_range.mpr (by omega))]

theorem matmulM4_ok {k : Nat} (x : Fin (4 * k) → F) : matmulM4 (4 * k) (List.ofFn x) = .ok (m4 (List.ofFn x)) := by
  unfold matmulM4
  rw [if_neg (by omega), if_neg (by simp)]

theorem external_big' {k : Nat} (hk : 2 ≤ k) (hk' : k ≤ 6) (x : Fin (4 * k) → F) :
    matmulExternal (4 * k) (List.ofFn x) = .ok (List.ofFn (external (4 * k) *ᵥ x)) := by
  rw [← external_big hk x]
  unfold matmulExternal
  rw [if_neg (by simp)]
  split
  · omega
  · omega
  · omega
  · rw [if_pos (by omega), matmulM4_ok]
    have : 4 * k / 4 = k := by omega
    rw [this]
    rfl

theorem external_ok (ht : t ∈ sizes) (x : Fin t → F) : matmulExternal t (List.ofFn x) = .ok (List.ofFn (external t *ᵥ x)) := by
  simp only [sizes, List.mem_cons, List.not_mem_nil, or_false] at ht
  rcases ht with rfl | rfl | rfl | rfl | rfl | rfl | rfl | rfl
  · simp [matmulExternal, Matrix.mulVec, dotProduct, external, Fin.sum_univ_two]
    constructor <;> ring
  · simp [matmulExternal, Matrix.mulVec, dotProduct, external, Fin.sum_univ_three]
    refine ⟨?_, ?_, ?_⟩ <;> ring
  · simp [matmulExternal, matmulM4, m4, Matrix.mulVec, dotProduct, external, M4, Fin.sum_univ_four]
    refine ⟨?_, ?_, ?_, ?_⟩ <;> ring
  · exact external_big' (k := 2) (by omega) (by omega) x
  · exact external_big' (k := 3) (by omega) (by omega) x
  · exact external_big' (k := 4) (by omega) (by omega) x
  · exact external_big' (k := 5) (by omega) (by omega) x
  · exact external_big' (k := 6) (by omega) (by omega) x

theorem external_err (ht : t ∉ sizes) (s : List F) : ∃ e, matmulExternal t s = .error e := by
  simp only [sizes, List.mem_cons, List.not_mem_nil, or_false, not_or] at ht
  unfold matmulExternal
  by_cases h : s.length ≠ t
  · rw [if_pos h]; exact ⟨_, rfl⟩
  · rw [if_neg h]
    split
    · omega
    · omega
    · omega
    · rw [if_neg (by omega)]; exact ⟨_, rfl⟩

theorem foldl_add_list : ∀ (l : List F) (a : F), l.foldl (· + ·) a = a + l.sum
  | [], a => by simp
  | b :: l, a => by rw [List.foldl_cons, foldl_add_list l, List.sum_cons, add_assoc]

theorem internal_row (m x : Fin t → F) (i : Fin t) : (internal t m *ᵥ x) i = x i * m i + ∑ j, x j := by
  unfold Matrix.mulVec dotProduct internal
  have : ∀ j, (if i = j then m i + 1 else 1) * x j = (if i = j then x j * m j else 0) + x j := by
    intro j
    split
    · rename_i h; subst h; ring
    · ring
  simp only [this]
  rw [Finset.sum_add_distrib, Finset.sum_ite_eq, if_pos (Finset.mem_univ _)]

theorem internal_big (h0 : 0 < t) (x : Fin t → F) {diag : List F} (hd : diag.length = t) :
    ((List.ofFn x).zipWith (fun y m => y * m + (List.ofFn x).tail.foldl (· + ·) ((List.ofFn x).headD 0)) diag) =
      List.ofFn (internal t (vec t diag) *ᵥ x) := by
  have hsum : (List.ofFn x).tail.foldl (· + ·) ((List.ofFn x).headD 0) = ∑ j, x j := by
    obtain ⟨t, rfl⟩ : ∃ k, t = k + 1 := ⟨t - 1, by omega⟩
    rw [foldl_add_list, Fin.sum_univ_succ, List.ofFn_succ]
    simp [List.sum_ofFn]
  rw [hsum]
  apply List.ext_getElem
  · simp [hd]
  · intro i h1 h2
    have hi : i < t := by simpa using h2
    have hi' : i < diag.length := by omega
    rw [List.getElem_zipWith, List.getElem_ofFn, List.getElem_ofFn, internal_row]
    simp [vec, List.getD_eq_getElem?_getD, hi']

theorem internal_ok (ht : t ∈ sizes) (x : Fin t → F) {diag : List F} (hd : diag.length = t) :
    matmulInternal t (List.ofFn x) diag = .ok (List.ofFn (internal t (usedDiag t (vec t diag)) *ᵥ x)) := by
  have hi : ¬ (t ≠ (List.ofFn x).length ∨ t ≠ diag.length) := by simp [hd]
  unfold matmulInternal
  rw [if_neg hi]
  clear hi
  simp only [sizes, List.mem_cons, List.not_mem_nil, or_false] at ht
  by_cases h2 : t = 2
  · subst h2
    simp [Matrix.mulVec, dotProduct, internal, usedDiag, Fin.sum_univ_two]
    constructor <;> ring
  by_cases h3 : t = 3
  · subst h3
    simp [Matrix.mulVec, dotProduct, internal, usedDiag, Fin.sum_univ_three]
    refine ⟨?_, ?_, ?_⟩ <;> ring
  have hu : usedDiag t (vec t diag) = vec t diag := by
    funext i
    unfold usedDiag
    rw [if_neg (by omega)]
  rw [hu]
  split
  · omega
  · omega
  · rw [if_pos (by omega), ← internal_big (by omega) x hd]

theorem internal_err (x : Fin t → F) {diag : List F} (h : t ∉ sizes ∨ diag.length ≠ t) :
    ∃ e, matmulInternal t (List.ofFn x) diag = .error e := by
  unfold matmulInternal
  by_cases hi : t ≠ (List.ofFn x).length ∨ t ≠ diag.length
  · rw [if_pos hi]; exact ⟨_, rfl⟩
  · rw [if_neg hi]
    have ht : t ∉ sizes := by
      rcases h with h | h
      · exact h
      · exact (hi (.inr (Ne.symm h))).elim
    simp only [sizes, List.mem_cons, List.not_mem_nil, or_false, not_or] at ht
    split
    · omega
    · omega
    · rw [if_neg (by omega)]; exact ⟨_, rfl⟩

/-! ### Rounds -/

theorem fullRound2_ok (p : Params F) (hp : p.t = t) (ht : t ∈ sizes) (x : Fin t → F) {c : List F} (hc : c.length = t) :
    fullRound2 p (List.ofFn x) c = .ok (List.ofFn (full p.d (external t) x (vec t c))) := by
  unfold fullRound2
  rw [addRc_ok x hc]
  show matmulExternal p.t (sbox p.d _) = _
  rw [sbox_ofFn, hp, external_ok ht]
  rfl

theorem fullRound2_err (p : Params F) (x : Fin t → F) {c : List F} (hc : c.length ≠ t) :
    ∃ e, fullRound2 p (List.ofFn x) c = .error e := by
  unfold fullRound2
  rw [addRc_err x hc]
  exact ⟨_, rfl⟩

theorem partialRound2_ok (p : Params F) (hp : p.t = t) (ht : t ∈ sizes) {diag : List F} (hm : p.mat = [diag]) (hd : diag.length = t)
    (x : Fin t → F) {c : List F} (hc : c ≠ []) :
    partialRound2 p (List.ofFn x) c = .ok (List.ofFn (part2 p.d (internal t (usedDiag t (vec t diag))) x (vec t c))) := by
  have h0 : 0 < t := by
    simp only [sizes, List.mem_cons, List.not_mem_nil, or_false] at ht
    omega
  obtain ⟨t, rfl⟩ : ∃ k, t = k + 1 := ⟨t - 1, by omega⟩
  obtain ⟨c0, cr, rfl⟩ := List.exists_cons_of_ne_nil hc
  unfold partialRound2
  rw [List.ofFn_succ]
  show matmulInternal p.t (sboxP p.d (x 0 + c0) :: List.ofFn fun i : Fin t => x i.succ) (p.mat.headD []) = _
  have e : (sboxP p.d (x 0 + c0) :: List.ofFn fun i : Fin t => x i.succ) =
      List.ofFn fun i : Fin (t + 1) => if i.val = 0 then (x i + vec (t + 1) (c0 :: cr) i) ^ p.d else x i := by
    rw [List.ofFn_succ]
    rfl
  rw [e, hm, hp]
  show matmulInternal (t + 1) _ diag = _
  rw [internal_ok ht _ hd]
  rfl

theorem partialRound2_err (p : Params F) (x : Fin t → F) : ∃ e, partialRound2 p (List.ofFn x) [] = .error e := ⟨_, rfl⟩

theorem permutation2_ok {d rf rp : Nat} {input diag : List F} {rcs : List (List F)} (h : Shape2 t d rf rp input diag rcs) :
    permutation2 ⟨t, d, rf / 2, rp, rf + rp, [diag], rcs⟩ input =
      .ok (List.ofFn (poseidon2 d rf rp (external t) (internal t (usedDiag t (vec t diag))) (rcs.map (vec t)) (vec t input))) := by
  have hc := h.common.constants
  have he := h.common.even
  unfold permutation2
  rw [if_neg (by simpa using h.state)]
  dsimp only
  conv_lhs => rw [← ofFn_vec h.state]
  rw [external_ok h.size]
  refine Eq.trans (loops_eq _ _ (by omega) hc _) ?_
  refine folds_ok ?_ ?_ ?_ _
  · intro c hm x
    exact fullRound2_ok (t := t) ⟨t, d, rf / 2, rp, rf + rp, [diag], rcs⟩ rfl h.size x (h.before c hm)
  · intro c hm x
    exact partialRound2_ok (t := t) ⟨t, d, rf / 2, rp, rf + rp, [diag], rcs⟩ rfl h.size rfl h.diagonal x (h.middle c hm)
  · intro c hm x
    exact fullRound2_ok (t := t) ⟨t, d, rf / 2, rp, rf + rp, [diag], rcs⟩ rfl h.size x (h.after c hm)

theorem permutation2_err {d rf rp : Nat} {input diag : List F} {rcs : List (List F)} (hp : Common d rf rp rcs.length)
    (hm : diag.length = t) (h : ¬ Shape2 t d rf rp input diag rcs) :
    ∃ e, permutation2 ⟨t, d, rf / 2, rp, rf + rp, [diag], rcs⟩ input = .error e := by
  have hc := hp.constants
  have he := hp.even
  unfold permutation2
  dsimp only
  by_cases hs : input.length = t
  swap
  · rw [if_pos hs]
    exact ⟨_, rfl⟩
  rw [if_neg (by simpa using hs)]
  by_cases ht : t ∈ sizes
  swap
  · obtain ⟨e, he⟩ := external_err ht input
    exact ⟨e, by rw [he]; rfl⟩
  conv => arg 1; ext e; rw [← ofFn_vec hs]
  rw [external_ok ht]
  have := folds_err (t := t) (rf := rf) (rp := rp) (rcs := rcs) (P := fun c => c.length = t) (Q := fun c => c ≠ [])
    (step1 := fullRound2 ⟨t, d, rf / 2, rp, rf + rp, [diag], rcs⟩) (step2 := partialRound2 ⟨t, d, rf / 2, rp, rf + rp, [diag], rcs⟩)
    (fun c hP x => fullRound2_ok (t := t) ⟨t, d, rf / 2, rp, rf + rp, [diag], rcs⟩ rfl ht x hP) (fun c hP x => fullRound2_err _ x hP)
    (fun c hQ x => partialRound2_ok (t := t) ⟨t, d, rf / 2, rp, rf + rp, [diag], rcs⟩ rfl ht rfl hm x hQ)
    (fun c hQ x => by
      have : c = [] := by simpa using hQ
      subst this
      exact partialRound2_err _ x)
    (fun ⟨q1, q2, q3⟩ => h ⟨hp, ht, hs, hm, q1, q2, q3⟩) (external t *ᵥ vec t input)
  obtain ⟨e, he'⟩ := this
  exact ⟨e, (loops_eq _ _ (by omega) hc _).trans he'⟩

end

end Soroban.Poseidon
