import Mathlib.Tactic.Ring
import Mathlib.Tactic.IntervalCases
import Mathlib.Algebra.BigOperators.Fin
import Verif.Lemmas.Objects
import Verif.Spec.Poseidon
/-!
The loops of the permutations compute the rounds of the specification.
-/
namespace Soroban.Poseidon

open Spec Matrix
open Soroban.Curves (invalidInput)

section
variable {F : Type} [CommRing F] {t : Nat}

/-! ### Lists and vectors -/

theorem ofFn_vec {l : List F} (h : l.length = t) : List.ofFn (vec t l) = l := by
  subst h
  apply List.ext_getElem
  · simp
  · intro i h1 h2
    simp [vec, List.getD_eq_getElem?_getD, h2]

theorem vec_ofFn (x : Fin t → F) : vec t (List.ofFn x) = x := by
  funext i
  simp [vec, List.getD_eq_getElem?_getD]

theorem addRc_ok (x : Fin t → F) {c : List F} (hc : c.length = t) :
    addRc (List.ofFn x) c = .ok (List.ofFn fun i => x i + vec t c i) := by
  unfold addRc
  rw [if_neg (by simp [hc])]
  congr 1
  apply List.ext_getElem
  · simp [hc]
  · intro i h1 h2
    have : i < c.length := by simpa [hc] using h2
    simp [vec, List.getD_eq_getElem?_getD, this]

theorem addRc_err (x : Fin t → F) {c : List F} (hc : c.length ≠ t) : addRc (List.ofFn x) c = .error invalidInput := by
  unfold addRc
  rw [if_pos (by simpa using Ne.symm hc)]

theorem sbox_ofFn (d : Nat) (x : Fin t → F) : sbox d (List.ofFn x) = List.ofFn fun i => x i ^ d := by
  unfold sbox
  rw [List.map_ofFn]
  rfl

theorem foldl_dot : ∀ (l : List (F × F)) (a : F),
    l.foldl (fun acc q => acc + q.1 * q.2) a = a + (l.map fun q => q.1 * q.2).sum
  | [], a => by simp
  | q :: l, a => by
    rw [List.foldl_cons, foldl_dot l, List.map_cons, List.sum_cons, add_assoc]

theorem dot_eq (x : Fin t → F) {row : List F} (h : row.length = t) : dot row (List.ofFn x) = ∑ j, vec t row j * x j := by
  unfold dot
  rw [foldl_dot, zero_add]
  rw [← List.sum_ofFn]
  congr 1
  apply List.ext_getElem
  · simp [h]
  · intro i h1 h2
    have : i < row.length := by rw [h]; simpa using h2
    simp [vec, List.getD_eq_getElem?_getD, this]

theorem matRows_ok (x : Fin t → F) : ∀ {rows : List (List F)}, (∀ row ∈ rows, row.length = t) →
    matRows (List.ofFn x) rows = .ok (rows.map fun row => ∑ j, vec t row j * x j)
  | [], _ => rfl
  | row :: rest, h => by
    unfold matRows
    rw [if_neg (by simp [h row (by simp)])]
    rw [matRows_ok x (fun r hr => h r (by simp [hr]))]
    show Except.ok _ = _
    rw [dot_eq x (h row (by simp))]
    rfl

theorem matRows_err (x : Fin t → F) : ∀ {rows : List (List F)}, (¬ ∀ row ∈ rows, row.length = t) →
    matRows (List.ofFn x) rows = .error invalidInput
  | [], h => (h (by simp)).elim
  | row :: rest, h => by
    unfold matRows
    by_cases hr : row.length = t
    · rw [if_neg (by simp [hr])]
      rw [matRows_err x (rows := rest) (fun h' => h (by
        intro r hm
        rcases List.mem_cons.mp hm with rfl | hm
        · exact hr
        · exact h' r hm))]
      rfl
    · rw [if_pos (by simpa using hr)]

theorem matmul_ok (x : Fin t → F) {rows : List (List F)} (h1 : rows.length = t) (h : ∀ row ∈ rows, row.length = t) :
    matmul (List.ofFn x) rows = .ok (List.ofFn (mat t rows *ᵥ x)) := by
  unfold matmul
  rw [if_neg (by simp [h1]), matRows_ok x h]
  congr 1
  apply List.ext_getElem
  · simp [h1]
  · intro i h2 h3
    have : i < rows.length := by simpa using h2
    simp [Matrix.mulVec, dotProduct, mat, vec, List.getD_eq_getElem?_getD, this]

theorem matmul_err (x : Fin t → F) {rows : List (List F)} (h1 : rows.length = t) (h : ¬ ∀ row ∈ rows, row.length = t) :
    matmul (List.ofFn x) rows = .error invalidInput := by
  unfold matmul
  rw [if_neg (by simp [h1]), matRows_err x h]

/-! ### Loops -/

/-- A loop whose rounds all have constants is a fold over them. -/
theorem loop_eq (rcs : List (List F)) (step : List F → List F → Res (List F)) : ∀ (n r : Nat) (s : List F), r + n ≤ rcs.length →
    loop rcs step n r s = ((rcs.drop r).take n).foldlM step s
  | 0, r, s, _ => by simp [loop]; rfl
  | n + 1, r, s, h => by
    have hr : r < rcs.length := by omega
    unfold loop
    rw [List.getElem?_eq_getElem hr]
    dsimp only
    rw [List.drop_eq_getElem_cons hr, List.take_succ_cons, List.foldlM_cons]
    congr 1
    funext s'
    exact loop_eq rcs step n (r + 1) s' (by omega)

theorem fold_ok {step : List F → List F → Res (List F)} {f : (Fin t → F) → (Fin t → F) → Fin t → F} : ∀ {cs : List (List F)},
    (∀ c ∈ cs, ∀ x, step (List.ofFn x) c = .ok (List.ofFn (f x (vec t c)))) →
    ∀ x, cs.foldlM step (List.ofFn x) = .ok (List.ofFn ((cs.map (vec t)).foldl f x))
  | [], _, x => rfl
  | c :: cs, h, x => by
    rw [List.foldlM_cons, h c (by simp)]
    exact fold_ok (fun c' hc' => h c' (by simp [hc'])) _

theorem fold_err {step : List F → List F → Res (List F)} {f : (Fin t → F) → (Fin t → F) → Fin t → F} {P : List F → Prop}
    (hok : ∀ c, P c → ∀ x, step (List.ofFn x) c = .ok (List.ofFn (f x (vec t c))))
    (hbad : ∀ c, ¬ P c → ∀ x : Fin t → F, ∃ e, step (List.ofFn x) c = .error e) : ∀ {cs : List (List F)}, (¬ ∀ c ∈ cs, P c) →
    ∀ x : Fin t → F, ∃ e, cs.foldlM step (List.ofFn x) = .error e
  | [], h, _ => (h (by simp)).elim
  | c :: cs, h, x => by
    by_cases hc : P c
    · rw [List.foldlM_cons, hok c hc]
      exact fold_err hok hbad (fun h' => h (by
        intro c' hm
        rcases List.mem_cons.mp hm with rfl | hm
        · exact hc
        · exact h' c' hm)) _
    · obtain ⟨e, he⟩ := hbad c hc x
      exact ⟨e, by rw [List.foldlM_cons, he]; rfl⟩

/-! ### Poseidon -/

theorem fullRound_ok (p : Params F) (x : Fin t → F) {c : List F} (h1 : p.mat.length = t) (h : ∀ row ∈ p.mat, row.length = t)
    (hc : c.length = t) : fullRound p (List.ofFn x) c = .ok (List.ofFn (full p.d (mat t p.mat) x (vec t c))) := by
  unfold fullRound
  rw [addRc_ok x hc]
  show matmul (sbox p.d _) p.mat = _
  rw [sbox_ofFn, matmul_ok _ h1 h]
  rfl

theorem fullRound_err (p : Params F) (x : Fin t → F) {c : List F} (h1 : p.mat.length = t)
    (h : ¬ ((∀ row ∈ p.mat, row.length = t) ∧ c.length = t)) : ∃ e, fullRound p (List.ofFn x) c = .error e := by
  unfold fullRound
  by_cases hc : c.length = t
  · rw [addRc_ok x hc]
    refine ⟨invalidInput, ?_⟩
    show matmul (sbox p.d _) p.mat = _
    rw [sbox_ofFn, matmul_err _ h1 (fun h' => h ⟨h', hc⟩)]
  · rw [addRc_err x hc]
    exact ⟨_, rfl⟩

theorem first_ofFn (d : Nat) (x : Fin (t + 1) → F) :
    (sboxP d (x 0) :: List.ofFn fun i : Fin t => x i.succ) = List.ofFn fun i => if i.val = 0 then x i ^ d else x i := by
  rw [List.ofFn_succ]
  rfl

theorem partialRound_ok (p : Params F) (x : Fin t → F) {c : List F} (h0 : 0 < t) (h1 : p.mat.length = t)
    (h : ∀ row ∈ p.mat, row.length = t) (hc : c.length = t) :
    partialRound p (List.ofFn x) c = .ok (List.ofFn (part p.d (mat t p.mat) x (vec t c))) := by
  obtain ⟨t, rfl⟩ : ∃ k, t = k + 1 := ⟨t - 1, by omega⟩
  unfold partialRound
  rw [addRc_ok x hc, List.ofFn_succ]
  show matmul (sboxP p.d (x 0 + vec (t + 1) c 0) :: List.ofFn fun i : Fin t => x i.succ + vec (t + 1) c i.succ) p.mat = _
  rw [first_ofFn p.d fun i => x i + vec (t + 1) c i, matmul_ok _ h1 h]
  rfl

theorem partialRound_err (p : Params F) (x : Fin t → F) {c : List F} (h1 : p.mat.length = t)
    (h : ¬ (0 < t ∧ (∀ row ∈ p.mat, row.length = t) ∧ c.length = t)) : ∃ e, partialRound p (List.ofFn x) c = .error e := by
  unfold partialRound
  by_cases hc : c.length = t
  · rw [addRc_ok x hc]
    rcases t with _ | t
    · exact ⟨vecOob, by simp; rfl⟩
    · refine ⟨invalidInput, ?_⟩
      rw [List.ofFn_succ]
      show matmul (sboxP p.d (x 0 + vec (t + 1) c 0) :: List.ofFn fun i : Fin t => x i.succ + vec (t + 1) c i.succ) p.mat = _
      rw [first_ofFn p.d fun i => x i + vec (t + 1) c i, matmul_err _ h1 (fun h' => h ⟨by omega, h', hc⟩)]
  · rw [addRc_err x hc]
    exact ⟨_, rfl⟩

/-- The three loops, as folds. -/
theorem loops_eq {rf rp : Nat} {rcs : List (List F)} (step1 step2 : List F → List F → Res (List F)) (he : rf % 2 = 0)
    (hl : rcs.length = rf + rp) (s : List F) :
    (do
      let s ← loop rcs step1 (rf / 2) 0 s
      let s ← loop rcs step2 rp (rf / 2) s
      loop rcs step1 (rf + rp - (rf / 2 + rp)) (rf / 2 + rp) s : Res (List F)) = (do
      let s ← (rcs.take (rf / 2)).foldlM step1 s
      let s ← ((rcs.drop (rf / 2)).take rp).foldlM step2 s
      (rcs.drop (rf / 2 + rp)).foldlM step1 s) := by
  rw [loop_eq rcs step1 (rf / 2) 0 s (by omega), List.drop_zero]
  congr 1
  funext s1
  rw [loop_eq rcs step2 rp (rf / 2) s1 (by omega)]
  congr 1
  funext s2
  rw [loop_eq rcs step1 _ _ s2 (by omega)]
  rw [List.take_of_length_le (by rw [List.length_drop]; omega)]

/-- The three parts together have all constants. -/
theorem parts_mem {rf rp : Nat} {rcs : List (List F)} {c : List F} (hc : c ∈ rcs) :
    c ∈ rcs.take (rf / 2) ∨ c ∈ (rcs.drop (rf / 2)).take rp ∨ c ∈ rcs.drop (rf / 2 + rp) := by
  rw [← List.take_append_drop (rf / 2) rcs, List.mem_append] at hc
  rcases hc with hc | hc
  · exact .inl hc
  · rw [← List.take_append_drop rp (rcs.drop (rf / 2)), List.mem_append, List.drop_drop] at hc
    exact .inr hc

/-- The three folds succeed if the steps do. -/
theorem folds_ok {rf rp : Nat} {rcs : List (List F)} {step1 step2 : List F → List F → Res (List F)}
    {f1 f2 : (Fin t → F) → (Fin t → F) → Fin t → F}
    (h1 : ∀ c ∈ rcs.take (rf / 2), ∀ x, step1 (List.ofFn x) c = .ok (List.ofFn (f1 x (vec t c))))
    (h2 : ∀ c ∈ (rcs.drop (rf / 2)).take rp, ∀ x, step2 (List.ofFn x) c = .ok (List.ofFn (f2 x (vec t c))))
    (h3 : ∀ c ∈ rcs.drop (rf / 2 + rp), ∀ x, step1 (List.ofFn x) c = .ok (List.ofFn (f1 x (vec t c)))) (x : Fin t → F) :
    (do
      let s ← (rcs.take (rf / 2)).foldlM step1 (List.ofFn x)
      let s ← ((rcs.drop (rf / 2)).take rp).foldlM step2 s
      (rcs.drop (rf / 2 + rp)).foldlM step1 s : Res (List F)) =
    .ok (List.ofFn ((((rcs.map (vec t)).drop (rf / 2 + rp)).foldl f1
      ((((rcs.map (vec t)).drop (rf / 2)).take rp).foldl f2 (((rcs.map (vec t)).take (rf / 2)).foldl f1 x))))) := by
  rw [fold_ok h1]
  show (do
      let s ← ((rcs.drop (rf / 2)).take rp).foldlM step2 (List.ofFn _)
      (rcs.drop (rf / 2 + rp)).foldlM step1 s : Res (List F)) = _
  rw [fold_ok h2]
  show (rcs.drop (rf / 2 + rp)).foldlM step1 (List.ofFn _) = _
  rw [fold_ok h3]
  simp only [List.map_drop, List.map_take]

/-- They fail if one of the steps does. -/
theorem folds_err {rf rp : Nat} {rcs : List (List F)} {step1 step2 : List F → List F → Res (List F)}
    {f1 f2 : (Fin t → F) → (Fin t → F) → Fin t → F} {P Q : List F → Prop}
    (ok1 : ∀ c, P c → ∀ x, step1 (List.ofFn x) c = .ok (List.ofFn (f1 x (vec t c))))
    (bad1 : ∀ c, ¬ P c → ∀ x : Fin t → F, ∃ e, step1 (List.ofFn x) c = .error e)
    (ok2 : ∀ c, Q c → ∀ x, step2 (List.ofFn x) c = .ok (List.ofFn (f2 x (vec t c))))
    (bad2 : ∀ c, ¬ Q c → ∀ x : Fin t → F, ∃ e, step2 (List.ofFn x) c = .error e)
    (h : ¬ ((∀ c ∈ rcs.take (rf / 2), P c) ∧ (∀ c ∈ (rcs.drop (rf / 2)).take rp, Q c) ∧ ∀ c ∈ rcs.drop (rf / 2 + rp), P c))
    (x : Fin t → F) :
    ∃ e, (do
      let s ← (rcs.take (rf / 2)).foldlM step1 (List.ofFn x)
      let s ← ((rcs.drop (rf / 2)).take rp).foldlM step2 s
      (rcs.drop (rf / 2 + rp)).foldlM step1 s : Res (List F)) = .error e := by
  by_cases h1 : ∀ c ∈ rcs.take (rf / 2), P c
  · rw [fold_ok (fun c hc => ok1 c (h1 c hc))]
    show ∃ e, (do
        let s ← ((rcs.drop (rf / 2)).take rp).foldlM step2 (List.ofFn _)
        (rcs.drop (rf / 2 + rp)).foldlM step1 s : Res (List F)) = .error e
    by_cases h2 : ∀ c ∈ (rcs.drop (rf / 2)).take rp, Q c
    · rw [fold_ok (fun c hc => ok2 c (h2 c hc))]
      exact fold_err ok1 bad1 (fun h3 => h ⟨h1, h2, h3⟩) _
    · obtain ⟨e, he⟩ := fold_err ok2 bad2 h2 _
      exact ⟨e, by rw [he]; rfl⟩
  · obtain ⟨e, he⟩ := fold_err ok1 bad1 h1 x
    exact ⟨e, by rw [he]; rfl⟩

theorem checkParams_ok {len d rf rp : Nat} {m rcs : List (List F)} (h : Common d rf rp rcs.length) (hl : len = t) :
    checkParams len t d rf rp m rcs = .ok ⟨t, d, rf / 2, rp, rf + rp, m, rcs⟩ := by
  obtain ⟨hd, he, hr, hc⟩ := h
  subst hd
  have : u32Max = 2 ^ 32 - 1 := by decide
  unfold checkParams
  rw [if_neg (by decide), if_neg (by omega), if_neg (by omega), if_neg (by omega), if_neg (by omega)]

theorem checkParams_iff {len d rf rp : Nat} {m rcs : List (List F)} {p : Params F} (h : checkParams len t d rf rp m rcs = .ok p) :
    Common d rf rp rcs.length ∧ len = t ∧ p = ⟨t, d, rf / 2, rp, rf + rp, m, rcs⟩ := by
  have : u32Max = 2 ^ 32 - 1 := by decide
  unfold checkParams at h
  by_cases h1 : (!supportedDegrees.contains d) = true
  · rw [if_pos h1] at h; exact nomatch h
  rw [if_neg h1] at h
  by_cases h2 : len ≠ t
  · rw [if_pos h2] at h; exact nomatch h
  rw [if_neg h2] at h
  by_cases h3 : rf % 2 ≠ 0
  · rw [if_pos h3] at h; exact nomatch h
  rw [if_neg h3] at h
  by_cases h4 : rf + rp > u32Max
  · rw [if_pos h4] at h; exact nomatch h
  rw [if_neg h4] at h
  by_cases h5 : rcs.length ≠ rf + rp
  · rw [if_pos h5] at h; exact nomatch h
  rw [if_neg h5] at h
  injection h with h
  refine ⟨⟨?_, by omega, by omega, by omega⟩, by omega, h.symm⟩
  simpa [supportedDegrees] using h1

theorem permutation_ok {d rf rp : Nat} {input : List F} {mds rcs : List (List F)} (h : Shape t d rf rp input mds rcs) :
    permutation ⟨t, d, rf / 2, rp, rf + rp, mds, rcs⟩ input =
      .ok (List.ofFn (poseidon d rf rp (mat t mds) (rcs.map (vec t)) (vec t input))) := by
  have hc := h.common.constants
  have he := h.common.even
  unfold permutation
  rw [if_neg (by simpa using h.state)]
  dsimp only
  rw [loops_eq _ _ (by omega) hc]
  conv_lhs => rw [← ofFn_vec h.state]
  refine folds_ok ?_ ?_ ?_ _
  · intro c hm x
    have := List.length_pos_of_mem (List.mem_of_mem_take hm)
    exact fullRound_ok _ x h.matrix (h.rows (by omega)) (h.consts c (List.mem_of_mem_take hm))
  · intro c hm x
    have h0 : 0 < rp := by
      have := List.length_pos_of_mem hm
      rw [List.length_take] at this
      omega
    exact partialRound_ok _ x (h.nonempty h0) h.matrix (h.rows (by omega)) (h.consts c (List.mem_of_mem_drop (List.mem_of_mem_take hm)))
  · intro c hm x
    have := List.length_pos_of_mem (List.mem_of_mem_drop hm)
    exact fullRound_ok _ x h.matrix (h.rows (by omega)) (h.consts c (List.mem_of_mem_drop hm))

theorem permutation_err {d rf rp : Nat} {input : List F} {mds rcs : List (List F)} (hp : Common d rf rp rcs.length)
    (hm : mds.length = t) (h : ¬ Shape t d rf rp input mds rcs) :
    ∃ e, permutation ⟨t, d, rf / 2, rp, rf + rp, mds, rcs⟩ input = .error e := by
  have hc := hp.constants
  have he := hp.even
  unfold permutation
  dsimp only
  by_cases hs : input.length = t
  swap
  · rw [if_pos hs]
    exact ⟨_, rfl⟩
  rw [if_neg (by simpa using hs), loops_eq _ _ (by omega) hc]
  conv => arg 1; ext e; rw [← ofFn_vec hs]
  refine folds_err (P := fun c => (∀ row ∈ mds, row.length = t) ∧ c.length = t)
    (Q := fun c => 0 < t ∧ (∀ row ∈ mds, row.length = t) ∧ c.length = t)
    (fun c hP x => fullRound_ok _ x hm hP.1 hP.2) (fun c hP x => fullRound_err _ x hm hP)
    (fun c hQ x => partialRound_ok _ x hQ.1 hm hQ.2.1 hQ.2.2) (fun c hQ x => partialRound_err _ x hm hQ) ?_ _
  rintro ⟨q1, q2, q3⟩
  have all : ∀ c ∈ rcs, (∀ row ∈ mds, row.length = t) ∧ c.length = t := by
    intro c hcm
    rcases parts_mem (rf := rf) (rp := rp) hcm with k | k | k
    · exact q1 c k
    · exact (q2 c k).2
    · exact q3 c k
  refine h ⟨hp, hs, hm, ?_, fun c hcm => (all c hcm).2, ?_⟩
  · intro h0
    obtain ⟨c, hcm⟩ := List.exists_mem_of_length_pos (l := rcs) (by omega)
    exact (all c hcm).1
  · intro h0
    obtain ⟨c, hcm⟩ := List.exists_mem_of_length_pos (l := (rcs.drop (rf / 2)).take rp) (by
      rw [List.length_take, List.length_drop]; omega)
    exact (q2 c hcm).1

end

end Soroban.Poseidon
