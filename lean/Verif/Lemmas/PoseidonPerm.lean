import Mathlib.Tactic.LinearCombination
import Mathlib.LinearAlgebra.Matrix.NonsingularInverse
import Mathlib.FieldTheory.Finite.Basic
import Verif.Lemmas.CurvePrimes
import Verif.Lemmas.Poseidon2
/-!
The rounds are injective.
-/
namespace Soroban.Poseidon

open Spec Matrix
open Soroban.Curves (blsR bnR)

/-- What is used of the two orders. -/
structure Good (r : Nat) : Prop where
  prime : r.Prime
  big : 64 < r
  root : ∃ e m, 0 < e ∧ 5 * e = 1 + m * (r - 1)

theorem good_bls : Good blsR :=
  ⟨Curves.blsR_prime, by decide +kernel,
    ⟨20974350070050476191779096203274386335076221000211055129041463479975432473805, 2, by decide +kernel, by decide +kernel⟩⟩

theorem good_bn : Good bnR :=
  ⟨Curves.bnR_prime, by decide +kernel,
    ⟨17510594297471420177797124596205820070838691520332827474958563349260646796493, 4, by decide +kernel, by decide +kernel⟩⟩

section
variable {r t : Nat}

theorem small_ne (h : Good r) {n : Nat} (h0 : 0 < n) (h1 : n ≤ 64) : ((n : Nat) : ZMod r) ≠ 0 := by
  intro he
  have := (ZMod.natCast_eq_zero_iff n r).mp he
  have := Nat.le_of_dvd h0 this
  have := h.big
  omega

theorem pow5_inj (h : Good r) : Function.Injective fun x : ZMod r => x ^ 5 := by
  have : Fact r.Prime := ⟨h.prime⟩
  obtain ⟨e, m, he, hm⟩ := h.root
  have key : ∀ x : ZMod r, (x ^ 5) ^ e = x := by
    intro x
    by_cases hx : x = 0
    · subst hx
      rw [← pow_mul, zero_pow (by omega)]
    · rw [← pow_mul, hm, pow_add, pow_one, mul_comm m, pow_mul, ZMod.pow_card_sub_one_eq_one hx, one_pow, mul_one]
  intro x y hxy
  rw [← key x, ← key y]
  exact congrArg (· ^ e) hxy

theorem full_inj (h : Good r) {M : Matrix (Fin t) (Fin t) (ZMod r)} (hM : Function.Injective (M *ᵥ ·)) (c : Fin t → ZMod r) :
    Function.Injective fun x => full 5 M x c := by
  intro x y hxy
  have := hM hxy
  funext i
  exact add_right_cancel (pow5_inj h (congrFun this i))

theorem part_inj (h : Good r) {M : Matrix (Fin t) (Fin t) (ZMod r)} (hM : Function.Injective (M *ᵥ ·)) (c : Fin t → ZMod r) :
    Function.Injective fun x => part 5 M x c := by
  intro x y hxy
  have := hM hxy
  funext i
  have hi := congrFun this i
  by_cases h0 : i.val = 0
  · rw [if_pos h0, if_pos h0] at hi
    exact add_right_cancel (pow5_inj h hi)
  · rw [if_neg h0, if_neg h0] at hi
    exact add_right_cancel hi

theorem part2_inj (h : Good r) {M : Matrix (Fin t) (Fin t) (ZMod r)} (hM : Function.Injective (M *ᵥ ·)) (c : Fin t → ZMod r) :
    Function.Injective fun x => part2 5 M x c := by
  intro x y hxy
  have := hM hxy
  funext i
  have hi := congrFun this i
  by_cases h0 : i.val = 0
  · rw [if_pos h0, if_pos h0] at hi
    exact add_right_cancel (pow5_inj h hi)
  · rw [if_neg h0, if_neg h0] at hi
    exact hi

theorem foldl_inj {α β : Type} {f : α → β → α} (hf : ∀ c, Function.Injective fun x => f x c) : ∀ cs : List β,
    Function.Injective fun x => cs.foldl f x
  | [] => fun _ _ h => h
  | c :: cs => fun _ _ h => hf c (foldl_inj hf cs h)

theorem poseidon_inj (h : Good r) {M : Matrix (Fin t) (Fin t) (ZMod r)} (hM : Function.Injective (M *ᵥ ·)) (rf rp : Nat)
    (cs : List (Fin t → ZMod r)) : Function.Injective (poseidon 5 rf rp M cs) := fun _ _ hxy =>
  foldl_inj (full_inj h hM) _ (foldl_inj (part_inj h hM) _ (foldl_inj (full_inj h hM) _ hxy))

theorem poseidon2_inj (h : Good r) {E I : Matrix (Fin t) (Fin t) (ZMod r)} (hE : Function.Injective (E *ᵥ ·))
    (hI : Function.Injective (I *ᵥ ·)) (rf rp : Nat) (cs : List (Fin t → ZMod r)) : Function.Injective (poseidon2 5 rf rp E I cs) :=
  fun _ _ hxy => hE (foldl_inj (full_inj h hE) _ (foldl_inj (part2_inj h hI) _ (foldl_inj (full_inj h hE) _ hxy)))

/-! ### Matrices -/

theorem inj_of_ker {M : Matrix (Fin t) (Fin t) (ZMod r)} (h : ∀ x, M *ᵥ x = 0 → x = 0) : Function.Injective (M *ᵥ ·) := by
  intro x y hxy
  have : M *ᵥ (x - y) = 0 := by
    rw [Matrix.mulVec_sub]
    exact sub_eq_zero.mpr hxy
  exact sub_eq_zero.mp (h _ this)

theorem inj_of_det {M : Matrix (Fin t) (Fin t) (ZMod r)} (h : IsUnit M.det) : Function.Injective (M *ᵥ ·) := by
  apply inj_of_ker
  intro x hx
  have h1 : (M⁻¹ * M) *ᵥ x = 0 := by rw [← Matrix.mulVec_mulVec, hx, Matrix.mulVec_zero]
  rwa [Matrix.nonsing_inv_mul M h, Matrix.one_mulVec] at h1

/-- `M4` has no kernel. -/
theorem grp_ker (h : Good r) {s : List (ZMod r)} {q : Nat} (hz : ∀ i : Fin 4, grp i s q = 0) (l : Fin 4) : s.getD (4 * q + l) 0 = 0 := by
  have : Fact r.Prime := ⟨h.prime⟩
  have h64 : (64 : ZMod r) ≠ 0 := by exact_mod_cast small_ne h (n := 64) (by omega) (by omega)
  have h0 := hz 0
  have h1 := hz 1
  have h2 := hz 2
  have h3 := hz 3
  simp only [grp, M4, Fin.sum_univ_four] at h0 h1 h2 h3
  simp at h0 h1 h2 h3
  generalize ea : s[4 * q]?.getD 0 = a at *
  generalize eb : s[4 * q + 1]?.getD 0 = b at *
  generalize ec : s[4 * q + 2]?.getD 0 = c at *
  generalize ed : s[4 * q + 3]?.getD 0 = d at *
  have ha : (64 : ZMod r) * a = 0 := by linear_combination (-8) * h0 + 24 * h1 + (-48) * h2 + 56 * h3
  have hb : (64 : ZMod r) * b = 0 := by linear_combination 8 * h0 + (-8) * h1 + 32 * h2 + (-40) * h3
  have hc : (64 : ZMod r) * c = 0 := by linear_combination (-48) * h0 + 56 * h1 + (-8) * h2 + 24 * h3
  have hd : (64 : ZMod r) * d = 0 := by linear_combination 32 * h0 + (-40) * h1 + 8 * h2 + (-8) * h3
  have ha := (mul_eq_zero.mp ha).resolve_left h64
  have hb := (mul_eq_zero.mp hb).resolve_left h64
  have hc := (mul_eq_zero.mp hc).resolve_left h64
  have hd := (mul_eq_zero.mp hd).resolve_left h64
  fin_cases l <;> simp [ea, eb, ec, ed, ha, hb, hc, hd]

theorem external_big_inj (h : Good r) {k : Nat} (hk : 2 ≤ k) (hk' : k ≤ 6) :
    Function.Injective ((external (4 * k) : Matrix (Fin (4 * k)) (Fin (4 * k)) (ZMod r)) *ᵥ ·) := by
  have : Fact r.Prime := ⟨h.prime⟩
  apply inj_of_ker
  intro x hx
  have rows : ∀ q < k, ∀ i : Fin 4, grp i (List.ofFn x) q + ∑ q' ∈ Finset.range k, grp i (List.ofFn x) q' = 0 := by
    intro q hq i
    have h1 := congrFun hx ⟨4 * q + i, by omega⟩
    rw [external_row hk] at h1
    have e1 : mod4 (4 * q + i.val) = i := by
      apply Fin.ext; show (4 * q + i.val) % 4 = i.val; omega
    have e2 : (4 * q + i.val) / 4 = q := by omega
    dsimp only at h1
    rw [e1, e2] at h1
    have hsplit : ∀ q', (if q = q' then (2 : ZMod r) else 1) * grp i (List.ofFn x) q' =
        (if q = q' then grp i (List.ofFn x) q' else 0) + grp i (List.ofFn x) q' := by
      intro q'
      split
      · ring
      · ring
    simp only [hsplit] at h1
    rw [Finset.sum_add_distrib, Finset.sum_ite_eq, if_pos (Finset.mem_range.mpr hq)] at h1
    exact h1
  have zero : ∀ q < k, ∀ i : Fin 4, grp i (List.ofFn x) q = 0 := by
    intro q hq i
    have hsum : ∑ q ∈ Finset.range k, (grp i (List.ofFn x) q + ∑ q' ∈ Finset.range k, grp i (List.ofFn x) q') = 0 :=
      Finset.sum_eq_zero fun q hq => rows q (Finset.mem_range.mp hq) i
    rw [Finset.sum_add_distrib, Finset.sum_const, Finset.card_range, nsmul_eq_mul] at hsum
    have hk1 : ((k + 1 : Nat) : ZMod r) ≠ 0 := small_ne h (by omega) (by omega)
    have hS : ∑ q' ∈ Finset.range k, grp i (List.ofFn x) q' = 0 := by
      have : ((k + 1 : Nat) : ZMod r) * ∑ q' ∈ Finset.range k, grp i (List.ofFn x) q' = 0 := by
        push_cast
        linear_combination hsum
      exact (mul_eq_zero.mp this).resolve_left hk1
    have := rows q hq i
    rwa [hS, add_zero] at this
  funext i
  have := grp_ker h (zero (i.val / 4) (by omega)) ⟨i.val % 4, by omega⟩
  dsimp only at this
  rw [Nat.div_add_mod, getD_ofFn] at this
  exact this

theorem external_inj (h : Good r) (ht : t ∈ sizes) :
    Function.Injective ((external t : Matrix (Fin t) (Fin t) (ZMod r)) *ᵥ ·) := by
  have : Fact r.Prime := ⟨h.prime⟩
  simp only [sizes, List.mem_cons, List.not_mem_nil, or_false] at ht
  rcases ht with rfl | rfl | rfl | rfl | rfl | rfl | rfl | rfl
  · have h3 : (3 : ZMod r) ≠ 0 := by exact_mod_cast small_ne h (n := 3) (by omega) (by omega)
    apply inj_of_ker
    intro x hx
    have h0 := congrFun hx 0
    have h1 := congrFun hx 1
    simp [Matrix.mulVec, dotProduct, external, Fin.sum_univ_two] at h0 h1
    have ha : (3 : ZMod r) * x 0 = 0 := by linear_combination 2 * h0 - h1
    have hb : (3 : ZMod r) * x 1 = 0 := by linear_combination 2 * h1 - h0
    funext i
    fin_cases i
    · exact (mul_eq_zero.mp ha).resolve_left h3
    · exact (mul_eq_zero.mp hb).resolve_left h3
  · have h4 : (4 : ZMod r) ≠ 0 := by exact_mod_cast small_ne h (n := 4) (by omega) (by omega)
    apply inj_of_ker
    intro x hx
    have h0 := congrFun hx 0
    have h1 := congrFun hx 1
    have h2 := congrFun hx 2
    simp [Matrix.mulVec, dotProduct, external, Fin.sum_univ_three] at h0 h1 h2
    have ha : (4 : ZMod r) * x 0 = 0 := by linear_combination 3 * h0 - h1 - h2
    have hb : (4 : ZMod r) * x 1 = 0 := by linear_combination 3 * h1 - h0 - h2
    have hc : (4 : ZMod r) * x 2 = 0 := by linear_combination 3 * h2 - h0 - h1
    funext i
    fin_cases i
    · exact (mul_eq_zero.mp ha).resolve_left h4
    · exact (mul_eq_zero.mp hb).resolve_left h4
    · exact (mul_eq_zero.mp hc).resolve_left h4
  · apply inj_of_ker
    intro x hx
    have hz : ∀ i : Fin 4, grp i (List.ofFn x) 0 = 0 := by
      intro i
      refine Eq.trans ?_ (congrFun hx i)
      unfold grp Matrix.mulVec dotProduct external
      apply Finset.sum_congr rfl
      intro j _
      dsimp only
      rw [if_neg (show ¬ (4 < 4) by omega), if_pos rfl, mul_one]
      have e1 : (⟨i.val % 4, Nat.mod_lt _ (by decide)⟩ : Fin 4) = i := by apply Fin.ext; show i.val % 4 = i.val; omega
      have e2 : (⟨j.val % 4, Nat.mod_lt _ (by decide)⟩ : Fin 4) = j := by apply Fin.ext; show j.val % 4 = j.val; omega
      rw [e1, e2, Nat.mul_zero, Nat.zero_add, getD_ofFn]
    funext i
    have := grp_ker h hz i
    rw [Nat.mul_zero, Nat.zero_add, getD_ofFn] at this
    exact this
  · exact external_big_inj h (k := 2) (by omega) (by omega)
  · exact external_big_inj h (k := 3) (by omega) (by omega)
  · exact external_big_inj h (k := 4) (by omega) (by omega)
  · exact external_big_inj h (k := 5) (by omega) (by omega)
  · exact external_big_inj h (k := 6) (by omega) (by omega)

theorem internal_small_inj (h : Good r) (ht : t = 2 ∨ t = 3) (m : Fin t → ZMod r) :
    Function.Injective (internal t (usedDiag t m) *ᵥ ·) := by
  have : Fact r.Prime := ⟨h.prime⟩
  rcases ht with rfl | rfl
  · have h5 : (5 : ZMod r) ≠ 0 := by exact_mod_cast small_ne h (n := 5) (by omega) (by omega)
    apply inj_of_ker
    intro x hx
    have h0 := congrFun hx 0
    have h1 := congrFun hx 1
    rw [internal_row] at h0 h1
    simp [usedDiag, Fin.sum_univ_two] at h0 h1
    have ha : (5 : ZMod r) * x 0 = 0 := by linear_combination 3 * h0 - h1
    have hb : (5 : ZMod r) * x 1 = 0 := by linear_combination 2 * h1 - h0
    funext i
    fin_cases i
    · exact (mul_eq_zero.mp ha).resolve_left h5
    · exact (mul_eq_zero.mp hb).resolve_left h5
  · have h7 : (7 : ZMod r) ≠ 0 := by exact_mod_cast small_ne h (n := 7) (by omega) (by omega)
    apply inj_of_ker
    intro x hx
    have h0 := congrFun hx 0
    have h1 := congrFun hx 1
    have h2 := congrFun hx 2
    rw [internal_row] at h0 h1 h2
    simp [usedDiag, Fin.sum_univ_three] at h0 h1 h2
    have ha : (7 : ZMod r) * x 0 = 0 := by linear_combination 5 * h0 - 2 * h1 - h2
    have hb : (7 : ZMod r) * x 1 = 0 := by linear_combination 5 * h1 - 2 * h0 - h2
    have hc : (7 : ZMod r) * x 2 = 0 := by linear_combination 3 * h2 - h0 - h1
    funext i
    fin_cases i
    · exact (mul_eq_zero.mp ha).resolve_left h7
    · exact (mul_eq_zero.mp hb).resolve_left h7
    · exact (mul_eq_zero.mp hc).resolve_left h7

/-! ### Reading vectors of numbers -/

theorem scalars_iff {cells : List Cell} {l : List (ZMod r)} :
    scalars r cells = .ok l ↔ ∃ ns : List Nat, cells = ns.map some ∧ l = ns.map (Nat.cast : Nat → ZMod r) := by
  induction cells generalizing l with
  | nil =>
    constructor
    · intro h
      injection h with h
      exact ⟨[], rfl, h.symm⟩
    · rintro ⟨ns, h1, rfl⟩
      have : ns = [] := by simpa using h1.symm
      subst this
      rfl
  | cons c rest ih =>
    cases c with
    | none =>
      constructor
      · intro h; exact nomatch h
      · rintro ⟨ns, h1, _⟩
        cases ns with
        | nil => exact nomatch h1
        | cons n ns => simp at h1
    | some n =>
      unfold scalars
      rw [bind_ok]
      constructor
      · rintro ⟨l', h1, h2⟩
        obtain ⟨ns, rfl, rfl⟩ := ih.mp h1
        injection h2 with h2
        exact ⟨n :: ns, rfl, h2.symm⟩
      · rintro ⟨ns, h1, rfl⟩
        cases ns with
        | nil => exact nomatch h1
        | cons n' ns =>
          simp only [List.map_cons, List.cons.injEq, Option.some.injEq] at h1
          obtain ⟨rfl, h1⟩ := h1
          exact ⟨_, ih.mpr ⟨ns, h1, rfl⟩, rfl⟩

theorem scalarRows_iff {rows : List Row} {l : List (List (ZMod r))} :
    scalarRows r rows = .ok l ↔
      ∃ ms : List (List Nat), rows = ms.map (fun row => some (row.map some)) ∧ l = ms.map (List.map (Nat.cast : Nat → ZMod r)) := by
  induction rows generalizing l with
  | nil =>
    constructor
    · intro h
      injection h with h
      exact ⟨[], rfl, h.symm⟩
    · rintro ⟨ns, h1, rfl⟩
      have : ns = [] := by simpa using h1.symm
      subst this
      rfl
  | cons c rest ih =>
    cases c with
    | none =>
      constructor
      · intro h; exact nomatch h
      · rintro ⟨ns, h1, _⟩
        cases ns with
        | nil => exact nomatch h1
        | cons n ns => simp at h1
    | some row =>
      unfold scalarRows
      rw [bind_ok]
      constructor
      · rintro ⟨l1, h1, h2⟩
        obtain ⟨l2, h3, h4⟩ := bind_ok.mp h2
        obtain ⟨ns, rfl, rfl⟩ := scalars_iff.mp h1
        obtain ⟨ms, rfl, rfl⟩ := ih.mp h3
        injection h4 with h4
        exact ⟨ns :: ms, rfl, h4.symm⟩
      · rintro ⟨ms, h1, rfl⟩
        cases ms with
        | nil => exact nomatch h1
        | cons ns ms =>
          simp only [List.map_cons, List.cons.injEq, Option.some.injEq] at h1
          obtain ⟨rfl, h1⟩ := h1
          exact ⟨_, scalars_iff.mpr ⟨ns, rfl, rfl⟩, bind_ok.mpr ⟨_, ih.mpr ⟨ms, h1, rfl⟩, rfl⟩⟩

end

end Soroban.Poseidon
