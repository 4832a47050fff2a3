import Verif.Lemmas.StrkeyBits
import Mathlib.Algebra.Polynomial.Monic
import Mathlib.Algebra.Polynomial.Div
import Mathlib.Algebra.CharP.Two
import Mathlib.Algebra.Polynomial.Degree.Lemmas
import Mathlib.Algebra.Field.ZMod
import Mathlib.RingTheory.Polynomial.DegreeLT
import Mathlib.Tactic.LinearCombination
import Mathlib.Tactic.ComputeDegree
/-! The checksum of `Model/Strkey.lean`: linearity, invertibility, and the polynomial it is the remainder of. -/
namespace Soroban.Strkey
open Polynomial

/-- The checksum of some bits, from a state. -/
abbrev crcL (c : Nat) (bs : List Bool) : Nat := bs.foldl crcBit c

theorem crcBit_testBit (c : Nat) (b : Bool) (i : Nat) : (crcBit c b).testBit i =
    ((decide (i < 16) && (decide (1 ≤ i) && c.testBit (i - 1))) ^^ ((c.testBit 15 ^^ b) && (0x1021 : Nat).testBit i)) := by
  unfold crcBit
  rw [Nat.testBit_xor, Nat.testBit_mod_two_pow, Nat.testBit_shiftLeft]
  cases h : c.testBit 15 <;> cases b <;> simp

theorem crcBit_lt (c : Nat) (b : Bool) : crcBit c b < 2 ^ 16 := by
  unfold crcBit
  apply Nat.xor_lt_two_pow (Nat.mod_lt _ (by decide))
  split <;> decide

theorem crcL_lt : ∀ (bs : List Bool) (c : Nat), c < 2 ^ 16 → crcL c bs < 2 ^ 16
  | [], _, h => h
  | b :: bs, c, _ => crcL_lt bs _ (crcBit_lt c b)

theorem crcBit_lin (c c' : Nat) (b b' : Bool) : crcBit (c ^^^ c') (b ^^ b') = crcBit c b ^^^ crcBit c' b' := by
  apply Nat.eq_of_testBit_eq
  intro i
  simp only [Nat.testBit_xor, crcBit_testBit]
  cases c.testBit 15 <;> cases c'.testBit 15 <;> cases b <;> cases b' <;> cases c.testBit (i - 1) <;>
    cases c'.testBit (i - 1) <;> cases decide (i < 16) <;> cases decide (1 ≤ i) <;> cases (0x1021 : Nat).testBit i <;> rfl

theorem crcL_lin : ∀ (bs bs' : List Bool) (c c' : Nat), bs.length = bs'.length →
    crcL (c ^^^ c') (List.zipWith xor bs bs') = crcL c bs ^^^ crcL c' bs'
  | [], [], _, _, _ => rfl
  | [], _ :: _, _, _, h => by simp at h
  | _ :: _, [], _, _, h => by simp at h
  | b :: bs, b' :: bs', c, c', h => by
    simp only [crcL, List.zipWith_cons_cons, List.foldl_cons]
    rw [crcBit_lin]
    exact crcL_lin bs bs' _ _ (by simpa using h)

theorem crcBit_zero : crcBit 0 false = 0 := by decide

theorem crcL_zeros (n : Nat) : crcL 0 (List.replicate n false) = 0 := by
  induction n with
  | zero => rfl
  | succ n ih => rw [List.replicate_succ]; show crcL (crcBit 0 false) _ = 0; rw [crcBit_zero]; exact ih

/-- A zero bit never makes a nonzero state zero. -/
theorem crcBit_false_zero {c : Nat} (hc : c < 2 ^ 16) (h : crcBit c false = 0) : c = 0 := by
  have h0 := crcBit_testBit c false 0
  rw [h, Nat.zero_testBit] at h0
  have h15 : c.testBit 15 = false := by
    cases hx : c.testBit 15 with
    | false => rfl
    | true => rw [hx] at h0; simp at h0
  apply Nat.eq_of_testBit_eq
  intro i
  rw [Nat.zero_testBit]
  rcases Nat.lt_trichotomy i 15 with hi | hi | hi
  · have h1 := crcBit_testBit c false (i + 1)
    rw [h, Nat.zero_testBit, h15] at h1
    simpa [show i + 1 < 16 by omega] using h1.symm
  · rw [hi, h15]
  · exact Nat.testBit_lt_two_pow (lt_of_lt_of_le hc (Nat.pow_le_pow_right (by decide) hi))

theorem crcL_zeros_zero (n : Nat) : ∀ c, c < 2 ^ 16 → crcL c (List.replicate n false) = 0 → c = 0 := by
  induction n with
  | zero => intro c _ h; exact h
  | succ n ih =>
    intro c hc h
    rw [List.replicate_succ] at h
    exact crcBit_false_zero hc (ih _ (crcBit_lt c false) h)

theorem xor_zero_eq {a b : Nat} (h : a ^^^ b = 0) : a = b := by
  apply Nat.eq_of_testBit_eq
  intro i
  have := congrArg (fun n => n.testBit i) h
  simpa [Nat.testBit_xor] using this

/-! ### Polynomials -/

/-- A bit as a coefficient. -/
noncomputable def bb (b : Bool) : (ZMod 2)[X] := if b then 1 else 0

theorem two_zero : (2 : (ZMod 2)[X]) = 0 := by
  rw [← map_ofNat C 2, show (OfNat.ofNat 2 : ZMod 2) = 0 by decide, map_zero]

theorem bb_xor (a b : Bool) : bb (a ^^ b) = bb a + bb b := by
  cases a <;> cases b <;> simp [bb]
  rw [one_add_one_eq_two, two_zero]

/-- Bits as a polynomial, most significant first. -/
noncomputable def polyB (bs : List Bool) : (ZMod 2)[X] := bs.foldl (fun p b => p * X + bb b) 0

theorem polyB_snoc (bs : List Bool) (b : Bool) : polyB (bs ++ [b]) = polyB bs * X + bb b := by simp [polyB]

theorem polyB_append (bs cs : List Bool) : polyB (bs ++ cs) = polyB bs * X ^ cs.length + polyB cs := by
  induction cs using List.reverseRecOn with
  | nil => simp [polyB]
  | append_singleton cs c ih =>
    rw [← List.append_assoc, polyB_snoc, ih, polyB_snoc, List.length_append, List.length_singleton]
    ring

theorem polyB_sum (bs : List Bool) : polyB bs =
    ∑ i ∈ Finset.range bs.length, if bs.getD i false then X ^ (bs.length - 1 - i) else 0 := by
  induction bs using List.reverseRecOn with
  | nil => simp [polyB]
  | append_singleton bs b ih =>
    rw [polyB_snoc, List.length_append, List.length_singleton, Finset.sum_range_succ, ih, Finset.sum_mul]
    congr 1
    · apply Finset.sum_congr rfl
      intro i hi
      rw [Finset.mem_range] at hi
      rw [List.getD_eq_getElem?_getD, List.getD_eq_getElem?_getD, List.getElem?_append_left hi]
      split
      · rw [← pow_succ]; congr 1; omega
      · ring
    · rw [List.getD_eq_getElem?_getD, List.getElem?_append_right (le_refl _)]
      simp [bb]

theorem poly_eq (d : List Nat) : Spec.poly d = polyB (d.flatMap (bitsOf 8)) := by
  rw [polyB_sum, flatMap_length]
  unfold Spec.poly
  apply Finset.sum_congr rfl
  intro i _
  have := getD_bits d 0 i
  rw [List.replicate_zero, List.append_nil] at this
  rw [this]

/-- The polynomial of a 16-bit state. -/
noncomputable def polyN (c : Nat) : (ZMod 2)[X] := ∑ i ∈ Finset.range 16, bb (c.testBit i) * X ^ i

theorem polyB_bitsOf (c : Nat) : polyB (bitsOf 16 c) = polyN c := by
  simp only [polyN, Finset.sum_range_succ, Finset.sum_range_zero, bitsOf, polyB, List.range_succ, List.range_zero,
    List.map_append, List.map_cons, List.map_nil, List.nil_append, List.foldl_append, List.foldl_cons, List.foldl_nil]
  ring

theorem polyN_crcBit (c : Nat) (b : Bool) : polyN c * X + bb b * X ^ 16 =
    polyN (crcBit c b) + Spec.generator * (bb (c.testBit 15) + bb b) := by
  have e : ∀ i, i < 16 → 1 ≤ i → (0x1021 : Nat).testBit i = false → (crcBit c b).testBit i = c.testBit (i - 1) := by
    intro i h1 h2 h3
    rw [crcBit_testBit, h3]; simp [h1, h2]
  have e0 : (crcBit c b).testBit 0 = (c.testBit 15 ^^ b) := by rw [crcBit_testBit]; simp
  have e5 : (crcBit c b).testBit 5 = (c.testBit 4 ^^ (c.testBit 15 ^^ b)) := by
    rw [crcBit_testBit, show (0x1021 : Nat).testBit 5 = true by decide]; simp
  have e12 : (crcBit c b).testBit 12 = (c.testBit 11 ^^ (c.testBit 15 ^^ b)) := by
    rw [crcBit_testBit, show (0x1021 : Nat).testBit 12 = true by decide]; simp
  simp only [polyN, Finset.sum_range_succ, Finset.sum_range_zero, e0, e5, e12, bb_xor, Spec.generator,
    e 1 (by decide) (by decide) (by decide), e 2 (by decide) (by decide) (by decide), e 3 (by decide) (by decide) (by decide),
    e 4 (by decide) (by decide) (by decide), e 6 (by decide) (by decide) (by decide), e 7 (by decide) (by decide) (by decide),
    e 8 (by decide) (by decide) (by decide), e 9 (by decide) (by decide) (by decide), e 10 (by decide) (by decide) (by decide),
    e 11 (by decide) (by decide) (by decide), e 13 (by decide) (by decide) (by decide), e 14 (by decide) (by decide) (by decide),
    e 15 (by decide) (by decide) (by decide), Nat.reduceSub]
  linear_combination (-(bb (c.testBit 15) + bb b) * (1 + X ^ 5 + X ^ 12)) * two_zero

theorem polyN_zero : polyN 0 = 0 := by simp [polyN, bb]

theorem polyB_crc (bs : List Bool) : ∃ q, polyB bs * X ^ 16 = Spec.generator * q + polyN (crcL 0 bs) := by
  induction bs using List.reverseRecOn with
  | nil => exact ⟨0, by simp [polyB, polyN_zero]⟩
  | append_singleton bs b ih =>
    obtain ⟨q, h⟩ := ih
    refine ⟨q * X + (bb ((crcL 0 bs).testBit 15) + bb b), ?_⟩
    have h1 := polyN_crcBit (crcL 0 bs) b
    have h2 : crcL 0 (bs ++ [b]) = crcBit (crcL 0 bs) b := by simp [crcL]
    rw [h2, polyB_snoc]
    linear_combination X * h + h1

theorem polyN_xor (c c' : Nat) : polyN (c ^^^ c') = polyN c + polyN c' := by
  unfold polyN
  rw [← Finset.sum_add_distrib]
  apply Finset.sum_congr rfl
  intro i _
  rw [Nat.testBit_xor, bb_xor]; ring

theorem polyN_degree (c : Nat) : (polyN c).degree < 16 := by
  unfold polyN
  show _ < ((16 : ℕ) : WithBot ℕ)
  rw [← Polynomial.mem_degreeLT]
  apply Submodule.sum_mem
  intro i hi
  rw [Finset.mem_range] at hi
  rw [Polynomial.mem_degreeLT]
  unfold bb
  split
  · rw [one_mul, degree_X_pow]; exact_mod_cast hi
  · rw [zero_mul, degree_zero]; exact WithBot.bot_lt_coe _

theorem polyN_eq_zero {c : Nat} (hc : c < 2 ^ 16) (h : polyN c = 0) : c = 0 := by
  apply Nat.eq_of_testBit_eq
  intro i
  rw [Nat.zero_testBit]
  by_cases hi : i < 16
  · have hcoef := congrArg (fun p => p.coeff i) h
    simp only [polyN, finsetSum_coeff, coeff_zero] at hcoef
    rw [Finset.sum_eq_single i] at hcoef
    · cases hb : c.testBit i with
      | false => rfl
      | true => rw [hb] at hcoef; simp [bb] at hcoef
    · intro j _ hj
      unfold bb
      split
      · rw [one_mul, coeff_X_pow, if_neg (Ne.symm hj)]
      · simp
    · intro hn; exact absurd (Finset.mem_range.mpr hi) hn
  · exact Nat.testBit_lt_two_pow (lt_of_lt_of_le hc (Nat.pow_le_pow_right (by decide) (Nat.le_of_not_lt hi)))

theorem generator_monic : Spec.generator.Monic := by
  unfold Spec.generator
  monicity!

theorem generator_degree : Spec.generator.degree = 16 := by
  unfold Spec.generator
  compute_degree!

theorem bits16 {hi lo : Nat} (h : lo < 256) : bitsOf 8 hi ++ bitsOf 8 lo = bitsOf 16 (2 ^ 8 * hi + lo) := by
  have e : ∀ j, (2 ^ 8 * hi + lo).testBit j = if j < 8 then lo.testBit j else hi.testBit (j - 8) :=
    fun j => Nat.testBit_two_pow_mul_add hi h j
  simp only [bitsOf, List.range_succ, e]
  simp

/-- The checksum the code computes is the only one that makes a multiple of the generator. -/
theorem isCrc_iff {d : List Nat} {hi lo : Nat} : Spec.IsCrc d hi lo ↔
    hi = crc16 d / 256 ∧ lo = crc16 d % 256 := by
  obtain ⟨q, hq⟩ := polyB_crc (d.flatMap (bitsOf 8))
  have hlt : crc16 d < 2 ^ 16 := crcL_lt _ 0 (by decide)
  have hp : ∀ hi lo, lo < 256 → Spec.poly (d ++ [hi, lo]) =
      Spec.generator * q + polyN (crc16 d) + polyN (2 ^ 8 * hi + lo) := by
    intro hi lo hlo
    rw [poly_eq, List.flatMap_append, List.flatMap_cons, List.flatMap_cons, List.flatMap_nil, List.append_nil, bits16 hlo,
      polyB_append, polyB_bitsOf, bitsOf_length, hq]
    rfl
  constructor
  · rintro ⟨h1, h2, h3⟩
    rw [hp hi lo h2, add_assoc, ← polyN_xor] at h3
    have h4 : Spec.generator ∣ polyN (crc16 d ^^^ (2 ^ 8 * hi + lo)) := (dvd_add_right (dvd_mul_right _ _)).mp h3
    have h5 := Polynomial.eq_zero_of_dvd_of_degree_lt h4 (by rw [generator_degree]; exact polyN_degree _)
    have h6 := polyN_eq_zero (Nat.xor_lt_two_pow hlt (by omega)) h5
    have h7 : crc16 d = 2 ^ 8 * hi + lo := xor_zero_eq h6
    omega
  · rintro ⟨h1, h2⟩
    refine ⟨by omega, by omega, ?_⟩
    rw [hp hi lo (by omega), add_assoc, ← polyN_xor, show 2 ^ 8 * hi + lo = crc16 d by omega, Nat.xor_self, polyN_zero, add_zero]
    exact dvd_mul_right _ _

end Soroban.Strkey
