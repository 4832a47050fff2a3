import Mathlib.GroupTheory.OrderOfElement
import Mathlib.GroupTheory.Perm.Cycle.Type
import Mathlib.FieldTheory.Finite.Basic
import Verif.Lemmas.Curves
import Verif.Lemmas.CurvePrimes
/-!
The points of BN254's first curve are a group of prime order: a computation the kernel evaluates gives a point of order `r`, at most
two points for every first coordinate leave `r` and `2 * r` for the number of points, and no point has order two.
-/
namespace Soroban.Curves

open Soroban.Curves.Spec Soroban.Primes

/-! ### Multiples of a point, on numbers -/

/-- Negation of a residue. -/
def ng (p x : Nat) : Nat := (p - 1) * x

/-- A quotient of residues, of which nothing is claimed. -/
def quo (p a b : Nat) : Nat := a * powMod 400 b (p - 2) p % p

/-- The third point on a line with the slope `l`. -/
def third (p l : Nat) (P Q : Nat × Nat) : Nat × Nat :=
  let x3 := (l * l + ng p P.1 + ng p Q.1) % p
  (x3, (l * (P.1 + ng p x3) + ng p P.2) % p)

/-- The sum of two points with different first coordinates. -/
def chord (p : Nat) (P Q : Nat × Nat) : Option (Nat × Nat) :=
  let d := (Q.1 + ng p P.1) % p
  let n := (Q.2 + ng p P.2) % p
  let l := quo p n d
  if d ≠ 0 ∧ l * d % p = n then some (third p l P Q) else none

/-- Twice a point. -/
def tangent (p : Nat) (P : Nat × Nat) : Option (Nat × Nat) :=
  let d := 2 * P.2 % p
  let n := 3 * P.1 * P.1 % p
  let l := quo p n d
  if d ≠ 0 ∧ l * d % p = n then some (third p l P P) else none

/-- Doubling and adding, the most significant bit first. -/
def ladder (p : Nat) (G : Nat × Nat) : List Bool → Option (Nat × Nat) → Option (Nat × Nat)
  | _, none => none
  | [], some P => some P
  | false :: bs, some P => ladder p G bs (tangent p P)
  | true :: bs, some P =>
    match tangent p P with
    | none => none
    | some Q => ladder p G bs (chord p Q G)

/-- The number the bits make. -/
def ofBits : List Bool → Nat → Nat
  | [], k => k
  | b :: bs, k => ofBits bs (2 * k + b.toNat)

/-- The bits of a number, the most significant first, without the leading one. -/
def bitsOf : Nat → Nat → List Bool → List Bool
  | 0, _, acc => acc
  | f + 1, n, acc => if n ≤ 1 then acc else bitsOf f (n / 2) (decide (n % 2 = 1) :: acc)

section
variable {p : Nat} [Fact p.Prime]

theorem cast_ng (x : Nat) : ((ng p x : Nat) : ZMod p) = -(x : ZMod p) := by
  have hp : 0 < p := (Fact.out : p.Prime).pos
  rw [ng, Nat.cast_mul, Nat.cast_sub hp]
  simp

theorem cast_third (l : Nat) (P Q : Nat × Nat) :
    ((third p l P Q).1 : ZMod p) = (l : ZMod p) * l - P.1 - Q.1 ∧
      ((third p l P Q).2 : ZMod p) = (l : ZMod p) * (P.1 - ((l : ZMod p) * l - P.1 - Q.1)) - P.2 := by
  have h1 : ((third p l P Q).1 : ZMod p) = (l : ZMod p) * l - P.1 - Q.1 := by
    show (((l * l + ng p P.1 + ng p Q.1) % p : Nat) : ZMod p) = _
    rw [ZMod.natCast_mod]
    push_cast
    rw [cast_ng, cast_ng]
    ring
  refine ⟨h1, ?_⟩
  show (((l * (P.1 + ng p (third p l P Q).1) + ng p P.2) % p : Nat) : ZMod p) = _
  rw [ZMod.natCast_mod]
  push_cast
  rw [cast_ng, cast_ng, h1]
  ring

theorem chord_add {P Q R : Nat × Nat} (h : chord p P Q = some R) :
    add (.xy (P.1 : ZMod p) P.2) (.xy (Q.1 : ZMod p) Q.2) = .xy (R.1 : ZMod p) R.2 := by
  unfold chord at h
  simp only [] at h
  split at h
  · rename_i hc
    obtain ⟨hd, hl⟩ := hc
    have h := Option.some.inj h
    have e1 : (((Q.1 + ng p P.1) % p : Nat) : ZMod p) = Q.1 - P.1 := by
      rw [ZMod.natCast_mod, Nat.cast_add, cast_ng]
      ring
    have e2 : (((Q.2 + ng p P.2) % p : Nat) : ZMod p) = Q.2 - P.2 := by
      rw [ZMod.natCast_mod, Nat.cast_add, cast_ng]
      ring
    have hd' : (Q.1 : ZMod p) - P.1 ≠ 0 := by
      rw [← e1]
      intro h0
      rw [ZMod.natCast_eq_zero_iff] at h0
      exact hd (Nat.eq_zero_of_dvd_of_lt h0 (Nat.mod_lt _ (Fact.out : p.Prime).pos))
    have hx : (P.1 : ZMod p) ≠ Q.1 := fun h => hd' (by rw [h, sub_self])
    have hl' := congrArg (Nat.cast : Nat → ZMod p) hl
    rw [ZMod.natCast_mod, Nat.cast_mul, e1, e2] at hl'
    have hlam : ((Q.2 : ZMod p) - P.2) / (Q.1 - P.1) = _ := (div_eq_iff hd').mpr hl'.symm
    obtain ⟨t1, t2⟩ := cast_third (p := p) (quo p ((Q.2 + ng p P.2) % p) ((Q.1 + ng p P.1) % p)) P Q
    rw [add, if_neg (fun h => hx h.1), ← h, t1, t2]
    simp only [if_neg hx, hlam]
  · cases h

theorem tangent_add {P R : Nat × Nat} (h : tangent p P = some R) :
    add (.xy (P.1 : ZMod p) P.2) (.xy (P.1 : ZMod p) P.2) = .xy (R.1 : ZMod p) R.2 := by
  unfold tangent at h
  simp only [] at h
  split at h
  · rename_i hc
    obtain ⟨hd, hl⟩ := hc
    have h := Option.some.inj h
    have e1 : ((2 * P.2 % p : Nat) : ZMod p) = 2 * P.2 := by
      rw [ZMod.natCast_mod]
      push_cast
      ring
    have e2 : ((3 * P.1 * P.1 % p : Nat) : ZMod p) = 3 * P.1 * P.1 := by
      rw [ZMod.natCast_mod]
      push_cast
      ring
    have hd' : 2 * (P.2 : ZMod p) ≠ 0 := by
      rw [← e1]
      intro h0
      rw [ZMod.natCast_eq_zero_iff] at h0
      exact hd (Nat.eq_zero_of_dvd_of_lt h0 (Nat.mod_lt _ (Fact.out : p.Prime).pos))
    have hy : (P.2 : ZMod p) ≠ -P.2 := fun h => hd' (by linear_combination h)
    have hl' := congrArg (Nat.cast : Nat → ZMod p) hl
    rw [ZMod.natCast_mod, Nat.cast_mul, e1, e2] at hl'
    have hlam : 3 * (P.1 : ZMod p) * P.1 / (2 * P.2) = _ := (div_eq_iff hd').mpr hl'.symm
    obtain ⟨t1, t2⟩ := cast_third (p := p) (quo p (3 * P.1 * P.1 % p) (2 * P.2 % p)) P P
    rw [add, if_neg (fun h => hy h.2), ← h, t1, t2]
    simp only [if_true, hlam]
  · cases h

theorem ladder_mul {b : ZMod p} {G : Nat × Nat} {g : Point b} (hg : toAff g = .xy (G.1 : ZMod p) G.2) :
    ∀ (bs : List Bool) (k : Nat) (P R : Nat × Nat), toAff (k • g) = .xy (P.1 : ZMod p) P.2 →
      ladder p G bs (some P) = some R → toAff (ofBits bs k • g) = .xy (R.1 : ZMod p) R.2 := by
  intro bs
  induction bs with
  | nil =>
    intro k P R hk h
    rw [ladder] at h
    rw [← Option.some.inj h]
    exact hk
  | cons c bs ih =>
    intro k P R hk h
    have two : ∀ Q, tangent p P = some Q → toAff ((2 * k) • g) = .xy (Q.1 : ZMod p) Q.2 := by
      intro Q hq
      rw [two_mul, add_nsmul, ← add_eq, hk]
      exact tangent_add hq
    cases c with
    | false =>
      rw [ladder] at h
      cases hq : tangent p P with
      | none =>
        rw [hq] at h
        cases bs <;> exact nomatch h
      | some Q =>
        rw [hq] at h
        exact ih (2 * k + 0) Q R (two Q hq) h
    | true =>
      rw [ladder] at h
      cases hq : tangent p P with
      | none =>
        rw [hq] at h
        exact nomatch h
      | some Q =>
        rw [hq] at h
        dsimp only at h
        cases hs : chord p Q G with
        | none =>
          rw [hs] at h
          cases bs <;> exact nomatch h
        | some S =>
          rw [hs] at h
          refine ih (2 * k + 1) S R ?_ h
          rw [succ_nsmul, ← add_eq, two Q hq, hg]
          exact chord_add hs

end

/-! ### The order of BN254's first curve -/

theorem bn_six : (6 : ZMod bnP) ≠ 0 := by
  intro h
  have h : ((6 : Nat) : ZMod bnP) = 0 := by exact_mod_cast h
  rw [ZMod.natCast_eq_zero_iff] at h
  exact absurd h (by decide +kernel)

theorem bn_b : (3 : ZMod bnP) ≠ 0 := by
  intro h
  exact bn_six (by linear_combination 2 * h)

/-- The generator of BN254's first curve. -/
def bnGen : Point (3 : ZMod bnP) := .some 1 2 ((W_nonsingular bn_six bn_b).mpr (by norm_num))

theorem bn_ladder : ladder bnP (1, 2) (bitsOf 400 (bnR - 1) []) (some (1, 2)) = some (1, bnP - 2) := by decide +kernel

theorem bn_bitsOf : ofBits (bitsOf 400 (bnR - 1) []) 1 = bnR - 1 := by decide +kernel

theorem bnGen_order : bnR • bnGen = 0 := by
  have hg : toAff bnGen = .xy ((1 : Nat) : ZMod bnP) ((2 : Nat) : ZMod bnP) := by
    show Aff.xy (1 : ZMod bnP) 2 = _
    push_cast
    rfl
  have h := ladder_mul (p := bnP) (G := (1, 2)) hg (bitsOf 400 (bnR - 1) []) 1 (1, 2) _ (by rw [one_nsmul]; exact hg) bn_ladder
  rw [bn_bitsOf] at h
  have hr : bnR = (bnR - 1) + 1 := by decide +kernel
  apply toAff_inj
  rw [hr, succ_nsmul, ← add_eq, h, hg, add, if_pos]
  · rfl
  · refine ⟨rfl, ?_⟩
    rw [Nat.cast_sub (by decide +kernel)]
    simp

/-- At most two points for every first coordinate, and infinity. -/
def half {b : ZMod bnP} : Point b → Option (ZMod bnP × Bool)
  | .zero => none
  | .some x y _ => some (x, decide (2 * y.val < bnP))

theorem half_inj {b : ZMod bnP} : Function.Injective (half (b := b)) := by
  intro P Q h
  cases P with
  | zero =>
    cases Q with
    | zero => rfl
    | some x y hq => exact nomatch h
  | some x y hp =>
    cases Q with
    | zero => exact nomatch h
    | some x' y' hq =>
      have h : (some (x, decide (2 * y.val < bnP)) : Option (ZMod bnP × Bool)) = some (x', decide (2 * y'.val < bnP)) := h
      have h := Option.some.inj h
      obtain ⟨h1, h2⟩ := Prod.mk.inj h
      subst h1
      have e1 := W_equation.mp hp.1
      have e2 := W_equation.mp hq.1
      have hm : (y - y') * (y + y') = 0 := by linear_combination e1 - e2
      rcases mul_eq_zero.mp hm with h0 | h0
      · have : y = y' := sub_eq_zero.mp h0
        subst this
        rfl
      · have hy' : y' = -y := by linear_combination h0
        by_cases hy : y = 0
        · subst hy
          rw [neg_zero] at hy'
          subst hy'
          rfl
        · exfalso
          have hv : y'.val = bnP - y.val := by
            rw [hy', ZMod.neg_val, if_neg hy]
          have hlt := y.val_lt
          have h2 : (2 * y.val < bnP) ↔ (2 * y'.val < bnP) := decide_eq_decide.mp h2
          have hodd : bnP % 2 = 1 := by decide +kernel
          rw [hv] at h2
          generalize y.val = v at h2 hlt
          revert h2 hlt hodd
          generalize bnP = n
          intro hlt h2 hodd
          omega

instance : Finite (Point (3 : ZMod bnP)) := Finite.of_injective half half_inj

theorem bn_card_le : Nat.card (Point (3 : ZMod bnP)) ≤ 2 * bnP + 1 := by
  have h := Nat.card_le_card_of_injective half (half_inj (b := (3 : ZMod bnP)))
  refine h.trans (le_of_eq ?_)
  rw [Nat.card_eq_fintype_card, Fintype.card_option, Fintype.card_prod, ZMod.card, Fintype.card_bool, Nat.mul_comm]

theorem bn_no_cube : ∀ x : ZMod bnP, x * x * x + 3 ≠ 0 := by
  intro x h
  have hx : x ^ 3 = -3 := by linear_combination h
  have hx0 : x ≠ 0 := by
    rintro rfl
    exact bn_b (by linear_combination h)
  have h1 : x ^ (bnP - 1) = 1 := ZMod.pow_card_sub_one_eq_one hx0
  have h3 : bnP - 1 = 3 * ((bnP - 1) / 3) := by decide +kernel
  rw [h3, pow_mul, hx] at h1
  have h4 : ((bnP - 3 : Nat) : ZMod bnP) = -3 := by
    rw [Nat.cast_sub (by decide +kernel)]
    simp
  have h1 : (((bnP - 3) ^ ((bnP - 1) / 3) : Nat) : ZMod bnP) = ((1 : Nat) : ZMod bnP) := by
    rw [Nat.cast_pow, h4, h1, Nat.cast_one]
  rw [ZMod.natCast_eq_natCast_iff'] at h1
  rw [← powMod_eq 400 (by decide +kernel)] at h1
  exact absurd h1 (by decide +kernel)

theorem bn_no_two (P : Point (3 : ZMod bnP)) (h : 2 • P = 0) : P = 0 := by
  cases P with
  | zero => rfl
  | some x y hp =>
    exfalso
    have hneg := eq_neg_of_add_eq_zero_left ((two_nsmul _).symm.trans h)
    rw [WeierstrassCurve.Affine.Point.neg_some] at hneg
    injection hneg with _ hy
    simp only [WeierstrassCurve.Affine.negY, W] at hy
    have h2 : (2 : ZMod bnP) * y = 0 := by linear_combination hy
    have hy0 : y = 0 := by
      rcases mul_eq_zero.mp h2 with h2 | h2
      · exact absurd (by linear_combination 3 * h2) bn_six
      · exact h2
    have e := W_equation.mp hp.1
    rw [hy0] at e
    exact bn_no_cube x (by linear_combination -e)

theorem bn_card : Nat.card (Point (3 : ZMod bnP)) = bnR := by
  have hord : addOrderOf bnGen = bnR := by
    refine addOrderOf_eq_prime bnGen_order ?_
    intro h
    cases h
  have hdvd : bnR ∣ Nat.card (Point (3 : ZMod bnP)) := hord ▸ addOrderOf_dvd_natCard bnGen
  obtain ⟨k, hk⟩ := hdvd
  have hle := bn_card_le
  have hpos : 0 < Nat.card (Point (3 : ZMod bnP)) := Nat.card_pos
  have hodd : ¬ 2 ∣ Nat.card (Point (3 : ZMod bnP)) := by
    intro h2
    have : Fact (Nat.Prime 2) := ⟨Nat.prime_two⟩
    obtain ⟨P, hP⟩ := exists_prime_addOrderOf_dvd_card' 2 h2
    have h0 := bn_no_two P ((congrArg (· • P) hP).symm.trans (addOrderOf_nsmul_eq_zero P))
    rw [h0, addOrderOf_zero] at hP
    cases hP
  have hb : 2 * bnP + 1 < 3 * bnR := by decide +kernel
  rw [hk] at hle hpos hodd ⊢
  have hk3 : k < 3 := by
    by_contra hc
    have : bnR * 3 ≤ bnR * k := Nat.mul_le_mul_left _ (by omega)
    revert this hle hb
    generalize bnR * k = a
    generalize bnR = r
    generalize bnP = p
    omega
  have hk0 : k ≠ 0 := by
    rintro rfl
    simp at hpos
  have hk2 : k ≠ 2 := by
    rintro rfl
    exact hodd (Dvd.intro_left _ rfl)
  have : k = 1 := by omega
  rw [this, mul_one]

/-- Every point of BN254's first curve is in the subgroup. -/
theorem bn_order (P : Point (3 : ZMod bnP)) : bnR • P = 0 := by
  rw [← bn_card]
  exact card_nsmul_eq_zero'

end Soroban.Curves
