import Verif.Spec.Int
import Verif.Lemmas.Val
import Verif.Lemmas.Objects
import Verif.Lemmas.Compare
/-! Arithmetic behind C56. -/
namespace Soroban
open Soroban.Spec

theorem fits_iff (s : Bool) (r : Int) : fits s r = true ↔ InWide s r := by
  unfold fits InWide
  cases s <;> simp

theorem ifFits_some {s : Bool} {x r : Int} : ifFits s x = some r ↔ x = r ∧ InWide s x := by
  unfold ifFits
  by_cases h : fits s x = true
  · rw [if_pos h]
    rw [fits_iff] at h
    simp [h]
  · rw [if_neg h]
    rw [fits_iff] at h
    simp [h]

theorem ediv_emod_of {a b q r : Int} (h : a = b * q + r) (h0 : 0 ≤ r) (h1 : r < b.natAbs) : a / b = q ∧ a % b = r := by
  by_cases hb : 0 < b
  · exact (Int.ediv_emod_unique hb).2 ⟨by omega, h0, by omega⟩
  · exact (Int.ediv_emod_unique' (by omega)).2 ⟨by omega, h0, by omega⟩

theorem tdiv_of {a b q r : Int} (h : a = b * q + r) (h1 : r.natAbs < b.natAbs) (hp : 0 ≤ a → 0 ≤ r) (hn : a ≤ 0 → r ≤ 0) :
    a.tdiv b = q := by
  by_cases ha : 0 ≤ a
  · rw [Int.tdiv_eq_ediv_of_nonneg ha]
    exact (ediv_emod_of h (hp ha) (by have := hp ha; omega)).1
  · have hr := hn (by omega)
    have := (ediv_emod_of (a := -a) (b := b) (q := -q) (r := -r) (by rw [Int.mul_neg]; omega) (by omega) (by omega)).1
    have e : (-a).tdiv b = -q := by rw [Int.tdiv_eq_ediv_of_nonneg (by omega)]; exact this
    rw [Int.neg_tdiv] at e
    omega

theorem tdiv_fits {s : Bool} {a b : Int} (ha : InWide s a) (hb : InWide s b) (h0 : b ≠ 0) :
    InWide s (a.tdiv b) ↔ ¬ (a = -2^255 ∧ b = -1) := by
  have hab : (a.tdiv b).natAbs = a.natAbs / b.natAbs := Int.natAbs_tdiv a b
  unfold InWide at *
  cases s with
  | false =>
    simp only [Bool.false_eq_true, if_false] at *
    have h1 : 0 ≤ a.tdiv b := Int.tdiv_nonneg ha.1 hb.1
    have h2 : a.natAbs / b.natAbs ≤ a.natAbs := Nat.div_le_self _ _
    constructor
    · intro _; omega
    · intro _; omega
  | true =>
    simp only [if_true] at *
    by_cases h1 : b = 1
    · subst h1; rw [Int.tdiv_one]; omega
    · by_cases h2 : b = -1
      · subst h2; rw [Int.tdiv_neg, Int.tdiv_one]; omega
      · have h3 : a.natAbs / b.natAbs ≤ a.natAbs / 2 := Nat.div_le_div_left (by omega) (by omega)
        constructor
        · intro _; omega
        · intro _; omega

theorem wrap_in (s : Bool) (x : Int) : InWide s (wrap s x) := by
  unfold wrap InWide
  cases s with
  | false => simp only [Bool.false_and, Bool.false_eq_true, if_false]; omega
  | true =>
    simp only [Bool.true_and, decide_eq_true_eq, if_true]
    split <;> omega

theorem wrap_dvd (s : Bool) (x : Int) : (2:Int)^256 ∣ x - wrap s x := by
  unfold wrap
  dsimp only
  split <;> omega

theorem wide_unique {s : Bool} {x r r' : Int} (h : InWide s r) (h' : InWide s r') (d : (2:Int)^256 ∣ x - r) (d' : (2:Int)^256 ∣ x - r') :
    r = r' := by
  unfold InWide at *
  cases s <;> simp only [Bool.false_eq_true, if_false, if_true] at h h' <;> omega

theorem wrap_unique {s : Bool} {x r : Int} (h : InWide s r) (d : (2:Int)^256 ∣ x - r) : wrap s x = r :=
  wide_unique (wrap_in s x) h (wrap_dvd s x) d

theorem two_pow_pos (n : Nat) : (0:Int) < 2 ^ n := Int.pow_pos (by decide)

theorem shr_iff {a r : Int} {n : Nat} : a / 2 ^ n = r ↔ r * 2^n ≤ a ∧ a < (r + 1) * 2^n := by
  rw [← Int.le_ediv_iff_mul_le (two_pow_pos n), ← Int.ediv_lt_iff_lt_mul (two_pow_pos n)]
  omega

/-- The right operand of powers and shifts is not negative, of the others it is in range. -/
def RhsIn (s : Bool) (op : AOp) (b : Int) : Prop := if op = .pow ∨ op = .shl ∨ op = .shr then 0 ≤ b else InWide s b

theorem checkedOp_iff {s : Bool} {op : AOp} {a b r : Int} (ha : InWide s a) (hb : RhsIn s op b) :
    checkedOp s op a b = some r ↔ Means s op a b r := by
  unfold RhsIn at hb
  cases op <;> simp only [reduceCtorEq, or_self, or_false, or_true, if_true, if_false] at hb <;> simp only [checkedOp]
  case add =>
    rw [ifFits_some]
    constructor
    · rintro ⟨rfl, h⟩; exact .add h
    · intro h; cases h; exact ⟨rfl, by assumption⟩
  case sub =>
    rw [ifFits_some]
    constructor
    · rintro ⟨rfl, h⟩; exact .sub h
    · intro h; cases h; exact ⟨rfl, by assumption⟩
  case mul =>
    rw [ifFits_some]
    constructor
    · rintro ⟨rfl, h⟩; exact .mul h
    · intro h; cases h; exact ⟨rfl, by assumption⟩
  case div =>
    by_cases h0 : b = 0
    · rw [if_pos h0]
      constructor
      · intro h; cases h
      · intro h; cases h; omega
    · rw [if_neg h0, ifFits_some]
      constructor
      · rintro ⟨rfl, h⟩
        refine .div (r := a.tmod b) (Int.mul_tdiv_add_tmod a b).symm ?_ ?_ ?_ h
        · rw [Int.natAbs_tmod]; exact Nat.mod_lt _ (by omega)
        · exact fun h => Int.tmod_nonneg b h
        · intro h
          have := Int.tmod_nonneg (a := -a) b (by omega)
          rw [Int.neg_tmod] at this
          omega
      · intro h
        cases h with
        | div h1 h2 h3 h4 h5 =>
          have := tdiv_of h1 h2 h3 h4
          exact ⟨this, by rw [this]; exact h5⟩
  case remEuclid =>
    by_cases h0 : b = 0
    · rw [if_pos (by simp [h0])]
      constructor
      · intro h; cases h
      · intro h; cases h; omega
    · have hf := tdiv_fits ha hb h0
      by_cases hc : a = -2^255 ∧ b = -1
      · rw [if_pos (by
          have h1 : ¬ fits s (a.tdiv b) = true := by rw [fits_iff, hf]; exact fun h => h hc
          simp only [Bool.not_eq_true] at h1
          rw [h1]; simp)]
        constructor
        · intro h; cases h
        · intro h
          cases h with
          | rem _ _ _ h4 => exact absurd hc h4
      · rw [if_neg (by
          have h1 : fits s (a.tdiv b) = true := by rw [fits_iff, hf]; exact hc
          rw [h1]; simp [h0])]
        constructor
        · intro h
          obtain rfl := Option.some.inj h
          refine .rem (q := a / b) ?_ (Int.emod_nonneg _ h0) (by have := Int.emod_lt a h0; omega) hc
          have := Int.mul_ediv_add_emod a b
          omega
        · intro h
          cases h with
          | rem h1 h2 h3 _ => rw [(ediv_emod_of h1 h2 h3).2]
  case pow =>
    obtain ⟨n, rfl⟩ := Int.eq_ofNat_of_zero_le hb
    rw [ifFits_some]
    constructor
    · rintro ⟨rfl, h⟩; exact .pow h
    · intro h
      generalize hm : (n : Int) = m at h
      cases h
      rw [← hm]
      rename_i k h
      have : n = k := by omega
      subst this
      exact ⟨rfl, h⟩
  case shl =>
    obtain ⟨n, rfl⟩ := Int.eq_ofNat_of_zero_le hb
    by_cases hn : n < 256
    · rw [if_pos (by omega), Option.some.injEq]
      constructor
      · rintro rfl
        exact .shl hn (wrap_in _ _) (wrap_dvd _ _)
      · intro h
        generalize hm : (n : Int) = m at h
        cases h
        rename_i k h1 h2 h3
        have : n = k := by omega
        subst this
        exact wrap_unique h2 h3
    · rw [if_neg (by omega)]
      constructor
      · intro h; cases h
      · intro h
        generalize hm : (n : Int) = m at h
        cases h
        omega
  case shr =>
    obtain ⟨n, rfl⟩ := Int.eq_ofNat_of_zero_le hb
    by_cases hn : n < 256
    · rw [if_pos (by omega), Option.some.injEq]
      constructor
      · intro h
        obtain ⟨h1, h2⟩ := shr_iff.1 h
        exact .shr hn h1 h2
      · intro h
        generalize hm : (n : Int) = m at h
        cases h
        rename_i k h1 h2 h3
        have : n = k := by omega
        subst this
        exact shr_iff.2 ⟨h2, h3⟩
    · rw [if_neg (by omega)]
      constructor
      · intro h; cases h
      · intro h
        generalize hm : (n : Int) = m at h
        cases h
        omega

theorem means_in {s : Bool} {op : AOp} {a b r : Int} (ha : InWide s a) (hb : RhsIn s op b) (h : Means s op a b r) : InWide s r := by
  cases h with
  | add h => exact h
  | sub h => exact h
  | mul h => exact h
  | div _ _ _ _ h => exact h
  | rem h1 h2 h3 _ =>
    unfold RhsIn InWide at *
    cases s <;> simp only [reduceCtorEq, or_self, Bool.false_eq_true, if_true, if_false] at * <;> omega
  | pow h => exact h
  | shl _ h _ => exact h
  | @shr _ _ n h1 h2 h3 =>
    have hp : (1:Int) ≤ 2 ^ n := two_pow_pos n
    have e : r = a / 2 ^ n := (shr_iff.2 ⟨h2, h3⟩).symm
    have h4 : (a / 2 ^ n).natAbs ≤ a.natAbs := Int.natAbs_ediv_le_natAbs _ _
    unfold InWide at *
    cases s with
    | false =>
      simp only [Bool.false_eq_true, if_false] at *
      have : 0 ≤ a / 2 ^ n := Int.ediv_nonneg ha.1 (by omega)
      omega
    | true =>
      simp only [if_true] at *
      refine ⟨by omega, ?_⟩
      by_cases h0 : 0 ≤ a
      · omega
      · have : a / 2 ^ n < 0 := Int.ediv_neg_of_neg_of_pos (by omega) (by omega)
        omega

end Soroban
