import Verif.Model.Arith
import Mathlib.Tactic.Linarith
import Mathlib.Tactic.Ring
/-! Helper lemmas about the machine arithmetic of `Verif.Model.Arith`. -/
namespace Soroban

theorem satI64_range (x : Int) : i64Min ≤ satI64 x ∧ satI64 x ≤ i64Max := by
  unfold satI64 i64Min i64Max; split <;> (try split) <;> omega

theorem satI64_mono {x y : Int} (h : x ≤ y) : satI64 x ≤ satI64 y := by
  unfold satI64 i64Min i64Max; (repeat' split) <;> omega

theorem satI64_nonneg {x : Int} (h : 0 ≤ x) : 0 ≤ satI64 x := by
  unfold satI64 i64Min i64Max; (repeat' split) <;> omega

theorem satI64_eq {x : Int} (h0 : i64Min ≤ x) (h : x ≤ i64Max) : satI64 x = x := by
  unfold satI64 i64Min i64Max at *; (repeat' split) <;> omega

theorem satI64_le {x : Int} (h0 : i64Min ≤ x) : satI64 x ≤ x := by
  unfold satI64 i64Min i64Max at *; (repeat' split) <;> omega

theorem satI64_eq_min {x : Int} (h0 : 0 ≤ x) : satI64 x = min x i64Max := by
  unfold satI64 i64Min i64Max at *; (repeat' split) <;> omega

theorem satI128_mono {x y : Int} (h : x ≤ y) : satI128 x ≤ satI128 y := by
  unfold satI128 i128Min i128Max; (repeat' split) <;> omega

theorem satI128_nonneg {x : Int} (h : 0 ≤ x) : 0 ≤ satI128 x := by
  unfold satI128 i128Min i128Max; (repeat' split) <;> omega

theorem satI128_le {x : Int} (h0 : i128Min ≤ x) : satI128 x ≤ x := by
  unfold satI128 i128Min i128Max at *; (repeat' split) <;> omega

theorem satI128_eq {x : Int} (h0 : i128Min ≤ x) (h : x ≤ i128Max) : satI128 x = x := by
  unfold satI128 i128Min i128Max at *; (repeat' split) <;> omega

theorem satAddU32_mono {a b a' b' : Nat} (h : a ≤ a') (h' : b ≤ b') : satAddU32 a b ≤ satAddU32 a' b' := by
  unfold satAddU32 u32Max; (repeat' split) <;> omega

theorem satAddU32_eq {a b : Nat} (h : a + b ≤ u32Max) : satAddU32 a b = a + b := by
  unfold satAddU32; split <;> omega

/-- The ceiling bounds, in multiplicative form. -/
theorem divCeil_bounds (a : Int) {b : Int} (hb : 0 < b) :
    a ≤ divCeil a b * b ∧ divCeil a b * b < a + b := by
  unfold divCeil
  have h1 := Int.emod_add_mul_ediv a b
  have h2 := Int.emod_nonneg a (by omega : b ≠ 0)
  have h3 := Int.emod_lt_of_pos a hb
  rw [Int.mul_comm] at h1
  split
  · omega
  · rw [Int.add_mul]; omega

theorem divCeil_eq (a : Int) {b : Int} (hb : 0 < b) : divCeil a b = (a + b - 1) / b := by
  have ⟨h1, h2⟩ := divCeil_bounds a hb
  symm
  rw [Int.ediv_eq_iff_of_pos hb]
  constructor <;> omega

theorem divCeil_least {a b q : Int} (hb : 0 < b) (h : a ≤ q * b) : divCeil a b ≤ q := by
  have h2 := (divCeil_bounds a hb).2
  have h3 : divCeil a b * b < (q + 1) * b := by rw [Int.add_mul]; omega
  have := Int.lt_of_mul_lt_mul_right h3 (by omega)
  omega

theorem divCeil_mono {a a' b : Int} (hb : 0 < b) (h : a ≤ a') : divCeil a b ≤ divCeil a' b :=
  divCeil_least hb (le_trans h (divCeil_bounds a' hb).1)

theorem divCeil_nonneg {a b : Int} (hb : 0 < b) (h : 0 ≤ a) : 0 ≤ divCeil a b := by
  have := (divCeil_bounds a hb).1
  by_contra hc
  have : divCeil a b * b < 0 := by nlinarith
  omega

theorem divCeil_le_self {a b : Int} (hb : 0 < b) (h : 0 ≤ a) : divCeil a b ≤ a :=
  divCeil_least hb (by nlinarith)

theorem divCeil_add_le {a b d : Int} (hd : 0 < d) : divCeil (a + b) d ≤ divCeil a d + divCeil b d := by
  apply divCeil_least hd
  have h1 := (divCeil_bounds a hd).1
  have h2 := (divCeil_bounds b hd).1
  rw [Int.add_mul]; omega

theorem divCeil_add_ge {a b d : Int} (hd : 0 < d) : divCeil a d + divCeil b d ≤ divCeil (a + b) d + 1 := by
  have h1 := (divCeil_bounds a hd).2
  have h2 := (divCeil_bounds b hd).2
  have h3 := (divCeil_bounds (a + b) hd).1
  have : (divCeil a d + divCeil b d) * d < (divCeil (a + b) d + 2) * d := by rw [Int.add_mul, Int.add_mul]; omega
  have := Int.lt_of_mul_lt_mul_right this (by omega)
  omega

theorem divCeil_zero {d : Int} : divCeil 0 d = 0 := by simp [divCeil]

end Soroban
