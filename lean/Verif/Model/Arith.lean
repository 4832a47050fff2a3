/-!
Machine arithmetic used by the Rust code, on mathematical integers.

Rust's `saturating_*`, `checked_*` and `num_integer::div_ceil` are modelled by exact integer arithmetic followed by
clamping or a range test. Values of type `u32`/`u64` are `Nat`, values of type `i64`/`i128` are `Int`; the type's range is
a hypothesis where it matters.
-/
namespace Soroban

def u32Max : Nat := 4294967295
def u64Max : Nat := 18446744073709551615
def i64Max : Int := 9223372036854775807
def i64Min : Int := -9223372036854775808
def i128Max : Int := 170141183460469231731687303715884105727
def i128Min : Int := -170141183460469231731687303715884105728

/-- Clamp to the range of `i64`: the last step of every `i64::saturating_*`. -/
def satI64 (x : Int) : Int := if x < i64Min then i64Min else if i64Max < x then i64Max else x

/-- Clamp to the range of `i128`: the last step of every `i128::saturating_*`. -/
def satI128 (x : Int) : Int := if x < i128Min then i128Min else if i128Max < x then i128Max else x

/-- `u32::saturating_add`. -/
def satAddU32 (a b : Nat) : Nat := if u32Max < a + b then u32Max else a + b

/-- `u64::saturating_add`. -/
def satAddU64 (a b : Nat) : Nat := if u64Max < a + b then u64Max else a + b

/-- `u64::saturating_mul`. -/
def satMulU64 (a b : Nat) : Nat := if u64Max < a * b then u64Max else a * b

/-- `u32::checked_add`. -/
def checkedAddU32 (a b : Nat) : Option Nat := if a + b ≤ u32Max then some (a + b) else none

/-- `uN::checked_sub`. -/
def checkedSub (a b : Nat) : Option Nat := if b ≤ a then some (a - b) else none

/-- `num_integer::div_ceil` for a positive divisor (all call sites use `.max(1)` or a positive constant): floor division,
plus one when the remainder is nonzero. -/
def divCeil (a b : Int) : Int := if a % b = 0 then a / b else a / b + 1

end Soroban
