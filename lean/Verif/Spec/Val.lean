import Verif.Model.Val
/-!
Specification side of C01-C03: the documented small ranges, the documented word layout, the symbol alphabet.
-/
namespace Soroban.Spec

/-- The integers of each type. -/
def inType : IntTy → Int → Prop
  | .u32, i => 0 ≤ i ∧ i < 2^32
  | .i32, i => -2^31 ≤ i ∧ i < 2^31
  | .u64, i | .timepoint, i | .duration, i => 0 ≤ i ∧ i < 2^64
  | .i64, i => -2^63 ≤ i ∧ i < 2^63
  | .u128, i => 0 ≤ i ∧ i < 2^128
  | .i128, i => -2^127 ≤ i ∧ i < 2^127
  | .u256, i => 0 ≤ i ∧ i < 2^256
  | .i256, i => -2^255 ≤ i ∧ i < 2^255

/-- The documented small range: 32-bit integers always fit, wider ones have 56 bits. -/
def inSmallRange : IntTy → Int → Prop
  | .u32, _ | .i32, _ => True
  | .u64, i | .timepoint, i | .duration, i | .u128, i | .u256, i => i < 2^56
  | .i64, i | .i128, i | .i256, i => -2^55 ≤ i ∧ i < 2^55

/-- The documented layout of a word: tag in the low 8 bits, then a 24-bit minor and a 32-bit major (or a 56-bit body).
The numbers are the published tag codes. -/
inductive Layout : Nat → Prop
  | false_ : Layout 0
  | true_ : Layout 1
  | void : Layout 2
  /-- a contract error has type 0 and any 32-bit code -/
  | contractError (code : Nat) : code < 2^32 → Layout (code * 2^32 + 0 * 2^8 + 3)
  /-- the other nine error types have one of ten codes -/
  | systemError (type code : Nat) : 1 ≤ type → type ≤ 9 → code ≤ 9 → Layout (code * 2^32 + type * 2^8 + 3)
  /-- `u32` and `i32` fill the upper half -/
  | int32 (tag n : Nat) : tag = 4 ∨ tag = 5 → n < 2^32 → Layout (n * 2^32 + tag)
  /-- the eight inline 56-bit integers -/
  | smallInt (tag n : Nat) : 6 ≤ tag → tag ≤ 13 → n < 2^56 → Layout (n * 2^8 + tag)
  /-- symbols of nine 6-bit codes -/
  | symbol (n : Nat) : n < 2^54 → Layout (n * 2^8 + 14)
  /-- the sixteen object types carry a 32-bit handle -/
  | object (tag h : Nat) : 64 ≤ tag → tag ≤ 79 → h < 2^32 → Layout (h * 2^32 + tag)

/-- The symbol alphabet `[a-zA-Z0-9_]`, as ASCII codes. -/
def isSymbolChar (b : Nat) : Prop :=
  (97 ≤ b ∧ b ≤ 122) ∨ (65 ≤ b ∧ b ≤ 90) ∨ (48 ≤ b ∧ b ≤ 57) ∨ b = 95

end Soroban.Spec
