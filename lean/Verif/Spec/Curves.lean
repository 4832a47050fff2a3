import Mathlib.AlgebraicGeometry.EllipticCurve.Affine.Point
import Verif.Model.Curves
/-!
What the host functions for curves are claimed to compute: the group of points of an elliptic curve, as Mathlib has it, and its
encodings.
-/
namespace Soroban.Curves.Spec

/-- The elliptic curve `y ^ 2 = x ^ 3 + b`. -/
def W {F : Type} [Field F] (b : F) : WeierstrassCurve.Affine F := { a₁ := 0, a₂ := 0, a₃ := 0, a₄ := 0, a₆ := b }

/-- The points of the curve. Mathlib makes them a commutative group. -/
abbrev Point {F : Type} [Field F] (b : F) := (W b).Point

/-- A list of bytes. -/
def IsBytes (b : Bytes) : Prop := ∀ x ∈ b, x < 256

/-- A number in `n` bytes, most significant first. -/
def be : Nat → Nat → Bytes
  | 0, _ => []
  | n + 1, v => be n (v / 256) ++ [v % 256]

/-- An element `c0 + c1 * u` of the extension: `be(c1) || be(c0)`. -/
def be2 {p : Nat} (n : Nat) (z : Fp2 p) : Bytes := be n z.im.val ++ be n z.re.val

section
variable {F : Type} [Field F] {b : F}

/-- The encoding of points for BLS12-381: both coordinates, with three unset flag bits on top; for infinity, the second flag and
zeros. -/
def zcash (n : Nat) (e : F → Bytes) : Point b → Bytes
  | .zero => 64 :: List.replicate (2 * n - 1) 0
  | .some x y _ => e x ++ e y

/-- The encoding of points for BN254: both coordinates; for infinity, zeros. -/
def ethereum (n : Nat) (e : F → Bytes) : Point b → Bytes
  | .zero => List.replicate (2 * n) 0
  | .some x y _ => e x ++ e y

/-- A sum of multiples of points. -/
def lincomb (l : List (Point b × Nat)) [DecidableEq F] : Point b := (l.map fun t => t.2 • t.1).sum

end

end Soroban.Curves.Spec
