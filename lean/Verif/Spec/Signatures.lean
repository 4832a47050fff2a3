import Mathlib.Algebra.Module.Defs
import Verif.Spec.Curves
import Verif.Model.Signatures
/-!
Signatures as byte strings, and the equation of ECDSA over a group.
-/
namespace Soroban.Signatures.Spec

open Soroban.Curves.Spec (be)

/-- The bytes of an ECDSA signature. -/
def enc (r s : Nat) : List Nat := be 32 r ++ be 32 s

/-- The numbers of a signature that is accepted: in range, with the smaller of `s` and `n - s`. -/
def Low (n r s : Nat) : Prop := 0 < r ∧ r < n ∧ 0 < s ∧ s < n - s

/-- A group of order `n` with a generator and coordinates: only the neutral point has none, and a coordinate belongs to a point and its
opposite. -/
structure Curve (n : Nat) (P : Type) [AddCommGroup P] [Module (ZMod n) P] where
  gen : P
  x : P → Option Nat
  x_zero : x 0 = none
  same_x : ∀ p q a, x p = some a → x q = some a → q = p ∨ q = -p

/-- The point whose coordinate is compared with `r`. -/
def noncePoint {n : Nat} {P : Type} [AddCommGroup P] [Module (ZMod n) P] (E : Curve n P) (key : P) (z : ZMod n) (r s : Nat) : P :=
  (s : ZMod n)⁻¹ • (z • E.gen + (r : ZMod n) • key)

/-- The equation of ECDSA. -/
def Verifies {n : Nat} {P : Type} [AddCommGroup P] [Module (ZMod n) P] (E : Curve n P) (key : P) (z : ZMod n) (r s : Nat) : Prop :=
  ∃ a, E.x (noncePoint E key z r s) = some a ∧ a % n = r

end Soroban.Signatures.Spec
