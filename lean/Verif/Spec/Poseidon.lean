import Mathlib.LinearAlgebra.Matrix.Notation
import Verif.Model.Poseidon
/-!
The permutations as their papers define them, with matrices.
-/
namespace Soroban.Poseidon.Spec

open Matrix

section
variable {F : Type} [CommRing F] {t : Nat}

/-- The vector with the first `t` elements of a list. -/
def vec (t : Nat) (l : List F) : Fin t → F := fun i => l.getD i 0

/-- The matrix with given rows. -/
def mat (t : Nat) (rows : List (List F)) : Matrix (Fin t) (Fin t) F := fun i j => (rows.getD i []).getD j 0

/-- A full round of Poseidon: add the constants, take powers of all elements, multiply. -/
def full (d : Nat) (M : Matrix (Fin t) (Fin t) F) (x c : Fin t → F) : Fin t → F := M *ᵥ fun i => (x i + c i) ^ d

/-- A partial round of Poseidon: only the first element is raised. -/
def part (d : Nat) (M : Matrix (Fin t) (Fin t) F) (x c : Fin t → F) : Fin t → F :=
  M *ᵥ fun i => if i.val = 0 then (x i + c i) ^ d else x i + c i

/-- Poseidon: half of the full rounds, the partial rounds, the other half of the full rounds. -/
def poseidon (d rf rp : Nat) (M : Matrix (Fin t) (Fin t) F) (cs : List (Fin t → F)) (x : Fin t → F) : Fin t → F :=
  ((cs.drop (rf / 2 + rp)).foldl (full d M) (((cs.drop (rf / 2)).take rp).foldl (part d M) ((cs.take (rf / 2)).foldl (full d M) x)))

/-- A partial round of Poseidon2: the first element gets its constant and is raised, the others are left. -/
def part2 (d : Nat) (M : Matrix (Fin t) (Fin t) F) (x c : Fin t → F) : Fin t → F :=
  M *ᵥ fun i => if i.val = 0 then (x i + c i) ^ d else x i

/-- Poseidon2 with an external and an internal matrix. -/
def poseidon2 (d rf rp : Nat) (E I : Matrix (Fin t) (Fin t) F) (cs : List (Fin t → F)) (x : Fin t → F) : Fin t → F :=
  ((cs.drop (rf / 2 + rp)).foldl (full d E) (((cs.drop (rf / 2)).take rp).foldl (part2 d I) ((cs.take (rf / 2)).foldl (full d E) (E *ᵥ x))))

/-- The matrix `M4` of the Poseidon2 paper. -/
def M4 : Matrix (Fin 4) (Fin 4) Nat :=
  !![5, 7, 1, 3; 4, 6, 1, 1; 1, 3, 5, 7; 1, 1, 4, 6]

/-- The external matrix: `circ(2, 1)` and `circ(2, 1, 1)`, `M4`, and `circ(2 M4, M4, ..., M4)`. -/
def external (t : Nat) : Matrix (Fin t) (Fin t) F := fun i j =>
  if t < 4 then if i = j then 2 else 1
  else
    (M4 ⟨i % 4, Nat.mod_lt _ (by decide)⟩ ⟨j % 4, Nat.mod_lt _ (by decide)⟩ : F) *
      if t = 4 then 1 else if i.val / 4 = j.val / 4 then 2 else 1

/-- Ones off the diagonal, and on it one more than what is given. -/
def internal (t : Nat) (m : Fin t → F) : Matrix (Fin t) (Fin t) F := fun i j => if i = j then m i + 1 else 1

/-- The state sizes of Poseidon2. -/
def sizes : List Nat := [2, 3, 4, 8, 12, 16, 20, 24]

/-- The diagonal that is used: for the sizes two and three a fixed one. -/
def usedDiag (t : Nat) (m : Fin t → F) : Fin t → F := fun i =>
  if t = 2 ∨ t = 3 then if i.val + 1 = t then 2 else 1 else m i

end

/-- What the parameters of both permutations have to satisfy. -/
structure Common (d rf rp nConstants : Nat) : Prop where
  degree : d = 5
  even : 2 ∣ rf
  rounds : rf + rp < 2 ^ 32
  constants : nConstants = rf + rp

/-- What Poseidon accepts: a state, a matrix and constants of the size, unless no round looks at them. -/
structure Shape {α : Type} (t d rf rp : Nat) (input : List α) (mds rcs : List (List α)) : Prop where
  common : Common d rf rp rcs.length
  state : input.length = t
  matrix : mds.length = t
  rows : 0 < rf + rp → ∀ row ∈ mds, row.length = t
  consts : ∀ c ∈ rcs, c.length = t
  nonempty : 0 < rp → 0 < t

/-- What Poseidon2 accepts; of the constants of a partial round only the first is needed. -/
structure Shape2 {α : Type} (t d rf rp : Nat) (input diag : List α) (rcs : List (List α)) : Prop where
  common : Common d rf rp rcs.length
  size : t ∈ sizes
  state : input.length = t
  diagonal : diag.length = t
  before : ∀ c ∈ rcs.take (rf / 2), c.length = t
  middle : ∀ c ∈ (rcs.drop (rf / 2)).take rp, c ≠ []
  after : ∀ c ∈ rcs.drop (rf / 2 + rp), c.length = t

end Soroban.Poseidon.Spec
