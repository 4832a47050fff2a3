import Mathlib.LinearAlgebra.Dual.Lemmas
import Mathlib.Algebra.Module.ZMod
import Verif.Lemmas.Generators
/-!
There are bilinear maps that are not degenerate at a given point of prime order, so that hypotheses about the library's pairing can be
met.
-/
namespace Soroban.Curves

open Soroban.Curves.Spec

/-- On points of order `r`, some bilinear map with values in the first group takes `(P, g)` to `P`. -/
theorem some_pairing {A B : Type} [AddCommGroup A] [AddCommGroup B] (r : Nat) [hr : Fact r.Prime] (g : B) (hg : r • g = 0) (h0 : g ≠ 0) :
    ∃ e : A → B → Multiplicative A, IsPairing (fun P => r • P = 0) (fun Q => r • Q = 0) e ∧
      ∀ P, r • P = 0 → e P g = 1 → P = 0 := by
  classical
  let K : AddSubgroup B := (nsmulAddMonoidHom (α := B) r).ker
  have hK : ∀ x : B, x ∈ K ↔ r • x = 0 := fun x => AddMonoidHom.mem_ker
  letI : Module (ZMod r) K := AddCommGroup.zmodModule (n := r) fun x => Subtype.ext ((hK x.1).mp x.2)
  let g' : K := ⟨g, (hK g).mpr hg⟩
  have hg' : g' ≠ 0 := fun h => h0 (congrArg Subtype.val h)
  obtain ⟨f, hf⟩ := Module.Projective.exists_dual_eq_one (ZMod r) hg'
  have : NeZero r := ⟨hr.out.ne_zero⟩
  have hval : ∀ (a b : ZMod r) (P : A), r • P = 0 → (a + b).val • P = a.val • P + b.val • P := by
    intro a b P hP
    rw [ZMod.val_add, mod_nsmul' hP, add_nsmul]
  refine ⟨fun P Q => Multiplicative.ofAdd (if h : r • Q = 0 then (f ⟨Q, (hK Q).mpr h⟩).val • P else 0), ⟨?_, ?_⟩, ?_⟩
  · intro P P' Q hP hP' hQ
    simp only [dif_pos hQ]
    rw [nsmul_add]
    rfl
  · intro P Q Q' hP hQ hQ'
    have hQQ : r • (Q + Q') = 0 := by rw [nsmul_add, hQ, hQ', add_zero]
    simp only [dif_pos hQ, dif_pos hQ', dif_pos hQQ]
    have : (⟨Q + Q', (hK _).mpr hQQ⟩ : K) = ⟨Q, (hK Q).mpr hQ⟩ + ⟨Q', (hK Q').mpr hQ'⟩ := rfl
    rw [this, map_add, hval _ _ P hP]
    rfl
  · intro P hP h
    simp only [dif_pos hg] at h
    have h1 : (f g').val • P = 0 := h
    rw [hf, ZMod.val_one'' hr.out.one_lt.ne', one_nsmul] at h1
    exact h1

/-- Every bilinear map is computed by some function of lists of coordinates. -/
theorem some_product {F G T : Type} [Field F] [Field G] [DecidableEq F] [DecidableEq G] [CommMonoid T] {b : F} {c : G} (S : Point b → Prop)
    (S' : Point c → Prop) (e : Point b → Point c → T) : ∃ pair, Multiplies S S' e pair := by
  classical
  let un : ∀ {F : Type} [Field F] [DecidableEq F] {b : F}, Aff F → Point b := fun {F} _ _ {b} a =>
    if h : ∃ P : Point b, toAff P = a then h.choose else 0
  have hun : ∀ {F : Type} [Field F] [DecidableEq F] {b : F} (P : Point b), un (coords P) = P := by
    intro F _ _ b P
    have h : ∃ Q : Point b, toAff Q = coords P := ⟨P, rfl⟩
    show (if h : ∃ Q : Point b, toAff Q = coords P then h.choose else 0) = P
    rw [dif_pos h]
    exact toAff_inj h.choose_spec
  refine ⟨fun l => some (l.map fun t => e (un t.1) (un t.2)).prod, fun l _ => ?_⟩
  dsimp only
  rw [List.map_map]
  congr 2
  apply List.map_congr_left
  intro q _
  show e (un (coords q.1)) (un (coords q.2)) = _
  rw [hun, hun]

end Soroban.Curves
