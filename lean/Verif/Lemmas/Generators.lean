import Verif.Lemmas.CurvePoints
/-!
The generators of the four groups have order `r`: the kernel evaluates a multiplication of points by doubling and adding.
-/
namespace Soroban.Curves

open Soroban.Curves.Spec Soroban.Primes

section
variable {F : Type} [Field F] [DecidableEq F]

/-- The sum of two points with different first coordinates, given something that should be the inverse of a coordinate. -/
def chordF (inv : F → F) (P Q : F × F) : Option (F × F) :=
  let d := Q.1 - P.1
  let n := Q.2 - P.2
  let l := n * inv d
  if d ≠ 0 ∧ l * d = n then
    let x3 := l * l - P.1 - Q.1
    some (x3, l * (P.1 - x3) - P.2)
  else none

/-- Twice a point. -/
def tangentF (inv : F → F) (P : F × F) : Option (F × F) :=
  let d := P.2 + P.2
  let n := P.1 * P.1 + P.1 * P.1 + P.1 * P.1
  let l := n * inv d
  if d ≠ 0 ∧ l * d = n then
    let x3 := l * l - P.1 - P.1
    some (x3, l * (P.1 - x3) - P.2)
  else none

/-- Doubling and adding, the most significant bit first. -/
def ladderF (inv : F → F) (G : F × F) : List Bool → Option (F × F) → Option (F × F)
  | _, none => none
  | [], some P => some P
  | false :: bs, some P => ladderF inv G bs (tangentF inv P)
  | true :: bs, some P =>
    match tangentF inv P with
    | none => none
    | some Q => ladderF inv G bs (chordF inv Q G)

theorem chordF_add {inv : F → F} {P Q R : F × F} (h : chordF inv P Q = some R) :
    add (.xy P.1 P.2) (.xy Q.1 Q.2) = .xy R.1 R.2 := by
  unfold chordF at h
  simp only [] at h
  split at h
  · rename_i hc
    obtain ⟨hd, hl⟩ := hc
    have h := Option.some.inj h
    have hx : P.1 ≠ Q.1 := fun h => hd (by rw [h, sub_self])
    have hlam : (Q.2 - P.2) / (Q.1 - P.1) = _ := (div_eq_iff hd).mpr hl.symm
    rw [add, if_neg (fun h => hx h.1), ← h]
    simp only [if_neg hx, hlam]
  · cases h

theorem tangentF_add {inv : F → F} {P R : F × F} (h : tangentF inv P = some R) :
    add (.xy P.1 P.2) (.xy P.1 P.2) = .xy R.1 R.2 := by
  unfold tangentF at h
  simp only [] at h
  split at h
  · rename_i hc
    obtain ⟨hd, hl⟩ := hc
    have h := Option.some.inj h
    have hy : P.2 ≠ -P.2 := fun h => hd (by linear_combination h)
    have e : 3 * P.1 * P.1 / (2 * P.2) = (P.1 * P.1 + P.1 * P.1 + P.1 * P.1) / (P.2 + P.2) := by
      congr 1 <;> ring
    have hlam : (P.1 * P.1 + P.1 * P.1 + P.1 * P.1) / (P.2 + P.2) = _ := (div_eq_iff hd).mpr hl.symm
    rw [add, if_neg (fun h => hy h.2), ← h]
    simp only [if_true, e, hlam]
  · cases h

theorem ladderF_mul {inv : F → F} {b : F} {G : F × F} {g : Point b} (hg : toAff g = .xy G.1 G.2) :
    ∀ (bs : List Bool) (k : Nat) (P R : F × F), toAff (k • g) = .xy P.1 P.2 →
      ladderF inv G bs (some P) = some R → toAff (ofBits bs k • g) = .xy R.1 R.2 := by
  intro bs
  induction bs with
  | nil =>
    intro k P R hk h
    rw [ladderF] at h
    rw [← Option.some.inj h]
    exact hk
  | cons c bs ih =>
    intro k P R hk h
    have two : ∀ Q, tangentF inv P = some Q → toAff ((2 * k) • g) = .xy Q.1 Q.2 := by
      intro Q hq
      rw [two_mul, add_nsmul, ← add_eq, hk]
      exact tangentF_add hq
    cases c with
    | false =>
      rw [ladderF] at h
      cases hq : tangentF inv P with
      | none =>
        rw [hq] at h
        cases bs <;> exact nomatch h
      | some Q =>
        rw [hq] at h
        exact ih (2 * k + 0) Q R (two Q hq) h
    | true =>
      rw [ladderF] at h
      cases hq : tangentF inv P with
      | none =>
        rw [hq] at h
        exact nomatch h
      | some Q =>
        rw [hq] at h
        dsimp only at h
        cases hs : chordF inv Q G with
        | none =>
          rw [hs] at h
          cases bs <;> exact nomatch h
        | some S =>
          rw [hs] at h
          refine ih (2 * k + 1) S R ?_ h
          rw [succ_nsmul, ← add_eq, two Q hq, hg]
          exact chordF_add hs

/-- A point the ladder takes to its negation by `r - 1`. -/
theorem order_of_ladder {inv : F → F} {b : F} {x y : F} {h : (W b).Nonsingular x y} {r : Nat} (bs : List Bool)
    (hr : ofBits bs 1 + 1 = r) (hl : ladderF inv (x, y) bs (some (x, y)) = some (x, -y)) : r • (.some x y h : Point b) = 0 := by
  have hg : toAff (.some x y h : Point b) = .xy x y := rfl
  have hm := ladderF_mul (inv := inv) (G := (x, y)) hg bs 1 (x, y) _ (by rw [one_nsmul]; exact hg) hl
  apply toAff_inj
  rw [← hr, succ_nsmul, ← add_eq, hm, hg, add, if_pos ⟨rfl, rfl⟩]
  rfl

end

/-- By Fermat's little theorem. -/
def invFp (p : Nat) (x : ZMod p) : ZMod p := (powMod 400 x.val (p - 2) p : Nat)

/-- The conjugate over the norm. -/
def invFp2 (p : Nat) (z : Fp2 p) : Fp2 p :=
  let n := invFp p (z.re * z.re + z.im * z.im)
  ⟨z.re * n, -z.im * n⟩

def blsGen1X : ZMod blsP := 3685416753713387016781088315183077757961620795782546409894578378688607592378376318836054947676345821548104185464507
def blsGen1Y : ZMod blsP := 1339506544944476473020471379941921221584933875938349620426543736416511423956333506472724655353366534992391756441569

def blsGen2X : Fp2 blsP :=
  ⟨352701069587466618187139116011060144890029952792775240219908644239793785735715026873347600343865175952761926303160,
    3059144344244213709971259814753781636986470325476647558659373206291635324768958432433509563104347017837885763365758⟩
def blsGen2Y : Fp2 blsP :=
  ⟨1985150602287291935568054521177171638300868978215655730859378665066344726373823718423869104263333984641494340347905,
    927553665492332455747201965776037880757740193453592970025027978793976877002675564980949289727957565575433344219582⟩

def bnGen2X : Fp2 bnP :=
  ⟨10857046999023057135944570762232829481370756359578518086990519993285655852781,
    11559732032986387107991004021392285783925812861821192530917403151452391805634⟩
def bnGen2Y : Fp2 bnP :=
  ⟨8495653923123431417604973247489272438418190587263600148770280649306958101930,
    4082367875863433681332203403145435568316851327593401208105741076214120093531⟩

set_option maxRecDepth 100000 in
theorem blsGen1_eq : blsGen1Y * blsGen1Y = blsGen1X * blsGen1X * blsGen1X + 4 := by decide +kernel

set_option maxRecDepth 100000 in
theorem blsGen1_ladder : ladderF (invFp blsP) (blsGen1X, blsGen1Y) (bitsOf 400 (blsR - 1) []) (some (blsGen1X, blsGen1Y)) =
    some (blsGen1X, -blsGen1Y) := by decide +kernel

/-- The generator of BLS12-381's first group. -/
def blsGen1 : BlsG1 := .some blsGen1X blsGen1Y ((W_nonsingular (six_ne (by decide +kernel)) blsG1_b).mpr blsGen1_eq)

theorem blsGen1_order : blsR • blsGen1 = 0 := order_of_ladder _ (by decide +kernel) blsGen1_ladder

theorem blsGen2_eq : blsGen2Y * blsGen2Y = blsGen2X * blsGen2X * blsGen2X + blsG2.b := by
  apply QuadraticAlgebra.ext <;> decide +kernel

theorem blsGen2_ladder : ladderF (invFp2 blsP) (blsGen2X, blsGen2Y) (bitsOf 400 (blsR - 1) []) (some (blsGen2X, blsGen2Y)) =
    some (blsGen2X, -blsGen2Y) := by decide +kernel

/-- The generator of BLS12-381's second group. -/
def blsGen2 : BlsG2 := .some blsGen2X blsGen2Y ((W_nonsingular (six_ne2 (by decide +kernel)) blsG2_b).mpr blsGen2_eq)

theorem blsGen2_order : blsR • blsGen2 = 0 := order_of_ladder _ (by decide +kernel) blsGen2_ladder

theorem bnGen2_eq : bnGen2Y * bnGen2Y = bnGen2X * bnGen2X * bnGen2X + bnG2.b := by
  apply QuadraticAlgebra.ext <;> decide +kernel

theorem bnGen2_ladder : ladderF (invFp2 bnP) (bnGen2X, bnGen2Y) (bitsOf 400 (bnR - 1) []) (some (bnGen2X, bnGen2Y)) =
    some (bnGen2X, -bnGen2Y) := by decide +kernel

/-- The generator of BN254's second group. -/
def bnGen2 : BnG2 := .some bnGen2X bnGen2Y ((W_nonsingular (six_ne2 (by decide +kernel)) bnG2_b).mpr bnGen2_eq)

theorem bnGen2_order : bnR • bnGen2 = 0 := order_of_ladder _ (by decide +kernel) bnGen2_ladder

end Soroban.Curves
