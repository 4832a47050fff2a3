import Mathlib.Data.ZMod.Basic
import Mathlib.Algebra.QuadraticAlgebra.Basic
import Verif.Model.Memory
/-!
The host functions for the curves BLS12-381 and BN254: soroban-env-host/src/crypto/bls12_381.rs, bn254.rs, metered_scalar.rs and
host.rs:3078-3393.

The arithmetic of the libraries `ark_bls12_381`, `ark_bn254` and `ark_ec` is not in the repository. It is modelled by the textbook
formulas: residues, the quadratic extension by a root of -1, addition of points by chords and tangents, multiplication by repeated
addition. Projective points are points. Pairings and maps to the curves are parameters. Charges are left out.
-/
namespace Soroban.Curves

abbrev Bytes := List Nat

/-- The errors of this module all have the type Crypto. -/
def invalidInput : Err := .host .crypto .invalidInput

/-- `ark_bls12_381::Fq`: the field of the coordinates. -/
def blsP : Nat :=
  4002409555221667393417789825735904156556882819939007885332058136124031650490837864442687629129015664037894272559787

/-- `ark_bls12_381::Fr`: the order of the subgroups. -/
def blsR : Nat := 52435875175126190479447740508185965837690552500527637822603658699938581184513

/-- `ark_bn254::Fq`. -/
def bnP : Nat := 21888242871839275222246405745257275088696311157297823662689037894645226208583

/-- `ark_bn254::Fr`. -/
def bnR : Nat := 21888242871839275222246405745257275088548364400416034343698204186575808495617

/-- `QuadExtField`: elements `c0 + c1 * u` with `u * u = -1`. -/
abbrev Fp2 (p : Nat) := QuadraticAlgebra (ZMod p) (-1) 0

/-- `ark_ec::short_weierstrass::Affine`. -/
inductive Aff (F : Type) where
  | zero
  | xy (x y : F)
  deriving DecidableEq

/-- How coordinates are encoded: number of bytes, and reading and writing that many bytes. -/
structure Coord (F : Type) where
  size : Nat
  dec : Bytes → Option F
  enc : F → Bytes

/-- `be_bytes` of an element of a prime field, and its inverse: `Fp` deserialization makes sure any value >= prime modulus
results in an error (bls12_381.rs:206-209 and 398-401, on the library). -/
def fpCoord (p size : Nat) : Coord (ZMod p) where
  size := size
  dec b := if fromLe b.reverse < p then some (fromLe b.reverse : ZMod p) else none
  enc x := (toLe size x.val).reverse

/-- bls12_381.rs:203-204 and bn254.rs:96-105 on the library: `be_bytes(c1) || be_bytes(c0)`. -/
def fp2Coord (p size : Nat) : Coord (Fp2 p) where
  size := 2 * size
  dec b :=
    match (fpCoord p size).dec (b.take size), (fpCoord p size).dec (b.drop size) with
    | some c1, some c0 => some ⟨c0, c1⟩
    | _, _ => none
  enc z := (fpCoord p size).enc z.im ++ (fpCoord p size).enc z.re

/-- The curve `y ^ 2 = x ^ 3 + b` with the order of its subgroup. -/
structure Curve (F : Type) where
  coord : Coord F
  b : F
  order : Nat

/-- `ark_bls12_381::g1::Config`; bls12_381.rs:31-36 for the sizes. -/
def blsG1 : Curve (ZMod blsP) := ⟨fpCoord blsP 48, 4, blsR⟩

/-- `ark_bls12_381::g2::Config`. -/
def blsG2 : Curve (Fp2 blsP) := ⟨fp2Coord blsP 48, ⟨4, 4⟩, blsR⟩

/-- `ark_bn254::g1::Config`; bn254.rs:20-28 for the sizes. -/
def bnG1 : Curve (ZMod bnP) := ⟨fpCoord bnP 32, 3, bnR⟩

/-- `ark_bn254::g2::Config`. -/
def bnG2 : Curve (Fp2 bnP) :=
  ⟨fp2Coord bnP 32, ⟨19485874751759354771024239261021720505790618469301721065564631296452457478373,
    266929791119991161246907387137283842545076965332900288569378510910307636690⟩, bnR⟩

/-- crypto/mod.rs:30-34 `PointValidationMode`. -/
inductive Mode where
  | noCheck | onCurve | inSubgroup
  deriving DecidableEq

section
variable {F : Type} [Field F] [DecidableEq F] (C : Curve F)

/-- `Affine::is_on_curve` -/
def isOnCurve : Aff F → Bool
  | .zero => true
  | .xy x y => decide (y * y = x * x * x + C.b)

/-- Addition of points. -/
def add : Aff F → Aff F → Aff F
  | .zero, q => q
  | p, .zero => p
  | .xy x1 y1, .xy x2 y2 =>
    if x1 = x2 ∧ y1 = -y2 then .zero
    else
      let l := if x1 = x2 then 3 * x1 * x1 / (2 * y1) else (y2 - y1) / (x2 - x1)
      let x3 := l * l - x1 - x2
      .xy x3 (l * (x1 - x3) - y1)

/-- Multiplication of a point. -/
def mul : Nat → Aff F → Aff F
  | 0, _ => .zero
  | n + 1, p => add (mul n p) p

/-- `msm_unchecked` -/
def msmUnchecked : List (Aff F × Nat) → Aff F
  | [] => .zero
  | (p, n) :: rest => add (mul n p) (msmUnchecked rest)

/-- `is_in_correct_subgroup_assuming_on_curve` -/
def isInSubgroup (p : Aff F) : Bool := decide (mul C.order p = .zero)

/-! ### BLS12-381 -/

/-- bls12_381.rs:124-160 `validate_point_encoding`. -/
def validatePointEncoding (size : Nat) (b : Bytes) : Res Unit :=
  if size = 0 ∨ b.length ≠ size then .error invalidInput
  else
    let b0 := b.headD 0
    let flags := b0 &&& 0b11100000
    if flags = 0b01000000 then
      if b0 = 0b01000000 ∧ b.tail.all (fun x => decide (x = 0)) then .ok () else .error invalidInput
    else if flags = 0 then .ok ()
    else .error invalidInput

/-- `Affine::deserialize_uncompressed_unchecked` of `ark_bls12_381` as bls12_381.rs:190-209 describes it: the flags of the first byte
are masked off before the coordinates are read. -/
def arkRead (b : Bytes) : Option (Aff F) :=
  let b0 := b.headD 0
  if b0 &&& 0b10000000 ≠ 0 then none
  else if b0 &&& 0b01000000 ≠ 0 then some .zero
  else
    match C.coord.dec ((b0 &&& 0b00011111) :: b.tail.take (C.coord.size - 1)), C.coord.dec (b.drop C.coord.size) with
    | some x, some y => some (.xy x y)
    | _, _ => none

/-- bls12_381.rs:49-83 `deserialize_uncompressed_no_validate`. -/
def deserializeNoValidate (size : Nat) (b : Bytes) : Res (Aff F) :=
  if size = 0 ∨ b.length ≠ size then .error invalidInput
  else
    match arkRead C b with
    | none => .error invalidInput
    | some p => .ok p

/-- bls12_381.rs:182-243 `affine_deserialize`. -/
def affineDeserialize (m : Mode) (b : Bytes) : Res (Aff F) := do
  validatePointEncoding (2 * C.coord.size) b
  let pt ← deserializeNoValidate C (2 * C.coord.size) b
  let checkOnCurve := decide (m = .onCurve) || decide (m = .inSubgroup)
  let checkSubgroup := decide (m = .inSubgroup)
  if checkOnCurve && !isOnCurve C pt then .error invalidInput
  else if checkSubgroup && !isInSubgroup C pt then .error invalidInput
  else .ok pt

/-- bls12_381.rs:281-297 `g1_affine_serialize_uncompressed` and 318-338 `g2_affine_serialize_uncompressed`: the coordinates, or a
set infinity flag followed by zeros. -/
def affineSerialize : Aff F → Bytes
  | .zero => 0b01000000 :: List.replicate (2 * C.coord.size - 1) 0
  | .xy x y => C.coord.enc x ++ C.coord.enc y

/-- host.rs:3078-3086 `bls12_381_check_g1_is_in_subgroup`, 3155-3163 `bls12_381_check_g2_is_in_subgroup`. -/
def checkIsInSubgroup (b : Bytes) : Res Bool := do
  let pt ← affineDeserialize C .onCurve b
  .ok (isInSubgroup C pt)

/-- host.rs:3352-3360 `bls12_381_g1_is_on_curve`, 3362-3370 `bls12_381_g2_is_on_curve`. -/
def checkIsOnCurve (b : Bytes) : Res Bool := do
  let pt ← affineDeserialize C .noCheck b
  .ok (isOnCurve C pt)

/-- host.rs:3088-3098 `bls12_381_g1_add`, 3165-3175 `bls12_381_g2_add`. -/
def hostAdd (b0 b1 : Bytes) : Res Bytes := do
  let p0 ← affineDeserialize C .onCurve b0
  let p1 ← affineDeserialize C .onCurve b1
  .ok (affineSerialize C (add p0 p1))

/-- metered_scalar.rs:65-76 and 114-125 `from_u256val`: reduced modulo the order. -/
def frFromU256 (r n : Nat) : Nat := n % r

/-- host.rs:3100-3113 `bls12_381_g1_mul`, 3177-3190 `bls12_381_g2_mul`. -/
def hostMul (b0 : Bytes) (n : Nat) : Res Bytes := do
  let p0 ← affineDeserialize C .inSubgroup b0
  .ok (affineSerialize C (mul (frFromU256 C.order n) p0))

/-- An element of a vector: the host functions take vectors of values. -/
inductive Elem where
  | bytes (b : Bytes)
  | u256 (n : Nat)
  | other

/-- The error of `BytesObject::try_from_val` and `U256Val::try_from_val`. -/
def conversionError : Err := .host .value .unexpectedType

/-- bls12_381.rs:444-471 `affine_vec_from_vecobj`, and bn254.rs:402-426 and 428-447 with another reader. -/
def pointVec {F : Type} (read : Bytes → Res (Aff F)) : List Elem → Res (List (Aff F))
  | [] => .ok []
  | .bytes b :: rest => do
    let p ← read b
    let ps ← pointVec read rest
    .ok (p :: ps)
  | _ :: _ => .error conversionError

/-- bls12_381.rs:408-424 `fr_vec_from_vecobj`, bn254.rs:450-466 `bn254_fr_vec_from_vecobj`. -/
def frVec (r : Nat) : List Elem → Res (List Nat)
  | [] => .ok []
  | .u256 n :: rest => do
    let ns ← frVec r rest
    .ok (frFromU256 r n :: ns)
  | _ :: _ => .error conversionError

/-- bls12_381.rs:515-540 `msm_internal`. -/
def msmInternal (ps : List (Aff F)) (ns : List Nat) : Res (Aff F) :=
  if ps.length ≠ ns.length ∨ ps.length = 0 then .error invalidInput
  else .ok (msmUnchecked (ps.zip ns))

/-- host.rs:3115-3125 `bls12_381_g1_msm`, 3192-3202 `bls12_381_g2_msm`. -/
def hostMsm (vp vs : List Elem) : Res Bytes := do
  let ps ← pointVec (affineDeserialize C .inSubgroup) vp
  let ns ← frVec C.order vs
  let p ← msmInternal ps ns
  .ok (affineSerialize C p)

/-- bls12_381.rs:350-398 `field_element_deserialize`. The bytes are reversed for the library, which reads them in the reverse
order. -/
def fieldElementDeserialize (b : Bytes) : Res F :=
  if b.length ≠ C.coord.size then .error invalidInput
  else
    match C.coord.dec b with
    | none => .error invalidInput
    | some x => .ok x

/-- host.rs:3127-3135 `bls12_381_map_fp_to_g1`, 3204-3212 `bls12_381_map_fp2_to_g2`; the map is the library's (bls12_381.rs:540-585). -/
def hostMap (map : F → Aff F) (b : Bytes) : Res Bytes := do
  let x ← fieldElementDeserialize C b
  .ok (affineSerialize C (map x))

/-- host.rs:3137-3153 `bls12_381_hash_to_g1`, 3214-3230 `bls12_381_hash_to_g2`; bls12_381.rs:590-663 `hash_to_curve` with the
library's hash to the curve. -/
def hostHash (hash : Bytes → Bytes → Aff F) (msg dst : Bytes) : Res Bytes :=
  if dst.length = 0 ∨ dst.length > 255 then .error invalidInput
  else .ok (affineSerialize C (hash dst msg))

end

section
variable {F G : Type} [Field F] [DecidableEq F] [Field G] [DecidableEq G]

/-- bls12_381.rs:665-722 `pairing_internal` and bn254.rs:522-567 `bn254_pairing_internal`, with `bls12_381.rs:720-730`
`check_pairing_output` and `bn254.rs:568-581`. The pairing is the library's: the outcome of the final exponentiation, if there is
one, is compared to one. -/
def pairingInternal {T : Type} [One T] [DecidableEq T] (pair : List (Aff F × Aff G) → Option T) (ps : List (Aff F))
    (qs : List (Aff G)) : Res Bool :=
  if ps.length ≠ qs.length ∨ ps.length = 0 then .error invalidInput
  else
    match pair (ps.zip qs) with
    | none => .error invalidInput
    | some t => .ok (decide (t = 1))

/-- What host.rs:3232-3252 `bls12_381_multi_pairing_check` and 3304-3324 `bn254_multi_pairing_check` have in common. -/
def multiPairingCheck {T : Type} [One T] [DecidableEq T] (pair : List (Aff F × Aff G) → Option T) (read1 : Bytes → Res (Aff F))
    (read2 : Bytes → Res (Aff G)) (vp1 vp2 : List Elem) : Res Bool := do
  if vp1.length ≠ vp2.length ∨ vp1.length = 0 then .error invalidInput
  else
    let ps ← pointVec read1 vp1
    let qs ← pointVec read2 vp2
    pairingInternal pair ps qs

/-- host.rs:3232-3252 `bls12_381_multi_pairing_check`. -/
def blsMultiPairingCheck (C : Curve F) (D : Curve G) {T : Type} [One T] [DecidableEq T] (pair : List (Aff F × Aff G) → Option T) :
    List Elem → List Elem → Res Bool :=
  multiPairingCheck pair (affineDeserialize C .inSubgroup) (affineDeserialize D .inSubgroup)

end

/-! ### BN254 -/

section
variable {F : Type} [Field F] [DecidableEq F] (C : Curve F)

/-- bn254.rs:53-89 `bn254_validate_flags_and_check_infinity`. -/
def bnValidateFlags (size : Nat) (b : Bytes) : Res Bool :=
  if b.length ≠ size then .error invalidInput
  else if b.headD 0 &&& 0b11000000 ≠ 0 then .error invalidInput
  else .ok (b.all fun x => decide (x = 0))

/-- bn254.rs:107-146 `bn254_field_element_deserialize`. -/
def bnFieldElement (b : Bytes) : Res F :=
  if C.coord.size = 0 ∨ b.length ≠ C.coord.size then .error invalidInput
  else
    match C.coord.dec b with
    | none => .error invalidInput
    | some x => .ok x

/-- bn254.rs:202-251 `bn254_g1_affine_deserialize` (no check of the subgroup) and 255-307 `bn254_g2_affine_deserialize` (both
checks). -/
def bnAffineDeserialize (checkOnCurve checkSubgroup : Bool) (b : Bytes) : Res (Aff F) := do
  let inf ← bnValidateFlags (2 * C.coord.size) b
  if inf then .ok .zero
  else
    let x ← bnFieldElement C (b.take C.coord.size)
    let y ← bnFieldElement C (b.drop C.coord.size)
    if checkOnCurve && !isOnCurve C (.xy x y) then .error invalidInput
    else if checkSubgroup && !isInSubgroup C (.xy x y) then .error invalidInput
    else .ok (.xy x y)

/-- bn254.rs:307-326 `bn254_g1_affine_serialize_uncompressed`: the coordinates of infinity are zeros. -/
def bnAffineSerialize : Aff F → Bytes
  | .zero => C.coord.enc 0 ++ C.coord.enc 0
  | .xy x y => C.coord.enc x ++ C.coord.enc y

/-- host.rs:3280-3290 `bn254_g1_add`. -/
def bnHostAdd (b0 b1 : Bytes) : Res Bytes := do
  let p0 ← bnAffineDeserialize C true false b0
  let p1 ← bnAffineDeserialize C true false b1
  .ok (bnAffineSerialize C (add p0 p1))

/-- host.rs:3292-3302 `bn254_g1_mul`. -/
def bnHostMul (b0 : Bytes) (n : Nat) : Res Bytes := do
  let p0 ← bnAffineDeserialize C true false b0
  .ok (bnAffineSerialize C (mul (frFromU256 C.order n) p0))

/-- host.rs:3382-3393 `bn254_g1_msm`. -/
def bnHostMsm (vp vs : List Elem) : Res Bytes := do
  let ps ← pointVec (bnAffineDeserialize C true false) vp
  let ns ← frVec C.order vs
  let p ← msmInternal ps ns
  .ok (bnAffineSerialize C p)

/-- host.rs:3372-3380 `bn254_g1_is_on_curve`. -/
def bnCheckIsOnCurve (b : Bytes) : Res Bool := do
  let pt ← bnAffineDeserialize C false false b
  .ok (isOnCurve C pt)

end

section
variable {F G : Type} [Field F] [DecidableEq F] [Field G] [DecidableEq G]

/-- host.rs:3304-3324 `bn254_multi_pairing_check`. -/
def bnMultiPairingCheck (C : Curve F) (D : Curve G) {T : Type} [One T] [DecidableEq T] (pair : List (Aff F × Aff G) → Option T) :
    List Elem → List Elem → Res Bool :=
  multiPairingCheck pair (bnAffineDeserialize C true false) (bnAffineDeserialize D true true)

end

/-! ### Scalars -/

/-- host/num.rs:73-104 with `fr_add_internal` (bls12_381.rs:732-736, bn254.rs:475-479): a sum in `Fr`, as a number of 256 bits. -/
def frAdd (r a b : Nat) : Nat := ((frFromU256 r a : ZMod r) + (frFromU256 r b : ZMod r)).val

/-- `fr_sub_internal` (bls12_381.rs:738-742, bn254.rs:481-485). -/
def frSub (r a b : Nat) : Nat := ((frFromU256 r a : ZMod r) - (frFromU256 r b : ZMod r)).val

/-- `fr_mul_internal` (bls12_381.rs:744-748, bn254.rs:487-491). -/
def frMul (r a b : Nat) : Nat := ((frFromU256 r a : ZMod r) * (frFromU256 r b : ZMod r)).val

/-- host.rs:3258-3268 `bls12_381_fr_pow`, 3330-3340 `bn254_fr_pow`. -/
def frPow (r a n : Nat) : Nat := ((frFromU256 r a : ZMod r) ^ n).val

/-- host.rs:3270-3278 `bls12_381_fr_inv`, 3342-3350 `bn254_fr_inv`; bls12_381.rs:761-781 `fr_inv_internal`, bn254.rs:501-517. -/
def frInv (r a : Nat) : Res Nat :=
  if (frFromU256 r a : ZMod r) = 0 then .error invalidInput
  else .ok ((frFromU256 r a : ZMod r)⁻¹).val

end Soroban.Curves
