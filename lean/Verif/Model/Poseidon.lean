import Mathlib.Data.ZMod.Basic
import Verif.Model.Curves
/-!
The Poseidon and Poseidon2 permutations of `crypto/poseidon` and their host functions. Metering is left out. States are lists; the
scalars of a field are residues modulo the order `r` of a group.
-/
namespace Soroban.Poseidon

open Soroban.Curves (invalidInput blsR bnR)

/-- crypto/poseidon/mod.rs:25-26 `VEC_OOB` -/
def vecOob : Err := .host .object .indexBounds

/-- host/error.rs:344-351 `err_arith_overflow` -/
def arithOverflow : Err := .host .value .arithDomain

/-- crypto/poseidon/mod.rs:19 `SUPPORTED_SBOX_DEGREES` -/
def supportedDegrees : List Nat := [5]

section
variable {F : Type} [CommRing F]

/-- crypto/poseidon/utils.rs:19-25 `sbox_p` -/
def sboxP (d : Nat) (x : F) : F := x ^ d

/-- crypto/poseidon/utils.rs:8-17 `sbox` -/
def sbox (d : Nat) (s : List F) : List F := s.map (sboxP d)

/-- crypto/poseidon/utils.rs:27-48 `add_rc` -/
def addRc (s rc : List F) : Res (List F) :=
  if s.length ≠ rc.length then .error invalidInput else .ok (s.zipWith (· + ·) rc)

/-- The part of `matmul` (crypto/poseidon/poseidon.rs:101-106) that makes one element: the products are added up from zero. -/
def dot (row s : List F) : F := (row.zip s).foldl (fun acc q => acc + q.1 * q.2) 0

/-- The loop of `matmul` (crypto/poseidon/poseidon.rs:92-108). -/
def matRows (s : List F) : List (List F) → Res (List F)
  | [] => .ok []
  | row :: rest =>
    if row.length ≠ s.length then .error invalidInput
    else do
      let out ← matRows s rest
      .ok (dot row s :: out)

/-- crypto/poseidon/poseidon.rs:72-111 `matmul` -/
def matmul (s : List F) (mat : List (List F)) : Res (List F) :=
  if mat.length ≠ s.length then .error invalidInput else matRows s mat

/-- A loop over the rounds `r, ..., r + n - 1`, each of which looks up its constants. -/
def loop (rcs : List (List F)) (step : List F → List F → Res (List F)) : Nat → Nat → List F → Res (List F)
  | 0, _, s => .ok s
  | n + 1, r, s =>
    match rcs[r]? with
    | none => .error vecOob
    | some rc => do
      let s ← step s rc
      loop rcs step n (r + 1) s

/-- crypto/poseidon/poseidon_params.rs:10-18 `PoseidonParams`; for Poseidon2 (crypto/poseidon/poseidon2_params.rs:10-18) the matrix has one row, the
diagonal. -/
structure Params (F : Type) where
  t : Nat
  d : Nat
  roundsFBeginning : Nat
  roundsP : Nat
  rounds : Nat
  mat : List (List F)
  roundConstants : List (List F)

/-- What crypto/poseidon/poseidon_params.rs:23-80 and crypto/poseidon/poseidon2_params.rs:23-80 have in common; `len` is the length of the matrix or the
diagonal. -/
def checkParams (len t d rf rp : Nat) (mat rcs : List (List F)) : Res (Params F) :=
  if !supportedDegrees.contains d then .error invalidInput
  else if len ≠ t then .error invalidInput
  else if rf % 2 ≠ 0 then .error invalidInput
  else if rf + rp > u32Max then .error arithOverflow
  else if rcs.length ≠ rf + rp then .error invalidInput
  else .ok ⟨t, d, rf / 2, rp, rf + rp, mat, rcs⟩

/-- crypto/poseidon/poseidon_params.rs:23-80 `new` -/
def newParams (t d rf rp : Nat) (mds rcs : List (List F)) : Res (Params F) := checkParams mds.length t d rf rp mds rcs

/-- crypto/poseidon/poseidon2_params.rs:23-80 `new` -/
def newParams2 (t d rf rp : Nat) (diag : List F) (rcs : List (List F)) : Res (Params F) :=
  checkParams diag.length t d rf rp [diag] rcs

/-! ### Poseidon -/

/-- crypto/poseidon/poseidon.rs:35-42 and 57-64: a full round. -/
def fullRound (p : Params F) (s rc : List F) : Res (List F) := do
  let s ← addRc s rc
  matmul (sbox p.d s) p.mat

/-- crypto/poseidon/poseidon.rs:45-55: a partial round. -/
def partialRound (p : Params F) (s rc : List F) : Res (List F) := do
  let s ← addRc s rc
  match s with
  | [] => .error vecOob
  | x :: rest => matmul (sboxP p.d x :: rest) p.mat

/-- crypto/poseidon/poseidon.rs:20-66 `permutation` -/
def permutation (p : Params F) (input : List F) : Res (List F) :=
  if input.length ≠ p.t then .error invalidInput
  else do
    let s ← loop p.roundConstants (fullRound p) p.roundsFBeginning 0 input
    let pEnd := p.roundsFBeginning + p.roundsP
    let s ← loop p.roundConstants (partialRound p) p.roundsP p.roundsFBeginning s
    loop p.roundConstants (fullRound p) (p.rounds - pEnd) pEnd s

/-! ### Poseidon2 -/

/-- The loop of crypto/poseidon/poseidon2.rs:110-140 over groups of four elements. -/
def m4 : List F → List F
  | a :: b :: c :: d :: rest =>
    let t0 := a + b
    let t1 := c + d
    let t2 := b + b + t1
    let t3 := d + d + t0
    let t4 := (t1 + t1) + (t1 + t1) + t3
    let t5 := (t0 + t0) + (t0 + t0) + t2
    (t3 + t5) :: t5 :: (t2 + t4) :: t4 :: m4 rest
  | rest => rest

/-- crypto/poseidon/poseidon2.rs:90-142 `matmul_m4` -/
def matmulM4 (t : Nat) (s : List F) : Res (List F) :=
  if t % 4 ≠ 0 then .error invalidInput
  else if s.length ≠ t then .error invalidInput
  else .ok (m4 s)

/-- The sums `stored` of crypto/poseidon/poseidon2.rs:191-201; indexing cannot fail. -/
def stored (t4 : Nat) (s : List F) (l : Nat) : F :=
  (List.range (t4 - 1)).foldl (fun acc j => acc + s.getD (4 * (j + 1) + l) 0) (s.getD l 0)

/-- crypto/poseidon/poseidon2.rs:151-216 `matmul_external` -/
def matmulExternal (t : Nat) (s : List F) : Res (List F) :=
  if s.length ≠ t then .error invalidInput
  else
    match t, s with
    | 2, [a, b] =>
      let sum := a + b
      .ok [a + sum, b + sum]
    | 3, [a, b, c] =>
      let sum := a + b + c
      .ok [a + sum, b + sum, c + sum]
    | 4, s => matmulM4 4 s
    | t, s =>
      if t = 8 ∨ t = 12 ∨ t = 16 ∨ t = 20 ∨ t = 24 then do
        let s ← matmulM4 t s
        .ok (s.mapIdx fun i x => x + stored (t / 4) s (i % 4))
      else .error invalidInput

/-- crypto/poseidon/poseidon2.rs:225-284 `matmul_internal` -/
def matmulInternal (t : Nat) (s diag : List F) : Res (List F) :=
  if t ≠ s.length ∨ t ≠ diag.length then .error invalidInput
  else
    match t, s with
    | 2, [a, b] =>
      let sum := a + b
      .ok [a + sum, b + b + sum]
    | 3, [a, b, c] =>
      let sum := a + b + c
      .ok [a + sum, b + sum, c + c + sum]
    | t, s =>
      if t = 4 ∨ t = 8 ∨ t = 12 ∨ t = 16 ∨ t = 20 ∨ t = 24 then
        let sum := s.tail.foldl (· + ·) (s.headD 0)
        .ok (s.zipWith (fun x m => x * m + sum) diag)
      else .error invalidInput

/-- crypto/poseidon/poseidon2.rs:38-49 and 71-82: a full round. -/
def fullRound2 (p : Params F) (s rc : List F) : Res (List F) := do
  let s ← addRc s rc
  matmulExternal p.t (sbox p.d s)

/-- crypto/poseidon/poseidon2.rs:52-69: a partial round. -/
def partialRound2 (p : Params F) (s rc : List F) : Res (List F) :=
  match rc with
  | [] => .error vecOob
  | c :: _ =>
    match s with
    | [] => .error vecOob
    | x :: rest => matmulInternal p.t (sboxP p.d (x + c) :: rest) (p.mat.headD [])

/-- crypto/poseidon/poseidon2.rs:20-84 `permutation` -/
def permutation2 (p : Params F) (input : List F) : Res (List F) :=
  if input.length ≠ p.t then .error invalidInput
  else do
    let s ← matmulExternal p.t input
    let s ← loop p.roundConstants (fullRound2 p) p.roundsFBeginning 0 s
    let pEnd := p.roundsFBeginning + p.roundsP
    let s ← loop p.roundConstants (partialRound2 p) p.roundsP p.roundsFBeginning s
    loop p.roundConstants (fullRound2 p) (p.rounds - pEnd) pEnd s

end

/-! ### The host functions -/

/-- A value in a vector of scalars: a 256-bit number, or something else. -/
abbrev Cell := Option Nat

/-- A value in a vector of vectors of scalars: a vector, or something else. -/
abbrev Row := Option (List Cell)

/-- host/conversion.rs:289-312 `metered_scalar_vec_from_vecobj`, with crypto/metered_scalar.rs:60-71 `from_u256val`, which reduces. -/
def scalars (r : Nat) : List Cell → Res (List (ZMod r))
  | [] => .ok []
  | none :: _ => .error invalidInput
  | some n :: rest => do
    let ns ← scalars r rest
    .ok ((n : ZMod r) :: ns)

/-- host/conversion.rs:334-359 `metered_scalar_vec_of_vec_from_vecobj` -/
def scalarRows (r : Nat) : List Row → Res (List (List (ZMod r)))
  | [] => .ok []
  | none :: _ => .error invalidInput
  | some row :: rest => do
    let row ← scalars r row
    let rows ← scalarRows r rest
    .ok (row :: rows)

/-- crypto/mod.rs:322-362 `poseidon_permutation_impl`; the result is converted with crypto/metered_scalar.rs:73-87 `into_u256val`. -/
def poseidonImpl (r : Nat) (input : List Cell) (t d rf rp : Nat) (mds rcs : List Row) : Res (List Nat) := do
  let input ← scalars r input
  let mds ← scalarRows r mds
  let rcs ← scalarRows r rcs
  let p ← newParams t d rf rp mds rcs
  let out ← permutation p input
  .ok (out.map ZMod.val)

/-- crypto/mod.rs:366-407 `poseidon2_permutation_impl` -/
def poseidon2Impl (r : Nat) (input : List Cell) (t d rf rp : Nat) (diag : List Cell) (rcs : List Row) : Res (List Nat) := do
  let input ← scalars r input
  let diag ← scalars r diag
  let rcs ← scalarRows r rcs
  let p ← newParams2 t d rf rp diag rcs
  let out ← permutation2 p input
  .ok (out.map ZMod.val)

/-- The symbol that names a field. -/
inductive FieldName where
  | bls12_381
  | bn254
  | other

/-- host.rs:3395-3443 `poseidon_permutation` -/
def poseidonPermutation (input : List Cell) (field : FieldName) (t d rf rp : Nat) (mds rcs : List Row) : Res (List Nat) :=
  match field with
  | .bls12_381 => poseidonImpl blsR input t d rf rp mds rcs
  | .bn254 => poseidonImpl bnR input t d rf rp mds rcs
  | .other => .error invalidInput

/-- host.rs:3445-3493 `poseidon2_permutation` -/
def poseidon2Permutation (input : List Cell) (field : FieldName) (t d rf rp : Nat) (diag : List Cell) (rcs : List Row) : Res (List Nat) :=
  match field with
  | .bls12_381 => poseidon2Impl blsR input t d rf rp diag rcs
  | .bn254 => poseidon2Impl bnR input t d rf rp diag rcs
  | .other => .error invalidInput

end Soroban.Poseidon
