import Verif.Model.Err
/-!
Model of the pseudo-random numbers of contracts: soroban-env-host/src/host/prng.rs, `with_current_prng` of
soroban-env-host/src/host/frame.rs and the host functions of module "prng" (host.rs:3732-3795).

Simplifications: the generator itself is a parameter (`Gen`), which stands for the crates `rand_chacha`, `rand` and `hmac`; the
budget is not modelled, so running out of budget is a failure that can happen anywhere (`PProg.fail`). Bytes are numbers; vectors
are lists of values; host objects are their contents (see C10).
-/
namespace Soroban.Prng
open Soroban

/-- The library of generators with state `R`: `ChaCha20Rng::from_seed` and `fill_bytes`, sampling of `Uniform` from an inclusive range
and of an index below a bound (used by `shuffle`), and HMAC-SHA256 of a seed with the fixed salt (crypto/mod.rs:456-498
`unbias_prng_seed`). The laws say that the results are of the size or in the range that was asked for. -/
structure Gen (R : Type) where
  fromSeed : List Nat → R
  fill : R → Nat → List Nat × R
  sample : R → Nat → Nat → Nat × R
  index : R → Nat → Nat × R
  unbias : List Nat → List Nat
  fill_length : ∀ r n, (fill r n).1.length = n
  sample_range : ∀ r lo hi, lo ≤ hi → lo ≤ (sample r lo hi).1 ∧ (sample r lo hi).1 ≤ hi
  index_lt : ∀ r n, 0 < n → (index r n).1 < n

variable {R : Type}

/-- host/prng.rs:83-84 `SEED_BYTES` -/
def seedBytes : Nat := 32

/-- host/prng.rs:98-101 `new_from_seed` -/
def newFromSeed (G : Gen R) (seed : List Nat) : R := G.fromSeed (G.unbias seed)

/-- host/prng.rs:103-119 `u64_in_inclusive_range` -/
def u64InRange (G : Gen R) (r : R) (lo hi : Nat) : Res Nat × R :=
  if lo > hi then (.error (.host .value .invalidInput), r)
  else
    let p := G.sample r lo hi
    (.ok p.1, p.2)

/-- Swaps two elements of a slice (`slice::swap`). -/
def swap (v : List Nat) (i j : Nat) : List Nat :=
  match v[i]?, v[j]? with
  | some a, some b => (v.set i b).set j a
  | _, _ => v

/-- The loop of `SliceRandom::shuffle` of crate `rand` (called at host/prng.rs:138): for each position from `i` down to 1, a swap
with a position that is not above it. -/
def shuffleLoop (G : Gen R) : Nat → R → List Nat → List Nat × R
  | 0, r, v => (v, r)
  | i + 1, r, v =>
    let p := G.index r (i + 2)
    shuffleLoop G i p.2 (swap v (i + 1) p.1)

/-- host/prng.rs:121-140 `vec_shuffle` -/
def vecShuffle (G : Gen R) (r : R) (v : List Nat) : List Nat × R := shuffleLoop G (v.length - 1) r v

/-- host/prng.rs:142-147 `bytes_new` -/
def bytesNew (G : Gen R) (r : R) (size : Nat) : List Nat × R := G.fill r size

/-- host/prng.rs:149-154 `sub_prng` -/
def subPrng (G : Gen R) (r : R) : R × R :=
  let p := G.fill r seedBytes
  (G.fromSeed p.1, p.2)

/-- host.rs:548-565 `set_base_prng_seed`: two generators for tests and recording are split off first in every build. -/
def baseFromSeed (G : Gen R) (seed : List Nat) : R :=
  (subPrng G (subPrng G (newFromSeed G seed)).2).2

/-- The host functions of module "prng". -/
inductive Op where
  | reseed (seed : List Nat)
  | bytes (n : Nat)
  | range (lo hi : Nat)
  | shuffle (v : List Nat)
  deriving DecidableEq, Repr

/-- What they return. -/
inductive Out where
  | void
  | bytes (b : List Nat)
  | u64 (n : Nat)
  | vec (v : List Nat)
  deriving DecidableEq, Repr

/-- host.rs:3734-3794, what the host functions do with the generator of the frame. A seed of another length than 32 bytes is rejected
before the generator is looked up (`useOp`). -/
def perform (G : Gen R) (r : R) : Op → Res Out × R
  | .reseed seed => (.ok .void, newFromSeed G seed)
  | .bytes n => (.ok (.bytes (bytesNew G r n).1), (bytesNew G r n).2)
  | .range lo hi =>
    match u64InRange G r lo hi with
    | (.ok n, r) => (.ok (.u64 n), r)
    | (.error e, r) => (.error e, r)
  | .shuffle v => (.ok (.vec (vecShuffle G r v).1), (vecShuffle G r v).2)

/-- The part of the context of a frame that matters here (host/frame.rs:95-100), with a number (not in the code) that tells frames
apart. -/
structure PFrame (R : Type) where
  id : Nat
  prng : Option R

/-- The host: the base generator and the stack of contexts, top first. Not in the code: the number of the next frame, what was
asked for by which frame and what it got, latest last, and the frames that have been given a generator, latest last. -/
structure PSt (R : Type) where
  base : Option R
  frames : List (PFrame R)
  next : Nat
  log : List (Nat × Op × Res Out)
  order : List Nat

/-- host/frame.rs:412-431, the generator of the current frame: its own, or a new one seeded from the base generator. -/
def currentPrng (G : Gen R) (s : PSt R) (f : PFrame R) : Res (R × PSt R) :=
  match f.prng with
  | some r => .ok (r, s)
  | none =>
    match s.base with
    | none => .error (.host .context .internalError)
    | some b =>
      let p := subPrng G b
      .ok (p.1, { s with base := some p.2, order := s.order ++ [f.id] })

/-- host/frame.rs:400-450 `with_current_prng` -/
def withCurrent (G : Gen R) (s : PSt R) (o : Op) : PSt R × Res Out :=
  match s.frames with
  | [] => (s, .error (.host .context .internalError))
  | f :: fs =>
    match currentPrng G s f with
    | .error e => (s, .error e)
    | .ok (r, s) =>
      let q := perform G r o
      ({ s with frames := { f with prng := some q.2 } :: fs, log := s.log ++ [(f.id, o, q.1)] }, q.1)

/-- host.rs:3734-3764 `prng_reseed`, host.rs:3766-3794 the others. -/
def useOp (G : Gen R) (s : PSt R) (o : Op) : PSt R × Res Out :=
  match o with
  | .reseed seed =>
    if seed.length = seedBytes then withCurrent G s (.reseed seed)
    else (s, .error (.host .value .unexpectedSize))
  | o => withCurrent G s o

/-- Code of contracts. -/
inductive PProg where
  | ret
  | fail (e : Err)
  | op (o : Op) (k : Out → PProg)
  | call (body : PProg) (k : PProg)
  | tryCall (body : PProg) (k : Bool → PProg)

/-- host/frame.rs:494-499, host/frame.rs:233-289: a new context without a generator, dropped at the end. Neither the base generator
nor the generators of other frames are part of what is rolled back (host/frame.rs:253-289 `pop_context`). -/
def framed (s : PSt R) (f : PSt R → PSt R × Res Unit) : PSt R × Res Unit :=
  let q := f { s with frames := ⟨s.next, none⟩ :: s.frames, next := s.next + 1 }
  ({ q.1 with frames := q.1.frames.tail }, q.2)

/-- A failure that the caller can handle (host/error.rs:148-167 `is_recoverable`). -/
def recoverable : Err → Bool
  | .contract _ => true
  | .host t c => !(c = .internalError || (c = .exceededLimit && (t = .budget || t = .storage)))

/-- Runs code in the current frame. -/
def run (G : Gen R) : PProg → PSt R → PSt R × Res Unit
  | .ret, s => (s, .ok ())
  | .fail e, s => (s, .error e)
  | .op o k, s =>
    match useOp G s o with
    | (s, .error e) => (s, .error e)
    | (s, .ok v) => run G (k v) s
  | .call body k, s =>
    match framed s (run G body) with
    | (s, .error e) => (s, .error e)
    | (s, .ok _) => run G k s
  | .tryCall body k, s =>
    match framed s (run G body) with
    | (s, .error e) => if recoverable e then run G (k false) s else (s, .error e)
    | (s, .ok _) => run G (k true) s

/-- A host whose base generator was seeded, before the transaction (host.rs:548-565). -/
def start (G : Gen R) (seed : List Nat) : PSt R :=
  { base := some (baseFromSeed G seed), frames := [], next := 0, log := [], order := [] }

end Soroban.Prng
