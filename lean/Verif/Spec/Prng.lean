import Verif.Model.Prng
/-!
What contracts can rely on about their pseudo-random numbers, in terms of streams.
-/
namespace Soroban.Prng.Spec
open Soroban Soroban.Prng
variable {R : Type}

/-- The `n`th seed of 32 bytes drawn from a generator, counted from 0. -/
def nthSeed (G : Gen R) : R → Nat → List Nat
  | r, 0 => (G.fill r 32).1
  | r, n + 1 => nthSeed G (G.fill r 32).2 n

/-- What one generator gives for a list of requests, one after the other. -/
def stream (G : Gen R) : R → List Op → List (Res Out)
  | _, [] => []
  | r, o :: os => (perform G r o).1 :: stream G (perform G r o).2 os

/-- The requests of frame `i`, in order. -/
def asked (i : Nat) (log : List (Nat × Op × Res Out)) : List Op := (log.filter (fun e => e.1 == i)).map (fun e => e.2.1)

/-- What frame `i` got, in order. -/
def got (i : Nat) (log : List (Nat × Op × Res Out)) : List (Res Out) := (log.filter (fun e => e.1 == i)).map (fun e => e.2.2)

end Soroban.Prng.Spec
