import Verif.Model.Context
import Verif.Spec.Int
/-!
What the functions of the "context" module are to tell a contract.
-/
namespace Soroban.Spec
open Soroban Soroban.Context

/-- The word `w`, in the hands of a contract, stands for the ledger value. -/
inductive Tells (l : Lin) : Nat → ScVal → Prop
  /-- a number of 32 bits is in the upper half of the word, above the tag 4 -/
  | u32 (n : Nat) : n < 2^32 → Tells l (n * 2^32 + 4) (.u32 n)
  /-- a number of 56 bits is in the word, above the tag 6 -/
  | u64 (n : Nat) : n < 2^56 → Tells l (n * 2^8 + 6) (.u64 n)
  /-- larger numbers, byte strings and addresses are objects -/
  | u64Object (w v n : Nat) : 2^56 ≤ n → n < 2^64 → Shows l w v → visitObj l.objs v = .ok (.u64 n) → Tells l w (.u64 n)
  | bytes (w v : Nat) (b : List Nat) : Shows l w v → visitObj l.objs v = .ok (.bytes b) → Tells l w (.bytes b)
  | address (w v : Nat) (a : ScAddr) : Shows l w v → visitObj l.objs v = .ok (.address a) → Tells l w (.address a)

/-- The answers: `current` is the contract of the innermost frame, if it has one. `maxLive` is the last of the `maxTtl` ledgers
that start with the current one, if its number has 32 bits. -/
def answer (li : Ledger) (current : Option Nat) : CFn → Option ScVal
  | .version => some (.u32 li.protocol)
  | .sequence => some (.u32 li.live.seq)
  | .timestamp => some (.u64 li.timestamp)
  | .network => some (.bytes li.network)
  | .current => current.map fun id => .address (.contract id)
  | .maxLive => if li.live.seq + (li.live.maxTtl - 1) < 2^32 then some (.u32 (li.live.seq + (li.live.maxTtl - 1))) else none

end Soroban.Spec
