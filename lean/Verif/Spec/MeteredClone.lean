import Verif.Model.MeteredClone
/-!
The memory a copy takes, for C91: the blocks it owns on the heap, by the declared sizes of the types.
-/
namespace Soroban.Clone.Spec
open Soroban Soroban.Budget
open Soroban.Keys (LKey)
open Soroban.Preimage (Exec XFn XInv)

mutual
/-- The blocks owned by a value: one per byte string, one per vector or map with what is in it. -/
def valBlocks (tag : Nat → Option Nat) : ScVal → List Nat
  | .vec (some v) => 96 * v.length :: valsBlocks tag v
  | .map (some m) => 192 * m.length :: pairsBlocks tag m
  | .bytes b | .string b | .symbol b | .executableTag b => [b.length]
  | .contractInstance ex (some m) => (tag ex).toList ++ 192 * m.length :: pairsBlocks tag m
  | .contractInstance ex none => (tag ex).toList
  | _ => []
def valsBlocks (tag : Nat → Option Nat) : List ScVal → List Nat
  | [] => []
  | v :: vs => valBlocks tag v ++ valsBlocks tag vs
def pairsBlocks (tag : Nat → Option Nat) : List (ScVal × ScVal) → List Nat
  | [] => []
  | (k, v) :: m => valBlocks tag k ++ valBlocks tag v ++ pairsBlocks tag m
end

mutual
/-- The levels of nesting of a value. -/
def levels : ScVal → Nat
  | .vec (some v) => 1 + levelsAll v
  | .map (some m) => 1 + levelsPairs m
  | .contractInstance _ (some m) => 1 + levelsPairs m
  | _ => 1
def levelsAll : List ScVal → Nat
  | [] => 0
  | v :: vs => max (levels v) (levelsAll vs)
def levelsPairs : List (ScVal × ScVal) → Nat
  | [] => 0
  | (k, v) :: m => max (max (levels k) (levels v)) (levelsPairs m)
end

mutual
/-- No vector or map in the value is absent. -/
def Whole : ScVal → Prop
  | .vec none | .map none => False
  | .vec (some v) => WholeAll v
  | .map (some m) => WholePairs m
  | .contractInstance _ (some m) => WholePairs m
  | _ => True
def WholeAll : List ScVal → Prop
  | [] => True
  | v :: vs => Whole v ∧ WholeAll vs
def WholePairs : List (ScVal × ScVal) → Prop
  | [] => True
  | (k, v) :: m => Whole k ∧ Whole v ∧ WholePairs m
end

/-- The blocks of a ledger key. -/
def keyBlocks (tag : Nat → Option Nat) : LKey → List Nat
  | .contractData _ k _ => valBlocks tag k
  | _ => []

/-- The blocks of a ledger entry. -/
def entryBlocks (tag : Nat → Option Nat) : LedgerData → List Nat
  | .contractData k v => valBlocks tag v ++ valBlocks tag k
  | .contractCode c => [c.length]
  | .account h s p => h.length :: 72 * s.length :: (s.filterMap id).map List.length ++ p.toList.map (33 * ·)
  | .trustline | .other => []

/-- The blocks of an authorized function. -/
def fnBlocks (tag : Nat → Option Nat) : XFn → List Nat
  | .call _ f as => f.length :: 96 * as.length :: valsBlocks tag as
  | .create _ ex => (tagLen ex).toList
  | .createV2 a => (tagLen a.exec).toList ++ 96 * a.args.length :: valsBlocks tag a.args

mutual
/-- The blocks of a tree of invocations. -/
def invBlocks (tag : Nat → Option Nat) : XInv → List Nat
  | .mk f subs => fnBlocks tag f ++ 200 * subs.length :: invsBlocks tag subs
def invsBlocks (tag : Nat → Option Nat) : List XInv → List Nat
  | [] => []
  | x :: xs => invBlocks tag x ++ invsBlocks tag xs
end

/-- The levels of nesting of the arguments of an authorized function, and whether they are whole. -/
def fnLevels : XFn → Nat
  | .call _ _ as => levelsAll as
  | .create _ _ => 0
  | .createV2 a => levelsAll a.args
def WholeFn : XFn → Prop
  | .call _ _ as => WholeAll as
  | .create _ _ => True
  | .createV2 a => WholeAll a.args

mutual
/-- The same for all functions of a tree. -/
def invLevels : XInv → Nat
  | .mk f subs => max (fnLevels f) (invsLevels subs)
def invsLevels : List XInv → Nat
  | [] => 0
  | x :: xs => max (invLevels x) (invsLevels xs)
end
mutual
def WholeInv : XInv → Prop
  | .mk f subs => WholeFn f ∧ WholeInvs subs
def WholeInvs : List XInv → Prop
  | [] => True
  | x :: xs => WholeInv x ∧ WholeInvs xs
end

/-- A creation in the first format, of a contract that refers to an executable tag. -/
def Untold : XFn → Prop
  | .create _ (.ref _ _) => True
  | _ => False
mutual
/-- No function of the tree is such a creation. -/
def Told : XInv → Prop
  | .mk f subs => ¬ Untold f ∧ ToldAll subs
def ToldAll : List XInv → Prop
  | [] => True
  | x :: xs => Told x ∧ ToldAll xs
end

/-- The charges for a copy of a type of some size that owns some blocks: copying it, and for each block allocating and copying it. -/
def charges (size : Nat) (blocks : List Nat) : List (Nat × Nat) :=
  (2, size) :: blocks.flatMap (fun n => [(1, n), (2, n)])

/-- Charging one after the other, until one is refused. -/
def chargeAll : List (Nat × Nat) → B → B × Res Unit
  | [], b => (b, .ok ())
  | (ty, n) :: cs, b =>
    match b.charge ty 1 (some n) with
    | (b, .error e) => (b, .error e)
    | (b, .ok ()) => chargeAll cs b

/-- A metered copy of something of some size and blocks, that has some levels: it succeeds exactly if there is depth for the levels and
the budget allows all the charges; then these are what was charged, and nothing else has changed. With enough depth, the charges are
also what decides how it fails. -/
structure CopyOf (w : Work) (size : Nat) (blocks : List Nat) (depth : Nat) : Prop where
  ok : ∀ s, s.b.depth ≤ u32Max → ((run w s).2 = .ok () ↔ depth ≤ s.b.depth ∧ (chargeAll (charges size blocks) s.b).2 = .ok ())
  does : ∀ s, s.b.depth ≤ u32Max → depth ≤ s.b.depth → run w s =
    ({ s with b := (chargeAll (charges size blocks) s.b).1 }, (chargeAll (charges size blocks) s.b).2)

/-- It is never made. -/
def NeverCopies (w : Work) : Prop := ∀ s, (run w s).2 ≠ .ok ()

end Soroban.Clone.Spec
