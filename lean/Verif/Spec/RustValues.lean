import Verif.Model.RustValues
import Verif.Spec.ScVal
import Verif.Spec.Val
/-!
What values of Rust types mean, for C103.
-/
namespace Soroban.Rust.Spec
open Soroban Soroban.Spec

/-- The ledger value of a number. -/
def number : IntTy → Int → ScVal
  | .u32, i => .u32 i.toNat
  | .i32, i => .i32 i
  | .u64, i => .u64 i.toNat
  | .i64, i => .i64 i
  | .timepoint, i => .timepoint i.toNat
  | .duration, i => .duration i.toNat
  | .u128, i => .u128 (i / 2 ^ 64).toNat (i % 2 ^ 64).toNat
  | .i128, i => .i128 (i / 2 ^ 64) (i % 2 ^ 64).toNat
  | .u256, i => .u256 (i / 2 ^ 192).toNat (i / 2 ^ 128 % 2 ^ 64).toNat (i / 2 ^ 64 % 2 ^ 64).toNat (i % 2 ^ 64).toNat
  | .i256, i => .i256 (i / 2 ^ 192) (i / 2 ^ 128 % 2 ^ 64).toNat (i / 2 ^ 64 % 2 ^ 64).toNat (i % 2 ^ 64).toNat

mutual
/-- The ledger value of a Rust value: nothing is void, something and a success are what they contain, a failure is its error, and a tuple
is a vector. -/
def meaning : RVal → ScVal
  | .unit => .void
  | .bool b => .bool b
  | .num t i => number t i
  | .error t c => .error t c
  | .none => .void
  | .some x => meaning x
  | .ok x => meaning x
  | .err t c => .error t c
  | .tup xs => .vec (some (meanings xs))
/-- The same for lists. -/
def meanings : List RVal → List ScVal
  | [] => []
  | x :: xs => meaning x :: meanings xs
end

/-- The errors there are: errors of contracts, which have any number, and ten numbers of nine other types. -/
def ErrorOk (type code : Nat) : Prop := type < 10 ∧ code < 2 ^ 32 ∧ (type = 0 ∨ code < 10)

mutual
/-- The values of a type. -/
def Has : Ty → RVal → Prop
  | .unit, .unit => True
  | .bool, .bool _ => True
  | .num t, .num t' i => t' = t ∧ inType t i
  | .error, .error t c => ErrorOk t c
  | .opt _, .none => True
  | .opt t, .some x => Has t x
  | .res t, .ok x => Has t x
  | .res _, .err t c => ErrorOk t c
  | .tup ts, .tup xs => HasAll ts xs
  | _, _ => False
/-- The same for the elements of a tuple. -/
def HasAll : List Ty → List RVal → Prop
  | [], [] => True
  | t :: ts, x :: xs => Has t x ∧ HasAll ts xs
  | _, _ => False
end

/-- The types with a value that is void. -/
def CanBeVoid : Ty → Prop
  | .unit => True
  | .opt _ => True
  | .res t => CanBeVoid t
  | _ => False

/-- The types with a value that is an error. -/
def CanBeError : Ty → Prop
  | .error => True
  | .opt t => CanBeError t
  | .res _ => True
  | _ => False

mutual
/-- The types in which nothing is told apart from something, and failures from successes. -/
def Plain : Ty → Prop
  | .opt t => ¬ CanBeVoid t ∧ Plain t
  | .res t => ¬ CanBeError t ∧ Plain t
  | .tup ts => PlainAll ts
  | _ => True
/-- The same for the elements of a tuple. -/
def PlainAll : List Ty → Prop
  | [] => True
  | t :: ts => Plain t ∧ PlainAll ts
end

mutual
/-- How many objects a value needs at most. -/
def size : RVal → Nat
  | .some x => size x
  | .ok x => size x
  | .tup xs => 1 + sizes xs
  | _ => 1
/-- The same for lists. -/
def sizes : List RVal → Nat
  | [] => 0
  | x :: xs => size x + sizes xs
end

end Soroban.Rust.Spec
