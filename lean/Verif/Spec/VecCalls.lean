import Verif.Model.Objects
/-!
What the host functions on vectors mean, over lists of values (C08).
-/
namespace Soroban.Spec
open Soroban

/-- An argument of a call: a vector (passed as a handle), a number, or any value. -/
inductive VArg where
  | vec (v : List Nat)
  | num (n : Nat)
  | val (x : Nat)

/-- A result: a new vector, a number, or an element. -/
inductive VOut where
  | vec (v : List Nat)
  | num (n : Nat)
  | val (x : Nat)

/-- The word `w` passes the argument. -/
def Passes (objs : List HostObj) : VArg → Nat → Prop
  | .vec v, w => visitObj objs w = .ok (.vec v)
  | .num n, w => n < 2^32 ∧ w = valU32 n
  | .val x, w => w = x

/-- The meaning of a function. Vectors have fewer than 2^32 elements. -/
inductive VecMeans : Fn → List VArg → VOut → Prop
  | new : VecMeans .vecNew [] (.vec [])
  | put (a b : List Nat) (x y : Nat) : VecMeans .vecPut [.vec (a ++ x :: b), .num a.length, .val y] (.vec (a ++ y :: b))
  | get (a b : List Nat) (x : Nat) : VecMeans .vecGet [.vec (a ++ x :: b), .num a.length] (.val x)
  | del (a b : List Nat) (x : Nat) : VecMeans .vecDel [.vec (a ++ x :: b), .num a.length] (.vec (a ++ b))
  | len (a : List Nat) : VecMeans .vecLen [.vec a] (.num a.length)
  | pushFront (a : List Nat) (x : Nat) : VecMeans .vecPushFront [.vec a, .val x] (.vec (x :: a))
  | popFront (a : List Nat) (x : Nat) : VecMeans .vecPopFront [.vec (x :: a)] (.vec a)
  | pushBack (a : List Nat) (x : Nat) : VecMeans .vecPushBack [.vec a, .val x] (.vec (a ++ [x]))
  | popBack (a : List Nat) (x : Nat) : VecMeans .vecPopBack [.vec (a ++ [x])] (.vec a)
  | front (a : List Nat) (x : Nat) : VecMeans .vecFront [.vec (x :: a)] (.val x)
  | back (a : List Nat) (x : Nat) : VecMeans .vecBack [.vec (a ++ [x])] (.val x)
  | insert (a b : List Nat) (x : Nat) : VecMeans .vecInsert [.vec (a ++ b), .num a.length, .val x] (.vec (a ++ x :: b))
  | append (a b : List Nat) : VecMeans .vecAppend [.vec a, .vec b] (.vec (a ++ b))
  | slice (a b c : List Nat) :
      VecMeans .vecSlice [.vec (a ++ b ++ c), .num a.length, .num (a.length + b.length)] (.vec b)

/-- The vectors among the arguments have fewer than 2^32 elements, as every vector of the host. -/
def ArgsFit (args : List VArg) : Prop := ∀ v, VArg.vec v ∈ args → v.length < 2^32

/-- So has the vector of a result. -/
def OutFits : VOut → Prop
  | .vec v => v.length < 2^32
  | _ => True

/-- How a result is handed back: numbers and elements as values without a new object, a vector as the handle of a new object. -/
def Returns (objs objs' : List HostObj) (r : Ret) : VOut → Prop
  | .num n => objs' = objs ∧ r = .val (valU32 n)
  | .val x => objs' = objs ∧ r = .val x
  | .vec v => objs' = objs ++ [.vec v] ∧ ∃ w, r = .val w ∧ visitObj objs' w = .ok (.vec v)

end Soroban.Spec
