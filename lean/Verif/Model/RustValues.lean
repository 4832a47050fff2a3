import Verif.Model.SacValues
/-!
The conversions between values of Rust types and host values in soroban-env-common: convert.rs:60-416, option.rs, result.rs, tuple.rs and
the conversions of `()`, `bool`, `u32`, `i32` in val.rs, with the host as the environment.

The environment's functions for numbers (`obj_from_u64`, `obj_to_i128_hi64`, ...) make objects of, and read, numbers as in `Model/Int`
(C56). Simplifications: budget charges are dropped; the error type of `Result` is `Error` itself (an error type of a contract
converts to and from it); `u64` is converted to and from time points and durations through `TimepointVal` and `DurationVal`, which are here two
more types of numbers.
-/
namespace Soroban.Rust
open Soroban Soroban.ContractTypes

/-- The Rust types that are converted: option.rs, result.rs, tuple.rs, convert.rs. -/
inductive Ty where
  | unit | bool
  | num (t : IntTy)
  | error
  | opt (t : Ty)
  | res (t : Ty)
  | tup (ts : List Ty)

/-- The values of these types. -/
inductive RVal where
  | unit
  | bool (b : Bool)
  | num (t : IntTy) (i : Int)
  | error (type code : Nat)
  | none
  | some (x : RVal)
  | ok (x : RVal)
  | err (type code : Nat)
  | tup (xs : List RVal)

/-- The object of a number that does not fit a word: convert.rs:76-87 (`i64`), 143-156 (`u64`), 172-183 (time points), 199-211
(durations), 246-261 (`i128`), 296-310 (`u128`), 347-362 (`I256`), 399-414 (`U256`). Numbers of 32 bits always fit. -/
def numObj : IntTy → Int → Res HostObj
  | .u32, _ | .i32, _ => .error conversionErr
  | .u64, i => .ok (.u64 i.toNat)
  | .i64, i => .ok (.i64 i)
  | .timepoint, i => .ok (.timepoint i.toNat)
  | .duration, i => .ok (.duration i.toNat)
  | .u128, i => .ok (.u128 (u128FromPieces (u128Hi i.toNat) (u128Lo i.toNat)))
  | .i128, i => .ok (.i128 (i128FromPieces (i128Hi i) (i128Lo i)))
  | .u256, i => let p := u256IntoPieces i.toNat; .ok (.u256 (u256FromPieces p.1 p.2.1 p.2.2.1 p.2.2.2))
  | .i256, i => let p := i256IntoPieces i; .ok (.i256 (i256FromPieces p.1 p.2.1 p.2.2.1 p.2.2.2))

/-- The same conversions: a small value if there is one, otherwise a new object. -/
def writeNum (objs : List HostObj) (t : IntTy) (i : Int) : Res (List HostObj × Nat) :=
  match toSmall t i with
  | some v => .ok (objs, v)
  | none => do let o ← numObj t i; addObj objs o

mutual
/-- The conversion of a Rust value to a host value: val.rs:533-580 (`bool`, `()`, `u32`, `i32`), option.rs:19-31, result.rs:26-44 and
tuple.rs:25-37 with host.rs:1053-1062 `vec_new_from_slice`. -/
def write (objs : List HostObj) : RVal → Res (List HostObj × Nat)
  | .unit => .ok (objs, valVoid)
  | .bool b => .ok (objs, valBool b)
  | .num t i => writeNum objs t i
  | .error t c => .ok (objs, valError t c)
  | .none => .ok (objs, valVoid)
  | .some x => write objs x
  | .ok x => write objs x
  | .err t c => .ok (objs, valError t c)
  | .tup xs => do
    let (objs, vs) ← writeAll objs xs
    newVec objs vs
/-- tuple.rs:31-33: the elements in order. -/
def writeAll (objs : List HostObj) : List RVal → Res (List HostObj × List Nat)
  | [] => .ok (objs, [])
  | x :: xs => do
    let (objs, v) ← write objs x
    let (objs, vs) ← writeAll objs xs
    .ok (objs, v :: vs)
end

/-- The type of the object of a number. -/
def numTag : IntTy → Tag
  | .u32 => .U32Val | .i32 => .I32Val
  | .u64 => .U64Object | .i64 => .I64Object | .timepoint => .TimepointObject | .duration => .DurationObject
  | .u128 => .U128Object | .i128 => .I128Object | .u256 => .U256Object | .i256 => .I256Object

/-- The number in an object. -/
def objNum : IntTy → HostObj → Res Int
  | .u64, .u64 n => .ok n
  | .i64, .i64 i => .ok i
  | .timepoint, .timepoint n => .ok n
  | .duration, .duration n => .ok n
  | .u128, .u128 n => .ok (u128FromPieces (u128Hi n) (u128Lo n))
  | .i128, .i128 i => .ok (i128FromPieces (i128Hi i) (i128Lo i))
  | .u256, .u256 n => let p := u256IntoPieces n; .ok (u256FromPieces p.1 p.2.1 p.2.2.1 p.2.2.2)
  | .i256, .i256 i => let p := i256IntoPieces i; .ok (i256FromPieces p.1 p.2.1 p.2.2.1 p.2.2.2)
  | _, _ => .error (.host .object .unexpectedType)

/-- The number of a host value: convert.rs:62-74 (`i64`), 99-111 (`u64`), 158-170 (time points), 185-197 (durations), 214-228
(`i128`), 264-278 (`u128`), 313-329 (`I256`), 365-381 (`U256`), and for `u32`, `i32` val.rs:511-531. -/
def readNum (objs : List HostObj) (t : IntTy) (v : Nat) : Res Int :=
  match ofSmall t v with
  | some i => .ok i
  | none => match t with
    | .u32 | .i32 => .error conversionErr
    | _ => do
      let h ← asObj (numTag t) v
      let o ← visitObj objs h
      objNum t o

mutual
/-- The conversion of a host value to a Rust value: val.rs:482-509 (`()`, `bool`), option.rs:3-17, result.rs:3-24 and tuple.rs:8-23 with
host.rs:1064-1082 `vec_unpack_to_slice`. -/
def read (objs : List HostObj) : Ty → Nat → Res RVal
  | .unit, v => if Val.tag v = .Void then .ok .unit else .error conversionErr
  | .bool, v => do let b ← SacValues.asBool v; .ok (.bool b)
  | .num t, v => do let i ← readNum objs t v; .ok (.num t i)
  | .error, v => if Val.tag v = .Error then .ok (.error (Val.minor v) (Val.major v)) else .error conversionErr
  | .opt t, v => if v = valVoid then .ok .none else do let x ← read objs t v; .ok (.some x)
  | .res t, v =>
    if Val.tag v = .Error then .ok (.err (Val.minor v) (Val.major v))
    else do let x ← read objs t v; .ok (.ok x)
  | .tup ts, v => do
    let h ← asObj .VecObject v
    let l ← visitVec objs h
    if l.length ≠ ts.length then .error (.host .object .unexpectedSize)
    else do let xs ← readAll objs ts l; .ok (.tup xs)
/-- tuple.rs:19: the elements in order. -/
def readAll (objs : List HostObj) : List Ty → List Nat → Res (List RVal)
  | t :: ts, v :: vs => do
    let x ← read objs t v
    let xs ← readAll objs ts vs
    .ok (x :: xs)
  | _, _ => .ok []
end

end Soroban.Rust
