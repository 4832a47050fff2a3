import Verif.Model.Convert
import Verif.Model.Memory
import Verif.Model.Strkey
/-!
Model of the serialization of values: `serialize_to_bytes` and `deserialize_from_bytes` (soroban-env-host/src/host.rs), the metered
reading and writing of XDR (soroban-env-host/src/host/metered_xdr.rs) and the XDR form of `ScVal`, which comes from the
`stellar-xdr` crate and is written from RFC 4506 and Stellar-contract.x.

Simplifications: budget charges are dropped. The crate counts levels of nesting (budget/limits.rs:12-32, at most 500) the same way
when it reads and when it writes; which values pass is the parameter `shallow`. Errors of the crate are one error. A contract
instance is refused while reading (the host refuses it in any case, as it cannot be represented); it is never written, as no host
value stands for one.
-/
namespace Soroban.Xdr
open Soroban.Strkey (ofBe)

/-- A number as `n` bytes, most significant first. -/
def be (n v : Nat) : List Nat := Strkey.beBytes n v

/-- The number of zeros that follow data of `n` bytes: the total is a multiple of four. -/
def padding (n : Nat) : Nat := (4 - n % 4) % 4

/-- Variable-length opaque data and strings: the length, the data, zeros. -/
def writeVar (b : List Nat) : List Nat := be 4 b.length ++ b ++ List.replicate (padding b.length) 0

/-- XDR `ScAddress`. -/
def writeAddr : ScAddr → List Nat
  | .account k => be 4 0 ++ be 4 0 ++ be 32 k
  | .contract k => be 4 1 ++ be 32 k
  | .muxedAccount i k => be 4 2 ++ be 8 i ++ be 32 k
  | .claimableBalance k => be 4 3 ++ be 4 0 ++ be 32 k
  | .liquidityPool k => be 4 4 ++ be 32 k

mutual
/-- XDR `ScVal`: the discriminant, then the case. -/
def write : ScVal → List Nat
  | .bool b => be 4 0 ++ be 4 (if b then 1 else 0)
  | .void => be 4 1
  | .error t c => be 4 2 ++ be 4 t ++ be 4 c
  | .u32 n => be 4 3 ++ be 4 n
  | .i32 i => be 4 4 ++ be 4 (asU32 i)
  | .u64 n => be 4 5 ++ be 8 n
  | .i64 i => be 4 6 ++ be 8 (asU64 i)
  | .timepoint n => be 4 7 ++ be 8 n
  | .duration n => be 4 8 ++ be 8 n
  | .u128 hi lo => be 4 9 ++ be 8 hi ++ be 8 lo
  | .i128 hi lo => be 4 10 ++ be 8 (asU64 hi) ++ be 8 lo
  | .u256 a b c d => be 4 11 ++ be 8 a ++ be 8 b ++ be 8 c ++ be 8 d
  | .i256 a b c d => be 4 12 ++ be 8 (asU64 a) ++ be 8 b ++ be 8 c ++ be 8 d
  | .bytes b => be 4 13 ++ writeVar b
  | .string b => be 4 14 ++ writeVar b
  | .symbol b => be 4 15 ++ writeVar b
  | .vec none => be 4 16 ++ be 4 0
  | .vec (some l) => be 4 16 ++ be 4 1 ++ be 4 l.length ++ writeList l
  | .map none => be 4 17 ++ be 4 0
  | .map (some m) => be 4 17 ++ be 4 1 ++ be 4 m.length ++ writeEntries m
  | .address a => be 4 18 ++ writeAddr a
  | .contractInstance _ _ => be 4 19
  | .ledgerKeyContractInstance => be 4 20
  | .ledgerKeyNonce i => be 4 21 ++ be 8 (asU64 i)
  | .executableTag b => be 4 22 ++ writeVar b

/-- The elements of an array, one after the other. -/
def writeList : List ScVal → List Nat
  | [] => []
  | s :: ss => write s ++ writeList ss

/-- The entries of a map, each the key and the value. -/
def writeEntries : List (ScVal × ScVal) → List Nat
  | [] => []
  | (k, v) :: es => write k ++ write v ++ writeEntries es
end

/-! ### Reading -/

/-- Reading consumes a prefix of the input, or fails. -/
abbrev Reader (α : Type) := List Nat → Option (α × List Nat)

def ret {α : Type} (x : α) : Reader α := fun b => some (x, b)

def fail {α : Type} : Reader α := fun _ => none

def andThen {α β : Type} (r : Reader α) (f : α → Reader β) : Reader β := fun b =>
  match r b with
  | some (x, rest) => f x rest
  | none => none

/-- `n` bytes. -/
def readBytes (n : Nat) : Reader (List Nat) := fun b => if n ≤ b.length then some (b.take n, b.drop n) else none

/-- A number of `n` bytes, most significant first. -/
def readNat (n : Nat) : Reader Nat := andThen (readBytes n) fun b => ret (ofBe b)

/-- Variable-length data of at most `max` bytes; the zeros after it must be zeros. -/
def readVar (max : Nat) : Reader (List Nat) :=
  andThen (readNat 4) fun n =>
    if n > max then fail
    else andThen (readBytes n) fun data =>
      andThen (readBytes (padding n)) fun pad => if pad.all (· == 0) then ret data else fail

/-- Elements one after the other. -/
def readMany {α : Type} (r : Reader α) : Nat → Reader (List α)
  | 0 => ret []
  | n + 1 => andThen r fun x => andThen (readMany r n) fun xs => ret (x :: xs)

/-- An array of any length. -/
def readArr {α : Type} (r : Reader α) : Reader (List α) := andThen (readNat 4) fun n => readMany r n

/-- An optional part. -/
def readOpt {α : Type} (r : Reader α) : Reader (Option α) :=
  andThen (readNat 4) fun k => match k with
    | 0 => ret none
    | 1 => andThen r fun x => ret (some x)
    | _ => fail

/-- A constant of four bytes. -/
def expect (c : Nat) : Reader Unit := andThen (readNat 4) fun k => if k = c then ret () else fail

/-- XDR `ScAddress`. -/
def readAddr : Reader ScAddr :=
  andThen (readNat 4) fun k => match k with
    | 0 => andThen (expect 0) fun _ => andThen (readNat 32) fun k => ret (.account k)
    | 1 => andThen (readNat 32) fun k => ret (.contract k)
    | 2 => andThen (readNat 8) fun i => andThen (readNat 32) fun k => ret (.muxedAccount i k)
    | 3 => andThen (expect 0) fun _ => andThen (readNat 32) fun k => ret (.claimableBalance k)
    | 4 => andThen (readNat 32) fun k => ret (.liquidityPool k)
    | _ => fail

/-- XDR `ScError`: ten types; the code of a contract error is any number, the codes of the others are ten. -/
def readError : Reader ScVal :=
  andThen (readNat 4) fun t => andThen (readNat 4) fun c =>
    if t < 10 ∧ (t = 0 ∨ c < 10) then ret (.error t c) else fail

/-- The largest `u32`. -/
def maxU32 : Nat := 4294967295

/-- The case of `ScVal` with discriminant `k`; `r` reads the values inside. -/
def readCase (r : Reader ScVal) (k : Nat) : Reader ScVal :=
  match k with
  | 0 => andThen (readNat 4) fun n => match n with | 0 => ret (.bool false) | 1 => ret (.bool true) | _ => fail
  | 1 => ret .void
  | 2 => readError
  | 3 => andThen (readNat 4) fun n => ret (.u32 n)
  | 4 => andThen (readNat 4) fun n => ret (.i32 (asI32 n))
  | 5 => andThen (readNat 8) fun n => ret (.u64 n)
  | 6 => andThen (readNat 8) fun n => ret (.i64 (asI64 n))
  | 7 => andThen (readNat 8) fun n => ret (.timepoint n)
  | 8 => andThen (readNat 8) fun n => ret (.duration n)
  | 9 => andThen (readNat 8) fun hi => andThen (readNat 8) fun lo => ret (.u128 hi lo)
  | 10 => andThen (readNat 8) fun hi => andThen (readNat 8) fun lo => ret (.i128 (asI64 hi) lo)
  | 11 => andThen (readNat 8) fun a => andThen (readNat 8) fun b => andThen (readNat 8) fun c => andThen (readNat 8) fun d =>
      ret (.u256 a b c d)
  | 12 => andThen (readNat 8) fun a => andThen (readNat 8) fun b => andThen (readNat 8) fun c => andThen (readNat 8) fun d =>
      ret (.i256 (asI64 a) b c d)
  | 13 => andThen (readVar maxU32) fun b => ret (.bytes b)
  | 14 => andThen (readVar maxU32) fun b => ret (.string b)
  | 15 => andThen (readVar 32) fun b => ret (.symbol b)
  | 16 => andThen (readOpt (readArr r)) fun l => ret (.vec l)
  | 17 => andThen (readOpt (readArr (andThen r fun k => andThen r fun v => ret (k, v)))) fun m => ret (.map m)
  | 18 => andThen readAddr fun a => ret (.address a)
  | 20 => ret .ledgerKeyContractInstance
  | 21 => andThen (readNat 8) fun n => ret (.ledgerKeyNonce (asI64 n))
  | 22 => andThen (readVar maxU32) fun b => ret (.executableTag b)
  | _ => fail

/-- XDR `ScVal`; `fuel` bounds the nesting, the length of the input suffices. -/
def read : (fuel : Nat) → Reader ScVal
  | 0 => fail
  | f + 1 => andThen (readNat 4) (readCase (read f))

/-- host/metered_xdr.rs:40-46 `metered_from_xdr` at type `ScVal`: nothing may follow the value. -/
def fromXdr (shallow : ScVal → Bool) (b : List Nat) : Option ScVal :=
  match read b.length b with
  | some (s, []) => if shallow s then some s else none
  | _ => none

/-- budget/limits.rs:31, the limit on the length of written data. -/
def maxLen : Nat := 32 * 1024 * 1024

/-- host/metered_xdr.rs:56-68 `metered_write_xdr` at type `ScVal`. -/
def toXdr (shallow : ScVal → Bool) (s : ScVal) : Res (List Nat) :=
  if shallow s && decide ((write s).length ≤ maxLen) then .ok (write s) else .error (.host .budget .exceededLimit)

mutual
/-- soroban-env-common/src/val.rs:645-661 `can_represent_scval_recursive` -/
def canRepresentRec : ScVal → Bool
  | .vec none => false
  | .map none => false
  | .vec (some l) => canRepresentList l
  | .map (some m) => canRepresentEntries m
  | .contractInstance _ _ | .ledgerKeyContractInstance | .ledgerKeyNonce _ => false
  | _ => true

/-- val.rs:650-652, the elements of a vector. -/
def canRepresentList : List ScVal → Bool
  | [] => true
  | s :: ss => canRepresentRec s && canRepresentList ss

/-- val.rs:653-658, the entries of a map. -/
def canRepresentEntries : List (ScVal × ScVal) → Bool
  | [] => true
  | (k, v) :: es => canRepresentRec k && canRepresentRec v && canRepresentEntries es
end

/-- host.rs:2585-2594 `serialize_to_bytes`, with `d` levels of depth left. -/
def serialize (shallow : ScVal → Bool) (d : Nat) (objs : List HostObj) (v : Nat) : Res (List HostObj × Nat) := do
  let s ← fromVal false objs d v
  let b ← toXdr shallow s
  addObj objs (.bytes b)

/-- The error of a failed reading of XDR (host/error.rs, `map_err`); its code does not matter here. -/
def xdrError : Err := .host .value .invalidInput

/-- host.rs:2597-2620 `deserialize_from_bytes`, with `d` levels of depth left. -/
def deserialize (shallow : ScVal → Bool) (d : Nat) (objs : List HostObj) (h : Nat) : Res (List HostObj × Nat) := do
  let b ← visitBytes objs h
  match fromXdr shallow b with
  | none => .error xdrError
  | some s => if canRepresentRec s then toVal d objs s else .error (.host .value .unexpectedType)

end Soroban.Xdr
