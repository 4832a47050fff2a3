import Verif.Model.ScVal
/-!
The XDR form of values (RFC 4506 and Stellar-contract.x), as a list of fields, for C73.
-/
namespace Soroban.Xdr.Spec
open Soroban

/-- A number of so many bytes, in two's complement if it is negative; or data with its length. -/
inductive Field where
  | num (size : Nat) (v : Int)
  | data (d : List Nat)

/-- The number that bytes stand for, the most significant first. -/
def value (b : List Nat) : Nat := b.foldl (fun a x => 256 * a + x) 0

/-- The bytes of a number. -/
structure IsNum (size : Nat) (v : Int) (b : List Nat) : Prop where
  length : b.length = size
  bytes : ∀ x ∈ b, x < 256
  value : (value b : Int) = v % 256 ^ size

/-- The bytes of a field. Data are preceded by their length in four bytes, and followed by at most three zeros, so that the whole is
a number of groups of four. -/
def Field.Is : Field → List Nat → Prop
  | .num n v, b => IsNum n v b
  | .data d, b => ∃ len zeros, b = len ++ d ++ zeros ∧ IsNum 4 d.length len ∧ (∀ x ∈ zeros, x = 0) ∧ zeros.length ≤ 3 ∧ b.length % 4 = 0

/-- The bytes of fields in a row. -/
def Laid : List Field → List Nat → Prop
  | [], b => b = []
  | f :: fs, b => ∃ x y, b = x ++ y ∧ f.Is x ∧ Laid fs y

/-- The fields of an address. -/
def addrFields : ScAddr → List Field
  | .account k => [.num 4 0, .num 4 0, .num 32 k]
  | .contract k => [.num 4 1, .num 32 k]
  | .muxedAccount i k => [.num 4 2, .num 8 i, .num 32 k]
  | .claimableBalance k => [.num 4 3, .num 4 0, .num 32 k]
  | .liquidityPool k => [.num 4 4, .num 32 k]

mutual
/-- The fields of a value: its kind, then what belongs to it. -/
def fields : ScVal → List Field
  | .bool b => [.num 4 0, .num 4 (if b then 1 else 0)]
  | .void => [.num 4 1]
  | .error t c => [.num 4 2, .num 4 t, .num 4 c]
  | .u32 n => [.num 4 3, .num 4 n]
  | .i32 i => [.num 4 4, .num 4 i]
  | .u64 n => [.num 4 5, .num 8 n]
  | .i64 i => [.num 4 6, .num 8 i]
  | .timepoint n => [.num 4 7, .num 8 n]
  | .duration n => [.num 4 8, .num 8 n]
  | .u128 hi lo => [.num 4 9, .num 8 hi, .num 8 lo]
  | .i128 hi lo => [.num 4 10, .num 8 hi, .num 8 lo]
  | .u256 a b c d => [.num 4 11, .num 8 a, .num 8 b, .num 8 c, .num 8 d]
  | .i256 a b c d => [.num 4 12, .num 8 a, .num 8 b, .num 8 c, .num 8 d]
  | .bytes b => [.num 4 13, .data b]
  | .string b => [.num 4 14, .data b]
  | .symbol b => [.num 4 15, .data b]
  | .vec none => [.num 4 16, .num 4 0]
  | .vec (some l) => .num 4 16 :: .num 4 1 :: .num 4 l.length :: fieldsList l
  | .map none => [.num 4 17, .num 4 0]
  | .map (some m) => .num 4 17 :: .num 4 1 :: .num 4 m.length :: fieldsEntries m
  | .address a => .num 4 18 :: addrFields a
  | .contractInstance _ _ => [.num 4 19]
  | .ledgerKeyContractInstance => [.num 4 20]
  | .ledgerKeyNonce i => [.num 4 21, .num 8 i]
  | .executableTag b => [.num 4 22, .data b]

/-- The fields of the elements of a vector. -/
def fieldsList : List ScVal → List Field
  | [] => []
  | s :: ss => fields s ++ fieldsList ss

/-- The fields of the entries of a map. -/
def fieldsEntries : List (ScVal × ScVal) → List Field
  | [] => []
  | (k, v) :: es => fields k ++ (fields v ++ fieldsEntries es)
end

end Soroban.Xdr.Spec
