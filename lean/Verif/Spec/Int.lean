import Verif.Model.Int
import Verif.Spec.Val
import Verif.Spec.ScVal
/-!
Specification side of C56: numbers, their words and bytes, and what the operations on 256-bit numbers mean.
-/
namespace Soroban.Spec

/-- The numbers of `I256` and of `U256`. -/
def InWide (signed : Bool) (r : Int) : Prop := if signed then -2^255 ≤ r ∧ r < 2^255 else 0 ≤ r ∧ r < 2^256

/-- The numbers that need no object: those of 56 bits. -/
def InSmall (signed : Bool) (r : Int) : Prop := if signed then -2^55 ≤ r ∧ r < 2^55 else 0 ≤ r ∧ r < 2^56

/-- A value stands for a 256-bit number: either the number is inside the value, above the tag, or the value is a handle of it. -/
inductive WideIs (objs : List HostObj) : Bool → Nat → Int → Prop
  | smallU (n : Nat) : n < 2^56 → WideIs objs false (n * 2^8 + 12) n
  | smallI (i : Int) : -2^55 ≤ i → i < 2^55 → WideIs objs true ((i % 2^56).toNat * 2^8 + 13) i
  | objU {v : Nat} (n : Nat) : visitObj objs v = .ok (.u256 n) → WideIs objs false v n
  | objI {v : Nat} (i : Int) : visitObj objs v = .ok (.i256 i) → WideIs objs true v i

/-- What an operation gives for numbers `a` and `b`. -/
inductive Means (signed : Bool) : AOp → Int → Int → Int → Prop
  | add {a b} : InWide signed (a + b) → Means signed .add a b (a + b)
  | sub {a b} : InWide signed (a - b) → Means signed .sub a b (a - b)
  | mul {a b} : InWide signed (a * b) → Means signed .mul a b (a * b)
  /-- The quotient is rounded towards zero: the remainder `r` is not further from zero than the dividend. -/
  | div {a b q r} : a = b * q + r → r.natAbs < b.natAbs → (0 ≤ a → 0 ≤ r) → (a ≤ 0 → r ≤ 0) → InWide signed q → Means signed .div a b q
  /-- The remainder is never negative. The one quotient that is out of range, of the least number by minus one, is an error. -/
  | rem {a b q r} : a = b * q + r → 0 ≤ r → r < b.natAbs → ¬ (a = -2^255 ∧ b = -1) → Means signed .remEuclid a b r
  | pow {a} {n : Nat} : InWide signed (a ^ n) → Means signed .pow a n (a ^ n)
  /-- The bits that leave the type are lost. -/
  | shl {a r} {n : Nat} : n < 256 → InWide signed r → (2:Int)^256 ∣ a * 2^n - r → Means signed .shl a n r
  /-- Rounded down, so the sign stays. -/
  | shr {a r} {n : Nat} : n < 256 → r * 2^n ≤ a → a < (r + 1) * 2^n → Means signed .shr a n r

/-- The right operand: a 32-bit number for powers and shifts, otherwise a number like the left one. -/
def RhsIs (objs : List HostObj) (signed : Bool) (op : AOp) (v : Nat) (b : Int) : Prop :=
  if op = .pow ∨ op = .shl ∨ op = .shr then ∃ n : Nat, n < 2^32 ∧ b = n ∧ v = n * 2^32 + 4
  else WideIs objs signed v b ∧ InWide signed b

/-- A number is handed back: as a value that stands for it, and with one new object if and only if it does not fit the value. -/
def Gives (objs objs' : List HostObj) (signed : Bool) (v : Nat) (r : Int) : Prop :=
  WideIs objs' signed v r ∧ (InSmall signed r → objs' = objs) ∧ (¬ InSmall signed r → ∃ o, objs' = objs ++ [o])

/-- The value of digits, the most significant first. -/
def digits (base : Nat) (ds : List Nat) : Int := ds.foldl (fun (a : Int) (d : Nat) => a * base + d) 0

/-- `x` is the number of `n` digits of which the first may carry the sign, in two's complement. -/
def TwosComplement (signed : Bool) (base n : Nat) (x : Int) (ds : List Nat) : Prop :=
  ds.length = n ∧ (∀ d ∈ ds, d < base) ∧ (base ^ n : Int) ∣ x - digits base ds ∧
  if signed then -(base ^ n / 2 : Int) ≤ x ∧ x < (base ^ n / 2 : Int) else 0 ≤ x ∧ x < (base ^ n : Int)

/-- How many words the numbers of a type have. -/
def _root_.Soroban.BTy.words : BTy → Nat
  | .u128 | .i128 => 2
  | .u256 | .i256 => 4

/-- Whether the numbers of a type have a sign. -/
def _root_.Soroban.BTy.signed : BTy → Bool
  | .i128 | .i256 => true
  | .u128 | .u256 => false

/-- The value is the handle of a number of the type. -/
def BigIs (objs : List HostObj) (t : BTy) (v : Nat) (x : Int) : Prop :=
  match t with
  | .u128 => ∃ n : Nat, x = n ∧ visitObj objs v = .ok (.u128 n)
  | .i128 => visitObj objs v = .ok (.i128 x)
  | .u256 => ∃ n : Nat, x = n ∧ visitObj objs v = .ok (.u256 n)
  | .i256 => visitObj objs v = .ok (.i256 x)

/-- A word as a contract sees it: the first word of a number with a sign is a signed word. -/
def seen (signed : Bool) (w : Nat) : Int := if signed = true ∧ 2^63 ≤ w then (w : Int) - 2^64 else w

/-! ### as a contract sees it -/

/-- The word `w`, in the hands of the contract, refers to the value `v`: itself, or the object behind the handle. -/
def Shows (l : Lin) (w v : Nat) : Prop := w < 2^64 ∧ Val.isGood w = true ∧ relToAbs l.tbl w = .ok v ∧ Sound l.objs v

/-- The word `w`, in the hands of the contract, stands for the 256-bit number `i`. -/
def ShowsWide (l : Lin) (signed : Bool) (w : Nat) (i : Int) : Prop := ∃ v, Shows l w v ∧ WideIs l.objs signed v i ∧ InWide signed i

/-- The right operand in the hands of the contract. -/
def ShowsRhs (l : Lin) (signed : Bool) (op : AOp) (w : Nat) (b : Int) : Prop :=
  if op = .pow ∨ op = .shl ∨ op = .shr then ∃ n : Nat, n < 2^32 ∧ b = n ∧ w = n * 2^32 + 4 else ShowsWide l signed w b

end Soroban.Spec
