import Verif.Model.Objects
import Mathlib.Algebra.Polynomial.Basic
import Mathlib.Algebra.BigOperators.Group.Finset.Basic
import Mathlib.Data.ZMod.Defs
/-!
The text form of an address (SEP-0023), written down independently of any encoder or decoder: bits by position, base32 by
position (RFC 4648), and the checksum as divisibility of polynomials over the field of two elements.
-/
namespace Soroban.Strkey.Spec
open Polynomial

/-- Bit `k` of a byte string, the most significant bit of the first byte being bit 0; `false` past the end. -/
def bit (d : List Nat) (k : Nat) : Bool := (d.getD (k / 8) 0).testBit (7 - k % 8)

/-- `A` to `Z`, `2` to `7`. -/
def alphabet : List Nat := List.range' 65 26 ++ List.range' 50 6

/-- Five bits of a byte string from bit `k` on, as a number. -/
def five (d : List Nat) (k : Nat) : Nat :=
  16 * (bit d k).toNat + 8 * (bit d (k + 1)).toNat + 4 * (bit d (k + 2)).toNat + 2 * (bit d (k + 3)).toNat +
    (bit d (k + 4)).toNat

/-- Base32 without padding: symbol `i` stands for bits `5 i` to `5 i + 4`. -/
def base32 (d : List Nat) : List Nat :=
  (List.range ((8 * d.length + 4) / 5)).map fun i => alphabet.getD (five d (5 * i)) 0

/-- A byte string as a polynomial over the field of two elements; its last bit is the constant coefficient. -/
noncomputable def poly (d : List Nat) : (ZMod 2)[X] :=
  ∑ i ∈ Finset.range (8 * d.length), if bit d i then X ^ (8 * d.length - 1 - i) else 0

/-- The generator of CRC16-XMODEM. -/
noncomputable def generator : (ZMod 2)[X] := X ^ 16 + X ^ 12 + X ^ 5 + 1

/-- `hi` and `lo` are the checksum bytes of `d`: appended to it they make a multiple of the generator. -/
def IsCrc (d : List Nat) (hi lo : Nat) : Prop := hi < 256 ∧ lo < 256 ∧ generator ∣ poly (d ++ [hi, lo])

/-- A number in `n` bytes, most significant first. -/
def be (n v : Nat) : List Nat := (List.range n).map fun i => v / 256 ^ (n - 1 - i) % 256

/-- The version byte and the payload of an address: version 6 for accounts, 2 for contracts, 12 for muxed accounts, times 8. -/
def Form : ScAddr → Nat → List Nat → Prop
  | .account k, ver, p => k < 256 ^ 32 ∧ ver = 6 * 8 ∧ p = be 32 k
  | .contract h, ver, p => h < 256 ^ 32 ∧ ver = 2 * 8 ∧ p = be 32 h
  | .muxedAccount i k, ver, p => k < 256 ^ 32 ∧ i < 256 ^ 8 ∧ ver = 12 * 8 ∧ p = be 32 k ++ be 8 i
  | _, _, _ => False

/-- `s` is the text form of the address `a`: version, payload and checksum, low byte first, in base32. -/
def IsStrkey (s : List Nat) (a : ScAddr) : Prop :=
  ∃ ver p hi lo, Form a ver p ∧ IsCrc (ver :: p) hi lo ∧ s = base32 (ver :: p ++ [lo, hi])

/-- A plain address: an account or a contract. -/
def Plain : ScAddr → Prop
  | .account _ | .contract _ => True
  | _ => False

/-- Keys and hashes have 32 bytes, ids 8: true of every address that exists in the host. -/
def Fits : ScAddr → Prop
  | .account k => k < 256 ^ 32
  | .contract h => h < 256 ^ 32
  | .muxedAccount i k => i < 256 ^ 8 ∧ k < 256 ^ 32
  | .claimableBalance _ | .liquidityPool _ => True

/-- The word `v` refers to a string or bytes object with content `s`. -/
def IsText (objs : List HostObj) (v : Nat) (s : List Nat) : Prop :=
  visitObj objs v = .ok (.string s) ∨ visitObj objs v = .ok (.bytes s)

/-- The call added the object `o` to the table and returned the word `w` that refers to it. -/
def Created (objs : List HostObj) (o : HostObj) (objs' : List HostObj) (w : Nat) : Prop :=
  objs' = objs ++ [o] ∧ visitObj objs' w = .ok o

end Soroban.Strkey.Spec
