import Verif.Model.Xdr
import Verif.Spec.ScVal
/-! What C73 says about serialized values. -/
namespace Soroban.Xdr.Spec
open Soroban.Spec

/-- Bytes are numbers below 256. -/
def AllBytes (b : List Nat) : Prop := ∀ x ∈ b, x < 256

/-- Keys, hashes and ids have 32 and 8 bytes. -/
def AddrFits : ScAddr → Prop
  | .account k | .contract k | .claimableBalance k | .liquidityPool k => k < 256 ^ 32
  | .muxedAccount i k => i < 256 ^ 8 ∧ k < 256 ^ 32

/-- The sizes of XDR: byte strings, vectors and maps have fewer than 2^32 elements, symbols at most 32 characters. -/
def SizesFit : ScVal → Prop
  | .bytes b | .string b | .executableTag b => b.length < 2 ^ 32 ∧ AllBytes b
  | .symbol b => b.length ≤ 32 ∧ AllBytes b
  | .vec (some l) => l.length < 2 ^ 32
  | .map (some m) => m.length < 2 ^ 32
  | .address a => AddrFits a
  | .ledgerKeyNonce i => -2 ^ 63 ≤ i ∧ i < 2 ^ 63
  | .contractInstance _ _ => False
  | _ => True

/-- A ledger value with everything in it of the sizes XDR gives it, and without contract instances. -/
inductive Wire : ScVal → Prop
  | mk {s : ScVal} : InRange s → SizesFit s → (∀ x ∈ children s, Wire x) → Wire s

/-- What the types of the host's byte strings, texts, addresses, vectors and maps guarantee. -/
def ObjSized : HostObj → Prop
  | .bytes b | .string b | .executableTag b => b.length < 2 ^ 32 ∧ AllBytes b
  | .symbol b => b.length ≤ 32 ∧ AllBytes b
  | .vec l => l.length < 2 ^ 32
  | .map m => m.length < 2 ^ 32
  | .address a | .muxedAddress a => AddrFits a
  | _ => True

/-- Values of the ledger that are no values of contracts: missing vectors and maps, instances and keys, and what has one in it. -/
inductive Unrepresentable : ScVal → Prop
  | noVec : Unrepresentable (.vec none)
  | noMap : Unrepresentable (.map none)
  | instanceKey : Unrepresentable .ledgerKeyContractInstance
  | nonceKey (i : Int) : Unrepresentable (.ledgerKeyNonce i)
  | inside {s x : ScVal} : x ∈ children s → Unrepresentable x → Unrepresentable s

/-- The object `h` of the table holds the bytes `b`. -/
def Holds (objs : List HostObj) (h : Nat) (b : List Nat) : Prop := visitObj objs h = .ok (.bytes b)

end Soroban.Xdr.Spec
