import Verif.Model.SacValues
import Verif.Spec.ContractTypes
import Verif.Spec.SacHistory
/-!
The interface of the Stellar Asset Contract as ledger values: what each call means, what is returned and what is published.
-/
namespace Soroban.SacValues.Spec
open Soroban Soroban.Sac Soroban.ContractTypes.Spec Soroban.SacValues
open Soroban.Auth (Addr)

/-- The ledger value of an amount: the upper 64 bits, signed, and the lower 64 bits. -/
def int128 (a : Int) : ScVal := .i128 (a / 2 ^ 64) (a % 2 ^ 64).toNat

/-- Amounts are 128-bit signed integers. -/
def Fits (a : Int) : Prop := -2 ^ 127 ≤ a ∧ a < 2 ^ 127

/-- The ledger value of an account or a contract. -/
def address : Addr → ScVal
  | .account k => .address (.account k)
  | .contract k => .address (.contract k)

/-- The ledger value of an account with an identifier attached. -/
def muxed (id key : Nat) : ScVal := .address (.muxedAccount id key)

/-- What a call with a name and arguments asks for. -/
inductive Means : List Nat → List ScVal → Call → Prop
  | initAsset (b : List Nat) : Means (txt "init_asset") [.bytes b] .initAsset
  | allowance (f s : Addr) : Means (txt "allowance") [address f, address s] (.op (.allowance f s) none)
  | approve (f s : Addr) (a : Int) (l : Nat) :
      Means (txt "approve") [address f, address s, int128 a, .u32 l] (.op (.approve f s a l) none)
  | balance (a : Addr) : Means (txt "balance") [address a] (.op (.balance a) none)
  | authorized (a : Addr) : Means (txt "authorized") [address a] (.op (.authorized a) none)
  | transfer (f t : Addr) (a : Int) : Means (txt "transfer") [address f, address t, int128 a] (.op (.transfer f t a) none)
  | transferMuxed (f : Addr) (i k : Nat) (a : Int) :
      Means (txt "transfer") [address f, muxed i k, int128 a] (.op (.transfer f (.account k) a) (some i))
  | transferFrom (s f t : Addr) (a : Int) :
      Means (txt "transfer_from") [address s, address f, address t, int128 a] (.op (.transferFrom s f t a) none)
  | burn (f : Addr) (a : Int) : Means (txt "burn") [address f, int128 a] (.op (.burn f a) none)
  | burnFrom (s f : Addr) (a : Int) : Means (txt "burn_from") [address s, address f, int128 a] (.op (.burnFrom s f a) none)
  | clawback (f : Addr) (a : Int) : Means (txt "clawback") [address f, int128 a] (.op (.clawback f a) none)
  | setAuthorized (a : Addr) (b : Bool) : Means (txt "set_authorized") [address a, .bool b] (.op (.setAuthorized a b) none)
  | mint (t : Addr) (a : Int) : Means (txt "mint") [address t, int128 a] (.op (.mint t a) none)
  | setAdmin (a : Addr) : Means (txt "set_admin") [address a] (.op (.setAdmin a) none)
  | admin : Means (txt "admin") [] (.op .admin none)
  | decimals : Means (txt "decimals") [] .decimals
  | name : Means (txt "name") [] .name
  | symbol : Means (txt "symbol") [] .symbol
  | trust (a : Addr) : Means (txt "trust") [address a] (.op (.trust a) none)

/-- What is returned. -/
def retOf : Sac.Ret → ScVal
  | .unit => .void
  | .amount x => int128 x
  | .bool b => .bool b
  | .addr a => address a

/-- The topics of an event of the asset with this name: what happened, to whom, of which asset. -/
def topics (nm : List Nat) : TokEvent → List ScVal
  | .approve f s _ _ => [.symbol (txt "approve"), address f, address s, .string nm]
  | .transfer f t _ => [.symbol (txt "transfer"), address f, address t, .string nm]
  | .mint t _ => [.symbol (txt "mint"), address t, .string nm]
  | .burn f _ => [.symbol (txt "burn"), address f, .string nm]
  | .clawback f _ => [.symbol (txt "clawback"), address f, .string nm]
  | .setAuthorized a _ => [.symbol (txt "set_authorized"), address a, .string nm]
  | .setAdmin a _ => [.symbol (txt "set_admin"), address a, .string nm]

/-- An amount, with the identifier the receiver was given with if there was one. -/
def amountWith (a : Int) : Option Nat → ScVal
  | none => int128 a
  | some i => struct [(txt "amount", int128 a), (txt "to_muxed_id", .u64 i)]

/-- The data of an event. -/
def dataOf (mux : Option Nat) : TokEvent → ScVal
  | .approve _ _ a l => .vec (some [int128 a, .u32 l])
  | .transfer _ _ a => amountWith a mux
  | .mint _ a => amountWith a mux
  | .burn _ a => int128 a
  | .clawback _ a => int128 a
  | .setAuthorized _ b => .bool b
  | .setAdmin _ n => address n

/-- The events that tell the identifier of the receiver. -/
def Tells : TokEvent → Prop
  | .transfer _ _ _ => True
  | .mint _ _ => True
  | _ => False

end Soroban.SacValues.Spec
