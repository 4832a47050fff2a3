import Verif.Model.Sac
import Verif.Spec.Storage
/-!
What an asset contract should do (C33-C38, C42), in terms of the ledger only: who holds how much, who may hold, and which
operations take from or give to whom.
-/
namespace Soroban.Sac.Spec
open Soroban Soroban.Storage Soroban.Storage.Spec Soroban.Auth Soroban.Sac

/-- A ledger of one asset. -/
abbrev Led := Ledger SKey SVal

/-- Where the holding of an address is kept: accounts hold the native asset in the account and other assets in a trustline,
contracts hold both in a balance entry of the asset contract. -/
def holdingKey (asset : Asset) : Addr → SKey
  | .account id => match asset with | .native => .account id | .credit _ => .trust id
  | .contract c => .balance c

/-- The amount in an entry. -/
def amountIn : Option SVal → Int
  | some (.account a) => a.balance
  | some (.trust t) => t.balance
  | some (.balance b) => b.amount
  | _ => 0

/-- How much of the asset an address holds. (The issuer of an asset holds none: what it sends is created, what it receives is
destroyed.) -/
def balanceOf (asset : Asset) (L : Led) (a : Addr) : Int := amountIn (valueOf (L (holdingKey asset a)))

/-- The flags of an account: holding its assets requires authorization, authorization can be revoked, holdings can be clawed
back. An account that does not exist has none. -/
def flagsOf (L : Led) (id : Nat) : Bool × Bool × Bool :=
  match valueOf (L (.account id)) with | some (.account a) => (a.required, a.revocable, a.clawback) | _ => (false, false, false)

/-- Whether the issuer requires authorization to hold its asset. -/
def authRequired (asset : Asset) (L : Led) : Bool :=
  match asset with
  | .native => false
  | .credit i => (flagsOf L i).1

/-- Whether an address is authorized to send and receive the asset. -/
def authorizedToHold (asset : Asset) (L : Led) : Addr → Bool
  | .account id => match asset with
    | .native => true
    | .credit i => decide (i = id) || (match valueOf (L (.trust id)) with | some (.trust t) => t.authorized | _ => false)
  | .contract c => match valueOf (L (.balance c)) with
    | some (.balance b) => b.authorized
    | _ => !authRequired asset L

/-- The administrator of the contract. -/
def adminOf (L : Led) : Option Addr :=
  match valueOf (L .inst) with | some (.inst a) => a | _ => none

/-- The entries an account sponsors less those sponsored for it. -/
def netSponsoring : Option (Nat × Nat) → Int
  | some (sponsored, sponsoring) => (sponsoring : Int) - sponsored
  | none => 0

/-- The lowest balance an account may have: two reserves, one for each subentry and for each entry it sponsors, less those
sponsored for it, and what it has offered for sale. -/
def minBalance (reserve : Nat) (a : AccountE) : Int :=
  match a.ext with
  | none => (2 + a.numSub : Int) * reserve
  | some x => (2 + a.numSub + netSponsoring x.sponsor) * reserve + x.selling

/-- The highest balance an account may have. -/
def maxBalance (a : AccountE) : Int := match a.ext with | none => 2 ^ 63 - 1 | some x => 2 ^ 63 - 1 - x.buying

/-- A holding is within its bounds: accounts keep their reserve, accounts and trustlines keep their liabilities, trustlines
stay within their limit, contract balances are not negative and fit in 128 bits. -/
def inBounds (reserve : Nat) : SVal → Prop
  | .account a => 0 ≤ minBalance reserve a ∧ minBalance reserve a ≤ a.balance ∧ a.balance ≤ maxBalance a
  | .trust t => match t.liab with
      | none => 0 ≤ t.balance ∧ t.balance ≤ t.limit
      | some (buying, selling) => 0 ≤ selling ∧ selling ≤ t.balance ∧ t.balance ≤ t.limit - buying
  | .balance b => 0 ≤ b.amount ∧ b.amount < 2 ^ 127
  | _ => True

/-- Every holding of a ledger is within its bounds. -/
def Bounded (reserve : Nat) (L : Led) : Prop := ∀ k v, valueOf (L k) = some v → inBounds reserve v

/-- What verifying an authorization can do to the entries the contract uses. An account contract may call any contract but
this one (C24), so trustlines, balances and allowances of this asset, and its administrator, stay as they are. For a credit
asset, accounts may change but keep their flags (no contract can set these); for the native asset, accounts keep what they
hold. -/
structure Elsewhere (asset : Asset) (reserve : Nat) (L L' : Led) : Prop where
  own : ∀ k, (∀ id, k ≠ .account id) → k ≠ .inst → L' k = L k
  inst : valueOf (L' .inst) = valueOf (L .inst)
  flags : ∀ id, flagsOf L' id = flagsOf L id
  native : asset = .native → ∀ id, amountIn (valueOf (L' (.account id))) = amountIn (valueOf (L (.account id)))
  bounds : Bounded reserve L → Bounded reserve L'

/-- From whom an operation takes, and how much. -/
def paid : Op → Option (Addr × Int)
  | .transfer f _ a => some (f, a)
  | .transferFrom _ f _ a => some (f, a)
  | .burn f a => some (f, a)
  | .burnFrom _ f a => some (f, a)
  | .clawback f a => some (f, a)
  | _ => none

/-- To whom an operation gives, and how much. -/
def received : Op → Option (Addr × Int)
  | .transfer _ t a => some (t, a)
  | .transferFrom _ _ t a => some (t, a)
  | .mint t a => some (t, a)
  | _ => none

/-- The part of an amount that is for one address. -/
def amountFor (o : Option (Addr × Int)) (h : Addr) : Int :=
  match o with | some (a, x) => if a = h then x else 0 | none => 0

/-- Whose authorization an operation needs. -/
def needsAuth (L : Led) : Op → Option Addr
  | .approve f _ _ _ => some f
  | .transfer f _ _ => some f
  | .transferFrom s _ _ _ => some s
  | .burn f _ => some f
  | .burnFrom s _ _ => some s
  | .clawback _ _ => adminOf L
  | .setAuthorized _ _ => adminOf L
  | .mint _ _ => adminOf L
  | .setAdmin _ => adminOf L
  | _ => none

/-- The allowance given by one address to another, as seen at a ledger. -/
def allowanceOf (seq : Nat) (L : Led) (sender spender : Addr) : Int :=
  match valueOf (L (.allowance sender spender)) with
  | some (.allowance a) => if a.liveUntil < seq then 0 else a.amount
  | _ => 0

/-- What an event says about the holding of an address. -/
def eventAmount (e : TokEvent) (h : Addr) : Int :=
  match e with
  | .transfer f t a => (if t = h then a else 0) - (if f = h then a else 0)
  | .mint t a => if t = h then a else 0
  | .burn f a => -(if f = h then a else 0)
  | .clawback f a => -(if f = h then a else 0)
  | _ => 0

end Soroban.Sac.Spec
