import Verif.Lemmas.SacOps
/-!
Calls and histories of calls of an asset contract (C33-C38, C42, C43).
-/
namespace Soroban.Sac.Spec
open Soroban Soroban.Storage Soroban.Storage.Spec Soroban.Auth Soroban.Sac

/-- A call of the contract: what it ran in, the operation and the storage it started from. -/
structure Call where
  E : SEnv
  op : Op
  st : Store SKey SVal

/-- The ledger at which a call is made. -/
def Call.seq (c : Call) : Nat := c.E.li.seq
/-- What a call returns. -/
def Call.ret (c : Call) : Res Ret := (call c.E c.op c.st).2
/-- The ledger before a call. -/
def Call.before (c : Call) : Led := absMap c.E.sto c.st.mode c.st.map
/-- The ledger after a call. -/
def Call.after (c : Call) : Led := absMap c.E.sto (call c.E c.op c.st).1.mode (call c.E c.op c.st).1.map
/-- The events a call emits. -/
def Call.events (c : Call) : List TokEvent := match exec c.E c.op { st := c.st } with | .ok (_, s) => s.events | .error _ => []
/-- The addresses whose authorization a call has obtained. -/
def Call.auths (c : Call) : List Addr := match exec c.E c.op { st := c.st } with | .ok (_, s) => s.auths | .error _ => []
/-- A call succeeds. -/
def Call.ok (c : Call) : Prop := ∃ r, c.ret = .ok r

instance (c : Call) : Decidable c.ok :=
  match h : c.ret with
  | .ok r => isTrue ⟨r, h⟩
  | .error _ => isFalse (fun ⟨_, hr⟩ => by rw [h] at hr; cases hr)

/-- A call that can happen: the storage is in good order and authorizations do what they can do. -/
structure Call.Valid (c : Call) : Prop where
  auth : AuthOk c.E
  store : StOk c.E c.st

/-- A history of calls of the contract of one asset at ledgers that do not go back, with what may happen to the ledger
between two calls given by `btw`. -/
inductive Hist (asset : Asset) (btw : Call → Led → Prop) : Nat → Led → List Call → Nat → Led → Prop
  | nil {n : Nat} {L : Led} : Hist asset btw n L [] n L
  | cons {n n' : Nat} {L L' : Led} {c : Call} {cs : List Call} (valid : c.Valid) (asset_eq : c.E.asset = asset)
      (later : n ≤ c.seq) (between : btw c L) (rest : Hist asset btw c.seq c.after cs n' L') :
      Hist asset btw n L (c :: cs) n' L'

/-- The part of an amount that is not for the issuer. -/
def notForIssuer (asset : Asset) : Option (Addr × Int) → Int
  | some (a, d) => if isIssuer asset a then 0 else d
  | none => 0

/-- By how much an operation changes what is held by addresses other than the issuer. -/
def supplyChange (asset : Asset) (op : Op) : Int := notForIssuer asset (received op) - notForIssuer asset (paid op)

/-- The supply changes of the successful calls. -/
def totalChange (asset : Asset) : List Call → Int
  | [] => 0
  | c :: cs => (if c.ok then supplyChange asset c.op else 0) + totalChange asset cs

/-- What some addresses hold together. -/
def holdings (asset : Asset) (L : Led) : List Addr → Int
  | [] => 0
  | h :: hs => balanceOf asset L h + holdings asset L hs

/-- The addresses whose holdings an operation is about. -/
def parties (op : Op) : List Addr := ((paid op).map Prod.fst).toList ++ ((received op).map Prod.fst).toList

/-- The amount given to an operation. -/
def amountOf : Op → Option Int
  | .approve _ _ d _ => some d
  | .transfer _ _ d => some d
  | .transferFrom _ _ _ d => some d
  | .burn _ d => some d
  | .burnFrom _ _ d => some d
  | .clawback _ d => some d
  | .mint _ d => some d
  | _ => none

/-- What an operation spends of the allowance given by `f` to `sp`. -/
def spends (f sp : Addr) : Op → Int
  | .transferFrom sp' f' _ d => if f' = f ∧ sp' = sp then d else 0
  | .burnFrom sp' f' d => if f' = f ∧ sp' = sp then d else 0
  | _ => 0

/-- What the successful calls spend of an allowance. -/
def spent (f sp : Addr) : List Call → Int
  | [] => 0
  | c :: cs => (if c.ok then spends f sp c.op else 0) + spent f sp cs

/-- An operation approves an allowance from `f` to `sp`. -/
def approves (f sp : Addr) : Op → Option (Int × Nat)
  | .approve f' sp' d lu => if f' = f ∧ sp' = sp then some (d, lu) else none
  | _ => none

/-- An entry whose lifetime may have been extended. -/
def Extended : Option (Entry SVal) → Option (Entry SVal) → Prop
  | none, none => True
  | some (v, some l), some (v', some l') => v' = v ∧ l ≤ l'
  | some (v, none), some (v', none) => v' = v
  | _, _ => False

/-- Between two calls nothing happens to an entry, except that its lifetime may be extended or may end. -/
def Carried (k : SKey) (c : Call) (L : Led) : Prop := ∃ e, Extended (L k) e ∧ c.before k = view c.E.sto k e

/-- Between two calls the holdings of some addresses do not change. -/
def SameHoldings (asset : Asset) (hs : List Addr) (c : Call) (L : Led) : Prop :=
  ∀ h ∈ hs, balanceOf asset c.before h = balanceOf asset L h

/-- Between two calls entries change only to entries within bounds. -/
def SameOrBounded (reserve : Nat) (c : Call) (L : Led) : Prop :=
  c.E.baseReserve = reserve ∧ ∀ k v, valueOf (c.before k) = some v → valueOf (L k) = some v ∨ inBounds reserve v

/-- Between two calls the holding of an address and its authorization do not change. -/
def SameHolder (asset : Asset) (h : Addr) (c : Call) (L : Led) : Prop :=
  balanceOf asset c.before h = balanceOf asset L h ∧ authorizedToHold asset c.before h = authorizedToHold asset L h

/-- A holder whose holding the issuer may take back: the trustline or balance was created while the issuer enabled this. -/
def clawbackEnabled (asset : Asset) (L : Led) : Addr → Bool
  | .account id => match asset with
    | .native => false
    | .credit _ => match valueOf (L (.trust id)) with | some (.trust t) => t.clawback | _ => false
  | .contract c => match valueOf (L (.balance c)) with | some (.balance b) => b.clawback | _ => false

end Soroban.Sac.Spec
