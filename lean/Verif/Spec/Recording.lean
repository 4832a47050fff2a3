import Verif.Model.Recording
/-! What it means for recorded authorizations to be enough for the transaction they were recorded from. -/
namespace Soroban.Auth.Spec
open Soroban Soroban.Auth

/-- An authorization entry made from a recorded payload: for the same address, with the same tree, and not used yet. The
credentials, the nonce and the signature are the signer's choice. -/
structure Signed (payload : Addr × Inv) (entry : Acct) : Prop where
  addr : entry.addr = payload.1
  tree : entry.tr = Tracker.new payload.2
  idle : entry.borrowed = false

/-- No call asks for the authorization of the same address twice. The list has, for every call on the stack, the addresses it has
asked for. -/
def asksOnce (addrOf : Nat → Addr) : List (List Addr) → List Ev → Bool
  | _, [] => true
  | st, .push _ :: es => asksOnce addrOf ([] :: st) es
  | st, .pop :: es => asksOnce addrOf st.tail es
  | st, .authAs _ :: es => asksOnce addrOf st es
  | asked :: st, .require h _ :: es => !asked.contains (addrOf h) && asksOnce addrOf ((addrOf h :: asked) :: st) es
  | [], .require _ _ :: es => asksOnce addrOf [] es

/-- The handles through which authorization is asked for. -/
def handles : List Ev → List Nat
  | [] => []
  | .require h _ :: es => h :: handles es
  | _ :: es => handles es

/-- The calls and creations that nothing on the stack has made: `depth` calls are on the stack. -/
def outermost : Nat → List Ev → List Frame
  | _, [] => []
  | 0, .push f :: es => f :: outermost 1 es
  | d + 1, .push _ :: es => outermost (d + 2) es
  | d, .pop :: es => outermost (d - 1) es
  | d, .require _ _ :: es => outermost d es
  | d, .authAs _ :: es => outermost d es

/-- Every node of a tree has been used. -/
def AllUsed (t : Inv) : Prop := ∀ (p : List Nat) (n : Inv), t.at? p = some n → n.used = true

/-- The function at a place in a tree. -/
def fnAt (t : Inv) (p : List Nat) : Option AuthFn := (t.at? p).map Inv.fn

end Soroban.Auth.Spec
