import Verif.Model.Account
/-!
What it means for a Stellar account to have signed a payload, and for two authorization trees to be the same.
-/
namespace Soroban.Account.Spec
open Soroban Soroban.Auth Soroban.Account

/-- The weight of a key for an account: the master weight for the account's own key, for other keys the weight of the signer
with that key (weights above 255 count as 255), and nothing for keys that are no signers. -/
def keyWeight (a : AccountEntry) (k : Nat) : Nat :=
  if k = a.id then a.masterWeight
  else match a.signers.find? (fun s => s.1 = SignerKey.ed25519 k) with
    | some s => min s.2 255
    | none => 0

/-- The total weight of some keys. -/
def totalWeight (a : AccountEntry) (ks : List Nat) : Nat := (ks.map (keyWeight a)).sum

/-- The signatures `sigs` sign `payload` for the account: there are 1 to 20 of them, their keys are strictly increasing, each of
them is valid, each of their keys has a weight, and the weights add up to the medium threshold. -/
structure Signed (verify : Nat → Nat → Nat → Bool) (a : AccountEntry) (payload : Nat) (sigs : List Sig) : Prop where
  some : 1 ≤ sigs.length
  few : sigs.length ≤ 20
  ordered : (sigs.map Sig.publicKey).Pairwise (· < ·)
  valid : ∀ s ∈ sigs, verify s.publicKey payload s.signature = true
  signer : ∀ s ∈ sigs, 0 < keyWeight a s.publicKey
  enough : a.med ≤ totalWeight a (sigs.map Sig.publicKey)

/-- Creation of a contract without constructor arguments can be written in two ways in the ledger format; this is one of them. -/
def plainFn : XFn → XFn
  | .create p a e => .createV2 ⟨p, a, e, []⟩
  | f => f

mutual
/-- A tree with all functions written in the same way. -/
def plainInv : XInv → XInv
  | .mk f subs => .mk (plainFn f) (plainInvs subs)
/-- The same for lists. -/
def plainInvs : List XInv → List XInv
  | [] => []
  | x :: xs => plainInv x :: plainInvs xs
end

/-- The same tree of authorized functions. -/
def SameInv (x y : XInv) : Prop := plainInv x = plainInv y

mutual
/-- The functions of a tree, a node before its children and the children from left to right. -/
def functions : Inv → List AuthFn
  | .mk f subs _ => f :: functionsAll subs
/-- The same for lists. -/
def functionsAll : List Inv → List AuthFn
  | [] => []
  | i :: is => functions i ++ functionsAll is
end

/-- A function occurs in a tree. -/
inductive Occurs (f : AuthFn) : Inv → Prop
  | here (ss : List Inv) (u : Bool) : Occurs f (.mk f ss u)
  | under {g : AuthFn} {ss : List Inv} {u : Bool} {i : Inv} (hi : i ∈ ss) (h : Occurs f i) : Occurs f (.mk g ss u)

/-- No invocation of the tree has been used. -/
inductive NoneUsed : Inv → Prop where
  | mk (f : AuthFn) (subs : List Inv) : (∀ s ∈ subs, NoneUsed s) → NoneUsed (.mk f subs false)

/-- The credentials whose signatures are for one address: those of the second version and those with delegates. -/
def ForAddress : CredKind → Prop
  | .addressV2 | .withDelegates => True
  | .source | .address => False

end Soroban.Account.Spec
