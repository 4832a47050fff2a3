import Verif.Model.Preimage
import Verif.Spec.Xdr
import Verif.Spec.AssetMeta
/-! What C74 and C75 say about the messages the host hashes. -/
namespace Soroban.Preimage.Spec
open Soroban.Xdr.Spec (AddrFits Wire)
open Soroban.AssetMeta (Asset)

/-- The message whose hash is the id of the contract with this deployer and salt: the number 8 (`ENVELOPE_TYPE_CONTRACT_ID`), the
network id, the number 0 (`CONTRACT_ID_PREIMAGE_FROM_ADDRESS`), the address, the salt. -/
def idMessage (network : List Nat) (deployer : ScAddr) (salt : List Nat) : List Nat :=
  [0, 0, 0, 8] ++ network ++ [0, 0, 0, 0] ++ Xdr.writeAddr deployer ++ salt

/-- The message whose hash is the id of the contract of an asset: as above, with the number 1 (`CONTRACT_ID_PREIMAGE_FROM_ASSET`)
and the asset. -/
def assetMessage (network : List Nat) (a : Asset) : List Nat :=
  [0, 0, 0, 8] ++ network ++ [0, 0, 0, 1] ++ AssetMeta.Spec.xdr a

/-- The message whose hash is the id of the contract with this origin. -/
def message (network : List Nat) : IdPre → List Nat
  | .address a s => idMessage network a s
  | .asset a => assetMessage network a

/-- The part of contract creation that follows the computation of the id only adds to the table of objects. -/
def Grows (R : Rest) : Prop := ∀ o k c l o', R.make o k c l = .ok o' → ∃ new, o' = o ++ new

/-- Two different messages with the same hash. -/
def Collide {D : Type} (sha : List Nat → D) (m m' : List Nat) : Prop := m ≠ m' ∧ sha m = sha m'

/-- The sizes of the parts of an asset. -/
def AssetFits : Asset → Prop
  | .native => True
  | .alpha4 code i => code.length = 4 ∧ i < 256 ^ 32
  | .alpha12 code i => code.length = 12 ∧ i < 256 ^ 32

/-- The sizes of the parts of a contract id preimage. -/
def IdFits : IdPre → Prop
  | .address a salt => AddrFits a ∧ salt.length = 32
  | .asset a => AssetFits a

/-- The sizes of the parts of an executable. -/
def ExecFits : Exec → Prop
  | .wasm h => h.length = 32
  | .asset => True
  | .ref o t => AddrFits o ∧ t.length < 2 ^ 32

/-- Arguments: fewer than 2^32, each with everything in it of the sizes XDR gives it. -/
def ValsFit (l : List ScVal) : Prop := l.length < 2 ^ 32 ∧ ∀ x ∈ l, Wire x

/-- The sizes of the parts of an authorized function. -/
def FnFits : XFn → Prop
  | .call c f as => AddrFits c ∧ f.length ≤ 32 ∧ ValsFit as
  | .create id e => IdFits id ∧ ExecFits e
  | .createV2 a => IdFits a.id ∧ ExecFits a.exec ∧ ValsFit a.args

/-- The sizes of the parts of an invocation tree. -/
inductive InvFits : XInv → Prop
  | mk {f : XFn} {subs : List XInv} : FnFits f → subs.length < 2 ^ 32 → (∀ x ∈ subs, InvFits x) → InvFits (.mk f subs)

/-- The sizes of the parts of a preimage. -/
def PreFits : HashPre → Prop
  | .contractId n id => n.length = 32 ∧ IdFits id
  | .auth n nonce ex inv => n.length = 32 ∧ (-2 ^ 63 ≤ nonce ∧ nonce < 2 ^ 63) ∧ ex < 2 ^ 32 ∧ InvFits inv
  | .authAddr n nonce ex a inv =>
    n.length = 32 ∧ (-2 ^ 63 ≤ nonce ∧ nonce < 2 ^ 63) ∧ ex < 2 ^ 32 ∧ AddrFits a ∧ InvFits inv

/-- The older form of contract creation is the newer one without arguments. -/
def plainFn : XFn → XFn
  | .create id e => .createV2 ⟨id, e, []⟩
  | f => f

mutual
/-- The tree with every contract creation in its newer form. -/
def plain : XInv → XInv
  | .mk f subs => .mk (plainFn f) (plains subs)
/-- The children. -/
def plains : List XInv → List XInv
  | [] => []
  | x :: xs => plain x :: plains xs
end

/-- The called contracts are accounts or contracts. -/
def Callable : XFn → Prop
  | .call c _ _ => (∃ k, c = .account k) ∨ ∃ k, c = .contract k
  | _ => True

/-- Every called contract of a tree is an account or a contract. -/
inductive AllCallable : XInv → Prop
  | mk {f : XFn} {subs : List XInv} : Callable f → (∀ x ∈ subs, AllCallable x) → AllCallable (.mk f subs)

/-- What is hashed for an entry: the network, the nonce, the last ledger of the signature, the address if the credentials say so, and
the invocation tree. -/
def payloadPre (network : List Nat) (withAddress : Bool) (nonce : Int) (ex : Nat) (a : ScAddr) (x : XInv) : HashPre :=
  if withAddress then .authAddr network nonce ex a x else .auth network nonce ex x

mutual
/-- The same invocations, whichever of them are used. -/
inductive Same : AInv → AInv → Prop
  | mk {f : AFn} {subs subs' : List AInv} {u u' : Bool} : Sames subs subs' → Same (.mk f subs u) (.mk f subs' u')
/-- The same lists of invocations. -/
inductive Sames : List AInv → List AInv → Prop
  | nil : Sames [] []
  | cons {i j : AInv} {is js : List AInv} : Same i j → Sames is js → Sames (i :: is) (j :: js)
end

/-- No invocation of the tree has been used. -/
inductive NoneUsed : AInv → Prop where
  | mk (f : AFn) (subs : List AInv) : (∀ s ∈ subs, NoneUsed s) → NoneUsed (.mk f subs false)

end Soroban.Preimage.Spec
