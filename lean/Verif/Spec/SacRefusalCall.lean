import Verif.Spec.SacHistory
import Verif.Spec.SacRefusal
/-! What a call of an asset contract needs to be decided by its rules alone (C89). -/
namespace Soroban.Sac.Spec
open Soroban Soroban.Storage Soroban.Storage.Spec Soroban.Auth Soroban.Sac

/-- A key may be accessed: when enforcing, the footprint says so; when recording, always. -/
def Accessible (st : Store SKey SVal) (k : SKey) (a : Access) : Prop :=
  match st.mode with | .recording _ => True | .enforcing => allows st.footprint k a = true

/-- A storage that shows the values a call starts from, with the same permissions. -/
structure SameView (c : Call) (st : Store SKey SVal) : Prop where
  store : StOk c.E st
  values : ∀ k, valueOf (absMap c.E.sto st.mode st.map k) = valueOf (c.before k)
  access : ∀ k a, Accessible st k a ↔ Accessible c.st k a

/-- A call that only the rules of the contract can stop: the contract is deployed, the network is running, the transaction
declares what the call touches, and whoever is asked authorizes it. -/
structure Call.Able (c : Call) : Prop where
  valid : c.Valid
  running : Running c.E.li
  deployed : Deployed c.E.asset c.E.baseReserve c.before c.op
  reads : ∀ k ∈ readKeys c.E.asset c.op, Accessible c.st k .readOnly
  writes : ∀ k ∈ writeKeys c.E.asset c.op, Accessible c.st k .readWrite
  consent : ∀ a, asked c.before c.op = some a → ∀ st, SameView c st → ∃ st', c.E.auth a st = .ok st' ∧ SameView c st'

/-- The reasons to refuse a call. -/
def Call.Refused (c : Call) (n : Nat) : Prop := Spec.Refused c.E.asset c.E.baseReserve c.E.li c.before c.op n

end Soroban.Sac.Spec
