import Verif.Model.Emulation
import Verif.Spec.HostCallable
import Verif.Spec.E2eRecording
/-! What a simulation has to declare for its signers (C101). -/
namespace Soroban.Host.Spec
open Soroban Soroban.Auth Soroban.Host Soroban.Storage
open Soroban.Storage.Spec (Ledger absMap OpOk SnapshotOk runOps recording)

/-- The storage of a simulation over a snapshot after any reads, writes and extensions, in calls that succeed or fail (`mark`, `commit`,
`abort`). -/
structure Simulated (E : HEnv) (src : LKey → Option (Entry LVal)) (st : Store LKey LVal) : Prop where
  keys : E.sto.keys = keysOf
  feature : E.sto.feature = true
  snapshot : SnapshotOk E.sto src
  ops : ∃ os, (∀ o ∈ os, OpOk E.sto o) ∧ st = (runOps E.sto os (recording src)).1.st

/-- The ledger as it is seen at that point. -/
def seen (E : HEnv) (st : Store LKey LVal) : Ledger LKey LVal := absMap E.sto st.mode st.map

/-- The entries that are needed to authenticate a signer in a ledger: its account; or the contract, and what its code is in. -/
def signerKeys (E : HEnv) (L : Ledger LKey LVal) : Addr → List LKey
  | .account id => [.account id]
  | .contract c => .inst c :: match L (.inst c) with
    | some (.inst ex _, _) => codeKeys E L ex
    | _ => []

/-- The entries needed for the signers other than the source account of the transaction. -/
def NeededFor (E : HEnv) (L : Ledger LKey LVal) (signers : List Acct) (k : LKey) : Prop :=
  ∃ t ∈ signers, t.source = false ∧ k ∈ signerKeys E L t.addr

/-- A transaction that has declared at least what the simulation has recorded in `st`. -/
def Declares (st : Store LKey LVal) (s : Host) : Prop :=
  s.st.mode = .enforcing ∧ ∀ k a, Storage.Spec.allows st.footprint k a = true → Storage.Spec.allows s.st.footprint k a = true

/-- The contract exists in the ledger, with instance storage `m`, and so does its code. -/
def Exists (E : HEnv) (L : Ledger LKey LVal) (c : Nat) (m : FMap Nat Nat) : Prop :=
  ∃ ex l, L (.inst c) = some (.inst ex m, l) ∧ (code E L ex).isSome = true ∧ ∀ k ∈ codeKeys E L ex, (L k).isSome = true

/-- The name of the function an account contract is asked with. -/
def checkName : Name := "__check_auth".toList.map Char.toNat

end Soroban.Host.Spec
