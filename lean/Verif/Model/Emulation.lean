import Verif.Model.Host
/-!
The emulated authentication of recording mode: soroban-env-host/src/auth.rs. When the outermost call of a simulation ends, the host reads what
the authentication of each recorded signer will read.
-/
namespace Soroban.Host
open Soroban Soroban.Auth Soroban.Storage

/-- auth.rs:2791-2796, the read of the code. -/
def emulateCode (E : HEnv) (st : Store LKey LVal) (h : Nat) : Store LKey LVal × Res Unit :=
  match tryGet E.sto st (.code h) with
  | (st, .error e) => (st, .error e)
  | (st, .ok _) => (st, .ok ())

/-- auth.rs:2790-2821, the reads for the executable of an account contract. -/
def emulateExec (E : HEnv) (st : Store LKey LVal) : Exec → Store LKey LVal × Res Unit
  | .wasm h => emulateCode E st h
  | .ref o t => match tryGet E.sto st (.data o (.tag t) .persistent) with
    | (st, .error e) => (st, .error e)
    | (st, .ok (some (.data v, _))) => match E.hashOf v with
      | some h => emulateCode E st h
      | none => (st, .ok ())
    | (st, .ok _) => (st, .ok ())
  | .asset => (st, .ok ())

/-- auth.rs:2725-2833 `emulate_authentication`. For a classic account the code checks a signature of zeroes and drops the error; what remains
is that builtin_contracts/account_contract.rs:200 has read the account, before it looks at the signature. The kinds of addresses that
cannot be signers are not in the model. -/
def emulateOne (E : HEnv) (st : Store LKey LVal) (t : Acct) : Store LKey LVal × Res Unit :=
  if t.source then (st, .ok ())
  else match t.addr with
    | .account id => ((getEntry E.sto st (.account id)).1, .ok ())
    | .contract c => match tryGet E.sto st (.inst c) with
      | (st, .error e) => (st, .error e)
      | (st, .ok (some (.inst ex _, _))) => emulateExec E st ex
      | (st, .ok _) => (st, .ok ())

/-- auth.rs:1755-1768 `maybe_emulate_authentication` -/
def emulateAll (E : HEnv) : List Acct → Store LKey LVal → Store LKey LVal × Res Unit
  | [], st => (st, .ok ())
  | t :: ts, st => match emulateOne E st t with
    | (st, .error e) => (st, .error e)
    | (st, .ok ()) => emulateAll E ts st

/-- host/frame.rs:253-289 `pop_context` for the outermost frame of a simulation that records authorizations: `signers` are the trackers it has
recorded. The authentication is emulated before anything is rolled back. -/
def popOutermost (E : HEnv) (signers : List Acct) (s : Host) (rp : Option RollbackPoint) : Host × Res Unit :=
  match emulateAll E signers s.st with
  | (st, .error e) => ({ s with st := st }, .error e)
  | (st, .ok ()) => popContext { s with st := st } rp

end Soroban.Host
