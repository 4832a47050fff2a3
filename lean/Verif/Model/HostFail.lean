import Verif.Model.Host
/-! The host function by which contracts fail. -/
namespace Soroban.Host
open Soroban

/-- host.rs:1274-1293 `fail_with_error`: the error a contract fails with when it asks to fail with `e`. -/
def failWith : Err → Err
  | .contract n => .contract n
  | .host _ _ => .host .context .unexpectedType

/-- The code of a contract that calls `fail_with_error` with `e` (host.rs:1274-1293). -/
def failWithError (e : Err) : Prog := .fail (failWith e)

end Soroban.Host
