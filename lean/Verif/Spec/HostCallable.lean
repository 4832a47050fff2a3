import Verif.Spec.HostAuth
import Verif.Spec.HostExtend
/-! When a contract can be called, and when a call returns. -/
namespace Soroban.Host.Spec
open Soroban Soroban.Auth Soroban.Host
open Soroban.Storage.Spec (Ledger)

/-- The contract `c` exists with instance storage `m`, and so does its code; the transaction may read what that takes: its instance,
the code, and the tag of another contract if it refers to one. -/
structure Callable (E : HEnv) (s : Host) (c : Nat) (m : FMap Nat Nat) : Prop where
  instance_ : CanAccess s (.inst c) .readOnly
  code : ∃ ex l, visible E s (.inst c) = some (.inst ex m, l) ∧ (Spec.code E (visible E s) ex).isSome = true ∧
    ∀ k ∈ codeKeys E (visible E s) ex, CanAccess s k .readOnly ∧ (visible E s k).isSome = true

/-- Contract `c` can be entered from `s`: it is not running, there are not too many frames already, and it is callable. -/
structure Enterable (E : HEnv) (s : Host) (c : Nat) (m : FMap Nat Nat) : Prop where
  notRunning : ∀ d ∈ s.ctx, d.cid ≠ some c
  depth : s.ctx.length < depthLimit
  callable : Callable E s c m

/-- Function `fn` of contract `c` can be called from `s`: it is none of those only the host calls, and the contract can be entered. -/
structure CanEnter (E : HEnv) (s : Host) (c : Nat) (fn : Name) (m : FMap Nat Nat) : Prop where
  name : reserved fn = false
  contract : Enterable E s c m

/-- The host when the code of the function starts. -/
def inside (s : Host) (c : Nat) (fn : Name) (m : FMap Nat Nat) : Host :=
  (pushContext s { cid := some c, fn := fn, inst := m, storage := none }).1

/-- The code has ended, in `s'`, with a value, which is not an error, and may keep what it has written to its instance storage. -/
structure Returns (c : Nat) (s' : Host) (r : Res RVal) (v : RVal) : Prop where
  result : r = .ok v
  value : ∀ e, v ≠ .err e
  writable : ∀ d ds, s'.ctx = d :: ds → Ctx.changed d = true → CanAccess s' (.inst c) .readWrite

/-- The result `q` of a call, if the code ended in `s'` with the result `r`: a value is passed on if it is `Returns`; a value that is an
error of the contract fails the call with this error, and one that is an error of the host with another one; changes of the instance
storage the transaction has not declared fail it; and a failure of the code is passed on as it is. -/
inductive Outcome (c : Nat) (s' : Host) : Res RVal → Res RVal → Prop
  | returned {r v} : Returns c s' r v → Outcome c s' r (.ok v)
  | contractError {n} : Outcome c s' (.ok (.err (.contract n))) (.error (.contract n))
  | hostError {t k} : Outcome c s' (.ok (.err (.host t k))) (.error (.host .context .invalidAction))
  | notKept {v d ds} : (∀ e, v ≠ .err e) → s'.ctx = d :: ds → Ctx.changed d = true → ¬ CanAccess s' (.inst c) .readWrite →
      Outcome c s' (.ok v) (.error (.host .storage .exceededLimit))
  | failed {e} : Outcome c s' (.error e) (.error e)

end Soroban.Host.Spec
