import Verif.Model.HostFail
import Verif.Props.Host
/-! C23: contracts that fail on purpose. -/
namespace Soroban.Props
open Soroban Soroban.Auth Soroban.Host Soroban.Host.Spec

/-- **C23**. Whatever error a contract asks to fail with, even one with the type and code of a fatal error, its caller survives: it gets the
contract error if it is one, and `Context/InvalidAction` otherwise. -/
theorem C23_failures_on_purpose_are_caught {E : HEnv} {st : Storage.Store LKey LVal} {orig : List Acct} (h : TxStart E st orig)
    {s s1 : Host} (hr : Reach E st orig s) (id : Nat) (fn : Name) (e : Err) (inst : FMap Nat Nat)
    (hd : s.ctx.length < 100) (hn : ∀ c ∈ s.ctx, c.cid ≠ some id) (hfn : reserved fn = false) (hl : Loads E s id inst s1) :
    (∀ n, e = .contract n → (tryCall E s id fn (run E (failWithError e))).2 = .ok (.err (.contract n))) ∧
    (∀ t c, e = .host t c → (tryCall E s id fn (run E (failWithError e))).2 = .ok (.err (.host .context .invalidAction))) := by
  have hs := reach_hok h hr
  have hrd := loads_read hs.st hl
  have hs1 : HOk E orig s1 := (hrd.only.good hs (.ok ())).ok
  have hframe : ∀ m, (withFrame E s1 { cid := some id, fn := fn, inst := m, storage := none } (run E (failWithError e))).2 =
      .error (failWith e) := by
    intro m
    have hroll := MLe.rolledBack hs1.mwf (hs1.mwf.push (.contract (.contract id) fn)) (MLe.refl _)
    have hm : ∀ s : Host, mark s (failWith e) = s := fun s => by cases e <;> rfl
    unfold withFrame failWithError
    rw [if_neg (by rw [hrd.only.ctx]; show ¬ (s.ctx.length ≥ 100); omega)]
    simp only [run, hm, escalate, finish, rollbackIf, popContext, pushContext, hroll, ne_eq, not_true_eq_false, if_false]
  have hc : (call E s id fn (run E (failWithError e))).2 = .error (failWith e) := by
    rw [call_loaded hn hfn hl]
    exact hframe _
  have hr : (tryCall E s id fn (run E (failWithError e))).2 = tryResult (call E s id fn (run E (failWithError e))).2 := rfl
  rw [hr, hc]
  exact ⟨fun n hn => (by subst hn; rfl), fun t c hc => (by subst hc; rfl)⟩

namespace HostCase
/-- A contract asks to fail with an internal error. -/
example : (tryCall env s2 2 fnB (run env (failWithError (.host .storage .internalError)))).2 =
    .ok (.err (.host .context .invalidAction)) := rfl
/-- Whereas an internal error of the host ends the transaction. -/
example : (tryCall env s2 2 fnB (run env (.fail (.host .storage .internalError)))).2 = .error (.host .storage .internalError) := rfl
end HostCase

end Soroban.Props
