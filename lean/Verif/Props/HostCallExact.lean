import Verif.Lemmas.HostCallExact
import Verif.Props.HostEntries
/-!
C94: exactly when a call succeeds.
-/
namespace Soroban.Props
open Soroban Soroban.Auth Soroban.Host Soroban.Host.Spec
open Soroban.Storage (Store Entry Access)

section
variable {E : HEnv} {st : Store LKey LVal} {orig : List Acct}

/-- **C94**. The result of a call that can be entered is determined by what the code of the function does in its frame: nothing in the
host can get in between. -/
theorem C94_entered (h : TxStart E st orig) {s : Host} (hr : Reach E st orig s) (hm : s.st.mode = .enforcing) {c : Nat} {fn : Name}
    {m : FMap Nat Nat} (hc : CanEnter E s c fn m) (p : Prog) :
    Outcome c (run E p (inside s c fn m)).1 (run E p (inside s c fn m)).2 (call E s c fn (run E p)).2 :=
  call_entered (reach_hok h hr) hm hc (run_good p)

/-- **C94**. Calls of functions reserved for the host, and of contracts that are running, are refused; and so are those of contracts that
are not in the footprint, that do not exist, and those in too many frames. Nothing happens then: the code of the contract is not run. -/
theorem C94_refused (h : TxStart E st orig) {s : Host} (hr : Reach E st orig s) (hm : s.st.mode = .enforcing) (c : Nat) (fn : Name)
    (f : Host → Host × Res RVal) :
    (reserved fn = true ∨ (∃ d ∈ s.ctx, d.cid = some c) → call E s c fn f = (s, .error (.host .context .invalidAction))) ∧
    (reserved fn = false → (∀ d ∈ s.ctx, d.cid ≠ some c) →
      (¬ CanAccess s (.inst c) .readOnly → call E s c fn f = (s, .error (.host .storage .exceededLimit))) ∧
      (CanAccess s (.inst c) .readOnly → visible E s (.inst c) = none → call E s c fn f = (s, .error (.host .storage .missingValue))) ∧
      ((∀ m, ¬ Callable E s c m) → ∃ e, call E s c fn f = (s, .error e)) ∧
      (∀ m, Callable E s c m → depthLimit ≤ s.ctx.length → call E s c fn f = (s, .error (.host .context .exceededLimit)))) := by
  have hok := reach_hok h hr
  have gread : ∀ s1 r, getInstance E s c = (s1, r) → s1 = s := fun s1 r hg => by
    have := getInstance_read hok.st c; rw [hg] at this; exact read_enf this hm
  have gerr : ∀ e, (getInstance E s c).2 = .error e → callContractFn E s c fn f = (s, .error e) := by
    intro e he
    rcases hg : getInstance E s c with ⟨s1, r⟩
    rw [hg] at he
    simp only at he
    subst he
    have := gread s1 _ hg
    subst this
    unfold callContractFn
    rw [hg]
  constructor
  · rintro (hf | hd)
    · unfold call callN
      rw [if_pos ⟨rfl, hf⟩]
    · obtain ⟨i, hi⟩ := reentry_some hd
      unfold call callN
      by_cases hf : reserved fn = true
      · rw [if_pos ⟨rfl, hf⟩]
      · rw [if_neg (by simp [hf])]
        simp only [hi]
  · intro hf hn
    rw [call_fresh hn hf]
    refine ⟨fun ha => gerr _ (getInstance_error (getEntry_denied hok.st ha)),
      fun ha hv => gerr _ (getInstance_error (getEntry_missing hok.st ha hv)), fun hnc => ?_, fun m hc hd => ?_⟩
    · exact callContractFn_noload hok.st hm (fun m s1 hl => hnc m ((loads_iff hok.st hm).mp ⟨s1, hl⟩))
    · obtain ⟨s1, hl⟩ := (loads_iff hok.st hm).mpr hc
      have := loads_enf hok.st hm hl
      subst this
      rw [← call_fresh hn hf, call_loaded hn hf hl]
      unfold withFrame
      rw [if_pos hd]

/-- **C94**. A call succeeds with a value exactly if it can be entered, and the code of the function returns that value, which is not an
error, and may keep its changes of the instance storage. -/
theorem C94_succeeds (h : TxStart E st orig) {s : Host} (hr : Reach E st orig s) (hm : s.st.mode = .enforcing) (c : Nat) (fn : Name)
    (p : Prog) (v : RVal) :
    (call E s c fn (run E p)).2 = .ok v ↔
      ∃ m, CanEnter E s c fn m ∧ Returns c (run E p (inside s c fn m)).1 (run E p (inside s c fn m)).2 v := by
  constructor
  · intro hv
    have hf : reserved fn = false := by
      cases hf : reserved fn with
      | false => rfl
      | true => rw [(C94_refused h hr hm c fn (run E p)).1 (Or.inl hf)] at hv; cases hv
    obtain ⟨m, hc, hret⟩ := (callN_ok_iff (reach_hok h hr) hm (Or.inr hf) (fun h => by rw [hf] at h; cases h) (run_good p) v).mp hv
    exact ⟨m, ⟨hf, hc⟩, hret⟩
  · rintro ⟨m, hc, hret⟩
    exact (callN_ok_iff (reach_hok h hr) hm (Or.inr hc.name) (fun h => by rw [hc.name] at h; cases h) (run_good p) v).mpr
      ⟨m, hc.contract, hret⟩

/-- **C94**. `try_call` returns a value that is not an error exactly if `call` would. -/
theorem C94_try (h : TxStart E st orig) {s : Host} (hr : Reach E st orig s) (hm : s.st.mode = .enforcing) (c : Nat) (fn : Name)
    (p : Prog) (v : RVal) (hv : ∀ e, v ≠ .err e) :
    (tryCall E s c fn (run E p)).2 = .ok v ↔
      ∃ m, CanEnter E s c fn m ∧ Returns c (run E p (inside s c fn m)).1 (run E p (inside s c fn m)).2 v := by
  rw [← C94_succeeds h hr hm]
  change tryResult (call E s c fn (run E p)).2 = .ok v ↔ _
  cases (call E s c fn (run E p)).2 with
  | ok w => exact Iff.rfl
  | error e =>
    refine ⟨fun hx => ?_, fun hx => by cases hx⟩
    cases e with
    | contract n => exact absurd (Except.ok.inj hx).symm (hv _)
    | host t k =>
      unfold tryResult at hx
      simp only at hx
      split at hx
      · exact absurd (Except.ok.inj hx).symm (hv _)
      · cases hx

/-- **C94**. A transaction that calls a function succeeds exactly if the call does. -/
theorem C94_transaction (h : TxStart E st orig) (hm : st.mode = .enforcing) (c : Nat) (fn : Name) (p : Prog) (v : RVal) :
    let s := (pushContext (Host.init st orig) hostFrame).1
    (invoke E (Host.init st orig) (.invoke c fn p)).2 = .ok v ↔
      ∃ m, CanEnter E s c fn m ∧ Returns c (run E p (inside s c fn m)).1 (run E p (inside s c fn m)).2 v := by
  intro s
  have hr : Reach E st orig s := .start
  rw [← C94_succeeds h hr hm]
  constructor
  · intro hv
    exact withFrame_ok hv
  · intro hv
    refine invoke_call (stOk_start h) h.auth hv ?_
    obtain ⟨m, -, hret⟩ := (C94_succeeds h hr hm c fn p v).mp hv
    exact hret.value

end

/-! ### these cases occur -/

namespace CallCase
open HostCase

theorem callable2 : Callable env s2 2 [] := by
  refine ⟨fun _ => by decide, .wasm 7, some 200, by decide, by decide, ?_⟩
  intro k hk
  simp only [codeKeys, List.mem_singleton] at hk
  subst hk
  exact ⟨fun _ => by decide, by decide⟩

theorem enter2 : CanEnter env s2 2 fnB [] := ⟨by decide, by decide, by decide, callable2⟩

/-- Contract 1 calls contract 2, which writes its data. -/
example : ∃ m, CanEnter env s2 2 fnB m ∧
    Returns 2 (run env (bodyB (.ret (.other 8))) (inside s2 2 fnB m)).1 (run env (bodyB (.ret (.other 8))) (inside s2 2 fnB m)).2 (.other 8) :=
  (C94_succeeds start reach2 rfl 2 fnB _ _).mp rfl

/-- It cannot write its instance storage: the instance is in the footprint only to be read. -/
def writes : Prog := .inst (.put 1 2) (fun _ => .ret .void)
example : (run env writes (inside s2 2 fnB [])).2 = .ok .void := rfl
example : (call env s2 2 fnB (run env writes)).2 = .error (.host .storage .exceededLimit) := rfl
/-- An error of the contract it returns is the error of the call, one of the host is not. -/
example : (call env s2 2 fnB (run env (.ret (.err (.contract 5))))).2 = .error (.contract 5) := rfl
example : (call env s2 2 fnB (run env (.ret (.err (.host .crypto .invalidInput))))).2 = .error (.host .context .invalidAction) := rfl
/-- It cannot call itself, functions of the host, nor a contract that is not in the footprint. -/
example : call env s2 1 fnB (run env writes) = (s2, .error (.host .context .invalidAction)) :=
  (C94_refused start reach2 rfl 1 fnB _).1 (Or.inr ⟨_, List.mem_cons_self, rfl⟩)
example : call env s2 2 checkAuthName (run env writes) = (s2, .error (.host .context .invalidAction)) :=
  (C94_refused start reach2 rfl 2 checkAuthName _).1 (Or.inl (by decide))
example : call env s2 4 fnB (run env writes) = (s2, .error (.host .storage .exceededLimit)) :=
  ((C94_refused start reach2 rfl 4 fnB _).2 (by decide) (by decide)).1 (fun h => absurd (h rfl) (by decide))
/-- A contract in the footprint that does not exist. -/
example : call env EntriesCase.sU 3 fnB (run env writes) = (EntriesCase.sU, .error (.host .storage .missingValue)) :=
  ((C94_refused EntriesCase.startU EntriesCase.reachU rfl 3 fnB _).2 (by decide) (by decide)).2.1 (fun _ => by decide) (by decide)
/-- The whole transaction. -/
example : ∃ m, CanEnter env s0 1 fnA m ∧ Returns 1 (run env bodyA (inside s0 1 fnA m)).1 (run env bodyA (inside s0 1 fnA m)).2 (.other 8) :=
  (C94_transaction start rfl 1 fnA bodyA (.other 8)).mp rfl

end CallCase
end Soroban.Props
