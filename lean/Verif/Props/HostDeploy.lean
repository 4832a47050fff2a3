import Verif.Lemmas.HostDeploy
import Verif.Props.HostEntries
/-!
C95: exactly when code is uploaded, executables are updated and contracts are created.
-/
namespace Soroban.Props
open Soroban Soroban.Auth Soroban.Host Soroban.Host.Spec
open Soroban.Storage (Store Entry Access)

section
variable {E : HEnv} {st : Store LKey LVal} {orig : List Acct}

/-- **C95**. An upload succeeds exactly if the code is there and may be read, or it is not there and may be written. -/
theorem C95_upload (h : TxStart E st orig) {s : Host} (hr : Reach E st orig s) (hm : s.st.mode = .enforcing) (c w : Nat) :
    (uploadWasm E s c w).2 = .ok () ↔ CanUpload E s c w :=
  upload_iff (reach_hok h hr).st hm c w

/-- **C95**. A contract can change its executable exactly if what the new one refers to exists and may be read, and its instance may be
written. Nobody has to authorize that, and what it was before does not matter. -/
theorem C95_update (h : TxStart E st orig) {s : Host} (hr : Reach E st orig s) (hm : s.st.mode = .enforcing) {d : Ctx} {ds : List Ctx}
    (hs : s.ctx = d :: ds) {c : Nat} (hc : d.cid = some c) {ex0 : Exec} {m0 : FMap Nat Nat} {l : Option Nat}
    (hL : visible E s (.inst c) = some (.inst ex0 m0, l)) (ex : Exec) :
    (updateExec E s ex).2 = .ok () ↔ CanUpdate E s c ex := by
  refine updateExec_iff (reach_hok h hr).st hm ?_ hL ex
  unfold currentContract
  rw [hs]
  dsimp only
  rw [hc]

/-- The deployer has authorized the creation, if there is one: `s1` is the host then. -/
def Deployed (E : HEnv) (s : Host) (d : Option Addr) (args : CreateArgs) (check : Nat → Prog) (s1 : Host) : Prop :=
  match d with
  | none => s1 = s
  | some a => requireAuth E { s with auth := s.auth.push (.create args) } a [] (fun i => run E (check i)) = (s1, .ok ())

/-- **C95**. A contract is created exactly if: the preimage of its ID goes with its executable; the deployer has authorized it (C92); there
is no contract with its ID; the executable exists and may be read; the instance may be written; and the constructor, if there is one,
can be entered and returns nothing. -/
theorem C95_create (h : TxStart E st orig) {s : Host} (hr : Reach E st orig s) (hm : s.st.mode = .enforcing) (d : Option Addr)
    (args : CreateArgs) (check : Nat → Prog) (ctor : Prog) (v : RVal) :
    let id := E.newId args.preimage args.fromAsset
    (createContract E s d args (fun i => run E (check i)) (run E ctor)).2 = .ok v ↔
      v = .other id ∧ (args.fromAsset = true ↔ args.exec = .asset) ∧
      ∃ s1, Deployed E s d args check s1 ∧ CanCreate E s1 id args.exec ∧ Constructed E (created E s1 id args.exec) id args ctor := by
  intro id
  have hpm : (args.fromAsset = true ↔ args.exec = .asset) ↔ preimageMatches args = true := (preimageMatches_iff args).symm
  rw [hpm]
  have hok := reach_hok h hr
  -- the steps after the deployer's authorization
  have after : ∀ s1, HOk E orig s1 → s1.st.mode = .enforcing →
      ((createInstance E s1 id args (run E ctor)).2 = .ok () ↔
        CanCreate E s1 id args.exec ∧ Constructed E (created E s1 id args.exec) id args ctor) := by
    intro s1 h1 hm1
    unfold createInstance
    rcases createWithId_enf h1.st hm1 id args.exec with ⟨h2, h3⟩ | ⟨h2, e, h3⟩
    · have h4 := ((createWithId_only h1.st id args.exec).good h1 (.ok ())).ok
      rw [h3] at h4 ⊢
      dsimp only at h4 ⊢
      have := constructed_iff (args := args) h4 hm1 (visible_created id args.exec) ctor
      cases hfa : args.fromAsset with
      | true => rw [hfa] at this; simp only [if_true] at this ⊢; rw [this]; exact ⟨fun hx => ⟨h2, hx⟩, fun hx => hx.2⟩
      | false =>
        rw [hfa] at this; simp only [Bool.false_eq_true, if_false] at this ⊢
        rw [this]; exact ⟨fun hx => ⟨h2, hx⟩, fun hx => hx.2⟩
    · rw [h3]
      exact ⟨fun hx => (by cases hx), fun hx => absurd hx.1 h2⟩
  have main : ∀ s0, HOk E orig s0 → s0.st.mode = .enforcing →
      ((createWithAuth E s0 d args (fun i => run E (check i)) (run E ctor)).2 = .ok v ↔
        v = .other id ∧ preimageMatches args = true ∧
        ∃ s1, requireDeployer E s0 d (fun i => run E (check i)) = (s1, .ok ()) ∧
          CanCreate E s1 id args.exec ∧ Constructed E (created E s1 id args.exec) id args ctor) := by
    intro s0 h0 hm0
    have hg := requireDeployer_good h0 d (run := fun i => run E (check i)) (fun i s1 h1 => run_good (check i) s1 h1)
    unfold createWithAuth
    generalize requireDeployer E s0 d (fun i => run E (check i)) = q at hg
    obtain ⟨s1, r⟩ := q
    cases r with
    | error e =>
      refine ⟨fun hx => (by cases hx), ?_⟩
      rintro ⟨-, -, s1, hx, -⟩
      cases hx
    | ok u =>
      dsimp only
      have hm1 : s1.st.mode = .enforcing := hg.le.st.mode.trans hm0
      have ha := after s1 hg.ok hm1
      cases hp : preimageMatches args with
      | false => exact ⟨fun hx => (by cases hx), fun hx => (by cases hx.2.1)⟩
      | true =>
        simp only [if_true]
        rcases hc : createInstance E s1 id args (run E ctor) with ⟨s2, r⟩
        rw [hc] at ha
        cases r with
        | error e =>
          refine ⟨fun hx => (by cases hx), ?_⟩
          rintro ⟨-, -, s1', hx, hy⟩
          cases hx
          cases ha.mpr hy
        | ok u =>
          dsimp only
          constructor
          · intro hx
            exact ⟨(Except.ok.inj hx).symm, trivial, s1, rfl, ha.mp rfl⟩
          · rintro ⟨rfl, -⟩
            rfl
  cases d with
  | none =>
    have := main s hok hm
    unfold createContract
    dsimp only
    rw [this]
    refine and_congr_right (fun _ => and_congr_right (fun _ => exists_congr (fun s1 => and_congr_left (fun _ => ?_))))
    unfold requireDeployer Deployed
    constructor
    · intro hx; cases hx; rfl
    · intro hx; rw [show s1 = s from hx]
  | some a =>
    have hr' : Reach E st orig { s with auth := s.auth.push (.create args) } := .creating hr
    exact main _ (reach_hok h hr') hm

end

/-! ### these cases occur -/

namespace DeployCase
open HostCase EntriesCase

/-- New code can be uploaded, and code that is there again, but other code with the same hash cannot: it is not declared for writing. -/
example : CanUpload env sU 8 2 := (C95_upload startU reachU rfl 8 2).mp rfl
example : CanUpload env sU 7 1 := (C95_upload startU reachU rfl 7 1).mp rfl
example : ¬ CanUpload env sU 7 5 := fun h => by
  have := (C95_upload startU reachU rfl 7 5).mpr h
  revert this; decide
/-- Contract 1 can take the code that is there, but not one that is not. -/
example : CanUpdate env sU 1 (.wasm 7) := (C95_update startU reachU rfl rfl rfl (ex0 := .wasm 7) (m0 := [(4, 5)]) (l := some 200) (by decide) _).mp rfl
example : ¬ CanUpdate env sU 1 (.wasm 8) := fun h => by
  have := (C95_update startU reachU rfl rfl rfl (ex0 := .wasm 7) (m0 := [(4, 5)]) (l := some 200) (by decide) (.wasm 8)).mpr h
  revert this; decide
/-- It can create contract 3, whose constructor writes its instance storage; and not if the constructor returns something. -/
def ctor (v : RVal) : Prog := .inst (.put 1 2) (fun _ => .ret v)
example : ∃ s1, Deployed env sU (some (.contract 1)) create (fun _ => .ret .void) s1 ∧ CanCreate env s1 3 (.wasm 7) ∧
    Constructed env (created env s1 3 (.wasm 7)) 3 create (ctor .void) :=
  ((C95_create startU reachU rfl (some (.contract 1)) create (fun _ => .ret .void) (ctor .void) (.other 3)).mp rfl).2.2
example : (createContract env sU (some (.contract 1)) create (fun _ => run env (.ret .void)) (run env (ctor (.other 1)))).2 =
    .error (.host .value .unexpectedType) := rfl

end DeployCase
end Soroban.Props
