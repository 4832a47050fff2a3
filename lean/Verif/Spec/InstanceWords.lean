import Verif.Model.Diagnostics
/-!
Runs of calls on instance storage in one frame (C49).
-/
namespace Soroban.Spec
open Soroban Soroban.Diagnostics

/-- A frame in which these functions on instance storage are called one after the other, all with success: the objects, the handles
of the frame and its instance storage, before and after. The words that are passed are arbitrary. Other code may add objects
and handles between the calls. -/
inductive InstRun {σ : Type} (d : Nat) : List HostObj → List Nat → Inst σ → List InstOp → List HostObj → List Nat → Inst σ → Prop
  | done (objs : List HostObj) (tbl : List Nat) (i : Inst σ) : InstRun d objs tbl i [] objs tbl i
  | other {objs objs' objs'' : List HostObj} {tbl tbl' tbl'' : List Nat} {i i'' : Inst σ} {ops : List InstOp} :
      InstRun d objs' tbl' i ops objs'' tbl'' i'' → InstRun d objs tbl i ops objs'' tbl'' i''
  | call {objs objs' objs'' : List HostObj} {tbl tbl' tbl'' : List Nat} {i i' i'' : Inst σ} {op : InstOp} {ops : List InstOp}
      {ws : List Nat} {r : Nat} : callInst d objs tbl i op ws = .ok (objs', tbl', i', r) →
      InstRun d objs' tbl' i' ops objs'' tbl'' i'' → InstRun d objs tbl i (op :: ops) objs'' tbl'' i''

end Soroban.Spec
