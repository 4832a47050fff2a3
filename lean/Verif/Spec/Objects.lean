import Verif.Model.Objects
/-!
Specification side of C10 and of the immutability part of C06: which words a host object contains, which objects a set of
roots gives access to, and what a frame may do.
-/
namespace Soroban.Spec

/-- The words directly inside an object. -/
def elems : HostObj → List Nat
  | .vec v => v
  | .map m => m.map (·.1) ++ m.map (·.2)
  | _ => []

/-- The objects a frame can legitimately get at: what it was handed, and what those objects contain, transitively. -/
inductive Reach (objs : List HostObj) (roots : List Nat) : Nat → Prop
  | root {w : Nat} : w ∈ roots → Reach objs roots w
  | elem {c w : Nat} {o : HostObj} : Reach objs roots c → visitObj objs c = .ok o → w ∈ elems o → Reach objs roots w

/-- The word is an object created after the table had `n` entries. -/
def CreatedSince (n : Nat) (w : Nat) : Prop := n ≤ handleToIndex (objHandle w)

/-- A frame's execution: any sequence of host calls with any words as arguments, each applied to the state left by the one
before. The arguments are 64-bit words, which is what a VM can pass. The execution stops at the first failing call, because a
failed call traps the VM. -/
inductive FrameRun (cmp : List HostObj → Nat → Nat → Res Ordering) :
    List HostObj → List Nat → List HostObj → List Nat → Prop
  | refl {objs tbl} : FrameRun cmp objs tbl objs tbl
  | step {objs tbl objs₁ tbl₁ objs₂ tbl₂ f ws w} : FrameRun cmp objs tbl objs₁ tbl₁ → (∀ x ∈ ws, x < 2^64) →
      dispatch cmp objs₁ tbl₁ f ws = .ok (objs₂, tbl₂, w) → FrameRun cmp objs tbl objs₂ tbl₂

/-- A word of the type of an argument. -/
def OfType : ArgTy → Nat → Prop
  | .val, _ => True
  | .u32, w => Val.tag w = .U32Val
  | .obj t, w => Val.tag w = t
  | .symbol, w => Val.tag w = .SymbolSmall ∨ Val.tag w = .SymbolObject

/-- A word that, if it is the handle of an object, names an object of the host of its type: handles of the host's own objects are odd. -/
def Names (objs : List HostObj) (a : Nat) : Prop :=
  Val.isObject a = true → objHandle a % 2 = 1 ∧ ∃ o, objs[objHandle a / 2]? = some o ∧ o.tag = Val.tag a

end Soroban.Spec
