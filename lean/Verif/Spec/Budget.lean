import Verif.Model.Budget
/-! Specification side of C11-C16. -/
namespace Soroban.Budget.Spec
open Soroban Soroban.Budget

/-- The documented cost of `n` iterations on inputs of size `x`: a constant and a linear term scaled by 128, capped at the
largest `u64`. Constant models have no input. -/
def idealCost (m : CostModel) (n : Nat) : Option Nat → Nat
  | none => n * m.constTerm
  | some x => n * m.constTerm + n * m.linTerm * x / 128

/-- The state with other contents of the shadow counters. -/
def withShadow (s : S) (c m : Nat) : S :=
  { s with b := { s.b with cpu := { s.b.cpu with shadowNet := c }, mem := { s.b.mem with shadowNet := m } } }

/-- Work that never pops a frame, so never refunds memory. -/
inductive NoFrames : Work → Prop
  | skip : NoFrames .skip
  | fail (e) : NoFrames (.fail e)
  | charge (ty n i) : NoFrames (.charge ty n i)
  | seq {a b} : NoFrames a → NoFrames b → NoFrames (.seq a b)
  | attempt {w} : NoFrames w → NoFrames (.attempt w)
  | shadow {w} : NoFrames w → NoFrames (.shadow w)
  | obsShadow {w} : NoFrames w → NoFrames (.obsShadow w)
  | limited {w} : NoFrames w → NoFrames (.limited w)
  | memGrow (c d m) : NoFrames (.memGrow c d m)
  | dep {f} : (∀ s, NoFrames (f s)) → NoFrames (.dep f)

/-- Work in which no error is swallowed (other than inside shadow mode). -/
inductive Strict : Work → Prop
  | skip : Strict .skip
  | fail (e) : Strict (.fail e)
  | charge (ty n i) : Strict (.charge ty n i)
  | seq {a b} : Strict a → Strict b → Strict (.seq a b)
  | shadow {w} : Strict (.shadow w)
  | obsShadow {w} : Strict (.obsShadow w)
  | limited {w} : Strict w → Strict (.limited w)
  | memGrow (c d m) : Strict (.memGrow c d m)
  | frame {w} : Strict w → Strict (.frame w)
  | vmFrame {a b} : Strict a → Strict b → Strict (.vmFrame a b)
  | dep {f} : (∀ s, Strict (f s)) → Strict (.dep f)

/-- Work whose only charges are for growing VM memory. -/
inductive OnlyMemory : Work → Prop
  | skip : OnlyMemory .skip
  | seq {a b} : OnlyMemory a → OnlyMemory b → OnlyMemory (.seq a b)
  | limited {w} : OnlyMemory w → OnlyMemory (.limited w)
  | memGrow (c d m) : OnlyMemory (.memGrow c d m)
  | frame {w} : OnlyMemory w → OnlyMemory (.frame w)
  | vmFrame {a b} : OnlyMemory a → OnlyMemory b → OnlyMemory (.vmFrame a b)
  | dep {f} : (∀ s, OnlyMemory (f s)) → OnlyMemory (.dep f)

/-- Two states that differ only in the shadow counters. -/
def SameButShadow (s s' : S) : Prop := ∃ c m, s' = withShadow s c m

/-- Work that does not look at the shadow counters: it has no observable shadow mode (a testing and preflight facility), and
its decisions do not depend on those counters. What runs inside `shadow` is arbitrary. -/
inductive Blind : Work → Prop
  | skip : Blind .skip
  | fail (e) : Blind (.fail e)
  | charge (ty n i) : Blind (.charge ty n i)
  | seq {a b} : Blind a → Blind b → Blind (.seq a b)
  | attempt {w} : Blind w → Blind (.attempt w)
  | shadow (w) : Blind (.shadow w)
  | limited {w} : Blind w → Blind (.limited w)
  | memGrow (c d m) : Blind (.memGrow c d m)
  | frame {w} : Blind w → Blind (.frame w)
  | vmFrame {a b} : Blind a → Blind b → Blind (.vmFrame a b)
  | dep {f} : (∀ s, Blind (f s)) → (∀ s s', SameButShadow s s' → f s = f s') → Blind (.dep f)

/-- Work that only nests, and how deep. -/
inductive Nesting : Work → Nat → Prop
  | skip : Nesting .skip 0
  | seq {a b m n} : Nesting a m → Nesting b n → Nesting (.seq a b) (max m n)
  | limited {w n} : Nesting w n → Nesting (.limited w) (n + 1)

/-- A step in the life of a dimension. -/
inductive Op where
  | charge (ty n : Nat) (input : Option Nat)
  | refund (amount : Nat)

/-- The amounts in use after each step of a history in which nothing overflows, starting from `net`. -/
def nets (models : List CostModel) (net : Nat) : List Op → List Nat
  | [] => []
  | .charge ty n i :: ops =>
    let net' := net + (match models[ty]? with | some m => m.evaluate n i | none => 0)
    net' :: nets models net' ops
  | .refund a :: ops => (net - a) :: nets models (net - a) ops

end Soroban.Budget.Spec
