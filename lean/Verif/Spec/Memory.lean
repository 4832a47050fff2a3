import Verif.Model.Int
import Verif.Spec.Objects
import Verif.Spec.Val
/-!
Specification side of C54 and C55: what a frame with a linear memory may do, and the effect of writing a range.
-/
namespace Soroban.Spec

/-- `m'` is `m` with the bytes from `pos` on replaced by `bs`, and nothing else. -/
def Overwritten (m m' : List Nat) (pos : Nat) (bs : List Nat) : Prop :=
  m'.length = m.length ∧ pos + bs.length ≤ m.length ∧
  (∀ i, i < bs.length → m'[pos + i]? = bs[i]?) ∧ ∀ i, i < pos ∨ pos + bs.length ≤ i → m'[i]? = m[i]?

/-- The execution of a frame with a memory: any sequence of host calls with any words as arguments, and any changes its own code
makes to its memory in between, which may also grow. -/
inductive MemRun (cmp : List HostObj → Nat → Nat → Res Ordering) : Lin → Lin → Prop
  | refl {l} : MemRun cmp l l
  | call {l l₁ l₂ f ws w} : MemRun cmp l l₁ → (∀ x ∈ ws, x < 2^64) → dispatchH cmp l₁ f ws = .ok (l₂, w) → MemRun cmp l l₂
  | int {l l₁ l₂ f ws w} : MemRun cmp l l₁ → (∀ x ∈ ws, x < 2^64) → dispatchI l₁ f ws = .ok (l₂, w) → MemRun cmp l l₂
  | code {l l₁ mem} : MemRun cmp l l₁ → (∀ b ∈ mem, b < 256) → MemRun cmp l { l₁ with mem := mem }

/-- The bytes at `pos` are the number `w` of `n` bytes, the least significant first. -/
def NumAt (m : List Nat) (pos n w : Nat) : Prop := w < 256 ^ n ∧ ∀ k, k < n → m[pos + k]? = some (w / 256 ^ k % 256)

/-- The 64-bit words at `pos` are `ws`. -/
def WordsAt (m : List Nat) (pos : Nat) (ws : List Nat) : Prop := ∀ i w, ws[i]? = some w → NumAt m (pos + 8 * i) 8 w

/-- The bytes at `pos` are `b`. -/
def BytesAt (m : List Nat) (pos : Nat) (b : List Nat) : Prop := pos + b.length ≤ m.length ∧ ∀ k, k < b.length → m[pos + k]? = b[k]?

/-- At `pos` there are pairs of 32-bit pointers and lengths, and what they point to is `bs`. -/
def SlicesAt (m : List Nat) (pos : Nat) (bs : List (List Nat)) : Prop :=
  ∀ i b, bs[i]? = some b → ∃ ptr, NumAt m (pos + 8 * i) 4 ptr ∧ NumAt m (pos + 8 * i + 4) 4 b.length ∧ ptr + b.length < 2^32 ∧ BytesAt m ptr b

/-- The bytes inside an object. -/
def octets : HostObj → List Nat
  | .bytes b | .string b | .symbol b | .executableTag b => b
  | _ => []

/-- Bytes are bytes, and a symbol has at most 32 characters out of letters, digits and the underscore. -/
def TextOk (o : HostObj) : Prop :=
  (∀ b ∈ octets o, b < 256) ∧ ∀ s, o = .symbol s → s.length ≤ 32 ∧ ∀ c ∈ s, isSymbolChar c

end Soroban.Spec
