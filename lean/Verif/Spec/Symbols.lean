import Verif.Model.Symbols
import Verif.Spec.Memory
import Verif.Spec.ScVal
/-!
What C104 says about symbols.
-/
namespace Soroban.Symbols.Spec
open Soroban Soroban.Spec

/-- The host value is a symbol with the text `t`, whatever its form: it passes the integrity check and converts to the ledger symbol `t`. -/
def IsSymbol (objs : List HostObj) (v : Nat) (t : List Nat) : Prop := Sound objs v ∧ Denotes objs v (.symbol t)

/-- Texts of symbols: at most 32 letters, digits and underscores. -/
def IsText (t : List Nat) : Prop := t.length ≤ 32 ∧ ∀ c ∈ t, isSymbolChar c

/-- The answer is the order of the texts as sequences of character codes. -/
def Tells (o : Ordering) (s t : List Nat) : Prop := (o = .lt ↔ s < t) ∧ (o = .gt ↔ t < s) ∧ (o = .eq ↔ s = t)

end Soroban.Symbols.Spec
