import Verif.Model.LedgerKey
import Verif.Spec.ScVal
import Verif.Spec.Containers
/-!
What the order of ledger keys is: by kind of entry first, then field by field, values by their order `scOrd` (Spec/ScVal.lean).
-/
namespace Soroban.Keys.Spec
open Soroban.Spec Soroban.Preimage Soroban.Keys

/-- The kinds of keys contracts can meet. -/
def Supported (k : LKey) : Prop := k.kind ∈ [0, 1, 6, 7]

/-- An asset as numbers. -/
def lineContent : LineAsset → List Int
  | .native => [0]
  | .alpha4 c i => 1 :: (c.map Int.ofNat ++ [(i : Int)])
  | .alpha12 c i => 2 :: (c.map Int.ofNat ++ [(i : Int)])
  | .pool p => [3, (p : Int)]

/-- Codes of assets are 4 or 12 bytes. -/
def LineOk : LineAsset → Prop
  | .alpha4 c _ => c.length = 4
  | .alpha12 c _ => c.length = 12
  | _ => True

/-- The order of ledger keys. -/
def keyOrd : LKey → LKey → Ordering
  | .account x, .account y => compare x y
  | .trustline x p, .trustline y q => (compare x y).then (lexInts (lineContent p) (lineContent q))
  | .contractData c k t, .contractData c' k' t' =>
    (lexInts (addrContent c) (addrContent c')).then ((scOrd k k').then (compare (t == .persistent).toNat (t' == .persistent).toNat))
  | .contractCode x, .contractCode y => compare x y
  | a, b => compare a.kind b.kind

/-- No vector or map in the value lacks its body. -/
def Whole (s : ScVal) : Prop := ∃ d, Comparable d s

/-- A key of a supported kind, as XDR guarantees its contents, whose value has no missing bodies. -/
def KeyOk : LKey → Prop
  | .trustline _ a => LineOk a
  | .contractData _ k _ => XdrOk k ∧ Whole k
  | k => Supported k

/-- The value in the key nests at most `d` deep. -/
def Shallow (d : Nat) : LKey → Prop
  | .contractData _ k _ => Comparable d k
  | _ => True

/-- Keys the host can compare with `d` levels left. -/
def GoodKey (d : Nat) : Type := {k : LKey // KeyOk k ∧ Shallow d k}

/-- What an authorized function says, in ledger values: a call of a function of a contract with arguments, or the creation of a
contract. -/
inductive Meaning where
  | call (contract name : ScVal) (args : List ScVal)
  | create (args : CreateArgs)

/-- The authorized function is made of values the host handed out, and says this. The arguments of a creation are as XDR guarantees
them, with no missing bodies. -/
def Means (objs : List HostObj) : AuthFn → Meaning → Prop
  | .call c n a, .call sc sn sa =>
    (Sound objs c ∧ Denotes objs c sc) ∧ (Sound objs n ∧ Denotes objs n sn) ∧ List.Forall₂ (fun v s => Sound objs v ∧ Denotes objs v s) a sa
  | .create a, .create b => a = b ∧ ∀ s ∈ a.args, XdrOk s ∧ Whole s
  | _, _ => False

/-- None of its values nests deeper than `d`. -/
def Flat (objs : List HostObj) (d : Nat) : AuthFn → Prop
  | .call c n a => ∀ v ∈ c :: n :: a, ∃ s, fromVal false objs d v = .ok s
  | .create a => ∀ s ∈ a.args, Comparable d s

open Classical in
/-- What is last said about a key: the value written, or nothing. -/
noncomputable def lastSaid {V : Type} {d : Nat} (k : LKey) : List (MapOp (GoodKey d) V) → Option V
  | [] => none
  | .put k' v :: older => if k'.1 = k then some v else lastSaid k older
  | .del k' :: older => if k'.1 = k then none else lastSaid k older

end Soroban.Keys.Spec
