import Verif.Model.Containers
/-!
Specification side of C06-C09: what it means for a comparison to be a total order, for a list of pairs to be a finite map
listed in key order, and the abstract finite map a history of writes denotes.
-/
namespace Soroban.Spec

/-- The fallible comparison `cmp` never fails and computes `ord`. -/
def Computes {K : Type} (cmp : K → K → Res Ordering) (ord : K → K → Ordering) : Prop := ∀ a b, cmp a b = .ok (ord a b)

/-- Keys strictly increase along the list. -/
def Ascending {K V : Type} (ord : K → K → Ordering) (m : List (K × V)) : Prop := m.Pairwise (fun a b => ord a.1 b.1 = .lt)

/-- `k` has an entry in `m`. -/
def HasKey {K V : Type} (ord : K → K → Ordering) (m : List (K × V)) (k : K) : Prop := ∃ p ∈ m, ord p.1 k = .eq

/-- `m` maps `k` to `v`. -/
def MapsTo {K V : Type} (ord : K → K → Ordering) (m : List (K × V)) (k : K) (v : V) : Prop :=
  ∃ p ∈ m, ord p.1 k = .eq ∧ p.2 = v

/-- A write to a map. -/
inductive MapOp (K V : Type) where
  | put (k : K) (v : V)
  | del (k : K)

/-- What the last write to `k` in a history says: the value, or nothing. -/
def lastWrite {K V : Type} (ord : K → K → Ordering) (k : K) : List (MapOp K V) → Option V
  | [] => none
  | .put k' v :: older => if ord k' k = .eq then some v else lastWrite ord k older
  | .del k' :: older => if ord k' k = .eq then none else lastWrite ord k older

/-- The abstract order on a vector for binary search. -/
def NonDescending {A : Type} (ord : A → A → Ordering) (v : List A) : Prop := v.Pairwise (fun a b => ord a b ≠ .gt)

end Soroban.Spec
