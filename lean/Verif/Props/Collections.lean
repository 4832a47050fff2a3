import Verif.Lemmas.CollectionsBound
/-!
C100: the work of maps and vectors is paid for.
-/
namespace Soroban.Props
open Soroban.Budget (B CostModel)
open Soroban.Coll Soroban.Coll.Spec

/-- **C100**: at every moment of an operation the charges for memory copies cover what it has read and copied, except for the elements of a
new collection that it copies before it pays; and when it ends, with a result or an error, they cover those too, and its charges for
allocations cover what it has copied, unless the budget refuses a charge. -/
theorem C100_paid (c : Cmd) (h : c.Sound) : Fair c.ahead c.run := fair_cmd c h

/-- **C100**: a search looks at no more elements than there are binary digits in the length, whatever the comparisons answer. -/
theorem C100_search {α : Type} (size : Nat) (xs : List α) (f : α → B → B × Res Ordering) (m : M) :
    ∃ new, (search size xs f m).1.log = new ++ m.log ∧ (looks new = 0 ∨ 2 ^ (looks new - 1) ≤ xs.length) := by
  obtain ⟨new, h1, h2⟩ := looks_search (size := size) (xs := xs) (f := f) m
  exact ⟨new, h1, bits_pow h2⟩

/-- **C100**: metering does not change what an operation on a vector computes: it has the result it has without metering, or that of a refused
charge. -/
theorem C100_vector_results {A : Type} {E : Elt A} (hE : ∀ xs, SameB (E.subs xs) (.ok ())) {cmp : A → A → B → B × Res Ordering}
    {c : A → A → Res Ordering} (hc : ∀ a b, SameB (cmp a b) (c a b)) (v w : List A) (i j : Nat) (x : A) :
    Same (vecOfIter E v) (vecFromIter v) ∧ Same (set E v i x) (vSet v i x) ∧ Same (vget E v i) (vGet v i) ∧
    Same (pushFront E v x) (vPushFront v x) ∧ Same (popFront E v) (vPopFront v) ∧ Same (pushBack E v x) (vPushBack v x) ∧
    Same (popBack E v) (vPopBack v) ∧ Same (vremove E v i) (vRemove v i) ∧ Same (front E v) (vFront v) ∧ Same (back E v) (vBack v) ∧
    Same (vinsert E v i x) (vInsert v i x) ∧ Same (append E v w) (vAppend v w) ∧ Same (slice E v i j) (vSlice v i j) ∧
    Same (firstIndexOf E (fun y => cmp y x) v) (firstIndexLoop (fun y => c y x) 0 v) ∧
    Same (lastIndexOf E (fun y => cmp y x) v) (lastIndexLoop (fun y => c y x) v.reverse) ∧
    Same (search E.size v (fun y => cmp y x)) (bsearch v (fun y => c y x)) ∧ Same (toVec E v) (.ok v) ∧
    Same (vcompare E cmp v w) (cmpVec c v w) :=
  ⟨same_vecOfIter hE v, same_set hE v i x, same_vget v i, same_pushFront hE v x, same_popFront hE v, same_pushBack hE v x, same_popBack hE v,
    same_vremove hE v i, same_front v, same_back v, same_vinsert hE v i x, same_append hE v w, same_slice hE v i j,
    same_after (same_charge _ _) (same_firstLoop (fun y => hc y x) v 0), same_after (same_charge _ _) (same_lastLoop (fun y => hc y x) v.reverse),
    same_search (fun y => hc y x), same_toVec hE v, same_after (same_charge _ _) (same_after (same_charge _ _) (same_cmpLoop hc v w))⟩

/-- **C100**, maps. -/
theorem C100_map_results {K V : Type} {E : Elt (K × V)} (hE : ∀ xs, SameB (E.subs xs) (.ok ())) {cmp : K → K → B → B × Res Ordering}
    {c : K → K → Res Ordering} (hc : ∀ a b, SameB (cmp a b) (c a b)) {clone : V → B → B × Res Unit} (hv : ∀ v, SameB (clone v) (.ok ()))
    {pair : K × V → K × V → B → B × Res Ordering} {p : K × V → K × V → Res Ordering} (hp : ∀ a b, SameB (pair a b) (p a b))
    (m n : List (K × V)) (k : K) (v : V) (i : Nat) :
    Same (Coll.fromMap E cmp m) (Soroban.fromMap c m) ∧ Same (mapOfIter E cmp m) (fromExactIter c m) ∧
    Same (Coll.insert E cmp m k v) (Soroban.insert c m k v) ∧ Same (Coll.get E cmp m k) (Soroban.get c m k) ∧
    Same (getAt E m i) (getAtIndex m i) ∧ Same (Coll.remove E cmp clone m k) (Soroban.remove c m k) ∧
    Same (Coll.containsKey E cmp m k) (Soroban.containsKey c m k) ∧ Same (iter E m) (.ok m) ∧ Same (mcompare E pair m n) (cmpVec p m n) :=
  ⟨same_fromMap hc m, same_mapOfIter hE hc m, same_insert hE hc m k v, same_get hc m k, same_getAt m i, same_remove hE hc hv m k,
    same_containsKey hc m k, same_iter m, same_after (same_charge _ _) (same_cmpLoop hp m n)⟩

/-- **C100**: whatever operations a contract makes, in whatever order and going on after their errors, the limit on instructions bounds the
bytes that they read and copy in all: at no moment more than the limit pays for at the price of memory copies, and the elements of one
collection. -/
theorem C100_bounded (cs : List Cmd) (hs : ∀ c ∈ cs, c.Sound) (hh : ∀ c ∈ cs, c.Honest) (k : Nat) (hk : ∀ c ∈ cs, c.ahead ≤ k) (b : B)
    (hr : b.inShadow = false) (cm : CostModel) (hm : b.cpu.models[2]? = some cm) (hlin : 1 ≤ cm.linTerm) (hconst : 1 ≤ cm.constTerm)
    (hl : b.cpu.limit < 2 ^ 57 - 1) (t : List Ev) (ht : t <:+ (runAll cs { b := b, log := [] }).1.log) :
    cm.linTerm * (readBytes t + copiedBytes t) ≤ 128 * b.cpu.limit + cm.linTerm * k := by
  have hw : Within cm b.cpu.limit { b := b, log := [] } := ⟨hr, hm, rfl, by simp [paidFor], by simp [paidFor]⟩
  have h1 := (keeps_runAll ⟨hlin, hconst, hl⟩ cs hh _ hw).within
  obtain ⟨new, h2, h3⟩ := runAll_fair cs hs hk { b := b, log := [] }
  have he : (runAll cs { b := b, log := [] }).1.log = new := by rw [h2]; exact List.append_nil _
  rw [he] at ht h1
  have h4 := h3 t ht
  have h5 := paidFor_suffix 2 ht
  calc cm.linTerm * (readBytes t + copiedBytes t) ≤ cm.linTerm * (paidFor 2 new + k) := Nat.mul_le_mul_left _ (by omega)
    _ = cm.linTerm * paidFor 2 new + cm.linTerm * k := Nat.mul_add _ _ _
    _ ≤ _ := Nat.add_le_add_right h1 _

/-! ### examples -/
namespace CollCase

def trk : Budget.Tracker := { iterations := 0, inputs := some 0, cpu := 0, mem := 0 }
/-- A budget with the network's prices of copies (42 and 16/128 per byte). -/
def bud (limit : Nat) : B :=
  { cpu := { models := [⟨4, 0⟩, ⟨434, 16⟩, ⟨42, 16⟩, ⟨44, 16⟩], limit := limit, net := 0, peak := 0, shadowLimit := limit, shadowNet := 0 }
    mem := { models := [⟨0, 0⟩, ⟨16, 128⟩, ⟨0, 0⟩, ⟨0, 0⟩], limit := 1000, net := 0, peak := 0, shadowLimit := 1000, shadowNet := 0 }
    trackers := [{ trk with inputs := none }, trk, trk, trk], meterCount := 0, inShadow := false, depth := 10 }

def E : Elt (Nat × Nat) := { size := 16, subs := fun _ b => (b, .ok ()) }
def cmp (a b : Nat) (s : B) : B × Res Ordering := (s, .ok (compare a b))
def clone (_ : Nat) (s : B) : B × Res Unit := (s, .ok ())
def m3 : List (Nat × Nat) := [(1, 10), (2, 20), (3, 30)]

theorem honest_id {α : Type} (r : Res α) : Honest (fun b => (b, r)) := fun _ h => ⟨h, rfl, rfl, Nat.le_refl _⟩

/-- The hypotheses of the theorems hold of these. -/
example : (Cmd.map E cmp clone (.insert m3 4 40)).Sound ∧ (Cmd.map E cmp clone (.insert m3 4 40)).Honest ∧
    (∀ xs, SameB (E.subs xs) (.ok ())) ∧ (∀ a b, SameB (cmp a b) (.ok (compare a b))) :=
  ⟨⟨by decide, fun m hm => by rw [List.mem_singleton.mp hm]; decide⟩,
    ⟨fun _ => honest_id _, fun _ _ => honest_id _, fun _ => honest_id _, trivial⟩, fun _ _ => .inl rfl, fun _ _ _ => .inl rfl⟩

/-- A new key at the end of a map of three: two entries are looked at; four are copied, and paid for then; the order is checked. -/
example : (Coll.insert E cmp m3 4 40 { b := bud 100000, log := [] }).2.toOption = some [(1, 10), (2, 20), (3, 30), (4, 40)] ∧
    (Coll.insert E cmp m3 4 40 { b := bud 100000, log := [] }).1.log.reverse =
      [.paid 2 16, .paid 2 48, .read 16, .read 16, .copied 64, .paid 2 24, .paid 1 64, .paid 2 64, .paid 2 64, .read 16, .read 16, .read 16] := by
  decide +kernel

/-- With little left, the copy has been made when the charge for it is refused. -/
example : (match (Coll.insert E cmp m3 4 40 { b := bud 150, log := [] }).2 with
    | .error e => decide (e = .host .budget .exceededLimit)
    | _ => false) = true ∧
    (Coll.insert E cmp m3 4 40 { b := bud 150, log := [] }).1.log.reverse =
      [.paid 2 16, .paid 2 48, .read 16, .read 16, .copied 64, .paid 2 24] := by
  decide +kernel

end CollCase
end Soroban.Props
