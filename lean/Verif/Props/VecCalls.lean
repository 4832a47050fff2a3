import Verif.Spec.VecCalls
import Verif.Props.Bytes
import Verif.Props.Vectors
/-!
C08: the host functions on vectors, called with handles, behave as operations on sequences.
-/
namespace Soroban.Props
open Soroban Soroban.Spec

private theorem eq_of_get {v w : List Nat} (h : ∀ j : Nat, v[j]? = w[j]?) : v = w := List.ext_getElem? h

private theorem give_vec {objs : List HostObj} {v : List Nat} {x : Res (List Nat)} (hl : objs.length < 2^31) (h : x = .ok v) :
    ∃ objs' r, retObj objs (do let l ← x; .ok (.vec l)) = .ok (objs', r) ∧ Returns objs objs' r (.vec v) := by
  subst h
  obtain ⟨⟨objs', r⟩, h⟩ : ∃ p, retObj objs (.ok (.vec v)) = .ok p := by
    unfold retObj addObj
    rw [indexToHandle_abs hl]
    exact ⟨_, rfl⟩
  obtain ⟨o, ho, h1, w, h2, _, h4⟩ := (retObj_iff hl).1 h
  cases ho
  exact ⟨objs', r, h, h1, w, h2, h4⟩

private theorem give_val {objs : List HostObj} {n : Nat} {x : Res Nat} (h : x = .ok n) :
    ∃ objs' r, retVal objs x = .ok (objs', r) ∧ Returns objs objs' r (.val n) := by
  subst h
  exact ⟨objs, .val n, rfl, rfl, rfl⟩

/-- **C08**: a host function on vectors, called with handles of vectors and with numbers as indices, gives the result the
operation on sequences gives: elements and lengths as values, a new vector as the handle of a new object which reads back as that
vector. No existing object changes. -/
theorem C08_calls {cmp : List HostObj → Nat → Nat → Res Ordering} {objs : List HostObj} {f : Fn} {args : List VArg} {ws : List Nat}
    {out : VOut} (hl : objs.length < 2^31) (hf : ArgsFit args) (ho : OutFits out) (hm : VecMeans f args out)
    (hw : List.Forall₂ (Passes objs) args ws) :
    ∃ objs' r, runFn cmp objs f ws = .ok (objs', r) ∧ Returns objs objs' r out := by
  have hu : u32Max = 2^32 - 1 := by decide
  cases hm with
  | new => cases hw; exact give_vec (x := .ok []) hl rfl
  | put a b x y =>
    obtain ⟨v, _, h1, hw1, rfl⟩ := List.forall₂_cons_left_iff.1 hw
    obtain ⟨_, _, ⟨hi, rfl⟩, hw2, rfl⟩ := List.forall₂_cons_left_iff.1 hw1
    obtain ⟨_, _, rfl, hw3, rfl⟩ := List.forall₂_cons_left_iff.1 hw2
    cases hw3
    change ∃ objs' r, retObj objs (do let hv ← visitVec objs v; let r ← vecPut hv (Val.major (valU32 a.length)) _; .ok (.vec r)) = _ ∧ _
    rw [visitVec_ok.2 h1, major_valU32 hi]
    refine give_vec hl ?_
    simp [vecPut, indexLt, vSet, bind, Except.bind]
  | get a b x =>
    obtain ⟨v, _, h1, hw1, rfl⟩ := List.forall₂_cons_left_iff.1 hw
    obtain ⟨_, _, ⟨hi, rfl⟩, hw2, rfl⟩ := List.forall₂_cons_left_iff.1 hw1
    cases hw2
    change ∃ objs' r, retVal objs (do let hv ← visitVec objs v; vecGet hv (Val.major (valU32 a.length))) = _ ∧ _
    rw [visitVec_ok.2 h1, major_valU32 hi]
    exact give_val (((C08_get _ _).1 x).2 (by simp))
  | del a b x =>
    obtain ⟨v, _, h1, hw1, rfl⟩ := List.forall₂_cons_left_iff.1 hw
    obtain ⟨_, _, ⟨hi, rfl⟩, hw2, rfl⟩ := List.forall₂_cons_left_iff.1 hw1
    cases hw2
    have hv := hf _ (List.mem_cons_self ..)
    change ∃ objs' r, retObj objs (do let hv ← visitVec objs v; let r ← vecDel hv (Val.major (valU32 a.length)); .ok (.vec r)) = _ ∧ _
    rw [visitVec_ok.2 h1, major_valU32 hi]
    refine give_vec hl ?_
    obtain ⟨w, hw, _, h3, h4⟩ := (C08_del (a ++ x :: b) (by omega) a.length).1 (by simp)
    refine hw.trans (congrArg _ (eq_of_get fun j => ?_))
    rcases Nat.lt_or_ge j a.length with h | h
    · rw [h3 j h, List.getElem?_append_left h, List.getElem?_append_left h]
    · rw [h4 j h, List.getElem?_append_right (by omega), List.getElem?_append_right h, Nat.sub_add_comm h, List.getElem?_cons_succ]
  | len a =>
    obtain ⟨v, _, h1, hw1, rfl⟩ := List.forall₂_cons_left_iff.1 hw
    cases hw1
    have hv := hf _ (List.mem_cons_self ..)
    change ∃ objs' r, retVal objs (do let hv ← visitVec objs v; let n ← vecLen hv; .ok (valU32 n)) = _ ∧ _
    rw [visitVec_ok.2 h1]
    have h : vecLen a = .ok a.length := by
      unfold vecLen usizeToU32
      rw [hu]
      simp; omega
    refine ⟨objs, .val (valU32 a.length), ?_, rfl, rfl⟩
    simp [retVal, bind, Except.bind, h]
  | pushFront a x =>
    obtain ⟨v, _, h1, hw1, rfl⟩ := List.forall₂_cons_left_iff.1 hw
    obtain ⟨_, _, rfl, hw2, rfl⟩ := List.forall₂_cons_left_iff.1 hw1
    cases hw2
    have ho : a.length + 1 < 2^32 := ho
    change ∃ objs' r, retObj objs (do let hv ← visitVec objs v; let r ← vPushFront hv _; .ok (.vec r)) = _ ∧ _
    rw [visitVec_ok.2 h1]
    exact give_vec hl ((C08_ends a (by omega) _).1 (by omega)).1
  | popFront a x =>
    obtain ⟨v, _, h1, hw1, rfl⟩ := List.forall₂_cons_left_iff.1 hw
    cases hw1
    have ho : a.length < 2^32 := ho
    change ∃ objs' r, retObj objs (do let hv ← visitVec objs v; let r ← vPopFront hv; .ok (.vec r)) = _ ∧ _
    rw [visitVec_ok.2 h1]
    exact give_vec hl (C08_ends a (by omega) x).2.2.1
  | pushBack a x =>
    obtain ⟨v, _, h1, hw1, rfl⟩ := List.forall₂_cons_left_iff.1 hw
    obtain ⟨_, _, rfl, hw2, rfl⟩ := List.forall₂_cons_left_iff.1 hw1
    cases hw2
    have ho : (a ++ [_]).length < 2^32 := ho
    rw [List.length_append, List.length_singleton] at ho
    change ∃ objs' r, retObj objs (do let hv ← visitVec objs v; let r ← vPushBack hv _; .ok (.vec r)) = _ ∧ _
    rw [visitVec_ok.2 h1]
    exact give_vec hl ((C08_ends a (by omega) _).1 (by omega)).2
  | popBack a x =>
    obtain ⟨v, _, h1, hw1, rfl⟩ := List.forall₂_cons_left_iff.1 hw
    cases hw1
    have ho : a.length < 2^32 := ho
    change ∃ objs' r, retObj objs (do let hv ← visitVec objs v; let r ← vPopBack hv; .ok (.vec r)) = _ ∧ _
    rw [visitVec_ok.2 h1]
    exact give_vec hl (C08_ends a (by omega) x).2.2.2.1
  | front a x =>
    obtain ⟨v, _, h1, hw1, rfl⟩ := List.forall₂_cons_left_iff.1 hw
    cases hw1
    change ∃ objs' r, retVal objs (do let hv ← visitVec objs v; vFront hv) = _ ∧ _
    rw [visitVec_ok.2 h1]
    exact give_val rfl
  | back a x =>
    obtain ⟨v, _, h1, hw1, rfl⟩ := List.forall₂_cons_left_iff.1 hw
    cases hw1
    change ∃ objs' r, retVal objs (do let hv ← visitVec objs v; vBack hv) = _ ∧ _
    rw [visitVec_ok.2 h1]
    exact give_val (x := vBack (a ++ [x])) (by simp [vBack])
  | insert a b x =>
    obtain ⟨v, _, h1, hw1, rfl⟩ := List.forall₂_cons_left_iff.1 hw
    obtain ⟨_, _, ⟨hi, rfl⟩, hw2, rfl⟩ := List.forall₂_cons_left_iff.1 hw1
    obtain ⟨y, _, hy, hw3, rfl⟩ := List.forall₂_cons_left_iff.1 hw2
    cases hw3
    have hy : y = x := hy
    subst hy
    have hv := hf _ (List.mem_cons_self ..)
    have ho : (a ++ y :: b).length < 2^32 := ho
    simp only [List.length_append, List.length_cons] at ho hv
    change ∃ objs' r, retObj objs (do let hv ← visitVec objs v; let r ← vecInsert hv (Val.major (valU32 a.length)) y; .ok (.vec r)) = _ ∧ _
    rw [visitVec_ok.2 h1, major_valU32 hi]
    refine give_vec hl ?_
    obtain ⟨w, hw, _, h3, h4, h5⟩ := (C08_insert (a ++ b) (by rw [List.length_append]; omega) a.length y).1
      (by rw [List.length_append]; omega)
    refine hw.trans (congrArg _ (eq_of_get fun j => ?_))
    rcases Nat.lt_trichotomy j a.length with h | h | h
    · rw [h3 j h, List.getElem?_append_left h, List.getElem?_append_left h]
    · rw [h, h4]; simp
    · obtain ⟨j, rfl⟩ : ∃ k, j = k + 1 := ⟨j - 1, by omega⟩
      rw [h5 j (by omega), List.getElem?_append_right (by omega), List.getElem?_append_right (by omega),
        Nat.sub_add_comm (by omega), List.getElem?_cons_succ]
  | append a b =>
    obtain ⟨v, _, h1, hw1, rfl⟩ := List.forall₂_cons_left_iff.1 hw
    obtain ⟨u, _, h2, hw2, rfl⟩ := List.forall₂_cons_left_iff.1 hw1
    cases hw2
    have ho : (a ++ b).length < 2^32 := ho
    rw [List.length_append] at ho
    change ∃ objs' r, retObj objs (do
      let ha ← visitVec objs v; let hb ← visitVec objs u; let r ← vecAppend ha hb; .ok (.vec r)) = _ ∧ _
    rw [visitVec_ok.2 h1, visitVec_ok.2 h2]
    exact give_vec hl ((C08_append a b (by omega)).1 (by omega))
  | slice a b c =>
    obtain ⟨v, _, h1, hw1, rfl⟩ := List.forall₂_cons_left_iff.1 hw
    obtain ⟨_, _, ⟨hi, rfl⟩, hw2, rfl⟩ := List.forall₂_cons_left_iff.1 hw1
    obtain ⟨_, _, ⟨he, rfl⟩, hw3, rfl⟩ := List.forall₂_cons_left_iff.1 hw2
    cases hw3
    have hv := hf _ (List.mem_cons_self ..)
    change ∃ objs' r, retObj objs (do
      let hv ← visitVec objs v
      let r ← vecSlice hv (Val.major (valU32 a.length)) (Val.major (valU32 (a.length + b.length))); .ok (.vec r)) = _ ∧ _
    rw [visitVec_ok.2 h1, major_valU32 hi, major_valU32 he]
    refine give_vec hl ?_
    obtain ⟨w, hw, h2, h3⟩ := (C08_slice (a ++ b ++ c) (by omega) a.length (a.length + b.length)).1
      (by simp only [List.length_append]; omega)
    refine hw.trans (congrArg _ (eq_of_get fun j => ?_))
    rcases Nat.lt_or_ge j b.length with h | h
    · rw [h3 j (by omega), List.append_assoc, List.getElem?_append_right (by omega), List.getElem?_append_left (by omega)]
      congr 1; omega
    · rw [List.getElem?_eq_none (by omega), List.getElem?_eq_none (by omega)]

/-- Inserting 9 at position 1 of [7, 8] gives a new vector
[7, 9, 8]. -/
example : ∃ objs' r, runFn (fun _ _ _ => .ok .eq) [.vec [7, 8]] .vecInsert [valObject 1 (HostObj.vec []).tag, valU32 1, 9] = .ok (objs', r) ∧
    Returns [.vec [7, 8]] objs' r (.vec [7, 9, 8]) :=
  C08_calls (by decide) (by intro v hv; simp at hv; subst hv; decide) (by unfold OutFits; decide) (.insert [7] [8] 9)
    (.cons rfl (.cons ⟨by decide, rfl⟩ (.cons rfl .nil)))

/-- **C08**: an index outside the vector, an end of an empty vector, and a range that is not inside the vector or ends before it
starts are refused. -/
theorem C08_call_errors {cmp : List HostObj → Nat → Nat → Res Ordering} {objs : List HostObj} {v : List Nat} {w i j x : Nat}
    (hv : visitObj objs w = .ok (.vec v)) (hl : v.length < 2^32) (hi : i < 2^32) (hj : j < 2^32) :
    (v.length ≤ i → runFn cmp objs .vecGet [w, valU32 i] = .error (.host .object .indexBounds) ∧
      runFn cmp objs .vecPut [w, valU32 i, x] = .error (.host .object .indexBounds) ∧
      runFn cmp objs .vecDel [w, valU32 i] = .error (.host .object .indexBounds)) ∧
    (v.length < i → runFn cmp objs .vecInsert [w, valU32 i, x] = .error (.host .object .indexBounds)) ∧
    (v = [] → ∀ f ∈ [Fn.vecFront, .vecBack, .vecPopFront, .vecPopBack], runFn cmp objs f [w] = .error (.host .object .indexBounds)) ∧
    (v.length < i ∨ v.length < j → runFn cmp objs .vecSlice [w, valU32 i, valU32 j] = .error (.host .object .indexBounds)) ∧
    (i ≤ v.length ∧ j ≤ v.length ∧ j < i →
      runFn cmp objs .vecSlice [w, valU32 i, valU32 j] = .error (.host .object .invalidInput)) := by
  have hu : u32Max = 2^32 - 1 := by decide
  have hv := visitVec_ok.2 hv
  refine ⟨fun h => ⟨?_, ?_, ?_⟩, fun h => ?_, fun h f hf => ?_, fun h => ?_, fun h => ?_⟩
  · have := (C08_get v i).2.1 h
    simp [runFn, retVal, bind, Except.bind, hv, major_valU32 hi, this]
  · have := (C08_put v i x).2 h
    simp [runFn, retObj, bind, Except.bind, hv, major_valU32 hi, this]
  · have := (C08_del v (by omega) i).2 h
    simp [runFn, retObj, bind, Except.bind, hv, major_valU32 hi, this]
  · have := (C08_insert v (by omega) i x).2 (.inl h)
    simp [runFn, retObj, bind, Except.bind, hv, major_valU32 hi, this]
  · subst h
    simp only [List.mem_cons, List.not_mem_nil, or_false] at hf
    rcases hf with rfl | rfl | rfl | rfl <;>
      simp [runFn, retObj, retVal, bind, Except.bind, hv, vFront, vBack, vPopFront, vPopBack, oob]
  · have := (C08_slice v (by omega) i j).2.1 h
    simp [runFn, retObj, bind, Except.bind, hv, major_valU32 hi, major_valU32 hj, this]
  · have := (C08_slice v (by omega) i j).2.2 h
    simp [runFn, retObj, bind, Except.bind, hv, major_valU32 hi, major_valU32 hj, this]

/-- Getting element 2 of a vector with two elements is refused. -/
example : runFn (fun _ _ _ => .ok .eq) [.vec [7, 8]] .vecGet [valObject 1 (HostObj.vec []).tag, valU32 2] =
    .error (.host .object .indexBounds) :=
  ((C08_call_errors (j := 0) (x := 0) (v := [7, 8]) rfl (by decide) (by decide) (by decide)).1 (by decide)).1

/-- **C08**, **C09**: the searches called with the handle of a vector: the first and the last index of a value, or void (the word 2);
and the binary search in a vector in order, which gives the index of an equal element plus 2^32, or the index at which
the value belongs. -/
theorem C08_call_searches {cmp : List HostObj → Nat → Nat → Res Ordering} {objs : List HostObj} {ord : Nat → Nat → Ordering}
    (hc : Computes (cmp objs) ord) {v : List Nat} {w : Nat} (hv : visitObj objs w = .ok (.vec v)) (hl : v.length < 2^32) (x : Nat) :
    (∀ a y b, v = a ++ y :: b → ord x y = .eq → (∀ z ∈ a, ord x z ≠ .eq) →
      runFn cmp objs .vecFirstIndexOf [w, x] = .ok (objs, .val (valU32 a.length))) ∧
    (∀ a y b, v = a ++ y :: b → ord x y = .eq → (∀ z ∈ b, ord x z ≠ .eq) →
      runFn cmp objs .vecLastIndexOf [w, x] = .ok (objs, .val (valU32 a.length))) ∧
    ((∀ y ∈ v, ord x y ≠ .eq) → runFn cmp objs .vecFirstIndexOf [w, x] = .ok (objs, .val 2) ∧
      runFn cmp objs .vecLastIndexOf [w, x] = .ok (objs, .val 2)) ∧
    ([Std.TransCmp ord] → NonDescending ord v →
      (∃ i y, runFn cmp objs .vecBinarySearch [w, x] = .ok (objs, .raw (2^32 + i : Nat)) ∧ v[i]? = some y ∧ ord y x = .eq) ∨
      (∃ i, runFn cmp objs .vecBinarySearch [w, x] = .ok (objs, .raw (i : Nat)) ∧ i ≤ v.length ∧ (∀ y ∈ v, ord y x ≠ .eq) ∧
        (∀ j y, j < i → v[j]? = some y → ord y x = .lt) ∧ ∀ j y, i ≤ j → v[j]? = some y → ord y x = .gt)) := by
  have hu : u32Max = 2^32 - 1 := by decide
  have hvoid : valVoid = 2 := by decide
  have hv := visitVec_ok.2 hv
  obtain ⟨hfirst, hlast⟩ := C08_index_of hc v (by omega) x
  refine ⟨fun a y b e he hn => ?_, fun a y b e he hn => ?_, fun h => ⟨?_, ?_⟩, fun hs => ?_⟩
  · rcases hfirst with ⟨n, z, h1, h2, h3, h4⟩ | ⟨_, h2⟩
    · have : n = a.length := by
        rcases Nat.lt_trichotomy n a.length with h | h | h
        · rw [e, List.getElem?_append_left h] at h2
          exact absurd h3 (hn z (List.mem_of_getElem? h2))
        · exact h
        · exact absurd he (h4 a.length y h (by rw [e]; simp))
      subst this
      simp [runFn, retVal, bind, Except.bind, hv, h1]
    · exact absurd he (h2 y (by rw [e]; simp))
  · rcases hlast with ⟨n, z, h1, h2, h3, h4⟩ | ⟨_, h2⟩
    · have : n = a.length := by
        rcases Nat.lt_trichotomy n a.length with h | h | h
        · exact absurd he (h4 a.length y h (by rw [e]; simp))
        · exact h
        · rw [e, List.getElem?_append_right (by omega)] at h2
          obtain ⟨j, hj⟩ : ∃ j, n - a.length = j + 1 := ⟨n - a.length - 1, by omega⟩
          rw [hj, List.getElem?_cons_succ] at h2
          exact absurd h3 (hn z (List.mem_of_getElem? h2))
      subst this
      simp [runFn, retVal, bind, Except.bind, hv, h1]
    · exact absurd he (h2 y (by rw [e]; simp))
  · rcases hfirst with ⟨n, z, h1, h2, h3, h4⟩ | ⟨h1, _⟩
    · exact absurd h3 (h z (List.mem_of_getElem? h2))
    · simp [runFn, retVal, bind, Except.bind, hv, h1, hvoid]
  · rcases hlast with ⟨n, z, h1, h2, h3, h4⟩ | ⟨h1, _⟩
    · exact absurd h3 (h z (List.mem_of_getElem? h2))
    · simp [runFn, retVal, bind, Except.bind, hv, h1, hvoid]
  · rcases C09_binary_search hc v (by omega) hs x with ⟨i, y, h1, h2⟩ | ⟨i, h1, h2⟩
    · exact .inl ⟨i, y, by simp [runFn, bind, Except.bind, hv, h1], h2⟩
    · exact .inr ⟨i, by simp [runFn, bind, Except.bind, hv, h1], h2⟩

/-- The last index of 7 in [7, 8, 7, 9] is 2. -/
example : runFn (fun _ a b => .ok (compare a b)) [.vec [7, 8, 7, 9]] .vecLastIndexOf [valObject 1 (HostObj.vec []).tag, 7] =
    .ok ([.vec [7, 8, 7, 9]], .val (valU32 2)) :=
  (C08_call_searches (ord := compare) (fun _ _ => rfl) (v := [7, 8, 7, 9]) rfl (by decide) 7).2.1 [7, 8] 7 [9] rfl (by decide)
    (by decide)

section
variable {cmp : List HostObj → Nat → Nat → Res Ordering} {objs : List HostObj} {ord : Nat → Nat → Ordering}
  {m : List (Nat × Nat)} {w : Nat}

/-- A call hands back the handle of a new object. -/
private theorem give_obj {o : HostObj} {x : Res HostObj} (hl : objs.length < 2^31) (h : x = .ok o) :
    ∃ u, retObj objs x = .ok (objs ++ [o], .val u) ∧ visitObj (objs ++ [o]) u = .ok o := by
  subst h
  obtain ⟨u, hu⟩ : ∃ u, addObj objs o = .ok (objs ++ [o], u) := by
    unfold addObj
    rw [indexToHandle_abs hl]
    exact ⟨_, rfl⟩
  refine ⟨u, ?_, (addObj_visit hl hu).1⟩
  simp [retObj, bind, Except.bind, hu]

/-- **C06**: the host functions that read a map, called with its handle: the value of a key, whether there is a key (the words 1
and 0 are true and false), the number of entries, the entry at a position. They make no object. -/
theorem C06_call_reads [Std.TransCmp ord] (hc : Computes (cmp objs) ord) (hv : visitObj objs w = .ok (.map m))
    (hm : Ascending ord m) (hl : m.length < 2^32) (k : Nat) :
    (∀ v, MapsTo ord m k v → runFn cmp objs .mapGet [w, k] = .ok (objs, .val v)) ∧
    (¬ HasKey ord m k → runFn cmp objs .mapGet [w, k] = .error (.host .object .missingValue)) ∧
    (HasKey ord m k → runFn cmp objs .mapHas [w, k] = .ok (objs, .val 1)) ∧
    (¬ HasKey ord m k → runFn cmp objs .mapHas [w, k] = .ok (objs, .val 0)) ∧
    runFn cmp objs .mapLen [w] = .ok (objs, .val (valU32 m.length)) ∧
    (∀ a b p, m = a ++ p :: b → runFn cmp objs .mapKeyByPos [w, valU32 a.length] = .ok (objs, .val p.1) ∧
      runFn cmp objs .mapValByPos [w, valU32 a.length] = .ok (objs, .val p.2)) ∧
    (∀ i, i < 2^32 → m.length ≤ i → runFn cmp objs .mapKeyByPos [w, valU32 i] = .error (.host .object .indexBounds) ∧
      runFn cmp objs .mapValByPos [w, valU32 i] = .error (.host .object .indexBounds)) := by
  have hu : u32Max = 2^32 - 1 := by decide
  have hv := visitMap_ok.2 hv
  obtain ⟨g1, g2, _⟩ := C06_get hc m hm k
  obtain ⟨b, g3, g4⟩ := C06_has hc m hm k
  obtain ⟨g5, _, _, _, g6, g7⟩ := C06_positions (ord := ord) m hm (by omega)
  refine ⟨fun v h => ?_, fun h => ?_, fun h => ?_, fun h => ?_, ?_, fun a b p h => ?_, fun i hi h => ?_⟩
  · simp [runFn, retVal, bind, Except.bind, hv, (g1 v).2 h]
  · simp [runFn, retVal, bind, Except.bind, hv, g2.2 h]
  · simp [runFn, retVal, bind, Except.bind, hv, g3, g4.2 h]; rfl
  · have : b = false := by cases b <;> simp_all
    simp [runFn, retVal, bind, Except.bind, hv, g3, this]; rfl
  · simp [runFn, retVal, bind, Except.bind, hv, g5]
  · have ha : a.length < 2^32 := by rw [h, List.length_append] at hl; omega
    subst h
    simp [runFn, retVal, bind, Except.bind, hv, major_valU32 ha, mapKeyByPos, mapValByPos, getAtIndex, Except.map]
  · simp [runFn, retVal, bind, Except.bind, hv, major_valU32 hi, (g6 i).1 h, (g7 i).1 h]

/-- **C06**: the host functions that make a map or a vector from a map, called with its handle, hand back the handle of one new
object: the map with the entry put, the map without the entry, the vector of its keys, the vector of its values. -/
theorem C06_call_makes [Std.TransCmp ord] (hc : Computes (cmp objs) ord) (ho : objs.length < 2^31)
    (hv : visitObj objs w = .ok (.map m)) (hm : Ascending ord m) (hl : m.length < 2^32) (k v : Nat) :
    (∃ u, runFn cmp objs .mapNew [] = .ok (objs ++ [.map []], .val u) ∧ visitObj (objs ++ [.map []]) u = .ok (.map [])) ∧
    (HasKey ord m k ∨ m.length + 1 < 2^32 → ∃ m' u, runFn cmp objs .mapPut [w, k, v] = .ok (objs ++ [.map m'], .val u) ∧
      visitObj (objs ++ [.map m']) u = .ok (.map m') ∧ Ascending ord m' ∧
      ∀ p, p ∈ m' ↔ p = (k, v) ∨ (p ∈ m ∧ ord p.1 k ≠ .eq)) ∧
    (HasKey ord m k → ∃ m' u, runFn cmp objs .mapDel [w, k] = .ok (objs ++ [.map m'], .val u) ∧
      visitObj (objs ++ [.map m']) u = .ok (.map m') ∧ Ascending ord m' ∧ ∀ p, p ∈ m' ↔ p ∈ m ∧ ord p.1 k ≠ .eq) ∧
    (¬ HasKey ord m k → runFn cmp objs .mapDel [w, k] = .error (.host .object .missingValue)) ∧
    (∃ u, runFn cmp objs .mapKeys [w] = .ok (objs ++ [.vec (m.map Prod.fst)], .val u) ∧
      visitObj (objs ++ [.vec (m.map Prod.fst)]) u = .ok (.vec (m.map Prod.fst))) ∧
    (∃ u, runFn cmp objs .mapValues [w] = .ok (objs ++ [.vec (m.map Prod.snd)], .val u) ∧
      visitObj (objs ++ [.vec (m.map Prod.snd)]) u = .ok (.vec (m.map Prod.snd))) := by
  have hu : u32Max = 2^32 - 1 := by decide
  have hv := visitMap_ok.2 hv
  refine ⟨give_obj ho rfl, fun h => ?_, fun h => ?_, fun h => ?_, ?_, ?_⟩
  · obtain ⟨m', h1, h2, h3, _⟩ := (C06_put hc m hm (by omega) k v).1 (h.imp_right (by omega))
    obtain ⟨u, h4, h5⟩ := give_obj (objs := objs) (x := .ok (.map m')) ho rfl
    exact ⟨m', u, by simpa [runFn, bind, Except.bind, hv, h1] using h4, h5, h2, h3⟩
  · obtain ⟨m', h1, h2, h3, _⟩ := (C06_del hc m hm (by omega) k).1 h
    obtain ⟨u, h4, h5⟩ := give_obj (objs := objs) (x := .ok (.map m')) ho rfl
    exact ⟨m', u, by simpa [runFn, bind, Except.bind, hv, h1] using h4, h5, h2, h3⟩
  · simp [runFn, retObj, bind, Except.bind, hv, (C06_del hc m hm (by omega) k).2 h]
  · obtain ⟨u, h4, h5⟩ := give_obj (objs := objs) (x := .ok (.vec (m.map Prod.fst))) ho rfl
    have : mapKeys m = .ok (m.map Prod.fst) := vecFromIter_ok (by rw [List.length_map]; omega)
    exact ⟨u, by simpa [runFn, bind, Except.bind, hv, this] using h4, h5⟩
  · obtain ⟨u, h4, h5⟩ := give_obj (objs := objs) (x := .ok (.vec (m.map Prod.snd))) ho rfl
    have : mapValues m = .ok (m.map Prod.snd) := vecFromIter_ok (by rw [List.length_map]; omega)
    exact ⟨u, by simpa [runFn, bind, Except.bind, hv, this] using h4, h5⟩

end

/-- With numbers as keys, the map {5: 6} has the value 6 at the key 5. -/
example : runFn (fun _ a b => .ok (compare a b)) [.map [(5, 6)]] .mapGet [valObject 1 (HostObj.map []).tag, 5] =
    .ok ([.map [(5, 6)]], .val 6) :=
  (C06_call_reads (ord := compare) (m := [(5, 6)]) (fun _ _ => rfl) rfl (by simp [Ascending]) (by decide) 5).1 6
    ⟨(5, 6), by simp, by decide, rfl⟩

/-- **C06**, **C08**: a function on vectors called with something other than the handle of a vector fails, and so does a function on
maps called with something other than the handle of a map. -/
theorem C08_call_wrong_object {cmp : List HostObj → Nat → Nat → Res Ordering} {objs : List HostObj} {w : Nat} (rest : List Nat) :
    ((∀ v, visitObj objs w ≠ .ok (.vec v)) → ∀ f ∈ [Fn.vecPut, .vecGet, .vecDel, .vecLen, .vecPushFront, .vecPopFront, .vecPushBack,
      .vecPopBack, .vecFront, .vecBack, .vecInsert, .vecAppend, .vecSlice, .vecFirstIndexOf, .vecLastIndexOf, .vecBinarySearch],
      ∃ e, runFn cmp objs f (w :: rest) = .error e) ∧
    ((∀ m, visitObj objs w ≠ .ok (.map m)) → ∀ f ∈ [Fn.mapPut, .mapGet, .mapDel, .mapLen, .mapHas, .mapKeyByPos, .mapValByPos,
      .mapKeys, .mapValues], ∃ e, runFn cmp objs f (w :: rest) = .error e) := by
  constructor
  · intro h f hf
    obtain ⟨e, he⟩ : ∃ e, visitVec objs w = .error e := by
      cases hx : visitVec objs w with
      | error e => exact ⟨e, rfl⟩
      | ok v => exact absurd (visitVec_ok.1 hx) (h v)
    simp only [List.mem_cons, List.not_mem_nil, or_false] at hf
    rcases hf with rfl | rfl | rfl | rfl | rfl | rfl | rfl | rfl | rfl | rfl | rfl | rfl | rfl | rfl | rfl | rfl <;>
      rcases rest with _ | ⟨a, _ | ⟨b, _ | ⟨c, d⟩⟩⟩ <;> simp [runFn, retObj, retVal, bind, Except.bind, he]
  · intro h f hf
    obtain ⟨e, he⟩ : ∃ e, visitMap objs w = .error e := by
      cases hx : visitMap objs w with
      | error e => exact ⟨e, rfl⟩
      | ok v => exact absurd (visitMap_ok.1 hx) (h v)
    simp only [List.mem_cons, List.not_mem_nil, or_false] at hf
    rcases hf with rfl | rfl | rfl | rfl | rfl | rfl | rfl | rfl | rfl <;>
      rcases rest with _ | ⟨a, _ | ⟨b, _ | ⟨c, d⟩⟩⟩ <;> simp [runFn, retObj, retVal, bind, Except.bind, he]

/-- The length of a map is not asked for with the function for vectors. -/
example : ∃ e, runFn (fun _ _ _ => .ok .eq) [.map []] .vecLen [valObject 1 (HostObj.map []).tag] = .error e :=
  (C08_call_wrong_object []).1 (fun v h => by
    have : visitObj [.map []] (valObject 1 (HostObj.map []).tag) = .ok (.map []) := rfl
    rw [this] at h; cases h) _ (by simp)

/-- **C05**: the comparison as contracts call it gives -1, 0 or 1 for less, equal and greater, makes no object, passes on the error
of a comparison that fails, and refuses two values of which none is an object. -/
theorem C05_call {cmp : List HostObj → Nat → Nat → Res Ordering} {objs : List HostObj} {a b : Nat} :
    (Val.isObject a = true ∨ Val.isObject b = true →
      (cmp objs a b = .ok .lt → runFn cmp objs .objCmp [a, b] = .ok (objs, .raw (-1))) ∧
      (cmp objs a b = .ok .eq → runFn cmp objs .objCmp [a, b] = .ok (objs, .raw 0)) ∧
      (cmp objs a b = .ok .gt → runFn cmp objs .objCmp [a, b] = .ok (objs, .raw 1)) ∧
      ∀ e, cmp objs a b = .error e → runFn cmp objs .objCmp [a, b] = .error e) ∧
    (Val.isObject a = false → Val.isObject b = false →
      runFn cmp objs .objCmp [a, b] = .error (.host .value .unexpectedType)) := by
  refine ⟨fun h => ?_, fun h1 h2 => by simp [runFn, h1, h2]⟩
  have h : (!Val.isObject a && !Val.isObject b) = false := by rcases h with h | h <;> simp [h]
  refine ⟨fun hc => ?_, fun hc => ?_, fun hc => ?_, fun e hc => ?_⟩ <;>
    simp [runFn, h, bind, Except.bind, hc, ordToInt]

/-- The handle of the first object is one. -/
example : Val.isObject (valObject 1 (HostObj.vec []).tag) = true := rfl

end Soroban.Props
