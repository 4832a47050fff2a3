import Mathlib.Data.List.Forall2
import Verif.Lemmas.Containers
/-!
C06: host maps behave as finite maps listed in key order. C07: maps built from lists of pairs.

`Computes cmp ord` with `Std.TransCmp ord` says the host's comparison succeeds and is a total order up to equality of
values; C05 proves this of the model's value comparison.
-/
namespace Soroban.Props
open Spec

variable {K V : Type} {cmp : K → K → Res Ordering} {ord : K → K → Ordering}

/-- C06: `map_put` replaces the entry of an existing key or adds one, keeps everything else, and fails only when a map of
`u32::MAX` entries would grow. -/
theorem C06_put [Std.TransCmp ord] (hc : Computes cmp ord) (m : List (K × V)) (hm : Ascending ord m)
    (hl : m.length ≤ u32Max) (k : K) (v : V) :
    (HasKey ord m k ∨ m.length < u32Max →
      ∃ m', mapPut cmp m k v = .ok m' ∧ Ascending ord m' ∧
        (∀ p, p ∈ m' ↔ p = (k, v) ∨ (p ∈ m ∧ ord p.1 k ≠ .eq)) ∧
        (HasKey ord m k → m'.length = m.length) ∧ (¬ HasKey ord m k → m'.length = m.length + 1)) ∧
    (¬ HasKey ord m k ∧ m.length = u32Max → mapPut cmp m k v = .error (.host .object .indexBounds)) := by
  unfold mapPut insert
  rcases find_split hc hm k with ⟨A, p, B, rfl, hf, he, hlt, hgt⟩ | ⟨A, B, rfl, hf, hlt, hgt⟩
  · have hk : HasKey ord (A ++ p :: B) k := ⟨p, by simp, he⟩
    have hA := ascending_append_left hm
    have hB : Ascending ord B := (List.pairwise_cons.mp (ascending_append_right hm)).2
    have htake : (A ++ p :: B).take A.length = A := by simp
    have hdrop : (A ++ p :: B).drop (A.length + 1) = B := by simp [List.drop_append]
    refine ⟨fun _ => ⟨A ++ (k, v) :: B, ?_, ascending_mid v hA hB hlt hgt, ?_, ?_, ?_⟩, fun h => absurd hk h.1⟩
    · rw [hf]
      simp only []
      rw [htake, hdrop, fromExactIter_eq]
      have := fromMap_ok (cmp := cmp) hc (m := A ++ (k, v) :: B) (by simpa using hl) (ascending_mid v hA hB hlt hgt)
      simpa using this
    · intro q
      constructor
      · intro hq
        rcases List.mem_append.mp hq with hq | hq
        · exact Or.inr ⟨by simp [hq], by simp [hlt q hq]⟩
        · rcases List.mem_cons.mp hq with rfl | hq
          · exact Or.inl rfl
          · exact Or.inr ⟨by simp [hq], by simp [hgt q hq]⟩
      · rintro (rfl | ⟨hq, hne⟩)
        · simp
        · rcases List.mem_append.mp hq with hq | hq
          · simp [hq]
          · rcases List.mem_cons.mp hq with rfl | hq
            · exact absurd he hne
            · simp [hq]
    · intro _; simp
    · intro h; exact absurd hk h
  · have hk : ¬ HasKey ord (A ++ B) k := by
      rintro ⟨q, hq, he⟩
      rcases List.mem_append.mp hq with hq | hq
      · rw [hlt q hq] at he; cases he
      · rw [hgt q hq] at he; cases he
    have hA := ascending_append_left hm
    have hB := ascending_append_right hm
    have htake : (A ++ B).take A.length = A := by simp
    have hdrop : (A ++ B).drop A.length = B := by simp
    rw [hf]
    simp only []
    refine ⟨fun h => ?_, fun h => ?_⟩
    · have hlen := h.resolve_left hk
      have hne : ¬ ((A ++ B).length == u32Max) = true := by
        rw [beq_iff_eq]; exact Nat.ne_of_lt hlen
      refine ⟨A ++ (k, v) :: B, ?_, ascending_mid v hA hB hlt hgt, ?_, fun h => absurd h hk, fun _ => by simp; omega⟩
      · rw [if_neg hne, htake, hdrop, fromExactIter_eq]
        have := fromMap_ok (cmp := cmp) hc (m := A ++ (k, v) :: B)
          (by have : (A ++ (k, v) :: B).length = (A ++ B).length + 1 := by simp; omega
              rw [this]; exact hlen)
          (ascending_mid v hA hB hlt hgt)
        simpa using this
      · intro q
        constructor
        · intro hq
          rcases List.mem_append.mp hq with hq | hq
          · exact Or.inr ⟨by simp [hq], by simp [hlt q hq]⟩
          · rcases List.mem_cons.mp hq with rfl | hq
            · exact Or.inl rfl
            · exact Or.inr ⟨by simp [hq], by simp [hgt q hq]⟩
        · rintro (rfl | ⟨hq, _⟩)
          · simp
          · rcases List.mem_append.mp hq with hq | hq <;> simp [hq]
    · rw [if_pos (by rw [beq_iff_eq]; exact h.2)]
      rfl

/-- C06: `map_get` returns the value mapped to the key, and fails exactly when the key is absent. -/
theorem C06_get [Std.TransCmp ord] (hc : Computes cmp ord) (m : List (K × V)) (hm : Ascending ord m) (k : K) :
    (∀ v, mapGet cmp m k = .ok v ↔ MapsTo ord m k v) ∧
    (mapGet cmp m k = .error (.host .object .missingValue) ↔ ¬ HasKey ord m k) ∧
    (∀ e, mapGet cmp m k = .error e → e = .host .object .missingValue) := by
  unfold mapGet get
  rcases find_split hc hm k with ⟨A, p, B, rfl, hf, he, hlt, hgt⟩ | ⟨A, B, rfl, hf, hlt, hgt⟩
  · rw [hf]
    have hp : (A ++ p :: B)[A.length]? = some p := by simp
    simp only [hp]
    refine ⟨fun v => ⟨fun h => ?_, fun h => ?_⟩, ⟨fun h => (by cases h), fun h => absurd ⟨p, by simp, he⟩ h⟩,
      fun e h => (by cases h)⟩
    · cases h; exact ⟨p, by simp, he, rfl⟩
    · obtain ⟨q, hq, heq, rfl⟩ := h
      rcases List.mem_append.mp hq with hq | hq
      · rw [hlt q hq] at heq; cases heq
      · rcases List.mem_cons.mp hq with rfl | hq
        · rfl
        · rw [hgt q hq] at heq; cases heq
  · rw [hf]
    have hno : ∀ q ∈ A ++ B, ord q.1 k ≠ .eq := by
      intro q hq
      rcases List.mem_append.mp hq with hq | hq
      · simp [hlt q hq]
      · simp [hgt q hq]
    refine ⟨fun v => ⟨fun h => (by cases h), ?_⟩, ⟨fun _ => ?_, fun _ => rfl⟩, fun e h => by cases h; rfl⟩
    · rintro ⟨q, hq, heq, _⟩; exact absurd heq (hno q hq)
    · rintro ⟨q, hq, heq⟩; exact absurd heq (hno q hq)

/-- C06: `map_has` tells whether the key is present. -/
theorem C06_has [Std.TransCmp ord] (hc : Computes cmp ord) (m : List (K × V)) (hm : Ascending ord m) (k : K) :
    ∃ b, mapHas cmp m k = .ok b ∧ (b = true ↔ HasKey ord m k) := by
  unfold mapHas containsKey
  rcases find_split hc hm k with ⟨A, p, B, rfl, hf, he, hlt, hgt⟩ | ⟨A, B, rfl, hf, hlt, hgt⟩
  · exact ⟨true, by rw [hf], by simp only [true_iff]; exact ⟨p, by simp, he⟩⟩
  · refine ⟨false, by rw [hf], ?_⟩
    simp only [Bool.false_eq_true, false_iff]
    rintro ⟨q, hq, he⟩
    rcases List.mem_append.mp hq with hq | hq
    · rw [hlt q hq] at he; cases he
    · rw [hgt q hq] at he; cases he

/-- C06: `map_del` removes exactly the entry of the key, and fails exactly when the key is absent. -/
theorem C06_del [Std.TransCmp ord] (hc : Computes cmp ord) (m : List (K × V)) (hm : Ascending ord m)
    (hl : m.length ≤ u32Max) (k : K) :
    (HasKey ord m k → ∃ m', mapDel cmp m k = .ok m' ∧ Ascending ord m' ∧
      (∀ p, p ∈ m' ↔ p ∈ m ∧ ord p.1 k ≠ .eq) ∧ m'.length + 1 = m.length) ∧
    (¬ HasKey ord m k → mapDel cmp m k = .error (.host .object .missingValue)) := by
  unfold mapDel remove
  rcases find_split hc hm k with ⟨A, p, B, rfl, hf, he, hlt, hgt⟩ | ⟨A, B, rfl, hf, hlt, hgt⟩
  · have hk : HasKey ord (A ++ p :: B) k := ⟨p, by simp, he⟩
    refine ⟨fun _ => ⟨A ++ B, ?_, ascending_drop_mid hm, ?_, by simp; omega⟩, fun h => absurd hk h⟩
    · rw [hf]
      have hrest : (if A.length > 0 then (A ++ p :: B).take A.length ++ (A ++ p :: B).drop (A.length + 1)
          else (A ++ p :: B).drop 1) = A ++ B := by
        cases A with
        | nil => simp
        | cons a A => simp [List.drop_append]
      simp only [hrest]
      rw [fromExactIter_eq, fromMap_ok hc (m := A ++ B)
        (Nat.le_trans (by simp) hl) (ascending_drop_mid hm)]
      simp
    · intro q
      constructor
      · intro hq
        rcases List.mem_append.mp hq with hq | hq
        · exact ⟨by simp [hq], by simp [hlt q hq]⟩
        · exact ⟨by simp [hq], by simp [hgt q hq]⟩
      · rintro ⟨hq, hne⟩
        rcases List.mem_append.mp hq with hq | hq
        · simp [hq]
        · rcases List.mem_cons.mp hq with rfl | hq
          · exact absurd he hne
          · simp [hq]
  · have hk : ¬ HasKey ord (A ++ B) k := by
      rintro ⟨q, hq, he⟩
      rcases List.mem_append.mp hq with hq | hq
      · rw [hlt q hq] at he; cases he
      · rw [hgt q hq] at he; cases he
    exact ⟨fun h => absurd h hk, fun _ => by rw [hf]⟩

/-- C06: the positional functions list the entries in strictly increasing key order, each entry once, and fail exactly past
the end. -/
theorem C06_positions [Std.TransCmp ord] (m : List (K × V)) (hm : Ascending ord m) (hl : m.length ≤ u32Max) :
    mapLen m = .ok m.length ∧
    (∃ ks, mapKeys m = .ok ks ∧ ks.Pairwise (fun a b => ord a b = .lt) ∧ ks.length = m.length ∧
      ∀ i k, ks[i]? = some k ↔ mapKeyByPos m i = .ok k) ∧
    (∃ vs, mapValues m = .ok vs ∧ vs.length = m.length ∧ ∀ i v, vs[i]? = some v ↔ mapValByPos m i = .ok v) ∧
    (∀ p, p ∈ m ↔ ∃ i, mapKeyByPos m i = .ok p.1 ∧ mapValByPos m i = .ok p.2) ∧
    (∀ i, m.length ≤ i ↔ mapKeyByPos m i = .error (.host .object .indexBounds)) ∧
    (∀ i, m.length ≤ i ↔ mapValByPos m i = .error (.host .object .indexBounds)) := by
  have hnl : ∀ {α : Type} (l : List α), l.length = m.length → vecFromIter l = .ok l := by
    intro α l h
    unfold vecFromIter
    rw [if_neg (by rw [h]; exact Nat.not_lt.mpr hl)]
  have hpos : ∀ (i : Nat) k, mapKeyByPos m i = .ok k ↔ ∃ p, m[i]? = some p ∧ p.1 = k := by
    intro i k
    unfold mapKeyByPos getAtIndex
    cases h : m[i]? <;> simp [Except.map]
  have hval : ∀ (i : Nat) v, mapValByPos m i = .ok v ↔ ∃ p, m[i]? = some p ∧ p.2 = v := by
    intro i v
    unfold mapValByPos getAtIndex
    cases h : m[i]? <;> simp [Except.map]
  refine ⟨?_, ⟨m.map Prod.fst, hnl (m.map Prod.fst) (List.length_map _), ?_, List.length_map _, ?_⟩,
    ⟨m.map Prod.snd, hnl (m.map Prod.snd) (List.length_map _), List.length_map _, ?_⟩, ?_, ?_, ?_⟩
  · unfold mapLen usizeToU32
    rw [if_pos hl]
  · rw [List.pairwise_map]
    exact hm
  · intro i k
    rw [hpos, List.getElem?_map]
    cases m[i]? <;> simp
  · intro i v
    rw [hval, List.getElem?_map]
    cases m[i]? <;> simp
  · intro p
    constructor
    · intro hp
      obtain ⟨i, hi, rfl⟩ := List.getElem_of_mem hp
      exact ⟨i, (hpos i _).mpr ⟨m[i], by simp [hi], rfl⟩, (hval i _).mpr ⟨m[i], by simp [hi], rfl⟩⟩
    · rintro ⟨i, h1, h2⟩
      obtain ⟨q, hq, h1⟩ := (hpos i _).mp h1
      obtain ⟨q', hq', h2⟩ := (hval i _).mp h2
      rw [hq] at hq'
      cases hq'
      have : q = p := Prod.ext h1 h2
      subst this
      exact List.mem_of_getElem? hq
  · intro i
    unfold mapKeyByPos getAtIndex
    rcases Nat.lt_or_ge i m.length with h | h
    · simp [h, Except.map]
    · simp [h, Except.map]
  · intro i
    unfold mapValByPos getAtIndex
    rcases Nat.lt_or_ge i m.length with h | h
    · simp [h, Except.map]
    · simp [h, Except.map]

/-- One write of a contract; a failed host call leaves the contract with the handle it had. -/
def applyOp (cmp : K → K → Res Ordering) (m : List (K × V)) : MapOp K V → List (K × V)
  | .put k v => match mapPut cmp m k v with | .ok m' => m' | .error _ => m
  | .del k => match mapDel cmp m k with | .ok m' => m' | .error _ => m

theorem history_inv [Std.TransCmp ord] (hc : Computes cmp ord) (ops : List (MapOp K V)) (hb : ops.length ≤ u32Max) :
    Ascending ord (ops.foldr (fun op m => applyOp cmp m op) mapNew) ∧
    (ops.foldr (fun op m => applyOp cmp m op) mapNew).length ≤ ops.length ∧
    ∀ k v, MapsTo ord (ops.foldr (fun op m => applyOp cmp m op) mapNew) k v ↔ lastWrite ord k ops = some v := by
  induction ops with
  | nil => simp [mapNew, Ascending, MapsTo, lastWrite]
  | cons op older ih =>
    have hb' : older.length + 1 ≤ u32Max := by simpa using hb
    obtain ⟨ha, hlen, hmt⟩ := ih (by omega)
    rw [List.foldr_cons]
    generalize List.foldr (fun op m => applyOp cmp m op) mapNew older = m at *
    have trans_eq : ∀ {a b c : K}, ord a b = .eq → ord b c = .eq → ord a c = .eq :=
      fun h1 h2 => Std.TransCmp.eq_trans h1 h2
    cases op with
    | put k v =>
      obtain ⟨m', hp, ha', hmem, hl1, hl2⟩ := (C06_put hc m ha (by omega) k v).1 (Or.inr (by omega))
      simp only [applyOp, hp]
      refine ⟨ha', ?_, ?_⟩
      · simp only [List.length_cons]
        by_cases hk : HasKey ord m k
        · rw [hl1 hk]; omega
        · rw [hl2 hk]; omega
      · intro k' v'
        unfold lastWrite
        by_cases hkk : ord k k' = .eq
        · rw [if_pos hkk]
          constructor
          · rintro ⟨p, hp, he, rfl⟩
            rcases (hmem p).mp hp with rfl | ⟨_, hne⟩
            · rfl
            · exact absurd (trans_eq he (Std.OrientedCmp.eq_symm hkk)) hne
          · intro h
            cases h
            exact ⟨(k, v), (hmem _).mpr (Or.inl rfl), hkk, rfl⟩
        · rw [if_neg hkk, ← hmt]
          constructor
          · rintro ⟨p, hp, he, rfl⟩
            rcases (hmem p).mp hp with rfl | ⟨hpm, _⟩
            · exact absurd he hkk
            · exact ⟨p, hpm, he, rfl⟩
          · rintro ⟨p, hp, he, rfl⟩
            refine ⟨p, (hmem p).mpr (Or.inr ⟨hp, fun h => hkk (trans_eq (Std.OrientedCmp.eq_symm h) he)⟩), he, rfl⟩
    | del k =>
      by_cases hk : HasKey ord m k
      · obtain ⟨m', hp, ha', hmem, hl'⟩ := (C06_del hc m ha (by omega) k).1 hk
        simp only [applyOp, hp]
        refine ⟨ha', by simp only [List.length_cons]; omega, ?_⟩
        intro k' v'
        unfold lastWrite
        by_cases hkk : ord k k' = .eq
        · rw [if_pos hkk]
          simp only [reduceCtorEq, iff_false]
          rintro ⟨p, hp, he, _⟩
          exact ((hmem p).mp hp).2 (trans_eq he (Std.OrientedCmp.eq_symm hkk))
        · rw [if_neg hkk, ← hmt]
          constructor
          · rintro ⟨p, hp, he, rfl⟩
            exact ⟨p, ((hmem p).mp hp).1, he, rfl⟩
          · rintro ⟨p, hp, he, rfl⟩
            exact ⟨p, (hmem p).mpr ⟨hp, fun h => hkk (trans_eq (Std.OrientedCmp.eq_symm h) he)⟩, he, rfl⟩
      · have hp := (C06_del hc m ha (by omega) k).2 hk
        simp only [applyOp, hp]
        refine ⟨ha, by simp only [List.length_cons]; omega, ?_⟩
        intro k' v'
        unfold lastWrite
        by_cases hkk : ord k k' = .eq
        · rw [if_pos hkk]
          simp only [reduceCtorEq, iff_false]
          rintro ⟨p, hp, he, _⟩
          exact hk ⟨p, hp, trans_eq he (Std.OrientedCmp.eq_symm hkk)⟩
        · rw [if_neg hkk, ← hmt]

/-- C06: after any history of puts and deletes (newest first), reading a key returns what the last write to an equal key
left, and fails exactly when that write was a delete or there was none. -/
theorem C06_history [Std.TransCmp ord] (hc : Computes cmp ord) (ops : List (MapOp K V)) (hb : ops.length ≤ u32Max)
    (k : K) :
    mapGet cmp (ops.foldr (fun op m => applyOp cmp m op) mapNew) k =
      match lastWrite ord k ops with
      | some v => .ok v
      | none => .error (.host .object .missingValue) := by
  obtain ⟨ha, _, hmt⟩ := history_inv hc ops hb
  obtain ⟨h1, h2, _⟩ := C06_get hc _ ha k
  cases hw : lastWrite ord k ops with
  | some v => exact (h1 v).mpr ((hmt k v).mpr hw)
  | none =>
    refine h2.mpr ?_
    rintro ⟨p, hp, he⟩
    have := (hmt k p.2).mp ⟨p, hp, he, rfl⟩
    rw [hw] at this
    cases this

/-- Keys increase along the list and start above `prev`. -/
def AscendingFrom (ord : K → K → Ordering) (prev : Option K) (l : List (K × V)) : Prop :=
  (∀ p ∈ prev, ∀ q ∈ l, ord p q.1 = .lt) ∧ Ascending ord l

theorem ascendingFrom_cons [Std.TransCmp ord] (prev : Option K) (k : K) (v : V) (rest : List (K × V)) :
    AscendingFrom ord prev ((k, v) :: rest) ↔ (∀ p ∈ prev, ord p k = .lt) ∧ AscendingFrom ord (some k) rest := by
  unfold AscendingFrom Ascending
  rw [List.pairwise_cons]
  constructor
  · rintro ⟨h1, h2, h3⟩
    exact ⟨fun p hp => h1 p hp (k, v) (by simp), fun p hp q hq => by cases hp; exact h2 q hq, h3⟩
  · rintro ⟨h1, h2, h3⟩
    refine ⟨fun p hp q hq => ?_, fun q hq => h2 k rfl q hq, h3⟩
    rcases List.mem_cons.mp hq with rfl | hq
    · exact h1 p hp
    · exact Std.TransCmp.lt_trans (h1 p hp) (h2 k rfl q hq)

theorem checkPrev_ok_iff (hc : Computes cmp ord) (active : Bool) (prev : Option K) (k : K) :
    checkPrev cmp active prev k = .ok () ↔ (active = true → ∀ p ∈ prev, ord p k = .lt) := by
  unfold checkPrev
  cases prev with
  | none => simp
  | some p =>
    cases active with
    | false => simp
    | true =>
      simp only [hc p k, if_true]
      cases ho : ord p k <;> simp [ho]

theorem fromSlicesLoop_iff [Std.TransCmp ord] (hc : Computes cmp ord) (good isVoid : V → Bool) (sparse : Bool)
    (l : List (K × V)) : ∀ (prev : Option K) (m : List (K × V)),
    mapFromSlicesLoop cmp good isVoid sparse prev l = .ok m ↔
      (∀ p ∈ l, good p.2 = true) ∧ (sparse = true → AscendingFrom ord prev l) ∧
      m = l.filter (fun p => !sparse || !isVoid p.2) := by
  induction l with
  | nil =>
    intro prev m
    simp only [mapFromSlicesLoop, AscendingFrom, Ascending, List.not_mem_nil, false_implies, implies_true,
      List.Pairwise.nil, and_self, List.filter_nil, Except.ok.injEq, true_and]
    exact eq_comm
  | cons kv rest ih =>
    obtain ⟨k, v⟩ := kv
    intro prev m
    unfold mapFromSlicesLoop
    simp only [ascendingFrom_cons, List.mem_cons, forall_eq_or_imp, List.filter_cons]
    cases hcp : checkPrev cmp sparse prev k with
    | error e =>
      simp only [reduceCtorEq, false_iff]
      rintro ⟨_, h2, _⟩
      have := (checkPrev_ok_iff hc sparse prev k).mpr (fun h => (h2 h).1)
      rw [hcp] at this
      cases this
    | ok u =>
      have hord := (checkPrev_ok_iff hc sparse prev k).mp hcp
      simp only []
      cases hg : good v with
      | false => simp
      | true =>
        simp only [Bool.not_true, Bool.false_eq_true, if_false, true_and]
        cases hr : mapFromSlicesLoop cmp good isVoid sparse (some k) rest with
        | error e =>
          simp only [reduceCtorEq, false_iff]
          rintro ⟨h1, h2, _⟩
          have := (ih (some k) _).mpr ⟨h1, fun h => (h2 h).2, rfl⟩
          rw [hr] at this
          cases this
        | ok m0 =>
          obtain ⟨h1, h2, h3⟩ := (ih (some k) m0).mp hr
          simp only [Except.ok.injEq]
          subst h3
          exact ⟨fun h => ⟨h1, fun hs => ⟨hord hs, h2 hs⟩, h.symm⟩, fun h => h.2.2.symm⟩

theorem zip_good {keys : List K} {vals : List V} (hl : keys.length = vals.length) (P : V → Prop) :
    (∀ p ∈ keys.zip vals, P p.2) ↔ ∀ v ∈ vals, P v := by
  have h := List.map_snd_zip (l₁ := keys) (l₂ := vals) (by omega)
  constructor
  · intro hp v hv
    rw [← h] at hv
    obtain ⟨p, hp', rfl⟩ := List.mem_map.mp hv
    exact hp p hp'
  · intro hv p hp
    exact hv p.2 (List.of_mem_zip hp).2

theorem zip_ascending {keys : List K} {vals : List V} (hl : keys.length = vals.length) :
    Ascending ord (keys.zip vals) ↔ keys.Pairwise (fun a b => ord a b = .lt) := by
  unfold Ascending
  conv => rhs; rw [← List.map_fst_zip (l₁ := keys) (l₂ := vals) (by omega), List.pairwise_map]

/-- C07: building a map from equally long key and value lists succeeds exactly when every value is well-formed, the keys
strictly increase and the length fits in 32 bits; the map then contains exactly those pairs. -/
theorem C07_dense [Std.TransCmp ord] (hc : Computes cmp ord) (good isVoid : V → Bool) (keys : List K) (vals : List V)
    (m : List (K × V)) :
    mapFromSlices cmp good isVoid false keys vals = .ok m ↔
      keys.length = vals.length ∧ (∀ v ∈ vals, good v = true) ∧ keys.Pairwise (fun a b => ord a b = .lt) ∧
      keys.length ≤ u32Max ∧ m = keys.zip vals := by
  unfold mapFromSlices
  by_cases hl : keys.length = vals.length
  · rw [if_neg (by simp [hl])]
    have hgood := zip_good (keys := keys) hl (fun v => good v = true)
    have hasc := zip_ascending (ord := ord) hl
    have hzl : (keys.zip vals).length = keys.length := by rw [List.length_zip]; omega
    cases hr : mapFromSlicesLoop cmp good isVoid false none (keys.zip vals) with
    | error e =>
      simp only [reduceCtorEq, false_iff]
      rintro ⟨_, h, _⟩
      have := (fromSlicesLoop_iff hc good isVoid false _ none _).mpr ⟨hgood.mpr h, by simp, rfl⟩
      rw [hr] at this
      cases this
    | ok m0 =>
      obtain ⟨h1, _, h3⟩ := (fromSlicesLoop_iff hc good isVoid false _ none m0).mp hr
      rw [show (fun p : K × V => !false || !isVoid p.2) = (fun _ => true) from by funext p; simp, List.filter_eq_self.mpr (by simp)] at h3
      subst h3
      simp only []
      rw [fromMap_ok_iff hc, hzl, hasc]
      have h1' := hgood.mp h1
      exact ⟨fun ⟨a, b, c⟩ => ⟨hl, h1', c, b, a⟩, fun ⟨_, _, c, b, a⟩ => ⟨a, b, c⟩⟩
  · rw [if_pos (by simpa using hl)]
    simp [hl]

/-- C07: sparse construction checks the order of all keys, including those of void values, and then drops exactly the pairs
with a void value. -/
theorem C07_sparse [Std.TransCmp ord] (hc : Computes cmp ord) (good isVoid : V → Bool) (keys : List K) (vals : List V)
    (m : List (K × V)) :
    mapFromSlices cmp good isVoid true keys vals = .ok m ↔
      keys.length = vals.length ∧ (∀ v ∈ vals, good v = true) ∧ keys.Pairwise (fun a b => ord a b = .lt) ∧
      m.length ≤ u32Max ∧ m = (keys.zip vals).filter (fun p => !isVoid p.2) := by
  unfold mapFromSlices
  by_cases hl : keys.length = vals.length
  · rw [if_neg (by simp [hl])]
    have hgood := zip_good (keys := keys) hl (fun v => good v = true)
    have hasc := zip_ascending (ord := ord) hl
    cases hr : mapFromSlicesLoop cmp good isVoid true none (keys.zip vals) with
    | error e =>
      simp only [reduceCtorEq, false_iff]
      rintro ⟨_, h, h', _⟩
      have := (fromSlicesLoop_iff hc good isVoid true _ none _).mpr
        ⟨hgood.mpr h, fun _ => ⟨by simp, hasc.mpr h'⟩, rfl⟩
      rw [hr] at this
      cases this
    | ok m0 =>
      obtain ⟨h1, h2, h3⟩ := (fromSlicesLoop_iff hc good isVoid true _ none m0).mp hr
      simp only [Bool.not_true, Bool.false_or] at h3
      subst h3
      simp only []
      have hfa : Ascending ord ((keys.zip vals).filter (fun p => !isVoid p.2)) := List.Pairwise.filter _ (h2 rfl).2
      rw [fromMap_ok_iff hc]
      refine ⟨fun ⟨a, b, _⟩ => ⟨hl, hgood.mp h1, hasc.mp (h2 rfl).2, a ▸ b, a⟩, fun ⟨_, _, _, b, a⟩ => ⟨a, a ▸ b, hfa⟩⟩
  · rw [if_pos (by simpa using hl)]
    simp [hl]

theorem unpackOne_sparse [Std.TransCmp ord] (hc : Computes cmp ord) (void : V) (k : K) (m : List (K × V))
    (hm : Ascending ord m) :
    ∃ v D m', unpackOne cmp void true k m = .ok (v, m') ∧ m = D ++ m' ∧ (∀ p ∈ D, ord p.1 k ≠ .gt) ∧
      (∀ p ∈ m', ord p.1 k = .gt) ∧ (MapsTo ord m k v ∨ (¬ HasKey ord m k ∧ v = void)) := by
  induction m with
  | nil => exact ⟨void, [], [], rfl, rfl, by simp, by simp, Or.inr ⟨by simp [HasKey], rfl⟩⟩
  | cons q rest ih =>
    obtain ⟨mk, mv⟩ := q
    obtain ⟨hhd, hrest⟩ := List.pairwise_cons.mp hm
    unfold unpackOne
    rw [hc]
    simp only [if_true]
    cases ho : ord mk k with
    | lt =>
      obtain ⟨v, D, m', h1, h2, h3, h4, h5⟩ := ih hrest
      refine ⟨v, (mk, mv) :: D, m', h1, by rw [h2]; rfl, ?_, h4, ?_⟩
      · intro p hp
        rcases List.mem_cons.mp hp with rfl | hp
        · simp [ho]
        · exact h3 p hp
      · rcases h5 with ⟨p, hp, he, hv⟩ | ⟨hn, hv⟩
        · exact Or.inl ⟨p, by simp [hp], he, hv⟩
        · refine Or.inr ⟨?_, hv⟩
          rintro ⟨p, hp, he⟩
          rcases List.mem_cons.mp hp with rfl | hp
          · rw [ho] at he; cases he
          · exact hn ⟨p, hp, he⟩
    | eq =>
      refine ⟨mv, [(mk, mv)], rest, rfl, rfl, by simp [ho], ?_, Or.inl ⟨(mk, mv), by simp, ho, rfl⟩⟩
      intro p hp
      rw [Std.OrientedCmp.gt_iff_lt]
      exact Std.TransCmp.lt_of_eq_of_lt (Std.OrientedCmp.eq_symm ho) (hhd p hp)
    | gt =>
      have hall : ∀ p ∈ (mk, mv) :: rest, ord p.1 k = .gt := by
        intro p hp
        rcases List.mem_cons.mp hp with rfl | hp
        · exact ho
        · rw [Std.OrientedCmp.gt_iff_lt]
          exact Std.TransCmp.lt_trans (Std.OrientedCmp.gt_iff_lt.mp ho) (hhd p hp)
      refine ⟨void, [], (mk, mv) :: rest, rfl, rfl, by simp, hall, Or.inr ⟨?_, rfl⟩⟩
      rintro ⟨p, hp, he⟩
      rw [hall p hp] at he
      cases he

/-- The value a sparse read of `k` must deliver. -/
def Delivers (ord : K → K → Ordering) (void : V) (m : List (K × V)) (k : K) (v : V) : Prop :=
  MapsTo ord m k v ∨ (¬ HasKey ord m k ∧ v = void)

theorem forall2_mono_mem {α β : Type} {R S : α → β → Prop} {l₁ : List α} {l₂ : List β} (h : List.Forall₂ R l₁ l₂) :
    (∀ a ∈ l₁, ∀ b, R a b → S a b) → List.Forall₂ S l₁ l₂ := by
  induction h with
  | nil => exact fun _ => .nil
  | cons hd _ ih => exact fun hi => .cons (hi _ (by simp) _ hd) (ih (fun a ha => hi a (by simp [ha])))

theorem unpackLoop_sparse [Std.TransCmp ord] (hc : Computes cmp ord) (void : V) (keys : List K) :
    ∀ (prev : Option K) (m : List (K × V)), Ascending ord m →
      (keys.Pairwise (fun a b => ord a b = .lt) ∧ (∀ p ∈ prev, ∀ k ∈ keys, ord p k = .lt) →
        ∃ vs rest, unpackLoop cmp void true prev m keys = .ok (vs, rest) ∧ (∃ D, m = D ++ rest) ∧
          List.Forall₂ (Delivers ord void m) keys vs) ∧
      (¬ (keys.Pairwise (fun a b => ord a b = .lt) ∧ (∀ p ∈ prev, ∀ k ∈ keys, ord p k = .lt)) →
        unpackLoop cmp void true prev m keys = .error (.host .object .invalidInput)) := by
  induction keys with
  | nil =>
    intro prev m _
    refine ⟨fun _ => ⟨[], m, rfl, ⟨[], rfl⟩, .nil⟩, fun h => absurd ⟨List.Pairwise.nil, by simp⟩ h⟩
  | cons k ks ih =>
    intro prev m hm
    unfold unpackLoop
    have hprev : (checkPrev cmp true prev k = .ok () ∧ ∀ p ∈ prev, ord p k = .lt) ∨
        (checkPrev cmp true prev k = .error (.host .object .invalidInput) ∧ ¬ ∀ p ∈ prev, ord p k = .lt) := by
      unfold checkPrev
      cases prev with
      | none => left; simp
      | some p =>
        simp only [hc p k, if_true]
        cases ho : ord p k <;> simp [ho]
    obtain ⟨v, D, m', h1, h2, h3, h4, h5⟩ := unpackOne_sparse hc void k m hm
    have hm' : Ascending ord m' := by rw [h2] at hm; exact ascending_append_right hm
    obtain ⟨ihok, iherr⟩ := ih (some k) m' hm'
    have later : ∀ k', ord k k' = .lt → ∀ w, Delivers ord void m' k' w → Delivers ord void m k' w := by
      intro k' hlt w hw
      have hD : ∀ p ∈ D, ord p.1 k' ≠ .eq := by
        intro p hp he
        have := h3 p hp
        cases ho : ord p.1 k with
        | lt => rw [Std.TransCmp.lt_trans ho hlt] at he; cases he
        | eq => rw [Std.TransCmp.lt_of_eq_of_lt ho hlt] at he; cases he
        | gt => exact this ho
      rcases hw with ⟨p, hp, he, hv⟩ | ⟨hn, hv⟩
      · exact Or.inl ⟨p, by rw [h2]; simp [hp], he, hv⟩
      · refine Or.inr ⟨?_, hv⟩
        rintro ⟨p, hp, he⟩
        rw [h2] at hp
        rcases List.mem_append.mp hp with hp | hp
        · exact hD p hp he
        · exact hn ⟨p, hp, he⟩
    constructor
    · rintro ⟨hp, hq⟩
      obtain ⟨hk, hks⟩ := List.pairwise_cons.mp hp
      have hcp : checkPrev cmp true prev k = .ok () := by
        rcases hprev with h | h
        · exact h.1
        · exact absurd (fun p hp => hq p hp k (by simp)) h.2
      obtain ⟨vs, rest, hl, ⟨D', hD'⟩, hall⟩ := ihok ⟨hks, fun p hp k' hk' => by cases hp; exact hk k' hk'⟩
      simp only [hcp, h1, hl]
      refine ⟨v :: vs, rest, rfl, ⟨D ++ D', by rw [h2, hD', List.append_assoc]⟩, .cons h5 ?_⟩
      exact forall2_mono_mem hall (fun a ha b hab => later a (hk a ha) b hab)
    · intro hn
      rcases hprev with ⟨hcp, hpk⟩ | ⟨hcp, _⟩
      · simp only [hcp, h1]
        rw [iherr]
        rintro ⟨hks, hk⟩
        refine hn ⟨List.pairwise_cons.mpr ⟨fun k' hk' => hk k rfl k' hk', hks⟩, ?_⟩
        intro p hp k' hk'
        rcases List.mem_cons.mp hk' with rfl | hk'
        · exact hpk p hp
        · exact Std.TransCmp.lt_trans (hpk p hp) (hk k rfl k' hk')
      · simp only [hcp]

/-- C07: sparse unpacking with strictly increasing keys delivers for each key the value the map holds, or void for keys the
map does not hold. With keys out of order it fails. -/
theorem C07_sparse_unpack [Std.TransCmp ord] (hc : Computes cmp ord) (void : V) (m : List (K × V)) (hm : Ascending ord m)
    (isSym : K → Bool) (hs : ∀ p ∈ m, isSym p.1 = true) (keys : List K) :
    (keys.Pairwise (fun a b => ord a b = .lt) →
      ∃ vs, mapUnpack cmp isSym void true m keys = .ok vs ∧
        List.Forall₂ (fun k v => MapsTo ord m k v ∨ (¬ HasKey ord m k ∧ v = void)) keys vs) ∧
    (¬ keys.Pairwise (fun a b => ord a b = .lt) →
      mapUnpack cmp isSym void true m keys = .error (.host .object .invalidInput)) := by
  obtain ⟨hok, herr⟩ := unpackLoop_sparse hc void keys none m hm
  unfold mapUnpack
  constructor
  · intro hp
    obtain ⟨vs, rest, hl, ⟨D, hD⟩, hall⟩ := hok ⟨hp, by simp⟩
    refine ⟨vs, ?_, hall⟩
    rw [hl]
    have : rest.all (fun p => isSym p.1) = true := by
      rw [List.all_eq_true]
      intro p hp
      exact hs p (by rw [hD]; simp [hp])
    simp [this]
  · intro hn
    rw [herr (fun h => hn h.1)]
    simp

theorem unpackOne_dense (hc : Computes cmp ord) (void : V) (k mk : K) (mv : V) (m : List (K × V)) :
    unpackOne cmp void false k ((mk, mv) :: m) =
      if ord mk k = .eq then .ok (mv, m) else .error (.host .object .invalidInput) := by
  unfold unpackOne
  rw [hc]
  cases ho : ord mk k <;> simp

theorem unpackLoop_dense (hc : Computes cmp ord) (void : V) (keys : List K) :
    ∀ (prev : Option K) (m : List (K × V)) (vs : List V) (rest : List (K × V)), m.length = keys.length →
      unpackLoop cmp void false prev m keys = .ok (vs, rest) →
      vs = m.map Prod.snd ∧ rest = [] ∧ List.Forall₂ (fun p k => ord p.1 k = .eq) m keys := by
  induction keys with
  | nil =>
    intro prev m vs rest hl h
    have : m = [] := List.eq_nil_of_length_eq_zero hl
    subst this
    cases h
    exact ⟨rfl, rfl, .nil⟩
  | cons k ks ih =>
    intro prev m vs rest hl h
    cases m with
    | nil => cases hl
    | cons q m =>
      obtain ⟨mk, mv⟩ := q
      unfold unpackLoop at h
      cases hcp : checkPrev cmp true prev k with
      | error e => rw [hcp] at h; cases h
      | ok u =>
        rw [hcp] at h
        simp only [unpackOne_dense hc] at h
        by_cases ho : ord mk k = .eq
        · rw [if_pos ho] at h
          simp only [] at h
          cases hr : unpackLoop cmp void false (some k) m ks with
          | error e => rw [hr] at h; cases h
          | ok r =>
            obtain ⟨vs', rest'⟩ := r
            rw [hr] at h
            cases h
            obtain ⟨h1, h2, h3⟩ := ih (some k) m _ _ (by simpa using hl) hr
            exact ⟨by rw [h1]; rfl, h2, .cons ho h3⟩
        · rw [if_neg ho] at h
          cases h

theorem unpackLoop_dense_ok [Std.TransCmp ord] (hc : Computes cmp ord) (void : V) (keys : List K) :
    ∀ (prev : Option K) (m : List (K × V)), AscendingFrom ord prev m →
      List.Forall₂ (fun p k => ord p.1 k = .eq) m keys →
      unpackLoop cmp void false prev m keys = .ok (m.map Prod.snd, []) := by
  induction keys with
  | nil =>
    intro prev m _ h
    cases h
    rfl
  | cons k ks ih =>
    intro prev m hm h
    cases h with
    | @cons q _ m _ he hr =>
      obtain ⟨mk, mv⟩ := q
      obtain ⟨h1, h2⟩ := (ascendingFrom_cons prev mk mv m).mp hm
      have hcp : checkPrev cmp true prev k = .ok () :=
        (checkPrev_ok_iff hc true prev k).mpr (fun _ p hp => Std.TransCmp.lt_of_lt_of_eq (h1 p hp) he)
      have h2' : AscendingFrom ord (some k) m :=
        ⟨fun p hp q hq => by cases hp; exact Std.TransCmp.lt_of_eq_of_lt (Std.OrientedCmp.eq_symm he) (h2.1 mk rfl q hq), h2.2⟩
      unfold unpackLoop
      simp only [hcp, unpackOne_dense hc, he, if_true]
      rw [ih (some k) m h2' hr]
      rfl

/-- C07: dense unpacking succeeds exactly when the keys are those of the map, one for one, and returns the values in key
order. -/
theorem C07_dense_unpack [Std.TransCmp ord] (hc : Computes cmp ord) (void : V) (m : List (K × V)) (hm : Ascending ord m)
    (isSym : K → Bool) (keys : List K) (vs : List V) :
    mapUnpack cmp isSym void false m keys = .ok vs ↔
      List.Forall₂ (fun p k => ord p.1 k = .eq) m keys ∧ vs = m.map Prod.snd := by
  unfold mapUnpack
  constructor
  · intro h
    by_cases hl : m.length = keys.length
    · rw [if_neg (by simp [hl])] at h
      cases hr : unpackLoop cmp void false none m keys with
      | error e => rw [hr] at h; cases h
      | ok r =>
        obtain ⟨vs', rest⟩ := r
        obtain ⟨h1, h2, h3⟩ := unpackLoop_dense hc void keys none m vs' rest hl hr
        rw [hr] at h
        subst h1 h2
        simp only [List.all_nil, if_true, Except.ok.injEq] at h
        exact ⟨h3, h.symm⟩
    · rw [if_pos (by simpa using hl)] at h
      cases h
  · rintro ⟨h, rfl⟩
    rw [if_neg (by simp [h.length_eq]), unpackLoop_dense_ok hc void keys none m ⟨by simp, hm⟩ h]
    simp

/-- The natural order used by the examples. -/
def natCmp (a b : Nat) : Res Ordering := .ok (compare a b)

theorem natCmp_computes : Computes natCmp (compare : Nat → Nat → Ordering) := fun _ _ => rfl

example : mapGet natCmp
    ([MapOp.put 3 'c', .del 1, .put 1 'a', .put 3 'b', .put 2 'x'].foldr (fun op m => applyOp natCmp m op) mapNew) 3
    = .ok 'c' :=
  C06_history natCmp_computes _ (by simp [u32Max]) 3

example : Ascending (compare : Nat → Nat → Ordering) [(1, 'a'), (3, 'c'), (7, 'z')] ∧ HasKey compare [(1, 'a'), (3, 'c')] 3 :=
  ⟨by simp [Ascending]; decide, ⟨(3, 'c'), by simp, by decide⟩⟩

example : mapFromSlices natCmp (fun _ => true) (· == 0) true [1, 5, 9] [10, 0, 30] = .ok [(1, 10), (9, 30)] :=
  (C07_sparse natCmp_computes _ _ _ _ _).mpr
    ⟨rfl, by simp, by simp only [List.pairwise_cons]; decide, by simp [u32Max], by decide⟩

example : mapFromSlices natCmp (fun _ => true) (· == 0) false [1, 5, 9] [10, 0, 30] = .ok [(1, 10), (5, 0), (9, 30)] :=
  (C07_dense natCmp_computes _ _ _ _ _).mpr ⟨rfl, by simp, by simp only [List.pairwise_cons]; decide, by simp [u32Max], by decide⟩

example : mapUnpack natCmp (fun _ => true) 0 true [(1, 10), (5, 50), (9, 90)] [0, 5, 7, 9] = .ok [0, 50, 0, 90] := by rfl

end Soroban.Props
