import Verif.Spec.Wasm
import Verif.Lemmas.Objects
/-!
Lemmas on the extraction of cost inputs: the capped counters are the caps of the true counts.
-/
namespace Soroban.Wasm
open Soroban.Wasm.Spec

theorem plus_assoc (a b c : Acc) : plus (plus a b) c = plus a (plus b c) := by simp only [plus, Nat.add_assoc]

theorem plus_nothing (a : Acc) : plus a nothing = a := by simp only [plus, nothing, Nat.add_zero]

theorem nothing_plus (a : Acc) : plus nothing a = a := by simp only [plus, nothing, Nat.zero_add]

theorem cap_add (a b : Nat) : satAdd (min a u32Max) b = min (a + b) u32Max := by
  unfold satAdd
  generalize u32Max = m
  omega

/-- The loop over items that are each added, in capped counters. -/
theorem forItems_capped {α : Type} (f : Acc → α → Res Acc) (l : List (Option α)) (t a' : Acc) (amt : α → Acc) (P : α → Prop)
    (h : ∀ t x a', f (capped t) x = .ok a' ↔ P x ∧ a' = capped (plus t (amt x))) :
    forItems f l (capped t) = .ok a' ↔ All P l ∧ a' = capped (plus t (sumOf amt (l.filterMap id))) := by
  induction l generalizing t with
  | nil =>
    simp only [forItems, All, List.filterMap_nil, sumOf, plus_nothing]
    constructor
    · intro hh; injection hh with hh; exact ⟨(fun x hx => nomatch hx), hh.symm⟩
    · rintro ⟨_, rfl⟩; rfl
  | cons x xs ih =>
    unfold forItems
    rw [bind_ok]
    cases x with
    | none =>
      constructor
      · rintro ⟨a, ha, _⟩; cases ha
      · rintro ⟨ha, _⟩
        obtain ⟨a, hx, _⟩ := ha none (List.mem_cons_self ..)
        cases hx
    | some a =>
      have e : (some a :: xs).filterMap id = a :: xs.filterMap id := rfl
      rw [e]
      show _ ↔ _ ∧ a' = capped (plus t (plus (amt a) (sumOf amt (xs.filterMap id))))
      rw [← plus_assoc]
      constructor
      · rintro ⟨a1, ha, hh⟩
        injection ha with ha
        subst ha
        obtain ⟨b1, h1, h2⟩ := bind_ok.mp hh
        obtain ⟨hp, rfl⟩ := (h t a b1).mp h1
        obtain ⟨h3, h4⟩ := (ih (plus t (amt a))).mp h2
        refine ⟨fun y hy => ?_, h4⟩
        rcases List.mem_cons.mp hy with rfl | hy
        · exact ⟨a, rfl, hp⟩
        · exact h3 y hy
      · rintro ⟨h1, h2⟩
        obtain ⟨a1, ha, hp⟩ := h1 (some a) (List.mem_cons_self ..)
        injection ha with ha
        subst ha
        exact ⟨a, rfl, bind_ok.mpr ⟨_, (h t a _).mpr ⟨hp, rfl⟩,
          (ih _).mpr ⟨fun y hy => h1 y (List.mem_cons_of_mem _ hy), h2⟩⟩⟩

theorem checkConst_ok {e : ConstExpr} : checkConst e = .ok () ↔ Simple e := by
  induction e with
  | nil => exact ⟨(fun _ o ho => nomatch ho), fun _ => rfl⟩
  | cons o os ih =>
    match o with
    | some .simple =>
      show checkConst os = _ ↔ _
      rw [ih]
      refine ⟨fun h o ho => ?_, fun h o ho => h o (List.mem_cons_of_mem _ ho)⟩
      rcases List.mem_cons.mp ho with rfl | ho
      · rfl
      · exact h o ho
    | some .complex =>
      refine ⟨(fun h => nomatch h), fun h => ?_⟩
      cases h _ (List.mem_cons_self ..)
    | none =>
      refine ⟨(fun h => nomatch h), fun h => ?_⟩
      cases h _ (List.mem_cons_self ..)

theorem checkConst?_ok {o : Option ConstExpr} : checkConst? o = .ok () ↔ ∀ e, o = some e → Simple e := by
  cases o with
  | none => exact ⟨(fun _ e he => nomatch he), fun _ => rfl⟩
  | some e =>
    show checkConst e = _ ↔ _
    rw [checkConst_ok]
    refine ⟨fun h e' he => ?_, fun h => h e rfl⟩
    injection he with he
    rw [← he]; exact h

theorem then_ok {α : Type} {r : Res Unit} {a b : α} {P : Prop} (h : r = .ok () ↔ P) :
    ((do r; .ok a : Res α) = .ok b) ↔ P ∧ b = a := by
  rw [bind_ok]
  constructor
  · rintro ⟨_, h1, h2⟩
    injection h2 with h2
    exact ⟨h.mp h1, h2.symm⟩
  · rintro ⟨h1, rfl⟩
    exact ⟨(), h.mpr h1, rfl⟩

theorem ok_iff {α : Type} {a b : α} : ((.ok a : Res α) = .ok b) ↔ b = a :=
  ⟨fun h => by injection h with h; exact h.symm, fun h => by rw [h]⟩

/-- Adding to one capped counter. -/
theorem capped_plus (t d : Acc) : capped (plus t d) =
    ⟨⟨satAdd (capped t).costs.nInstructions d.costs.nInstructions, satAdd (capped t).costs.nFunctions d.costs.nFunctions,
      satAdd (capped t).costs.nGlobals d.costs.nGlobals, satAdd (capped t).costs.nTableEntries d.costs.nTableEntries,
      satAdd (capped t).costs.nTypes d.costs.nTypes, satAdd (capped t).costs.nDataSegments d.costs.nDataSegments,
      satAdd (capped t).costs.nElemSegments d.costs.nElemSegments, satAdd (capped t).costs.nImports d.costs.nImports,
      satAdd (capped t).costs.nExports d.costs.nExports,
      satAdd (capped t).costs.nDataSegmentBytes d.costs.nDataSegmentBytes⟩,
      satAdd (capped t).elements d.elements, satAdd (capped t).memory d.memory⟩ := by
  simp only [capped, plus, cap_add]

theorem satAdd_zero (n : Nat) : satAdd (min n u32Max) 0 = min n u32Max := by rw [cap_add, Nat.add_zero]

theorem addMemory_ok (t : Acc) (m : MemTy) (a' : Acc) :
    addMemory (capped t) m = .ok a' ↔ (m.memory64 = false ∧ m.shared = false ∧ m.initial * 65536 ≤ u32Max) ∧
      a' = capped (plus t { nothing with memory := m.initial * 65536 }) := by
  unfold addMemory
  have e : pageSize = 65536 := rfl
  rw [e, capped_plus]
  simp only [nothing, capped, satAdd_zero]
  cases h1 : m.memory64 with
  | true => rw [if_pos rfl]; exact ⟨(fun h => nomatch h), fun h => nomatch h.1.1⟩
  | false =>
    rw [if_neg (by simp)]
    cases h2 : m.shared with
    | true => rw [if_pos rfl]; exact ⟨(fun h => nomatch h), fun h => nomatch h.1.2.1⟩
    | false =>
      rw [if_neg (by simp)]
      by_cases h3 : m.initial * 65536 > u32Max
      · rw [if_pos h3]; exact ⟨(fun h => nomatch h), fun h => absurd h.1.2.2 (Nat.not_le.mpr h3)⟩
      · rw [if_neg h3, ok_iff]
        exact ⟨fun h => ⟨⟨rfl, rfl, Nat.not_lt.mp h3⟩, h⟩, fun h => h.2⟩

theorem addTable_ok (t : Acc) (x : TableTy) (a' : Acc) :
    addTable (capped t) x = .ok a' ↔ (∀ e, x.init = some e → Simple e) ∧
      a' = capped (plus t { nothing with costs.nTableEntries := x.initial }) := by
  unfold addTable
  rw [then_ok checkConst?_ok, capped_plus]
  simp only [nothing, capped, satAdd_zero]

theorem addGlobal_ok (t : Acc) (x : ConstExpr) (a' : Acc) :
    addGlobal (capped t) x = .ok a' ↔ Simple x ∧ a' = capped (plus t nothing) := by
  unfold addGlobal
  rw [then_ok checkConst_ok, plus_nothing]

theorem sumOf_nothing {α : Type} (l : List α) : sumOf (fun _ => nothing) l = nothing := by
  induction l with
  | nil => rfl
  | cons x xs ih => unfold sumOf; rw [ih, plus_nothing]

theorem addElem_ok (t : Acc) (x : Elem) (a' : Acc) :
    addElem (capped t) x = .ok a' ↔
      ((∀ o, x.offset = some o → Simple o) ∧ ∀ l, x.items = .inr l → All Simple l) ∧
      a' = capped (plus t { nothing with elements := itemsOf x }) := by
  unfold addElem itemsOf
  rw [bind_ok]
  have hc : ∀ n : Nat, ({ capped t with elements := satAdd (capped t).elements n } : Acc) =
      capped (plus t { nothing with elements := n }) := by
    intro n
    rw [capped_plus]
    simp only [nothing, capped, satAdd_zero]
  cases hx : x.items with
  | inl n =>
    dsimp only
    rw [← hc]
    constructor
    · rintro ⟨_, h1, h2⟩
      exact ⟨⟨checkConst?_ok.mp h1, fun l hl => nomatch hl⟩, ok_iff.mp h2⟩
    · rintro ⟨⟨h1, _⟩, h2⟩
      exact ⟨(), checkConst?_ok.mpr h1, ok_iff.mpr h2⟩
  | inr l =>
    dsimp only
    rw [hc]
    have key := fun s => forItems_capped addGlobal l s a' (fun _ => nothing) Simple addGlobal_ok
    simp only [sumOf_nothing, plus_nothing] at key
    constructor
    · rintro ⟨_, h1, h2⟩
      obtain ⟨h3, h4⟩ := (key _).mp h2
      refine ⟨⟨checkConst?_ok.mp h1, fun l' hl => ?_⟩, h4⟩
      injection hl with hl
      rw [← hl]; exact h3
    · rintro ⟨⟨h1, h3⟩, h2⟩
      exact ⟨(), checkConst?_ok.mpr h1, (key _).mpr ⟨h3 l rfl, h2⟩⟩

theorem addData_ok (t : Acc) (x : Data) (a' : Acc) :
    addData (capped t) x = .ok a' ↔ (x.len ≤ u32Max ∧ ∀ o, x.offset = some o → Simple o) ∧
      a' = capped (plus t { nothing with costs.nDataSegmentBytes := x.len }) := by
  unfold addData
  by_cases h1 : x.len > u32Max
  · rw [if_pos h1]; exact ⟨(fun h => nomatch h), fun h => absurd h.1.1 (Nat.not_le.mpr h1)⟩
  · rw [if_neg h1, then_ok checkConst?_ok, capped_plus]
    simp only [nothing, capped, satAdd_zero]
    exact ⟨fun h => ⟨⟨Nat.not_lt.mp h1, h.1⟩, h.2⟩, fun h => ⟨h.1.2, h.2⟩⟩

theorem sumOf_length {α : Type} (one f : α → Acc) (l : List (Option α)) (P : α → Prop) (all : All P l) (k : Nat → Acc)
    (h0 : k 0 = nothing) (hk : ∀ n a s, plus (one a) (plus (k n) s) = plus (k (n + 1)) (plus (f a) s)) :
    sumOf one (l.filterMap id) = plus (k l.length) (sumOf f (l.filterMap id)) := by
  induction l with
  | nil => show nothing = plus (k 0) nothing; rw [h0, plus_nothing]
  | cons x xs ih =>
    obtain ⟨a, rfl, _⟩ := all x (List.mem_cons_self ..)
    show plus (one a) (sumOf one (xs.filterMap id)) = plus (k (xs.length + 1)) (plus (f a) (sumOf f (xs.filterMap id)))
    rw [ih (fun y hy => all y (List.mem_cons_of_mem _ hy)), hk]

theorem addSection_ok (t : Acc) (x : Payload) (a' : Acc) :
    addSection (capped t) x = .ok a' ↔ Allowed x ∧ a' = capped (plus t (contents x)) := by
  cases x with
  | ignored =>
    show (.ok (capped t) : Res Acc) = _ ↔ True ∧ a' = capped (plus t nothing)
    rw [plus_nothing, ok_iff]; simp
  | unsupported => exact ⟨(fun h => nomatch h), fun h => h.1.elim⟩
  | memories l => exact forItems_capped addMemory l t a' _ _ addMemory_ok
  | types n =>
    show (.ok _ : Res Acc) = _ ↔ True ∧ _
    rw [ok_iff, true_and, capped_plus]
    simp only [contents, nothing, capped, satAdd_zero]
  | imports n =>
    show (.ok _ : Res Acc) = _ ↔ True ∧ _
    rw [ok_iff, true_and, capped_plus]
    simp only [contents, nothing, capped, satAdd_zero]
  | functions n =>
    show (.ok _ : Res Acc) = _ ↔ True ∧ _
    rw [ok_iff, true_and, capped_plus]
    simp only [contents, nothing, capped, satAdd_zero]
  | tables l => exact forItems_capped addTable l t a' _ _ addTable_ok
  | globals l =>
    have e : addSection (capped t) (.globals l) = forItems addGlobal l (capped (plus t { nothing with costs.nGlobals := l.length })) := by
      rw [capped_plus]
      simp only [addSection, nothing, capped, satAdd_zero]
    rw [e, forItems_capped addGlobal l _ a' (fun _ => nothing) Simple addGlobal_ok, sumOf_nothing, plus_nothing]
    rfl
  | exports n =>
    show (.ok _ : Res Acc) = _ ↔ True ∧ _
    rw [ok_iff, true_and, capped_plus]
    simp only [contents, nothing, capped, satAdd_zero]
  | elems l =>
    have e : addSection (capped t) (.elems l) =
        forItems addElem l (capped (plus t { nothing with costs.nElemSegments := l.length })) := by
      rw [capped_plus]
      simp only [addSection, nothing, capped, satAdd_zero]
    rw [e, forItems_capped addElem l _ a' _ _ addElem_ok]
    refine and_congr_right fun hall => ?_
    rw [plus_assoc]
    show _ ↔ a' = capped (plus t (sumOf _ _))
    rw [sumOf_length (fun e => { nothing with costs.nElemSegments := 1, elements := itemsOf e }) (fun e => { nothing with elements := itemsOf e }) l _ hall
      (fun n => { nothing with costs.nElemSegments := n }) rfl (fun n a s => by
        simp only [plus, nothing, Nat.zero_add]; congr 2; omega)]
  | datas l =>
    have e : addSection (capped t) (.datas l) =
        forItems addData l (capped (plus t { nothing with costs.nDataSegments := l.length })) := by
      rw [capped_plus]
      simp only [addSection, nothing, capped, satAdd_zero]
    rw [e, forItems_capped addData l _ a' _ _ addData_ok]
    refine and_congr_right fun hall => ?_
    rw [plus_assoc]
    show _ ↔ a' = capped (plus t (sumOf _ _))
    rw [sumOf_length (fun d => { nothing with costs.nDataSegments := 1, costs.nDataSegmentBytes := d.len }) (fun d => { nothing with costs.nDataSegmentBytes := d.len }) l _ hall
      (fun n => { nothing with costs.nDataSegments := n }) rfl (fun n a s => by
        simp only [plus, nothing, Nat.zero_add]; congr 2; omega)]
  | code ops =>
    cases ops with
    | none => exact ⟨(fun h => nomatch h), fun h => absurd rfl h.1⟩
    | some n =>
      show (.ok _ : Res Acc) = _ ↔ _
      rw [ok_iff, capped_plus]
      simp only [contents, nothing, capped, satAdd_zero, Allowed]
      simp

end Soroban.Wasm
