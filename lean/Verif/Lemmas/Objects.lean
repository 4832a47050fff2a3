import Verif.Spec.Objects
import Verif.Lemmas.Val
import Verif.Props.Val
/-! Lemmas about handles, the object table and host calls. -/
namespace Soroban
open Spec

theorem bind_ok {α β : Type} {x : Res α} {f : α → Res β} {y : β} :
    (x >>= f) = .ok y ↔ ∃ a, x = .ok a ∧ f a = .ok y := by
  cases x <;> simp [bind, Except.bind]

theorem isObject_iff (v : Nat) : Val.isObject v = true ↔ 64 ≤ v % 256 ∧ v % 256 ≤ 79 := by
  unfold Val.isObject
  rw [tagU8_eq]
  have : Tag.u8IsObject (v % 256) = (decide (63 < v % 256) && decide (v % 256 < 80)) := rfl
  rw [this, Bool.and_eq_true, decide_eq_true_eq, decide_eq_true_eq]
  constructor <;> intro h <;> omega

theorem valObject_eq {h : Nat} (t : Tag) (hh : h < 2^32) : valObject h t = h * 2^32 + t.code := by
  unfold valObject
  rw [fromMajorMinorAndTag_eq t hh (by omega)]
  omega

theorem objHandle_valObject {h : Nat} (t : Tag) (hh : h < 2^32) : objHandle (valObject h t) = h := by
  unfold objHandle
  rw [valObject_eq t hh, major_eq]
  have := Tag.code_lt t
  omega

theorem tag_valObject {h : Nat} {t : Tag} (hh : h < 2^32) (ht : Tag.u8IsObject t.code = true) :
    Val.tag (valObject h t) = t := by
  unfold Val.tag
  rw [tagU8_eq, valObject_eq t hh]
  have h1 := Tag.code_lt t
  have : (h * 2^32 + t.code) % 256 = t.code := by omega
  rw [this]
  exact fromU8_code t (by rintro rfl; simp [Tag.u8IsObject, Tag.code] at ht)
    (by rintro rfl; simp [Tag.u8IsObject, Tag.code] at ht) (by rintro rfl; simp [Tag.u8IsObject, Tag.code] at ht)

theorem isObject_valObject {h : Nat} {t : Tag} (hh : h < 2^32) (ht : Tag.u8IsObject t.code = true) :
    Val.isObject (valObject h t) = true := by
  unfold Val.isObject
  rw [tagU8_eq, valObject_eq t hh]
  have h1 := Tag.code_lt t
  have : (h * 2^32 + t.code) % 256 = t.code := by omega
  rw [this]
  exact ht

theorem objTag_isObject (o : HostObj) : Tag.u8IsObject o.tag.code = true := by
  cases o <;> simp [HostObj.tag, Tag.u8IsObject, Tag.code]

theorem u8IsObject_tag {v : Nat} (h : Val.isObject v = true) : Tag.u8IsObject (Val.tag v).code = true := by
  have h' := (isObject_iff v).mp h
  unfold Val.tag
  rw [tagU8_eq]
  have := (code_fromU8 ⟨v % 256, by omega⟩).1 (Or.inr ⟨by simp; omega, by simp; omega⟩)
  simp only at this
  rw [this]
  unfold Val.isObject at h
  rwa [tagU8_eq] at h

theorem isRelative_iff (h : Nat) : isRelative h = true ↔ h % 2 = 0 := by
  unfold isRelative
  rw [Nat.and_one_is_mod]
  simp

theorem handleToIndex_eq (h : Nat) : handleToIndex h = h / 2 := by
  unfold handleToIndex
  rw [Nat.shiftRight_eq_div_pow]

theorem indexToHandle_rel {i : Nat} (h : i < 2^31) : indexToHandle i true = .ok (2 * i) := by
  unfold indexToHandle
  rw [if_pos (by unfold u32Max; omega)]
  simp only [if_true, Except.ok.injEq]
  rw [Nat.shiftLeft_eq]
  omega

theorem indexToHandle_abs {i : Nat} (h : i < 2^31) : indexToHandle i false = .ok (2 * i + 1) := by
  unfold indexToHandle
  rw [if_pos (by unfold u32Max; omega)]
  simp only [Bool.false_eq_true, if_false, Except.ok.injEq]
  rw [Nat.shiftLeft_eq]
  have : i * 2^1 % 2^32 = 2 * i := by omega
  rw [this, or_eq_add (k := 1) (by omega) (by omega)]

theorem visitObj_append {objs extra : List HostObj} {v : Nat} {o : HostObj} (h : visitObj objs v = .ok o) :
    visitObj (objs ++ extra) v = .ok o := by
  unfold visitObj at *
  split at h
  · cases h
  rename_i hob
  rw [if_neg hob]
  split at h
  · cases h
  · rename_i hr
    rw [if_neg hr]
    cases hg : objs[handleToIndex (objHandle v)]? with
    | none => rw [hg] at h; cases h
    | some x =>
      rw [hg] at h
      have hi := (List.getElem?_eq_some_iff.mp hg).1
      rw [List.getElem?_append_left hi, hg]
      exact h

theorem visitObj_ok {objs : List HostObj} {v : Nat} {o : HostObj} : visitObj objs v = .ok o ↔
    Val.isObject v = true ∧ objHandle v % 2 = 1 ∧ objs[handleToIndex (objHandle v)]? = some o := by
  unfold visitObj
  constructor
  · intro h
    split at h
    · cases h
    · rename_i h1
      split at h
      · cases h
      · rename_i h2
        split at h
        · rename_i o' h3
          cases h
          rw [isRelative_iff] at h2
          exact ⟨by simpa using h1, by omega, h3⟩
        · cases h
  · rintro ⟨h1, h2, h3⟩
    rw [h1]
    simp only [Bool.not_true, Bool.false_eq_true, if_false]
    rw [if_neg (by rw [isRelative_iff]; omega), h3]

theorem addObj_eq {objs objs' : List HostObj} {o : HostObj} {v : Nat} (h : addObj objs o = .ok (objs', v)) :
    objs' = objs ++ [o] := by
  unfold addObj at h
  split at h <;> cases h
  rfl

theorem addObj_visit {objs objs' : List HostObj} {o : HostObj} {v : Nat} (hl : objs.length < 2^31)
    (h : addObj objs o = .ok (objs', v)) :
    visitObj objs' v = .ok o ∧ handleToIndex (objHandle v) = objs.length ∧ Val.tag v = o.tag := by
  unfold addObj at h
  rw [indexToHandle_abs hl] at h
  cases h
  have hh : 2 * objs.length + 1 < 2^32 := by omega
  refine ⟨?_, ?_, tag_valObject hh (objTag_isObject o)⟩
  · unfold visitObj
    rw [isObject_valObject hh (objTag_isObject o), objHandle_valObject _ hh]
    simp only [Bool.not_true, Bool.false_eq_true, if_false]
    have : ¬ isRelative (2 * objs.length + 1) = true := by rw [isRelative_iff]; omega
    rw [if_neg this, handleToIndex_eq, show (2 * objs.length + 1) / 2 = objs.length from by omega]
    simp
  · rw [objHandle_valObject _ hh, handleToIndex_eq]
    omega

/-! ### what the host functions put into new containers -/

section
variable {cmp : Nat → Nat → Res Ordering}

theorem fromExactIter_ok {m m' : List (Nat × Nat)} (h : fromExactIter cmp m = .ok m') : m' = m := by
  unfold fromExactIter fromMap at h
  split at h
  · cases h
  · split at h
    · cases h
    · cases h
      rfl

theorem mapPut_sub {m m' : List (Nat × Nat)} {k v : Nat} (h : mapPut cmp m k v = .ok m') :
    ∀ p ∈ m', p = (k, v) ∨ p ∈ m := by
  unfold mapPut insert at h
  intro p hp
  split at h
  · cases h
  · have := fromExactIter_ok h
    subst this
    simp only [List.append_assoc, List.mem_append, List.mem_singleton] at hp
    rcases hp with hp | hp | hp
    · exact Or.inr (List.mem_of_mem_take hp)
    · exact Or.inl hp
    · exact Or.inr (List.mem_of_mem_drop hp)
  · split at h
    · cases h
    · have := fromExactIter_ok h
      subst this
      simp only [List.append_assoc, List.mem_append, List.mem_singleton] at hp
      rcases hp with hp | hp | hp
      · exact Or.inr (List.mem_of_mem_take hp)
      · exact Or.inl hp
      · exact Or.inr (List.mem_of_mem_drop hp)

theorem mapDel_sub {m m' : List (Nat × Nat)} {k : Nat} (h : mapDel cmp m k = .ok m') : ∀ p ∈ m', p ∈ m := by
  unfold mapDel at h
  intro p hp
  split at h
  · cases h
  · rename_i r hr
    cases h
    unfold remove at hr
    split at hr
    · cases hr
    · cases hr
    · simp only [] at hr
      split at hr
      · cases hr
      · rename_i new hn
        have := fromExactIter_ok hn
        subst this
        split at hr <;> cases hr
        split at hp
        · rcases List.mem_append.mp hp with hp | hp
          · exact List.mem_of_mem_take hp
          · exact List.mem_of_mem_drop hp
        · exact List.mem_of_mem_drop hp
  · cases h

theorem mapGet_sub {m : List (Nat × Nat)} {k v : Nat} (h : mapGet cmp m k = .ok v) : ∃ p ∈ m, p.2 = v := by
  unfold mapGet at h
  split at h
  · cases h
  · rename_i v' hg
    cases h
    unfold get at hg
    split at hg
    · cases hg
    · split at hg
      · rename_i p hp
        cases hg
        exact ⟨p, List.mem_of_getElem? hp, rfl⟩
      · cases hg
    · cases hg
  · cases h

end

theorem vecFromIter_eq {α : Type} {v w : List α} (h : vecFromIter v = .ok w) : w = v := by
  unfold vecFromIter at h
  split at h <;> cases h
  rfl

section
variable {v w : List Nat} {i x s e : Nat}

theorem vecPut_sub (h : vecPut v i x = .ok w) : ∀ y ∈ w, y = x ∨ y ∈ v := by
  unfold vecPut vSet at h
  obtain ⟨_, _, h⟩ := bind_ok.mp h
  split at h <;> cases h
  intro y hy
  exact (List.mem_or_eq_of_mem_set hy).symm

theorem vecDel_sub (h : vecDel v i = .ok w) : ∀ y ∈ w, y ∈ v := by
  unfold vecDel vRemove at h
  obtain ⟨_, _, h⟩ := bind_ok.mp h
  split at h
  · cases h
  · split at h
    · cases h
    · have := vecFromIter_eq h
      subst this
      intro y hy
      rcases List.mem_append.mp hy with hy | hy
      · exact List.mem_of_mem_take hy
      · exact List.mem_of_mem_drop hy

theorem vPushFront_sub (h : vPushFront v x = .ok w) : ∀ y ∈ w, y = x ∨ y ∈ v := by
  unfold vPushFront at h
  split at h
  · cases h
  · have := vecFromIter_eq h
    subst this
    intro y hy
    simpa using hy

theorem vPushBack_sub (h : vPushBack v x = .ok w) : ∀ y ∈ w, y = x ∨ y ∈ v := by
  unfold vPushBack at h
  split at h
  · cases h
  · have := vecFromIter_eq h
    subst this
    intro y hy
    simpa [or_comm] using hy

theorem vPopFront_sub (h : vPopFront v = .ok w) : ∀ y ∈ w, y ∈ v := by
  unfold vPopFront at h
  split at h
  · cases h
  · have := vecFromIter_eq h
    subst this
    intro y hy
    exact List.mem_of_mem_drop hy

theorem vPopBack_sub (h : vPopBack v = .ok w) : ∀ y ∈ w, y ∈ v := by
  unfold vPopBack at h
  split at h
  · cases h
  · have := vecFromIter_eq h
    subst this
    intro y hy
    exact List.mem_of_mem_take hy

theorem vecInsert_sub (h : vecInsert v i x = .ok w) : ∀ y ∈ w, y = x ∨ y ∈ v := by
  unfold vecInsert vInsert at h
  obtain ⟨_, _, h⟩ := bind_ok.mp h
  split at h
  · cases h
  · split at h
    · cases h
    · split at h
      · exact vPushBack_sub h
      · split at h
        · exact vPushFront_sub h
        · have := vecFromIter_eq h
          subst this
          intro y hy
          simp only [List.append_assoc, List.mem_append, List.mem_singleton] at hy
          rcases hy with hy | hy | hy
          · exact Or.inr (List.mem_of_mem_take hy)
          · exact Or.inl hy
          · exact Or.inr (List.mem_of_mem_drop hy)

theorem vecAppend_sub {a b : List Nat} (h : vecAppend a b = .ok w) : ∀ y ∈ w, y ∈ a ∨ y ∈ b := by
  unfold vecAppend vAppend at h
  split at h
  · cases h
  · split at h
    · cases h
    · have := vecFromIter_eq h
      subst this
      intro y hy
      exact List.mem_append.mp hy

theorem vecSlice_sub (h : vecSlice v s e = .ok w) : ∀ y ∈ w, y ∈ v := by
  unfold vecSlice vSlice at h
  obtain ⟨_, _, h⟩ := bind_ok.mp h
  split at h
  · cases h
  · have := vecFromIter_eq h
    subst this
    intro y hy
    exact List.mem_of_mem_take (List.mem_of_mem_drop hy)

theorem vecGet_sub {y : Nat} (h : vecGet v i = .ok y) : y ∈ v := by
  unfold vecGet vGet at h
  obtain ⟨_, _, h⟩ := bind_ok.mp h
  split at h
  · rename_i z hz
    cases h
    exact List.mem_of_getElem? hz
  · cases h

theorem vFront_sub {y : Nat} (h : vFront v = .ok y) : y ∈ v := by
  unfold vFront at h
  split at h
  · rename_i z hz
    cases h
    exact List.mem_of_head? hz
  · cases h

theorem vBack_sub {y : Nat} (h : vBack v = .ok y) : y ∈ v := by
  unfold vBack at h
  split at h
  · rename_i z hz
    cases h
    exact List.mem_of_getLast? hz
  · cases h

end

theorem mapByPos_sub {m : List (Nat × Nat)} {i k : Nat} (h : mapKeyByPos m i = .ok k) : ∃ p ∈ m, p.1 = k := by
  unfold mapKeyByPos getAtIndex at h
  split at h
  · rename_i p hp
    simp only [Except.map, Except.ok.injEq] at h
    exact ⟨p, List.mem_of_getElem? hp, h⟩
  · simp [Except.map] at h

theorem mapValByPos_sub {m : List (Nat × Nat)} {i k : Nat} (h : mapValByPos m i = .ok k) : ∃ p ∈ m, p.2 = k := by
  unfold mapValByPos getAtIndex at h
  split at h
  · rename_i p hp
    simp only [Except.map, Except.ok.injEq] at h
    exact ⟨p, List.mem_of_getElem? hp, h⟩
  · simp [Except.map] at h

theorem visitMap_ok {objs : List HostObj} {v : Nat} {m : List (Nat × Nat)} :
    visitMap objs v = .ok m ↔ visitObj objs v = .ok (.map m) := by
  unfold visitMap
  constructor
  · intro h
    split at h
    · cases h
    · rename_i h'; cases h; exact h'
    · cases h
  · intro h; rw [h]

theorem visitVec_ok {objs : List HostObj} {v : Nat} {l : List Nat} :
    visitVec objs v = .ok l ↔ visitObj objs v = .ok (.vec l) := by
  unfold visitVec
  constructor
  · intro h
    split at h
    · cases h
    · rename_i h'; cases h; exact h'
    · cases h
  · intro h; rw [h]

/-- `w` sits directly inside one of the objects given as arguments. -/
def ElemOfArg (objs : List HostObj) (as : List Nat) (w : Nat) : Prop :=
  ∃ c ∈ as, ∃ o, visitObj objs c = .ok o ∧ w ∈ elems o

theorem elem_map_fst {m : List (Nat × Nat)} {p : Nat × Nat} (h : p ∈ m) : p.1 ∈ elems (.map m) := by
  simp only [elems, List.mem_append, List.mem_map]
  exact Or.inl ⟨p, h, rfl⟩

theorem elem_map_snd {m : List (Nat × Nat)} {p : Nat × Nat} (h : p ∈ m) : p.2 ∈ elems (.map m) := by
  simp only [elems, List.mem_append, List.mem_map]
  exact Or.inr ⟨p, h, rfl⟩

theorem notObject_valU32 (n : Nat) : Val.isObject (valU32 n) = false := by
  unfold valU32 Val.fromMajorMinorAndTag
  rw [fromBodyAndTag_eq]
  apply Bool.eq_false_iff.mpr
  rw [Ne, isObject_iff]
  simp [Tag.code]

theorem notObject_valBool (b : Bool) : Val.isObject (valBool b) = false := by cases b <;> decide

theorem notObject_void : Val.isObject valVoid = false := by decide

/-- The three ways a host function returns. -/
inductive RunResult (objs : List HostObj) (as : List Nat) (objs' : List HostObj) : Ret → Prop
  | raw (n : Int) : objs' = objs → RunResult objs as objs' (.raw n)
  | val (v : Nat) : objs' = objs → Val.isObject v = false ∨ ElemOfArg objs as v → RunResult objs as objs' (.val v)
  | obj (o : HostObj) (v : Nat) : addObj objs o = .ok (objs', v) → (∀ w ∈ elems o, w ∈ as ∨ ElemOfArg objs as w) →
      RunResult objs as objs' (.val v)

theorem retObj_result {objs objs' : List HostObj} {as : List Nat} {x : Res HostObj} {r : Ret}
    (hx : ∀ o, x = .ok o → ∀ w ∈ elems o, w ∈ as ∨ ElemOfArg objs as w)
    (h : retObj objs x = .ok (objs', r)) : RunResult objs as objs' r := by
  unfold retObj at h
  obtain ⟨o, ho, h⟩ := bind_ok.mp h
  obtain ⟨⟨objs'', v⟩, ha, h⟩ := bind_ok.mp h
  cases h
  exact .obj o v ha (hx o ho)

theorem retVal_result {objs objs' : List HostObj} {as : List Nat} {x : Res Nat} {r : Ret}
    (hx : ∀ v, x = .ok v → Val.isObject v = false ∨ ElemOfArg objs as v)
    (h : retVal objs x = .ok (objs', r)) : RunResult objs as objs' r := by
  unfold retVal at h
  obtain ⟨v, hv, h⟩ := bind_ok.mp h
  cases h
  exact .val v rfl (hx v hv)

theorem runFn_result {cmp : List HostObj → Nat → Nat → Res Ordering} {objs objs' : List HostObj} {f : Fn}
    {as : List Nat} {r : Ret} (h : runFn cmp objs f as = .ok (objs', r)) : RunResult objs as objs' r := by
  unfold runFn at h
  split at h
  case h_1 a b =>
    split at h
    · cases h
    · obtain ⟨o, _, h⟩ := bind_ok.mp h
      cases h
      exact .raw _ rfl
  case h_2 => exact retObj_result (by intro o ho; cases ho; simp [elems, mapNew]) h
  case h_3 m k v =>
    refine retObj_result ?_ h
    intro o ho w hw
    obtain ⟨hm, h1, ho⟩ := bind_ok.mp ho
    obtain ⟨r, h2, ho⟩ := bind_ok.mp ho
    cases ho
    rw [visitMap_ok] at h1
    have hsub := mapPut_sub h2
    simp only [elems, List.mem_append, List.mem_map] at hw
    rcases hw with ⟨p, hp, rfl⟩ | ⟨p, hp, rfl⟩
    · rcases hsub p hp with rfl | hp
      · left; simp
      · exact Or.inr ⟨m, by simp, _, h1, elem_map_fst hp⟩
    · rcases hsub p hp with rfl | hp
      · left; simp
      · exact Or.inr ⟨m, by simp, _, h1, elem_map_snd hp⟩
  case h_4 m k =>
    refine retVal_result ?_ h
    intro v hv
    obtain ⟨hm, h1, hv⟩ := bind_ok.mp hv
    rw [visitMap_ok] at h1
    obtain ⟨p, hp, rfl⟩ := mapGet_sub hv
    exact Or.inr ⟨m, by simp, _, h1, elem_map_snd hp⟩
  case h_5 m k =>
    refine retObj_result ?_ h
    intro o ho w hw
    obtain ⟨hm, h1, ho⟩ := bind_ok.mp ho
    obtain ⟨r, h2, ho⟩ := bind_ok.mp ho
    cases ho
    rw [visitMap_ok] at h1
    have hsub := mapDel_sub h2
    simp only [elems, List.mem_append, List.mem_map] at hw
    rcases hw with ⟨p, hp, rfl⟩ | ⟨p, hp, rfl⟩
    · exact Or.inr ⟨m, by simp, _, h1, elem_map_fst (hsub p hp)⟩
    · exact Or.inr ⟨m, by simp, _, h1, elem_map_snd (hsub p hp)⟩
  case h_6 m =>
    refine retVal_result ?_ h
    intro v hv
    obtain ⟨hm, h1, hv⟩ := bind_ok.mp hv
    obtain ⟨n, _, hv⟩ := bind_ok.mp hv
    cases hv
    exact Or.inl (notObject_valU32 n)
  case h_7 m k =>
    refine retVal_result ?_ h
    intro v hv
    obtain ⟨hm, h1, hv⟩ := bind_ok.mp hv
    obtain ⟨n, _, hv⟩ := bind_ok.mp hv
    cases hv
    exact Or.inl (notObject_valBool n)
  case h_8 m i =>
    refine retVal_result ?_ h
    intro v hv
    obtain ⟨hm, h1, hv⟩ := bind_ok.mp hv
    rw [visitMap_ok] at h1
    obtain ⟨p, hp, rfl⟩ := mapByPos_sub hv
    exact Or.inr ⟨m, by simp, _, h1, elem_map_fst hp⟩
  case h_9 m i =>
    refine retVal_result ?_ h
    intro v hv
    obtain ⟨hm, h1, hv⟩ := bind_ok.mp hv
    rw [visitMap_ok] at h1
    obtain ⟨p, hp, rfl⟩ := mapValByPos_sub hv
    exact Or.inr ⟨m, by simp, _, h1, elem_map_snd hp⟩
  case h_10 m =>
    refine retObj_result ?_ h
    intro o ho w hw
    obtain ⟨hm, h1, ho⟩ := bind_ok.mp ho
    obtain ⟨r, h2, ho⟩ := bind_ok.mp ho
    cases ho
    rw [visitMap_ok] at h1
    have := vecFromIter_eq h2
    subst this
    obtain ⟨p, hp, rfl⟩ := List.mem_map.mp hw
    exact Or.inr ⟨m, by simp, _, h1, elem_map_fst hp⟩
  case h_11 m =>
    refine retObj_result ?_ h
    intro o ho w hw
    obtain ⟨hm, h1, ho⟩ := bind_ok.mp ho
    obtain ⟨r, h2, ho⟩ := bind_ok.mp ho
    cases ho
    rw [visitMap_ok] at h1
    have := vecFromIter_eq h2
    subst this
    obtain ⟨p, hp, rfl⟩ := List.mem_map.mp hw
    exact Or.inr ⟨m, by simp, _, h1, elem_map_snd hp⟩
  case h_12 => exact retObj_result (by intro o ho; cases ho; simp [elems]) h
  case h_13 v i x =>
    refine retObj_result ?_ h
    intro o ho w hw
    obtain ⟨hv, h1, ho⟩ := bind_ok.mp ho
    obtain ⟨r, h2, ho⟩ := bind_ok.mp ho
    cases ho
    rw [visitVec_ok] at h1
    rcases vecPut_sub h2 w hw with rfl | hw
    · left; simp
    · exact Or.inr ⟨v, by simp, _, h1, hw⟩
  case h_14 v i =>
    refine retVal_result ?_ h
    intro y hy
    obtain ⟨hv, h1, hy⟩ := bind_ok.mp hy
    rw [visitVec_ok] at h1
    exact Or.inr ⟨v, by simp, _, h1, vecGet_sub hy⟩
  case h_15 v i =>
    refine retObj_result ?_ h
    intro o ho w hw
    obtain ⟨hv, h1, ho⟩ := bind_ok.mp ho
    obtain ⟨r, h2, ho⟩ := bind_ok.mp ho
    cases ho
    rw [visitVec_ok] at h1
    exact Or.inr ⟨v, by simp, _, h1, vecDel_sub h2 w hw⟩
  case h_16 v =>
    refine retVal_result ?_ h
    intro y hy
    obtain ⟨hv, h1, hy⟩ := bind_ok.mp hy
    obtain ⟨n, _, hy⟩ := bind_ok.mp hy
    cases hy
    exact Or.inl (notObject_valU32 n)
  case h_17 v x =>
    refine retObj_result ?_ h
    intro o ho w hw
    obtain ⟨hv, h1, ho⟩ := bind_ok.mp ho
    obtain ⟨r, h2, ho⟩ := bind_ok.mp ho
    cases ho
    rw [visitVec_ok] at h1
    rcases vPushFront_sub h2 w hw with rfl | hw
    · left; simp
    · exact Or.inr ⟨v, by simp, _, h1, hw⟩
  case h_18 v =>
    refine retObj_result ?_ h
    intro o ho w hw
    obtain ⟨hv, h1, ho⟩ := bind_ok.mp ho
    obtain ⟨r, h2, ho⟩ := bind_ok.mp ho
    cases ho
    rw [visitVec_ok] at h1
    exact Or.inr ⟨v, by simp, _, h1, vPopFront_sub h2 w hw⟩
  case h_19 v x =>
    refine retObj_result ?_ h
    intro o ho w hw
    obtain ⟨hv, h1, ho⟩ := bind_ok.mp ho
    obtain ⟨r, h2, ho⟩ := bind_ok.mp ho
    cases ho
    rw [visitVec_ok] at h1
    rcases vPushBack_sub h2 w hw with rfl | hw
    · left; simp
    · exact Or.inr ⟨v, by simp, _, h1, hw⟩
  case h_20 v =>
    refine retObj_result ?_ h
    intro o ho w hw
    obtain ⟨hv, h1, ho⟩ := bind_ok.mp ho
    obtain ⟨r, h2, ho⟩ := bind_ok.mp ho
    cases ho
    rw [visitVec_ok] at h1
    exact Or.inr ⟨v, by simp, _, h1, vPopBack_sub h2 w hw⟩
  case h_21 v =>
    refine retVal_result ?_ h
    intro y hy
    obtain ⟨hv, h1, hy⟩ := bind_ok.mp hy
    rw [visitVec_ok] at h1
    exact Or.inr ⟨v, by simp, _, h1, vFront_sub hy⟩
  case h_22 v =>
    refine retVal_result ?_ h
    intro y hy
    obtain ⟨hv, h1, hy⟩ := bind_ok.mp hy
    rw [visitVec_ok] at h1
    exact Or.inr ⟨v, by simp, _, h1, vBack_sub hy⟩
  case h_23 v i x =>
    refine retObj_result ?_ h
    intro o ho w hw
    obtain ⟨hv, h1, ho⟩ := bind_ok.mp ho
    obtain ⟨r, h2, ho⟩ := bind_ok.mp ho
    cases ho
    rw [visitVec_ok] at h1
    rcases vecInsert_sub h2 w hw with rfl | hw
    · left; simp
    · exact Or.inr ⟨v, by simp, _, h1, hw⟩
  case h_24 a b =>
    refine retObj_result ?_ h
    intro o ho w hw
    obtain ⟨ha, h1, ho⟩ := bind_ok.mp ho
    obtain ⟨hb, h1', ho⟩ := bind_ok.mp ho
    obtain ⟨r, h2, ho⟩ := bind_ok.mp ho
    cases ho
    rw [visitVec_ok] at h1 h1'
    rcases vecAppend_sub h2 w hw with hw | hw
    · exact Or.inr ⟨a, by simp, _, h1, hw⟩
    · exact Or.inr ⟨b, by simp, _, h1', hw⟩
  case h_25 v s e =>
    refine retObj_result ?_ h
    intro o ho w hw
    obtain ⟨hv, h1, ho⟩ := bind_ok.mp ho
    obtain ⟨r, h2, ho⟩ := bind_ok.mp ho
    cases ho
    rw [visitVec_ok] at h1
    exact Or.inr ⟨v, by simp, _, h1, vecSlice_sub h2 w hw⟩
  case h_26 v x =>
    refine retVal_result ?_ h
    intro y hy
    obtain ⟨hv, h1, hy⟩ := bind_ok.mp hy
    obtain ⟨n, _, hy⟩ := bind_ok.mp hy
    cases hy
    left
    cases n
    · exact notObject_void
    · exact notObject_valU32 _
  case h_27 v x =>
    refine retVal_result ?_ h
    intro y hy
    obtain ⟨hv, h1, hy⟩ := bind_ok.mp hy
    obtain ⟨n, _, hy⟩ := bind_ok.mp hy
    cases hy
    left
    cases n
    · exact notObject_void
    · exact notObject_valU32 _
  case h_28 v x =>
    obtain ⟨hv, h1, h⟩ := bind_ok.mp h
    obtain ⟨r, _, h⟩ := bind_ok.mp h
    cases h
    exact .raw _ rfl
  case h_29 => cases h

end Soroban
