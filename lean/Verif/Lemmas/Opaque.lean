import Verif.Spec.Diagnostics
import Verif.Lemmas.Natural
import Verif.Props.Objects
import Mathlib.Data.List.Forall2
/-!
Two hosts whose objects are paired: what a contract sees does not depend on where its objects are in the table.
-/
namespace Soroban.Diagnostics
open Soroban.Spec List

/-! ### results side by side -/

/-- Two results agree: equal errors, or values in a relation. -/
def RR {α β : Type} (R : α → β → Prop) : Res α → Res β → Prop
  | .ok a, .ok b => R a b
  | .error e, .error e' => e = e'
  | _, _ => False

theorem RR.bind {α β γ δ : Type} {R : α → β → Prop} {S : γ → δ → Prop} {x : Res α} {y : Res β} {f : α → Res γ} {g : β → Res δ}
    (h : RR R x y) (hf : ∀ a b, R a b → RR S (f a) (g b)) : RR S (x >>= f) (y >>= g) := by
  cases x <;> cases y
  · exact h
  · exact h.elim
  · exact h.elim
  · exact hf _ _ h

theorem RR.mono {α β : Type} {R S : α → β → Prop} {x : Res α} {y : Res β} (h : RR R x y) (hf : ∀ a b, R a b → S a b) :
    RR S x y := by
  cases x <;> cases y
  · exact h
  · exact h.elim
  · exact h.elim
  · exact hf _ _ h

theorem RR.of_eq {α : Type} {R : α → α → Prop} {x y : Res α} (h : x = y) (hf : ∀ a, R a a) : RR R x y := by
  subst h
  cases x
  · exact rfl
  · exact hf _

theorem RR.nat {α β γ : Type} {R : α → β → Prop} {x : Res α} {y : Res β} {X : Res γ} {f : γ → α} {g : γ → β}
    (hx : x = X.map f) (hy : y = X.map g) (hf : ∀ c, R (f c) (g c)) : RR R x y := by
  subst hx hy
  cases X
  · exact rfl
  · exact hf _

theorem RR.eq {α : Type} {x y : Res α} (h : RR Eq x y) : x = y := by
  cases x <;> cases y
  · exact congrArg _ h
  · exact h.elim
  · exact h.elim
  · exact congrArg _ h

/-! ### paired words and objects -/

/-- Words that mean the same under a pairing of the indices of objects. -/
def W (P : Nat → Nat → Prop) (v v' : Nat) : Prop :=
  (Val.isObject v = false ∧ v' = v) ∨
    ∃ i j t, P i j ∧ Tag.u8IsObject t.code = true ∧ v = valObject (2 * i + 1) t ∧ v' = valObject (2 * j + 1) t

/-- Objects with paired contents. -/
inductive O (P : Nat → Nat → Prop) : HostObj → HostObj → Prop
  | vec {l l' : List Nat} : Forall₂ (W P) l l' → O P (.vec l) (.vec l')
  | map {m m' : List (Nat × Nat)} : Forall₂ (fun p q => W P p.1 q.1 ∧ W P p.2 q.2) m m' → O P (.map m) (.map m')
  | same {o : HostObj} : (∀ l, o ≠ .vec l) → (∀ m, o ≠ .map m) → O P o o

/-- Two tables of objects are paired. -/
structure Inv (P : Nat → Nat → Prop) (objs objs' : List HostObj) : Prop where
  obj : ∀ {i j}, P i j → ∃ o o', objs[i]? = some o ∧ objs'[j]? = some o' ∧ O P o o'
  fn : ∀ {i j j'}, P i j → P i j' → j = j'
  inj : ∀ {i i' j}, P i j → P i' j → i = i'

theorem W.mono {P Q : Nat → Nat → Prop} (h : ∀ i j, P i j → Q i j) {v v' : Nat} (hw : W P v v') : W Q v v' := by
  rcases hw with hw | ⟨i, j, t, hp, hw⟩
  · exact .inl hw
  · exact .inr ⟨i, j, t, h _ _ hp, hw⟩

theorem O.mono {P Q : Nat → Nat → Prop} (h : ∀ i j, P i j → Q i j) {o o' : HostObj} (ho : O P o o') : O Q o o' := by
  cases ho with
  | vec hl => exact .vec (hl.imp fun _ _ => W.mono h)
  | map hl => exact .map (hl.imp fun _ _ hw => ⟨hw.1.mono h, hw.2.mono h⟩)
  | same h1 h2 => exact .same h1 h2

theorem O.tag {P : Nat → Nat → Prop} {o o' : HostObj} (ho : O P o o') : o.tag = o'.tag := by
  cases ho <;> rfl

theorem isGood_valObject {h : Nat} {t : Tag} (hh : h < 2^32) (ht : Tag.u8IsObject t.code = true) :
    Val.isGood (valObject h t) = true := by
  unfold Val.isGood
  rw [tag_valObject hh ht]
  have hm : Val.minor (valObject h t) = 0 := by
    rw [minor_eq, valObject_eq t hh]
    have := Tag.code_lt t
    omega
  unfold Val.goodFor
  rw [hm]
  cases t <;> first | rfl | (exact absurd ht (by decide))

section
variable {P : Nat → Nat → Prop} {objs objs' : List HostObj} (I : Inv P objs objs')
  (s : objs.length ≤ 2^31) (s' : objs'.length ≤ 2^31)
include I s s'

theorem Inv.lt {i j : Nat} (h : P i j) : 2 * i + 1 < 2^32 ∧ 2 * j + 1 < 2^32 := by
  obtain ⟨o, o', h1, h2, _⟩ := I.obj h
  have := (List.getElem?_eq_some_iff.mp h1).1
  have := (List.getElem?_eq_some_iff.mp h2).1
  omega

theorem w_isObject {v v' : Nat} (h : W P v v') : Val.isObject v = Val.isObject v' := by
  rcases h with ⟨_, rfl⟩ | ⟨i, j, t, hp, ht, rfl, rfl⟩
  · rfl
  · have := I.lt s s' hp
    rw [isObject_valObject this.1 ht, isObject_valObject this.2 ht]

theorem w_tag {v v' : Nat} (h : W P v v') : Val.tag v = Val.tag v' := by
  rcases h with ⟨_, rfl⟩ | ⟨i, j, t, hp, ht, rfl, rfl⟩
  · rfl
  · have := I.lt s s' hp
    rw [tag_valObject this.1 ht, tag_valObject this.2 ht]

theorem w_good {v v' : Nat} (h : W P v v') : Val.isGood v = Val.isGood v' := by
  rcases h with ⟨_, rfl⟩ | ⟨i, j, t, hp, ht, rfl, rfl⟩
  · rfl
  · have := I.lt s s' hp
    rw [isGood_valObject this.1 ht, isGood_valObject this.2 ht]

theorem w_small {v v' : Nat} (h : W P v v') (hv : Val.isObject v = false) : v' = v := by
  rcases h with ⟨_, h⟩ | ⟨i, j, t, hp, ht, rfl, rfl⟩
  · exact h
  · rw [isObject_valObject (I.lt s s' hp).1 ht] at hv
    cases hv

theorem w_rel {v v' : Nat} (h : W P v v') (hv : Val.isObject v = true) :
    isRelative (objHandle v) = false ∧ isRelative (objHandle v') = false := by
  rcases h with ⟨h, _⟩ | ⟨i, j, t, hp, ht, rfl, rfl⟩
  · rw [h] at hv; cases hv
  · have := I.lt s s' hp
    rw [objHandle_valObject _ this.1, objHandle_valObject _ this.2, ← Bool.not_eq_true, ← Bool.not_eq_true, isRelative_iff,
      isRelative_iff]
    omega

theorem w_eq {a b a' b' : Nat} (ha : W P a a') (hb : W P b b') : a = b ↔ a' = b' := by
  have h1 := w_isObject I s s' ha
  have h2 := w_isObject I s s' hb
  rcases ha with ⟨h, rfl⟩ | ⟨i, j, t, hp, ht, rfl, rfl⟩
  · rcases hb with ⟨h', rfl⟩ | ⟨i, j, t, hp, ht, rfl, rfl⟩
    · exact Iff.rfl
    · have := I.lt s s' hp
      rw [isObject_valObject this.1 ht] at h2
      constructor
      · intro he
        rw [he, isObject_valObject this.1 ht] at h
        cases h
      · intro he
        rw [he, isObject_valObject this.2 ht] at h
        cases h
  · have hl := I.lt s s' hp
    rcases hb with ⟨h', rfl⟩ | ⟨i₂, j₂, t₂, hp₂, ht₂, rfl, rfl⟩
    · constructor
      · intro he
        rw [← he, isObject_valObject hl.1 ht] at h'
        cases h'
      · intro he
        rw [← he, isObject_valObject hl.2 ht] at h'
        cases h'
    · have hl₂ := I.lt s s' hp₂
      constructor
      · intro he
        have e1 := congrArg objHandle he
        have e2 := congrArg Val.tag he
        rw [objHandle_valObject _ hl.1, objHandle_valObject _ hl₂.1] at e1
        rw [tag_valObject hl.1 ht, tag_valObject hl₂.1 ht₂] at e2
        have : i = i₂ := by omega
        subst this e2
        rw [I.fn hp hp₂]
      · intro he
        have e1 := congrArg objHandle he
        have e2 := congrArg Val.tag he
        rw [objHandle_valObject _ hl.2, objHandle_valObject _ hl₂.2] at e1
        rw [tag_valObject hl.2 ht, tag_valObject hl₂.2 ht₂] at e2
        have : j = j₂ := by omega
        subst this e2
        rw [I.inj hp hp₂]

theorem rr_visitObj {v v' : Nat} (h : W P v v') : RR (O P) (visitObj objs v) (visitObj objs' v') := by
  rcases h with ⟨h, rfl⟩ | ⟨i, j, t, hp, ht, rfl, rfl⟩
  · unfold visitObj
    rw [h]
    exact rfl
  · have hl := I.lt s s' hp
    obtain ⟨o, o', h1, h2, h3⟩ := I.obj hp
    have e1 : visitObj objs (valObject (2 * i + 1) t) = .ok o := by
      rw [visitObj_ok, isObject_valObject hl.1 ht, objHandle_valObject _ hl.1, handleToIndex_eq,
        show (2 * i + 1) / 2 = i from by omega]
      exact ⟨rfl, by omega, h1⟩
    have e2 : visitObj objs' (valObject (2 * j + 1) t) = .ok o' := by
      rw [visitObj_ok, isObject_valObject hl.2 ht, objHandle_valObject _ hl.2, handleToIndex_eq,
        show (2 * j + 1) / 2 = j from by omega]
      exact ⟨rfl, by omega, h2⟩
    rw [e1, e2]
    exact h3

theorem rr_visitVec {v v' : Nat} (h : W P v v') : RR (Forall₂ (W P)) (visitVec objs v) (visitVec objs' v') := by
  have h := rr_visitObj I s s' h
  unfold visitVec
  generalize visitObj objs v = x at h
  generalize visitObj objs' v' = y at h
  cases x <;> cases y
  · exact h
  · exact h.elim
  · exact h.elim
  · rename_i o o'
    change O P o o' at h
    cases h with
    | vec hl => exact hl
    | map hl => exact rfl
    | same h1 h2 => cases o <;> first | exact rfl | exact absurd rfl (h1 _)

theorem rr_visitMap {v v' : Nat} (h : W P v v') :
    RR (Forall₂ fun p q => W P p.1 q.1 ∧ W P p.2 q.2) (visitMap objs v) (visitMap objs' v') := by
  have h := rr_visitObj I s s' h
  unfold visitMap
  generalize visitObj objs v = x at h
  generalize visitObj objs' v' = y at h
  cases x <;> cases y
  · exact h
  · exact h.elim
  · exact h.elim
  · rename_i o o'
    change O P o o' at h
    cases h with
    | vec hl => exact rfl
    | map hl => exact hl
    | same h1 h2 => cases o <;> first | exact rfl | exact absurd rfl (h2 _)

theorem checkIntegrity_same {v v' : Nat} (h : W P v v') : checkIntegrity objs v = checkIntegrity objs' v' := by
  unfold checkIntegrity
  rw [w_good I s s' h, w_isObject I s s' h, w_tag I s s' h]
  have h := rr_visitObj I s s' h
  generalize visitObj objs v = x at h
  generalize visitObj objs' v' = y at h
  cases x <;> cases y
  · rw [show _ = _ from h]
  · exact h.elim
  · exact h.elim
  · rename_i o o'
    change O P o o' at h
    simp only [h.tag]

theorem rr_relToAbs {tbl tbl' : List Nat} (ht : Forall₂ (W P) tbl tbl') (w : Nat) :
    RR (W P) (relToAbs tbl w) (relToAbs tbl' w) := by
  unfold relToAbs
  by_cases ho : Val.isObject w = true
  · rw [if_pos ho, if_pos ho]
    by_cases hr : isRelative (objHandle w) = true
    · rw [if_pos hr, if_pos hr]
      generalize handleToIndex (objHandle w) = i
      by_cases hi : i < tbl.length
      · have hi' : i < tbl'.length := ht.length_eq ▸ hi
        have hw : W P (tbl[i]) (tbl'[i]) := ht.get hi hi'
        rw [List.getElem?_eq_getElem hi, List.getElem?_eq_getElem hi']
        simp only [w_tag I s s' hw]
        split
        · exact hw
        · exact rfl
      · have hi' : ¬ i < tbl'.length := ht.length_eq ▸ hi
        rw [List.getElem?_eq_none (by omega), List.getElem?_eq_none (by omega)]
        exact rfl
    · rw [if_neg hr, if_neg hr]
      exact rfl
  · rw [if_neg ho, if_neg ho]
    exact .inl ⟨by simpa using ho, rfl⟩

theorem rr_marshalArg {tbl tbl' : List Nat} (ht : Forall₂ (W P) tbl tbl') (t : ArgTy) (w : Nat) :
    RR (W P) (marshalArg objs tbl t w) (marshalArg objs' tbl' t w) := by
  unfold marshalArg
  split
  · refine (rr_relToAbs I s s' ht w).bind fun a a' ha => ?_
    rw [checkIntegrity_same I s s' ha]
    cases checkIntegrity objs' a'
    · exact rfl
    · exact ha
  · exact rfl

theorem rr_marshalArgs {tbl tbl' : List Nat} (ht : Forall₂ (W P) tbl tbl') (ts : List ArgTy) (ws : List Nat) :
    RR (Forall₂ (W P)) (marshalArgs objs tbl ts ws) (marshalArgs objs' tbl' ts ws) := by
  induction ts generalizing ws with
  | nil =>
    cases ws
    · exact .nil
    · exact rfl
  | cons t ts ih =>
    cases ws with
    | nil => exact rfl
    | cons w ws =>
      refine (rr_marshalArg I s s' ht t w).bind fun a a' ha => ?_
      exact (ih ws).bind fun as as' has => .cons ha has

theorem rr_absToRel {tbl tbl' : List Nat} (ht : Forall₂ (W P) tbl tbl') {v v' : Nat} (h : W P v v') :
    RR (fun p q => Forall₂ (W P) p.1 q.1 ∧ p.2 = q.2) (absToRel tbl v) (absToRel tbl' v') := by
  unfold absToRel
  rw [← w_isObject I s s' h]
  by_cases ho : Val.isObject v = true
  · rw [if_pos ho, if_pos ho, (w_rel I s s' h ho).1, (w_rel I s s' h ho).2, ← ht.length_eq, w_tag I s s' h]
    cases indexToHandle tbl.length true with
    | error e => exact rfl
    | ok n => exact ⟨List.rel_append ht (.cons h .nil), rfl⟩
  · rw [if_neg ho, if_neg ho]
    exact ⟨ht, (w_small I s s' h (by simpa using ho)).symm⟩

theorem rr_enterFrame {vs vs' : List Nat} (h : Forall₂ (W P) vs vs') : ∀ {tbl tbl' : List Nat}, Forall₂ (W P) tbl tbl' →
    RR (fun p q => Forall₂ (W P) p.1 q.1 ∧ p.2 = q.2) (enterFrame tbl vs) (enterFrame tbl' vs') := by
  induction h with
  | nil => exact fun ht => ⟨ht, rfl⟩
  | cons hv hvs ih =>
    intro tbl tbl' ht
    refine (rr_absToRel I s s' ht hv).bind fun p q hp => ?_
    refine (ih hp.1).bind fun p' q' hp' => ?_
    exact ⟨hp'.1, by rw [hp.2, hp'.2]⟩

end
end Soroban.Diagnostics
