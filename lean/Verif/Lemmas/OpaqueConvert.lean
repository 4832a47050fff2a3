import Verif.Lemmas.OpaqueMem
import Verif.Lemmas.Convert
/-!
Conversions of ledger values on two hosts side by side.
-/
namespace Soroban.Diagnostics
open Soroban.Spec List

/-- `Made`, with at most `n` new objects. -/
def MadeN {α : Type} (R : (Nat → Nat → Prop) → α → α → Prop) (P : Nat → Nat → Prop) (objs objs' : List HostObj) (n : Nat)
    (x y : List HostObj × α) : Prop :=
  x.1.length ≤ objs.length + n ∧ y.1.length ≤ objs'.length + n ∧ Made R P x y

/-- A function that makes objects on the two hosts. -/
def Makes {α : Type} (R : (Nat → Nat → Prop) → α → α → Prop) (n : Nat) (f : List HostObj → Res (List HostObj × α)) : Prop :=
  ∀ {P : Nat → Nat → Prop} {objs objs' : List HostObj}, Inv P objs objs' → objs.length + n ≤ 2^31 → objs'.length + n ≤ 2^31 →
    RR (MadeN R P objs objs' n) (f objs) (f objs')

theorem isObject_error (a b : Nat) : Val.isObject (Val.fromMajorMinorAndTag a b .Error) = false := by
  unfold Val.fromMajorMinorAndTag
  rw [fromBodyAndTag_eq]
  apply Bool.eq_false_iff.mpr
  rw [Ne, isObject_iff]
  simp [Tag.code]

theorem smallOr_word {b : Bool} {n v : Nat} {t : Tag} (ht : t.code < 15) (h : smallOr b (Val.fromBodyAndTag n t) = .ok v) :
    Val.isObject v = false := by
  rw [(smallOr_ok h).2]; exact (body_small ht).2

theorem toSmallVal_word {s : ScVal} {v : Nat} (h : toSmallVal s = .ok v) : Val.isObject v = false := by
  cases s with
  | bool b => cases h; exact notObject_valBool _
  | void => cases h; exact notObject_void
  | error t c => cases h; exact isObject_error _ _
  | u32 n => cases h; exact notObject_valU32 _
  | i32 i => cases h; exact (body_small (t := .I32Val) (by decide)).2
  | u64 n => exact smallOr_word (t := .U64Small) (by decide) h
  | i64 n => exact smallOr_word (t := .I64Small) (by decide) h
  | timepoint n => exact smallOr_word (t := .TimepointSmall) (by decide) h
  | duration n => exact smallOr_word (t := .DurationSmall) (by decide) h
  | u128 a b => exact smallOr_word (t := .U128Small) (by decide) h
  | i128 a b => exact smallOr_word (t := .I128Small) (by decide) h
  | u256 a b c d => exact smallOr_word (t := .U256Small) (by decide) h
  | i256 a b c d => exact smallOr_word (t := .I256Small) (by decide) h
  | symbol b =>
    simp only [toSmallVal] at h
    cases hb : symbolTryFromBytes b with
    | none => rw [hb] at h; cases h
    | some w => rw [hb] at h; cases h; exact notObject_small hb
  | _ => cases h

theorem makes_addObj {o : HostObj} (h1 : ∀ l, o ≠ .vec l) (h2 : ∀ m, o ≠ .map m) : Makes W 1 fun os => addObj os o := by
  intro P objs objs' I s s'
  have h := rr_addObj I s s' (O.same (P := P) h1 h2)
  obtain ⟨v, hx⟩ := addObj_ok o (show objs.length < 2^31 by omega)
  obtain ⟨w, hy⟩ := addObj_ok o (show objs'.length < 2^31 by omega)
  show RR _ (addObj objs o) (addObj objs' o)
  rw [hx, hy] at h ⊢
  refine ⟨?_, ?_, h⟩ <;> simp

theorem makes_toVals {rec : List HostObj → ScVal → Res (List HostObj × Nat)} (hr : ∀ s, Makes W (nodes s) fun os => rec os s)
    (l : List ScVal) : Makes (fun Q => Forall₂ (W Q)) (nodesList l) fun os => toVals rec os l := by
  induction l with
  | nil =>
    intro P objs objs' I s s'
    exact ⟨Nat.le_refl _, Nat.le_refl _, P, fun _ _ h => h, I, .nil⟩
  | cons v l ih =>
    intro P objs objs' I s s'
    simp only [nodesList] at s s'
    refine (hr v I (by omega) (by omega)).bind fun p q hp => ?_
    obtain ⟨l1, l2, Q, hq, J, hw⟩ := hp
    refine (ih J (by omega) (by omega)).bind fun p' q' hp' => ?_
    obtain ⟨l3, l4, Q', hq', J', hws⟩ := hp'
    refine ⟨?_, ?_, Q', fun i j h => hq' _ _ (hq _ _ h), J', .cons (hw.mono hq') hws⟩
    · simp only [nodesList]; omega
    · simp only [nodesList]; omega

theorem makes_toEntries {rec : List HostObj → ScVal → Res (List HostObj × Nat)} (hr : ∀ s, Makes W (nodes s) fun os => rec os s)
    (l : List (ScVal × ScVal)) :
    Makes (fun Q => Forall₂ fun p q => W Q p.1 q.1 ∧ W Q p.2 q.2) (nodesEntries l) fun os => toEntries rec os l := by
  induction l with
  | nil =>
    intro P objs objs' I s s'
    exact ⟨Nat.le_refl _, Nat.le_refl _, P, fun _ _ h => h, I, .nil⟩
  | cons e l ih =>
    obtain ⟨k, v⟩ := e
    intro P objs objs' I s s'
    simp only [nodesEntries] at s s'
    refine (hr k I (by omega) (by omega)).bind fun p q hp => ?_
    obtain ⟨l1, l2, Q, hq, J, hk⟩ := hp
    refine (hr v J (by omega) (by omega)).bind fun p1 q1 hp1 => ?_
    obtain ⟨l3, l4, Q1, hq1, J1, hw⟩ := hp1
    refine (ih J1 (by omega) (by omega)).bind fun p' q' hp' => ?_
    obtain ⟨l5, l6, Q', hq', J', hws⟩ := hp'
    refine ⟨?_, ?_, Q', fun i j h => hq' _ _ (hq1 _ _ (hq _ _ h)), J',
      .cons ⟨hk.mono fun i j h => hq' _ _ (hq1 _ _ h), hw.mono hq'⟩ hws⟩
    · simp only [nodesEntries]; omega
    · simp only [nodesEntries]; omega

/-- One more object after others. -/
theorem rr_then {P Q : Nat → Nat → Prop} {objs objs' o o' : List HostObj} {n : Nat} (hq : ∀ i j, P i j → Q i j) (J : Inv Q o o')
    (l1 : o.length ≤ objs.length + n) (l2 : o'.length ≤ objs'.length + n) (s : objs.length + (1 + n) ≤ 2^31)
    (s' : objs'.length + (1 + n) ≤ 2^31) {x x' : HostObj} (h : O Q x x') :
    RR (MadeN W P objs objs' (1 + n)) (addObj o x) (addObj o' x') := by
  have h := rr_addObj J (by omega) (by omega) h
  obtain ⟨v, hx⟩ := addObj_ok x (show o.length < 2^31 by omega)
  obtain ⟨w, hy⟩ := addObj_ok x' (show o'.length < 2^31 by omega)
  rw [hx, hy] at h ⊢
  obtain ⟨Q', hq', J', hw⟩ := h
  refine ⟨?_, ?_, Q', fun i j h => hq' _ _ (hq _ _ h), J', hw⟩
  · simp only [List.length_append, List.length_singleton]; omega
  · simp only [List.length_append, List.length_singleton]; omega

theorem makes_toHostObj {d : Nat} (hr : ∀ s, Makes W (nodes s) fun os => toVal d os s) (v : ScVal) :
    Makes W (nodes v) fun os => toHostObj (toVal d) (fun os => valCmp os d) os v := by
  intro P objs objs' I s s'
  have one : ∀ {o : HostObj}, (∀ l, o ≠ .vec l) → (∀ m, o ≠ .map m) → nodes v = 1 →
      RR (MadeN W P objs objs' (nodes v)) (addObj objs o) (addObj objs' o) := by
    intro o h1 h2 hn
    rw [hn] at s s' ⊢
    exact makes_addObj h1 h2 I s s'
  cases v
  case vec o =>
    cases o with
    | none => exact rfl
    | some l =>
      simp only [nodes] at s s' ⊢
      refine (makes_toVals hr l I (by omega) (by omega)).bind fun p q hp => ?_
      obtain ⟨l1, l2, Q, hq, J, hw⟩ := hp
      obtain ⟨L, e1, e2⟩ := lift_list hw
      simp only
      rw [e1, e2]
      refine (RR.nat (nat_vecFromIter Rel.fst L) (nat_vecFromIter Rel.snd L) down_list).bind fun r r' hr => ?_
      exact rr_then hq J l1 l2 s s' (.vec hr)
  case map o =>
    cases o with
    | none => exact rfl
    | some m =>
      simp only [nodes] at s s' ⊢
      refine (makes_toEntries hr m I (by omega) (by omega)).bind fun p q hp => ?_
      obtain ⟨l1, l2, Q, hq, J, hw⟩ := hp
      refine (rr_fromMap (valCmp_same J (by omega) (by omega) d) hw).bind fun r r' hr => ?_
      exact rr_then hq J l1 l2 s s' (.map hr)
  case symbol b =>
    refine RR.bind (R := fun o o' => o' = o ∧ (∀ l, o ≠ .vec l) ∧ ∀ m, o ≠ .map m) ?_ fun o o' ho => ?_
    · unfold symbolObject
      split
      · exact rfl
      · split
        · exact ⟨rfl, (by intro l h; cases h), (by intro l h; cases h)⟩
        · exact rfl
    · obtain ⟨rfl, h1, h2⟩ := ho
      exact one h1 h2 rfl
  case address a =>
    cases a <;> first
      | exact rfl
      | exact one (by intro l h; cases h) (by intro l h; cases h) rfl
  all_goals first
    | exact rfl
    | exact one (by intro l h; cases h) (by intro l h; cases h) rfl

theorem makes_toVal (d : Nat) : ∀ v, Makes W (nodes v) fun os => toVal d os v := by
  induction d with
  | zero => intro v P objs objs' I s s'; exact rfl
  | succ d ih =>
    intro v P objs objs' I s s'
    simp only [toVal, valTryFromScVal]
    by_cases h1 : (!canRepresent v) = true
    · rw [if_pos h1, if_pos h1]; exact rfl
    · rw [if_neg h1, if_neg h1]
      by_cases h2 : needsObject v = true
      · rw [if_pos h2, if_pos h2]; exact makes_toHostObj ih v I s s'
      · rw [if_neg h2, if_neg h2]
        cases hv : toSmallVal v with
        | error e => exact rfl
        | ok w => exact ⟨Nat.le_add_right _ _, Nat.le_add_right _ _, P, fun _ _ h => h, I, .inl ⟨toSmallVal_word hv, rfl⟩⟩

end Soroban.Diagnostics
