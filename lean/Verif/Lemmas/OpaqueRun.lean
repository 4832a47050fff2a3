import Verif.Lemmas.Opaque
/-! Comparisons, conversions, host functions and executions on paired hosts. -/
namespace Soroban.Diagnostics
open Soroban.Spec List

/-- Pairs of words that mean the same. -/
def Rel (P : Nat → Nat → Prop) : Type := { p : Nat × Nat // W P p.1 p.2 }

def Rel.fst {P : Nat → Nat → Prop} (r : Rel P) : Nat := r.1.1
def Rel.snd {P : Nat → Nat → Prop} (r : Rel P) : Nat := r.1.2

theorem lift_word {P : Nat → Nat → Prop} {v v' : Nat} (h : W P v v') : ∃ r : Rel P, v = r.fst ∧ v' = r.snd :=
  ⟨⟨(v, v'), h⟩, rfl, rfl⟩

theorem lift_list {P : Nat → Nat → Prop} {l l' : List Nat} (h : Forall₂ (W P) l l') :
    ∃ L : List (Rel P), l = L.map Rel.fst ∧ l' = L.map Rel.snd := by
  induction h with
  | nil => exact ⟨[], rfl, rfl⟩
  | @cons a b _ _ hv _ ih =>
    obtain ⟨L, rfl, rfl⟩ := ih
    exact ⟨⟨(a, b), hv⟩ :: L, rfl, rfl⟩

theorem lift_pairs {P : Nat → Nat → Prop} {m m' : List (Nat × Nat)}
    (h : Forall₂ (fun p q => W P p.1 q.1 ∧ W P p.2 q.2) m m') :
    ∃ L : List (Rel P × Rel P), m = L.map (renPair Rel.fst) ∧ m' = L.map (renPair Rel.snd) := by
  induction h with
  | nil => exact ⟨[], rfl, rfl⟩
  | @cons a b _ _ hv _ ih =>
    obtain ⟨L, rfl, rfl⟩ := ih
    exact ⟨(⟨(a.1, b.1), hv.1⟩, ⟨(a.2, b.2), hv.2⟩) :: L, rfl, rfl⟩

theorem down_list {P : Nat → Nat → Prop} (L : List (Rel P)) : Forall₂ (W P) (L.map Rel.fst) (L.map Rel.snd) := by
  induction L with
  | nil => exact .nil
  | cons r L ih => exact .cons r.2 ih

theorem down_pairs {P : Nat → Nat → Prop} (L : List (Rel P × Rel P)) :
    Forall₂ (fun p q => W P p.1 q.1 ∧ W P p.2 q.2) (L.map (renPair Rel.fst)) (L.map (renPair Rel.snd)) := by
  induction L with
  | nil => exact .nil
  | cons r L ih => exact .cons ⟨r.1.2, r.2.2⟩ ih

/-- Comparisons that agree on words that mean the same. -/
def CmpOk (P : Nat → Nat → Prop) (cmp cmp' : Nat → Nat → Res Ordering) : Prop :=
  ∀ a a' b b', W P a a' → W P b b' → cmp a b = cmp' a' b'

theorem CmpOk.lift {P : Nat → Nat → Prop} {cmp cmp' : Nat → Nat → Res Ordering} (h : CmpOk P cmp cmp') :
    (fun a b : Rel P => cmp a.fst b.fst) = fun a b => cmp' a.snd b.snd := by
  funext a b
  exact h _ _ _ _ a.2 b.2

theorem hostObjCmpBody_same {P : Nat → Nat → Prop} {cmp cmp' : Nat → Nat → Res Ordering} (h : CmpOk P cmp cmp')
    {o o' p p' : HostObj} (ho : O P o o') (hp : O P p p') : hostObjCmpBody cmp o p = hostObjCmpBody cmp' o' p' := by
  cases ho with
  | vec hl =>
    cases hp with
    | vec hl' =>
      obtain ⟨L, rfl, rfl⟩ := lift_list hl
      obtain ⟨L', rfl, rfl⟩ := lift_list hl'
      simp only [hostObjCmpBody]
      rw [nat_cmpVec, nat_cmpVec, h.lift]
    | map hl' => rfl
    | same h1 h2 => cases p <;> first | rfl | exact absurd rfl (h1 _)
  | map hl =>
    cases hp with
    | vec hl' => rfl
    | map hl' =>
      obtain ⟨L, rfl, rfl⟩ := lift_pairs hl
      obtain ⟨L', rfl, rfl⟩ := lift_pairs hl'
      simp only [hostObjCmpBody]
      rw [nat_cmpVec, nat_cmpVec]
      have : (fun x y : Rel P × Rel P => cmpPair cmp (renPair Rel.fst x) (renPair Rel.fst y)) =
          fun x y => cmpPair cmp' (renPair Rel.snd x) (renPair Rel.snd y) := by
        funext x y
        simp only [cmpPair]
        rw [h x.1.fst x.1.snd y.1.fst y.1.snd x.1.2 y.1.2, h x.2.fst x.2.snd y.2.fst y.2.snd x.2.2 y.2.2]
      rw [this]
    | same h1 h2 => cases p <;> first | rfl | exact absurd rfl (h2 _)
  | same h1 h2 =>
    cases hp with
    | vec hl' => cases o <;> first | rfl | exact absurd rfl (h1 _)
    | map hl' => cases o <;> first | rfl | exact absurd rfl (h2 _)
    | same h3 h4 =>
      cases o <;> first
        | exact absurd rfl (h1 _)
        | exact absurd rfl (h2 _)
        | (cases p <;> first | rfl | exact absurd rfl (h3 _) | exact absurd rfl (h4 _))

section
variable {P : Nat → Nat → Prop} {objs objs' : List HostObj} (I : Inv P objs objs')
  (s : objs.length ≤ 2^31) (s' : objs'.length ≤ 2^31)
include I s s'

theorem tryCompare_same {o o' : HostObj} (ho : O P o o') (v : Nat) : tryCompareToSmall o v = tryCompareToSmall o' v := by
  cases ho <;> rfl

theorem valCmpBody_same {ocmp ocmp' : HostObj → HostObj → Res Ordering}
    (h : ∀ o o' p p', O P o o' → O P p p' → ocmp o p = ocmp' o' p') :
    CmpOk P (valCmpBody ocmp objs) (valCmpBody ocmp' objs') := by
  intro a a' b b' ha hb
  unfold valCmpBody
  by_cases he : a = b
  · rw [if_pos he, if_pos ((w_eq I s s' ha hb).mp he)]
  rw [if_neg he, if_neg fun h => he ((w_eq I s s' ha hb).mpr h), w_isObject I s s' ha, w_isObject I s s' hb]
  by_cases ho : (Val.isObject a' || Val.isObject b') = true
  · rw [if_pos ho, if_pos ho]
    have key : objCmp ocmp objs a b = objCmp ocmp' objs' a' b' := by
      have va := rr_visitObj I s s' ha
      have vb := rr_visitObj I s s' hb
      unfold objCmp objCmpByType
      rw [w_isObject I s s' ha, w_isObject I s s' hb, w_tag I s s' ha, w_tag I s s' hb]
      cases hoa : Val.isObject a' <;> cases hob : Val.isObject b'
      · rfl
      · have hs : a' = a := w_small I s s' ha (by rw [w_isObject I s s' ha, hoa])
        subst hs
        refine RR.eq (vb.bind fun p p' hp => ?_)
        rw [tryCompare_same I s s' hp]
        exact RR.of_eq rfl fun _ => rfl
      · have hs : b' = b := w_small I s s' hb (by rw [w_isObject I s s' hb, hob])
        subst hs
        refine RR.eq (va.bind fun p p' hp => ?_)
        rw [tryCompare_same I s s' hp]
        exact RR.of_eq rfl fun _ => rfl
      · refine RR.eq (va.bind fun o o' ho => vb.bind fun p p' hp => ?_)
        rw [h _ _ _ _ ho hp]
        exact RR.of_eq rfl fun _ => rfl
    rw [key]
  · rw [if_neg ho, if_neg ho, w_tag I s s' ha, w_tag I s s' hb]
    have h2 : Val.isObject a = false ∧ Val.isObject b = false := by
      rw [w_isObject I s s' ha, w_isObject I s s' hb]
      simpa using ho
    rw [w_small I s s' ha h2.1, w_small I s s' hb h2.2]

theorem valCmp_same (d : Nat) : CmpOk P (valCmp objs d) (valCmp objs' d) := by
  induction d with
  | zero => exact valCmpBody_same I s s' fun _ _ _ _ _ _ => rfl
  | succ d ih => exact valCmpBody_same I s s' fun _ _ _ _ ho hp => hostObjCmpBody_same ih ho hp

/-! ### conversion to ledger values -/

theorem fromVals_same {rec rec' : Nat → Res ScVal} (h : ∀ v v', W P v v' → rec v = rec' v') {l l' : List Nat}
    (hl : Forall₂ (W P) l l') : fromVals rec l = fromVals rec' l' := by
  induction hl with
  | nil => rfl
  | cons hv _ ih =>
    unfold fromVals
    rw [h _ _ hv, ih]

theorem fromEntries_same {rec rec' : Nat → Res ScVal} (h : ∀ v v', W P v v' → rec v = rec' v') {l l' : List (Nat × Nat)}
    (hl : Forall₂ (fun p q => W P p.1 q.1 ∧ W P p.2 q.2) l l') : fromEntries rec l = fromEntries rec' l' := by
  induction hl with
  | nil => rfl
  | @cons a b _ _ hv _ ih =>
    obtain ⟨a1, a2⟩ := a
    obtain ⟨b1, b2⟩ := b
    unfold fromEntries
    rw [h _ _ hv.1, h _ _ hv.2, ih]

theorem fromVal_same (fs : Bool) (d : Nat) : ∀ {v v' : Nat}, W P v v' → fromVal fs objs d v = fromVal fs objs' d v' := by
  induction d with
  | zero => intro v v' _; rfl
  | succ d ih =>
    intro v v' hv
    unfold fromVal
    have : scValTryFromVal (fromVal fs objs d) fs objs v = scValTryFromVal (fromVal fs objs' d) fs objs' v' := by
      unfold scValTryFromVal
      rw [← w_isObject I s s' hv]
      by_cases ho : Val.isObject v = true
      · rw [if_pos ho, if_pos ho]
        refine RR.eq ((rr_visitObj I s s' hv).bind fun o o' hoo => RR.of_eq ?_ fun _ => rfl)
        cases hoo with
        | vec hl => simp only [fromHostObj, fromVals_same I s s' (fun _ _ => ih) hl]
        | map hl => simp only [fromHostObj, fromEntries_same I s s' (fun _ _ => ih) hl]
        | same h1 h2 => cases o <;> first | rfl | exact absurd rfl (h1 _) | exact absurd rfl (h2 _)
      · rw [if_neg ho, if_neg ho, w_small I s s' hv (by simpa using ho)]
    rw [this]

/-! ### host functions -/

/-- What two runs of a host function leave: paired tables, with the same or more pairs, and results that mean the same. -/
def Ran (P : Nat → Nat → Prop) (x y : List HostObj × Ret) : Prop :=
  ∃ Q : Nat → Nat → Prop, (∀ i j, P i j → Q i j) ∧ Inv Q x.1 y.1 ∧
    ((∃ n, x.2 = .raw n ∧ y.2 = .raw n) ∨ ∃ v v', x.2 = .val v ∧ y.2 = .val v' ∧ W Q v v')

omit s s' in
theorem rr_retVal {x x' : Res Nat} (h : RR (W P) x x') : RR (Ran P) (retVal objs x) (retVal objs' x') :=
  h.bind fun v v' hv => ⟨P, fun _ _ h => h, I, .inr ⟨v, v', rfl, rfl, hv⟩⟩

omit s s' in
theorem rr_same {x x' : Res Nat} (h : x = x') (hx : ∀ v, x = .ok v → Val.isObject v = false) :
    RR (Ran P) (retVal objs x) (retVal objs' x') := by
  subst h
  refine rr_retVal I ?_
  cases x with
  | error e => exact rfl
  | ok v => exact .inl ⟨hx v rfl, rfl⟩

omit s s' in
theorem rr_retObj (s : objs.length < 2^31) (s' : objs'.length < 2^31) {x x' : Res HostObj} (h : RR (O P) x x') :
    RR (Ran P) (retObj objs x) (retObj objs' x') := by
  refine h.bind fun o o' ho => ?_
  unfold addObj
  rw [indexToHandle_abs s, indexToHandle_abs s']
  have lt : ∀ {i j}, P i j → i < objs.length ∧ j < objs'.length := by
    intro i j h
    obtain ⟨_, _, h1, h2, _⟩ := I.obj h
    exact ⟨(List.getElem?_eq_some_iff.mp h1).1, (List.getElem?_eq_some_iff.mp h2).1⟩
  have sub : ∀ i j, P i j → P i j ∨ (i = objs.length ∧ j = objs'.length) := fun _ _ h => .inl h
  refine ⟨fun i j => P i j ∨ (i = objs.length ∧ j = objs'.length), sub, ⟨?_, ?_, ?_⟩,
    .inr ⟨_, _, rfl, rfl, .inr ⟨objs.length, objs'.length, o.tag, .inr ⟨rfl, rfl⟩, objTag_isObject o, rfl, by rw [ho.tag]⟩⟩⟩
  · rintro i j (h | ⟨rfl, rfl⟩)
    · obtain ⟨p, p', h1, h2, h3⟩ := I.obj h
      refine ⟨p, p', ?_, ?_, h3.mono sub⟩
      · simp only
        rw [List.getElem?_append_left (lt h).1, h1]
      · simp only
        rw [List.getElem?_append_left (lt h).2, h2]
    · exact ⟨o, o', by simp, by simp, ho.mono sub⟩
  · rintro i j j' (h | ⟨rfl, rfl⟩) (h' | ⟨rfl', rfl⟩)
    · exact I.fn h h'
    · have := (lt h).1; omega
    · have := (lt h').1; omega
    · rfl
  · rintro i j j' (h | ⟨rfl, rfl⟩) (h' | ⟨rfl, h'⟩)
    · exact I.inj h h'
    · have := (lt h).2; omega
    · have := (lt h').2; omega
    · rfl

/-- Arguments that mean the same; numbers are equal. -/
inductive Args (P : Nat → Nat → Prop) : List ArgTy → List Nat → List Nat → Prop
  | nil : Args P [] [] []
  | cons {t : ArgTy} {ts : List ArgTy} {a a' : Nat} {as as' : List Nat} :
      W P a a' ∧ (t = .u32 → a' = a) → Args P ts as as' → Args P (t :: ts) (a :: as) (a' :: as')

theorem rr_typedArgs {tbl tbl' : List Nat} (ht : Forall₂ (W P) tbl tbl') (ts : List ArgTy) (ws : List Nat) :
    RR (Args P ts) (marshalArgs objs tbl ts ws) (marshalArgs objs' tbl' ts ws) := by
  induction ts generalizing ws with
  | nil =>
    cases ws
    · exact .nil
    · exact rfl
  | cons t ts ih =>
    cases ws with
    | nil => exact rfl
    | cons w ws =>
      have h1 : RR (fun a a' => W P a a' ∧ (t = .u32 → a' = a)) (marshalArg objs tbl t w) (marshalArg objs' tbl' t w) := by
        have h := rr_marshalArg I s s' ht t w
        by_cases hu : t = .u32
        · subst hu
          refine RR.mono (R := fun a a' => W P a a' ∧ Val.isObject a = false) ?_ fun a a' ha => ⟨ha.1, fun _ => w_small I s s' ha.1 ha.2⟩
          cases hx : marshalArg objs tbl .u32 w with
          | error e =>
            rw [hx] at h
            cases hy : marshalArg objs' tbl' .u32 w with
            | error e' => rw [hy] at h; exact h
            | ok b => rw [hy] at h; exact h.elim
          | ok a =>
            rw [hx] at h
            cases hy : marshalArg objs' tbl' .u32 w with
            | error e' => rw [hy] at h; exact h.elim
            | ok b =>
              rw [hy] at h
              refine ⟨h, ?_⟩
              unfold marshalArg at hx
              split at hx
              · rename_i hacc
                obtain ⟨a₁, hr, hx⟩ := bind_ok.mp hx
                obtain ⟨_, _, hx⟩ := bind_ok.mp hx
                cases hx
                have hw : Val.tag w = .U32Val := by
                  unfold ArgTy.accepts at hacc
                  rw [Bool.and_eq_true] at hacc
                  exact beq_iff_eq.mp hacc.2
                have hno : Val.isObject w = false := by
                  rw [← Bool.not_eq_true]
                  intro hob
                  have := u8IsObject_tag hob
                  rw [hw] at this
                  exact absurd this (by decide)
                unfold relToAbs at hr
                rw [hno] at hr
                cases hr
                exact hno
              · cases hx
        · exact h.mono fun a a' ha => ⟨ha, fun h => absurd h hu⟩
      refine h1.bind fun a a' ha => ?_
      exact (ih ws).bind fun as as' has => .cons ha has

omit I s s' in
theorem args1 {t : ArgTy} {as as' : List Nat} (h : Args P [t] as as') :
    ∃ a a', as = [a] ∧ as' = [a'] ∧ W P a a' := by
  cases h with
  | cons h1 h => cases h; exact ⟨_, _, rfl, rfl, h1.1⟩

omit I s s' in
theorem args2 {t u : ArgTy} {as as' : List Nat} (h : Args P [t, u] as as') :
    ∃ a b a' b', as = [a, b] ∧ as' = [a', b'] ∧ W P a a' ∧ W P b b' ∧ (u = .u32 → b' = b) := by
  cases h with
  | cons h1 h =>
    cases h with
    | cons h2 h => cases h; exact ⟨_, _, _, _, rfl, rfl, h1.1, h2.1, h2.2⟩

omit I s s' in
theorem args3 {t u r : ArgTy} {as as' : List Nat} (h : Args P [t, u, r] as as') :
    ∃ a b c a' b' c', as = [a, b, c] ∧ as' = [a', b', c'] ∧ W P a a' ∧ W P b b' ∧ W P c c' ∧ (u = .u32 → b' = b) ∧
      (r = .u32 → c' = c) := by
  cases h with
  | cons h1 h =>
    cases h with
    | cons h2 h =>
      cases h with
      | cons h3 h => cases h; exact ⟨_, _, _, _, _, _, rfl, rfl, h1.1, h2.1, h3.1, h2.2, h3.2⟩

omit s s' in
theorem rr_runFn {cmp : List HostObj → Nat → Nat → Res Ordering} (hc : CmpOk P (cmp objs) (cmp objs')) (s : objs.length < 2^31)
    (s' : objs'.length < 2^31) (f : Fn) {as as' : List Nat} (h : Args P f.args as as') :
    RR (Ran P) (runFn cmp objs f as) (runFn cmp objs' f as') := by
  have z := Nat.le_of_lt s
  have z' := Nat.le_of_lt s'
  have e := hc.lift
  have VV : ∀ {v v' : Nat}, W P v v' → ∀ {F F' : List Nat → Res HostObj},
      (∀ L : List (Rel P), RR (O P) (F (L.map Rel.fst)) (F' (L.map Rel.snd))) →
      RR (Ran P) (retObj objs (visitVec objs v >>= F)) (retObj objs' (visitVec objs' v' >>= F')) := by
    intro v v' hv F F' hF
    refine rr_retObj I s s' ((rr_visitVec I z z' hv).bind fun x x' hx => ?_)
    obtain ⟨L, rfl, rfl⟩ := lift_list hx
    exact hF L
  have VW : ∀ {v v' : Nat}, W P v v' → ∀ {F F' : List Nat → Res Nat},
      (∀ L : List (Rel P), RR (W P) (F (L.map Rel.fst)) (F' (L.map Rel.snd))) →
      RR (Ran P) (retVal objs (visitVec objs v >>= F)) (retVal objs' (visitVec objs' v' >>= F')) := by
    intro v v' hv F F' hF
    refine rr_retVal I ((rr_visitVec I z z' hv).bind fun x x' hx => ?_)
    obtain ⟨L, rfl, rfl⟩ := lift_list hx
    exact hF L
  have MV : ∀ {v v' : Nat}, W P v v' → ∀ {F F' : List (Nat × Nat) → Res HostObj},
      (∀ L : List (Rel P × Rel P), RR (O P) (F (L.map (renPair Rel.fst))) (F' (L.map (renPair Rel.snd)))) →
      RR (Ran P) (retObj objs (visitMap objs v >>= F)) (retObj objs' (visitMap objs' v' >>= F')) := by
    intro v v' hv F F' hF
    refine rr_retObj I s s' ((rr_visitMap I z z' hv).bind fun x x' hx => ?_)
    obtain ⟨L, rfl, rfl⟩ := lift_pairs hx
    exact hF L
  have MW : ∀ {v v' : Nat}, W P v v' → ∀ {F F' : List (Nat × Nat) → Res Nat},
      (∀ L : List (Rel P × Rel P), RR (W P) (F (L.map (renPair Rel.fst))) (F' (L.map (renPair Rel.snd)))) →
      RR (Ran P) (retVal objs (visitMap objs v >>= F)) (retVal objs' (visitMap objs' v' >>= F')) := by
    intro v v' hv F F' hF
    refine rr_retVal I ((rr_visitMap I z z' hv).bind fun x x' hx => ?_)
    obtain ⟨L, rfl, rfl⟩ := lift_pairs hx
    exact hF L
  have vec : ∀ {x x' : Res (List Nat)} {X : Res (List (Rel P))}, x = X.map (List.map Rel.fst) → x' = X.map (List.map Rel.snd) →
      RR (O P) (do let r ← x; Except.ok (HostObj.vec r)) (do let r ← x'; Except.ok (HostObj.vec r)) := by
    intro x x' X h1 h2
    exact (RR.nat h1 h2 down_list).bind fun r r' hr => .vec hr
  have map : ∀ {x x' : Res (List (Nat × Nat))} {X : Res (List (Rel P × Rel P))}, x = X.map (List.map (renPair Rel.fst)) →
      x' = X.map (List.map (renPair Rel.snd)) →
      RR (O P) (do let r ← x; Except.ok (HostObj.map r)) (do let r ← x'; Except.ok (HostObj.map r)) := by
    intro x x' X h1 h2
    exact (RR.nat h1 h2 down_pairs).bind fun r r' hr => .map hr
  have wrd : ∀ {x x' : Res Nat} {X : Res (Rel P)}, x = X.map Rel.fst → x' = X.map Rel.snd → RR (W P) x x' := by
    intro x x' X h1 h2
    exact RR.nat h1 h2 fun r => r.2
  have num : ∀ {α : Type} {x x' : Res α} {F : α → Nat}, x = x' → (∀ n, Val.isObject (F n) = false) →
      RR (W P) (do let n ← x; Except.ok (F n)) (do let n ← x'; Except.ok (F n)) := by
    intro α x x' F h1 hF
    subst h1
    cases x with
    | error e => exact rfl
    | ok n => exact .inl ⟨hF n, rfl⟩
  have idx : ∀ o : Option Nat, Val.isObject (match o with | some i => valU32 i | none => valVoid) = false := by
    intro o
    cases o
    · exact notObject_void
    · exact notObject_valU32 _
  cases f with
  | objCmp =>
    obtain ⟨a, b, a', b', rfl, rfl, ha, hb, _⟩ := args2 h
    simp only [runFn]
    rw [w_isObject I z z' ha, w_isObject I z z' hb, hc _ _ _ _ ha hb]
    split
    · exact rfl
    · cases cmp objs' a' b' with
      | error e => exact rfl
      | ok o => exact ⟨P, fun _ _ h => h, I, .inl ⟨_, rfl, rfl⟩⟩
  | mapNew => cases h; exact rr_retObj I s s' (x := .ok (.map mapNew)) (x' := .ok (.map mapNew)) (.map .nil)
  | vecNew => cases h; exact rr_retObj I s s' (x := .ok (.vec [])) (x' := .ok (.vec [])) (.vec .nil)
  | mapPut =>
    obtain ⟨m, k, v, m', k', v', rfl, rfl, hm, hk, hv, _⟩ := args3 h
    obtain ⟨k, rfl, rfl⟩ := lift_word hk
    obtain ⟨v, rfl, rfl⟩ := lift_word hv
    exact MV hm fun L => map (nat_mapPut Rel.fst (cmp objs) L k v) (by rw [e]; exact nat_mapPut Rel.snd (cmp objs') L k v)
  | mapGet =>
    obtain ⟨m, k, m', k', rfl, rfl, hm, hk, _⟩ := args2 h
    obtain ⟨k, rfl, rfl⟩ := lift_word hk
    exact MW hm fun L => wrd (nat_mapGet Rel.fst (cmp objs) L k) (by rw [e]; exact nat_mapGet Rel.snd (cmp objs') L k)
  | mapDel =>
    obtain ⟨m, k, m', k', rfl, rfl, hm, hk, _⟩ := args2 h
    obtain ⟨k, rfl, rfl⟩ := lift_word hk
    exact MV hm fun L => map (nat_mapDel Rel.fst (cmp objs) L k) (by rw [e]; exact nat_mapDel Rel.snd (cmp objs') L k)
  | mapLen =>
    obtain ⟨m, m', rfl, rfl, hm⟩ := args1 h
    exact MW hm fun L => num (by rw [nat_mapLen, nat_mapLen]) notObject_valU32
  | mapHas =>
    obtain ⟨m, k, m', k', rfl, rfl, hm, hk, _⟩ := args2 h
    obtain ⟨k, rfl, rfl⟩ := lift_word hk
    exact MW hm fun L => num (by rw [nat_mapHas, nat_mapHas, e]) notObject_valBool
  | mapKeyByPos =>
    obtain ⟨m, k, m', k', rfl, rfl, hm, _, hk⟩ := args2 h
    cases hk rfl
    exact MW hm fun L => wrd (nat_mapKeyByPos Rel.fst L _) (nat_mapKeyByPos Rel.snd L _)
  | mapValByPos =>
    obtain ⟨m, k, m', k', rfl, rfl, hm, _, hk⟩ := args2 h
    cases hk rfl
    exact MW hm fun L => wrd (nat_mapValByPos Rel.fst L _) (nat_mapValByPos Rel.snd L _)
  | mapKeys =>
    obtain ⟨m, m', rfl, rfl, hm⟩ := args1 h
    exact MV hm fun L => vec (nat_mapKeys Rel.fst L) (nat_mapKeys Rel.snd L)
  | mapValues =>
    obtain ⟨m, m', rfl, rfl, hm⟩ := args1 h
    exact MV hm fun L => vec (nat_mapValues Rel.fst L) (nat_mapValues Rel.snd L)
  | vecPut =>
    obtain ⟨m, i, v, m', i', v', rfl, rfl, hm, _, hv, hi, _⟩ := args3 h
    cases hi rfl
    obtain ⟨v, rfl, rfl⟩ := lift_word hv
    exact VV hm fun L => vec (nat_vecPut Rel.fst L _ v) (nat_vecPut Rel.snd L _ v)
  | vecInsert =>
    obtain ⟨m, i, v, m', i', v', rfl, rfl, hm, _, hv, hi, _⟩ := args3 h
    cases hi rfl
    obtain ⟨v, rfl, rfl⟩ := lift_word hv
    exact VV hm fun L => vec (nat_vecInsert Rel.fst L _ v) (nat_vecInsert Rel.snd L _ v)
  | vecGet =>
    obtain ⟨m, k, m', k', rfl, rfl, hm, _, hk⟩ := args2 h
    cases hk rfl
    exact VW hm fun L => wrd (nat_vecGet Rel.fst L _) (nat_vecGet Rel.snd L _)
  | vecDel =>
    obtain ⟨m, k, m', k', rfl, rfl, hm, _, hk⟩ := args2 h
    cases hk rfl
    exact VV hm fun L => vec (nat_vecDel Rel.fst L _) (nat_vecDel Rel.snd L _)
  | vecLen =>
    obtain ⟨m, m', rfl, rfl, hm⟩ := args1 h
    exact VW hm fun L => num (by rw [nat_vecLen, nat_vecLen]) notObject_valU32
  | vecPopFront =>
    obtain ⟨m, m', rfl, rfl, hm⟩ := args1 h
    exact VV hm fun L => vec (nat_vPopFront Rel.fst L) (nat_vPopFront Rel.snd L)
  | vecPopBack =>
    obtain ⟨m, m', rfl, rfl, hm⟩ := args1 h
    exact VV hm fun L => vec (nat_vPopBack Rel.fst L) (nat_vPopBack Rel.snd L)
  | vecFront =>
    obtain ⟨m, m', rfl, rfl, hm⟩ := args1 h
    exact VW hm fun L => wrd (nat_vFront Rel.fst L) (nat_vFront Rel.snd L)
  | vecBack =>
    obtain ⟨m, m', rfl, rfl, hm⟩ := args1 h
    exact VW hm fun L => wrd (nat_vBack Rel.fst L) (nat_vBack Rel.snd L)
  | vecPushFront =>
    obtain ⟨m, k, m', k', rfl, rfl, hm, hk, _⟩ := args2 h
    obtain ⟨k, rfl, rfl⟩ := lift_word hk
    exact VV hm fun L => vec (nat_vPushFront Rel.fst L k) (nat_vPushFront Rel.snd L k)
  | vecPushBack =>
    obtain ⟨m, k, m', k', rfl, rfl, hm, hk, _⟩ := args2 h
    obtain ⟨k, rfl, rfl⟩ := lift_word hk
    exact VV hm fun L => vec (nat_vPushBack Rel.fst L k) (nat_vPushBack Rel.snd L k)
  | vecFirstIndexOf =>
    obtain ⟨m, k, m', k', rfl, rfl, hm, hk, _⟩ := args2 h
    obtain ⟨k, rfl, rfl⟩ := lift_word hk
    exact VW hm fun L => num (by rw [nat_vecFirstIndexOf, nat_vecFirstIndexOf, e]) idx
  | vecLastIndexOf =>
    obtain ⟨m, k, m', k', rfl, rfl, hm, hk, _⟩ := args2 h
    obtain ⟨k, rfl, rfl⟩ := lift_word hk
    exact VW hm fun L => num (by rw [nat_vecLastIndexOf, nat_vecLastIndexOf, e]) idx
  | vecBinarySearch =>
    obtain ⟨m, k, m', k', rfl, rfl, hm, hk, _⟩ := args2 h
    obtain ⟨k, rfl, rfl⟩ := lift_word hk
    refine (rr_visitVec I z z' hm).bind fun x x' hx => ?_
    obtain ⟨L, rfl, rfl⟩ := lift_list hx
    rw [nat_vecBinarySearch, nat_vecBinarySearch, e]
    cases vecBinarySearch (fun a b : Rel P => cmp objs' a.snd b.snd) L k with
    | error e => exact rfl
    | ok n => exact ⟨P, fun _ _ h => h, I, .inl ⟨_, rfl, rfl⟩⟩
  | vecAppend =>
    obtain ⟨a, b, a', b', rfl, rfl, ha, hb, _⟩ := args2 h
    refine VV ha fun L => ?_
    refine (rr_visitVec I z z' hb).bind fun x x' hx => ?_
    obtain ⟨L', rfl, rfl⟩ := lift_list hx
    exact vec (nat_vecAppend Rel.fst L L') (nat_vecAppend Rel.snd L L')
  | vecSlice =>
    obtain ⟨m, i, v, m', i', v', rfl, rfl, hm, _, _, hi, hv⟩ := args3 h
    cases hi rfl
    cases hv rfl
    exact VV hm fun L => vec (nat_vecSlice Rel.fst L _ _) (nat_vecSlice Rel.snd L _ _)

end
end Soroban.Diagnostics
