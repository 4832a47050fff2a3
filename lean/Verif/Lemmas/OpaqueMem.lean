import Verif.Lemmas.OpaqueRun
import Verif.Lemmas.Memory
/-!
Functions on bytes and on linear memory on two hosts side by side.
-/
namespace Soroban.Diagnostics
open Soroban.Spec List

section
variable {P : Nat → Nat → Prop} {objs objs' : List HostObj} (I : Inv P objs objs')
  (s : objs.length ≤ 2^31) (s' : objs'.length ≤ 2^31)
include I s s'

theorem visitBytes_same {v v' : Nat} (h : W P v v') : visitBytes objs v = visitBytes objs' v' := by
  have h := rr_visitObj I s s' h
  unfold visitBytes
  generalize visitObj objs v = x at h
  generalize visitObj objs' v' = y at h
  cases x <;> cases y
  · cases h; rfl
  · exact h.elim
  · exact h.elim
  · rename_i o o'
    change O P o o' at h
    cases h <;> rfl

theorem visitString_same {v v' : Nat} (h : W P v v') : visitString objs v = visitString objs' v' := by
  have h := rr_visitObj I s s' h
  unfold visitString
  generalize visitObj objs v = x at h
  generalize visitObj objs' v' = y at h
  cases x <;> cases y
  · cases h; rfl
  · exact h.elim
  · exact h.elim
  · rename_i o o'
    change O P o o' at h
    cases h <;> rfl

theorem visitSymbol_same {v v' : Nat} (h : W P v v') : visitSymbol objs v = visitSymbol objs' v' := by
  have h := rr_visitObj I s s' h
  unfold visitSymbol
  generalize visitObj objs v = x at h
  generalize visitObj objs' v' = y at h
  cases x <;> cases y
  · cases h; rfl
  · exact h.elim
  · exact h.elim
  · rename_i o o'
    change O P o o' at h
    cases h <;> rfl

theorem symbolText_same {v v' : Nat} (h : W P v v') : symbolText objs v = symbolText objs' v' := by
  unfold symbolText
  rw [visitSymbol_same I s s' h, w_tag I s s' h]
  by_cases ht : Val.tag v' = .SymbolSmall
  · rw [if_pos ht, if_pos ht]
    have hno : Val.isObject v = false := by
      rw [← Bool.not_eq_true]
      intro hob
      have := u8IsObject_tag hob
      rw [w_tag I s s' h, ht] at this
      exact absurd this (by decide)
    rw [w_small I s s' h hno]
  · rw [if_neg ht, if_neg ht]

theorem isSoundVal_same {v v' : Nat} (h : W P v v') : isSoundVal objs v = isSoundVal objs' v' := by
  unfold isSoundVal
  rw [checkIntegrity_same I s s' h]

theorem isVoid_same {v v' : Nat} (h : W P v v') : (v == valVoid) = (v' == valVoid) := by
  rw [Bool.eq_iff_iff, beq_iff_eq, beq_iff_eq]
  exact w_eq I s s' h (.inl ⟨notObject_void, rfl⟩)

theorem checkAll_same {vs vs' : List Nat} (h : Forall₂ (W P) vs vs') : checkAll objs vs = checkAll objs' vs' := by
  induction h with
  | nil => rfl
  | cons hv _ ih => unfold checkAll; rw [checkIntegrity_same I s s' hv, ih]

theorem rr_relToAbsAll {tbl tbl' : List Nat} (ht : Forall₂ (W P) tbl tbl') (ws : List Nat) :
    RR (Forall₂ (W P)) (relToAbsAll tbl ws) (relToAbsAll tbl' ws) := by
  induction ws with
  | nil => exact .nil
  | cons w ws ih => exact (rr_relToAbs I s s' ht w).bind fun a a' ha => ih.bind fun as as' has => .cons ha has

theorem rr_readVals {tbl tbl' : List Nat} (ht : Forall₂ (W P) tbl tbl') (mem : List Nat) (pos n : Nat) :
    RR (Forall₂ (W P)) (readVals mem tbl pos n) (readVals mem tbl' pos n) := by
  unfold readVals
  refine RR.bind (R := Eq) (RR.of_eq rfl fun _ => rfl) fun a a' ha => ?_
  cases ha
  refine RR.bind (R := Eq) (RR.of_eq rfl fun _ => rfl) fun b b' hb => ?_
  cases hb
  exact rr_relToAbsAll I s s' ht _

theorem rr_writeVals {tbl tbl' : List Nat} (ht : Forall₂ (W P) tbl tbl') (mem : List Nat) (pos : Nat) {vs vs' : List Nat}
    (h : Forall₂ (W P) vs vs') :
    RR (fun p q => p.1 = q.1 ∧ Forall₂ (W P) p.2 q.2) (writeVals mem tbl pos vs) (writeVals mem tbl' pos vs') := by
  unfold writeVals
  rw [← h.length_eq]
  refine RR.bind (R := Eq) (RR.of_eq rfl fun _ => rfl) fun a a' ha => ?_
  cases ha
  refine RR.bind (R := Eq) (RR.of_eq rfl fun _ => rfl) fun b b' hb => ?_
  refine (rr_enterFrame I s s' h ht).bind fun p q hp => ?_
  obtain ⟨t, r⟩ := p
  obtain ⟨t', r'⟩ := q
  obtain ⟨hp, e⟩ := hp
  cases e
  refine RR.bind (R := Eq) (RR.of_eq rfl fun _ => rfl) fun c c' hc => ?_
  exact ⟨hc, hp⟩

/-! ### maps -/

theorem rr_mapFromSlicesLoop {cmp cmp' : Nat → Nat → Res Ordering} (hc : CmpOk P cmp cmp') (sparse : Bool)
    {m m' : List (Nat × Nat)} (h : Forall₂ (fun p q => W P p.1 q.1 ∧ W P p.2 q.2) m m') : ∀ {prev prev' : Option Nat},
    Option.Rel (W P) prev prev' → RR (Forall₂ fun p q => W P p.1 q.1 ∧ W P p.2 q.2)
      (mapFromSlicesLoop cmp (isSoundVal objs) (fun v => v == valVoid) sparse prev m)
      (mapFromSlicesLoop cmp' (isSoundVal objs') (fun v => v == valVoid) sparse prev' m') := by
  induction h with
  | nil => intro _ _ _; exact .nil
  | @cons p q _ _ hp _ ih =>
    intro prev prev' hpr
    obtain ⟨k, v⟩ := p
    obtain ⟨k', v'⟩ := q
    have he : checkPrev cmp sparse prev k = checkPrev cmp' sparse prev' k' := by
      cases hpr with
      | none => rfl
      | some hx => simp only [checkPrev]; rw [hc _ _ _ _ hx hp.1]
    have ih := ih (prev := some k) (prev' := some k') (.some hp.1)
    simp only [mapFromSlicesLoop]
    rw [he, isSoundVal_same I s s' hp.2]
    have hv := isVoid_same I s s' hp.2
    generalize mapFromSlicesLoop cmp (isSoundVal objs) (fun v => v == valVoid) sparse (some k) _ = x at ih
    generalize mapFromSlicesLoop cmp' (isSoundVal objs') (fun v => v == valVoid) sparse (some k') _ = y at ih
    cases checkPrev cmp' sparse prev' k' with
    | error e => exact rfl
    | ok u =>
      simp only
      by_cases hg : (!isSoundVal objs' v') = true
      · rw [if_pos hg, if_pos hg]; exact rfl
      · rw [if_neg hg, if_neg hg]
        cases x with
        | error e =>
          cases y with
          | error e' => exact ih
          | ok b => exact ih.elim
        | ok a =>
          cases y with
          | error e' => exact ih.elim
          | ok b =>
            simp only at hv ⊢
            by_cases hb : (!sparse || !(v' == valVoid)) = true
            · rw [if_pos hb, if_pos (by rw [hv]; exact hb)]
              exact .cons hp ih
            · rw [if_neg hb, if_neg (by rw [hv]; exact hb)]
              exact ih

omit I s s' in
theorem rr_fromMap {cmp cmp' : Nat → Nat → Res Ordering} (hc : CmpOk P cmp cmp')
    {m m' : List (Nat × Nat)} (h : Forall₂ (fun p q => W P p.1 q.1 ∧ W P p.2 q.2) m m') :
    RR (Forall₂ fun p q => W P p.1 q.1 ∧ W P p.2 q.2) (fromMap cmp m) (fromMap cmp' m') := by
  obtain ⟨L, rfl, rfl⟩ := lift_pairs h
  exact RR.nat (nat_fromMap Rel.fst cmp L) (by rw [hc.lift]; exact nat_fromMap Rel.snd cmp' L) down_pairs

theorem rr_mapFromSlices {cmp cmp' : Nat → Nat → Res Ordering} (hc : CmpOk P cmp cmp') (sparse : Bool)
    {ks ks' vs vs' : List Nat} (hk : Forall₂ (W P) ks ks') (hv : Forall₂ (W P) vs vs') :
    RR (Forall₂ fun p q => W P p.1 q.1 ∧ W P p.2 q.2)
      (mapFromSlices cmp (isSoundVal objs) (fun v => v == valVoid) sparse ks vs)
      (mapFromSlices cmp' (isSoundVal objs') (fun v => v == valVoid) sparse ks' vs') := by
  unfold mapFromSlices
  rw [← hk.length_eq, ← hv.length_eq]
  split
  · exact rfl
  · have hz : Forall₂ (fun p q : Nat × Nat => W P p.1 q.1 ∧ W P p.2 q.2) (ks.zip vs) (ks'.zip vs') := by
      clear * - hk hv
      induction hk generalizing vs vs' with
      | nil => exact .nil
      | cons h1 _ ih =>
        cases hv with
        | nil => exact .nil
        | cons h2 hv => exact .cons ⟨h1, h2⟩ (ih hv)
    have h := rr_mapFromSlicesLoop I s s' hc sparse hz (prev := none) (prev' := none) .none
    generalize mapFromSlicesLoop cmp (isSoundVal objs) (fun v => v == valVoid) sparse none _ = x at h
    generalize mapFromSlicesLoop cmp' (isSoundVal objs') (fun v => v == valVoid) sparse none _ = y at h
    cases x with
    | error e =>
      cases y with
      | error e' => exact h
      | ok b => exact h.elim
    | ok a =>
      cases y with
      | error e' => exact h.elim
      | ok b => exact rr_fromMap hc h

/-- Entries of two maps, while they are unpacked. -/
def Ent (P : Nat → Nat → Prop) (objs objs' : List HostObj) (p q : (Nat ⊕ List Nat) × Nat) : Prop :=
  (∀ t, unpackCmp objs p.1 (.inr t) = unpackCmp objs' q.1 (.inr t)) ∧ isSymbolKey p.1 = isSymbolKey q.1 ∧ W P p.2 q.2

omit I s s' in
theorem rr_unpackOne (sparse : Bool) (t : List Nat) {m m' : List ((Nat ⊕ List Nat) × Nat)}
    (h : Forall₂ (Ent P objs objs') m m') :
    RR (fun p q => W P p.1 q.1 ∧ Forall₂ (Ent P objs objs') p.2 q.2) (unpackOne (unpackCmp objs) valVoid sparse (.inr t) m)
      (unpackOne (unpackCmp objs') valVoid sparse (.inr t) m') := by
  induction h with
  | nil => exact ⟨.inl ⟨notObject_void, rfl⟩, .nil⟩
  | @cons p q _ _ hp hm ih =>
    obtain ⟨k, v⟩ := p
    obtain ⟨k', v'⟩ := q
    simp only [unpackOne]
    rw [hp.1 t]
    cases unpackCmp objs' k' (.inr t) with
    | error e => exact rfl
    | ok o =>
      simp only
      split
      · cases o with
        | lt => exact ih
        | eq => exact ⟨hp.2.2, hm⟩
        | gt => exact ⟨.inl ⟨notObject_void, rfl⟩, .cons hp hm⟩
      · split
        · exact rfl
        · exact ⟨hp.2.2, hm⟩

omit I s s' in
theorem rr_unpackLoop (sparse : Bool) (ts : List (List Nat)) : ∀ (prev : Option (List Nat)) {m m' : List ((Nat ⊕ List Nat) × Nat)}
    (_ : Forall₂ (Ent P objs objs') m m'),
    RR (fun p q => Forall₂ (W P) p.1 q.1 ∧ Forall₂ (Ent P objs objs') p.2 q.2)
      (unpackLoop (unpackCmp objs) valVoid sparse (prev.map .inr) m (ts.map .inr))
      (unpackLoop (unpackCmp objs') valVoid sparse (prev.map .inr) m' (ts.map .inr)) := by
  induction ts with
  | nil => intro prev m m' h; exact ⟨.nil, h⟩
  | cons t ts ih =>
    intro prev m m' h
    simp only [List.map_cons, unpackLoop]
    have he : checkPrev (unpackCmp objs) true (prev.map .inr) (.inr t) = checkPrev (unpackCmp objs') true (prev.map .inr) (.inr t) := by
      cases prev <;> rfl
    rw [he]
    cases checkPrev (unpackCmp objs') true (prev.map .inr) (.inr t) with
    | error e => exact rfl
    | ok u =>
      simp only
      have h1 := rr_unpackOne sparse t h
      generalize unpackOne (unpackCmp objs) valVoid sparse (.inr t) m = x at h1
      generalize unpackOne (unpackCmp objs') valVoid sparse (.inr t) m' = y at h1
      cases x with
      | error e =>
        cases y with
        | error e' => exact h1
        | ok b => exact h1.elim
      | ok a =>
        cases y with
        | error e' => exact h1.elim
        | ok b =>
          simp only
          have h2 := ih (some t) h1.2
          simp only [Option.map_some] at h2
          generalize unpackLoop (unpackCmp objs) valVoid sparse (some (.inr t)) a.2 _ = x at h2
          generalize unpackLoop (unpackCmp objs') valVoid sparse (some (.inr t)) b.2 _ = y at h2
          cases x with
          | error e =>
            cases y with
            | error e' => exact h2
            | ok b => exact h2.elim
          | ok a =>
            cases y with
            | error e' => exact h2.elim
            | ok b => exact ⟨.cons h1.1 h2.1, h2.2⟩

theorem rr_unpackTexts (sparse : Bool) {m m' : List (Nat × Nat)} (h : Forall₂ (fun p q => W P p.1 q.1 ∧ W P p.2 q.2) m m')
    (ts : List (List Nat)) : RR (Forall₂ (W P)) (unpackTexts objs sparse m ts) (unpackTexts objs' sparse m' ts) := by
  unfold unpackTexts mapUnpack
  have hm : Forall₂ (Ent P objs objs') (m.map (fun p => (Sum.inl p.1, p.2))) (m'.map (fun p => (Sum.inl p.1, p.2))) := by
    induction h with
    | nil => exact .nil
    | cons hp _ ih =>
      refine .cons ⟨fun t => ?_, ?_, hp.2⟩ ih
      · simp only [unpackCmp, keyText]
        rw [symbolText_same I s s' hp.1]
      · simp only [isSymbolKey]
        rw [w_tag I s s' hp.1]
  rw [List.length_map, List.length_map, List.length_map, ← h.length_eq]
  split
  · exact rfl
  · have h2 := rr_unpackLoop sparse ts none hm
    simp only [Option.map_none] at h2
    generalize unpackLoop (unpackCmp objs) valVoid sparse none _ _ = x at h2
    generalize unpackLoop (unpackCmp objs') valVoid sparse none _ _ = y at h2
    cases x with
    | error e =>
      cases y with
      | error e' => exact h2
      | ok b => exact h2.elim
    | ok a =>
      cases y with
      | error e' => exact h2.elim
      | ok b =>
        obtain ⟨vs, r⟩ := a
        obtain ⟨vs', r'⟩ := b
        obtain ⟨hv, hr⟩ := h2
        have he : (r.all fun p => isSymbolKey p.1) = (r'.all fun p => isSymbolKey p.1) := by
          clear * - hr
          simp only at hr
          induction hr with
          | nil => rfl
          | cons hp _ ih => rw [List.all_cons, List.all_cons, hp.2.1, ih]
        simp only
        rw [he]
        split
        · exact hv
        · exact rfl

/-! ### new objects -/

/-- A table and words made on the two hosts. -/
def Made {α : Type} (R : (Nat → Nat → Prop) → α → α → Prop) (P : Nat → Nat → Prop) (x y : List HostObj × α) : Prop :=
  ∃ Q : Nat → Nat → Prop, (∀ i j, P i j → Q i j) ∧ Inv Q x.1 y.1 ∧ R Q x.2 y.2

omit s s' in
theorem rr_addObj (s : objs.length < 2^31) (s' : objs'.length < 2^31) {o o' : HostObj} (h : O P o o') :
    RR (Made W P) (addObj objs o) (addObj objs' o') := by
  have h := rr_retObj I s s' (x := .ok o) (x' := .ok o') h
  change RR (Ran P) (addObj objs o >>= fun p => .ok (p.1, Ret.val p.2)) (addObj objs' o' >>= fun p => .ok (p.1, Ret.val p.2)) at h
  generalize addObj objs o = x at h
  generalize addObj objs' o' = y at h
  cases x with
  | error e =>
    cases y with
    | error e' => exact h
    | ok b => exact h.elim
  | ok a =>
    cases y with
    | error e' => exact h.elim
    | ok b =>
      obtain ⟨Q, hq, J, hv⟩ := h
      rcases hv with ⟨n, h1, _⟩ | ⟨v, v', h1, h2, hw⟩
      · cases h1
      · cases h1
        cases h2
        exact ⟨Q, hq, J, hw⟩

omit I s s' in
theorem symbolFromSlice_len {b : List Nat} {o : List HostObj} {v : Nat} (h : symbolFromSlice objs b = .ok (o, v)) :
    o.length ≤ objs.length + 1 := by
  unfold symbolFromSlice at h
  split at h
  · cases h; omega
  · obtain ⟨ob, _, h⟩ := bind_ok.mp h
    rw [addObj_eq h, List.length_append]
    exact Nat.le_refl _

omit I s s' in
theorem symbolsFromSlices_len {bs : List (List Nat)} : ∀ {objs o : List HostObj} {vs : List Nat},
    symbolsFromSlices objs bs = .ok (o, vs) → o.length ≤ objs.length + bs.length := by
  induction bs with
  | nil => intro objs o vs h; cases h; exact Nat.le_refl _
  | cons b bs ih =>
    intro objs o vs h
    unfold symbolsFromSlices at h
    obtain ⟨⟨o1, v⟩, h1, h⟩ := bind_ok.mp h
    obtain ⟨⟨o2, ws⟩, h2, h⟩ := bind_ok.mp h
    cases h
    have := symbolFromSlice_len h1
    have := ih h2
    rw [List.length_cons]
    omega

omit s s' in
theorem rr_symbolFromSlice (s : objs.length < 2^31) (s' : objs'.length < 2^31) (b : List Nat) :
    RR (Made W P) (symbolFromSlice objs b) (symbolFromSlice objs' b) := by
  unfold symbolFromSlice
  cases hb : symbolTryFromBytes b with
  | some v => exact ⟨P, fun _ _ h => h, I, .inl ⟨notObject_small hb, rfl⟩⟩
  | none =>
    refine RR.bind (R := O P) ?_ fun o o' ho => rr_addObj I s s' ho
    unfold symbolObject
    split
    · exact rfl
    · split
      · exact .same (by intro l h; cases h) (by intro l h; cases h)
      · exact rfl

omit I s s' in
theorem rr_symbolsFromSlices (bs : List (List Nat)) : ∀ {P : Nat → Nat → Prop} {objs objs' : List HostObj} (_ : Inv P objs objs')
    (_ : objs.length + bs.length ≤ 2^31) (_ : objs'.length + bs.length ≤ 2^31),
    RR (Made (fun Q => Forall₂ (W Q)) P) (symbolsFromSlices objs bs) (symbolsFromSlices objs' bs) := by
  induction bs with
  | nil => intro P objs objs' I _ _; exact ⟨P, fun _ _ h => h, I, .nil⟩
  | cons b bs ih =>
    intro P objs objs' I s s'
    rw [List.length_cons] at s s'
    have h := rr_symbolFromSlice I (by omega) (by omega) b
    have l : ∀ o v, symbolFromSlice objs b = .ok (o, v) → _ := fun o v h => symbolFromSlice_len h
    have l' : ∀ o v, symbolFromSlice objs' b = .ok (o, v) → _ := fun o v h => symbolFromSlice_len h
    unfold symbolsFromSlices
    generalize symbolFromSlice objs b = x at h l
    generalize symbolFromSlice objs' b = y at h l'
    cases x with
    | error e =>
      cases y with
      | error e' => exact h
      | ok b => exact h.elim
    | ok a =>
      cases y with
      | error e' => exact h.elim
      | ok c =>
        obtain ⟨o, v⟩ := a
        obtain ⟨o', v'⟩ := c
        have l := l o v rfl
        have l' := l' o' v' rfl
        obtain ⟨Q, hq, J, hw⟩ := h
        simp only at J hw
        change RR _ (symbolsFromSlices o bs >>= fun p => .ok (p.1, v :: p.2)) (symbolsFromSlices o' bs >>= fun p => .ok (p.1, v' :: p.2))
        refine (ih J (by omega) (by omega)).bind fun p q hp => ?_
        obtain ⟨Q', hq', J', hws⟩ := hp
        exact ⟨Q', fun i j h => hq' _ _ (hq _ _ h), J', .cons (hw.mono hq') hws⟩

omit I s s' in
theorem scanSlices_room {mem : List Nat} {pos : Nat} (n : Nat) : ∀ {i : Nat} {bs : List (List Nat)},
    scanSlices mem pos i n = .ok bs → bs.length = n ∧ (n = 0 ∨ pos + 8 * (i + n) ≤ mem.length) := by
  induction n with
  | zero => intro i bs h; cases h; exact ⟨rfl, .inl rfl⟩
  | succ n ih =>
    intro i bs h
    unfold scanSlices at h
    obtain ⟨sl, h1, h⟩ := bind_ok.mp h
    obtain ⟨b, _, h⟩ := bind_ok.mp h
    obtain ⟨r, h3, h⟩ := bind_ok.mp h
    cases h
    have := ih h3
    refine ⟨by rw [List.length_cons, this.1], .inr ?_⟩
    rcases this.2 with rfl | h4
    · unfold scanSlice at h1
      obtain ⟨x, h1, _⟩ := bind_ok.mp h1
      unfold readBytes at h1
      split at h1
      · rename_i hl; omega
      · cases h1
    · omega

omit I s s' in
theorem args4 {t u r w : ArgTy} {as as' : List Nat} (h : Args P [t, u, r, w] as as') :
    ∃ a b c d a' b' c' d', as = [a, b, c, d] ∧ as' = [a', b', c', d'] ∧ W P a a' ∧ (u = .u32 → b' = b) ∧ (r = .u32 → c' = c) ∧
      (w = .u32 → d' = d) := by
  cases h with
  | cons h1 h =>
    cases h with
    | cons h2 h =>
      cases h with
      | cons h3 h =>
        cases h with
        | cons h4 h => cases h; exact ⟨_, _, _, _, _, _, _, _, rfl, rfl, h1.1, h2.2, h3.2, h4.2⟩

omit I s s' in
theorem args2n {t u : ArgTy} {as as' : List Nat} (h : Args P [t, u] as as') :
    ∃ a b a' b', as = [a, b] ∧ as' = [a', b'] ∧ (t = .u32 → a' = a) ∧ (u = .u32 → b' = b) := by
  cases h with
  | cons h1 h =>
    cases h with
    | cons h2 h => cases h; exact ⟨_, _, _, _, rfl, rfl, h1.2, h2.2⟩

omit I s s' in
theorem args3n {t u r : ArgTy} {as as' : List Nat} (h : Args P [t, u, r] as as') :
    ∃ a b c a' b' c', as = [a, b, c] ∧ as' = [a', b', c'] ∧ (t = .u32 → a' = a) ∧ (u = .u32 → b' = b) ∧ (r = .u32 → c' = c) := by
  cases h with
  | cons h1 h =>
    cases h with
    | cons h2 h =>
      cases h with
      | cons h3 h => cases h; exact ⟨_, _, _, _, _, _, rfl, rfl, h1.2, h2.2, h3.2⟩

omit I s s' in
theorem rr_oSame {x : Res HostObj} (h : ∀ o, x = .ok o → (∀ l, o ≠ .vec l) ∧ ∀ m, o ≠ .map m) : RR (O P) x x := by
  cases x with
  | error e => exact rfl
  | ok o => exact .same (h o rfl).1 (h o rfl).2

omit I s s' in
theorem bind_bytes {α : Type} {x : Res α} {f : α → HostObj} (hf : ∀ a, (∀ l, f a ≠ .vec l) ∧ ∀ m, f a ≠ .map m) :
    ∀ o, (do let r ← x; Except.ok (f r) : Res HostObj) = .ok o → (∀ l, o ≠ .vec l) ∧ ∀ m, o ≠ .map m := by
  intro o h
  obtain ⟨r, _, h⟩ := bind_ok.mp h
  cases h
  exact hf r

omit s s' in
theorem rr_runB (s : objs.length < 2^31) (s' : objs'.length < 2^31) (f : BFn) {as as' : List Nat} (h : Args P f.args as as') :
    RR (Ran P) (runB objs f as) (runB objs' f as') := by
  have z := Nat.le_of_lt s
  have z' := Nat.le_of_lt s'
  have ob : ∀ {x x' : Res HostObj}, x = x' → (∀ o, x = .ok o → (∀ l, o ≠ .vec l) ∧ ∀ m, o ≠ .map m) →
      RR (Ran P) (retObj objs x) (retObj objs' x') := by
    intro x x' e h
    subst e
    exact rr_retObj I s s' (rr_oSame h)
  have nb : ∀ r : List Nat, (∀ l, HostObj.bytes r ≠ .vec l) ∧ ∀ m, HostObj.bytes r ≠ .map m := fun r =>
    ⟨(by intro l h; cases h), (by intro l h; cases h)⟩
  have ns : ∀ r : List Nat, (∀ l, HostObj.string r ≠ .vec l) ∧ ∀ m, HostObj.string r ≠ .map m := fun r =>
    ⟨(by intro l h; cases h), (by intro l h; cases h)⟩
  have ne : ∀ r : List Nat, (∀ l, HostObj.executableTag r ≠ .vec l) ∧ ∀ m, HostObj.executableTag r ≠ .map m := fun r =>
    ⟨(by intro l h; cases h), (by intro l h; cases h)⟩
  have bb : ∀ {x : Res (List Nat)} {F : List Nat → Res (List Nat)},
      ∀ o, (do let b ← x; let r ← F b; Except.ok (HostObj.bytes r) : Res HostObj) = .ok o → (∀ l, o ≠ .vec l) ∧ ∀ m, o ≠ .map m := by
    intro x F o h
    obtain ⟨b, _, h⟩ := bind_ok.mp h
    exact bind_bytes nb o h
  have nu : ∀ {x : Res (List Nat)} {F : List Nat → Res Nat},
      ∀ v, (do let b ← x; let n ← F b; Except.ok (valU32 n) : Res Nat) = .ok v → Val.isObject v = false := by
    intro x F o h
    obtain ⟨b, _, h⟩ := bind_ok.mp h
    obtain ⟨n, _, h⟩ := bind_ok.mp h
    cases h
    exact notObject_valU32 n
  cases f with
  | bytesNew => cases h; exact ob (x := .ok (.bytes [])) rfl (by intro o h; cases h; exact nb _)
  | bytesPut =>
    obtain ⟨m, i, v, m', i', v', rfl, rfl, hm, _, _, hi, hv⟩ := args3 h
    cases hi rfl
    cases hv rfl
    simp only [runB]
    rw [← visitBytes_same I z z' hm]
    exact ob rfl bb
  | bytesGet =>
    obtain ⟨m, k, m', k', rfl, rfl, hm, _, hk⟩ := args2 h
    cases hk rfl
    simp only [runB]
    rw [← visitBytes_same I z z' hm]
    exact rr_same I rfl nu
  | bytesDel =>
    obtain ⟨m, k, m', k', rfl, rfl, hm, _, hk⟩ := args2 h
    cases hk rfl
    simp only [runB]
    rw [← visitBytes_same I z z' hm]
    exact ob rfl bb
  | bytesLen =>
    obtain ⟨m, m', rfl, rfl, hm⟩ := args1 h
    simp only [runB]
    rw [← visitBytes_same I z z' hm]
    exact rr_same I rfl nu
  | bytesPush =>
    obtain ⟨m, k, m', k', rfl, rfl, hm, _, hk⟩ := args2 h
    cases hk rfl
    simp only [runB]
    rw [← visitBytes_same I z z' hm]
    exact ob rfl bb
  | bytesPop =>
    obtain ⟨m, m', rfl, rfl, hm⟩ := args1 h
    simp only [runB]
    rw [← visitBytes_same I z z' hm]
    exact ob rfl bb
  | bytesFront =>
    obtain ⟨m, m', rfl, rfl, hm⟩ := args1 h
    simp only [runB]
    rw [← visitBytes_same I z z' hm]
    exact rr_same I rfl nu
  | bytesBack =>
    obtain ⟨m, m', rfl, rfl, hm⟩ := args1 h
    simp only [runB]
    rw [← visitBytes_same I z z' hm]
    exact rr_same I rfl nu
  | bytesInsert =>
    obtain ⟨m, i, v, m', i', v', rfl, rfl, hm, _, _, hi, hv⟩ := args3 h
    cases hi rfl
    cases hv rfl
    simp only [runB]
    rw [← visitBytes_same I z z' hm]
    exact ob rfl bb
  | bytesAppend =>
    obtain ⟨a, b, a', b', rfl, rfl, ha, hb, _⟩ := args2 h
    simp only [runB]
    rw [← visitBytes_same I z z' ha, ← visitBytes_same I z z' hb]
    refine ob rfl fun o h => ?_
    obtain ⟨_, _, h⟩ := bind_ok.mp h
    exact bb o h
  | bytesSlice =>
    obtain ⟨m, i, v, m', i', v', rfl, rfl, hm, _, _, hi, hv⟩ := args3 h
    cases hi rfl
    cases hv rfl
    simp only [runB]
    rw [← visitBytes_same I z z' hm]
    exact ob rfl bb
  | stringToBytes =>
    obtain ⟨m, m', rfl, rfl, hm⟩ := args1 h
    simp only [runB]
    rw [← visitString_same I z z' hm]
    exact ob rfl (bind_bytes nb)
  | bytesToString =>
    obtain ⟨m, m', rfl, rfl, hm⟩ := args1 h
    simp only [runB]
    rw [← visitBytes_same I z z' hm]
    exact ob rfl (bind_bytes ns)
  | createExecutableTag =>
    obtain ⟨m, m', rfl, rfl, hm⟩ := args1 h
    simp only [runB]
    rw [← visitString_same I z z' hm]
    exact ob rfl (bind_bytes ne)
  | stringLen =>
    obtain ⟨m, m', rfl, rfl, hm⟩ := args1 h
    simp only [runB]
    rw [← visitString_same I z z' hm]
    exact rr_same I rfl nu
  | symbolLen =>
    obtain ⟨m, m', rfl, rfl, hm⟩ := args1 h
    simp only [runB]
    rw [← visitSymbol_same I z z' hm]
    exact rr_same I rfl nu

end

theorem runH_len {cmp : List HostObj → Nat → Nat → Res Ordering} {l : Lin} {f : HFn} {as : List Nat} {x : Lin} {r : Ret}
    (h : runH cmp l f as = .ok (x, r)) : x.objs.length ≤ l.objs.length + l.mem.length / 8 + 1 := by
  have ro : ∀ {o p : List HostObj} {as : List Nat} {r : Ret}, RunResult o as p r → p.length ≤ o.length + 1 := by
    intro o p as r h
    cases h with
    | raw n e => rw [e]; omega
    | val v e _ => rw [e]; omega
    | obj ob v e _ => rw [addObj_eq e, List.length_append]; exact Nat.le_refl _
  cases f with
  | obj f =>
    obtain ⟨⟨o, r'⟩, h1, h⟩ := bind_ok.mp h
    cases h
    have := ro (runFn_result h1)
    simp only
    omega
  | buf f =>
    obtain ⟨⟨o, r'⟩, h1, h⟩ := bind_ok.mp h
    cases h
    have := ro (runB_result h1)
    simp only
    omega
  | mem f =>
    change runM cmp l f as = .ok (x, r) at h
    have cp : ∀ {b : Res (List Nat)} {p q n : Nat}, copyTo l b p q n = .ok (x, r) → x.objs.length ≤ l.objs.length + 1 := by
      intro b p q n h
      obtain ⟨_, _, h⟩ := bind_ok.mp h
      obtain ⟨_, _, h⟩ := bind_ok.mp h
      obtain ⟨_, _, h⟩ := bind_ok.mp h
      cases h
      exact Nat.le_succ _
    have ad : ∀ {o : List HostObj} {ob : HostObj},
        (addObj o ob >>= fun p => .ok ({ l with objs := p.1 }, Ret.val p.2)) = .ok (x, r) → x.objs.length ≤ o.length + 1 := by
      intro o ob h
      obtain ⟨⟨o', v⟩, h1, h⟩ := bind_ok.mp h
      cases h
      simp only
      rw [addObj_eq h1, List.length_append]
      exact Nat.le_refl _
    have nf : ∀ {mk : List Nat → Res HostObj} {p n : Nat}, newFrom l mk p n = .ok (x, r) → x.objs.length ≤ l.objs.length + 1 := by
      intro mk p n h
      obtain ⟨_, _, h⟩ := bind_ok.mp h
      obtain ⟨_, _, h⟩ := bind_ok.mp h
      exact ad h
    have one : x.objs.length ≤ l.objs.length + 1 → x.objs.length ≤ l.objs.length + l.mem.length / 8 + 1 := by omega
    unfold runM at h
    split at h
    · exact one (cp h)
    · exact one (cp h)
    · exact one (cp h)
    · obtain ⟨_, _, h⟩ := bind_ok.mp h
      obtain ⟨_, _, h⟩ := bind_ok.mp h
      exact one (ad h)
    · exact one (nf h)
    · exact one (nf h)
    · exact one (nf h)
    · obtain ⟨_, _, h⟩ := bind_ok.mp h
      obtain ⟨_, _, h⟩ := bind_ok.mp h
      split at h
      · cases h; omega
      · cases h
    · obtain ⟨_, _, h⟩ := bind_ok.mp h
      obtain ⟨_, _, h⟩ := bind_ok.mp h
      obtain ⟨_, _, h⟩ := bind_ok.mp h
      exact one (ad h)
    · obtain ⟨_, _, h⟩ := bind_ok.mp h
      split at h
      · obtain ⟨_, _, h⟩ := bind_ok.mp h
        cases h
        simp only
        omega
      · cases h
    · obtain ⟨bs, h1, h⟩ := bind_ok.mp h
      obtain ⟨⟨o, ks⟩, h2, h⟩ := bind_ok.mp h
      obtain ⟨_, _, h⟩ := bind_ok.mp h
      obtain ⟨_, _, h⟩ := bind_ok.mp h
      have h3 := ad h
      have h4 := symbolsFromSlices_len h2
      have h5 := scanSlices_room _ h1
      omega
    · obtain ⟨_, _, h⟩ := bind_ok.mp h
      obtain ⟨_, _, h⟩ := bind_ok.mp h
      obtain ⟨_, _, h⟩ := bind_ok.mp h
      obtain ⟨_, _, h⟩ := bind_ok.mp h
      cases h
      simp only
      omega
    · cases h

/-- What a host function leaves on the two hosts. -/
def RanL (P : Nat → Nat → Prop) (x y : Lin × Ret) : Prop :=
  x.1.mem = y.1.mem ∧ ∃ Q : Nat → Nat → Prop, (∀ i j, P i j → Q i j) ∧ Inv Q x.1.objs y.1.objs ∧ Forall₂ (W Q) x.1.tbl y.1.tbl ∧
    ((∃ n, x.2 = .raw n ∧ y.2 = .raw n) ∨ ∃ v v', x.2 = .val v ∧ y.2 = .val v' ∧ W Q v v')

section
variable {P : Nat → Nat → Prop} {mem : List Nat} {objs objs' : List HostObj} {tbl tbl' : List Nat} (I : Inv P objs objs')
  (ht : Forall₂ (W P) tbl tbl') (s : objs.length + mem.length / 8 < 2^31) (s' : objs'.length + mem.length / 8 < 2^31)
include I ht s s'

theorem rr_runM {cmp : List HostObj → Nat → Nat → Res Ordering} (hc : ∀ {Q : Nat → Nat → Prop} {o o' : List HostObj}, Inv Q o o' →
      o.length ≤ 2^31 → o'.length ≤ 2^31 → CmpOk Q (cmp o) (cmp o')) (f : MFn) {as as' : List Nat} (h : Args P f.args as as') :
    RR (RanL P) (runM cmp ⟨mem, objs, tbl⟩ f as) (runM cmp ⟨mem, objs', tbl'⟩ f as') := by
  have y : objs.length < 2^31 := by omega
  have y' : objs'.length < 2^31 := by omega
  have z := Nat.le_of_lt y
  have z' := Nat.le_of_lt y'
  have add : ∀ {o o' : HostObj}, O P o o' → RR (RanL P)
      (addObj objs o >>= fun p => .ok ((⟨mem, p.1, tbl⟩ : Lin), Ret.val p.2))
      (addObj objs' o' >>= fun p => .ok ((⟨mem, p.1, tbl'⟩ : Lin), Ret.val p.2)) := by
    intro o o' ho
    refine (rr_addObj I y y' ho).bind fun p q hp => ?_
    obtain ⟨Q, hq, J, hw⟩ := hp
    exact ⟨rfl, Q, hq, J, ht.imp fun _ _ => W.mono hq, .inr ⟨_, _, rfl, rfl, hw⟩⟩
  have eq : ∀ {α : Type} (x : Res α), RR Eq x x := fun x => RR.of_eq rfl fun _ => rfl
  have cp : ∀ (b : Res (List Nat)) (p q n : Nat),
      RR (RanL P) (copyTo ⟨mem, objs, tbl⟩ b p q n) (copyTo ⟨mem, objs', tbl'⟩ b p q n) := by
    intro b p q n
    unfold copyTo
    refine (eq b).bind fun b b' hb => ?_
    cases hb
    refine (eq _).bind fun c c' hc => ?_
    cases hc
    refine (eq _).bind fun d d' hd => ?_
    cases hd
    exact ⟨rfl, P, fun _ _ h => h, I, ht, .inr ⟨_, _, rfl, rfl, .inl ⟨notObject_void, rfl⟩⟩⟩
  have nf : ∀ (mk : List Nat → Res HostObj) (p n : Nat), (∀ b o, mk b = .ok o → (∀ l, o ≠ .vec l) ∧ ∀ m, o ≠ .map m) →
      RR (RanL P) (newFrom ⟨mem, objs, tbl⟩ mk p n) (newFrom ⟨mem, objs', tbl'⟩ mk p n) := by
    intro mk p n hmk
    unfold newFrom
    refine (eq _).bind fun b b' hb => ?_
    cases hb
    refine RR.bind (R := O P) (rr_oSame (hmk b)) fun o o' ho => ?_
    exact add ho
  cases f with
  | bytesCopyTo =>
    obtain ⟨a, b, c, d, a', b', c', d', rfl, rfl, ha, hb, hc, hd⟩ := args4 h
    cases hb rfl
    cases hc rfl
    cases hd rfl
    simp only [runM]
    rw [visitBytes_same I z z' ha]
    exact cp _ _ _ _
  | stringCopyTo =>
    obtain ⟨a, b, c, d, a', b', c', d', rfl, rfl, ha, hb, hc, hd⟩ := args4 h
    cases hb rfl
    cases hc rfl
    cases hd rfl
    simp only [runM]
    rw [visitString_same I z z' ha]
    exact cp _ _ _ _
  | symbolCopyTo =>
    obtain ⟨a, b, c, d, a', b', c', d', rfl, rfl, ha, hb, hc, hd⟩ := args4 h
    cases hb rfl
    cases hc rfl
    cases hd rfl
    simp only [runM]
    rw [visitSymbol_same I z z' ha]
    exact cp _ _ _ _
  | bytesCopyFrom =>
    obtain ⟨a, b, c, d, a', b', c', d', rfl, rfl, ha, hb, hc, hd⟩ := args4 h
    cases hb rfl
    cases hc rfl
    cases hd rfl
    simp only [runM]
    rw [visitBytes_same I z z' ha]
    refine (eq _).bind fun b b' hb => ?_
    cases hb
    refine (eq _).bind fun r r' hr => ?_
    cases hr
    exact add (.same (by intro l h; cases h) (by intro l h; cases h))
  | bytesNewFrom =>
    obtain ⟨a, b, a', b', rfl, rfl, ha, hb⟩ := args2n h
    cases ha rfl
    cases hb rfl
    exact nf _ _ _ fun b o h => by cases h; exact ⟨(by intro l h; cases h), (by intro l h; cases h)⟩
  | stringNewFrom =>
    obtain ⟨a, b, a', b', rfl, rfl, ha, hb⟩ := args2n h
    cases ha rfl
    cases hb rfl
    exact nf _ _ _ fun b o h => by cases h; exact ⟨(by intro l h; cases h), (by intro l h; cases h)⟩
  | symbolNewFrom =>
    obtain ⟨a, b, a', b', rfl, rfl, ha, hb⟩ := args2n h
    cases ha rfl
    cases hb rfl
    refine nf _ _ _ fun b o h => ?_
    unfold symbolObject at h
    split at h
    · cases h
    · split at h
      · cases h; exact ⟨(by intro l h; cases h), (by intro l h; cases h)⟩
      · cases h
  | symbolIndex =>
    obtain ⟨a, b, c, a', b', c', rfl, rfl, ha, _, _, hb, hc⟩ := args3 h
    cases hb rfl
    cases hc rfl
    simp only [runM, symbolIndex]
    rw [symbolText_same I z z' ha]
    refine (eq _).bind fun t t' h => ?_
    cases h
    refine (eq _).bind fun bs bs' h => ?_
    cases h
    cases firstMatch t 0 bs with
    | none => exact rfl
    | some i => exact ⟨rfl, P, fun _ _ h => h, I, ht, .inr ⟨_, _, rfl, rfl, .inl ⟨notObject_valU32 _, rfl⟩⟩⟩
  | vecNewFrom =>
    obtain ⟨a, b, a', b', rfl, rfl, ha, hb⟩ := args2n h
    cases ha rfl
    cases hb rfl
    simp only [runM, vecNewFrom]
    refine (rr_readVals I z z' ht _ _ _).bind fun vs vs' hvs => ?_
    rw [checkAll_same I z z' hvs]
    refine (eq _).bind fun _ _ _ => ?_
    obtain ⟨L, rfl, rfl⟩ := lift_list hvs
    exact (RR.nat (nat_vecFromIter Rel.fst L) (nat_vecFromIter Rel.snd L) down_list).bind fun r r' hr => add (.vec hr)
  | vecUnpackTo =>
    obtain ⟨a, b, c, a', b', c', rfl, rfl, ha, _, _, hb, hc⟩ := args3 h
    cases hb rfl
    cases hc rfl
    simp only [runM, vecUnpackTo]
    refine (rr_visitVec I z z' ha).bind fun vs vs' hvs => ?_
    rw [← hvs.length_eq]
    split
    · refine (rr_writeVals I z z' ht _ _ hvs).bind fun p q hp => ?_
      exact ⟨hp.1, P, fun _ _ h => h, I, hp.2, .inr ⟨_, _, rfl, rfl, .inl ⟨notObject_void, rfl⟩⟩⟩
    · exact rfl
  | mapNewFrom sparse =>
    obtain ⟨a, b, c, a', b', c', rfl, rfl, ha, hb, hc'⟩ := args3n h
    cases ha rfl
    cases hb rfl
    cases hc' rfl
    simp only [runM, mapNewFromMem]
    cases hs : scanSlices mem (Val.major a) 0 (Val.major c) with
    | error e => exact rfl
    | ok bs =>
      have hr := scanSlices_room _ hs
      have hl : bs.length ≤ mem.length / 8 := by omega
      have h1 := rr_symbolsFromSlices bs I (by omega) (by omega)
      have l : ∀ o v, symbolsFromSlices objs bs = .ok (o, v) → _ := fun o v h => symbolsFromSlices_len h
      have l' : ∀ o v, symbolsFromSlices objs' bs = .ok (o, v) → _ := fun o v h => symbolsFromSlices_len h
      change RR (RanL P)
        (symbolsFromSlices objs bs >>= fun p => readVals mem tbl (Val.major b) (Val.major c) >>= fun vals =>
          mapFromSlices (cmp p.1) (isSoundVal p.1) (fun v => v == valVoid) sparse p.2 vals >>= fun m =>
          addObj p.1 (.map m) >>= fun q => .ok ((⟨mem, q.1, tbl⟩ : Lin), Ret.val q.2))
        (symbolsFromSlices objs' bs >>= fun p => readVals mem tbl' (Val.major b) (Val.major c) >>= fun vals =>
          mapFromSlices (cmp p.1) (isSoundVal p.1) (fun v => v == valVoid) sparse p.2 vals >>= fun m =>
          addObj p.1 (.map m) >>= fun q => .ok ((⟨mem, q.1, tbl'⟩ : Lin), Ret.val q.2))
      generalize symbolsFromSlices objs bs = x at h1 l
      generalize symbolsFromSlices objs' bs = x' at h1 l'
      cases x with
      | error e =>
        cases x' with
        | error e' => exact h1
        | ok b => exact h1.elim
      | ok p =>
        cases x' with
        | error e' => exact h1.elim
        | ok q =>
          obtain ⟨Q, hq, J, hk⟩ := h1
          have l := l p.1 p.2 rfl
          have l' := l' q.1 q.2 rfl
          have y : p.1.length < 2^31 := by omega
          have y' : q.1.length < 2^31 := by omega
          have z := Nat.le_of_lt y
          have z' := Nat.le_of_lt y'
          have hT : Forall₂ (W Q) tbl tbl' := ht.imp fun _ _ => W.mono hq
          change RR (RanL P)
            (readVals mem tbl (Val.major b) (Val.major c) >>= fun vals =>
              mapFromSlices (cmp p.1) (isSoundVal p.1) (fun v => v == valVoid) sparse p.2 vals >>= fun m =>
              addObj p.1 (.map m) >>= fun q => .ok ((⟨mem, q.1, tbl⟩ : Lin), Ret.val q.2))
            (readVals mem tbl' (Val.major b) (Val.major c) >>= fun vals =>
              mapFromSlices (cmp q.1) (isSoundVal q.1) (fun v => v == valVoid) sparse q.2 vals >>= fun m =>
              addObj q.1 (.map m) >>= fun q => .ok ((⟨mem, q.1, tbl'⟩ : Lin), Ret.val q.2))
          refine (rr_readVals J z z' hT _ _ _).bind fun vs vs' hvs => ?_
          refine (rr_mapFromSlices J z z' (hc J z z') sparse hk hvs).bind fun m m' hm => ?_
          refine (rr_addObj J y y' (.map hm)).bind fun r r' hr => ?_
          obtain ⟨Q', hq', J', hw⟩ := hr
          exact ⟨rfl, Q', fun i j h => hq' _ _ (hq _ _ h), J', hT.imp fun _ _ => W.mono hq', .inr ⟨_, _, rfl, rfl, hw⟩⟩
  | mapUnpackTo sparse =>
    obtain ⟨a, b, c, d, a', b', c', d', rfl, rfl, ha, hb, hc, hd⟩ := args4 h
    cases hb rfl
    cases hc rfl
    cases hd rfl
    simp only [runM, mapUnpackToMem]
    refine (rr_visitMap I z z' ha).bind fun m m' hm => ?_
    refine (eq _).bind fun bs bs' h => ?_
    cases h
    refine (rr_unpackTexts I z z' sparse hm bs).bind fun vs vs' hvs => ?_
    refine (rr_writeVals I z z' ht _ _ hvs).bind fun p q hp => ?_
    exact ⟨hp.1, P, fun _ _ h => h, I, hp.2, .inr ⟨_, _, rfl, rfl, .inl ⟨notObject_void, rfl⟩⟩⟩

theorem rr_runH {cmp : List HostObj → Nat → Nat → Res Ordering} (hc : ∀ {Q : Nat → Nat → Prop} {o o' : List HostObj}, Inv Q o o' →
      o.length ≤ 2^31 → o'.length ≤ 2^31 → CmpOk Q (cmp o) (cmp o')) (f : HFn) {as as' : List Nat} (h : Args P f.args as as') :
    RR (RanL P) (runH cmp ⟨mem, objs, tbl⟩ f as) (runH cmp ⟨mem, objs', tbl'⟩ f as') := by
  have y : objs.length < 2^31 := by omega
  have y' : objs'.length < 2^31 := by omega
  have wrap : ∀ {x x' : Res (List HostObj × Ret)}, RR (Ran P) x x' → RR (RanL P)
      (x >>= fun p => .ok ((⟨mem, p.1, tbl⟩ : Lin), p.2)) (x' >>= fun p => .ok ((⟨mem, p.1, tbl'⟩ : Lin), p.2)) := by
    intro x x' h
    refine h.bind fun p q hp => ?_
    obtain ⟨Q, hq, J, hv⟩ := hp
    exact ⟨rfl, Q, hq, J, ht.imp fun _ _ => W.mono hq, hv⟩
  cases f with
  | obj f => exact wrap (rr_runFn I (hc I (Nat.le_of_lt y) (Nat.le_of_lt y')) y y' f h)
  | buf f => exact wrap (rr_runB I y y' f h)
  | mem f => exact rr_runM I ht s s' hc f h

/-- What a host call gives on the two hosts. -/
def Got (P : Nat → Nat → Prop) (x y : Lin × Int) : Prop :=
  x.2 = y.2 ∧ x.1.mem = y.1.mem ∧ ∃ Q : Nat → Nat → Prop, (∀ i j, P i j → Q i j) ∧ Inv Q x.1.objs y.1.objs ∧
    Forall₂ (W Q) x.1.tbl y.1.tbl

theorem rr_dispatch (d : Nat) (f : HFn) (ws : List Nat) :
    RR (Got P) (dispatchH (fun o => valCmp o d) ⟨mem, objs, tbl⟩ f ws) (dispatchH (fun o => valCmp o d) ⟨mem, objs', tbl'⟩ f ws) := by
  have z : objs.length ≤ 2^31 := by omega
  have z' : objs'.length ≤ 2^31 := by omega
  unfold dispatchH
  refine (rr_typedArgs I z z' ht f.args ws).bind fun as as' has => ?_
  have hr := rr_runH I ht s s' (cmp := fun o => valCmp o d) (fun J k k' => valCmp_same J k k' d) f has
  have l : ∀ x r, runH (fun o => valCmp o d) ⟨mem, objs, tbl⟩ f as = .ok (x, r) → x.objs.length ≤ 2^31 := by
    intro x r h
    have := runH_len h
    simp only at this
    omega
  have l' : ∀ x r, runH (fun o => valCmp o d) ⟨mem, objs', tbl'⟩ f as' = .ok (x, r) → x.objs.length ≤ 2^31 := by
    intro x r h
    have := runH_len h
    simp only at this
    omega
  generalize runH (fun o => valCmp o d) ⟨mem, objs, tbl⟩ f as = x at hr l
  generalize runH (fun o => valCmp o d) ⟨mem, objs', tbl'⟩ f as' = y at hr l'
  cases x with
  | error e =>
    cases y with
    | error e' => exact hr
    | ok b => exact hr.elim
  | ok a =>
    cases y with
    | error e' => exact hr.elim
    | ok b =>
      obtain ⟨o, r⟩ := a
      obtain ⟨o', r'⟩ := b
      obtain ⟨hm, Q, hq, J, hT, hv⟩ := hr
      have k := l _ _ rfl
      have k' := l' _ _ rfl
      rcases hv with ⟨n, h1, h2⟩ | ⟨v, v', h1, h2, hw⟩
      · cases h1
        cases h2
        exact ⟨rfl, hm, Q, hq, J, hT⟩
      · cases h1
        cases h2
        change RR (Got P) (checkIntegrity o.objs v >>= fun _ => absToRel o.tbl v >>= fun p => .ok ({ o with tbl := p.1 }, (p.2 : Int)))
          (checkIntegrity o'.objs v' >>= fun _ => absToRel o'.tbl v' >>= fun p => .ok ({ o' with tbl := p.1 }, (p.2 : Int)))
        refine RR.bind (R := fun _ _ => True) (RR.of_eq (checkIntegrity_same J k k' hw) fun _ => trivial) fun _ _ _ => ?_
        refine (rr_absToRel J k k' hT hw).bind fun p q hp => ?_
        exact ⟨congrArg (fun n : Nat => (n : Int)) hp.2, hm, Q, hq, J, hp.1⟩

end
end Soroban.Diagnostics
