import Verif.Lemmas.SacEvents
/-!
Making results and events of the asset contract succeeds when there is room for the objects.
-/
namespace Soroban.SacValues
open Soroban Soroban.Spec Soroban.Sac Soroban.ContractTypes Soroban.ContractTypes.Spec Soroban.SacValues.Spec
open Soroban.Auth (Addr)

variable {objs objs' : List HostObj}

/-- Names are symbols. -/
def LeafGood : Leaf → Bool
  | .sym t => match symbolTryFromBytes t with
    | some _ => true
    | none => match symbolObject t with | .ok _ => true | .error _ => false
  | _ => true

/-- The action succeeds, and makes at most `n` objects. -/
def Makes {α : Type} (n : Nat) (objs : List HostObj) (r : Res (List HostObj × α)) : Prop :=
  ∃ o a, r = .ok (o, a) ∧ o.length ≤ objs.length + n

theorem add_makes (o : HostObj) (hl : objs.length < 2 ^ 31) : Makes 1 objs (addObj objs o) := by
  obtain ⟨v, h⟩ := addObj_ok o hl
  exact ⟨_, _, h, by simp⟩

theorem newLeaf_makes {l : Leaf} (hg : LeafGood l = true) (hl : objs.length < 2 ^ 31) : Makes 1 objs (newLeaf objs l) := by
  cases l with
  | sym t =>
    rw [newLeaf]
    unfold symbolFromSlice
    unfold LeafGood at hg
    dsimp only at hg
    cases h : symbolTryFromBytes t with
    | some v => exact ⟨_, _, rfl, by simp⟩
    | none =>
      rw [h] at hg
      cases h2 : symbolObject t with
      | error e => rw [h2] at hg; cases hg
      | ok o => exact add_makes o hl
  | addr a => exact add_makes _ hl
  | str b => exact add_makes _ hl
  | i128 i =>
    rw [newLeaf]
    split
    · exact ⟨_, _, rfl, by simp⟩
    · exact add_makes _ hl
  | u64 n =>
    rw [newLeaf]
    split
    · exact ⟨_, _, rfl, by simp⟩
    · exact add_makes _ hl
  | u32 n => exact ⟨_, _, rfl, by simp⟩
  | bool b => exact ⟨_, _, rfl, by simp⟩

theorem newLeaves_makes : ∀ {ls : List Leaf} {objs : List HostObj}, (∀ l ∈ ls, LeafGood l = true) → objs.length + ls.length ≤ 2 ^ 31 →
    ∃ o vs, newLeaves objs ls = .ok (o, vs) ∧ o.length ≤ objs.length + ls.length ∧ vs.length = ls.length
  | [], objs, _, _ => ⟨objs, [], rfl, by simp, rfl⟩
  | l :: ls, objs, hg, hl => by
    rw [List.length_cons] at hl
    obtain ⟨o1, v, h1, e1⟩ := newLeaf_makes (hg l (by simp)) (objs := objs) (by omega)
    obtain ⟨o2, vs, h2, e2, e3⟩ := newLeaves_makes (fun l hl => hg l (by simp [hl])) (objs := o1) (ls := ls) (by omega)
    refine ⟨o2, v :: vs, bind_ok.mpr ⟨_, h1, bind_ok.mpr ⟨_, h2, rfl⟩⟩, ?_, ?_⟩
    · rw [List.length_cons]; omega
    · rw [List.length_cons, List.length_cons, e3]

theorem checkAll_ok : ∀ {vs : List Nat} {ss : List ScVal}, List.Forall₂ (Is objs) vs ss → checkAll objs vs = .ok ()
  | _, _, .nil => rfl
  | _, _, .cons h t => bind_ok.mpr ⟨(), h.1.2, checkAll_ok t⟩

theorem hostVec_makes (ho : ObjsOk objs) {ls : List Leaf} (hg : ∀ l ∈ ls, LeafGood l = true) (hf : ∀ l ∈ ls, LeafFits l)
    (hl : objs.length + ls.length + 1 ≤ 2 ^ 31) : Makes (ls.length + 1) objs (hostVec objs ls) := by
  obtain ⟨o1, vs, h1, e1, e2⟩ := newLeaves_makes hg (objs := objs) (by omega)
  obtain ⟨k1, k2⟩ := newLeaves_made ho hf h1 (by omega)
  obtain ⟨v, h2⟩ := addObj_ok (os := o1) (.vec vs) (by omega)
  refine ⟨_, v, bind_ok.mpr ⟨_, h1, bind_ok.mpr ⟨(), checkAll_ok k2, bind_ok.mpr ⟨vs, ?_, h2⟩⟩⟩, ?_⟩
  · unfold vecFromIter
    rw [if_neg (by unfold u32Max; omega)]
  · rw [List.length_append]; simp; omega

theorem mapPut_nil_ok {cmp : Nat → Nat → Res Ordering} {k v : Nat} : mapPut cmp [] k v = .ok [(k, v)] := by
  unfold mapPut insert find bsearch
  rw [bsearchLoop]
  rfl

theorem mapPut_one_ok {cmp : Nat → Nat → Res Ordering} {k v k1 v1 : Nat} (hc : cmp k1 k = .ok .lt) :
    mapPut cmp [(k1, v1)] k v = .ok [(k1, v1), (k, v)] := by
  unfold mapPut insert find bsearch
  rw [bsearchLoop]
  simp only [List.length_singleton, Nat.lt_one_iff, Nat.sub_zero, Nat.reduceDiv, Nat.add_zero, List.getElem?_cons_zero, hc, dite_true]
  rw [bsearchLoop]
  simp only [Nat.zero_add, Nat.lt_irrefl, dite_false]
  rw [if_neg (by decide)]
  unfold fromExactIter fromMap
  simp [checkSorted, hc, u32Max]

theorem amountData_makes (ho : ObjsOk objs) {d : Nat} {a : Int} {mux : Option Nat} (hf : Fits a) (hm : ∀ i, mux = some i → i < 2 ^ 64)
    (hl : objs.length + 7 ≤ 2 ^ 31) : Makes 7 objs (amountData (d + 1) objs a mux) := by
  cases mux with
  | none =>
    obtain ⟨o, v, h, e⟩ := newLeaf_makes (l := .i128 a) rfl (objs := objs) (by omega)
    exact ⟨o, v, h, by omega⟩
  | some i =>
    have hi := hm i rfl
    obtain ⟨v1, h1⟩ := addObj_ok (os := objs) (.map mapNew) (by omega)
    have e1 : (objs ++ [HostObj.map mapNew]).length = objs.length + 1 := by simp
    have s1 := addObj_sound (by omega) h1
    generalize objs ++ [HostObj.map mapNew] = o1 at *
    obtain ⟨o2, v2, h2, e2⟩ := newLeaf_makes (l := .sym (txt "amount")) (by decide) (objs := o1) (by omega)
    obtain ⟨o3, v3, h3, e3⟩ := newLeaf_makes (l := .i128 a) rfl (objs := o2) (by omega)
    have g2 := newLeaf_grown h2
    have g3 := newLeaf_grown h3
    have m1 := add_made (s := .map (some [])) ho h1 (by omega) trivial (by intro w hw; cases hw) ⟨0, rfl⟩ rfl
    have m2 := newLeaf_made m1.good (l := .sym _) trivial h2 (by omega)
    have m3 := newLeaf_made m2.good (l := .i128 a) hf h3 (by omega)
    obtain ⟨v4, h4⟩ := addObj_ok (os := o3) (.map [(v2, v3)]) (by omega)
    have s4 := addObj_sound (by omega) h4
    have e4 : (o3 ++ [HostObj.map [(v2, v3)]]).length = o3.length + 1 := by simp
    generalize o3 ++ [HostObj.map [(v2, v3)]] = o4 at *
    have g4 := addObj_grown h4
    have k3 : List.Forall₂ (fun k b => Is o3 k (.symbol b)) [v2] [txt "amount"] := .cons (m2.is.grow g3) .nil
    have m4 := addMap_made (ks := [v2]) (vs := [v3]) m3.good k3 (.cons m3.is .nil) h4 (by omega)
    obtain ⟨o5, v5, h5, e5⟩ := newLeaf_makes (l := .sym (txt "to_muxed_id")) (by decide) (objs := o4) (by omega)
    obtain ⟨o6, v6, h6, e6⟩ := newLeaf_makes (l := .u64 i) rfl (objs := o5) (by omega)
    have g5 := newLeaf_grown h5
    have g6 := newLeaf_grown h6
    have m5 := newLeaf_made m4.good (l := .sym _) trivial h5 (by omega)
    have m6 := newLeaf_made m5.good (l := .u64 i) hi h6 (by omega)
    have g36 := grown_trans g4 (grown_trans g5 g6)
    have ka : Is o6 v2 (.symbol (txt "amount")) := (m2.is.grow g3).grow g36
    have kb : Is o6 v5 (.symbol (txt "to_muxed_id")) := m5.is.grow g6
    have hc : valCmp o6 (d + 1) v2 v5 = .ok .lt := by
      rw [valCmp_spec m6.good ka.1 kb.1 (Props.symbol_reads (symbol_is m6.good ka) d) (Props.symbol_reads (symbol_is m6.good kb) d), amount_first]
    obtain ⟨v7, h7⟩ := addObj_ok (os := o6) (.map [(v2, v3), (v5, v6)]) (by omega)
    refine ⟨o6 ++ [.map [(v2, v3), (v5, v6)]], v7, ?_, ?_⟩
    · rw [amountData]
      refine bind_ok.mpr ⟨_, h1, bind_ok.mpr ⟨_, h2, bind_ok.mpr ⟨_, h3, bind_ok.mpr ⟨(o4, v4), ?_, bind_ok.mpr ⟨_, h5, bind_ok.mpr ⟨_, h6, ?_⟩⟩⟩⟩⟩⟩
      · obtain ⟨e, he⟩ := grown_trans g2 g3
        refine bind_ok.mpr ⟨[], ?_, bind_ok.mpr ⟨_, mapPut_nil_ok, h4⟩⟩
        rw [he]
        exact visitMap_ok.2 (visitObj_append s1.2.2.1)
      · obtain ⟨e, he⟩ := grown_trans g5 g6
        refine bind_ok.mpr ⟨[(v2, v3)], ?_, bind_ok.mpr ⟨_, mapPut_one_ok hc, h7⟩⟩
        rw [he]
        exact visitMap_ok.2 (visitObj_append s4.2.2.1)
    · rw [List.length_append]; simp; omega

theorem parts_makes {ls : List Leaf} {n : Nat} {data : List HostObj → Res (List HostObj × Nat)} (ho : ObjsOk objs)
    (hg : ∀ l ∈ ls, LeafGood l = true) (hf : ∀ l ∈ ls, LeafFits l) (hn : ls.length ≤ 4)
    (hd : ∀ {o : List HostObj}, ObjsOk o → o.length + n ≤ 2 ^ 31 → Makes n o (data o)) (hl : objs.length + 5 + n ≤ 2 ^ 31) :
    Makes (5 + n) objs (do let (objs, t) ← hostVec objs ls; let (objs, x) ← data objs; (.ok (objs, t, x) : Res _)) := by
  obtain ⟨o1, t, h1, e1⟩ := hostVec_makes ho hg hf (by omega)
  have m := hostVec_made ho hf h1 (by omega)
  obtain ⟨o2, x, h2, e2⟩ := hd m.good (by omega)
  exact ⟨o2, (t, x), bind_ok.mpr ⟨_, h1, bind_ok.mpr ⟨_, h2, rfl⟩⟩, by omega⟩

theorem Makes.le {α : Type} {n m : Nat} {r : Res (List HostObj × α)} (h : Makes n objs r) (hn : n ≤ m) : Makes m objs r := by
  obtain ⟨o, a, h1, h2⟩ := h
  exact ⟨o, a, h1, by omega⟩

theorem newEvent_makes (ho : ObjsOk objs) {d : Nat} {nm : List Nat} {mux : Option Nat} {e : TokEvent} (hf : EvFits e)
    (hm : ∀ i, mux = some i → i < 2 ^ 64) (hl : objs.length + 12 ≤ 2 ^ 31) : Makes 12 objs (newEvent (d + 1) nm mux objs e) := by
  cases e with
  | approve f s a l =>
    rw [newEvent]
    refine parts_makes (n := 7) (data := fun o => hostVec o [.i128 a, .u32 l]) ho
      (by simp only [List.forall_mem_cons]; exact ⟨by decide, by simp [LeafGood]⟩)
      (by simp [LeafFits]) (by simp) (fun {o} ho hl => ?_) hl
    refine (hostVec_makes ho (by simp [LeafGood]) ?_ (by simp; omega)).le (by simp)
    intro y hy
    simp only [List.mem_cons, List.not_mem_nil, or_false] at hy
    rcases hy with rfl | rfl
    · exact hf.1
    · exact hf.2
  | transfer f t a =>
    rw [newEvent]
    exact parts_makes (n := 7) (data := fun o => amountData (d + 1) o a mux) ho
      (by simp only [List.forall_mem_cons]; exact ⟨by decide, by simp [LeafGood]⟩)
      (by simp [LeafFits]) (by simp) (fun ho hl => amountData_makes ho hf hm hl) hl
  | mint t a =>
    rw [newEvent]
    exact parts_makes (n := 7) (data := fun o => amountData (d + 1) o a mux) ho
      (by simp only [List.forall_mem_cons]; exact ⟨by decide, by simp [LeafGood]⟩)
      (by simp [LeafFits]) (by simp) (fun ho hl => amountData_makes ho hf hm hl) hl
  | burn f a =>
    rw [newEvent]
    exact parts_makes (n := 7) (data := fun o => newLeaf o (.i128 a)) ho
      (by simp only [List.forall_mem_cons]; exact ⟨by decide, by simp [LeafGood]⟩)
      (by simp [LeafFits]) (by simp) (fun ho hl => (newLeaf_makes (by rfl) (by omega)).le (by decide)) hl
  | clawback f a =>
    rw [newEvent]
    exact parts_makes (n := 7) (data := fun o => newLeaf o (.i128 a)) ho
      (by simp only [List.forall_mem_cons]; exact ⟨by decide, by simp [LeafGood]⟩)
      (by simp [LeafFits]) (by simp) (fun ho hl => (newLeaf_makes (by rfl) (by omega)).le (by decide)) hl
  | setAuthorized a b =>
    rw [newEvent]
    exact parts_makes (n := 7) (data := fun o => newLeaf o (.bool b)) ho
      (by simp only [List.forall_mem_cons]; exact ⟨by decide, by simp [LeafGood]⟩)
      (by simp [LeafFits]) (by simp) (fun ho hl => (newLeaf_makes (by rfl) (by omega)).le (by decide)) hl
  | setAdmin a n =>
    rw [newEvent]
    exact parts_makes (n := 7) (data := fun o => newLeaf o (.addr n)) ho
      (by simp only [List.forall_mem_cons]; exact ⟨by decide, by simp [LeafGood]⟩)
      (by simp [LeafFits]) (by simp) (fun ho hl => (newLeaf_makes (by rfl) (by omega)).le (by decide)) hl

theorem newRet_makes {r : Sac.Ret} (hl : objs.length < 2 ^ 31) : Makes 1 objs (newRet objs r) := by
  cases r with
  | unit => exact ⟨_, _, rfl, by simp⟩
  | amount x => exact newLeaf_makes (l := .i128 x) rfl hl
  | bool b => exact newLeaf_makes (l := .bool b) rfl hl
  | addr a => exact newLeaf_makes (l := .addr a) rfl hl

end Soroban.SacValues

namespace Soroban.SacValues
open Soroban Soroban.Spec Soroban.Sac Soroban.Sac.Spec Soroban.ContractTypes Soroban.SacValues.Spec
open Soroban.Auth (Addr)

theorem opStep_events {E : SEnv} {L L' : Sac.Spec.Led} {o : Op} {r : Sac.Ret} {as : List Addr} {es : List TokEvent}
    (h : OpStep E L o r L' as es) (hf : OpFits o) : (∀ e ∈ es, EvFits e) ∧ es.length ≤ 1 := by
  have one : ∀ e : TokEvent, EvFits e → (∀ x ∈ [e], EvFits x) ∧ [e].length ≤ 1 := fun e he =>
    ⟨fun x hx => by rw [List.mem_singleton.1 hx]; exact he, Nat.le_refl 1⟩
  have ht : ∀ f t d, Fits d → EvFits (transferEvent E.asset f t d) := by
    intro f t d hd
    unfold transferEvent
    repeat' split
    all_goals exact hd
  have none : (∀ e ∈ ([] : List TokEvent), EvFits e) ∧ ([] : List TokEvent).length ≤ 1 := ⟨by simp, by simp⟩
  cases h with
  | allowance => exact none
  | balance => exact none
  | authorized => exact none
  | admin => exact none
  | approve => exact one _ hf
  | transfer => exact one _ (ht _ _ _ hf)
  | transferFrom => exact one _ (ht _ _ _ hf)
  | burn => exact one _ hf
  | burnFrom => exact one _ hf
  | clawback => exact one _ hf
  | setAuthorized => exact one _ trivial
  | mint => exact one _ hf
  | setAdmin => exact one _ trivial
  | trust => exact none

end Soroban.SacValues
