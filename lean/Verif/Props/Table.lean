import Verif.Lemmas.Convert
import Verif.Props.Objects
import Verif.Props.Compare
/-!
What C04-C09 assume about host values holds for everything a contract can build: the object table stays well-formed and
every handle a contract holds stays sound, whatever calls the contract makes.
-/
namespace Soroban.Props
open Spec

/-- In every map of the table, the ledger values of the keys strictly increase. -/
def MapsSorted (objs : List HostObj) : Prop :=
  ∀ m, .map m ∈ objs → m.Pairwise (fun p q => ∀ s t, Denotes objs p.1 s → Denotes objs q.1 t → scOrd s t = .lt)

theorem retObj_new {objs objs' : List HostObj} {x : Res HostObj} {r : Ret} (h : retObj objs x = .ok (objs', r)) :
    ∃ o, x = .ok o ∧ objs' = objs ++ [o] := by
  unfold retObj at h
  obtain ⟨o, ho, h⟩ := bind_ok.mp h
  obtain ⟨⟨objs'', v⟩, ha, h⟩ := bind_ok.mp h
  cases h
  exact ⟨o, ho, addObj_eq ha⟩

theorem retVal_same {objs objs' : List HostObj} {x : Res Nat} {r : Ret} (h : retVal objs x = .ok (objs', r)) : objs' = objs := by
  unfold retVal at h
  obtain ⟨o, ho, h⟩ := bind_ok.mp h
  cases h
  rfl

theorem fromExactIter_sorted {cmp : Nat → Nat → Res Ordering} {x m : List (Nat × Nat)} (h : fromExactIter cmp x = .ok m) :
    checkSorted cmp m = .ok () := by
  have e := fromExactIter_ok h
  subst e
  unfold fromExactIter fromMap at h
  split at h
  · cases h
  · revert h
    cases checkSorted cmp m with
    | error e => intro h; cases h
    | ok u => intro _; rfl

theorem mapPut_sorted {cmp : Nat → Nat → Res Ordering} {m m' : List (Nat × Nat)} {k v : Nat} (h : mapPut cmp m k v = .ok m') :
    checkSorted cmp m' = .ok () := by
  unfold mapPut Soroban.insert at h
  revert h
  cases find cmp m k with
  | error e => intro h; cases h
  | ok r =>
    cases r with
    | found i => exact fromExactIter_sorted
    | notFound i =>
      intro h
      dsimp only at h
      split at h
      · cases h
      · exact fromExactIter_sorted h

theorem mapDel_sorted {cmp : Nat → Nat → Res Ordering} {m m' : List (Nat × Nat)} {k : Nat} (h : mapDel cmp m k = .ok m') :
    checkSorted cmp m' = .ok () := by
  unfold mapDel remove at h
  revert h
  cases find cmp m k with
  | error e => intro h; cases h
  | ok r =>
    cases r with
    | notFound i => intro h; cases h
    | found i =>
      dsimp only
      cases hx : fromExactIter cmp (if i > 0 then m.take i ++ m.drop (i + 1) else m.drop 1) with
      | error e => intro h; cases h
      | ok new =>
        dsimp only
        cases m[i]? with
        | none => intro h; cases h
        | some q => intro h; cases h; exact fromExactIter_sorted hx

/-- The objects the modelled host functions create. -/
theorem runFn_new {cmp : List HostObj → Nat → Nat → Res Ordering} {objs objs' : List HostObj} {f : Fn}
    {as : List Nat} {r : Ret} (h : runFn cmp objs f as = .ok (objs', r)) :
    objs' = objs ∨ ∃ o, objs' = objs ++ [o] ∧ ((∃ l, o = .vec l) ∨ ∃ m, o = .map m ∧ checkSorted (cmp objs) m = .ok ()) := by
  have hv : ∀ {x : Res HostObj}, retObj objs x = .ok (objs', r) →
      (∀ o, x = .ok o → (∃ l, o = .vec l) ∨ ∃ m, o = .map m ∧ checkSorted (cmp objs) m = .ok ()) →
      objs' = objs ∨ ∃ o, objs' = objs ++ [o] ∧ ((∃ l, o = .vec l) ∨ ∃ m, o = .map m ∧ checkSorted (cmp objs) m = .ok ()) := by
    intro x h hx
    obtain ⟨o, ho, e⟩ := retObj_new h
    exact Or.inr ⟨o, e, hx o ho⟩
  unfold runFn at h
  split at h
  case h_1 a b =>
    split at h
    · cases h
    · obtain ⟨o, _, h⟩ := bind_ok.mp h
      cases h
      exact Or.inl rfl
  case h_2 => exact hv h (by intro o ho; cases ho; exact Or.inr ⟨_, rfl, rfl⟩)
  case h_3 m k v =>
    refine hv h ?_
    intro o ho
    obtain ⟨hm, h1, ho⟩ := bind_ok.mp ho
    obtain ⟨r, h2, ho⟩ := bind_ok.mp ho
    cases ho
    exact Or.inr ⟨r, rfl, mapPut_sorted h2⟩
  case h_5 m k =>
    refine hv h ?_
    intro o ho
    obtain ⟨hm, h1, ho⟩ := bind_ok.mp ho
    obtain ⟨r, h2, ho⟩ := bind_ok.mp ho
    cases ho
    exact Or.inr ⟨r, rfl, mapDel_sorted h2⟩
  case h_12 => exact hv h (by intro o ho; cases ho; exact Or.inl ⟨_, rfl⟩)
  case h_24 a b =>
    refine hv h ?_
    intro o ho
    obtain ⟨_, h1, ho⟩ := bind_ok.mp ho
    obtain ⟨_, h2, ho⟩ := bind_ok.mp ho
    obtain ⟨r, h3, ho⟩ := bind_ok.mp ho
    cases ho
    exact Or.inl ⟨_, rfl⟩
  case h_28 v x =>
    obtain ⟨_, h1, h⟩ := bind_ok.mp h
    obtain ⟨_, h2, h⟩ := bind_ok.mp h
    cases h
    exact Or.inl rfl
  case h_29 => cases h
  all_goals first
    | exact Or.inl (retVal_same h)
    | (refine hv h ?_
       intro o ho
       obtain ⟨_, h1, ho⟩ := bind_ok.mp ho
       obtain ⟨r, h2, ho⟩ := bind_ok.mp ho
       cases ho
       exact Or.inl ⟨_, rfl⟩)

theorem marshalArgs_sound {objs : List HostObj} {tbl : List Nat} (ht : ∀ a ∈ tbl, Sound objs a) :
    ∀ {ts : List ArgTy} {ws as : List Nat}, marshalArgs objs tbl ts ws = .ok as → (∀ w ∈ ws, w < 2^64) → ∀ a ∈ as, Sound objs a
  | [], [], as, h, _ => by cases h; simp
  | [], _ :: _, as, h, _ => by cases h
  | _ :: _, [], as, h, _ => by cases h
  | t :: ts, w :: ws, as, h, hw => by
    unfold marshalArgs at h
    obtain ⟨a, h1, h⟩ := bind_ok.mp h
    obtain ⟨as', h2, h⟩ := bind_ok.mp h
    cases h
    obtain ⟨_, h3, h4⟩ := marshalArg_ok h1
    intro x hx
    rcases List.mem_cons.mp hx with rfl | hx
    · rw [C10_resolve_iff] at h3
      rcases h3 with ⟨_, rfl⟩ | ⟨_, _, h3, _⟩
      · exact ⟨hw _ (by simp), h4⟩
      · exact ht x (List.mem_of_getElem? h3)
    · exact marshalArgs_sound ht h2 (fun w h => hw w (by simp [h])) x hx

/-- Keys that were found sorted by comparing neighbours are sorted by ledger value. -/
theorem sorted_of_check {objs : List HostObj} (hobjs : ObjsOk objs) {d : Nat} : ∀ {m : List (Nat × Nat)},
    (∀ p ∈ m, Sound objs p.1) → checkSorted (valCmp objs d) m = .ok () →
    m.Pairwise (fun p q => ∀ s t, Denotes objs p.1 s → Denotes objs q.1 t → scOrd s t = .lt)
  | [], _, _ => .nil
  | [_], _, _ => by simp
  | a :: b :: m, hs, h => by
    haveI := scOrd_trans
    rw [checkSorted] at h
    have ha := hs a (by simp)
    have hb := hs b (by simp)
    obtain ⟨sa, hsa⟩ := denotes_total hobjs ha
    obtain ⟨sb, hsb⟩ := denotes_total hobjs hb
    cases hc : valCmp objs d a.1 b.1 with
    | error e => rw [hc] at h; cases h
    | ok o =>
      rw [hc] at h
      cases o with
      | eq => cases h
      | gt => cases h
      | lt =>
        dsimp only at h
        have hlt : scOrd sa sb = .lt := by
          rcases valCmp_denotes hobjs ha hb hsa hsb d with e | e
          · rw [e] at hc; exact Except.ok.inj hc
          · rw [e] at hc; cases hc
        have ih := sorted_of_check hobjs (m := b :: m) (fun p hp => hs p (by simp [List.mem_cons.1 hp])) h
        refine List.pairwise_cons.2 ⟨?_, ih⟩
        intro q hq s t h1 h2
        cases h1.unique hsa
        rcases List.mem_cons.1 hq with rfl | hq
        · cases h2.unique hsb; exact hlt
        · exact Std.TransCmp.lt_trans (cmp := scOrd) hlt ((List.pairwise_cons.1 ih).1 q hq sb t hsb h2)

theorem mapsSorted_append {objs : List HostObj} (hobjs : ObjsOk objs) {extra : List HostObj} {m : List (Nat × Nat)}
    (hm : .map m ∈ objs)
    (h : m.Pairwise (fun p q => ∀ s t, Denotes objs p.1 s → Denotes objs q.1 t → scOrd s t = .lt)) :
    m.Pairwise (fun p q => ∀ s t, Denotes (objs ++ extra) p.1 s → Denotes (objs ++ extra) q.1 t → scOrd s t = .lt) := by
  have hs := (hobjs.mem hm).2
  have key : ∀ p ∈ m, ∀ s, Denotes (objs ++ extra) p.1 s → Denotes objs p.1 s := by
    intro p hp s h
    obtain ⟨s', hs'⟩ := denotes_total hobjs (hs p.1 (elem_map_fst hp))
    obtain ⟨d, hd⟩ := hs'
    have := h.unique ⟨d, fromVal_append hd⟩
    subst this
    exact ⟨d, hd⟩
  exact List.Pairwise.imp_of_mem (fun {p q} hp hq hpq s t h1 h2 => hpq s t (key p hp s h1) (key q hq t h2)) h

/-- C10 and C05-C09: start with a well-formed object table whose maps are sorted and with sound handles, and let a contract
make any sequence of map, vector and comparison calls. The table is then still well-formed, every map in it is still sorted
by the ledger values of its keys, and every handle of the contract still passes the integrity check. -/
theorem C10_values_stay_sound {d : Nat} {objs objs' : List HostObj} {tbl tbl' : List Nat}
    (h : FrameRun (fun o => valCmp o d) objs tbl objs' tbl') (hl : objs'.length ≤ 2^31)
    (hobjs : ObjsOk objs) (hsort : MapsSorted objs) (htbl : ∀ a ∈ tbl, Sound objs a) :
    ObjsOk objs' ∧ MapsSorted objs' ∧ ∀ a ∈ tbl', Sound objs' a := by
  revert hl
  induction h with
  | refl => exact fun _ => ⟨hobjs, hsort, htbl⟩
  | @step objs₁ tbl₁ objs₂ tbl₂ f ws w hrun hw hd ih =>
    intro hl
    have hd0 := hd
    unfold dispatch at hd
    obtain ⟨as, h1, hd⟩ := bind_ok.mp hd
    obtain ⟨⟨objs₃, ret⟩, h2, hd⟩ := bind_ok.mp hd
    have hr := runFn_result h2
    have hnew := runFn_new h2
    have hlast : objs₂ = objs₃ ∧ (tbl₂ = tbl₁ ∨ ∃ v, ret = .val v ∧ Val.isObject v = true ∧ tbl₂ = tbl₁ ++ [v]) := by
      cases ret with
      | raw n => cases hd; exact ⟨rfl, Or.inl rfl⟩
      | val v =>
        simp only at hd
        obtain ⟨_, _, hd⟩ := bind_ok.mp hd
        obtain ⟨⟨tbl₃, w'⟩, h4, hd⟩ := bind_ok.mp hd
        cases hd
        refine ⟨rfl, ?_⟩
        unfold absToRel at h4
        split at h4
        · split at h4
          · cases h4
          · split at h4 <;> cases h4
            exact Or.inr ⟨v, rfl, by assumption, rfl⟩
        · cases h4; exact Or.inl rfl
    obtain ⟨rfl, ht⟩ := hlast
    have hl1 : objs₁.length ≤ 2^31 := by
      rcases runResult_objs hr with h | ⟨o, h⟩
      · rw [← h]; exact hl
      · rw [h, List.length_append] at hl; omega
    obtain ⟨i1, i2, i3⟩ := ih hl1
    have has := marshalArgs_sound i3 h1 hw
    have hel : ∀ w, ElemOfArg objs₁ as w → Sound objs₁ w := by
      rintro w ⟨c, hc, o, ho, hw⟩
      exact (i1.mem (visitObj_mem ho)).2 w hw
    cases hr with
    | raw n h =>
      subst h
      rcases ht with rfl | ⟨v, hv, _⟩
      · exact ⟨i1, i2, i3⟩
      · cases hv
    | val v h hv =>
      subst h
      refine ⟨i1, i2, ?_⟩
      rcases ht with rfl | ⟨v', hv', hob, rfl⟩
      · exact i3
      · cases hv'
        intro w hw
        rcases List.mem_append.mp hw with hw | hw
        · exact i3 w hw
        · rw [List.mem_singleton] at hw
          subst hw
          rcases hv with h | h
          · rw [h] at hob; cases hob
          · exact hel _ h
    | obj o v h hv =>
      have heq := addObj_eq h
      have hlt : objs₁.length < 2^31 := by rw [heq, List.length_append] at hl; simp at hl; omega
      have hadd := addObj_sound hlt h
      have hes : ∀ w ∈ elems o, Sound objs₁ w := by
        intro w hw
        rcases hv w hw with h | h
        · exact has w h
        · exact hel w h
      have hkind : (∃ l, o = .vec l) ∨ ∃ m, o = .map m ∧ checkSorted (valCmp objs₁ d) m = .ok () := by
        rcases hnew with e | ⟨o', e, hk⟩
        · have : (objs₁ ++ [o]).length = objs₁.length := by rw [← heq, e]
          simp at this
        · rw [heq] at e
          have := List.append_cancel_left e
          cases this
          exact hk
      have hok : ObjOk o := by rcases hkind with ⟨l, rfl⟩ | ⟨m, rfl, _⟩ <;> trivial
      rw [heq]
      refine ⟨ObjsOk_snoc i1 hok hes, ?_, ?_⟩
      · intro m hm
        rcases List.mem_append.1 hm with hm | hm
        · exact mapsSorted_append i1 hm (i2 m hm)
        · rw [List.mem_singleton] at hm
          subst hm
          rcases hkind with ⟨l, e⟩ | ⟨m', e, hc⟩
          · cases e
          · cases e
            have hs' : ∀ p ∈ m, Sound objs₁ p.1 := fun p hp => hes _ (elem_map_fst hp)
            have hp := sorted_of_check i1 hs' hc
            refine List.Pairwise.imp_of_mem (fun {p q} hp hq hpq s t h1 h2 => ?_) hp
            have key : ∀ p ∈ m, ∀ s, Denotes (objs₁ ++ [.map m]) p.1 s → Denotes objs₁ p.1 s := by
              intro p hp s h
              obtain ⟨s', d', hd'⟩ := denotes_total i1 (hs' p hp)
              have := h.unique ⟨d', fromVal_append hd'⟩
              subst this
              exact ⟨d', hd'⟩
            exact hpq s t (key p hp s h1) (key q hq t h2)
      · rcases ht with rfl | ⟨v', hv', hob, rfl⟩
        · exact fun a ha => (i3 a ha).append
        · cases hv'
          intro w hw
          rcases List.mem_append.mp hw with hw | hw
          · exact (i3 w hw).append
          · rw [List.mem_singleton] at hw
            subst hw
            rw [← heq]
            exact hadd.2.1

/-! ### non-vacuity -/

/-- A contract that was given the vectors of `exTable` builds a map keyed by one of them. -/
example : ∃ objs' tbl', FrameRun (fun o => valCmp o 100) exTable [valObject 5 .VecObject] objs' tbl' ∧
    objs'.length = 7 ∧ .map [(valObject 5 .VecObject, valVoid)] ∈ objs' := by
  refine ⟨exTable ++ [.map []] ++ [.map [(valObject 5 .VecObject, valVoid)]],
    [valObject 5 .VecObject, valObject 11 .MapObject, valObject 13 .MapObject], ?_, by decide, by simp⟩
  refine .step (objs₁ := exTable ++ [.map []]) (tbl₁ := [valObject 5 .VecObject, valObject 11 .MapObject]) (f := .mapPut) (ws := [valObject 2 .MapObject, valObject 0 .VecObject, valVoid]) (w := valObject 4 .MapObject)
    (.step (f := .mapNew) (ws := []) (w := valObject 2 .MapObject) .refl (by simp) ?_) ?_ ?_
  · decide +kernel
  · decide +kernel
  · decide +kernel

example : MapsSorted exTable := by
  intro m hm
  simp [exTable] at hm

end Soroban.Props
