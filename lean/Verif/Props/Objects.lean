import Verif.Lemmas.Objects
import Verif.Props.Maps
/-!
C10: a contract can only use the objects it was given or created. And the part of C06 saying that an object never changes.
-/
namespace Soroban.Props
open Soroban Soroban.Spec

/-- C10: exactly which words resolve. An object word resolves only if it is a relative handle naming an entry of the frame's
own table, and only if that entry has the type the word claims. Everything that is not an object is left alone. -/
theorem C10_resolve_iff (tbl : List Nat) (v w : Nat) :
    relToAbs tbl v = .ok w ↔
      (Val.isObject v = false ∧ w = v) ∨
      (Val.isObject v = true ∧ objHandle v % 2 = 0 ∧ tbl[objHandle v / 2]? = some w ∧ Val.tag w = Val.tag v) := by
  unfold relToAbs
  cases hob : Val.isObject v
  · simp [eq_comm]
  · simp only [if_true, Bool.true_eq_false, false_and, false_or, true_and]
    rw [handleToIndex_eq]
    by_cases hr : isRelative (objHandle v) = true
    · rw [if_pos hr]
      rw [isRelative_iff] at hr
      cases hg : tbl[objHandle v / 2]? with
      | none => simp
      | some x =>
        simp only [Option.some.injEq, hr, true_and]
        by_cases ht : Val.tag x = Val.tag v
        · rw [if_pos ht]
          constructor
          · intro h; cases h; exact ⟨rfl, ht⟩
          · rintro ⟨rfl, _⟩; rfl
        · rw [if_neg ht]
          constructor
          · intro h; cases h
          · rintro ⟨rfl, h⟩; exact absurd h ht
    · rw [if_neg hr]
      rw [isRelative_iff] at hr
      constructor
      · intro h; cases h
      · rintro ⟨h, _⟩; exact absurd h hr

example : relToAbs [valObject 7 .VecObject] (valObject 0 .VecObject) = .ok (valObject 7 .VecObject) := by decide +kernel
/-- Absolute handle, handle out of range, wrong type. -/
example : relToAbs [valObject 7 .VecObject] (valObject 7 .VecObject) = .error (.host .value .invalidInput) ∧
    relToAbs [valObject 7 .VecObject] (valObject 2 .VecObject) = .error (.host .value .invalidInput) ∧
    relToAbs [valObject 7 .VecObject] (valObject 0 .MapObject) = .error (.host .value .invalidInput) := by decide +kernel

/-- C10: handing a value to a contract and resolving what it was given gives the value back, with the same type, and leaves
every handle it held before with its meaning. The bound on the table is the range of handles that do not wrap. -/
theorem C10_round_trip {tbl tbl' : List Nat} {v r : Nat} (hl : tbl.length < 2^31)
    (h : absToRel tbl v = .ok (tbl', r)) :
    relToAbs tbl' r = .ok v ∧ Val.tag r = Val.tag v ∧ Val.isObject r = Val.isObject v ∧
    (∀ u w, relToAbs tbl u = .ok w → relToAbs tbl' u = .ok w) := by
  unfold absToRel at h
  cases hob : Val.isObject v
  · rw [hob] at h
    cases h
    refine ⟨?_, rfl, hob, fun _ _ h => h⟩
    rw [C10_resolve_iff]
    exact Or.inl ⟨hob, rfl⟩
  · rw [hob] at h
    simp only [if_true] at h
    split at h
    · cases h
    · rw [indexToHandle_rel hl] at h
      cases h
      have hh : 2 * tbl.length < 2^32 := by omega
      have ht := u8IsObject_tag hob
      refine ⟨?_, tag_valObject hh ht, isObject_valObject hh ht, ?_⟩
      · rw [C10_resolve_iff]
        right
        rw [objHandle_valObject _ hh, tag_valObject hh ht]
        refine ⟨isObject_valObject hh ht, by omega, ?_, rfl⟩
        rw [show 2 * tbl.length / 2 = tbl.length from by omega]
        simp
      · intro u w hu
        rw [C10_resolve_iff] at hu ⊢
        rcases hu with hu | ⟨h1, h2, h3, h4⟩
        · exact Or.inl hu
        · refine Or.inr ⟨h1, h2, ?_, h4⟩
          rw [List.getElem?_append_left (List.getElem?_eq_some_iff.mp h3).1]
          exact h3

example : absToRel [valObject 7 .VecObject] (valObject 9 .MapObject) =
    .ok ([valObject 7 .VecObject, valObject 9 .MapObject], valObject 2 .MapObject) := by decide +kernel

theorem enterFrame_aux : ∀ (as tbl tbl' rs : List Nat), enterFrame tbl as = .ok (tbl', rs) →
    tbl.length + as.length ≤ 2^31 →
    (∀ u w, relToAbs tbl u = .ok w → relToAbs tbl' u = .ok w) ∧
    tbl' = tbl ++ as.filter (Val.isObject ·) ∧
    rs.length = as.length ∧ ∀ i r a : Nat, rs[i]? = some r → as[i]? = some a → relToAbs tbl' r = .ok a ∧ Val.tag r = Val.tag a
  | [], tbl, tbl', rs, h, _ => by
    cases h
    exact ⟨fun _ _ h => h, by simp, rfl, by simp⟩
  | a :: as, tbl, tbl', rs, h, hl => by
    unfold enterFrame at h
    obtain ⟨⟨tbl₁, r⟩, h1, h⟩ := bind_ok.mp h
    obtain ⟨⟨tbl₂, rs'⟩, h2, h⟩ := bind_ok.mp h
    cases h
    simp only [List.length_cons] at hl
    obtain ⟨e1, e2, _, e3⟩ := C10_round_trip (by omega) h1
    have ht1 : tbl₁ = tbl ++ [a].filter (Val.isObject ·) := by
      unfold absToRel at h1
      cases hob : Val.isObject a
      · rw [hob] at h1; cases h1; simp [hob]
      · rw [hob] at h1
        simp only [if_true] at h1
        split at h1
        · cases h1
        · split at h1 <;> cases h1
          simp [hob]
    have hlen : tbl₁.length ≤ tbl.length + 1 := by
      rw [ht1, List.length_append]
      have := List.length_filter_le (Val.isObject ·) [a]
      simp only [List.length_singleton] at this
      omega
    obtain ⟨f1, f2, f3, f4⟩ := enterFrame_aux as tbl₁ _ rs' h2 (by omega)
    refine ⟨fun u w hu => f1 u w (e3 u w hu), ?_, by simp [f3], ?_⟩
    · rw [f2, ht1, List.append_assoc, ← List.filter_append]
      rfl
    · intro i r' a' hr ha
      cases i with
      | zero => cases hr; cases ha; exact ⟨f1 _ _ e1, e2⟩
      | succ i => exact f4 i r' a' (by simpa using hr) (by simpa using ha)

/-- C10: a frame starts with exactly the objects among its arguments, whatever the caller held, and each argument word the
contract receives resolves to the value the caller passed, with the same type. -/
theorem C10_frame_entry {args tbl rs : List Nat} (h : enterFrame [] args = .ok (tbl, rs)) (hl : args.length ≤ 2^31) :
    tbl = args.filter (Val.isObject ·) ∧ rs.length = args.length ∧
    ∀ i r a : Nat, rs[i]? = some r → args[i]? = some a → relToAbs tbl r = .ok a ∧ Val.tag r = Val.tag a := by
  obtain ⟨_, h2, h3, h4⟩ := enterFrame_aux args [] tbl rs h (by simpa using hl)
  exact ⟨by simpa using h2, h3, h4⟩

example : enterFrame [] [valObject 9 .MapObject, valU32 3, valObject 5 .VecObject] =
    .ok ([valObject 9 .MapObject, valObject 5 .VecObject], [valObject 0 .MapObject, valU32 3, valObject 2 .VecObject]) := by
  decide +kernel

/-- Outside the bound of `C10_round_trip` handles wrap: the first and the 2^31-th entry share a handle. (The memory budget
keeps tables far below that.) -/
theorem C10_handle_wraps : indexToHandle 0 true = indexToHandle (2^31) true := by decide +kernel

/-! ### host calls -/

theorem marshalArg_ok {objs : List HostObj} {tbl : List Nat} {t : ArgTy} {w a : Nat} (h : marshalArg objs tbl t w = .ok a) :
    t.accepts w = true ∧ relToAbs tbl w = .ok a ∧ checkIntegrity objs a = .ok () := by
  unfold marshalArg at h
  split at h
  · obtain ⟨a', h1, h⟩ := bind_ok.mp h
    obtain ⟨_, h2, h⟩ := bind_ok.mp h
    cases h
    exact ⟨by assumption, h1, h2⟩
  · cases h

theorem checkIntegrity_iff (objs : List HostObj) (a : Nat) : checkIntegrity objs a = .ok () ↔ Val.isGood a = true ∧ Names objs a := by
  unfold checkIntegrity Names
  cases hg : Val.isGood a with
  | false => simp
  | true =>
    cases ho : Val.isObject a with
    | false => simp
    | true =>
      simp only [Bool.not_true, Bool.false_eq_true, if_false, if_true, true_and, true_implies]
      unfold visitObj
      rw [ho, handleToIndex_eq]
      simp only [Bool.not_true, Bool.false_eq_true, if_false]
      by_cases hr : isRelative (objHandle a) = true
      · rw [if_pos hr]
        rw [isRelative_iff] at hr
        constructor
        · intro h; cases h
        · rintro ⟨h, _⟩; omega
      · rw [if_neg hr]
        rw [isRelative_iff] at hr
        have : objHandle a % 2 = 1 := by omega
        cases hx : objs[objHandle a / 2]? with
        | none => simp
        | some o =>
          simp only [Option.some.injEq, this, true_and, exists_eq_left']
          by_cases ht : o.tag = Val.tag a
          · rw [if_pos ht]; simp [ht]
          · rw [if_neg ht]
            constructor
            · intro h; cases h
            · intro h; exact absurd h ht

/-- C10: exactly which words are accepted as arguments, and what they stand for: legal words of the type of the argument; an object
word must be an even handle that names an entry of the frame's table of the same type, and that entry an object of the host of this type. -/
theorem C10_argument (objs : List HostObj) (tbl : List Nat) (t : ArgTy) (w a : Nat) :
    marshalArg objs tbl t w = .ok a ↔
      Val.isGood w = true ∧ OfType t w ∧
      ((Val.isObject w = false ∧ a = w) ∨
        (Val.isObject w = true ∧ objHandle w % 2 = 0 ∧ tbl[objHandle w / 2]? = some a ∧ Val.tag a = Val.tag w)) ∧
      Val.isGood a = true ∧ Names objs a := by
  have hacc : t.accepts w = true ↔ Val.isGood w = true ∧ OfType t w := by
    unfold ArgTy.accepts
    rw [Bool.and_eq_true]
    cases t <;> simp [OfType]
  rw [← C10_resolve_iff, ← checkIntegrity_iff, ← and_assoc, ← hacc]
  unfold marshalArg
  constructor
  · intro h
    split at h
    · rename_i h0
      obtain ⟨a', h1, h⟩ := bind_ok.mp h
      obtain ⟨_, h2, h⟩ := bind_ok.mp h
      cases h
      exact ⟨h0, h1, h2⟩
    · cases h
  · rintro ⟨h0, h1, h2⟩
    rw [if_pos h0]
    exact bind_ok.mpr ⟨a, h1, bind_ok.mpr ⟨(), h2, rfl⟩⟩

example : marshalArg [.vec []] [valObject 1 .VecObject] (.obj .VecObject) (valObject 0 .VecObject) = .ok (valObject 1 .VecObject) ∧
    marshalArg [.vec []] [valObject 1 .VecObject] (.obj .MapObject) (valObject 0 .VecObject) = .error (.host .value .invalidInput) := by
  decide +kernel

theorem marshalArgs_ok {objs : List HostObj} {tbl : List Nat} : ∀ {ts : List ArgTy} {ws as : List Nat},
    marshalArgs objs tbl ts ws = .ok as → (∀ w ∈ ws, ∃ a, relToAbs tbl w = .ok a) ∧ ∀ a ∈ as, ∃ w ∈ ws, relToAbs tbl w = .ok a
  | [], [], as, h => by cases h; simp
  | [], _ :: _, as, h => by cases h
  | _ :: _, [], as, h => by cases h
  | t :: ts, w :: ws, as, h => by
    unfold marshalArgs at h
    obtain ⟨a, h1, h⟩ := bind_ok.mp h
    obtain ⟨as', h2, h⟩ := bind_ok.mp h
    cases h
    obtain ⟨_, h1, _⟩ := marshalArg_ok h1
    obtain ⟨ih1, ih2⟩ := marshalArgs_ok h2
    constructor
    · intro x hx
      rcases List.mem_cons.mp hx with rfl | hx
      · exact ⟨a, h1⟩
      · exact ih1 x hx
    · intro x hx
      rcases List.mem_cons.mp hx with rfl | hx
      · exact ⟨w, by simp, h1⟩
      · obtain ⟨w', hw', h'⟩ := ih2 x hx
        exact ⟨w', by simp [hw'], h'⟩

/-- C10: a host call succeeds only if every object word among its arguments is a relative handle of the calling frame, of the
right type. So a forged, absolute or mistyped handle, or one of another frame that is not also a handle of this one, makes
the call fail. -/
theorem C10_call_arguments {cmp : List HostObj → Nat → Nat → Res Ordering} {objs objs' : List HostObj} {tbl tbl' : List Nat}
    {f : Fn} {ws : List Nat} {r : Int} (h : dispatch cmp objs tbl f ws = .ok (objs', tbl', r)) :
    ∀ w ∈ ws, Val.isObject w = true →
      objHandle w % 2 = 0 ∧ ∃ a, tbl[objHandle w / 2]? = some a ∧ Val.tag a = Val.tag w := by
  unfold dispatch at h
  obtain ⟨as, h1, _⟩ := bind_ok.mp h
  intro w hw hob
  obtain ⟨a, ha⟩ := (marshalArgs_ok h1).1 w hw
  rw [C10_resolve_iff] at ha
  rcases ha with ⟨h0, _⟩ | ⟨_, h2, h3, h4⟩
  · rw [h0] at hob; cases hob
  · exact ⟨h2, a, h3, h4⟩

theorem dispatch_cases {cmp : List HostObj → Nat → Nat → Res Ordering} {objs objs' : List HostObj} {tbl tbl' : List Nat}
    {f : Fn} {ws : List Nat} {r : Int} (h : dispatch cmp objs tbl f ws = .ok (objs', tbl', r)) :
    ∃ as ret, (∀ a ∈ as, Val.isObject a = false ∨ a ∈ tbl) ∧ RunResult objs as objs' ret ∧
      (tbl' = tbl ∨ ∃ v, ret = .val v ∧ Val.isObject v = true ∧ tbl' = tbl ++ [v]) := by
  unfold dispatch at h
  obtain ⟨as, h1, h⟩ := bind_ok.mp h
  obtain ⟨⟨objs₁, ret⟩, h2, h⟩ := bind_ok.mp h
  have hr := runFn_result h2
  have has : ∀ a ∈ as, Val.isObject a = false ∨ a ∈ tbl := by
    intro a ha
    obtain ⟨w, _, hw⟩ := (marshalArgs_ok h1).2 a ha
    rw [C10_resolve_iff] at hw
    rcases hw with ⟨h0, rfl⟩ | ⟨_, _, h3, _⟩
    · exact Or.inl h0
    · exact Or.inr (List.mem_of_getElem? h3)
  cases ret with
  | raw n => cases h; exact ⟨as, _, has, hr, Or.inl rfl⟩
  | val v =>
    simp only at h
    obtain ⟨_, _, h⟩ := bind_ok.mp h
    obtain ⟨⟨tbl₁, w⟩, h4, h⟩ := bind_ok.mp h
    cases h
    refine ⟨as, _, has, hr, ?_⟩
    unfold absToRel at h4
    split at h4
    · split at h4
      · cases h4
      · split at h4 <;> cases h4
        exact Or.inr ⟨v, rfl, by assumption, rfl⟩
    · cases h4; exact Or.inl rfl

theorem runResult_objs {objs objs' : List HostObj} {as : List Nat} {ret : Ret} (h : RunResult objs as objs' ret) :
    objs' = objs ∨ ∃ o, objs' = objs ++ [o] := by
  cases h with
  | raw _ h => exact Or.inl h
  | val _ h _ => exact Or.inl h
  | obj o v h _ => exact Or.inr ⟨o, addObj_eq h⟩

theorem frameRun_append {cmp : List HostObj → Nat → Nat → Res Ordering} {objs objs' : List HostObj} {tbl tbl' : List Nat}
    (h : FrameRun cmp objs tbl objs' tbl') : ∃ extra, objs' = objs ++ extra := by
  induction h with
  | refl => exact ⟨[], by simp⟩
  | step _ _ hd ih =>
    obtain ⟨e, ih⟩ := ih
    obtain ⟨as, ret, _, hr, _⟩ := dispatch_cases hd
    rcases runResult_objs hr with h | ⟨o, h⟩
    · exact ⟨e, by rw [h, ih]⟩
    · exact ⟨e ++ [o], by rw [h, ih, List.append_assoc]⟩

/-- C06: whatever calls a contract makes, an object that exists keeps its contents: maps and vectors are immutable and every
operation makes a new one. -/
theorem C06_handles_immutable {cmp : List HostObj → Nat → Nat → Res Ordering} {objs objs' : List HostObj}
    {tbl tbl' : List Nat} (h : FrameRun cmp objs tbl objs' tbl') {v : Nat} {o : HostObj} (hv : visitObj objs v = .ok o) :
    visitObj objs' v = .ok o := by
  obtain ⟨e, rfl⟩ := frameRun_append h
  exact visitObj_append hv

/-- C10, confinement: start a frame with any objects in the host and any table of handles, and let it make any sequence of
host calls with any words as arguments. Every object it then holds was created since the frame started, or was reachable from
what it was given at the start. In particular objects of other frames that were not passed stay out of reach. -/
theorem C10_confinement {cmp : List HostObj → Nat → Nat → Res Ordering} {objs objs' : List HostObj}
    {tbl tbl' : List Nat} (h : FrameRun cmp objs tbl objs' tbl') (hl : objs'.length ≤ 2^31) :
    ∀ w ∈ tbl', CreatedSince objs.length w ∨ Reach objs tbl w := by
  suffices hs : (∀ w ∈ tbl', CreatedSince objs.length w ∨ Reach objs tbl w) ∧
      ∀ i o, objs.length ≤ i → objs'[i]? = some o → ∀ w ∈ elems o,
        Val.isObject w = false ∨ CreatedSince objs.length w ∨ Reach objs tbl w from hs.1
  revert hl
  induction h with
  | refl =>
    intro hl
    refine ⟨fun w hw => Or.inr (.root hw), ?_⟩
    intro i o hi ho
    rw [List.getElem?_eq_none hi] at ho
    cases ho
  | @step objs₁ tbl₁ objs₂ tbl₂ f ws w hrun _ hd ih =>
    intro hl
    obtain ⟨as, ret, has, hr, ht⟩ := dispatch_cases hd
    obtain ⟨e, he⟩ := frameRun_append hrun
    have hle : objs.length ≤ objs₁.length := by rw [he]; simp
    have hl1 : objs₁.length ≤ 2^31 := by
      rcases runResult_objs hr with h | ⟨o, h⟩
      · rw [← h]; exact hl
      · rw [h, List.length_append] at hl; omega
    obtain ⟨i1, i2⟩ := ih hl1
    -- elements of arguments
    have hel : ∀ w, ElemOfArg objs₁ as w → Val.isObject w = false ∨ CreatedSince objs.length w ∨ Reach objs tbl w := by
      rintro w ⟨c, hc, o, ho, hw⟩
      have ho' := visitObj_ok.mp ho
      by_cases hi : objs.length ≤ handleToIndex (objHandle c)
      · exact i2 _ o hi ho'.2.2 w hw
      · have hcg : CreatedSince objs.length c ∨ Reach objs tbl c := by
          rcases has c hc with h | h
          · rw [h] at ho'; cases ho'.1
          · exact i1 c h
        rcases hcg with h | h
        · exact absurd h hi
        · refine Or.inr (Or.inr (.elem h (o := o) ?_ hw))
          rw [visitObj_ok]
          refine ⟨ho'.1, ho'.2.1, ?_⟩
          have := ho'.2.2
          rw [he, List.getElem?_append_left (by omega)] at this
          exact this
    have hag : ∀ a ∈ as, Val.isObject a = false ∨ CreatedSince objs.length a ∨ Reach objs tbl a := by
      intro a ha
      rcases has a ha with h | h
      · exact Or.inl h
      · exact Or.inr (i1 a h)
    cases hr with
    | raw n h =>
      subst h
      rcases ht with rfl | ⟨v, hv, _⟩
      · exact ⟨i1, i2⟩
      · cases hv
    | val v h hv =>
      subst h
      refine ⟨?_, i2⟩
      rcases ht with rfl | ⟨v', hv', hob, rfl⟩
      · exact i1
      · cases hv'
        intro w hw
        rcases List.mem_append.mp hw with hw | hw
        · exact i1 w hw
        · rw [List.mem_singleton] at hw
          subst hw
          rcases hv with h | h
          · rw [h] at hob; cases hob
          · rcases hel _ h with h | h
            · rw [h] at hob; cases hob
            · exact h
    | obj o v h hv =>
      have heq := addObj_eq h
      have hlt : objs₁.length < 2^31 := by rw [heq, List.length_append] at hl; simp at hl; omega
      have hvis := addObj_visit hlt h
      constructor
      · rcases ht with rfl | ⟨v', hv', hob, rfl⟩
        · exact i1
        · cases hv'
          intro w hw
          rcases List.mem_append.mp hw with hw | hw
          · exact i1 w hw
          · rw [List.mem_singleton] at hw
            subst hw
            left
            unfold CreatedSince
            rw [hvis.2.1]
            exact hle
      · intro i o' hi ho' w hw
        rw [heq] at ho'
        by_cases hi' : i < objs₁.length
        · rw [List.getElem?_append_left hi'] at ho'
          exact i2 i o' hi ho' w hw
        · rw [List.getElem?_append_right (by omega)] at ho'
          have : o' = o := by
            cases hz : i - objs₁.length with
            | zero => rw [hz] at ho'; cases ho'; rfl
            | succ n => rw [hz] at ho'; simp at ho'
          subst this
          rcases hv w hw with h | h
          · exact hag w h
          · exact hel w h

/-- A run that meets the hypotheses: the frame is given a vector holding a map, and fetches the map with `vec_get`. A second
vector of the host (object 2) was not passed and is out of reach. -/
example : dispatch (fun _ => natCmp) [.map [], .vec [valObject 1 .MapObject], .vec []] [valObject 3 .VecObject] .vecGet
    [valObject 0 .VecObject, valU32 0] =
    .ok ([.map [], .vec [valObject 1 .MapObject], .vec []], [valObject 3 .VecObject, valObject 1 .MapObject],
      ((valObject 2 .MapObject : Nat) : Int)) := by decide +kernel

example : ¬ Reach [.map [], .vec [valObject 1 .MapObject], .vec []] [valObject 3 .VecObject] (valObject 5 .VecObject) := by
  suffices h : ∀ w, Reach [.map [], .vec [valObject 1 .MapObject], .vec []] [valObject 3 .VecObject] w →
      w = valObject 3 .VecObject ∨ w = valObject 1 .MapObject by
    intro hr
    rcases h _ hr with h | h <;> revert h <;> decide +kernel
  intro w hw
  induction hw with
  | root h => left; simpa using h
  | elem _ hv hw ih =>
    rcases ih with rfl | rfl
    · have : visitObj [.map [], .vec [valObject 1 .MapObject], .vec []] (valObject 3 .VecObject) =
          .ok (.vec [valObject 1 .MapObject]) := by decide +kernel
      rw [this] at hv
      cases hv
      right
      simpa [elems] using hw
    · have : visitObj [.map [], .vec [valObject 1 .MapObject], .vec []] (valObject 1 .MapObject) =
          .ok (.map []) := by decide +kernel
      rw [this] at hv
      cases hv
      simp [elems] at hw

end Soroban.Props
