import Verif.Props.Int
import Verif.Props.MemoryFrame
/-!
C56 as a contract sees it: the calls with the words the contract holds, and what it can do with the words it gets back.
-/
namespace Soroban.Props
open Soroban Soroban.Spec

theorem relToAbs_tag {tbl : List Nat} {w v : Nat} (h : relToAbs tbl w = .ok v) : Val.tag v = Val.tag w := by
  rw [C10_resolve_iff] at h
  rcases h with ⟨_, rfl⟩ | ⟨_, _, _, h⟩
  · rfl
  · exact h

theorem wideIs_tag {objs : List HostObj} {s : Bool} {v : Nat} {i : Int} (h : WideIs objs s v i) (hs : Sound objs v) :
    Val.tag v = (wideTy s).smallTag ∨ Val.tag v = wideTag s := by
  cases h with
  | smallU n hn =>
    left
    exact tag_of_code (t := .U256Small) (by simp only [Tag.code]; omega) (by decide) (by decide) (by decide)
  | smallI _ h1 h2 =>
    left
    exact tag_of_code (t := .I256Small) (by simp only [Tag.code]; omega) (by decide) (by decide) (by decide)
  | objU n hv => right; exact (sound_tag hs (visitObj_ok.1 hv).1 hv).symm
  | objI _ hv => right; exact (sound_tag hs (visitObj_ok.1 hv).1 hv).symm

theorem wideIs_sound {objs : List HostObj} {v : Nat} (hv : v < 2^64) (hl : Layout v) (ho : Val.isObject v = false) : Sound objs v := by
  refine ⟨hv, ?_⟩
  unfold checkIntegrity
  rw [(C03_is_good_iff_layout v hv).2 hl, ho]
  rfl

theorem smallU_sound {objs : List HostObj} {n : Nat} (h : n < 2^56) : Sound objs (n * 2^8 + 12) :=
  wideIs_sound (by omega) (.smallInt 12 n (by omega) (by omega) h) (by
    cases hx : Val.isObject (n * 2^8 + 12)
    · rfl
    · rw [isObject_iff] at hx; omega)

theorem smallI_sound {objs : List HostObj} {n : Nat} (h : n < 2^56) : Sound objs (n * 2^8 + 13) :=
  wideIs_sound (by omega) (.smallInt 13 n (by omega) (by omega) h) (by
    cases hx : Val.isObject (n * 2^8 + 13)
    · rfl
    · rw [isObject_iff] at hx; omega)

theorem marshal_val {l : Lin} {w v : Nat} (h : Shows l w v) : marshalArg l.objs l.tbl .val w = .ok v := by
  unfold marshalArg
  rw [if_pos (by unfold ArgTy.accepts; rw [h.2.1]; rfl)]
  exact bind_ok.mpr ⟨_, h.2.2.1, bind_ok.mpr ⟨_, h.2.2.2.2, rfl⟩⟩

theorem marshal_obj {l : Lin} {w v : Nat} {t : Tag} (h : Shows l w v) (ht : Val.tag v = t) : marshalArg l.objs l.tbl (.obj t) w = .ok v := by
  unfold marshalArg
  rw [if_pos (by unfold ArgTy.accepts; rw [h.2.1, ← relToAbs_tag h.2.2.1, ht]; simp)]
  exact bind_ok.mpr ⟨_, h.2.2.1, bind_ok.mpr ⟨_, h.2.2.2.2, rfl⟩⟩

theorem marshal_wide {l : Lin} {s : Bool} {w v : Nat} {i : Int} (h : Shows l w v) (hi : WideIs l.objs s v i) :
    marshalI l.objs l.tbl (.wide s) w = .ok v := by
  have ht := wideIs_tag hi h.2.2.2
  rw [relToAbs_tag h.2.2.1] at ht
  simp only [marshalI]
  rw [if_pos ht]
  exact marshal_val h

theorem marshal_rhs {l : Lin} {s : Bool} {op : AOp} {w : Nat} {b : Int} (h : ShowsRhs l s op w b) :
    ∃ v, marshalI l.objs l.tbl (op.rhs s) w = .ok v ∧ RhsIs l.objs s op v b := by
  have u32 : (∃ n : Nat, n < 2^32 ∧ b = n ∧ w = n * 2^32 + 4) → marshalArg l.objs l.tbl .u32 w = .ok w := by
    rintro ⟨n, hn, rfl, rfl⟩
    have hlt : n * 2^32 + 4 < 2^64 := by omega
    have hg : Val.isGood (n * 2^32 + 4) = true := (C03_is_good_iff_layout _ hlt).2 (.int32 4 n (Or.inl rfl) hn)
    have ht : Val.tag (n * 2^32 + 4) = .U32Val := tag_of_code (by simp only [Tag.code]; omega) (by decide) (by decide) (by decide)
    have ho : Val.isObject (n * 2^32 + 4) = false := by
      cases hx : Val.isObject (n * 2^32 + 4)
      · rfl
      · rw [isObject_iff] at hx; omega
    unfold marshalArg
    rw [if_pos (by unfold ArgTy.accepts; rw [hg, ht]; rfl)]
    refine bind_ok.mpr ⟨_, (C10_resolve_iff _ _ _).2 (Or.inl ⟨ho, rfl⟩), bind_ok.mpr ⟨_, (wideIs_sound hlt ?_ ho).2, rfl⟩⟩
    exact (C03_is_good_iff_layout _ hlt).1 hg
  unfold ShowsRhs at h
  by_cases hc : op = .pow ∨ op = .shl ∨ op = .shr
  · rw [if_pos hc] at h
    refine ⟨w, ?_, by unfold RhsIs; rw [if_pos hc]; exact h⟩
    rcases hc with rfl | rfl | rfl <;> exact u32 h
  · rw [if_neg hc] at h
    obtain ⟨v, h1, h2, h3⟩ := h
    refine ⟨v, ?_, by unfold RhsIs; rw [if_neg hc]; exact ⟨h2, h3⟩⟩
    have : op.rhs s = .wide s := by
      cases op <;> first | rfl | simp at hc
    rw [this]
    exact marshal_wide h1 h2

/-- Handing back a sound value: the contract holds it, and everything it held before. -/
theorem handBack {l : Lin} {f : IFn} {ws as : List Nat} {objs' : List HostObj} {v : Nat} (hm : marshalIs l.objs l.tbl f.args ws = .ok as)
    (hr : runI l.objs f as = .ok (objs', .val v)) (hs : Sound objs' v) (ht : l.tbl.length < 2^31) :
    ∃ (l' : Lin) (w : Nat), dispatchI l f ws = .ok (l', (w : Int)) ∧ l'.mem = l.mem ∧ l'.objs = objs' ∧ Shows l' w v := by
  obtain ⟨tbl', r, hab⟩ := absToRel_succeeds hs ht
  obtain ⟨h1, h2, h3, _⟩ := C10_round_trip ht hab
  refine ⟨{ l with objs := objs', tbl := tbl' }, r, ?_, rfl, rfl, ?_, ?_, h1, hs⟩
  · unfold dispatchI
    refine bind_ok.mpr ⟨_, hm, bind_ok.mpr ⟨_, hr, ?_⟩⟩
    dsimp only
    exact bind_ok.mpr ⟨_, hs.2, bind_ok.mpr ⟨_, hab, rfl⟩⟩
  all_goals
    unfold absToRel at hab
    cases hob : Val.isObject v
    · rw [hob] at hab
      cases hab
      have hg := hs.2
      unfold checkIntegrity at hg
      split at hg
      · cases hg
      · first
          | exact hs.1
          | (rename_i hn; simpa using hn)
    · rw [hob] at hab
      simp only [if_true] at hab
      split at hab
      · cases hab
      · rw [indexToHandle_rel ht] at hab
        cases hab
        have hto := u8IsObject_tag hob
        have hcode : 64 ≤ (Val.tag v).code ∧ (Val.tag v).code ≤ 79 := by
          unfold Tag.u8IsObject at hto
          simp only [Bool.and_eq_true, decide_eq_true_eq] at hto
          simp only [Tag.code] at hto ⊢
          omega
        have heq : valObject (2 * l.tbl.length) (Val.tag v) = 2 * l.tbl.length * 2^32 + (Val.tag v).code := valObject_eq _ (by omega)
        have hlt : valObject (2 * l.tbl.length) (Val.tag v) < 2^64 := by rw [heq]; omega
        first
          | exact hlt
          | (refine (C03_is_good_iff_layout _ hlt).2 ?_
             rw [heq]
             exact .object _ _ hcode.1 hcode.2 (by omega))

theorem gives_sound {objs objs' : List HostObj} {s : Bool} {i : Int} {v : Nat} (hl : objs.length < 2^31) (hin : InWide s i)
    (h : wideVal objs s i = .ok (objs', v)) : Sound objs' v := by
  obtain ⟨objs₁, v₁, h1, h2⟩ := wideVal_gives (objs := objs) hl hin
  rw [h] at h1
  cases h1
  cases h2.1 with
  | smallU n hn => exact smallU_sound hn
  | smallI _ h1 h2 => exact smallI_sound (by omega)
  | objU n hv =>
    unfold wideVal at h
    cases hx : toSmall (wideTy false) (n : Int) with
    | some x =>
      rw [hx] at h
      cases h
      have := toSmall_plain hx
      rw [(visitObj_ok.1 hv).1] at this
      cases this
    | none => rw [hx] at h; exact (addObj_sound hl h).2.1
  | objI _ hv =>
    unfold wideVal at h
    cases hx : toSmall (wideTy true) i with
    | some x =>
      rw [hx] at h
      cases h
      have := toSmall_plain hx
      rw [(visitObj_ok.1 hv).1] at this
      cases this
    | none => rw [hx] at h; exact (addObj_sound hl h).2.1

theorem arith_run {objs : List HostObj} {s : Bool} {op : AOp} {va vb : Nat} {a b r : Int} (hl : objs.length < 2^31)
    (h : WideIs objs s va a) (ha : InWide s a) (hb : RhsIs objs s op vb b) (hr : Means s op a b r) :
    ∃ objs' v, runI objs (.arith s op) [va, vb] = .ok (objs', .val v) ∧ Gives objs objs' s v r ∧ Sound objs' v := by
  have hc := bignumCore_of h ha hb
  have hin := means_in ha (rhsIn_of hb) hr
  rw [(checkedOp_iff ha (rhsIn_of hb)).2 hr] at hc
  obtain ⟨objs', v, h1, h2⟩ := wideVal_gives hl hin
  refine ⟨objs', v, ?_, h2, gives_sound hl hin h1⟩
  unfold runI
  refine bind_ok.mpr ⟨_, hc, ?_⟩
  dsimp only
  exact bind_ok.mpr ⟨_, h1, rfl⟩

/-- C56, arithmetic as a contract sees it: if it holds words that stand for numbers, the call gives a word that stands for the result,
and the memory does not change. If there is no result the call fails with (Object, ArithDomain). -/
theorem C56_arith_call {l : Lin} {s : Bool} {op : AOp} {wa wb : Nat} {a b : Int} (hl : l.objs.length < 2^31) (ht : l.tbl.length < 2^31)
    (ha : ShowsWide l s wa a) (hb : ShowsRhs l s op wb b) :
    (∀ r, Means s op a b r → ∃ (l' : Lin) (w : Nat), dispatchI l (.arith s op) [wa, wb] = .ok (l', (w : Int)) ∧ l'.mem = l.mem ∧
      ShowsWide l' s w r) ∧
    ((¬ ∃ r, Means s op a b r) → dispatchI l (.arith s op) [wa, wb] = .error (.host .object .arithDomain)) := by
  obtain ⟨va, ha1, ha2, ha3⟩ := ha
  obtain ⟨vb, hb1, hb2⟩ := marshal_rhs hb
  have hm : marshalIs l.objs l.tbl (IFn.arith s op).args [wa, wb] = .ok [va, vb] := by
    simp only [IFn.args, marshalIs]
    exact bind_ok.mpr ⟨_, marshal_wide ha1 ha2, bind_ok.mpr ⟨_, bind_ok.mpr ⟨_, hb1, bind_ok.mpr ⟨_, rfl, rfl⟩⟩, rfl⟩⟩
  refine ⟨?_, ?_⟩
  · intro r hr
    obtain ⟨objs', v, h1, h2, h3⟩ := arith_run hl ha2 ha3 hb2 hr
    obtain ⟨l', w, h4, h5, h6, h7⟩ := handBack hm h1 h3 ht
    refine ⟨l', w, h4, h5, v, h7, ?_, means_in ha3 (rhsIn_of hb2) hr⟩
    rw [h6]
    exact h2.1
  · intro hn
    have := (C56_arith hl ha2 ha3 hb2).2 hn
    unfold dispatchI
    rw [hm]
    change (runI l.objs (.arith s op) [va, vb] >>= _) = _
    rw [this]
    rfl

/-! ### words over time -/

/-- The handles of a frame stay what they are. -/
theorem memRun_handles {cmp : List HostObj → Nat → Nat → Res Ordering} {l l' : Lin} (h : MemRun cmp l l') (hl : l'.objs.length ≤ 2^31) :
    ∃ e, l'.tbl = l.tbl ++ e := by
  revert hl
  induction h with
  | refl => exact fun _ => ⟨[], by simp⟩
  | code _ _ ih => exact ih
  | @int l₁ l₂ f ws w hrun _ hd ih =>
    intro hl
    rcases (dispatchI_cases hd).2 with ⟨h1, h2⟩ | ⟨o, v, h1, _, h2, _⟩
    · rw [h1] at hl; rw [h2]; exact ih hl
    · obtain ⟨e, he⟩ := ih (by rw [addObj_eq h1, List.length_append] at hl; omega)
      rcases h2 with h2 | h2
      · exact ⟨e, by rw [h2, he]⟩
      · exact ⟨e ++ [v], by rw [h2, he, List.append_assoc]⟩
  | @call l₁ l₂ f ws w hrun _ hd ih =>
    intro hl
    obtain ⟨as, l₃, r, _, h2, _, h4, h5⟩ := dispatchH_cases hd
    rw [h4] at hl
    have hres := runH_result h2 hl
    obtain ⟨e', he'⟩ := hres.objs
    obtain ⟨e, he⟩ := ih (by rw [he', List.length_append] at hl; omega)
    obtain ⟨te, hte, _⟩ := hres.tbl
    rcases h5 with h5 | ⟨v, _, _, _, h5⟩
    · exact ⟨e ++ te, by rw [h5, hte, he, List.append_assoc]⟩
    · exact ⟨e ++ te ++ [v], by rw [h5, hte, he]; simp⟩

theorem relToAbs_append {tbl e : List Nat} {w v : Nat} (h : relToAbs tbl w = .ok v) : relToAbs (tbl ++ e) w = .ok v := by
  rw [C10_resolve_iff] at h ⊢
  rcases h with h | ⟨h1, h2, h3, h4⟩
  · exact Or.inl h
  · exact Or.inr ⟨h1, h2, by rw [List.getElem?_append_left (List.getElem?_eq_some_iff.1 h3).1]; exact h3, h4⟩

/-- What a word stands for does not change, whatever the contract does. -/
theorem shows_later {cmp : List HostObj → Nat → Nat → Res Ordering} {l l' : Lin} (h : MemRun cmp l l') (hl : l'.objs.length ≤ 2^31) {w v : Nat}
    (hs : Shows l w v) : Shows l' w v := by
  obtain ⟨e, he⟩ := memRun_handles h hl
  obtain ⟨e', he'⟩ := memRun_append h
  refine ⟨hs.1, hs.2.1, by rw [he]; exact relToAbs_append hs.2.2.1, ?_⟩
  rw [he']
  exact hs.2.2.2.append

/-- C56, words over time: a contract that gives a word gets a handle, and as long as it runs, whatever it does, reading through the
handle gives the word. -/
theorem C56_words_kept {cmp : List HostObj → Nat → Nat → Res Ordering} {l : Lin} (t : WTy) {x : Nat} (hx : x < 2^64)
    (hl : l.objs.length < 2^31) (ht : l.tbl.length < 2^31) :
    ∃ (l' : Lin) (w : Nat), dispatchI l (.fromWord t) [x] = .ok (l', (w : Int)) ∧ l'.mem = l.mem ∧
      ∀ l'', MemRun cmp l' l'' → l''.objs.length ≤ 2^31 → dispatchI l'' (.toWord t) [w] = .ok (l'', seen (t == .i64) x) := by
  obtain ⟨v, hv⟩ := addObj_ok (wordObj t x) hl
  have hrun : runI l.objs (.fromWord t) [x] = .ok (l.objs ++ [wordObj t x], .val v) := by
    simp only [runI, retObj]
    exact bind_ok.mpr ⟨_, rfl, bind_ok.mpr ⟨_, hv, rfl⟩⟩
  have hm : marshalIs l.objs l.tbl (IFn.fromWord t).args [x] = .ok [x] := rfl
  obtain ⟨_, hs, hvis, hob⟩ := addObj_sound hl hv
  obtain ⟨l', w, h1, h2, h3, h4⟩ := handBack hm hrun hs ht
  refine ⟨l', w, h1, h2, ?_⟩
  intro l'' hr hl''
  have hsh := shows_later hr hl'' h4
  have hvis'' : visitObj l''.objs v = .ok (wordObj t x) := by
    refine C54_objects_immutable hr ?_
    rw [h3]
    exact hvis
  have htag : Val.tag v = t.tag := by
    have := sound_tag hs hob hvis
    rw [← this]
    cases t <;> rfl
  have hm' : marshalIs l''.objs l''.tbl (IFn.toWord t).args [w] = .ok [v] := by
    simp only [IFn.args, marshalIs, marshalI]
    exact bind_ok.mpr ⟨_, marshal_obj hsh htag, bind_ok.mpr ⟨_, rfl, rfl⟩⟩
  have hrun' : runI l''.objs (.toWord t) [v] = .ok (l''.objs, .raw (seen (t == .i64) x)) := by
    simp only [runI]
    refine bind_ok.mpr ⟨_, hvis'', bind_ok.mpr ⟨_, ?_, rfl⟩⟩
    cases t
    · rfl
    · simp only [wordObj, objWord, rawOf]
      rw [seen_asI64 hx]
      rfl
    · rfl
    · rfl
  unfold dispatchI
  refine bind_ok.mpr ⟨_, hm', bind_ok.mpr ⟨_, hrun', ?_⟩⟩
  rfl

/-- A frame that holds the least number of `I256` and 7. -/
example : ShowsWide ⟨[], intObjs, [1 * 2^32 + 71]⟩ true (0 * 2^32 + 71) (-2^255) ∧ ShowsRhs ⟨[], intObjs, [1 * 2^32 + 71]⟩ true .add (7 * 2^8 + 13) 7 ∧
    Means true .add (-2^255) 7 (-2^255 + 7) := by
  refine ⟨⟨1 * 2^32 + 71, ⟨by omega, by decide +kernel, by decide +kernel, by omega, by decide +kernel⟩, .objI _ (by decide +kernel), by unfold InWide; simp⟩, ?_, .add (by unfold InWide; simp)⟩
  unfold ShowsRhs
  rw [if_neg (by simp)]
  exact ⟨_, ⟨by omega, by decide +kernel, by decide +kernel, smallI_sound (n := 7) (by omega)⟩, .smallI 7 (by omega) (by omega), by unfold InWide; simp⟩

end Soroban.Props
