import Verif.Lemmas.Memory
import Verif.Lemmas.IntRun
import Verif.Props.Table
import Verif.Spec.Memory
/-!
C54 and C10: host calls of a contract that has a linear memory. What they can touch, what handles they can give, and what the
functions that move data between the memory and host objects do.
-/
namespace Soroban.Props
open Soroban Soroban.Spec

/-! ### any call -/

theorem dispatchH_cases {cmp : List HostObj → Nat → Nat → Res Ordering} {l l' : Lin} {f : HFn} {ws : List Nat} {w : Int}
    (h : dispatchH cmp l f ws = .ok (l', w)) :
    ∃ as l₁ r, marshalArgs l.objs l.tbl f.args ws = .ok as ∧ runH cmp l f as = .ok (l₁, r) ∧ l'.mem = l₁.mem ∧ l'.objs = l₁.objs ∧
      (l'.tbl = l₁.tbl ∨ ∃ v, r = .val v ∧ Val.isObject v = true ∧ checkIntegrity l₁.objs v = .ok () ∧ l'.tbl = l₁.tbl ++ [v]) := by
  unfold dispatchH at h
  obtain ⟨as, h1, h⟩ := bind_ok.mp h
  obtain ⟨⟨l₁, r⟩, h2, h⟩ := bind_ok.mp h
  refine ⟨as, l₁, r, h1, h2, ?_⟩
  cases r with
  | raw n => cases h; exact ⟨rfl, rfl, Or.inl rfl⟩
  | val v =>
    simp only at h
    obtain ⟨_, h3, h⟩ := bind_ok.mp h
    obtain ⟨⟨tbl, w'⟩, h4, h⟩ := bind_ok.mp h
    cases h
    refine ⟨rfl, rfl, ?_⟩
    dsimp only
    have := absToRel_tbl h4
    cases hob : Val.isObject v
    · rw [this]; simp [hob]
    · right; refine ⟨v, rfl, hob, h3, ?_⟩; rw [this]; simp [hob]

theorem args_given {l : Lin} {ts : List ArgTy} {ws as : List Nat} (h : marshalArgs l.objs l.tbl ts ws = .ok as) :
    ∀ a ∈ as, Val.isObject a = false ∨ a ∈ l.tbl := by
  intro a ha
  obtain ⟨w, _, hw⟩ := (marshalArgs_ok h).2 a ha
  rw [C10_resolve_iff] at hw
  rcases hw with ⟨h1, rfl⟩ | ⟨_, _, h1, _⟩
  · exact Or.inl h1
  · exact Or.inr (List.mem_of_getElem? h1)

/-- Host objects are only ever added, whether or not the table is full. -/
theorem runH_append {cmp : List HostObj → Nat → Nat → Res Ordering} {l l' : Lin} {f : HFn} {as : List Nat} {r : Ret}
    (h : runH cmp l f as = .ok (l', r)) : ∃ e, l'.objs = l.objs ++ e := by
  have key : ∀ {bs : List (List Nat)} {objs objs' : List HostObj} {ks : List Nat}, symbolsFromSlices objs bs = .ok (objs', ks) →
      ∃ e, objs' = objs ++ e := by
    intro bs
    induction bs with
    | nil => intro objs objs' ks h; cases h; exact ⟨[], by simp⟩
    | cons b bs ih =>
      intro objs objs' ks h
      unfold symbolsFromSlices at h
      obtain ⟨⟨objs₁, k⟩, h1, h⟩ := bind_ok.mp h
      obtain ⟨⟨objs₂, ks'⟩, h2, h⟩ := bind_ok.mp h
      cases h
      obtain ⟨e, rfl⟩ := ih h2
      unfold symbolFromSlice at h1
      cases hx : symbolTryFromBytes b with
      | some v => rw [hx] at h1; cases h1; exact ⟨e, rfl⟩
      | none =>
        rw [hx] at h1
        obtain ⟨o, ho, h1⟩ := bind_ok.mp h1
        exact ⟨o :: e, by rw [addObj_eq h1]; simp⟩
  have cp : ∀ {b : Res (List Nat)} {p q n : Nat}, copyTo l b p q n = .ok (l', r) → ∃ e, l'.objs = l.objs ++ e := by
    intro b p q n h
    unfold copyTo at h
    obtain ⟨_, _, h⟩ := bind_ok.mp h
    obtain ⟨_, _, h⟩ := bind_ok.mp h
    obtain ⟨_, _, h⟩ := bind_ok.mp h
    cases h
    exact ⟨[], by simp⟩
  have nf : ∀ {mk : List Nat → Res HostObj} {p n : Nat}, newFrom l mk p n = .ok (l', r) → ∃ e, l'.objs = l.objs ++ e := by
    intro mk p n h
    unfold newFrom at h
    obtain ⟨_, _, h⟩ := bind_ok.mp h
    obtain ⟨o, ho, h⟩ := bind_ok.mp h
    obtain ⟨⟨objs, v⟩, ha, h⟩ := bind_ok.mp h
    cases h
    exact ⟨[o], addObj_eq ha⟩
  cases f with
  | obj f =>
    unfold runH at h
    obtain ⟨⟨objs, r'⟩, h1, h⟩ := bind_ok.mp h
    cases h
    rcases runResult_objs (runFn_result h1) with h | ⟨o, h⟩
    · exact ⟨[], by simp [h]⟩
    · exact ⟨[o], h⟩
  | buf f =>
    unfold runH at h
    obtain ⟨⟨objs, r'⟩, h1, h⟩ := bind_ok.mp h
    cases h
    rcases runResult_objs (runB_result h1) with h | ⟨o, h⟩
    · exact ⟨[], by simp [h]⟩
    · exact ⟨[o], h⟩
  | mem f =>
    change runM cmp l f as = .ok (l', r) at h
    unfold runM at h
    split at h
    · exact cp h
    · exact cp h
    · exact cp h
    · obtain ⟨_, _, h⟩ := bind_ok.mp h
      obtain ⟨_, _, h⟩ := bind_ok.mp h
      obtain ⟨⟨objs, v⟩, ha, h⟩ := bind_ok.mp h
      cases h
      exact ⟨_, addObj_eq ha⟩
    · exact nf h
    · exact nf h
    · exact nf h
    · unfold symbolIndex at h
      obtain ⟨_, _, h⟩ := bind_ok.mp h
      obtain ⟨_, _, h⟩ := bind_ok.mp h
      split at h
      · cases h; exact ⟨[], by simp⟩
      · cases h
    · unfold vecNewFrom at h
      obtain ⟨_, _, h⟩ := bind_ok.mp h
      obtain ⟨_, _, h⟩ := bind_ok.mp h
      obtain ⟨_, _, h⟩ := bind_ok.mp h
      obtain ⟨⟨objs, v⟩, ha, h⟩ := bind_ok.mp h
      cases h
      exact ⟨_, addObj_eq ha⟩
    · unfold vecUnpackTo at h
      obtain ⟨_, _, h⟩ := bind_ok.mp h
      split at h
      · obtain ⟨⟨mem, tbl⟩, _, h⟩ := bind_ok.mp h
        cases h; exact ⟨[], by simp⟩
      · cases h
    · unfold mapNewFromMem at h
      obtain ⟨_, _, h⟩ := bind_ok.mp h
      obtain ⟨⟨objs₁, keys⟩, h2, h⟩ := bind_ok.mp h
      obtain ⟨_, _, h⟩ := bind_ok.mp h
      obtain ⟨m, _, h⟩ := bind_ok.mp h
      obtain ⟨⟨objs₂, v⟩, h5, h⟩ := bind_ok.mp h
      cases h
      obtain ⟨e, rfl⟩ := key h2
      exact ⟨e ++ [.map m], by dsimp only; rw [addObj_eq h5, List.append_assoc]⟩
    · unfold mapUnpackToMem at h
      obtain ⟨_, _, h⟩ := bind_ok.mp h
      obtain ⟨_, _, h⟩ := bind_ok.mp h
      obtain ⟨_, _, h⟩ := bind_ok.mp h
      obtain ⟨⟨mem, tbl⟩, _, h⟩ := bind_ok.mp h
      cases h; exact ⟨[], by simp⟩
    · cases h

theorem memRun_append {cmp : List HostObj → Nat → Nat → Res Ordering} {l l' : Lin} (h : MemRun cmp l l') :
    ∃ e, l'.objs = l.objs ++ e := by
  induction h with
  | refl => exact ⟨[], by simp⟩
  | call _ _ hd ih =>
    obtain ⟨e, he⟩ := ih
    obtain ⟨as, l₁, r, _, h2, _, h4, _⟩ := dispatchH_cases hd
    obtain ⟨e', he'⟩ := runH_append h2
    exact ⟨e ++ e', by rw [h4, he', he, List.append_assoc]⟩
  | int _ _ hd ih =>
    obtain ⟨e, he⟩ := ih
    rcases (dispatchI_cases hd).2 with ⟨h, _⟩ | ⟨o, v, h, _⟩
    · exact ⟨e, by rw [h, he]⟩
    · exact ⟨e ++ [o], by rw [addObj_eq h, he, List.append_assoc]⟩
  | code _ _ ih => exact ih

/-- C54 and C06: whatever a contract does with its memory and with host calls, an object it or anyone else has a handle of never
changes. In particular objects made from memory are copies: writing to the memory later does not change them. -/
theorem C54_objects_immutable {cmp : List HostObj → Nat → Nat → Res Ordering} {l l' : Lin} (h : MemRun cmp l l') {v : Nat} {o : HostObj}
    (hv : visitObj l.objs v = .ok o) : visitObj l'.objs v = .ok o := by
  obtain ⟨e, he⟩ := memRun_append h
  rw [he]
  exact visitObj_append hv

/-- C10, confinement, for contracts with a memory: a frame that makes any sequence of host calls with any words as arguments, and
that puts any bytes into its memory, ends up with handles only of objects that were made since it started or that were reachable
from what it was given. So neither words made up as call arguments nor words made up in memory give access to anything else. -/
theorem C10_confinement_memory {cmp : List HostObj → Nat → Nat → Res Ordering} {l l' : Lin} (h : MemRun cmp l l')
    (hl : l'.objs.length ≤ 2^31) : ∀ w ∈ l'.tbl, CreatedSince l.objs.length w ∨ Reach l.objs l.tbl w := by
  suffices hs : (∀ w ∈ l'.tbl, CreatedSince l.objs.length w ∨ Reach l.objs l.tbl w) ∧
      ∀ i o, l.objs.length ≤ i → l'.objs[i]? = some o → ∀ w ∈ elems o,
        Val.isObject w = false ∨ CreatedSince l.objs.length w ∨ Reach l.objs l.tbl w from hs.1
  revert hl
  induction h with
  | refl =>
    intro hl
    refine ⟨fun w hw => Or.inr (.root hw), ?_⟩
    intro i o hi ho
    rw [List.getElem?_eq_none hi] at ho
    cases ho
  | code _ _ ih => exact ih
  | @int l₁ l₂ f ws w hrun _ hd ih =>
    intro hl
    obtain ⟨e, he⟩ := memRun_append hrun
    have hle : l.objs.length ≤ l₁.objs.length := by rw [he]; simp
    rcases (dispatchI_cases hd).2 with ⟨h1, h2⟩ | ⟨o, v, h1, _, h2, h3, _⟩
    · rw [h1] at hl ⊢
      rw [h2]
      exact ih hl
    · have heq := addObj_eq h1
      obtain ⟨i1, i2⟩ := ih (by rw [heq, List.length_append] at hl; omega)
      have hcr := (created_of_addObj hl hle h1).1
      refine ⟨?_, ?_⟩
      · rcases h2 with h2 | h2
        · rw [h2]; exact i1
        · rw [h2]
          intro w hw
          rcases List.mem_append.1 hw with hw | hw
          · exact i1 w hw
          · rw [List.mem_singleton] at hw
            subst hw
            exact Or.inl hcr
      · intro i o' hi ho w hw
        rw [heq] at ho
        by_cases hlt : i < l₁.objs.length
        · rw [List.getElem?_append_left hlt] at ho
          exact i2 i o' hi ho w hw
        · rw [List.getElem?_append_right (by omega)] at ho
          have : o' = o := by
            have := List.mem_of_getElem? ho
            simpa using this
          subst this
          rw [h3] at hw
          cases hw
  | @call l₁ l₂ f ws w hrun _ hd ih =>
    intro hl
    obtain ⟨as, l₃, r, hm, hrun', _, hobj, ht⟩ := dispatchH_cases hd
    have has := args_given hm
    rw [hobj] at hl
    have hr := runH_result hrun' hl
    obtain ⟨e, he⟩ := memRun_append hrun
    obtain ⟨e', he'⟩ := hr.objs
    have hle : l.objs.length ≤ l₁.objs.length := by rw [he]; simp
    obtain ⟨i1, i2⟩ := ih (by rw [he', List.length_append] at hl; omega)
    have hgiven : ∀ w, Given l₁ as w → Val.isObject w = false ∨ CreatedSince l.objs.length w ∨ Reach l.objs l.tbl w := by
      intro w hw
      have htb : ∀ w ∈ l₁.tbl, Val.isObject w = false ∨ CreatedSince l.objs.length w ∨ Reach l.objs l.tbl w := by
        exact fun w hw => Or.inr (i1 w hw)
      rcases hw with (h | h | h | h) | ⟨h, _⟩
      · exact Or.inl h
      · rcases has w h with h | h
        · exact Or.inl h
        · exact htb w h
      · exact htb w h
      · obtain ⟨c, hc, o, ho, hw⟩ := h
        have ho' := visitObj_ok.mp ho
        by_cases hi : l.objs.length ≤ handleToIndex (objHandle c)
        · exact i2 _ o hi ho'.2.2 w hw
        · have hcg : Val.isObject c = false ∨ CreatedSince l.objs.length c ∨ Reach l.objs l.tbl c := by
            rcases has c hc with h | h
            · exact Or.inl h
            · exact htb c h
          rcases hcg with h | h | h
          · rw [h] at ho'; cases ho'.1
          · exact absurd h hi
          · refine Or.inr (Or.inr (.elem h (o := o) ?_ hw))
            rw [visitObj_ok]
            refine ⟨ho'.1, ho'.2.1, ?_⟩
            have := ho'.2.2
            rw [he, List.getElem?_append_left (by omega)] at this
            exact this
      · unfold CreatedSince at h
        exact Or.inr (Or.inl (Nat.le_trans hle h))
    obtain ⟨te, hte, htg⟩ := hr.tbl
    have hold : ∀ w ∈ l₃.tbl, CreatedSince l.objs.length w ∨ Reach l.objs l.tbl w := by
      intro w hw
      rw [hte] at hw
      rcases List.mem_append.1 hw with hw | hw
      · exact i1 w hw
      · obtain ⟨h1, h2⟩ := htg w hw
        rcases hgiven w (Or.inl h1) with h | h
        · rw [h] at h2; cases h2
        · exact h
    refine ⟨?_, ?_⟩
    · rcases ht with h | ⟨v, hv, hob, _, h⟩
      · rw [h]; exact hold
      · rw [h]
        intro w hw
        rcases List.mem_append.1 hw with hw | hw
        · exact hold w hw
        · rw [List.mem_singleton] at hw
          subst hw
          rcases hgiven w (hr.ret w hv) with h | h
          · rw [h] at hob; cases hob
          · exact h
    · intro i o hi ho
      rw [hobj] at ho
      by_cases hlt : i < l₁.objs.length
      · refine i2 i o hi ?_
        rw [he', List.getElem?_append_left hlt] at ho
        exact ho
      · intro w hw
        exact hgiven w (hr.new i o (by omega) ho w hw)

end Soroban.Props
