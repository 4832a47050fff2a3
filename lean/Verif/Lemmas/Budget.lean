import Verif.Spec.Budget
/-! Lemmas about single charges and about running metered work. -/
namespace Soroban.Budget
open Soroban Soroban.Budget.Spec

theorem satAddU64_eq (a b : Nat) : satAddU64 a b = min u64Max (a + b) := by
  unfold satAddU64; split <;> omega

theorem satMulU64_eq (a b : Nat) : satMulU64 a b = min u64Max (a * b) := by
  unfold satMulU64; split <;> omega

theorem evaluate_le (m : CostModel) (n : Nat) (i : Option Nat) : m.evaluate n i ≤ u64Max := by
  unfold CostModel.evaluate
  have h1 : satMulU64 m.constTerm n ≤ u64Max := by rw [satMulU64_eq]; exact Nat.min_le_left _ _
  cases i with
  | none => exact h1
  | some x =>
    simp only
    split
    · exact h1
    · rw [satAddU64_eq]; exact Nat.min_le_left _ _

/-! ### a dimension -/

/-- Effect of a real charge on a dimension. -/
def Dim.bump (d : Dim) (amount : Nat) : Dim :=
  { d with net := min u64Max (d.net + amount), peak := max d.peak (min u64Max (d.net + amount)) }

theorem dim_charge_real {d : Dim} {ty n : Nat} {i : Option Nat} {m : CostModel} (h : d.models[ty]? = some m) :
    d.charge ty n i false = .ok (d.bump (m.evaluate n i), m.evaluate n i) := by
  unfold Dim.charge Dim.costModel
  rw [h]
  simp only [Bool.false_eq_true, if_false, satAddU64_eq, Dim.bump]

theorem dim_charge_none {d : Dim} {ty n : Nat} {i : Option Nat} {sh : Bool} (h : d.models[ty]? = none) :
    d.charge ty n i sh = .error (.host .budget .internalError) := by
  unfold Dim.charge Dim.costModel
  rw [h]

theorem dim_charge_shadow {d : Dim} {ty n : Nat} {i : Option Nat} {r : Dim × Nat} (h : d.charge ty n i true = .ok r) :
    ∃ c, r.1 = { d with shadowNet := c } := by
  unfold Dim.charge at h
  split at h
  · cases h
  · simp only [if_true] at h
    cases h
    exact ⟨_, rfl⟩

theorem checkLimit_real (d : Dim) : d.checkLimit false = .ok () ↔ d.net ≤ d.limit := by
  unfold Dim.checkLimit
  simp only [Bool.false_eq_true, if_false, decide_eq_true_eq]
  split
  · constructor
    · intro h; cases h
    · intro h; omega
  · simp; omega

/-! ### one charge -/

/-- The trackers after the report part of a charge. -/
theorem charge_real_cases (b : B) (ty n : Nat) (i : Option Nat) (hr : b.inShadow = false) :
    ∃ b', b' = (b.charge ty n i).1 ∧ b'.inShadow = false ∧ b'.depth = b.depth ∧ b'.trackers.length = b.trackers.length ∧
      (b'.cpu = b.cpu ∨ ∃ m, b.cpu.models[ty]? = some m ∧ b'.cpu = b.cpu.bump (m.evaluate n i)) ∧
      (b'.mem = b.mem ∨ ∃ m, b.mem.models[ty]? = some m ∧ b'.mem = b.mem.bump (m.evaluate n i)) ∧
      ((b.charge ty n i).2 = .ok () →
        ∃ cm mm, b.cpu.models[ty]? = some cm ∧ b.mem.models[ty]? = some mm ∧
          b'.cpu = b.cpu.bump (cm.evaluate n i) ∧ b'.mem = b.mem.bump (mm.evaluate n i) ∧
          b'.cpu.net ≤ b.cpu.limit ∧ b'.mem.net ≤ b.mem.limit) := by
  refine ⟨_, rfl, ?_⟩
  unfold B.charge
  cases ht : b.trackers[ty]? with
  | none => simp [hr]
  | some t =>
    simp only [hr, Bool.false_eq_true, if_false]
    split
    · -- dims
      unfold B.chargeDims
      unfold B.chargeCpu
      simp only [hr]
      cases hc : b.cpu.models[ty]? with
      | none =>
        rw [dim_charge_none hc]
        simp
      | some cm =>
        rw [dim_charge_real hc]
        simp only [Bool.false_eq_true, if_false]
        cases hcl : (b.cpu.bump (cm.evaluate n i)).checkLimit false with
        | error e => simp [List.length_modify]
        | ok _ =>
          have hcl' := (checkLimit_real _).mp hcl
          simp only
          unfold B.chargeMem
          simp only
          cases hm : b.mem.models[ty]? with
          | none =>
            rw [dim_charge_none hm]
            simp
          | some mm =>
            rw [dim_charge_real hm]
            simp only [Bool.false_eq_true, if_false]
            refine ⟨trivial, trivial, ?_, ?_, ?_, ?_⟩
            · simp [List.length_modify]
            · right; exact ⟨cm, rfl, rfl⟩
            · right; exact ⟨mm, rfl, rfl⟩
            · intro h
              have hml := (checkLimit_real _).mp h
              exact ⟨cm, mm, rfl, rfl, rfl, rfl, hcl', hml⟩
    · simp

/-- Whether a real charge succeeds. -/
theorem charge_ok_iff (b : B) (ty n : Nat) (i : Option Nat) (hr : b.inShadow = false) :
    (b.charge ty n i).2 = .ok () ↔ ∃ t cm mm, b.trackers[ty]? = some t ∧ (t.inputs.isSome = i.isSome) ∧
      b.cpu.models[ty]? = some cm ∧ b.mem.models[ty]? = some mm ∧
      min u64Max (b.cpu.net + cm.evaluate n i) ≤ b.cpu.limit ∧
      min u64Max (b.mem.net + mm.evaluate n i) ≤ b.mem.limit := by
  have hadd : ∀ t : Tracker, (t.add n i).2 = true ↔ t.inputs.isSome = i.isSome := by
    intro t
    unfold Tracker.add
    cases h1 : t.inputs <;> cases i <;> simp
  unfold B.charge
  cases ht : b.trackers[ty]? with
  | none => simp
  | some t =>
    simp only [hr, Bool.false_eq_true, if_false, Option.some.injEq]
    by_cases hk : (t.add n i).2 = true
    · rw [if_pos hk]
      have hk' := (hadd t).mp hk
      unfold B.chargeDims B.chargeCpu
      simp only [hr]
      cases hc : b.cpu.models[ty]? with
      | none => rw [dim_charge_none hc]; simp
      | some cm =>
        rw [dim_charge_real hc]
        simp only [Bool.false_eq_true, if_false]
        cases hcl : (b.cpu.bump (cm.evaluate n i)).checkLimit false with
        | error e =>
          have : ¬ (b.cpu.bump (cm.evaluate n i)).net ≤ (b.cpu.bump (cm.evaluate n i)).limit := by
            rw [← checkLimit_real, hcl]; intro h; cases h
          simp only [Dim.bump] at this
          constructor
          · intro h; cases h
          · rintro ⟨_, cm', mm, _, _, h1, _, h3, _⟩
            cases h1
            exact absurd h3 this
        | ok _ =>
          have hcl' := (checkLimit_real _).mp hcl
          simp only [Dim.bump] at hcl'
          simp only
          unfold B.chargeMem
          simp only
          cases hm : b.mem.models[ty]? with
          | none => rw [dim_charge_none hm]; simp
          | some mm =>
            rw [dim_charge_real hm]
            simp only [Bool.false_eq_true, if_false]
            rw [checkLimit_real]
            constructor
            · intro h
              exact ⟨t, cm, mm, rfl, hk', rfl, rfl, hcl', h⟩
            · rintro ⟨_, _, mm', _, _, _, h2, _, h4⟩
              cases h2
              exact h4
    · rw [if_neg hk]
      constructor
      · intro h; cases h
      · rintro ⟨_, _, _, rfl, h, _⟩; exact absurd ((hadd _).mpr h) hk

/-- A charge in shadow mode touches only the shadow counters. -/
theorem charge_shadow (b : B) (ty n : Nat) (i : Option Nat) (hr : b.inShadow = true) :
    ∃ c m, (b.charge ty n i).1 =
      { b with cpu := { b.cpu with shadowNet := c }, mem := { b.mem with shadowNet := m } } := by
  unfold B.charge
  cases ht : b.trackers[ty]? with
  | none => exact ⟨_, _, rfl⟩
  | some t =>
    simp only [hr, if_true]
    unfold B.chargeDims B.chargeCpu
    rw [hr]
    cases hc : b.cpu.charge ty n i true with
    | error e =>
      refine ⟨b.cpu.shadowNet, b.mem.shadowNet, ?_⟩
      rw [← hr]
    | ok r =>
      obtain ⟨c, hc'⟩ := dim_charge_shadow hc
      obtain ⟨cpu, amt⟩ := r
      simp only at hc'
      subst hc'
      simp only [if_true]
      cases hl : Dim.checkLimit { b.cpu with shadowNet := c } true with
      | error e => exact ⟨c, b.mem.shadowNet, rfl⟩
      | ok _ =>
        simp only
        unfold B.chargeMem
        simp only [hr]
        cases hm : b.mem.charge ty n i true with
        | error e => exact ⟨c, b.mem.shadowNet, rfl⟩
        | ok r =>
          obtain ⟨m, hm'⟩ := dim_charge_shadow hm
          obtain ⟨mem, amt⟩ := r
          simp only at hm'
          subst hm'
          exact ⟨c, m, rfl⟩

/-! ### running work -/

theorem withShadow_self (s : S) : withShadow s s.b.cpu.shadowNet s.b.mem.shadowNet = s := rfl

theorem memGrowing_shadow (s : S) (c d : Nat) (m : Option Nat) (hr : s.b.inShadow = true) :
    ∃ x y, (memGrowing s c d m).1 = withShadow s x y := by
  unfold memGrowing
  simp only
  generalize (if d - c > s.b.mem.remaining then false else _ : Bool) = allow
  cases allow with
  | false => exact ⟨_, _, rfl⟩
  | true =>
    simp only [if_true]
    obtain ⟨x, y, h⟩ := charge_shadow s.b memAlloc 1 (some (d - c)) hr
    generalize s.b.charge memAlloc 1 (some (d - c)) = r at h
    obtain ⟨b, r⟩ := r
    simp only at h
    subst h
    cases r with
    | error e => exact ⟨x, y, rfl⟩
    | ok _ =>
      simp only [hr, if_true]
      exact ⟨x, y, by simp only [withShadow, hr]⟩

theorem checkedSub_one {d : Nat} (h : 0 < d) : checkedSub d 1 = some (d - 1) := by
  unfold checkedSub; rw [if_pos (by omega)]

theorem checkedSub_one_zero : checkedSub 0 1 = none := by decide

theorem checkedAdd_one {d : Nat} (h : d < u32Max) : checkedAddU32 d 1 = some (d + 1) := by
  unfold checkedAddU32; rw [if_pos (by omega)]

theorem shadow_step (w : Work) (s : S) (key : ∃ c m, (run w { s with b := { s.b with inShadow := true } }).1 =
      withShadow { s with b := { s.b with inShadow := true } } c m) :
    (∃ c m, (run (.shadow w) s).1 = withShadow s c m) ∧ (∃ c m, (run (.obsShadow w) s).1 = withShadow s c m) := by
  obtain ⟨c, m, h⟩ := key
  constructor
  · unfold run
    simp only
    generalize B.shadowCheck _ = r
    cases r with
    | error _ => exact ⟨_, _, rfl⟩
    | ok _ =>
      refine ⟨c, m, ?_⟩
      simp only [h]
      rfl
  · unfold run
    simp only
    generalize B.shadowCheck _ = r
    cases r with
    | error _ => exact ⟨_, _, rfl⟩
    | ok _ =>
      refine ⟨c, m, ?_⟩
      simp only [h]
      rfl

/-- Work run in shadow mode touches only the shadow counters. -/
theorem run_shadow : ∀ (w : Work) (s : S), s.b.inShadow = true → s.b.depth ≤ u32Max →
    ∃ c m, (run w s).1 = withShadow s c m := by
  intro w
  induction w with
  | skip => intro s _ _; exact ⟨_, _, rfl⟩
  | fail e => intro s _ _; exact ⟨_, _, rfl⟩
  | charge ty n i =>
    intro s hs _
    obtain ⟨c, m, h⟩ := charge_shadow s.b ty n i hs
    refine ⟨c, m, ?_⟩
    simp only [run, withShadow, h]
  | seq a b iha ihb =>
    intro s hs hd
    obtain ⟨c, m, h⟩ := iha s hs hd
    unfold run
    generalize run a s = r at h
    obtain ⟨s1, r⟩ := r
    simp only at h
    subst h
    cases r with
    | error e => exact ⟨c, m, rfl⟩
    | ok _ =>
      obtain ⟨c', m', h'⟩ := ihb (withShadow s c m) hs hd
      exact ⟨c', m', h'⟩
  | attempt w ih => intro s hs hd; exact ih s hs hd
  | shadow w ih => intro s hs hd; exact (shadow_step w s (ih _ rfl hd)).1
  | obsShadow w ih => intro s hs hd; exact (shadow_step w s (ih _ rfl hd)).2
  | limited w ih =>
    intro s hs hd
    unfold run
    by_cases h0 : s.b.depth = 0
    · rw [h0, checkedSub_one_zero]
      exact ⟨_, _, rfl⟩
    · rw [checkedSub_one (by omega)]
      obtain ⟨c, m, h⟩ := ih { s with b := { s.b with depth := s.b.depth - 1 } } hs (by simp only; omega)
      simp only [h]
      have : (withShadow { s with b := { s.b with depth := s.b.depth - 1 } } c m).b.depth = s.b.depth - 1 := rfl
      rw [this, checkedAdd_one (by omega)]
      refine ⟨c, m, ?_⟩
      unfold withShadow
      simp only
      rw [show s.b.depth - 1 + 1 = s.b.depth from by omega]
  | memGrow c d m => intro s hs _; exact memGrowing_shadow s c d m hs
  | frame w ih =>
    intro s hs hd
    obtain ⟨c, m, h⟩ := ih { s with frames := 0 :: s.frames } hs hd
    refine ⟨c, m, ?_⟩
    unfold run
    simp only [h]
    simp only [popFrame, withShadow, ne_eq, not_true, if_false]
  | vmFrame inst body ihi ihb =>
    intro s hs hd
    obtain ⟨c, m, h⟩ := ihi s hs hd
    unfold run
    simp only
    generalize run inst s = r at h
    obtain ⟨s1, r⟩ := r
    simp only at h
    subst h
    cases r with
    | error e => exact ⟨c, m, rfl⟩
    | ok _ =>
      have hrc : reclaimSince (withShadow s c m).frames (currentFrameMem s.frames) = (s.frames, 0) := by
        show reclaimSince s.frames _ = _
        cases hf : s.frames with
        | nil => rfl
        | cons f fs => simp [reclaimSince, currentFrameMem]
      simp only [hrc]
      obtain ⟨c', m', h'⟩ := ihb { withShadow s c m with frames := 0 :: s.frames } hs hd
      refine ⟨c', m', ?_⟩
      simp only [h']
      simp only [popFrame, withShadow, ne_eq, not_true, if_false]
  | dep f ih => intro s hs hd; exact ih s s hs hd

/-- Effect of `with_shadow_mode` and of its observable variant, in any mode. -/
theorem run_shadow_mode (w : Work) (s : S) (hd : s.b.depth ≤ u32Max) :
    (run (.shadow w) s).2 = .ok () ∧ (∃ c m, (run (.shadow w) s).1 = withShadow s c m) ∧
    (∃ c m, (run (.obsShadow w) s).1 = withShadow s c m) := by
  have := shadow_step w s (run_shadow w _ rfl hd)
  exact ⟨rfl, this.1, this.2⟩

/-- What no work can undo. -/
structure Mono (s s' : S) : Prop where
  cpuNet : s.b.cpu.net ≤ s'.b.cpu.net
  cpuPeak : s.b.cpu.peak ≤ s'.b.cpu.peak
  cpuLimit : s'.b.cpu.limit = s.b.cpu.limit
  cpuModels : s'.b.cpu.models = s.b.cpu.models
  memPeak : s.b.mem.peak ≤ s'.b.mem.peak
  memLimit : s'.b.mem.limit = s.b.mem.limit
  memModels : s'.b.mem.models = s.b.mem.models
  inShadow : s'.b.inShadow = s.b.inShadow
  depth : s'.b.depth = s.b.depth

theorem Mono.refl (s : S) : Mono s s := ⟨Nat.le_refl _, Nat.le_refl _, rfl, rfl, Nat.le_refl _, rfl, rfl, rfl, rfl⟩

theorem Mono.trans {a b c : S} (h : Mono a b) (h' : Mono b c) : Mono a c :=
  ⟨Nat.le_trans h.cpuNet h'.cpuNet, Nat.le_trans h.cpuPeak h'.cpuPeak, h'.cpuLimit.trans h.cpuLimit,
   h'.cpuModels.trans h.cpuModels, Nat.le_trans h.memPeak h'.memPeak, h'.memLimit.trans h.memLimit,
   h'.memModels.trans h.memModels, h'.inShadow.trans h.inShadow, h'.depth.trans h.depth⟩

theorem Mono.withShadow (s : S) (c m : Nat) : Mono s (withShadow s c m) :=
  ⟨Nat.le_refl _, Nat.le_refl _, rfl, rfl, Nat.le_refl _, rfl, rfl, rfl, rfl⟩

/-- All that is needed about the net counts is that they fit 64 bits. -/
def Fits (s : S) : Prop := s.b.cpu.net ≤ u64Max ∧ s.b.mem.net ≤ u64Max

theorem charge_mono (s : S) (fr : List Nat) (ty n : Nat) (i : Option Nat) (hf : Fits s) :
    Mono s (S.mk (s.b.charge ty n i).1 fr) ∧ Fits { b := (s.b.charge ty n i).1, frames := fr } ∧
    s.b.mem.net ≤ (s.b.charge ty n i).1.mem.net := by
  cases hr : s.b.inShadow with
  | true =>
    obtain ⟨c, m, h⟩ := charge_shadow s.b ty n i hr
    rw [h]
    refine ⟨?_, hf, Nat.le_refl _⟩
    constructor <;> simp [hr]
  | false =>
    obtain ⟨b', hb, h1, h2, _, h4, h5, _⟩ := charge_real_cases s.b ty n i hr
    rw [← hb]
    obtain ⟨hf1, hf2⟩ := hf
    have e4 : s.b.cpu.net ≤ b'.cpu.net ∧ b'.cpu.net ≤ u64Max ∧ s.b.cpu.peak ≤ b'.cpu.peak ∧
        b'.cpu.limit = s.b.cpu.limit ∧ b'.cpu.models = s.b.cpu.models := by
      rcases h4 with h | ⟨m, _, h⟩
      · rw [h]; exact ⟨Nat.le_refl _, hf1, Nat.le_refl _, rfl, rfl⟩
      · rw [h]
        unfold Dim.bump
        refine ⟨?_, Nat.min_le_left _ _, Nat.le_max_left _ _, rfl, rfl⟩
        exact Nat.le_min.mpr ⟨hf1, Nat.le_add_right _ _⟩
    have e5 : s.b.mem.net ≤ b'.mem.net ∧ b'.mem.net ≤ u64Max ∧ s.b.mem.peak ≤ b'.mem.peak ∧
        b'.mem.limit = s.b.mem.limit ∧ b'.mem.models = s.b.mem.models := by
      rcases h5 with h | ⟨m, _, h⟩
      · rw [h]; exact ⟨Nat.le_refl _, hf2, Nat.le_refl _, rfl, rfl⟩
      · rw [h]
        unfold Dim.bump
        refine ⟨?_, Nat.min_le_left _ _, Nat.le_max_left _ _, rfl, rfl⟩
        exact Nat.le_min.mpr ⟨hf2, Nat.le_add_right _ _⟩
    refine ⟨⟨e4.1, e4.2.2.1, e4.2.2.2.1, e4.2.2.2.2, e5.2.2.1, e5.2.2.2.1, e5.2.2.2.2, ?_, h2⟩, ⟨e4.2.1, e5.2.1⟩, e5.1⟩
    rw [h1, hr]

/-- The ways growing memory can end. -/
theorem memGrowing_cases (s : S) (c d : Nat) (m : Option Nat) :
    (memGrowing s c d m = (s, .error (.host .wasmVm .indexBounds))) ∨
    ((memGrowing s c d m).1 = { s with b := (s.b.charge memAlloc 1 (some (d - c))).1 } ∧
      ((∃ e, (memGrowing s c d m).2 = .error e) ∨ s.b.inShadow = true)) ∨
    (∃ mm, (s.b.charge memAlloc 1 (some (d - c))).2 = .ok () ∧ s.b.mem.models[memAlloc]? = some mm ∧ s.b.inShadow = false ∧
      memGrowing s c d m = (S.mk (s.b.charge memAlloc 1 (some (d - c))).1
        (chargeFrame s.frames (mm.evaluate 1 (some (d - c)))), .ok ())) := by
  unfold memGrowing
  simp only
  generalize (if d - c > s.b.mem.remaining then false else _ : Bool) = allow
  cases allow with
  | false => exact Or.inl rfl
  | true =>
    right
    simp only [if_true]
    cases hr : s.b.inShadow with
    | true =>
      left
      obtain ⟨x, y, h⟩ := charge_shadow s.b memAlloc 1 (some (d - c)) hr
      generalize s.b.charge memAlloc 1 (some (d - c)) = r at h
      obtain ⟨b, r⟩ := r
      simp only at h
      subst h
      cases r with
      | error e => exact ⟨rfl, Or.inr rfl⟩
      | ok _ => simp only [hr, if_true]; exact ⟨trivial, Or.inr trivial⟩
    | false =>
      obtain ⟨b', hb, h1, _, _, _, h5, h6⟩ := charge_real_cases s.b memAlloc 1 (some (d - c)) hr
      generalize s.b.charge memAlloc 1 (some (d - c)) = r at hb h6
      obtain ⟨b, r⟩ := r
      simp only at hb
      subst hb
      cases r with
      | error e => left; exact ⟨rfl, Or.inl ⟨_, rfl⟩⟩
      | ok _ =>
        obtain ⟨cm, mm, _, hm, _, hbm, _, _⟩ := h6 rfl
        right
        refine ⟨mm, rfl, hm, rfl, ?_⟩
        simp only [h1, Bool.false_eq_true, if_false, Dim.costModel, hbm]
        have : (s.b.mem.bump (mm.evaluate 1 (some (d - c)))).models[memAlloc]? = some mm := hm
        rw [this]

theorem popFrame_mono (s : S) (hf : Fits s) : Mono s (popFrame s) ∧ Fits (popFrame s) := by
  unfold popFrame
  cases s.frames with
  | nil => exact ⟨Mono.refl s, hf⟩
  | cons f fs =>
    simp only
    split
    · refine ⟨⟨Nat.le_refl _, Nat.le_refl _, rfl, rfl, Nat.le_refl _, rfl, rfl, rfl, rfl⟩, hf.1, ?_⟩
      exact Nat.le_trans (Nat.sub_le _ _) hf.2
    · exact ⟨⟨Nat.le_refl _, Nat.le_refl _, rfl, rfl, Nat.le_refl _, rfl, rfl, rfl, rfl⟩, hf⟩

/-- No work lowers the cpu total, a peak or a limit; all of it restores the mode and the depth. -/
theorem run_mono : ∀ (w : Work) (s : S), s.b.depth ≤ u32Max → Fits s → Mono s (run w s).1 ∧ Fits (run w s).1 := by
  intro w
  induction w with
  | skip => intro s _ hf; exact ⟨Mono.refl s, hf⟩
  | fail e => intro s _ hf; exact ⟨Mono.refl s, hf⟩
  | charge ty n i =>
    intro s _ hf
    have := charge_mono s s.frames ty n i hf
    exact ⟨this.1, this.2.1⟩
  | seq a b iha ihb =>
    intro s hd hf
    obtain ⟨h1, h2⟩ := iha s hd hf
    unfold run
    generalize run a s = r at h1 h2
    obtain ⟨s1, r⟩ := r
    simp only at h1 h2
    cases r with
    | error e => exact ⟨h1, h2⟩
    | ok _ =>
      obtain ⟨h3, h4⟩ := ihb s1 (by rw [h1.depth]; exact hd) h2
      exact ⟨h1.trans h3, h4⟩
  | attempt w ih => intro s hd hf; exact ih s hd hf
  | shadow w _ =>
    intro s hd hf
    obtain ⟨_, ⟨c, m, h⟩, _⟩ := run_shadow_mode w s hd
    rw [h]
    exact ⟨Mono.withShadow s c m, hf⟩
  | obsShadow w _ =>
    intro s hd hf
    obtain ⟨_, _, ⟨c, m, h⟩⟩ := run_shadow_mode w s hd
    rw [h]
    exact ⟨Mono.withShadow s c m, hf⟩
  | limited w ih =>
    intro s hd hf
    unfold run
    by_cases h0 : s.b.depth = 0
    · rw [h0, checkedSub_one_zero]
      exact ⟨Mono.refl s, hf⟩
    · rw [checkedSub_one (by omega)]
      obtain ⟨h1, h2⟩ := ih { s with b := { s.b with depth := s.b.depth - 1 } } (by simp only; omega) hf
      simp only
      generalize run w { s with b := { s.b with depth := s.b.depth - 1 } } = r at h1 h2
      have hdep : r.1.b.depth = s.b.depth - 1 := h1.depth
      rw [hdep, checkedAdd_one (by omega)]
      simp only
      refine ⟨⟨h1.cpuNet, h1.cpuPeak, h1.cpuLimit, h1.cpuModels, h1.memPeak, h1.memLimit, h1.memModels, h1.inShadow, ?_⟩, h2⟩
      simp only
      omega
  | memGrow c d m =>
    intro s hd hf
    unfold run
    rcases memGrowing_cases s c d m with h | ⟨h, _⟩ | ⟨mm, _, _, _, h⟩
    · rw [h]; exact ⟨Mono.refl s, hf⟩
    · rw [h]
      have := charge_mono s s.frames memAlloc 1 (some (d - c)) hf
      exact ⟨this.1, this.2.1⟩
    · rw [h]
      have := charge_mono s (chargeFrame s.frames (mm.evaluate 1 (some (d - c)))) memAlloc 1 (some (d - c)) hf
      exact ⟨this.1, this.2.1⟩
  | frame w ih =>
    intro s hd hf
    obtain ⟨h1, h2⟩ := ih { s with frames := 0 :: s.frames } hd hf
    obtain ⟨h3, h4⟩ := popFrame_mono _ h2
    refine ⟨?_, h4⟩
    have h0 : Mono s { s with frames := 0 :: s.frames } :=
      ⟨Nat.le_refl _, Nat.le_refl _, rfl, rfl, Nat.le_refl _, rfl, rfl, rfl, rfl⟩
    exact (h0.trans h1).trans h3
  | vmFrame inst body ihi ihb =>
    intro s hd hf
    obtain ⟨h1, h2⟩ := ihi s hd hf
    unfold run
    simp only
    generalize run inst s = r at h1 h2
    obtain ⟨s1, r⟩ := r
    simp only at h1 h2
    cases r with
    | error e => exact ⟨h1, h2⟩
    | ok _ =>
      simp only
      generalize (reclaimSince s1.frames (currentFrameMem s.frames)) = rc
      obtain ⟨h3, h4⟩ := ihb { s1 with frames := rc.2 :: rc.1 } (by simp only; rw [h1.depth]; exact hd) h2
      obtain ⟨h5, h6⟩ := popFrame_mono _ h4
      refine ⟨?_, h6⟩
      have h0 : Mono s1 { s1 with frames := rc.2 :: rc.1 } :=
        ⟨Nat.le_refl _, Nat.le_refl _, rfl, rfl, Nat.le_refl _, rfl, rfl, rfl, rfl⟩
      exact ((h1.trans h0).trans h3).trans h5
  | dep f ih => intro s hd hf; exact ih s s hd hf

end Soroban.Budget
