import Verif.Lemmas.Budget
/-! C11-C16: metering. -/
namespace Soroban.Props
open Soroban Soroban.Budget Soroban.Budget.Spec

/-! ### C12: the cost model -/

/-- C12: as long as the product of iterations, linear term and input fits 64 bits, the cost is the documented linear
function, capped at the largest `u64`. -/
theorem C12_exact (m : CostModel) (n x : Nat) (h : n * m.linTerm * x ≤ u64Max) :
    m.evaluate n (some x) = min u64Max (idealCost m n (some x)) ∧ m.evaluate n none = min u64Max (idealCost m n none) := by
  constructor
  · unfold CostModel.evaluate idealCost
    simp only
    by_cases hl : m.linTerm = 0
    · rw [if_pos hl, hl, satMulU64_eq, Nat.mul_comm m.constTerm n]; simp
    · rw [if_neg hl, satAddU64_eq, satMulU64_eq, satMulU64_eq, satMulU64_eq, Nat.shiftRight_eq_div_pow]
      have e : min u64Max (min u64Max (m.linTerm * x) * n) = n * m.linTerm * x := by
        rcases Nat.eq_zero_or_pos n with rfl | hn
        · simp
        · have h1 : m.linTerm * x ≤ n * m.linTerm * x := by
            rw [Nat.mul_assoc]; exact Nat.le_mul_of_pos_left _ hn
          rw [Nat.min_eq_right (Nat.le_trans h1 h)]
          have h2 : m.linTerm * x * n = n * m.linTerm * x := by
            rw [Nat.mul_assoc n, Nat.mul_comm n]
          rw [h2]
          exact Nat.min_eq_right h
      rw [e, Nat.mul_comm m.constTerm n]
      show min u64Max (min u64Max (n * m.constTerm) + n * m.linTerm * x / 128) = _
      generalize n * m.linTerm * x / 128 = y
      generalize n * m.constTerm = z
      generalize u64Max = M
      omega
  · unfold CostModel.evaluate idealCost
    simp only
    rw [satMulU64_eq, Nat.mul_comm]

example : (CostModel.mk 3 5).evaluate 26 (some 1) = 79 ∧ 26 * 5 * 1 ≤ u64Max := by decide

/-- C12: whatever the inputs, the computed cost is at most the documented one (there is no wrap-around upwards) and fits. -/
theorem C12_never_above (m : CostModel) (n : Nat) (i : Option Nat) :
    m.evaluate n i ≤ idealCost m n i ∧ m.evaluate n i ≤ u64Max := by
  refine ⟨?_, evaluate_le m n i⟩
  unfold CostModel.evaluate idealCost
  cases i with
  | none => simp only; rw [satMulU64_eq, Nat.mul_comm]; exact Nat.min_le_right _ _
  | some x =>
    simp only
    split
    · rw [satMulU64_eq, Nat.mul_comm]
      exact Nat.le_trans (Nat.min_le_right _ _) (Nat.le_add_right _ _)
    · rw [satAddU64_eq, satMulU64_eq, satMulU64_eq, satMulU64_eq, Nat.shiftRight_eq_div_pow]
      have h1 : min u64Max (min u64Max (m.linTerm * x) * n) ≤ n * m.linTerm * x := by
        refine Nat.le_trans (Nat.min_le_right _ _) ?_
        rw [Nat.mul_assoc, Nat.mul_comm n]
        exact Nat.mul_le_mul_right _ (Nat.min_le_right _ _)
      refine Nat.le_trans (Nat.min_le_right _ _) (Nat.add_le_add ?_ (Nat.div_le_div_right h1))
      rw [Nat.mul_comm m.constTerm]
      exact Nat.min_le_right _ _

/-- C12: more iterations, larger inputs and larger coefficients never cost less. There is no wrap-around downwards. -/
theorem C12_monotone {m m' : CostModel} {n n' x x' : Nat} (hc : m.constTerm ≤ m'.constTerm) (hl : m.linTerm ≤ m'.linTerm)
    (hn : n ≤ n') (hx : x ≤ x') :
    m.evaluate n (some x) ≤ m'.evaluate n' (some x') ∧ m.evaluate n none ≤ m'.evaluate n' none := by
  have hmin : ∀ {a b : Nat}, a ≤ b → min u64Max a ≤ min u64Max b := by
    intro a b h; exact Nat.le_min.mpr ⟨Nat.min_le_left _ _, Nat.le_trans (Nat.min_le_right _ _) h⟩
  have h0 : min u64Max (m.constTerm * n) ≤ min u64Max (m'.constTerm * n') := hmin (Nat.mul_le_mul hc hn)
  have general : ∀ (m : CostModel) (n x : Nat), m.evaluate n (some x) =
      min u64Max (min u64Max (m.constTerm * n) + min u64Max (min u64Max (m.linTerm * x) * n) / 128) := by
    intro m n x
    unfold CostModel.evaluate
    simp only
    split
    · rename_i h
      rw [h, satMulU64_eq]
      simp
    · rw [satAddU64_eq, satMulU64_eq, satMulU64_eq, satMulU64_eq, Nat.shiftRight_eq_div_pow]
  constructor
  · rw [general, general]
    refine hmin (Nat.add_le_add h0 (Nat.div_le_div_right (hmin ?_)))
    exact Nat.mul_le_mul (hmin (Nat.mul_le_mul hl hx)) hn
  · unfold CostModel.evaluate
    simp only [satMulU64_eq]
    exact h0

/-- C12: where the product does not fit, the charge is still at least 2^57 - 1, more than any network limit. -/
theorem C12_saturated (m : CostModel) (n x : Nat) (h : u64Max < n * m.linTerm * x) :
    2^57 - 1 ≤ m.evaluate n (some x) := by
  unfold CostModel.evaluate
  simp only
  have hl : m.linTerm ≠ 0 := by rintro h0; rw [h0] at h; simp at h
  have hn : 0 < n := by
    rcases Nat.eq_zero_or_pos n with rfl | h'
    · simp at h
    · exact h'
  rw [if_neg hl, satAddU64_eq, satMulU64_eq, satMulU64_eq, satMulU64_eq, Nat.shiftRight_eq_div_pow]
  have e : min u64Max (min u64Max (m.linTerm * x) * n) = u64Max := by
    apply Nat.min_eq_left
    by_cases h1 : m.linTerm * x ≤ u64Max
    · rw [Nat.min_eq_right h1]
      have : m.linTerm * x * n = n * m.linTerm * x := by rw [Nat.mul_assoc n, Nat.mul_comm n]
      omega
    · rw [Nat.min_eq_left (by omega)]
      exact Nat.le_mul_of_pos_right _ hn
  rw [e]
  have : u64Max / 2^7 = 2^57 - 1 := by decide
  rw [this]
  generalize min u64Max (m.constTerm * n) = z
  have : 2^57 - 1 ≤ u64Max := by decide
  exact Nat.le_min.mpr ⟨this, Nat.le_add_left _ _⟩

/-- C12, the gap: outside the bound of `C12_exact` the code charges less than the documented function (and less than the cap),
because the product saturates before it is scaled down. -/
theorem C12_saturation_undercharges :
    ∃ (m : CostModel) (n x : Nat), n ≤ u64Max ∧ x ≤ u64Max ∧ m.linTerm ≤ u64Max ∧
      m.evaluate n (some x) < min u64Max (idealCost m n (some x)) :=
  ⟨⟨0, 256⟩, 1, 2^60, by decide, by decide, by decide, by decide⟩

/-- C12: parameters are rejected exactly when one is negative. -/
theorem C12_params (c l : Int) : (∃ m, CostModel.ofParams c l = .ok m ∧ (m.constTerm : Int) = c ∧ (m.linTerm : Int) = l) ↔
    0 ≤ c ∧ 0 ≤ l := by
  unfold CostModel.ofParams
  constructor
  · rintro ⟨m, h, h1, h2⟩; omega
  · rintro ⟨h1, h2⟩
    rw [if_neg (by simp; omega)]
    exact ⟨_, rfl, by simp; omega, by simp; omega⟩

theorem C12_params_error (c l : Int) (h : c < 0 ∨ l < 0) : CostModel.ofParams c l = .error (.host .context .invalidInput) := by
  unfold CostModel.ofParams
  rw [if_pos (by simp; omega)]

/-! ### C11: enforcement -/

/-- C11: a charge outside shadow mode succeeds exactly when the cost type is known, the input is of the kind the type expects,
and both totals, with the cost of the model added, are within their limits. -/
theorem C11_charge_succeeds_iff (b : B) (ty n : Nat) (i : Option Nat) (hr : b.inShadow = false) :
    (b.charge ty n i).2 = .ok () ↔ ∃ t cm mm, b.trackers[ty]? = some t ∧ t.inputs.isSome = i.isSome ∧
      b.cpu.models[ty]? = some cm ∧ b.mem.models[ty]? = some mm ∧
      min u64Max (b.cpu.net + cm.evaluate n i) ≤ b.cpu.limit ∧
      min u64Max (b.mem.net + mm.evaluate n i) ≤ b.mem.limit := charge_ok_iff b ty n i hr

/-- C11: a successful charge adds exactly the cost of the model to both totals, and the totals are then within the limits. -/
theorem C11_charge_adds_cost (b : B) (ty n : Nat) (i : Option Nat) (hr : b.inShadow = false)
    (h : (b.charge ty n i).2 = .ok ()) : ∃ cm mm, b.cpu.models[ty]? = some cm ∧ b.mem.models[ty]? = some mm ∧
      (b.charge ty n i).1.cpu.net = min u64Max (b.cpu.net + cm.evaluate n i) ∧
      (b.charge ty n i).1.mem.net = min u64Max (b.mem.net + mm.evaluate n i) ∧
      (b.charge ty n i).1.cpu.net ≤ b.cpu.limit ∧ (b.charge ty n i).1.mem.net ≤ b.mem.limit ∧
      (b.charge ty n i).1.cpu.limit = b.cpu.limit ∧ (b.charge ty n i).1.mem.limit = b.mem.limit := by
  obtain ⟨b', hb, _, _, _, _, _, h6⟩ := charge_real_cases b ty n i hr
  obtain ⟨cm, mm, h1, h2, h3, h4, h5, h6⟩ := h6 h
  rw [← hb]
  refine ⟨cm, mm, h1, h2, ?_, ?_, h5, h6, ?_, ?_⟩ <;> (first | rw [h3]; rfl | rw [h4]; rfl)

/-- Two cost types: instructions (constant) and memory (linear in the input). -/
def exampleBudget : B where
  cpu := { models := [⟨4, 0⟩, ⟨434, 16⟩], limit := 10000, net := 0, peak := 0, shadowLimit := 500, shadowNet := 0 }
  mem := { models := [⟨0, 0⟩, ⟨16, 128⟩], limit := 1000, net := 0, peak := 0, shadowLimit := 500, shadowNet := 0 }
  trackers := [⟨0, none, 0, 0⟩, ⟨0, some 0, 0, 0⟩]
  meterCount := 0
  inShadow := false
  depth := 3

example : (exampleBudget.charge 1 2 (some 100)).2 = .ok () ∧ (exampleBudget.charge 1 2 (some 100)).1.mem.net = 232 ∧
    (exampleBudget.charge 1 2 (some 1000)).2 = .error (.host .budget .exceededLimit) := ⟨rfl, rfl, rfl⟩

/-- C11: whatever metered work does, with errors caught or not, the cpu total never goes down and the limits never move. -/
theorem C11_cpu_never_decreases (w : Work) (s : S) (hd : s.b.depth ≤ u32Max) (hf : Fits s) :
    s.b.cpu.net ≤ (run w s).1.b.cpu.net ∧ (run w s).1.b.cpu.limit = s.b.cpu.limit ∧
    (run w s).1.b.mem.limit = s.b.mem.limit := by
  have h := (run_mono w s hd hf).1
  exact ⟨h.cpuNet, h.cpuLimit, h.memLimit⟩

theorem memNet_noFrames {w : Work} (hw : NoFrames w) : ∀ s : S, s.b.depth ≤ u32Max → Fits s →
    s.b.mem.net ≤ (run w s).1.b.mem.net := by
  induction hw with
  | skip => intro s _ _; exact Nat.le_refl _
  | fail e => intro s _ _; exact Nat.le_refl _
  | charge ty n i => intro s _ hf; exact (charge_mono s s.frames ty n i hf).2.2
  | @seq a b _ _ iha ihb =>
    intro s hd hf
    have h1 := iha s hd hf
    have h2 := run_mono a s hd hf
    unfold run
    generalize run a s = r at h1 h2
    obtain ⟨s1, r⟩ := r
    cases r with
    | error e => exact h1
    | ok _ => exact Nat.le_trans h1 (ihb s1 (by rw [h2.1.depth]; exact hd) h2.2)
  | attempt _ ih => intro s hd hf; exact ih s hd hf
  | @shadow w _ _ =>
    intro s hd _
    obtain ⟨_, ⟨c, m, h⟩, _⟩ := run_shadow_mode w s hd
    rw [h]; exact Nat.le_refl _
  | @obsShadow w _ _ =>
    intro s hd _
    obtain ⟨_, _, ⟨c, m, h⟩⟩ := run_shadow_mode w s hd
    rw [h]; exact Nat.le_refl _
  | @limited w _ ih =>
    intro s hd hf
    unfold run
    by_cases h0 : s.b.depth = 0
    · rw [h0, checkedSub_one_zero]; exact Nat.le_refl _
    · rw [checkedSub_one (by omega)]
      simp only
      have h1 := ih { s with b := { s.b with depth := s.b.depth - 1 } } (by simp only; omega) hf
      split <;> exact h1
  | memGrow c d m =>
    intro s _ hf
    unfold run
    rcases memGrowing_cases s c d m with h | ⟨h, _⟩ | ⟨mm, _, _, _, h⟩
    · rw [h]; exact Nat.le_refl _
    · rw [h]; exact (charge_mono s s.frames memAlloc 1 (some (d - c)) hf).2.2
    · rw [h]; exact (charge_mono s s.frames memAlloc 1 (some (d - c)) hf).2.2
  | dep _ ih => intro s hd hf; exact ih s s hd hf

/-- C11: the memory total goes down only by the refund made when a frame is popped. -/
theorem C11_memory_never_decreases {w : Work} (hw : NoFrames w) (s : S) (hd : s.b.depth ≤ u32Max) (hf : Fits s) :
    s.b.mem.net ≤ (run w s).1.b.mem.net := memNet_noFrames hw s hd hf

/-- C11: once the cpu limit is exceeded, every later charge fails, whatever is run in between (unless in shadow mode). The same
holds for memory as long as no frame is popped. -/
theorem C11_exhausted_stays (w : Work) (s : S) (ty n : Nat) (i : Option Nat) (hd : s.b.depth ≤ u32Max) (hf : Fits s)
    (hr : s.b.inShadow = false) (h : s.b.cpu.limit < s.b.cpu.net ∨ (s.b.mem.limit < s.b.mem.net ∧ NoFrames w)) :
    ((run w s).1.b.charge ty n i).2 ≠ .ok () := by
  intro hok
  obtain ⟨hm, hf'⟩ := run_mono w s hd hf
  rw [charge_ok_iff _ _ _ _ (by rw [hm.inShadow]; exact hr)] at hok
  obtain ⟨_, cm, mm, _, _, _, _, h5, h6⟩ := hok
  rcases h with h | ⟨h, hw⟩
  · have : (run w s).1.b.cpu.net ≤ min u64Max ((run w s).1.b.cpu.net + cm.evaluate n i) :=
      Nat.le_min.mpr ⟨hf'.1, Nat.le_add_right _ _⟩
    have h1 := hm.cpuNet
    have h2 := hm.cpuLimit
    omega
  · have : (run w s).1.b.mem.net ≤ min u64Max ((run w s).1.b.mem.net + mm.evaluate n i) :=
      Nat.le_min.mpr ⟨hf'.2, Nat.le_add_right _ _⟩
    have h1 := memNet_noFrames hw s hd hf
    have h2 := hm.memLimit
    omega

/-- Such a state is reached by a failed charge. -/
example : let s := (run (.attempt (.charge 0 5000 none)) ⟨exampleBudget, []⟩).1
    s.b.cpu.limit < s.b.cpu.net ∧ s.b.depth ≤ u32Max ∧ s.b.inShadow = false ∧ (s.b.charge 0 0 none).2 ≠ .ok () :=
  ⟨by decide, by decide, rfl, by intro h; cases h⟩

theorem memGrowing_max (s : S) (c d m : Nat) (h : (memGrowing s c d (some m)).2 = .ok ()) :
    d ≤ m ∧ memGrowing s c d (some m) = memGrowing s c d none := by
  unfold memGrowing at h ⊢
  dsimp only at h ⊢
  by_cases h1 : d - c > s.b.mem.remaining
  · rw [if_pos h1] at h; cases h
  · rw [if_neg h1] at h ⊢
    by_cases h2 : d ≤ m
    · rw [decide_eq_true h2, if_neg h1]; exact ⟨h2, rfl⟩
    · rw [decide_eq_false h2] at h; cases h

/-- C11: the memory of a guest grows only up to its own maximum and if what is left of the memory limit covers the growth; it is charged
as an allocation (cost type 1) of as many bytes. -/
theorem C11_memory_growth (s : S) (current desired : Nat) (maximum : Option Nat) (hr : s.b.inShadow = false)
    (h : (run (.memGrow current desired maximum) s).2 = .ok ()) :
    desired - current ≤ s.b.mem.limit - s.b.mem.net ∧ (∀ m, maximum = some m → desired ≤ m) ∧
    ∃ mm, s.b.mem.models[1]? = some mm ∧
      (run (.memGrow current desired maximum) s).1.b.mem.net = min u64Max (s.b.mem.net + mm.evaluate 1 (some (desired - current))) ∧
      (run (.memGrow current desired maximum) s).1.b.mem.net ≤ s.b.mem.limit := by
  rw [run] at h ⊢
  suffices hk : (memGrowing s current desired none).2 = .ok () → desired - current ≤ s.b.mem.limit - s.b.mem.net ∧
      ∃ mm, s.b.mem.models[1]? = some mm ∧
        (memGrowing s current desired none).1.b.mem.net = min u64Max (s.b.mem.net + mm.evaluate 1 (some (desired - current))) ∧
        (memGrowing s current desired none).1.b.mem.net ≤ s.b.mem.limit by
    cases maximum with
    | none => exact ⟨(hk h).1, (fun m hm => (by cases hm)), (hk h).2⟩
    | some mx =>
      obtain ⟨h1, h2⟩ := memGrowing_max s current desired mx h
      rw [h2] at h ⊢
      exact ⟨(hk h).1, (fun m hm => (by cases hm; exact h1)), (hk h).2⟩
  clear h
  intro h
  unfold memGrowing at h ⊢
  dsimp only at h ⊢
  by_cases h1 : desired - current > s.b.mem.remaining
  · rw [if_pos h1] at h; cases h
  · rw [if_neg h1, if_pos rfl] at h ⊢
    refine ⟨by unfold Dim.remaining at h1; omega, ?_⟩
    have hc : (s.b.charge memAlloc 1 (some (desired - current))).2 = .ok () := by
      rcases hc : s.b.charge memAlloc 1 (some (desired - current)) with ⟨b, e | u⟩
      · rw [hc] at h; cases h
      · rfl
    obtain ⟨cm, mm, k1, k2, k3, k4, k5, k6, _⟩ := C11_charge_adds_cost s.b memAlloc 1 (some (desired - current)) hr hc
    refine ⟨mm, k2, ?_⟩
    rcases hq : s.b.charge memAlloc 1 (some (desired - current)) with ⟨b, e | u⟩
    · rw [hq] at hc; cases hc
    · rw [hq] at k4 k6
      dsimp only
      split
      · exact ⟨k4, k6⟩
      · cases hm : b.mem.costModel memAlloc with
        | error e => exact ⟨k4, k6⟩
        | ok m => exact ⟨k4, k6⟩

/-- A guest grows from 100 to 600 bytes: 516 are charged. It cannot grow to more than its maximum, or than what is left. -/
example : (run (.memGrow 100 600 (some 700)) ⟨exampleBudget, [7]⟩).2 = .ok () ∧
    (run (.memGrow 100 600 (some 700)) ⟨exampleBudget, [7]⟩).1.b.mem.net = 516 ∧
    (run (.memGrow 100 600 (some 599)) ⟨exampleBudget, [7]⟩).2 ≠ .ok () ∧
    (run (.memGrow 100 1101 none) ⟨exampleBudget, [7]⟩).2 ≠ .ok () :=
  ⟨rfl, by decide, (by intro h; cases h), (by intro h; cases h)⟩

/-! ### C13: shadow mode -/

/-- C13: any work in shadow mode, with nested frames, memory growth, errors or exhausted shadow limits, changes nothing but
the shadow counters: totals, peaks, limits, per-type reports, depth, frames and the mode are as before; and it never fails. -/
theorem C13_shadow_unobservable (w : Work) (s : S) (hd : s.b.depth ≤ u32Max) :
    (run (.shadow w) s).2 = .ok () ∧ ∃ c m, (run (.shadow w) s).1 = withShadow s c m := by
  obtain ⟨h1, h2, _⟩ := run_shadow_mode w s hd
  exact ⟨h1, h2⟩

/-- C13: work in shadow mode is begun exactly if neither limit of shadow mode has been exceeded; if one has, nothing is done. -/
theorem C13_shadow_limits (w : Work) (s : S) :
    (s.b.cpu.shadowNet ≤ s.b.cpu.shadowLimit ∧ s.b.mem.shadowNet ≤ s.b.mem.shadowLimit →
      (run (.obsShadow w) s).2 = (run w { s with b := { s.b with inShadow := true } }).2) ∧
    (s.b.cpu.shadowLimit < s.b.cpu.shadowNet ∨ s.b.mem.shadowLimit < s.b.mem.shadowNet →
      run (.obsShadow w) s = (s, .error (.host .budget .exceededLimit)) ∧ run (.shadow w) s = (s, .ok ())) := by
  have hck : ∀ b : B, b.shadowCheck = if b.cpu.shadowNet ≤ b.cpu.shadowLimit ∧ b.mem.shadowNet ≤ b.mem.shadowLimit then .ok ()
      else .error (.host .budget .exceededLimit) := by
    intro b
    unfold B.shadowCheck Dim.checkLimit
    simp only [if_true, decide_eq_true_eq]
    by_cases h1 : b.cpu.shadowNet > b.cpu.shadowLimit
    · rw [if_pos h1]
      exact (if_neg (fun h => absurd h.1 (by omega))).symm
    · rw [if_neg h1]
      by_cases h2 : b.mem.shadowNet > b.mem.shadowLimit
      · rw [if_pos h2]
        exact (if_neg (fun h => absurd h.2 (by omega))).symm
      · rw [if_neg h2, if_pos ⟨by omega, by omega⟩]
  refine ⟨fun h => ?_, fun h => ?_⟩
  · rw [run]
    dsimp only
    rw [hck, if_pos h]
  · have hn : ¬ (s.b.cpu.shadowNet ≤ s.b.cpu.shadowLimit ∧ s.b.mem.shadowNet ≤ s.b.mem.shadowLimit) := by omega
    constructor
    · rw [run]
      dsimp only
      rw [hck, if_neg hn]
    · rw [run]
      dsimp only
      rw [hck, if_neg hn]

/-- C13: the variant whose result is visible (used in preflight and tests) has the same effect on the state. -/
theorem C13_observable_shadow_state (w : Work) (s : S) (hd : s.b.depth ≤ u32Max) :
    ∃ c m, (run (.obsShadow w) s).1 = withShadow s c m := (run_shadow_mode w s hd).2.2

example : let r := run (.shadow (.seq (.charge 1 1 (some 1000)) (.charge 1 1 (some 1)))) ⟨exampleBudget, [7]⟩
    r.1.b.cpu.shadowNet = 559 ∧ r.1.b.cpu.net = 0 ∧ r.1.b.mem.peak = 0 := by decide

/-- After that, no work in shadow mode is begun. -/
example : (run (.obsShadow .skip) (run (.shadow (.charge 1 1 (some 1000))) ⟨exampleBudget, [7]⟩).1).2 =
    .error (.host .budget .exceededLimit) := by
  rw [((C13_shadow_limits .skip _).2 (Or.inl (by decide))).1]

theorem dim_charge_withShadow (d : Dim) (ty n c : Nat) (i : Option Nat) :
    Dim.charge { d with shadowNet := c } ty n i false =
      (d.charge ty n i false).map (fun r => ({ r.1 with shadowNet := c }, r.2)) := by
  unfold Dim.charge Dim.costModel
  simp only
  cases d.models[ty]? <;> rfl

/-- A state whose shadow counters are set to `c` and `m`. -/
def bShadow (b : B) (c m : Nat) : B :=
  { b with cpu := { b.cpu with shadowNet := c }, mem := { b.mem with shadowNet := m } }

theorem chargeMem_withShadow (b : B) (c m ty n : Nat) (i : Option Nat) (hr : b.inShadow = false) :
    (bShadow b c m).chargeMem ty n i = (bShadow (b.chargeMem ty n i).1 c m, (b.chargeMem ty n i).2) := by
  unfold B.chargeMem
  rw [show (bShadow b c m).mem = { b.mem with shadowNet := m } from rfl,
    show (bShadow b c m).inShadow = b.inShadow from rfl, hr, dim_charge_withShadow]
  cases b.mem.charge ty n i false with
  | error e => rfl
  | ok r => rfl

theorem chargeCpu_withShadow (b : B) (c m ty n : Nat) (i : Option Nat) (hr : b.inShadow = false) :
    (bShadow b c m).chargeCpu ty n i = (bShadow (b.chargeCpu ty n i).1 c m, (b.chargeCpu ty n i).2) ∧
    (b.chargeCpu ty n i).1.inShadow = false := by
  unfold B.chargeCpu
  rw [show (bShadow b c m).cpu = { b.cpu with shadowNet := c } from rfl,
    show (bShadow b c m).inShadow = b.inShadow from rfl, hr, dim_charge_withShadow]
  cases b.cpu.charge ty n i false with
  | error e => exact ⟨rfl, hr⟩
  | ok r => exact ⟨rfl, rfl⟩

theorem chargeDims_withShadow (b : B) (c m ty n : Nat) (i : Option Nat) (hr : b.inShadow = false) :
    (bShadow b c m).chargeDims ty n i = (bShadow (b.chargeDims ty n i).1 c m, (b.chargeDims ty n i).2) := by
  unfold B.chargeDims
  obtain ⟨h1, h2⟩ := chargeCpu_withShadow b c m ty n i hr
  rw [h1]
  generalize b.chargeCpu ty n i = r at h2
  obtain ⟨b1, r⟩ := r
  cases r with
  | error e => rfl
  | ok _ => exact chargeMem_withShadow b1 c m ty n i h2

theorem charge_withShadow (b : B) (c m ty n : Nat) (i : Option Nat) (hr : b.inShadow = false) :
    (bShadow b c m).charge ty n i = (bShadow (b.charge ty n i).1 c m, (b.charge ty n i).2) := by
  unfold B.charge
  rw [show (bShadow b c m).trackers = b.trackers from rfl, show (bShadow b c m).inShadow = b.inShadow from rfl, hr]
  cases b.trackers[ty]? with
  | none => rfl
  | some t =>
    simp only [Bool.false_eq_true, if_false]
    split
    · exact chargeDims_withShadow { b with trackers := b.trackers.set ty (t.add n i).1, meterCount := satAddU32 b.meterCount 1, inShadow := false } c m ty n i rfl
    · rfl

theorem memGrowing_withShadow (s : S) (x y c d : Nat) (m : Option Nat) (hr : s.b.inShadow = false) :
    memGrowing (withShadow s x y) c d m = (withShadow (memGrowing s c d m).1 x y, (memGrowing s c d m).2) := by
  unfold memGrowing
  simp only
  have hrem : (withShadow s x y).b.mem.remaining = s.b.mem.remaining := rfl
  rw [hrem]
  generalize (if d - c > s.b.mem.remaining then false else _ : Bool) = allow
  cases allow with
  | false => rfl
  | true =>
    simp only [if_true]
    have := charge_withShadow s.b x y memAlloc 1 (some (d - c)) hr
    rw [show (withShadow s x y).b = bShadow s.b x y from rfl, this]
    obtain ⟨b', hb, hsh, _⟩ := charge_real_cases s.b memAlloc 1 (some (d - c)) hr
    generalize s.b.charge memAlloc 1 (some (d - c)) = r at hb
    obtain ⟨b1, r⟩ := r
    simp only at hb
    subst hb
    cases r with
    | error e => rfl
    | ok _ =>
      simp only [show (bShadow b' x y).inShadow = b'.inShadow from rfl, hsh, Bool.false_eq_true, if_false,
        show (bShadow b' x y).mem.costModel memAlloc = b'.mem.costModel memAlloc from rfl]
      cases b'.mem.costModel memAlloc <;> rfl

theorem popFrame_withShadow (s : S) (x y : Nat) : popFrame (withShadow s x y) = withShadow (popFrame s) x y := by
  unfold popFrame
  rw [show (withShadow s x y).frames = s.frames from rfl]
  cases s.frames with
  | nil => rfl
  | cons f fs =>
    simp only
    split <;> rfl

theorem shadow_compose (s : S) (a b c d : Nat) : withShadow (withShadow s a b) c d = withShadow s c d := rfl

theorem blind_sim {w : Work} (hw : Blind w) : ∀ (s : S) (x y : Nat), s.b.depth ≤ u32Max → s.b.inShadow = false → Fits s →
    (run w (withShadow s x y)).2 = (run w s).2 ∧ SameButShadow (run w s).1 (run w (withShadow s x y)).1 := by
  induction hw with
  | skip => intro s x y _ _ _; exact ⟨rfl, x, y, rfl⟩
  | fail e => intro s x y _ _ _; exact ⟨rfl, x, y, rfl⟩
  | charge ty n i =>
    intro s x y _ hr _
    unfold run
    simp only
    have := charge_withShadow s.b x y ty n i hr
    rw [show (withShadow s x y).b = bShadow s.b x y from rfl, this]
    exact ⟨rfl, x, y, rfl⟩
  | @seq a b _ _ iha ihb =>
    intro s x y hd hr hf
    obtain ⟨h1, p, q, h2⟩ := iha s x y hd hr hf
    have h3 := run_mono a s hd hf
    unfold run
    generalize run a s = r at h1 h2 h3
    generalize run a (withShadow s x y) = r' at h1 h2
    obtain ⟨s1, r⟩ := r
    obtain ⟨s1', r'⟩ := r'
    simp only at h1 h2
    subst h1 h2
    cases r' with
    | error e => exact ⟨rfl, p, q, rfl⟩
    | ok _ => exact ihb s1 p q (by rw [h3.1.depth]; exact hd) (by rw [h3.1.inShadow]; exact hr) h3.2
  | attempt _ ih =>
    intro s x y hd hr hf
    exact ⟨rfl, (ih s x y hd hr hf).2⟩
  | shadow w =>
    intro s x y hd _ _
    obtain ⟨h1, ⟨p, q, h2⟩, _⟩ := run_shadow_mode w s hd
    obtain ⟨h1', ⟨p', q', h2'⟩, _⟩ := run_shadow_mode w (withShadow s x y) hd
    rw [h1, h1', h2, h2']
    exact ⟨rfl, p', q', rfl⟩
  | @limited w _ ih =>
    intro s x y hd hr hf
    unfold run
    rw [show (withShadow s x y).b.depth = s.b.depth from rfl]
    by_cases h0 : s.b.depth = 0
    · rw [h0, checkedSub_one_zero]
      exact ⟨rfl, x, y, rfl⟩
    · rw [checkedSub_one (by omega)]
      simp only
      obtain ⟨h1, p, q, h2⟩ := ih { s with b := { s.b with depth := s.b.depth - 1 } } x y (by simp only; omega) hr hf
      have e : withShadow { s with b := { s.b with depth := s.b.depth - 1 } } x y =
          { withShadow s x y with b := { (withShadow s x y).b with depth := s.b.depth - 1 } } := rfl
      rw [e] at h1 h2
      generalize run w { s with b := { s.b with depth := s.b.depth - 1 } } = r at h1 h2
      generalize run w { withShadow s x y with b := { (withShadow s x y).b with depth := s.b.depth - 1 } } = r' at h1 h2
      obtain ⟨s1, r⟩ := r
      obtain ⟨s1', r'⟩ := r'
      simp only at h1 h2
      subst h1 h2
      simp only [show (withShadow s1 p q).b.depth = s1.b.depth from rfl]
      cases checkedAddU32 s1.b.depth 1 with
      | none => exact ⟨rfl, p, q, rfl⟩
      | some d => exact ⟨rfl, p, q, rfl⟩
  | memGrow c d m =>
    intro s x y _ hr _
    unfold run
    rw [memGrowing_withShadow s x y c d m hr]
    exact ⟨rfl, x, y, rfl⟩
  | @frame w _ ih =>
    intro s x y hd hr hf
    obtain ⟨h1, p, q, h2⟩ := ih { s with frames := 0 :: s.frames } x y hd hr hf
    unfold run
    simp only
    have e : withShadow { s with frames := 0 :: s.frames } x y =
        { withShadow s x y with frames := 0 :: (withShadow s x y).frames } := rfl
    rw [e] at h1 h2
    refine ⟨h1, p, q, ?_⟩
    rw [h2, popFrame_withShadow]
  | @vmFrame a b _ _ iha ihb =>
    intro s x y hd hr hf
    obtain ⟨h1, p, q, h2⟩ := iha s x y hd hr hf
    have h3 := run_mono a s hd hf
    unfold run
    simp only
    generalize run a s = r at h1 h2 h3
    generalize run a (withShadow s x y) = r' at h1 h2
    obtain ⟨s1, r⟩ := r
    obtain ⟨s1', r'⟩ := r'
    simp only at h1 h2
    subst h1 h2
    cases r' with
    | error e => exact ⟨rfl, p, q, rfl⟩
    | ok _ =>
      simp only [show (withShadow s1 p q).frames = s1.frames from rfl, show (withShadow s x y).frames = s.frames from rfl]
      generalize (reclaimSince s1.frames (currentFrameMem s.frames)) = rc
      obtain ⟨h4, p', q', h5⟩ := ihb { s1 with frames := rc.2 :: rc.1 } p q (by simp only; rw [h3.1.depth]; exact hd)
        (by simp only; rw [h3.1.inShadow]; exact hr) h3.2
      have e : withShadow { s1 with frames := rc.2 :: rc.1 } p q = { withShadow s1 p q with frames := rc.2 :: rc.1 } := rfl
      rw [e] at h4 h5
      refine ⟨h4, p', q', ?_⟩
      rw [h5, popFrame_withShadow]
  | @dep f _ hf' ih =>
    intro s x y hd hr hf
    unfold run
    rw [← hf' s (withShadow s x y) ⟨x, y, rfl⟩]
    exact ih s s x y hd hr hf

/-- C13: work done in shadow mode, say for diagnostics that one host has turned on and another has not, changes neither the
outcome of what follows nor anything observable afterwards. -/
theorem C13_diagnostics_removable {v : Work} (hv : Blind v) (w : Work) (s : S) (hd : s.b.depth ≤ u32Max)
    (hr : s.b.inShadow = false) (hf : Fits s) :
    (run (.seq (.shadow w) v) s).2 = (run v s).2 ∧ SameButShadow (run v s).1 (run (.seq (.shadow w) v) s).1 := by
  obtain ⟨h1, ⟨p, q, h2⟩, _⟩ := run_shadow_mode w s hd
  have e : run (.seq (.shadow w) v) s = run v (withShadow s p q) := by
    rw [run]
    generalize run (.shadow w) s = r at h1 h2
    obtain ⟨s1, r⟩ := r
    simp only at h1 h2
    subst h1 h2
    rfl
  rw [e]
  exact blind_sim hv s p q hd hr hf

/-! ### C14: depth -/

/-- C14: after any computation, successful or not, the remaining depth is what it was. -/
theorem C14_depth_restored (w : Work) (s : S) (hd : s.b.depth ≤ u32Max) (hf : Fits s) :
    (run w s).1.b.depth = s.b.depth := (run_mono w s hd hf).1.depth

/-- C14: nested operations fail exactly when they nest deeper than the remaining depth, with the error of the limit. -/
theorem C14_depth_exact {w : Work} {n : Nat} (hw : Nesting w n) : ∀ s : S, s.b.depth ≤ u32Max →
    (run w s).2 = (if n ≤ s.b.depth then Except.ok () else Except.error (Err.host .context .exceededLimit) : Res Unit) ∧ (run w s).1 = s := by
  induction hw with
  | skip => intro s _; exact ⟨by simp [run], rfl⟩
  | @seq a b m n _ _ iha ihb =>
    intro s hd
    obtain ⟨h1, h2⟩ := iha s hd
    obtain ⟨h3, h4⟩ := ihb s hd
    unfold run
    generalize run a s = r at h1 h2
    obtain ⟨s1, r⟩ := r
    simp only at h1 h2
    subst h2
    by_cases hm : m ≤ s1.b.depth
    · rw [if_pos hm] at h1
      subst h1
      simp only
      refine ⟨?_, h4⟩
      rw [h3]
      by_cases hn : n ≤ s1.b.depth
      · rw [if_pos hn, if_pos (by omega)]
      · rw [if_neg hn, if_neg (by omega)]
    · rw [if_neg hm] at h1
      subst h1
      simp only
      rw [if_neg (by omega)]
      exact ⟨rfl, trivial⟩
  | @limited w n _ ih =>
    intro s hd
    unfold run
    by_cases h0 : s.b.depth = 0
    · rw [h0, checkedSub_one_zero]
      simp
    · rw [checkedSub_one (by omega)]
      simp only
      obtain ⟨h1, h2⟩ := ih { s with b := { s.b with depth := s.b.depth - 1 } } (by simp only; omega)
      simp only at h1
      rw [h2, checkedAdd_one (by simp only; omega), h1]
      simp only
      refine ⟨?_, ?_⟩
      · by_cases hn : n ≤ s.b.depth - 1
        · rw [if_pos hn, if_pos (by omega)]
        · rw [if_neg hn, if_neg (by omega)]
      · rw [show s.b.depth - 1 + 1 = s.b.depth from by omega]

example : (run (.limited (.limited (.limited .skip))) ⟨exampleBudget, []⟩).2 = .ok () ∧
    (run (.limited (.limited (.limited (.limited .skip)))) ⟨exampleBudget, []⟩).2 =
      .error (.host .context .exceededLimit) := ⟨rfl, rfl⟩

/-! ### C15: memory refunds and the peak -/

/-- A step of a dimension's history: a charge (if it names a known cost type) or a refund. -/
def stepDim (d : Dim) : Op → Dim
  | .charge ty n i => match d.charge ty n i false with
    | .ok r => r.1
    | .error _ => d
  | .refund a => d.refund a

/-- C15: over any history of charges and refunds, the amount in use is the running sum, and the reported peak is the largest
amount that was ever in use. -/
theorem C15_peak_is_maximum (ops : List Op) : ∀ (d : Dim), d.net ≤ d.peak →
    (∀ x ∈ nets d.models d.net ops, x ≤ u64Max) →
    (ops.foldl stepDim d).net = (nets d.models d.net ops).getLastD d.net ∧
    (ops.foldl stepDim d).peak = (nets d.models d.net ops).foldl max d.peak := by
  induction ops with
  | nil => intro d _ _; exact ⟨rfl, rfl⟩
  | cons op ops ih =>
    intro d hp hb
    cases op with
    | charge ty n i =>
      simp only [List.foldl_cons]
      cases hm : d.models[ty]? with
      | none =>
        have e : stepDim d (.charge ty n i) = d := by
          simp only [stepDim]; rw [dim_charge_none hm]
        simp only [nets, hm, Nat.add_zero] at hb ⊢
        rw [e]
        obtain ⟨h1, h2⟩ := ih d hp (fun x hx => hb x (List.mem_cons_of_mem _ hx))
        rw [h1, h2, List.foldl_cons, Nat.max_eq_left hp]
        refine ⟨?_, rfl⟩
        cases nets d.models d.net ops <;> simp [List.getLastD]
      | some m =>
        simp only [nets, hm] at hb ⊢
        have hfit : d.net + m.evaluate n i ≤ u64Max := hb _ (by simp)
        have e : stepDim d (.charge ty n i) = d.bump (m.evaluate n i) := by
          simp only [stepDim]; rw [dim_charge_real hm]
        have en : (d.bump (m.evaluate n i)).net = d.net + m.evaluate n i := Nat.min_eq_right hfit
        have ep : (d.bump (m.evaluate n i)).peak = max d.peak (d.net + m.evaluate n i) := by
          unfold Dim.bump; rw [Nat.min_eq_right hfit]
        rw [e]
        obtain ⟨h1, h2⟩ := ih (d.bump (m.evaluate n i)) (by rw [en, ep]; exact Nat.le_max_right _ _)
          (by rw [en]; exact fun x hx => hb x (List.mem_cons_of_mem _ hx))
        rw [h1, h2, en, ep]
        refine ⟨?_, rfl⟩
        show List.getLastD (nets d.models (d.net + m.evaluate n i) ops) _ = _
        cases nets d.models (d.net + m.evaluate n i) ops <;> simp [List.getLastD]
    | refund a =>
      simp only [List.foldl_cons, nets]
      simp only [nets] at hb
      have e : stepDim d (.refund a) = { d with net := d.net - a } := rfl
      rw [e]
      obtain ⟨h1, h2⟩ := ih { d with net := d.net - a } (by simp only; omega)
        (fun x hx => hb x (List.mem_cons_of_mem _ hx))
      rw [h1, h2]
      refine ⟨?_, ?_⟩
      · show List.getLastD (nets d.models (d.net - a) ops) _ = _
        cases nets d.models (d.net - a) ops <;> simp [List.getLastD]
      · simp only
        rw [Nat.max_eq_left (by omega)]

example : let d := [Op.charge 1 1 (some 100), .refund 50, .charge 1 1 (some 10)].foldl stepDim exampleBudget.mem
    d.net = 92 ∧ d.peak = 116 ∧ nets exampleBudget.mem.models 0 [Op.charge 1 1 (some 100), .refund 50, .charge 1 1 (some 10)]
      = [116, 66, 92] := by decide

/-- C15: whatever runs, the reported peak never goes down. -/
theorem C15_peak_never_decreases (w : Work) (s : S) (hd : s.b.depth ≤ u32Max) (hf : Fits s) :
    s.b.memConsumed ≤ (run w s).1.b.memConsumed := (run_mono w s hd hf).1.memPeak

theorem charge_peak_limit (b : B) (ty n : Nat) (i : Option Nat) (hr : b.inShadow = false) (h : (b.charge ty n i).2 = .ok ())
    (hp : b.mem.peak ≤ b.mem.limit) : (b.charge ty n i).1.mem.peak ≤ b.mem.limit := by
  obtain ⟨b', hb, _, _, _, _, _, h6⟩ := charge_real_cases b ty n i hr
  obtain ⟨cm, mm, _, _, _, h4, _, h6⟩ := h6 h
  rw [← hb]
  rw [h4] at h6 ⊢
  exact Nat.max_le.mpr ⟨hp, h6⟩

theorem strict_peak {w : Work} (hw : Strict w) : ∀ s : S, s.b.depth ≤ u32Max → Fits s → s.b.inShadow = false →
    s.b.mem.peak ≤ s.b.mem.limit → (run w s).2 = .ok () → (run w s).1.b.mem.peak ≤ s.b.mem.limit := by
  induction hw with
  | skip => intro s _ _ _ h _; exact h
  | fail e => intro s _ _ _ h _; exact h
  | charge ty n i => intro s _ _ hr h ho; exact charge_peak_limit s.b ty n i hr ho h
  | @seq a b _ _ iha ihb =>
    intro s hd hf hr hp ho
    have h1 := iha s hd hf hr hp
    have h2 := run_mono a s hd hf
    unfold run at ho ⊢
    generalize run a s = r at h1 h2 ho ⊢
    obtain ⟨s1, r⟩ := r
    cases r with
    | error e => cases ho
    | ok _ =>
      have h3 := h1 rfl
      have h4 := h2.1.memLimit
      simp only at h3 h4
      have := ihb s1 (by rw [h2.1.depth]; exact hd) h2.2 (by rw [h2.1.inShadow]; exact hr) (by omega) ho
      simp only
      omega
  | @shadow w =>
    intro s hd _ _ hp _
    obtain ⟨_, ⟨c, m, h⟩, _⟩ := run_shadow_mode w s hd
    rw [h]; exact hp
  | @obsShadow w =>
    intro s hd _ _ hp _
    obtain ⟨_, _, ⟨c, m, h⟩⟩ := run_shadow_mode w s hd
    rw [h]; exact hp
  | @limited w _ ih =>
    intro s hd hf hr hp ho
    unfold run at ho ⊢
    by_cases h0 : s.b.depth = 0
    · rw [h0, checkedSub_one_zero] at ho; cases ho
    · rw [checkedSub_one (by omega)] at ho ⊢
      have h1 := ih { s with b := { s.b with depth := s.b.depth - 1 } } (by simp only; omega) hf hr hp
      have h2 := (run_mono w { s with b := { s.b with depth := s.b.depth - 1 } } (by simp only; omega) hf).1.depth
      simp only at ho h2 ⊢
      rw [h2, checkedAdd_one (by omega)] at ho ⊢
      exact h1 ho
  | memGrow c d m =>
    intro s _ hf hr hp ho
    unfold run at ho ⊢
    rcases memGrowing_cases s c d m with h | ⟨h, h'⟩ | ⟨mm, hok, _, _, h⟩
    · rw [h]; exact hp
    · rcases h' with ⟨e, h'⟩ | h'
      · rw [h'] at ho; cases ho
      · rw [h'] at hr; cases hr
    · rw [h]; exact charge_peak_limit s.b _ _ _ hr hok hp
  | @frame w _ ih =>
    intro s hd hf hr hp ho
    have h1 := ih { s with frames := 0 :: s.frames } hd hf hr hp ho
    show (popFrame _).b.mem.peak ≤ _
    unfold popFrame
    split
    · simp only; split <;> exact h1
    · exact h1
  | @vmFrame a b _ _ iha ihb =>
    intro s hd hf hr hp ho
    have h1 := iha s hd hf hr hp
    have h2 := run_mono a s hd hf
    unfold run at ho ⊢
    simp only at ho ⊢
    generalize run a s = r at h1 h2 ho ⊢
    obtain ⟨s1, r⟩ := r
    cases r with
    | error e => cases ho
    | ok _ =>
      have h3 := h1 rfl
      have h4 := h2.1.memLimit
      simp only at h3 h4 ho ⊢
      generalize (reclaimSince s1.frames (currentFrameMem s.frames)) = rc at ho ⊢
      have h5 := ihb { s1 with frames := rc.2 :: rc.1 } (by simp only; rw [h2.1.depth]; exact hd) h2.2
        (by simp only; rw [h2.1.inShadow]; exact hr) (by simp only; omega) ho
      simp only [h4] at h5
      unfold popFrame
      split
      · simp only; split <;> exact h5
      · exact h5
  | dep _ ih => intro s hd hf hr hp ho; exact ih s s hd hf hr hp ho

/-- C15: if every charge of a computation succeeded, the peak is within the limit. -/
theorem C15_peak_within_limit {w : Work} (hw : Strict w) (s : S) (hd : s.b.depth ≤ u32Max) (hf : Fits s)
    (hr : s.b.inShadow = false) (hp : s.b.mem.peak ≤ s.b.mem.limit) (ho : (run w s).2 = .ok ()) :
    (run w s).1.b.memConsumed ≤ s.b.mem.limit := strict_peak hw s hd hf hr hp ho

/-- What a computation may do to the frames: only the balance of the current frame changes, and it does not go down. -/
def FrameRel (fs fs' : List Nat) : Prop :=
  (fs = [] ∧ fs' = []) ∨ ∃ h h' tl, fs = h :: tl ∧ fs' = h' :: tl ∧ h ≤ h'

theorem FrameRel.refl (fs : List Nat) : FrameRel fs fs := by
  cases fs with
  | nil => exact Or.inl ⟨rfl, rfl⟩
  | cons h tl => exact Or.inr ⟨h, h, tl, rfl, rfl, Nat.le_refl _⟩

theorem FrameRel.trans {a b c : List Nat} (h1 : FrameRel a b) (h2 : FrameRel b c) : FrameRel a c := by
  rcases h1 with ⟨rfl, rfl⟩ | ⟨x, y, tl, rfl, rfl, hxy⟩
  · exact h2
  · rcases h2 with ⟨h, _⟩ | ⟨x', y', tl', h, rfl, hxy'⟩
    · cases h
    · cases h; exact Or.inr ⟨x, y', _, rfl, rfl, Nat.le_trans hxy hxy'⟩

/-- The accounting kept by all work: the frames' balances are covered by the memory in use, and memory not owed to a frame
never goes down. -/
structure Acc (s s' : S) : Prop where
  covered : s'.frames.sum ≤ s'.b.mem.net
  kept : s.b.mem.net + s'.frames.sum ≤ s'.b.mem.net + s.frames.sum
  rel : FrameRel s.frames s'.frames

theorem Acc.trans {a b c : S} (h1 : Acc a b) (h2 : Acc b c) : Acc a c :=
  ⟨h2.covered, by have := h1.kept; have := h2.kept; omega, h1.rel.trans h2.rel⟩

theorem popFrame_acc {s s1 : S} {d : Nat} {fs : List Nat} (hs : s.frames = fs) (hc : s.frames.sum ≤ s.b.mem.net)
    (h1 : s1.frames = d :: fs) (hc1 : s1.frames.sum ≤ s1.b.mem.net)
    (hk : s.b.mem.net + s1.frames.sum ≤ s1.b.mem.net + s.frames.sum) :
    Acc s (popFrame s1) ∧ (popFrame s1).frames = fs ∧ (popFrame s1).b.mem.net + d = s1.b.mem.net := by
  unfold popFrame
  rw [h1] at hc1 hk ⊢
  simp only [List.sum_cons] at hc1 hk
  simp only
  have hnet : (if d ≠ 0 then { s1.b with mem := s1.b.mem.refund d } else s1.b).mem.net = s1.b.mem.net - d := by
    split
    · rfl
    · rename_i h; simp at h; omega
  refine ⟨⟨?_, ?_, ?_⟩, trivial, ?_⟩
  · simp only [hnet]; omega
  · simp only [hnet, hs] at hk ⊢; omega
  · rw [hs]; exact FrameRel.refl _
  · simp only [hnet]; omega

theorem memGrow_acc (s : S) (c d : Nat) (m : Option Nat) (hf : Fits s) (hl : s.b.mem.limit < u64Max)
    (hc : s.frames.sum ≤ s.b.mem.net) : Acc s (memGrowing s c d m).1 ∧
      ((memGrowing s c d m).2 = .ok () → s.b.inShadow = false → s.frames ≠ [] →
        s.b.mem.net + (memGrowing s c d m).1.frames.sum = (memGrowing s c d m).1.b.mem.net + s.frames.sum) := by
  rcases memGrowing_cases s c d m with h | ⟨h, h'⟩ | ⟨mm, hok, hmm, hr, h⟩
  · rw [h]
    exact ⟨⟨hc, Nat.le_refl _, FrameRel.refl _⟩, by intro h; cases h⟩
  · rw [h]
    have := (charge_mono s s.frames memAlloc 1 (some (d - c)) hf).2.2
    refine ⟨⟨?_, ?_, FrameRel.refl _⟩, ?_⟩
    · simp only; omega
    · simp only; omega
    · intro ho hr _
      rcases h' with ⟨e, h'⟩ | h'
      · rw [h'] at ho; cases ho
      · rw [h'] at hr; cases hr
  · rw [h]
    obtain ⟨b', hb, _, _, _, _, _, h6⟩ := charge_real_cases s.b memAlloc 1 (some (d - c)) hr
    obtain ⟨cm, mm', _, hm', _, h4, _, h6⟩ := h6 hok
    rw [hmm] at hm'
    cases hm'
    simp only
    rw [← hb]
    rw [h4] at h6
    simp only [Dim.bump] at h4 h6
    generalize mm.evaluate 1 (some (d - c)) = cost at h4 h6 ⊢
    have hnet : min u64Max (s.b.mem.net + cost) = s.b.mem.net + cost := by
      rcases Nat.le_total u64Max (s.b.mem.net + cost) with h | h
      · rw [Nat.min_eq_left h] at h6; omega
      · exact Nat.min_eq_right h
    rw [hnet] at h6
    have hbm : b'.mem.net = s.b.mem.net + cost := by rw [h4]; exact hnet
    simp only [hbm]
    cases hfr : s.frames with
    | nil =>
      refine ⟨⟨by simp [chargeFrame], by simp only [chargeFrame, hfr, hbm]; omega, by rw [hfr]; exact Or.inl ⟨rfl, rfl⟩⟩, ?_⟩
      intro _ _ h; exact absurd rfl h
    | cons x xs =>
      rw [hfr] at hc
      simp only [List.sum_cons] at hc
      have hx : satAddU64 x cost = x + cost := by
        rw [satAddU64_eq]; apply Nat.min_eq_right; omega
      refine ⟨⟨?_, ?_, ?_⟩, ?_⟩
      · simp only [chargeFrame, List.sum_cons, hx]; omega
      · simp only [chargeFrame, List.sum_cons, hx, hfr]; omega
      · rw [hfr]; exact Or.inr ⟨x, x + cost, xs, rfl, by simp [chargeFrame, hx], Nat.le_add_right _ _⟩
      · intro _ _ _; simp only [chargeFrame, List.sum_cons, hx]; omega

theorem reclaim_facts {fs fs1 : List Nat} (h : FrameRel fs fs1) :
    (reclaimSince fs1 (currentFrameMem fs)).1 = fs ∧ (reclaimSince fs1 (currentFrameMem fs)).2 + fs.sum = fs1.sum := by
  rcases h with ⟨rfl, rfl⟩ | ⟨x, y, tl, rfl, rfl, hxy⟩
  · exact ⟨rfl, rfl⟩
  · simp only [reclaimSince, currentFrameMem, List.headD_cons, List.sum_cons]
    refine ⟨trivial, ?_⟩
    omega

theorem run_acc : ∀ (w : Work) (s : S), s.b.depth ≤ u32Max → Fits s → s.b.mem.limit < u64Max →
    s.frames.sum ≤ s.b.mem.net → Acc s (run w s).1 := by
  intro w
  induction w with
  | skip => intro s _ _ _ hc; exact ⟨hc, Nat.le_refl _, FrameRel.refl _⟩
  | fail e => intro s _ _ _ hc; exact ⟨hc, Nat.le_refl _, FrameRel.refl _⟩
  | charge ty n i =>
    intro s _ hf _ hc
    have := (charge_mono s s.frames ty n i hf).2.2
    refine ⟨?_, ?_, FrameRel.refl _⟩
    · show s.frames.sum ≤ (s.b.charge ty n i).1.mem.net; omega
    · show s.b.mem.net + s.frames.sum ≤ (s.b.charge ty n i).1.mem.net + s.frames.sum; omega
  | seq a b iha ihb =>
    intro s hd hf hl hc
    have h1 := iha s hd hf hl hc
    have h2 := run_mono a s hd hf
    unfold run
    generalize run a s = r at h1 h2
    obtain ⟨s1, r⟩ := r
    cases r with
    | error e => exact h1
    | ok _ =>
      exact h1.trans (ihb s1 (by rw [h2.1.depth]; exact hd) h2.2 (by rw [h2.1.memLimit]; exact hl) h1.covered)
  | attempt w ih => intro s hd hf hl hc; exact ih s hd hf hl hc
  | shadow w _ =>
    intro s hd _ _ hc
    obtain ⟨_, ⟨c, m, h⟩, _⟩ := run_shadow_mode w s hd
    rw [h]; exact ⟨hc, Nat.le_refl _, FrameRel.refl _⟩
  | obsShadow w _ =>
    intro s hd _ _ hc
    obtain ⟨_, _, ⟨c, m, h⟩⟩ := run_shadow_mode w s hd
    rw [h]; exact ⟨hc, Nat.le_refl _, FrameRel.refl _⟩
  | limited w ih =>
    intro s hd hf hl hc
    unfold run
    by_cases h0 : s.b.depth = 0
    · rw [h0, checkedSub_one_zero]; exact ⟨hc, Nat.le_refl _, FrameRel.refl _⟩
    · rw [checkedSub_one (by omega)]
      simp only
      have h1 := ih { s with b := { s.b with depth := s.b.depth - 1 } } (by simp only; omega) hf hl hc
      split
      · exact ⟨h1.covered, h1.kept, h1.rel⟩
      · exact ⟨h1.covered, h1.kept, h1.rel⟩
  | memGrow c d m => intro s _ hf hl hc; exact (memGrow_acc s c d m hf hl hc).1
  | frame w ih =>
    intro s hd hf hl hc
    have h1 := ih { s with frames := 0 :: s.frames } hd hf hl (by simpa using hc)
    rcases h1.rel with ⟨h, _⟩ | ⟨x, y, tl, hx, hy, _⟩
    · cases h
    · cases hx
      have hk := h1.kept
      simp only [List.sum_cons, Nat.zero_add] at hk
      exact (popFrame_acc rfl hc hy h1.covered hk).1
  | vmFrame inst body ihi ihb =>
    intro s hd hf hl hc
    have h1 := ihi s hd hf hl hc
    have h2 := run_mono inst s hd hf
    unfold run
    simp only
    generalize run inst s = r at h1 h2
    obtain ⟨s1, r⟩ := r
    cases r with
    | error e => exact h1
    | ok _ =>
      simp only at h1 h2 ⊢
      obtain ⟨e1, e2⟩ := reclaim_facts h1.rel
      generalize reclaimSince s1.frames (currentFrameMem s.frames) = rc at e1 e2
      obtain ⟨rp, rq⟩ := rc
      simp only at e1 e2
      subst e1
      have h3 := ihb { s1 with frames := rq :: s.frames } (by simp only; rw [h2.1.depth]; exact hd) h2.2
        (by simp only; rw [h2.1.memLimit]; exact hl)
        (by simp only [List.sum_cons]; have := h1.covered; omega)
      rcases h3.rel with ⟨h, _⟩ | ⟨x, y, tl, hx, hy, _⟩
      · cases h
      · cases hx
        have hk := h3.kept
        have hk1 := h1.kept
        simp only [List.sum_cons] at hk
        exact (popFrame_acc rfl hc hy h3.covered (by omega)).1
  | dep f ih => intro s hd hf hl hc; exact ih s s hd hf hl hc

/-- C15: the refund of a frame never exceeds the memory in use, and memory that was not charged for VM memory is never
refunded: across any work, what is in use minus what is owed to frames does not go down. -/
theorem C15_refunds_are_covered (w : Work) (s : S) (hd : s.b.depth ≤ u32Max) (hf : Fits s) (hl : s.b.mem.limit < u64Max)
    (hc : s.frames.sum ≤ s.b.mem.net) :
    (run w s).1.frames.sum ≤ (run w s).1.b.mem.net ∧
    s.b.mem.net - s.frames.sum ≤ (run w s).1.b.mem.net - (run w s).1.frames.sum := by
  have h := run_acc w s hd hf hl hc
  exact ⟨h.covered, by have := h.kept; have := h.covered; omega⟩

theorem onlyMemory_exact {w : Work} (hw : OnlyMemory w) : ∀ s : S, s.b.depth ≤ u32Max → Fits s → s.b.mem.limit < u64Max →
    s.b.inShadow = false → s.frames.sum ≤ s.b.mem.net → s.frames ≠ [] → (run w s).2 = .ok () →
    s.b.mem.net + (run w s).1.frames.sum = (run w s).1.b.mem.net + s.frames.sum := by
  induction hw with
  | skip => intro s _ _ _ _ _ _ _; rfl
  | @seq a b _ _ iha ihb =>
    intro s hd hf hl hr hc hne ho
    have h1 := iha s hd hf hl hr hc hne
    have ha := run_acc a s hd hf hl hc
    have h2 := run_mono a s hd hf
    unfold run at ho ⊢
    generalize run a s = r at h1 h2 ha ho ⊢
    obtain ⟨s1, r⟩ := r
    cases r with
    | error e => cases ho
    | ok _ =>
      have h3 := h1 rfl
      have hne1 : s1.frames ≠ [] := by
        rcases ha.rel with ⟨h, _⟩ | ⟨x, y, tl, _, hy, _⟩
        · exact absurd h hne
        · simp only at hy; rw [hy]; simp
      have h4 := ihb s1 (by rw [h2.1.depth]; exact hd) h2.2 (by rw [h2.1.memLimit]; exact hl)
        (by rw [h2.1.inShadow]; exact hr) ha.covered hne1 ho
      simp only at h3 h4 ⊢
      omega
  | @limited w _ ih =>
    intro s hd hf hl hr hc hne ho
    unfold run at ho ⊢
    by_cases h0 : s.b.depth = 0
    · rw [h0, checkedSub_one_zero] at ho; cases ho
    · rw [checkedSub_one (by omega)] at ho ⊢
      have h1 := ih { s with b := { s.b with depth := s.b.depth - 1 } } (by simp only; omega) hf hl hr hc hne
      have h2 := (run_mono w { s with b := { s.b with depth := s.b.depth - 1 } } (by simp only; omega) hf).1.depth
      simp only at ho h2 ⊢
      rw [h2, checkedAdd_one (by omega)] at ho ⊢
      exact h1 ho
  | memGrow c d m => intro s _ hf hl hr hc hne ho; exact (memGrow_acc s c d m hf hl hc).2 ho hr hne
  | @frame w _ ih =>
    intro s hd hf hl hr hc hne ho
    have hc' : ({ s with frames := 0 :: s.frames } : S).frames.sum ≤ s.b.mem.net := by simpa using hc
    have h1 := run_acc w { s with frames := 0 :: s.frames } hd hf hl hc'
    have h2 := ih { s with frames := 0 :: s.frames } hd hf hl hr hc' (by simp) ho
    rcases h1.rel with ⟨h, _⟩ | ⟨x, y, tl, hx, hy, _⟩
    · cases h
    · cases hx
      have hk := h1.kept
      simp only [List.sum_cons, Nat.zero_add] at hk
      obtain ⟨_, p2, p3⟩ := popFrame_acc rfl hc hy h1.covered hk
      show s.b.mem.net + (popFrame _).frames.sum = (popFrame _).b.mem.net + s.frames.sum
      rw [p2]
      rw [hy] at h2
      simp only [List.sum_cons, Nat.zero_add] at h2
      omega
  | @vmFrame a b _ _ iha ihb =>
    intro s hd hf hl hr hc hne ho
    have h1 := iha s hd hf hl hr hc hne
    have ha := run_acc a s hd hf hl hc
    have h2 := run_mono a s hd hf
    unfold run at ho ⊢
    simp only at ho ⊢
    generalize run a s = r at h1 h2 ha ho ⊢
    obtain ⟨s1, r⟩ := r
    cases r with
    | error e => cases ho
    | ok _ =>
      have h3 := h1 rfl
      simp only at h3 ho ha h2 ⊢
      obtain ⟨e1, e2⟩ := reclaim_facts ha.rel
      generalize reclaimSince s1.frames (currentFrameMem s.frames) = rc at e1 e2 ho ⊢
      obtain ⟨rp, rq⟩ := rc
      simp only at e1 e2 ho ⊢
      subst e1
      have hc1 : ({ s1 with frames := rq :: s.frames } : S).frames.sum ≤ s1.b.mem.net := by
        simp only [List.sum_cons]; have := ha.covered; omega
      have hd1 : s1.b.depth ≤ u32Max := by rw [h2.1.depth]; exact hd
      have hl1 : s1.b.mem.limit < u64Max := by rw [h2.1.memLimit]; exact hl
      have hr1 : s1.b.inShadow = false := by rw [h2.1.inShadow]; exact hr
      have h4 := run_acc b { s1 with frames := rq :: s.frames } hd1 h2.2 hl1 hc1
      have h5 := ihb { s1 with frames := rq :: s.frames } hd1 h2.2 hl1 hr1 hc1 (by simp) ho
      rcases h4.rel with ⟨h, _⟩ | ⟨x, y, tl, hx, hy, _⟩
      · cases h
      · cases hx
        have hk := h4.kept
        have hk1 := ha.kept
        simp only [List.sum_cons] at hk
        obtain ⟨_, p2, p3⟩ := popFrame_acc rfl hc hy h4.covered (by omega)
        rw [p2]
        rw [hy] at h5
        simp only [List.sum_cons] at h5
        omega
  | dep _ ih => intro s hd hf hl hr hc hne ho; exact ih s s hd hf hl hr hc hne ho

/-- C15: the memory of a VM is transient: a call that instantiates a VM, lets it grow its memory and make further such calls,
and returns, leaves the memory in use exactly as it found it (the peak remembers it). -/
theorem C15_vm_memory_given_back {inst body : Work} (hi : OnlyMemory inst) (hb : OnlyMemory body) (s : S)
    (hd : s.b.depth ≤ u32Max) (hf : Fits s) (hl : s.b.mem.limit < u64Max) (hr : s.b.inShadow = false)
    (hc : s.frames.sum ≤ s.b.mem.net) (hne : s.frames ≠ []) (ho : (run (.vmFrame inst body) s).2 = .ok ()) :
    (run (.vmFrame inst body) s).1.b.mem.net = s.b.mem.net ∧ (run (.vmFrame inst body) s).1.frames = s.frames := by
  have h1 := onlyMemory_exact (OnlyMemory.vmFrame hi hb) s hd hf hl hr hc hne ho
  have hfr : (run (.vmFrame inst body) s).1.frames = s.frames := by
    have ha := run_acc inst s hd hf hl hc
    have h2 := run_mono inst s hd hf
    unfold run at ho ⊢
    simp only at ho ⊢
    generalize run inst s = r at h2 ha ho ⊢
    obtain ⟨s1, r⟩ := r
    cases r with
    | error e => cases ho
    | ok _ =>
      simp only at ho ha h2 ⊢
      obtain ⟨e1, e2⟩ := reclaim_facts ha.rel
      generalize reclaimSince s1.frames (currentFrameMem s.frames) = rc at e1 e2 ho ⊢
      obtain ⟨rp, rq⟩ := rc
      simp only at e1 e2 ho ⊢
      subst e1
      have hc1 : ({ s1 with frames := rq :: s.frames } : S).frames.sum ≤ s1.b.mem.net := by
        simp only [List.sum_cons]; have := ha.covered; omega
      have h4 := run_acc body { s1 with frames := rq :: s.frames } (by simp only; rw [h2.1.depth]; exact hd) h2.2
        (by simp only; rw [h2.1.memLimit]; exact hl) hc1
      rcases h4.rel with ⟨h, _⟩ | ⟨x, y, tl, hx, hy, _⟩
      · cases h
      · cases hx
        unfold popFrame
        rw [hy]
  rw [hfr] at h1
  exact ⟨by omega, hfr⟩

example : let s : S := ⟨exampleBudget, [0]⟩
    let r := run (.vmFrame (.memGrow 0 128 none) (.seq (.memGrow 128 256 none) (.vmFrame (.memGrow 0 64 none) .skip))) s
    r.2 = .ok () ∧ r.1.b.mem.net = 0 ∧ r.1.b.mem.peak = 368 ∧ r.1.frames = [0] := ⟨rfl, rfl, rfl, rfl⟩

/-! ### C16: fuel -/

/-- C16: the fuel handed to a VM is worth at most the remaining cpu budget, and less than one unit of fuel is lost to
rounding. -/
theorem C16_fuel_within_budget {b : B} {m : CostModel} {fuel : Nat} (hm : b.cpu.models[0]? = some m)
    (h : b.fuelRemaining = .ok fuel) :
    fuel * max m.constTerm 1 ≤ b.cpu.limit - b.cpu.net ∧ b.cpu.limit - b.cpu.net < (fuel + 1) * max m.constTerm 1 := by
  change b.cpu.models[wasmInsnExec]? = some m at hm
  unfold B.fuelRemaining Dim.costModel at h
  rw [hm] at h
  cases h
  unfold Dim.remaining
  refine ⟨Nat.div_mul_le_self _ _, ?_⟩
  have hp : 0 < max m.constTerm 1 := by omega
  exact Nat.lt_mul_of_div_lt (Nat.lt_succ_self _) hp

/-- C16: charging back what the VM consumed (at most what it was given) costs exactly the fuel times its price and cannot
exceed the cpu limit. -/
theorem C16_return_fuel_exact {b : B} {m mm : CostModel} {fuel : Fuel} {t : Tracker} (used : Nat)
    (hr : b.inShadow = false) (ht : b.trackers[0]? = some t) (hti : t.inputs = none)
    (hm : b.cpu.models[0]? = some m) (hmm : b.mem.models[0]? = some mm) (hfree : mm.constTerm = 0)
    (hcl : b.cpu.net ≤ b.cpu.limit) (hc64 : b.cpu.limit ≤ u64Max) (hml : b.mem.net ≤ b.mem.limit) (hm64 : b.mem.net ≤ u64Max)
    (hadd : addFuelToVm b ⟨0, 0⟩ = .ok fuel) (hu : used ≤ fuel.total) :
    (returnFuelToHost b ⟨fuel.total, used⟩).2 = .ok ⟨0, 0⟩ ∧
    (returnFuelToHost b ⟨fuel.total, used⟩).1.cpu.net = b.cpu.net + used * m.constTerm ∧
    (returnFuelToHost b ⟨fuel.total, used⟩).1.cpu.net ≤ b.cpu.limit ∧
    (returnFuelToHost b ⟨fuel.total, used⟩).1.mem.net = b.mem.net := by
  change b.cpu.models[wasmInsnExec]? = some m at hm
  change b.mem.models[wasmInsnExec]? = some mm at hmm
  change b.trackers[wasmInsnExec]? = some t at ht
  have hfuel : b.fuelRemaining = .ok fuel.total := by
    unfold addFuelToVm at hadd
    simp only [and_self, if_true] at hadd
    cases h : b.fuelRemaining with
    | error e => rw [h] at hadd; cases hadd
    | ok x => rw [h] at hadd; cases hadd; rfl
  have hw := (C16_fuel_within_budget hm hfuel).1
  have hcost : used * m.constTerm ≤ b.cpu.limit - b.cpu.net := by
    refine Nat.le_trans ?_ hw
    exact Nat.mul_le_mul hu (Nat.le_max_left _ _)
  have hev : m.evaluate used none = used * m.constTerm := by
    rw [(C12_exact m used 0 (by simp)).2]
    exact Nat.min_eq_right (by show used * m.constTerm ≤ _; omega)
  have hevm : mm.evaluate used none = 0 := by
    unfold CostModel.evaluate
    simp [hfree, satMulU64]
  have e1 : min u64Max (b.cpu.net + m.evaluate used none) = b.cpu.net + used * m.constTerm := by
    rw [hev]; exact Nat.min_eq_right (by omega)
  have e2 : min u64Max (b.mem.net + mm.evaluate used none) = b.mem.net := by
    rw [hevm]; exact Nat.min_eq_right hm64
  have hok : (b.charge wasmInsnExec used none).2 = .ok () := by
    rw [charge_ok_iff _ _ _ _ hr]
    exact ⟨t, m, mm, ht, by rw [hti], hm, hmm, by omega, by omega⟩
  obtain ⟨cm, mm', h1, h2, h3, h4, h5, _⟩ := C11_charge_adds_cost b wasmInsnExec used none hr hok
  rw [hm] at h1
  rw [hmm] at h2
  cases h1; cases h2
  unfold returnFuelToHost
  simp only
  generalize b.charge wasmInsnExec used none = r at hok h3 h4 h5
  obtain ⟨b1, r⟩ := r
  simp only at hok
  subst hok
  simp only at h3 h4 h5 ⊢
  exact ⟨trivial, by rw [h3, e1], h5, by rw [h4, e2]⟩

example : addFuelToVm exampleBudget ⟨0, 0⟩ = .ok ⟨2500, 0⟩ ∧
    (returnFuelToHost exampleBudget ⟨2500, 700⟩).1.cpu.net = 2800 := ⟨rfl, by decide⟩

/-- A contract's execution seen from the budget: stretches of VM code, each consuming some fuel out of what it was given,
separated by host work (vm/dispatch.rs:206-300). -/
inductive VmRun : S → Nat → S → Prop
  | start (s) : VmRun s 0 s
  | step {s s' : S} {total used : Nat} {fuel : Fuel} {w : Work} : VmRun s total s' → addFuelToVm s'.b ⟨0, 0⟩ = .ok fuel →
      used ≤ fuel.total → (returnFuelToHost s'.b ⟨fuel.total, used⟩).2 = .ok ⟨0, 0⟩ →
      VmRun s (total + used) (run w { s' with b := (returnFuelToHost s'.b ⟨fuel.total, used⟩).1 }).1

/-- C16: over a whole execution, the price of all the fuel the guest consumed is contained in the cpu total. Together with
C11 this bounds the number of instructions a guest can run by the cpu limit. -/
theorem C16_total_fuel_charged {s s' : S} {total : Nat} (h : VmRun s total s') {m : CostModel}
    (hm : s.b.cpu.models[0]? = some m) (hd : s.b.depth ≤ u32Max) (hf : Fits s) (hr : s.b.inShadow = false)
    (hl : s.b.cpu.limit < u64Max) : s.b.cpu.net + total * m.constTerm ≤ s'.b.cpu.net := by
  change s.b.cpu.models[wasmInsnExec]? = some m at hm
  suffices hs : s.b.cpu.net + total * m.constTerm ≤ s'.b.cpu.net ∧ s'.b.cpu.models = s.b.cpu.models ∧
      s'.b.cpu.limit = s.b.cpu.limit ∧ s'.b.depth = s.b.depth ∧ Fits s' ∧ s'.b.inShadow = false from hs.1
  induction h with
  | start => exact ⟨by simp, rfl, rfl, rfl, hf, hr⟩
  | @step s' total used fuel w _ hadd hu hret ih =>
    obtain ⟨i1, i2, i3, i4, i5, i6⟩ := ih
    have hok : (s'.b.charge wasmInsnExec used none).2 = .ok () := by
      unfold returnFuelToHost at hret
      simp only at hret
      generalize s'.b.charge wasmInsnExec used none = r at hret
      obtain ⟨b1, r⟩ := r
      cases r with
      | error e => cases hret
      | ok _ => rfl
    have hb : (returnFuelToHost s'.b ⟨fuel.total, used⟩).1 = (s'.b.charge wasmInsnExec used none).1 := by
      unfold returnFuelToHost
      simp only
      generalize s'.b.charge wasmInsnExec used none = r
      obtain ⟨b1, r⟩ := r
      cases r <;> rfl
    rw [hb]
    obtain ⟨cm, mm, h1, h2, h3, h4, h5, _⟩ := C11_charge_adds_cost s'.b wasmInsnExec used none i6 hok
    rw [i2, hm] at h1
    cases h1
    obtain ⟨c1, c2, _⟩ := charge_mono s' s'.frames wasmInsnExec used none i5
    have hdep : (s'.b.charge wasmInsnExec used none).1.depth ≤ u32Max := by rw [c1.depth, i4]; exact hd
    obtain ⟨m1, m2⟩ := run_mono w { s' with b := (s'.b.charge wasmInsnExec used none).1 } hdep c2
    refine ⟨?_, m1.cpuModels.trans (c1.cpuModels.trans i2), m1.cpuLimit.trans (c1.cpuLimit.trans i3),
      m1.depth.trans (c1.depth.trans i4), m2, by rw [m1.inShadow, c1.inShadow]; exact i6⟩
    have hnet : (s'.b.charge wasmInsnExec used none).1.cpu.net = s'.b.cpu.net + used * m.constTerm := by
      have hev : m.evaluate used none = min u64Max (used * m.constTerm) := (C12_exact m used 0 (by simp)).2
      rw [h3, hev]
      rw [h3, hev, i3] at h5
      generalize used * m.constTerm = z at h5 ⊢
      generalize u64Max = M at *
      omega
    have := m1.cpuNet
    simp only at this
    rw [hnet] at this
    rw [Nat.add_mul]
    omega

end Soroban.Props
