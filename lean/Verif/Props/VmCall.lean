import Verif.Spec.VmCall
import Verif.Lemmas.Budget
import Verif.Props.Budget
/-!
C64: a contract's instructions are paid for, and its failures are reported as they are.
-/
namespace Soroban.Props
open Soroban.Budget Soroban.VmCall Soroban.VmCall.Spec

variable {F τ : Type} {ix : CostIx} {D : Fns F τ}

/-! ### Failures -/

/-- Executing a program goes through every point it reaches. -/
theorem exec_reaches {p₀ p : Prog F} {fuel₀ fuel : Fuel} {st₀ st : St τ} (h : Reaches ix D p₀ fuel₀ st₀ p fuel st) :
    exec ix D p₀ fuel₀ st₀ = exec ix D p fuel st := by
  induction h with
  | start => rfl
  | call _ h1 h2 ih =>
    rw [ih, exec, h1]
    dsimp only
    rw [h2]
  | @grow cs cur des mx k fuel fuel₁ st s' r _ h1 h2 ih =>
    rw [ih, exec, h1]
    dsimp only
    rw [h2]
    cases r <;> rfl

/-- A charge that fails is an exceeded limit, and then it is in the cpu total, or an internal error of the budget. -/
theorem charge_err {b b' : B} {ty n : Nat} {i : Option Nat} {e : Err} (hr : b.inShadow = false)
    (h : b.charge ty n i = (b', .error e)) :
    (e = .host .budget .internalError ∧ ((∀ t, b.trackers[ty]? = some t → t.inputs.isSome ≠ i.isSome) ∨
      b.cpu.models[ty]? = none ∨ b.mem.models[ty]? = none)) ∨
    e = .host .budget .exceededLimit ∧ Over b' ∧ ∃ m, b.cpu.models[ty]? = some m ∧ b'.cpu = b.cpu.bump (m.evaluate n i) := by
  have limit : ∀ (d : Dim) (e : Err), d.checkLimit false = .error e → e = .host .budget .exceededLimit ∧ d.net > d.limit := by
    intro d e h
    unfold Dim.checkLimit at h
    simp only [Bool.false_eq_true, if_false] at h
    split at h
    · rename_i hd
      injection h with h
      exact ⟨h.symm, of_decide_eq_true hd⟩
    · cases h
  unfold B.charge at h
  cases ht : b.trackers[ty]? with
  | none =>
    rw [ht] at h
    injection h with _ h
    injection h with h
    exact .inl ⟨h.symm, .inl (fun t h => nomatch h)⟩
  | some t =>
    rw [ht] at h
    simp only [hr, Bool.false_eq_true, if_false] at h
    split at h
    · unfold B.chargeDims B.chargeCpu at h
      simp only at h
      cases hc : b.cpu.models[ty]? with
      | none =>
        rw [dim_charge_none hc] at h
        injection h with _ h
        injection h with h
        exact .inl ⟨h.symm, .inr (.inl rfl)⟩
      | some cm =>
        rw [dim_charge_real hc] at h
        simp only [Bool.false_eq_true, if_false] at h
        cases hcl : (b.cpu.bump (cm.evaluate n i)).checkLimit false with
        | error e' =>
          rw [hcl] at h
          simp only [Prod.mk.injEq, Except.error.injEq] at h
          obtain ⟨rfl, rfl⟩ := h
          exact .inr ⟨(limit _ _ hcl).1, .inl (limit _ _ hcl).2, cm, rfl, rfl⟩
        | ok _ =>
          rw [hcl] at h
          simp only at h
          unfold B.chargeMem at h
          simp only at h
          cases hm : b.mem.models[ty]? with
          | none =>
            rw [dim_charge_none hm] at h
            injection h with _ h
            injection h with h
            exact .inl ⟨h.symm, .inr (.inr rfl)⟩
          | some mm =>
            rw [dim_charge_real hm] at h
            simp only [Bool.false_eq_true, if_false, Prod.mk.injEq] at h
            obtain ⟨rfl, h⟩ := h
            exact .inr ⟨(limit _ _ h).1, .inr (limit _ _ h).2, cm, rfl, rfl⟩
    · rename_i hadd
      injection h with _ h
      injection h with h
      refine .inl ⟨h.symm, .inl fun t' ht' => ?_⟩
      injection ht' with ht'
      subst ht'
      intro hi
      unfold Tracker.add at hadd
      cases h1 : t.inputs <;> cases h2 : i <;> simp_all

/-- What a budget must be like: charges are real, and totals and depth fit their types. -/
theorem sound_mono {s s' : S} (h : Sound s) (hm : Mono s s') (hf : Fits s') : Sound s' :=
  ⟨hm.inShadow.trans h.real, by rw [hm.depth]; exact h.depth, hf, by rw [hm.cpuLimit]; exact h.limit⟩

theorem works_mono {s s' : S} (h : Works s s') (hs : Sound s) : Mono s s' ∧ Sound s' := by
  obtain ⟨w, rfl⟩ := h
  have := run_mono w s hs.depth hs.fits
  exact ⟨this.1, sound_mono hs this.1 this.2⟩

theorem charge_ok_mono {ty : Nat} {st st' : St τ} {r : Res Unit} (h : VmCall.charge ty st = (st', r)) (hs : Sound st.s) :
    Mono st.s st'.s ∧ Sound st'.s := by
  unfold VmCall.charge at h
  injection h with h _
  subst h
  obtain ⟨h1, h2, _⟩ := charge_mono st.s st.s.frames ty 1 none hs.fits
  exact ⟨h1, sound_mono hs h1 h2⟩

/-- Returning fuel. -/
theorem returnFuel_cases {fuel : Fuel} {st st' : St τ} {r : Res Fuel} (h : returnFuel fuel st = (st', r)) (hs : Sound st.s)
    {m : CostModel} (hm : st.s.b.cpu.models[wasmInsnExec]? = some m) :
    Mono st.s st'.s ∧ Sound st'.s ∧ st'.t = st.t ∧
    ((r = .ok ⟨0, 0⟩ ∧ st'.s.b.cpu.net = st.s.b.cpu.net + fuel.consumed * m.constTerm ∧ st'.s.b.cpu.net ≤ st.s.b.cpu.limit ∧
        st'.s.b.mem.net ≤ st.s.b.mem.limit) ∨
     (r = .error (.host .budget .internalError) ∧ Faulty st.s.b) ∨
     (r = .error (.host .budget .exceededLimit) ∧ Over st'.s.b ∧
        st'.s.b.cpu.net = min u64Max (st.s.b.cpu.net + fuel.consumed * m.constTerm))) := by
  have hev : m.evaluate fuel.consumed none = min u64Max (fuel.consumed * m.constTerm) := (C12_exact m fuel.consumed 0 (by simp)).2
  unfold returnFuel returnFuelToHost at h
  dsimp only at h
  obtain ⟨c1, c2, _⟩ := charge_mono st.s st.s.frames wasmInsnExec fuel.consumed none hs.fits
  rcases hc : st.s.b.charge wasmInsnExec fuel.consumed none with ⟨b1, e | u⟩
  · rw [hc] at h c1 c2
    simp only [Prod.mk.injEq] at h
    obtain ⟨rfl, rfl⟩ := h
    refine ⟨c1, sound_mono hs c1 c2, rfl, .inr ?_⟩
    rcases charge_err hs.real hc with ⟨rfl, hf⟩ | ⟨rfl, ho, m', hm', hb⟩
    · refine .inl ⟨rfl, ?_⟩
      rcases hf with hf | hf
      · exact .inl fun t ht => by
          have := hf t ht
          cases hi : t.inputs <;> simp_all
      · exact .inr hf
    · refine .inr ⟨rfl, ho, ?_⟩
      rw [hm] at hm'
      injection hm' with hm'
      subst hm'
      dsimp only
      rw [hb, hev]
      show min u64Max (st.s.b.cpu.net + min u64Max _) = _
      generalize u64Max = U
      generalize fuel.consumed * m.constTerm = z
      omega
  · have hok : (st.s.b.charge wasmInsnExec fuel.consumed none).2 = .ok () := by rw [hc]
    obtain ⟨cm, mm, h1, h2, h3, h4, h5, h6, _⟩ := C11_charge_adds_cost st.s.b wasmInsnExec fuel.consumed none hs.real hok
    rw [hm] at h1
    injection h1 with h1
    subst h1
    rw [hc] at h c1 c2 h3 h4 h5 h6
    simp only [Prod.mk.injEq] at h
    obtain ⟨rfl, rfl⟩ := h
    refine ⟨c1, sound_mono hs c1 c2, rfl, .inl ⟨rfl, ?_, h5, h6⟩⟩
    dsimp only at h3 h5 ⊢
    rw [h3, hev]
    rw [h3, hev] at h5
    have hl := hs.limit
    revert h5 hl
    generalize u64Max = U
    generalize fuel.consumed * m.constTerm = z
    omega

theorem addFuel_ok {b : B} {m : CostModel} (hm : b.cpu.models[wasmInsnExec]? = some m) :
    ∃ fuel, addFuelToVm b ⟨0, 0⟩ = .ok fuel ∧ fuel.consumed = 0 ∧
      b.cpu.net + fuel.total * m.constTerm ≤ max b.cpu.limit b.cpu.net := by
  have hf : b.fuelRemaining = .ok (b.cpu.remaining / max m.constTerm 1) := by
    unfold B.fuelRemaining Dim.costModel
    rw [hm]
  refine ⟨⟨b.cpu.remaining / max m.constTerm 1, 0⟩, ?_, rfl, ?_⟩
  · unfold addFuelToVm
    rw [hf]
    rfl
  · obtain ⟨h1, _⟩ := C16_fuel_within_budget hm hf
    dsimp only
    have h2 : b.cpu.remaining / max m.constTerm 1 * m.constTerm ≤ b.cpu.remaining / max m.constTerm 1 * max m.constTerm 1 :=
      Nat.mul_le_mul_left _ (Nat.le_max_left _ _)
    omega

/-- What a dispatch function does to the budget and the fuel. -/
theorem hostCall_cases (hD : Metered D) {f : F} {ws : List Nat} {fuel fuel' : Fuel} {st st' : St τ} {r : Res Nat}
    (h : hostCall ix D f ws fuel st = (st', fuel', r)) (hs : Sound st.s) {m : CostModel}
    (hm : st.s.b.cpu.models[wasmInsnExec]? = some m) :
    Mono st.s st'.s ∧ Sound st'.s ∧
    (∀ w, r = .ok w → st.s.b.cpu.net + fuel.consumed * m.constTerm ≤ st'.s.b.cpu.net ∧
      st.s.b.cpu.net + fuel.consumed * m.constTerm ≤ st.s.b.cpu.limit ∧
      fuel'.consumed = 0 ∧ st'.s.b.cpu.net + fuel'.total * m.constTerm ≤ max st.s.b.cpu.limit st'.s.b.cpu.net) ∧
    ∀ e, r = .error e → st.s.b.cpu.net + fuel.consumed * m.constTerm ≤ st'.s.b.cpu.net + fuel'.consumed * m.constTerm := by
  unfold hostCall at h
  cases hg : D.guard f with
  | error e =>
    rw [hg] at h
    injection h with h1 h
    injection h with h2 h3
    subst h1 h2 h3
    exact ⟨Mono.refl _, hs, (fun w hw => nomatch hw), fun _ _ => Nat.le_refl _⟩
  | ok _ =>
    rw [hg] at h
    dsimp only at h
    rcases hrf : returnFuel fuel st with ⟨s1, e | fl⟩
    · rw [hrf] at h
      injection h with h1 h
      injection h with h2 h3
      subst h1 h2 h3
      obtain ⟨m1, m2, _, _⟩ := returnFuel_cases hrf hs hm
      exact ⟨m1, m2, (fun w hw => nomatch hw), fun _ _ => Nat.add_le_add_right m1.cpuNet _⟩
    · rw [hrf] at h
      dsimp only at h
      obtain ⟨m1, m2, _, m4⟩ := returnFuel_cases hrf hs hm
      rcases m4 with ⟨hfl, n1, n2, _⟩ | ⟨m4, _⟩ | ⟨m4, _⟩
      rotate_left
      · cases m4
      · cases m4
      injection hfl with hfl
      subst hfl
      -- from here on the fuel is in the total
      have key : ∀ (s2 : St τ) (fl : Fuel), Mono s1.s s2.s → Sound s2.s → fl.consumed = 0 → ∀ r : Res Nat,
          (s2, fl, r) = (st', fuel', r) → (∀ w, r = .ok w → s2.s.b.cpu.net + fl.total * m.constTerm ≤ max s2.s.b.cpu.limit s2.s.b.cpu.net) →
          Mono st.s st'.s ∧ Sound st'.s ∧
          (∀ w, r = .ok w → st.s.b.cpu.net + fuel.consumed * m.constTerm ≤ st'.s.b.cpu.net ∧
            st.s.b.cpu.net + fuel.consumed * m.constTerm ≤ st.s.b.cpu.limit ∧
            fuel'.consumed = 0 ∧ st'.s.b.cpu.net + fuel'.total * m.constTerm ≤ max st.s.b.cpu.limit st'.s.b.cpu.net) ∧
          ∀ e, r = .error e →
            st.s.b.cpu.net + fuel.consumed * m.constTerm ≤ st'.s.b.cpu.net + fuel'.consumed * m.constTerm := by
        intro s2 fl k1 k2 k3 r k4 k5
        injection k4 with k4 k6
        injection k6 with k6 _
        subst k4 k6
        have k := k1.cpuNet
        refine ⟨m1.trans k1, k2, fun w hw => ⟨by omega, by omega, k3, ?_⟩, fun _ _ => ?_⟩
        · have := k5 w hw
          rw [k1.cpuLimit, m1.cpuLimit] at this
          exact this
        · rw [k3, Nat.zero_mul]
          omega
      rcases hch : VmCall.charge ix.dispatch s1 with ⟨s2, e | u⟩
      · rw [hch] at h
        dsimp only at h
        obtain ⟨a1, a2⟩ := charge_ok_mono hch m2
        injection h with h1 h
        injection h with h2 h3
        subst h1 h2 h3
        exact key s2 _ a1 a2 rfl _ rfl (fun w hw => nomatch hw)
      · rw [hch] at h
        dsimp only at h
        obtain ⟨a1, a2⟩ := charge_ok_mono hch m2
        have b0 := works_mono (hD.args f ws s2) a2
        rcases har : D.args f ws s2 with ⟨s3, e | vs⟩
        · rw [har] at h b0
          dsimp only at h b0
          injection h with h1 h
          injection h with h2 h3
          subst h1 h2 h3
          exact key s3 _ (a1.trans b0.1) b0.2 rfl _ rfl (fun w hw => nomatch hw)
        · rw [har] at h b0
          dsimp only at h b0
          unfold finishDispatch at h
          have c0 := works_mono (hD.call f vs s3) b0.2
          have hmod : ∀ s : St τ, Mono s1.s s.s → s.s.b.cpu.models[wasmInsnExec]? = some m := fun s hs' => by
            rw [hs'.cpuModels, m1.cpuModels]; exact hm
          rcases hca : D.call f vs s3 with ⟨s4, e | v⟩
          · rw [hca] at h c0
            dsimp only at h c0
            have k1 := (a1.trans b0.1).trans c0.1
            obtain ⟨fl, f1, f2, f3⟩ := addFuel_ok (hmod s4 k1)
            rw [f1] at h
            dsimp only at h
            injection h with h1 h
            injection h with h2 h3
            subst h1 h2 h3
            exact key s4 _ k1 c0.2 f2 _ rfl (fun w hw => nomatch hw)
          · rw [hca] at h c0
            dsimp only at h c0
            have d0 := works_mono (hD.result f v s4) c0.2
            rcases hre : D.result f v s4 with ⟨s5, e | w⟩
            · rw [hre] at h d0
              dsimp only at h d0
              injection h with h1 h
              injection h with h2 h3
              subst h1 h2 h3
              exact key s5 _ (((a1.trans b0.1).trans c0.1).trans d0.1) d0.2 rfl _ rfl (fun w hw => nomatch hw)
            · rw [hre] at h d0
              dsimp only at h d0
              have k1 := ((a1.trans b0.1).trans c0.1).trans d0.1
              obtain ⟨fl, f1, f2, f3⟩ := addFuel_ok (hmod s5 k1)
              rw [f1] at h
              dsimp only at h
              injection h with h1 h
              injection h with h2 h3
              subst h1 h2 h3
              exact key s5 _ k1 d0.2 f2 _ rfl (fun _ _ => f3)

theorem grow_mono {s s' : S} {cur des : Nat} {mx : Option Nat} {r : Res Unit} (h : memGrowing s cur des mx = (s', r))
    (hs : Sound s) : Mono s s' ∧ Sound s' :=
  works_mono ⟨.memGrow cur des mx, by rw [run, h]⟩ hs

theorem reach_mono (hD : Metered D) {m : CostModel} {p₀ p : Prog F} {fuel₀ fuel : Fuel} {st₀ st : St τ}
    (h : Reaches ix D p₀ fuel₀ st₀ p fuel st) (hs : Sound st₀.s) (hm : st₀.s.b.cpu.models[wasmInsnExec]? = some m) :
    Mono st₀.s st.s ∧ Sound st.s := by
  induction h with
  | start => exact ⟨Mono.refl _, hs⟩
  | call _ _ h2 ih =>
    obtain ⟨i1, i2⟩ := ih
    obtain ⟨d1, d2, _⟩ := hostCall_cases hD h2 i2 (m := m) (by rw [i1.cpuModels]; exact hm)
    exact ⟨i1.trans d1, d2⟩
  | grow _ _ h2 ih =>
    obtain ⟨i1, i2⟩ := ih
    obtain ⟨d1, d2⟩ := grow_mono h2 i2
    exact ⟨i1.trans d1, d2⟩

/-- The call of a function body. -/
theorem callBody_eq {params results : List Wasm.ValTy} {body : List Nat → Prog F} {args : List Nat} {st : St τ} {fuel : Fuel}
    (hf : addFuelToVm st.s.b ⟨0, 0⟩ = .ok fuel) (hc : checkCall params results args = none) {st' : St τ} {fuel' : Fuel} {e : End}
    (he : exec ix D (body args) fuel st = (st', fuel', e)) :
    callBody ix D params results body args st =
      match returnFuel fuel' st' with
      | (s, .error e) => (s, .error e)
      | (s, .ok _) => finishCall D e s := by
  unfold callBody
  rw [hf]
  dsimp only
  rw [hc]
  dsimp only
  rw [he]
  rfl

/-! ### Payment -/

theorem spend_le (cs : List Nat) : ∀ fuel : Fuel, fuel.consumed ≤ (spend cs fuel).1.consumed ∧ (spend cs fuel).1.total = fuel.total ∧
    (fuel.consumed ≤ fuel.total → (spend cs fuel).1.consumed ≤ fuel.total) := by
  induction cs with
  | nil => exact fun fuel => ⟨Nat.le_refl _, rfl, id⟩
  | cons c cs ih =>
    intro fuel
    rw [spend]
    split
    · rename_i h
      obtain ⟨h1, h2, h3⟩ := ih { fuel with consumed := fuel.consumed + c }
      exact ⟨by dsimp only at h1; omega, h2, fun _ => h3 h⟩
    · exact ⟨Nat.le_refl _, rfl, id⟩

theorem spent_eq {cs : List Nat} {fuel fuel' : Fuel} {ok : Bool} (h : spend cs fuel = (fuel', ok)) :
    fuel'.consumed = fuel.consumed + spent cs fuel ∧ fuel'.total = fuel.total ∧
    (fuel.consumed ≤ fuel.total → fuel'.consumed ≤ fuel.total) := by
  have h1 := spend_le cs fuel
  unfold spent
  rw [h] at h1 ⊢
  dsimp only at h1 ⊢
  exact ⟨by omega, h1.2⟩

/-- An execution, with the fuel still in the machine counted as paid. -/
theorem exec_paid (hD : Metered D) {m : CostModel} (p : Prog F) : ∀ {fuel fuel' : Fuel} {st st' : St τ} {e : End},
    exec ix D p fuel st = (st', fuel', e) → Sound st.s → st.s.b.cpu.models[wasmInsnExec]? = some m →
    Mono st.s st'.s ∧ Sound st'.s ∧
    st.s.b.cpu.net + (fuel.consumed + executed ix D p fuel st) * m.constTerm ≤ st'.s.b.cpu.net + fuel'.consumed * m.constTerm := by
  induction p with
  | ret cs ty w =>
    intro fuel fuel' st st' e h hs hm
    rw [exec] at h
    rw [executed]
    rcases hsp : spend cs fuel with ⟨f1, _ | _⟩ <;>
    · rw [hsp] at h
      injection h with h1 h
      injection h with h2 h3
      subst h1 h2
      obtain ⟨e1, _⟩ := spent_eq hsp
      exact ⟨Mono.refl _, hs, by rw [e1]; exact Nat.le_refl _⟩
  | trap cs c =>
    intro fuel fuel' st st' e h hs hm
    rw [exec] at h
    rw [executed]
    rcases hsp : spend cs fuel with ⟨f1, _ | _⟩ <;>
    · rw [hsp] at h
      injection h with h1 h
      injection h with h2 h3
      subst h1 h2
      obtain ⟨e1, _⟩ := spent_eq hsp
      exact ⟨Mono.refl _, hs, by rw [e1]; exact Nat.le_refl _⟩
  | grow cs cur des mx k ih =>
    intro fuel fuel' st st' e h hs hm
    rw [exec] at h
    rw [executed]
    rcases hsp : spend cs fuel with ⟨f1, _ | _⟩
    · rw [hsp] at h
      injection h with h1 h
      injection h with h2 h3
      subst h1 h2
      obtain ⟨e1, _⟩ := spent_eq hsp
      refine ⟨Mono.refl _, hs, ?_⟩
      rw [e1]
      exact Nat.le_refl _
    · obtain ⟨e1, _⟩ := spent_eq hsp
      rw [hsp] at h
      dsimp only at h ⊢
      rcases hg : memGrowing st.s cur des mx with ⟨s1, e0 | u⟩ <;>
      · obtain ⟨g1, g2⟩ := grow_mono hg hs
        rw [hg] at h
        dsimp only at h
        obtain ⟨i1, i2, i3⟩ := ih _ h g2 (by dsimp only; rw [g1.cpuModels]; exact hm)
        refine ⟨g1.trans i1, i2, ?_⟩
        dsimp only at i3
        have := g1.cpuNet
        rw [e1] at i3
        simp only [Except.isOk, Except.toBool]
        rw [← Nat.add_assoc]
        omega
  | call cs f ws k ih =>
    intro fuel fuel' st st' e h hs hm
    rw [exec] at h
    rw [executed]
    rcases hsp : spend cs fuel with ⟨f1, _ | _⟩
    · rw [hsp] at h
      injection h with h1 h
      injection h with h2 h3
      subst h1 h2
      obtain ⟨e1, _⟩ := spent_eq hsp
      refine ⟨Mono.refl _, hs, ?_⟩
      rw [e1]
      exact Nat.le_refl _
    · obtain ⟨e1, _⟩ := spent_eq hsp
      rw [hsp] at h
      dsimp only at h ⊢
      rcases hd : hostCall ix D f ws f1 st with ⟨s1, f2, e0 | w⟩
      · rw [hd] at h
        injection h with h1 h
        injection h with h2 h3
        subst h1 h2
        obtain ⟨d1, d2, _, d4⟩ := hostCall_cases hD hd hs hm
        refine ⟨d1, d2, ?_⟩
        have := d4 _ rfl
        rw [e1] at this
        exact this
      · rw [hd] at h
        dsimp only at h ⊢
        obtain ⟨d1, d2, d3, _⟩ := hostCall_cases hD hd hs hm
        obtain ⟨i1, i2, i3⟩ := ih _ h d2 (by rw [d1.cpuModels]; exact hm)
        obtain ⟨j1, _, j3, _⟩ := d3 w rfl
        refine ⟨d1.trans i1, i2, ?_⟩
        rw [e1] at j1
        rw [j3, Nat.zero_add] at i3
        rw [← Nat.add_assoc, Nat.add_mul]
        omega

theorem callBody_cases (hD : Metered D) {m : CostModel} {st st' : St τ} (hs : Sound st.s)
    (hm : st.s.b.cpu.models[0]? = some m) {params results : List Wasm.ValTy} {body : List Nat → Prog F} {args : List Nat}
    {fuel : Fuel} (hf : addFuelToVm st.s.b ⟨0, 0⟩ = .ok fuel) (hc : checkCall params results args = none) {r : Res Nat}
    (h : callBody ix D params results body args st = (st', r)) {s1 : St τ} {f1 : Fuel} {e : End}
    (he : exec ix D (body args) fuel st = (s1, f1, e)) :
    (Faulty s1.s.b ∧ r = .error (.host .budget .internalError)) ∨
    (min u64Max (s1.s.b.cpu.net + f1.consumed * m.constTerm) ≤ st'.s.b.cpu.net ∧
      ((Over st'.s.b ∧ r = .error (.host .budget .exceededLimit)) ∨
       (¬ Over st'.s.b ∧ st'.t = s1.t ∧ r = (finishCall D e st').2))) := by
  obtain ⟨i1, i2, _⟩ := exec_paid hD _ he hs hm
  rw [callBody_eq hf hc he] at h
  rcases hrf : returnFuel f1 s1 with ⟨s2, e' | u⟩
  · obtain ⟨_, _, _, m4⟩ := returnFuel_cases hrf i2 (m := m) (by rw [i1.cpuModels]; exact hm)
    rw [hrf] at h
    injection h with h1 h2
    subst h1 h2
    rcases m4 with ⟨h, _⟩ | ⟨h, hfa⟩ | ⟨h, ho, h'⟩
    · cases h
    · injection h with h
      subst h
      exact .inl ⟨hfa, rfl⟩
    · injection h with h
      subst h
      exact .inr ⟨Nat.le_of_eq h'.symm, .inl ⟨ho, rfl⟩⟩
  · obtain ⟨k1, _, k3, m4⟩ := returnFuel_cases hrf i2 (m := m) (by rw [i1.cpuModels]; exact hm)
    rw [hrf] at h
    dsimp only at h
    have hst : st' = s2 := by
      unfold finishCall at h
      cases e <;> exact (congrArg Prod.fst h).symm
    subst hst
    rcases m4 with ⟨_, h0, h1, h2⟩ | ⟨h, _⟩ | ⟨h, _⟩
    · refine .inr ⟨by rw [h0]; exact Nat.min_le_right _ _, .inr ⟨?_, k3, by rw [h]⟩⟩
      rw [← k1.cpuLimit] at h1
      rw [← k1.memLimit] at h2
      unfold Over
      omega
    · cases h
    · cases h

/-- C64: when a call of a contract function is over, successfully or not, every instruction it has executed has been charged
to the cpu budget. -/
theorem C64_paid (hD : Metered D) {m : CostModel} {st st' : St τ} (hs : Sound st.s)
    (hm : st.s.b.cpu.models[0]? = some m) {params results : List Wasm.ValTy} {body : List Nat → Prog F} {args : List Nat}
    {fuel : Fuel} (hf : addFuelToVm st.s.b ⟨0, 0⟩ = .ok fuel) (hc : checkCall params results args = none) {r : Res Nat}
    (h : callBody ix D params results body args st = (st', r)) {s1 : St τ} {f1 : Fuel} {e : End}
    (he : exec ix D (body args) fuel st = (s1, f1, e)) (hb : ¬ Faulty s1.s.b) :
    min u64Max (st.s.b.cpu.net + executed ix D (body args) fuel st * m.constTerm) ≤ st'.s.b.cpu.net := by
  obtain ⟨_, _, i3⟩ := exec_paid hD _ he hs hm
  obtain ⟨fl, f1', f2, _⟩ := addFuel_ok hm
  rw [hf] at f1'
  injection f1' with f1'
  subst f1'
  rw [f2, Nat.zero_add] at i3
  rcases callBody_cases hD hs hm hf hc h he with ⟨h, _⟩ | ⟨h, _⟩
  · exact absurd h hb
  · revert h
    generalize u64Max = U
    omega

theorem exec_bounded (hD : Metered D) {m : CostModel} (p : Prog F) : ∀ {fuel : Fuel} {st : St τ} {net : Nat}, Sound st.s →
    st.s.b.cpu.models[wasmInsnExec]? = some m → fuel.consumed ≤ fuel.total → net ≤ st.s.b.cpu.net →
    net + fuel.total * m.constTerm ≤ max st.s.b.cpu.limit net →
    net + (fuel.consumed + executed ix D p fuel st) * m.constTerm ≤ max st.s.b.cpu.limit net := by
  have seg : ∀ {cs : List Nat} {fuel f1 : Fuel} {ok : Bool}, spend cs fuel = (f1, ok) → fuel.consumed ≤ fuel.total →
      (fuel.consumed + spent cs fuel) * m.constTerm ≤ fuel.total * m.constTerm := by
    intro cs fuel f1 ok h hle
    obtain ⟨e1, _, e3⟩ := spent_eq h
    rw [← e1]
    exact Nat.mul_le_mul_right _ (e3 hle)
  induction p with
  | ret cs ty w =>
    intro fuel st net hs hm hle hn ht
    rw [executed]
    rcases hsp : spend cs fuel with ⟨f1, b⟩
    have := seg hsp hle
    omega
  | trap cs c =>
    intro fuel st net hs hm hle hn ht
    rw [executed]
    rcases hsp : spend cs fuel with ⟨f1, b⟩
    have := seg hsp hle
    omega
  | grow cs cur des mx k ih =>
    intro fuel st net hs hm hle hn ht
    rw [executed]
    rcases hsp : spend cs fuel with ⟨f1, _ | _⟩
    · have := seg hsp hle
      dsimp only
      rw [Nat.add_zero]
      omega
    · obtain ⟨e1, e2, e3⟩ := spent_eq hsp
      dsimp only
      rcases hg : memGrowing st.s cur des mx with ⟨s1, r⟩
      obtain ⟨g1, g2⟩ := grow_mono hg hs
      have g3 := g1.cpuNet
      have := ih r.isOk (fuel := f1) (st := { st with s := s1 }) (net := net) g2 (by dsimp only; rw [g1.cpuModels]; exact hm)
        (by rw [e2]; exact e3 hle) (by dsimp only; omega) (by dsimp only; rw [g1.cpuLimit, e2]; exact ht)
      dsimp only at this ⊢
      rw [g1.cpuLimit, e1] at this
      rw [← Nat.add_assoc]
      exact this
  | call cs f ws k ih =>
    intro fuel st net hs hm hle hn ht
    rw [executed]
    rcases hsp : spend cs fuel with ⟨f1, _ | _⟩
    · have := seg hsp hle
      dsimp only
      rw [Nat.add_zero]
      omega
    · obtain ⟨e1, e2, e3⟩ := spent_eq hsp
      have sg := seg hsp hle
      dsimp only
      rcases hd : hostCall ix D f ws f1 st with ⟨s1, f2, e0 | w⟩
      · dsimp only
        rw [Nat.add_zero]
        omega
      · dsimp only
        obtain ⟨d1, d2, d3, _⟩ := hostCall_cases hD hd hs hm
        obtain ⟨j1, j2, j3, j4⟩ := d3 w rfl
        have := ih w (fuel := f2) (st := s1) (net := s1.s.b.cpu.net) d2 (by rw [d1.cpuModels]; exact hm)
          (by rw [j3]; exact Nat.zero_le _) (Nat.le_refl _) (by rw [d1.cpuLimit]; exact j4)
        rw [d1.cpuLimit, j3, Nat.zero_add] at this
        rw [e1] at j1 j2
        rw [← Nat.add_assoc, Nat.add_mul]
        omega

/-- C64: a contract never executes more instructions than the cpu budget has left when it is called. -/
theorem C64_bounded (hD : Metered D) {m : CostModel} {st : St τ} (hs : Sound st.s)
    (hm : st.s.b.cpu.models[0]? = some m) (hl : st.s.b.cpu.net ≤ st.s.b.cpu.limit) (p : Prog F) {fuel : Fuel}
    (hf : addFuelToVm st.s.b ⟨0, 0⟩ = .ok fuel) :
    executed ix D p fuel st * m.constTerm ≤ st.s.b.cpu.limit - st.s.b.cpu.net := by
  obtain ⟨fl, f1, f2, f3⟩ := addFuel_ok hm
  rw [hf] at f1
  injection f1 with f1
  subst f1
  have := exec_bounded (ix := ix) hD p hs hm (by rw [f2]; exact Nat.zero_le _) (Nat.le_refl _) f3
  rw [f2, Nat.zero_add] at this
  omega

/-! ### Results -/

/-- C64: how a call of a contract function ends, whatever its code: if the budget is used up, it fails with a budget error; if
not, it returns what its execution ended with. -/
theorem C64_outcome (hD : Metered D) {m : CostModel} {st st' : St τ} (hs : Sound st.s)
    (hm : st.s.b.cpu.models[0]? = some m) {params results : List Wasm.ValTy} {body : List Nat → Prog F} {args : List Nat}
    {fuel : Fuel} (hf : addFuelToVm st.s.b ⟨0, 0⟩ = .ok fuel) (hc : checkCall params results args = none) {r : Res Nat}
    (h : callBody ix D params results body args st = (st', r)) {s1 : St τ} {f1 : Fuel} {e : End}
    (he : exec ix D (body args) fuel st = (s1, f1, e)) (hb : ¬ Faulty s1.s.b) :
    (Over st'.s.b ∧ r = .error (.host .budget .exceededLimit)) ∨ (¬ Over st'.s.b ∧ Outcome (D.table s1.t) e r) := by
  rcases callBody_cases hD hs hm hf hc h he with ⟨h, _⟩ | ⟨_, h | ⟨h1, h2, h3⟩⟩
  · exact absurd h hb
  · exact .inl h
  · refine .inr ⟨h1, ?_⟩
    rw [h3, ← h2]
    cases e with
    | ret ty w =>
      intro v
      show takeResult _ ty w = _ ↔ _
      unfold takeResult
      by_cases hc : ty = .i64 ∧ Val.isGood w = true
      · rw [if_pos hc]
        exact ⟨fun h => ⟨hc.1, hc.2, h⟩, fun h => h.2.2⟩
      · rw [if_neg hc]
        exact ⟨(fun h => nomatch h), fun h => absurd ⟨h.1, h.2.1⟩ hc⟩
    | trap c => exact ⟨trapErr c, by cases c <;> constructor, rfl⟩
    | host e => exact rfl

/-- C64: a contract cannot go on after a failed call of a host function: whatever its code, the call of the contract fails with
the error of the host function, or with a budget error if the budget is used up. -/
theorem C64_errors_escape (hD : Metered D) {m : CostModel} {st : St τ} (hs : Sound st.s)
    (hm : st.s.b.cpu.models[0]? = some m) {params results : List Wasm.ValTy} {body : List Nat → Prog F} {args : List Nat}
    {fuel : Fuel} (hf : addFuelToVm st.s.b ⟨0, 0⟩ = .ok fuel) (hc : checkCall params results args = none)
    {cs : List Nat} {f : F} {ws : List Nat} {k : Nat → Prog F} {fuel₁ fuel₂ : Fuel} {st₁ st₂ st₃ : St τ} {vs : List Nat}
    {e : Err} (hr : Reaches ix D (body args) fuel st (.call cs f ws k) fuel₁ st₁) (hsp : spend cs fuel₁ = (fuel₂, true))
    (he : Enters ix D f ws fuel₂ st₁ vs st₂) (hcall : D.call f vs st₂ = (st₃, .error e)) :
    ∀ st' r, callBody ix D params results body args st = (st', r) → ¬ Faulty st₃.s.b →
      (Over st'.s.b ∧ r = .error (.host .budget .exceededLimit)) ∨ (¬ Over st'.s.b ∧ r = .error e) := by
  obtain ⟨i1, i2⟩ := reach_mono hD hr hs hm
  have hm1 : st₁.s.b.cpu.models[wasmInsnExec]? = some m := by rw [i1.cpuModels]; exact hm
  obtain ⟨hg, s1, s2, fl, e1, e2, e3⟩ := he
  obtain ⟨m1, m2, _, m4⟩ := returnFuel_cases e1 i2 hm1
  rcases m4 with ⟨hfl, _⟩ | ⟨m4, _⟩ | ⟨m4, _⟩
  rotate_left
  · cases m4
  · cases m4
  injection hfl with hfl
  subst hfl
  obtain ⟨a1, a2⟩ := charge_ok_mono e2 m2
  have b0 := works_mono (hD.args f ws s2) a2
  rw [e3] at b0
  have c0 := works_mono (hD.call f vs st₂) b0.2
  rw [hcall] at c0
  have k1 := ((m1.trans a1).trans b0.1).trans c0.1
  obtain ⟨fl, f1, _⟩ := addFuel_ok (b := st₃.s.b) (m := m) (by rw [k1.cpuModels]; exact hm1)
  have hd : hostCall ix D f ws fuel₂ st₁ = (st₃, fl, .error e) := by
    unfold hostCall
    rw [hg]
    dsimp only
    rw [e1]
    dsimp only
    rw [e2]
    dsimp only
    rw [e3]
    dsimp only
    unfold finishDispatch
    rw [hcall]
    dsimp only
    rw [f1]
  have hx : exec ix D (body args) fuel st = (st₃, fl, .host e) := by
    rw [exec_reaches hr, exec, hsp]
    dsimp only
    rw [hd]
  intro st' r h hb
  exact C64_outcome hD hs hm hf hc h hx hb

/-- C64: what a call by name does, once the call itself is paid for: a missing function is an error, or gives void if the caller
allows it to be missing; an export that is not a function, more than 32 arguments and a function that cannot be called with
that many values are errors, and the contract does nothing; in all other cases the function's code is executed. -/
theorem C64_call {st st₁ st₂ : St τ} {args : List Nat} (h1 : VmCall.charge ix.invokeVm st = (st₁, .ok ()))
    (h2 : D.name st₁ = (st₂, .ok ())) :
    funcCall ix D none args true st = (st₂, .ok void) ∧
    funcCall ix D none args false st = (st₂, .error (.host .wasmVm .missingValue)) ∧
    (∀ ok, funcCall ix D (some .other) args ok st = (st₂, .error (.host .wasmVm .unexpectedType))) ∧
    ∀ params results body ok,
      (args.length > 32 → funcCall ix D (some (.func params results body)) args ok st = (st₂, .error (.host .wasmVm .invalidInput))) ∧
      (args.length ≤ 32 → ¬ Callable params results args.length →
        ∃ st' e, funcCall ix D (some (.func params results body)) args ok st = (st', .error e) ∧ st'.t = st₂.t) ∧
      (args.length ≤ 32 → Callable params results args.length → checkCall params results args = none ∧
        funcCall ix D (some (.func params results body)) args ok st = callBody ix D params results body args st₂) := by
  unfold funcCall
  rw [h1]
  dsimp only
  rw [h2]
  refine ⟨by show (if true = true then _ else _) = _; rw [if_pos rfl]; rfl, rfl, fun ok => rfl, fun params results body ok => ⟨fun h => ?_, fun h hn => ?_,
    fun h hc => ⟨?_, ?_⟩⟩⟩
  · dsimp only
    rw [if_pos (show args.length > Wasm.maxVmArgs from h)]
  · dsimp only
    rw [if_neg (by show ¬ args.length > 32; omega)]
    have hck : ∃ e, checkCall params results args = some e := by
      unfold checkCall
      split
      · exact ⟨_, rfl⟩
      split
      · exact ⟨_, rfl⟩
      split
      · exact ⟨_, rfl⟩
      · rename_i h1 h2 h3
        refine absurd ⟨?_, Decidable.not_not.mp h3⟩ hn
        rw [← Decidable.not_not.mp h1]
        refine List.eq_replicate_iff.mpr ⟨rfl, fun t ht => ?_⟩
        apply Decidable.byContradiction
        intro htt
        exact h2 (List.any_eq_true.mpr ⟨t, ht, by simpa using htt⟩)
    obtain ⟨e, hck⟩ := hck
    unfold callBody
    cases hf : addFuelToVm st₂.s.b ⟨0, 0⟩ with
    | error e' => exact ⟨_, _, rfl, rfl⟩
    | ok fuel =>
      dsimp only
      rw [hck]
      dsimp only
      have ht : (returnFuel fuel st₂).1.t = st₂.t := rfl
      rcases hr : returnFuel fuel st₂ with ⟨s1, e' | f⟩
      · exact ⟨_, _, rfl, by rw [← ht, hr]⟩
      · exact ⟨_, _, rfl, by rw [← ht, hr]⟩
  · unfold checkCall
    rw [hc.1, if_neg (by simp), if_neg (by simp), if_neg (by rw [hc.2]; simp)]
  · dsimp only
    rw [if_neg (by show ¬ args.length > 32; omega)]

/-! ### The hypotheses are met -/

/-- Two host functions: one notes that it was called and returns its argument, the other fails with error 7 of the contract. -/
def exampleFns : Fns Bool Nat where
  guard _ := .ok ()
  args _ a st := (st, .ok a)
  call f a st := if f then ({ st with t := st.t + 1 }, .ok (a.headD 0)) else (st, .error (.contract 7))
  result _ v st := (st, .ok v)
  name st := (st, .ok ())
  table _ := []

def exampleVmSt : St Nat := ⟨⟨exampleBudget, []⟩, 0⟩

/-- A function that executes some instructions, calls the first host function, then the second if its argument is true, and
returns its argument. -/
def exampleBody (args : List Nat) : Prog Bool :=
  .call [3, 5] true args fun w => if w = 1 then .call [7] false [] fun _ => .ret [] .i64 w else .ret [1] .i64 w

theorem exampleFns_metered : Metered exampleFns :=
  ⟨fun _ _ _ => ⟨.skip, rfl⟩, fun f _ st => ⟨.skip, by cases f <;> rfl⟩, fun _ _ _ => ⟨.skip, rfl⟩, fun _ => ⟨.skip, rfl⟩⟩

theorem exampleVmSt_sound : Sound exampleVmSt.s := ⟨rfl, by decide, by decide, by decide⟩

example : exampleVmSt.s.b.cpu.models[wasmInsnExec]? = some ⟨4, 0⟩ ∧ addFuelToVm exampleVmSt.s.b ⟨0, 0⟩ = .ok ⟨2500, 0⟩ ∧
    checkCall [.i64] [.i64] [2] = none ∧ Callable [.i64] [.i64] 1 := ⟨rfl, rfl, rfl, rfl, rfl⟩

/-- Nine instructions at 4 each and the dispatch at 4: 40. The function was called once and the call returns void. -/
example : let r := callBody ⟨0, 0⟩ exampleFns [.i64] [.i64] exampleBody [2] exampleVmSt
    (match r.2 with | .ok v => v | _ => 0) = 2 ∧ r.1.s.b.cpu.net = 40 ∧ r.1.t = 1 ∧
    executed ⟨0, 0⟩ exampleFns (exampleBody [2]) ⟨2500, 0⟩ exampleVmSt = 9 ∧ ¬ Over r.1.s.b := by
  unfold Over
  decide +kernel

/-- The failure of the second function is reported as it is, with everything paid for. -/
example : let r := callBody ⟨0, 0⟩ exampleFns [.i64] [.i64] exampleBody [1] exampleVmSt
    (match r.2 with | .error (.contract c) => c | _ => 0) = 7 ∧ r.1.s.b.cpu.net = 68 ∧ r.1.t = 1 := by
  decide +kernel

theorem example_return {fuel : Fuel} {st : St Nat} (h : (returnFuel fuel st).2.isOk = true) :
    returnFuel fuel st = ((returnFuel fuel st).1, .ok ⟨0, 0⟩) := by
  unfold returnFuel returnFuelToHost at *
  rcases hc : st.s.b.charge wasmInsnExec fuel.consumed none with ⟨b, e | u⟩
  · rw [hc] at h
    cases h
  · rfl

theorem example_charge {st : St Nat} (h : (VmCall.charge 0 st).2.isOk = true) :
    VmCall.charge 0 st = ((VmCall.charge 0 st).1, .ok ()) := by
  rcases hc : VmCall.charge 0 st with ⟨b, e | u⟩
  · rw [hc] at h
    cases h
  · rfl

theorem example_hostCall {fuel : Fuel} (h : (match (hostCall ⟨0, 0⟩ exampleFns true [1] fuel exampleVmSt).2.2 with
      | .ok w => decide (w = 1) | .error _ => false) = true) :
    hostCall ⟨0, 0⟩ exampleFns true [1] fuel exampleVmSt = ((hostCall ⟨0, 0⟩ exampleFns true [1] fuel exampleVmSt).1,
      (hostCall ⟨0, 0⟩ exampleFns true [1] fuel exampleVmSt).2.1, .ok 1) := by
  rcases hc : hostCall ⟨0, 0⟩ exampleFns true [1] fuel exampleVmSt with ⟨b, f, e | u⟩
  · rw [hc] at h
    cases h
  · rw [hc] at h
    rw [of_decide_eq_true h]

/-- The second function is reached and entered. -/
example : ∃ fuel₁ fuel₂ st₁ st₂, Reaches ⟨0, 0⟩ exampleFns (exampleBody [1]) ⟨2500, 0⟩ exampleVmSt
      (.call [7] false [] fun _ => .ret [] .i64 1) fuel₁ st₁ ∧ spend [7] fuel₁ = (fuel₂, true) ∧
    Enters ⟨0, 0⟩ exampleFns false [] fuel₂ st₁ [] st₂ ∧ exampleFns.call false [] st₂ = (st₂, .error (.contract 7)) ∧
    ¬ Faulty st₂.s.b :=
  let r := hostCall ⟨0, 0⟩ exampleFns true [1] ⟨2500, 8⟩ exampleVmSt
  let fuel := (spend [7] r.2.1).1
  let st := (returnFuel fuel r.1).1
  ⟨r.2.1, fuel, r.1, (VmCall.charge 0 st).1, Reaches.call (w := 1) (cs := [3, 5]) (f := true) (args := [1])
      (k := fun w => if w = 1 then .call [7] false [] fun _ => .ret [] .i64 w else .ret [1] .i64 w) (fuel₁ := ⟨2500, 8⟩)
      .start rfl (example_hostCall (by decide +kernel)),
    rfl, ⟨rfl, st, (VmCall.charge 0 st).1, ⟨0, 0⟩, example_return (by decide +kernel), example_charge (by decide +kernel), rfl⟩, rfl, by
      rintro (h | h | h)
      · exact absurd (h _ rfl) (by decide)
      · cases h
      · cases h⟩

/-- A contract with more instructions than the budget stops when the fuel does, with a budget error. -/
example : let r := callBody ⟨0, 0⟩ exampleFns [.i64] [.i64] (fun _ => .ret [2000, 1000] .i64 2) [1] exampleVmSt
    (match r.2 with | .error (.host .budget .exceededLimit) => true | _ => false) = true ∧ r.1.s.b.cpu.net ≤ 10000 := by
  decide +kernel

end Soroban.Props
