import Verif.Props.Fees
/-!
C31 rent fees, C32 rent write fee.
-/
namespace Soroban.Fees
open Soroban Spec

/-! ### helpers -/

/-- The denominator used by `rentFeeForSizeAndLedgers`. -/
def rdenom (p : Bool) (c : RentFeeConfiguration) : Int :=
  max (satI64 (dataSize1KbIncrement * if p then c.persistentRentRateDenominator else c.temporaryRentRateDenominator)) 1

theorem rdenom_pos (p c) : 0 < rdenom p c := by unfold rdenom; omega

theorem sat_mul_sat {a l : Int} (ha : 0 ≤ a) (hl : 0 ≤ l) : satI64 (satI64 a * l) = min (a * l) i64Max := by
  have hM : (0:Int) < i64Max := by decide
  rcases le_or_gt a i64Max with h | h
  · rw [satI64_eq (x := a) (by unfold i64Min; omega) h, satI64_eq_min (by positivity)]
  · have : satI64 a = i64Max := by rw [satI64_eq_min ha]; omega
    rw [this, satI64_eq_min (by positivity)]
    rcases eq_or_lt_of_le hl with h0 | h0
    · rw [← h0]; simp
    · rw [min_eq_right (by nlinarith), min_eq_right (by nlinarith)]

theorem R_eq (p : Bool) (s l : Nat) (c : RentFeeConfiguration) (hc : 0 ≤ c.feePerRent1Kb) :
    rentFeeForSizeAndLedgers p s l c = divCeil (min (s * c.feePerRent1Kb * l) i64Max) (rdenom p c) := by
  unfold rentFeeForSizeAndLedgers rdenom
  simp only
  rw [sat_mul_sat (by positivity) (by positivity)]

theorem R_nonneg (p : Bool) (s l : Nat) (c : RentFeeConfiguration) (hc : 0 ≤ c.feePerRent1Kb) :
    0 ≤ rentFeeForSizeAndLedgers p s l c := by
  rw [R_eq p s l c hc]
  exact divCeil_nonneg (rdenom_pos p c) (le_min (by positivity) (by decide))

theorem R_mono (p : Bool) {s s' l l' : Nat} (c : RentFeeConfiguration) (hc : 0 ≤ c.feePerRent1Kb)
    (hs : s ≤ s') (hl : l ≤ l') :
    rentFeeForSizeAndLedgers p s l c ≤ rentFeeForSizeAndLedgers p s' l' c := by
  rw [R_eq p s l c hc, R_eq p s' l' c hc]
  apply divCeil_mono (rdenom_pos p c)
  apply min_le_min_right
  have hs' : (s : Int) ≤ s' := by omega
  have hl' : (l : Int) ≤ l' := by omega
  gcongr

theorem R_zero_left (p : Bool) (l : Nat) (c : RentFeeConfiguration) (hc : 0 ≤ c.feePerRent1Kb) :
    rentFeeForSizeAndLedgers p 0 l c = 0 := by
  rw [R_eq p 0 l c hc]; simp [divCeil_zero, i64Max]

theorem R_zero_right (p : Bool) (s : Nat) (c : RentFeeConfiguration) (hc : 0 ≤ c.feePerRent1Kb) :
    rentFeeForSizeAndLedgers p s 0 c = 0 := by
  rw [R_eq p s 0 c hc]; simp [divCeil_zero, i64Max]

theorem R_add_le (p : Bool) (s l l' : Nat) (c : RentFeeConfiguration) (hc : 0 ≤ c.feePerRent1Kb) :
    rentFeeForSizeAndLedgers p s (l + l') c
      ≤ rentFeeForSizeAndLedgers p s l c + rentFeeForSizeAndLedgers p s l' c := by
  rw [R_eq p _ _ c hc, R_eq p _ _ c hc, R_eq p _ _ c hc]
  refine le_trans (divCeil_mono (rdenom_pos p c) ?_) (divCeil_add_le (rdenom_pos p c))
  have e : (s : Int) * c.feePerRent1Kb * ((l + l' : Nat) : Int)
      = s * c.feePerRent1Kb * l + s * c.feePerRent1Kb * l' := by push_cast; ring
  have h1 : (0:Int) ≤ s * c.feePerRent1Kb * l := by positivity
  have h2 : (0:Int) ≤ s * c.feePerRent1Kb * l' := by positivity
  have hM : (0:Int) < i64Max := by decide
  rw [e]; omega

/-- The two summands of `rentFeePerEntryChange`. -/
def extPart (e : RentChange) (c : RentFeeConfiguration) (cur : Nat) : Int :=
  match e.extensionLedgers cur with
  | some l => rentFeeForSizeAndLedgers e.isPersistent e.newSizeBytes l c
  | none => 0

def topPart (e : RentChange) (c : RentFeeConfiguration) (cur : Nat) : Int :=
  match e.prepaidLedgers cur, e.sizeIncrease with
  | some l, some s => rentFeeForSizeAndLedgers e.isPersistent s l c
  | _, _ => 0

theorem R_le (p : Bool) (s l : Nat) (c : RentFeeConfiguration) (hc : 0 ≤ c.feePerRent1Kb) :
    rentFeeForSizeAndLedgers p s l c ≤ i64Max := by
  rw [R_eq p s l c hc]
  exact le_trans (divCeil_le_self (rdenom_pos p c) (le_min (by positivity) (by decide))) (min_le_right _ _)

theorem ext_nonneg (e c cur) (hc : 0 ≤ c.feePerRent1Kb) : 0 ≤ extPart e c cur := by
  unfold extPart; split
  · exact R_nonneg _ _ _ _ hc
  · exact le_refl _

theorem top_nonneg (e c cur) (hc : 0 ≤ c.feePerRent1Kb) : 0 ≤ topPart e c cur := by
  unfold topPart; split
  · exact R_nonneg _ _ _ _ hc
  · exact le_refl _

theorem bill_eq {x w f : Int} (hx : 0 ≤ x) (hw : 0 ≤ w) (hf : 0 ≤ f) :
    satI64 (satI64 (min x i64Max + w) + f) = min (x + w + f) i64Max := by
  have hM : (0:Int) < i64Max := by decide
  rw [satI64_eq_min (x := min x i64Max + w) (by omega), satI64_eq_min (by omega)]; omega

/-- Sum before the code discount. -/
theorem entry_eq (e : RentChange) (c : RentFeeConfiguration) (cur : Nat) (hc : 0 ≤ c.feePerRent1Kb) :
    rentFeePerEntryChange e c cur
      = if e.isCodeEntry then divCeil (satI64 (extPart e c cur + topPart e c cur)) codeEntryRentDiscountFactor
        else satI64 (extPart e c cur + topPart e c cur) := by
  have hM : (0:Int) < i64Max := by decide
  unfold rentFeePerEntryChange extPart topPart
  have hz : satI64 0 = 0 := by decide
  have hR := fun p s l => R_nonneg p s l c hc
  have hL := fun p s l => R_le p s l c hc
  have hs : ∀ p s l, satI64 (rentFeeForSizeAndLedgers p s l c) = rentFeeForSizeAndLedgers p s l c := fun p s l =>
    satI64_eq (by have := hR p s l; unfold i64Min; omega) (hL p s l)
  simp only [Int.zero_add]
  cases h1 : e.extensionLedgers cur <;> cases h2 : e.prepaidLedgers cur <;> cases h3 : e.sizeIncrease <;>
    simp only [Int.zero_add, Int.add_zero, hs, hz]

theorem entry_nonneg (e c cur) (hc : 0 ≤ c.feePerRent1Kb) : 0 ≤ rentFeePerEntryChange e c cur := by
  rw [entry_eq _ _ _ hc]
  have h := satI64_nonneg (Int.add_nonneg (ext_nonneg e c cur hc) (top_nonneg e c cur hc))
  split
  · exact divCeil_nonneg (by decide) h
  · exact h

theorem satAddU32_eq_min (a b : Nat) : satAddU32 a b = min (a + b) u32Max := by
  unfold satAddU32; split <;> omega

theorem min_step (x n M : Nat) : min (min (x + 48) M + 48 * n) M = min (x + 48 * (n + 1)) M := by omega

/-- The fold, characterised: each accumulator component is the saturated sum. -/
theorem fold_eq (c : RentFeeConfiguration) (cur : Nat) (hc : 0 ≤ c.feePerRent1Kb) (es : List RentChange)
    (a : RentAcc) (ha : 0 ≤ a.fee ∧ a.fee ≤ i64Max) (hx : 0 ≤ a.extendedEntries ∧ a.extendedEntries ≤ i64Max)
    (hk : a.extendedEntryKeySizeBytes ≤ u32Max) :
    es.foldl (rentStep c cur) a
      = { fee := min (a.fee + (es.map (rentFeePerEntryChange · c cur)).sum) i64Max
          extendedEntries := min (a.extendedEntries + (extendedCount es : Int)) i64Max
          extendedEntryKeySizeBytes := min (a.extendedEntryKeySizeBytes + 48 * extendedCount es) u32Max } := by
  induction es generalizing a with
  | nil => cases a; simp [extendedCount] at *; omega
  | cons e es ih =>
    have he := entry_nonneg e c cur hc
    have hM : (0:Int) < i64Max := by decide
    have hf : satI64 (a.fee + rentFeePerEntryChange e c cur) = min (a.fee + rentFeePerEntryChange e c cur) i64Max :=
      satI64_eq_min (by omega)
    have hsum : 0 ≤ (es.map (rentFeePerEntryChange · c cur)).sum := by
      clear ih
      induction es with
      | nil => simp
      | cons e' es ih' => simp only [List.map_cons, List.sum_cons]; have := entry_nonneg e' c cur hc; omega
    rw [List.foldl_cons]
    by_cases hlt : e.oldLiveUntilLedger < e.newLiveUntilLedger
    · have hstep : rentStep c cur a e
          = ⟨min (a.fee + rentFeePerEntryChange e c cur) i64Max, min (a.extendedEntries + 1) i64Max,
             satAddU32 a.extendedEntryKeySizeBytes ttlEntrySize⟩ := by
        unfold rentStep; simp only [hf, if_pos hlt, satI64_eq_min (x := a.extendedEntries + 1) (by omega)]
      rw [hstep]
      have hcount : extendedCount (e :: es) = extendedCount es + 1 := by simp [extendedCount, hlt]
      rw [ih _ (by simp only; omega) (by simp only; omega) (by simp only [satAddU32_eq_min]; exact Nat.min_le_right _ _)]
      simp only [List.map_cons, List.sum_cons, hcount, satAddU32_eq_min, ttlEntrySize]
      congr 1
      · omega
      · push_cast; omega
      · exact min_step _ _ _
    · have hstep : rentStep c cur a e
          = ⟨min (a.fee + rentFeePerEntryChange e c cur) i64Max, a.extendedEntries,
             a.extendedEntryKeySizeBytes⟩ := by
        unfold rentStep; simp only [hf, if_neg hlt]
      rw [hstep]
      have hcount : extendedCount (e :: es) = extendedCount es := by simp [extendedCount, hlt]
      rw [ih _ (by simp only; omega) (by simpa using hx) (by simpa using hk)]
      simp only [List.map_cons, List.sum_cons, hcount]
      congr 1
      omega

theorem sum_entry_nonneg (c cur) (hc : 0 ≤ c.feePerRent1Kb) (es : List RentChange) :
    0 ≤ (es.map (rentFeePerEntryChange · c cur)).sum := by
  induction es with
  | nil => simp
  | cons e' es ih' => simp only [List.map_cons, List.sum_cons]; have := entry_nonneg e' c cur hc; omega

/-- Closed form of `computeRentFee`. -/
theorem computeRentFee_eq (c : RentFeeConfiguration) (cur : Nat) (hc : RentSane c) (es : List RentChange) :
    computeRentFee es c cur
      = satI64 (satI64 (min ((es.map (rentFeePerEntryChange · c cur)).sum) i64Max
          + satI64 (c.feePerWriteEntry * min (extendedCount es : Int) i64Max))
        + computeFeePerIncrement (min (48 * extendedCount es) u32Max) c.feePerWrite1Kb dataSize1KbIncrement) := by
  unfold computeRentFee
  rw [fold_eq c cur hc.2.1 es _ (by decide) (by decide) (by decide)]
  simp

theorem extendedCount_mono {es es' : List RentChange} (h : List.Forall₂ GrowsTo es es') :
    extendedCount es ≤ extendedCount es' := by
  induction h with
  | nil => exact le_refl _
  | cons h _ ih =>
    rename_i a b l l' _
    obtain ⟨_, _, _, h4, _, h6⟩ := h
    unfold extendedCount at *
    simp only [List.filter_cons]
    rw [h4]
    split <;> rename_i h1
    · have : a.oldLiveUntilLedger < b.newLiveUntilLedger := by simp at h1; omega
      simp [this]; omega
    · split
      · simp only [List.length_cons]; omega
      · exact ih

/-- Ledger up to which the entry's life was already paid. -/
def paidUpTo (e : RentChange) (cur : Nat) : Nat := if IsNew e then cur - 1 else e.oldLiveUntilLedger

theorem isNew_iff (e : RentChange) : e.entryIsNew = true ↔ IsNew e := by
  simp [RentChange.entryIsNew, IsNew]

theorem ext_eq (e : RentChange) (c : RentFeeConfiguration) (cur : Nat) :
    extPart e c cur = if paidUpTo e cur ≤ e.newLiveUntilLedger
      then rentFeeForSizeAndLedgers e.isPersistent e.newSizeBytes (e.newLiveUntilLedger - paidUpTo e cur) c else 0 := by
  unfold extPart RentChange.extensionLedgers exclusiveLedgerDiff checkedSub
  have hb : (if e.entryIsNew = true then cur - 1 else e.oldLiveUntilLedger) = paidUpTo e cur := by
    simp only [isNew_iff, paidUpTo]
  simp only [hb]
  by_cases h : paidUpTo e cur ≤ e.newLiveUntilLedger
  · simp only [if_pos h]
  · simp only [if_neg h]

theorem top_eq (e : RentChange) (c : RentFeeConfiguration) (cur : Nat) :
    topPart e c cur = if ¬ IsNew e ∧ cur ≤ e.oldLiveUntilLedger ∧ e.oldSizeBytes ≤ e.newSizeBytes
      then rentFeeForSizeAndLedgers e.isPersistent (e.newSizeBytes - e.oldSizeBytes)
        (satAddU32 (e.oldLiveUntilLedger - cur) 1) c else 0 := by
  unfold topPart RentChange.prepaidLedgers inclusiveLedgerDiff exclusiveLedgerDiff RentChange.sizeIncrease checkedSub
  simp only [isNew_iff]
  by_cases h1 : IsNew e <;> by_cases h2 : cur ≤ e.oldLiveUntilLedger <;>
    by_cases h3 : e.oldSizeBytes ≤ e.newSizeBytes <;> simp [h1, h2, h3]

theorem grow_mono (c cur) (hc : 0 ≤ c.feePerRent1Kb) {e e' : RentChange} (h : GrowsTo e e') :
    rentFeePerEntryChange e c cur ≤ rentFeePerEntryChange e' c cur := by
  obtain ⟨h1, h2, h3, h4, h5, h6⟩ := h
  have hn : IsNew e' ↔ IsNew e := by simp [IsNew, h3, h4]
  have hb : paidUpTo e' cur = paidUpTo e cur := by simp only [paidUpTo, hn, h4]
  have hx : extPart e c cur ≤ extPart e' c cur := by
    have hx' := ext_nonneg e' c cur hc
    rw [ext_eq e]
    by_cases h : paidUpTo e cur ≤ e.newLiveUntilLedger
    · rw [if_pos h, ext_eq e', hb, if_pos (by omega), h1]
      exact R_mono _ _ hc h5 (by omega)
    · rw [if_neg h]; exact hx'
  have ht : topPart e c cur ≤ topPart e' c cur := by
    have ht' := top_nonneg e' c cur hc
    rw [top_eq e]
    by_cases h : ¬ IsNew e ∧ cur ≤ e.oldLiveUntilLedger ∧ e.oldSizeBytes ≤ e.newSizeBytes
    · rw [if_pos h, top_eq e', h4, h3, if_pos ⟨fun x => h.1 (hn.1 x), h.2.1, by omega⟩, h1]
      exact R_mono _ _ hc (by omega) (le_refl _)
    · rw [if_neg h]; exact ht'
  rw [entry_eq _ _ _ hc, entry_eq _ _ _ hc, h2]
  have := satI64_mono (Int.add_le_add hx ht)
  split
  · exact divCeil_mono (by decide) this
  · exact this

theorem bill_split (c : RentFeeConfiguration) (hc : RentSane c) (k : Int) (hk : 0 ≤ k) (e e₁ e₂ : RentChange)
    (cur cur' : Nat) (h1 : e.oldLiveUntilLedger = e₁.oldLiveUntilLedger) (h2 : e₁.newLiveUntilLedger = e₂.oldLiveUntilLedger)
    (h3 : e₂.newLiveUntilLedger = e.newLiveUntilLedger)
    (hold : e₁.oldLiveUntilLedger ≤ e₁.newLiveUntilLedger) (hmid : e₂.oldLiveUntilLedger ≤ e₂.newLiveUntilLedger)
    (hentry : rentFeePerEntryChange e c cur ≤ rentFeePerEntryChange e₁ c cur + rentFeePerEntryChange e₂ c cur' + k) :
    computeRentFee [e] c cur ≤ computeRentFee [e₁] c cur + computeRentFee [e₂] c cur' + k := by
  have hr := hc.2.1
  have hM : (0:Int) < i64Max := by decide
  rw [computeRentFee_eq c _ hc, computeRentFee_eq c _ hc, computeRentFee_eq c _ hc]
  have e0 := entry_nonneg e₁ c cur hr
  have e1 := entry_nonneg e₂ c cur' hr
  have e2 := entry_nonneg e c cur hr
  have hn : ∀ x : Int, 0 ≤ x → 0 ≤ satI64 (c.feePerWriteEntry * min x i64Max) := fun x hx =>
    satI64_nonneg (mul_nonneg hc.2.2.1 (le_min hx (le_of_lt hM)))
  simp only [List.map_cons, List.map_nil, List.sum_cons, List.sum_nil, Int.add_zero]
  rw [bill_eq e0 (hn _ (Int.natCast_nonneg _)) (fpi_nonneg hc.1), bill_eq e1 (hn _ (Int.natCast_nonneg _)) (fpi_nonneg hc.1),
    bill_eq e2 (hn _ (Int.natCast_nonneg _)) (fpi_nonneg hc.1)]
  have hW := hn ((1:Nat):Int) (by decide)
  have hF : 0 ≤ computeFeePerIncrement (min (48 * 1) u32Max) c.feePerWrite1Kb dataSize1KbIncrement := fpi_nonneg hc.1
  have hW0 : satI64 (c.feePerWriteEntry * min ((0:Nat):Int) i64Max) = 0 := by simp [i64Max, satI64, i64Min]
  have hF0 : computeFeePerIncrement (min (48 * 0) u32Max) c.feePerWrite1Kb dataSize1KbIncrement = 0 := by
    simp [computeFeePerIncrement, divCeil, satI64, i64Min, i64Max]
  have hx1 : ∀ e : RentChange, extendedCount [e] = if e.oldLiveUntilLedger < e.newLiveUntilLedger then 1 else 0 := by
    intro e; unfold extendedCount; by_cases h : e.oldLiveUntilLedger < e.newLiveUntilLedger <;> simp [h]
  simp only [hx1]
  by_cases hn1 : e₁.oldLiveUntilLedger < e₁.newLiveUntilLedger <;> by_cases hn2 : e₂.oldLiveUntilLedger < e₂.newLiveUntilLedger
  all_goals
    first
      | rw [if_pos (by omega : e.oldLiveUntilLedger < e.newLiveUntilLedger)]
      | rw [if_neg (by omega : ¬ e.oldLiveUntilLedger < e.newLiveUntilLedger)]
    simp only [hn1, hn2, if_true, if_false, hW0, hF0]
    generalize computeFeePerIncrement (min (48 * 1) u32Max) c.feePerWrite1Kb dataSize1KbIncrement = F at *
    generalize satI64 (c.feePerWriteEntry * min ((1:Nat):Int) i64Max) = W at *
    omega

end Soroban.Fees

namespace Soroban.Props
open Soroban Soroban.Fees Soroban.Fees.Spec

/-! ### C31 -/

/-- The rent bill is never negative and always representable. -/
theorem C31_rent_nonneg (es : List RentChange) (c : RentFeeConfiguration) (cur : Nat) (hc : RentSane c) :
    0 ≤ computeRentFee es c cur ∧ computeRentFee es c cur ≤ i64Max := by
  rw [computeRentFee_eq c cur hc]
  refine ⟨satI64_nonneg (Int.add_nonneg (satI64_nonneg (Int.add_nonneg ?_ (satI64_nonneg ?_))) (fpi_nonneg hc.1)),
    (satI64_range _).2⟩
  · exact le_min (sum_entry_nonneg c cur hc.2.1 es) (by decide)
  · exact mul_nonneg hc.2.2.1 (le_min (by omega) (by decide))

/-- Entries that neither live longer nor grow pay nothing. -/
theorem C31_unchanged_entries_are_free (es : List RentChange) (c : RentFeeConfiguration) (cur : Nat) (hc : RentSane c)
    (h : ∀ e ∈ es, e.newLiveUntilLedger ≤ e.oldLiveUntilLedger ∧ e.newSizeBytes ≤ e.oldSizeBytes) :
    computeRentFee es c cur = 0 := by
  have h0 : ∀ e ∈ es, rentFeePerEntryChange e c cur = 0 := by
    intro e he
    obtain ⟨hl, hs⟩ := h e he
    have hx : extPart e c cur = 0 := by
      rw [ext_eq]
      split
      · rename_i hle
        unfold paidUpTo at *
        by_cases hnew : IsNew e
        · have : e.newSizeBytes = 0 := by unfold IsNew at hnew; omega
          rw [this]; exact R_zero_left _ _ _ hc.2.1
        · rw [if_neg hnew] at *
          have : e.newLiveUntilLedger - e.oldLiveUntilLedger = 0 := by omega
          rw [this]; exact R_zero_right _ _ _ hc.2.1
      · rfl
    have ht : topPart e c cur = 0 := by
      rw [top_eq]
      split
      · have : e.newSizeBytes - e.oldSizeBytes = 0 := by omega
        rw [this]; exact R_zero_left _ _ _ hc.2.1
      · rfl
    rw [entry_eq _ _ _ hc.2.1, hx, ht]; cases e.isCodeEntry <;> decide
  have hsum : (es.map (rentFeePerEntryChange · c cur)).sum = 0 := by
    rw [List.map_congr_left (g := fun _ => (0:Int)) h0]
    clear h h0
    induction es with
    | nil => rfl
    | cons _ _ ih => simp only [List.map_cons, List.sum_cons, ih]; rfl
  have hcount : extendedCount es = 0 := by
    unfold extendedCount
    simp only [List.length_eq_zero_iff, List.filter_eq_nil_iff]
    intro e he; have := (h e he).1; simp; omega
  rw [computeRentFee_eq c cur hc, hsum, hcount]
  have : computeFeePerIncrement 0 c.feePerWrite1Kb dataSize1KbIncrement = 0 := by
    simp [computeFeePerIncrement, divCeil, satI64, i64Min, i64Max]
  simp [i64Max, u32Max, this, satI64, i64Min]

/-- Growing an entry or keeping it longer never makes the bill smaller. -/
theorem C31_rent_monotone (es es' : List RentChange) (c : RentFeeConfiguration) (cur : Nat) (hc : RentSane c)
    (h : List.Forall₂ GrowsTo es es') :
    computeRentFee es c cur ≤ computeRentFee es' c cur := by
  have hsum : (es.map (rentFeePerEntryChange · c cur)).sum ≤ (es'.map (rentFeePerEntryChange · c cur)).sum := by
    induction h with
    | nil => exact le_refl _
    | cons h _ ih =>
      simp only [List.map_cons, List.sum_cons]
      exact Int.add_le_add (grow_mono c cur hc.2.1 h) ih
  have hcount := extendedCount_mono h
  rw [computeRentFee_eq c cur hc, computeRentFee_eq c cur hc]
  refine satI64_mono (Int.add_le_add (satI64_mono (Int.add_le_add ?_ (satI64_mono ?_))) (fpi_mono hc.1 ?_ (le_refl _)))
  · omega
  · exact mul_le_mul_of_nonneg_left (by omega) hc.2.2.1
  · omega

/-- Touching one more entry never makes the bill smaller. -/
theorem C31_rent_monotone_in_entries (es : List RentChange) (e : RentChange) (c : RentFeeConfiguration) (cur : Nat)
    (hc : RentSane c) : computeRentFee es c cur ≤ computeRentFee (e :: es) c cur := by
  rw [computeRentFee_eq c cur hc, computeRentFee_eq c cur hc]
  have hcount : extendedCount es ≤ extendedCount (e :: es) := by
    unfold extendedCount; simp only [List.filter_cons]; split <;> simp
  refine satI64_mono (Int.add_le_add (satI64_mono (Int.add_le_add ?_ (satI64_mono ?_))) (fpi_mono hc.1 ?_ (le_refl _)))
  · simp only [List.map_cons, List.sum_cons]; have := entry_nonneg e c cur hc.2.1; omega
  · exact mul_le_mul_of_nonneg_left (by omega) hc.2.2.1
  · omega

/-- The rent for one entry is the exact schedule, when no product overflows. -/
theorem C31_entry_rent_exact (e : RentChange) (c : RentFeeConfiguration) (cur : Nat) (hc : RentSane c)
    (hden : 1024 * c.persistentRentRateDenominator ≤ i64Max ∧ 1024 * c.temporaryRentRateDenominator ≤ i64Max)
    (hl : e.oldLiveUntilLedger < u32Max)
    (hfit : (e.newSizeBytes : Int) * c.feePerRent1Kb * (e.newLiveUntilLedger + e.oldLiveUntilLedger + 1) ≤ i64Max) :
    rentFeePerEntryChange e c cur = entryRent c cur e := by
  have hM : (0:Int) < i64Max := by decide
  obtain ⟨_, hr, _, hp, ht⟩ := hc
  have hd : rdenom e.isPersistent c
      = 1024 * if e.isPersistent then c.persistentRentRateDenominator else c.temporaryRentRateDenominator := by
    unfold rdenom dataSize1KbIncrement
    cases e.isPersistent <;> simp only [if_true, if_false, Bool.false_eq_true]
    · rw [satI64_eq (by unfold i64Min; omega) hden.2]; omega
    · rw [satI64_eq (by unfold i64Min; omega) hden.1]; omega
  have hR : ∀ s l : Nat, s ≤ e.newSizeBytes → l ≤ e.newLiveUntilLedger + e.oldLiveUntilLedger + 1 →
      rentFeeForSizeAndLedgers e.isPersistent s l c = rent c e.isPersistent s l := by
    intro s l hs hl
    rw [R_eq _ _ _ _ hr, hd]
    unfold rent Spec.ceil
    have hb : (s : Int) * c.feePerRent1Kb * l
        ≤ (e.newSizeBytes : Int) * c.feePerRent1Kb * (e.newLiveUntilLedger + e.oldLiveUntilLedger + 1) := by
      have h1 : (s : Int) ≤ e.newSizeBytes := by omega
      have h2 : (l : Int) ≤ e.newLiveUntilLedger + e.oldLiveUntilLedger + 1 := by omega
      gcongr
    rw [min_eq_left (by omega)]
    exact divCeil_eq _ (by split <;> omega)
  have hcap : ∀ s l : Nat, s ≤ e.newSizeBytes →
      rentFeeForSizeAndLedgers e.isPersistent s l c ≤ (e.newSizeBytes : Int) * c.feePerRent1Kb * l := by
    intro s l hs
    rw [R_eq _ _ _ _ hr]
    refine le_trans (divCeil_le_self (rdenom_pos _ _) (le_min (by positivity) (by decide))) ?_
    refine le_trans (min_le_left _ _) ?_
    have h1 : (s : Int) ≤ e.newSizeBytes := by omega
    gcongr
  have hx : extPart e c cur ≤ (e.newSizeBytes : Int) * c.feePerRent1Kb * e.newLiveUntilLedger := by
    rw [ext_eq]
    split
    · refine le_trans (hcap _ _ (le_refl _)) ?_
      have : ((e.newLiveUntilLedger - paidUpTo e cur : Nat) : Int) ≤ e.newLiveUntilLedger := by omega
      gcongr
    · positivity
  have htp : topPart e c cur ≤ (e.newSizeBytes : Int) * c.feePerRent1Kb * (e.oldLiveUntilLedger + 1) := by
    rw [top_eq]
    split
    · refine le_trans (hcap _ _ (by omega)) ?_
      have : ((satAddU32 (e.oldLiveUntilLedger - cur) 1 : Nat) : Int) ≤ e.oldLiveUntilLedger + 1 := by
        have h1 : satAddU32 (e.oldLiveUntilLedger - cur) 1 ≤ e.oldLiveUntilLedger + 1 := by
          rw [satAddU32_eq_min]
          exact le_trans (Nat.min_le_left _ _) (Nat.add_le_add_right (Nat.sub_le _ _) 1)
        exact_mod_cast h1
      gcongr
    · positivity
  have hsum : extPart e c cur + topPart e c cur ≤ i64Max := by
    refine le_trans (Int.add_le_add hx htp) (le_trans (le_of_eq ?_) hfit)
    ring
  have hx0 := ext_nonneg e c cur hr
  have ht0 := top_nonneg e c cur hr
  rw [entry_eq _ _ _ hr, satI64_eq (by unfold i64Min; omega) hsum, divCeil_eq _ (by decide)]
  have hxe : extPart e c cur = if paidUpTo e cur ≤ e.newLiveUntilLedger
      then rent c e.isPersistent e.newSizeBytes (e.newLiveUntilLedger - paidUpTo e cur : Int) else 0 := by
    rw [ext_eq]
    split
    · rw [hR _ _ (le_refl _) (by omega)]; congr 1; omega
    · rfl
  have hte : topPart e c cur = if ¬ IsNew e ∧ cur ≤ e.oldLiveUntilLedger ∧ e.oldSizeBytes ≤ e.newSizeBytes
      then rent c e.isPersistent (e.newSizeBytes - e.oldSizeBytes : Int) (e.oldLiveUntilLedger - cur + 1 : Int)
      else 0 := by
    rw [top_eq]
    split
    · rename_i h
      rw [satAddU32_eq (by omega), hR _ _ (by omega) (by omega)]; congr 1 <;> omega
    · rfl
  rw [hxe, hte]
  rfl

/-- A whole rent bill is the exact schedule, when no product or sum overflows. -/
theorem C31_rent_exact (es : List RentChange) (c : RentFeeConfiguration) (cur : Nat) (hc : RentSane c)
    (hden : 1024 * c.persistentRentRateDenominator ≤ i64Max ∧ 1024 * c.temporaryRentRateDenominator ≤ i64Max)
    (hl : ∀ e ∈ es, e.oldLiveUntilLedger < u32Max)
    (hfit : ∀ e ∈ es,
      (e.newSizeBytes : Int) * c.feePerRent1Kb * (e.newLiveUntilLedger + e.oldLiveUntilLedger + 1) ≤ i64Max)
    (hcount : 48 * es.length ≤ u32Max) (hwrite : (48 * es.length : Int) * c.feePerWrite1Kb ≤ i64Max)
    (htotal : totalRent c cur es ≤ i64Max) :
    computeRentFee es c cur = totalRent c cur es := by
  have hM : (0:Int) < i64Max := by decide
  have hmap : es.map (rentFeePerEntryChange · c cur) = es.map (entryRent c cur) :=
    List.map_congr_left fun e he => C31_entry_rent_exact e c cur hc hden (hl e he) (hfit e he)
  have hlen : extendedCount es ≤ es.length := List.length_filter_le _ _
  have hlen' : (extendedCount es : Int) ≤ es.length := by omega
  have hbig : (extendedCount es : Int) ≤ i64Max := by unfold u32Max at hcount; unfold i64Max; omega
  have hw : ((48 * extendedCount es : Nat) : Int) * c.feePerWrite1Kb ≤ i64Max := by
    refine le_trans ?_ hwrite
    have h1 := hc.1
    push_cast
    gcongr
  have hw0 : 0 ≤ ((48 * extendedCount es : Nat) : Int) * c.feePerWrite1Kb := mul_nonneg (by positivity) hc.1
  have hs0 := sum_entry_nonneg c cur hc.2.1 es
  have hwe : 0 ≤ c.feePerWriteEntry * (extendedCount es : Int) := mul_nonneg hc.2.2.1 (by positivity)
  rw [computeRentFee_eq c cur hc, Nat.min_eq_left (by omega), fpi_eq _ _ _ hw0 hw (by decide)]
  have hc0 : 0 ≤ Spec.ceil (((48 * extendedCount es : Nat) : Int) * c.feePerWrite1Kb) dataSize1KbIncrement :=
    ceil_nonneg hw0 (by decide)
  rw [min_eq_left hbig, hmap]
  rw [hmap] at hs0
  have hT : totalRent c cur es = (es.map (entryRent c cur)).sum + c.feePerWriteEntry * extendedCount es
      + Spec.ceil (((48 * extendedCount es : Nat) : Int) * c.feePerWrite1Kb) dataSize1KbIncrement := by
    unfold totalRent dataSize1KbIncrement; push_cast; rfl
  rw [hT] at htotal ⊢
  clear hT
  generalize Spec.ceil (((48 * extendedCount es : Nat) : Int) * c.feePerWrite1Kb) dataSize1KbIncrement = z at *
  generalize c.feePerWriteEntry * (extendedCount es : Int) = y at *
  generalize (es.map (entryRent c cur)).sum = x at *
  rw [satI64_eq (x := y) (by unfold i64Min; omega) (by omega), min_eq_left (by omega),
    satI64_eq (x := x + y) (by unfold i64Min; omega) (by omega), satI64_eq (by unfold i64Min; omega) (by omega)]

/-- A realistic bill: a persistent entry that grows and is extended, a new temporary entry, and an extended code entry. -/
example : let c : RentFeeConfiguration := ⟨4000, 2000, 10000, 2103, 4206⟩
    let es : List RentChange := [⟨true, false, 200, 400, 1000, 50000⟩, ⟨false, false, 0, 96, 0, 1700⟩,
      ⟨true, true, 30000, 30000, 1500, 90000⟩]
    computeRentFee es c 900 = totalRent c 900 es ∧ totalRent c 900 es = 870751 := by
  refine ⟨C31_rent_exact _ _ _ (by unfold RentSane; decide) (by decide) (by decide) (by decide) (by decide) (by decide) (by decide), ?_⟩
  decide

/-- Splitting an extension into two steps, the growth (if any) happening in the first, never costs less than doing it
at once. The two steps may happen at different ledgers. -/
theorem C31_split_extension_not_cheaper (c : RentFeeConfiguration) (hc : RentSane c) (persistent code : Bool)
    (oldSize size old mid new cur cur' : Nat) (hsize : 0 < size) (hold : old ≤ mid) (hmid : mid ≤ new)
    (hborn : oldSize = 0 ∧ old = 0 → cur ≤ mid + 1) :
    computeRentFee [⟨persistent, code, oldSize, size, old, new⟩] c cur
      ≤ computeRentFee [⟨persistent, code, oldSize, size, old, mid⟩] c cur
        + computeRentFee [⟨persistent, code, size, size, mid, new⟩] c cur' := by
  have hr := hc.2.1
  have hM : (0:Int) < i64Max := by decide
  have hentry : rentFeePerEntryChange ⟨persistent, code, oldSize, size, old, new⟩ c cur
      ≤ rentFeePerEntryChange ⟨persistent, code, oldSize, size, old, mid⟩ c cur
        + rentFeePerEntryChange ⟨persistent, code, size, size, mid, new⟩ c cur' := by
    have hx : extPart ⟨persistent, code, oldSize, size, old, new⟩ c cur
        ≤ extPart ⟨persistent, code, oldSize, size, old, mid⟩ c cur
          + extPart ⟨persistent, code, size, size, mid, new⟩ c cur' := by
      rw [ext_eq, ext_eq, ext_eq]
      have hb : paidUpTo ⟨persistent, code, oldSize, size, old, new⟩ cur
          = paidUpTo ⟨persistent, code, oldSize, size, old, mid⟩ cur := rfl
      have hb' : paidUpTo ⟨persistent, code, size, size, mid, new⟩ cur' = mid := by
        unfold paidUpTo; rw [if_neg]; unfold IsNew; simp only; omega
      have hle : paidUpTo ⟨persistent, code, oldSize, size, old, mid⟩ cur ≤ mid := by
        unfold paidUpTo
        by_cases hnew : IsNew ⟨persistent, code, oldSize, size, old, mid⟩
        · rw [if_pos hnew]; have := hborn hnew; omega
        · rw [if_neg hnew]; exact hold
      simp only [hb, hb']
      rw [if_pos (by omega), if_pos hle, if_pos hmid]
      have : new - paidUpTo ⟨persistent, code, oldSize, size, old, mid⟩ cur
          = (mid - paidUpTo ⟨persistent, code, oldSize, size, old, mid⟩ cur) + (new - mid) := by omega
      rw [this]
      exact R_add_le _ _ _ _ _ hr
    have ht : topPart ⟨persistent, code, oldSize, size, old, new⟩ c cur
        = topPart ⟨persistent, code, oldSize, size, old, mid⟩ c cur := rfl
    have h1 := ext_nonneg ⟨persistent, code, oldSize, size, old, mid⟩ c cur hr
    have h2 := ext_nonneg ⟨persistent, code, size, size, mid, new⟩ c cur' hr
    have h3 := top_nonneg ⟨persistent, code, oldSize, size, old, mid⟩ c cur hr
    have h4 := top_nonneg ⟨persistent, code, size, size, mid, new⟩ c cur' hr
    have h5 := ext_nonneg ⟨persistent, code, oldSize, size, old, new⟩ c cur hr
    rw [entry_eq _ _ _ hr, entry_eq _ _ _ hr, entry_eq _ _ _ hr, ht]
    have hsat : satI64 (extPart ⟨persistent, code, oldSize, size, old, new⟩ c cur
        + topPart ⟨persistent, code, oldSize, size, old, mid⟩ c cur)
        ≤ satI64 (extPart ⟨persistent, code, oldSize, size, old, mid⟩ c cur
          + topPart ⟨persistent, code, oldSize, size, old, mid⟩ c cur)
        + satI64 (extPart ⟨persistent, code, size, size, mid, new⟩ c cur'
          + topPart ⟨persistent, code, size, size, mid, new⟩ c cur') := by
      rw [satI64_eq_min (by omega), satI64_eq_min (by omega), satI64_eq_min (by omega)]; omega
    simp only
    cases code
    · exact hsat
    · exact le_trans (divCeil_mono (by decide) hsat) (divCeil_add_le (by decide))
  have := bill_split c hc 0 (le_refl _) ⟨persistent, code, oldSize, size, old, new⟩
    ⟨persistent, code, oldSize, size, old, mid⟩ ⟨persistent, code, size, size, mid, new⟩ cur cur' rfl rfl rfl hold hmid (by rw [Int.add_zero]; exact hentry)
  rwa [Int.add_zero] at this

/-- Two-step extension of a growing code entry at two different ledgers. -/
example : let c : RentFeeConfiguration := ⟨4000, 2000, 10000, 2103, 4206⟩
    computeRentFee [⟨true, true, 100, 300, 1000, 9000⟩] c 900 = 10938 ∧
    computeRentFee [⟨true, true, 100, 300, 1000, 5000⟩] c 900
      + computeRentFee [⟨true, true, 300, 300, 5000, 9000⟩] c 4000 = 21126 := by decide

/-- Splitting any growth-and-extension of an existing entry into two steps at the same ledger saves at most one stroop
(no product overflowing). -/
theorem C31_split_saves_at_most_one (c : RentFeeConfiguration) (hc : RentSane c) (persistent code : Bool)
    (oldSize midSize size old mid new cur : Nat) (hsize : 0 < oldSize)
    (hs1 : oldSize ≤ midSize) (hs2 : midSize ≤ size) (hcur : cur ≤ old) (hold : old ≤ mid) (hmid : mid ≤ new)
    (hnew : new < u32Max) (hfit : (size : Int) * c.feePerRent1Kb * (new + 1) ≤ i64Max) :
    computeRentFee [⟨persistent, code, oldSize, size, old, new⟩] c cur
      ≤ computeRentFee [⟨persistent, code, oldSize, midSize, old, mid⟩] c cur
        + computeRentFee [⟨persistent, code, midSize, size, mid, new⟩] c cur + 1 := by
  have hr := hc.2.1
  refine bill_split c hc 1 (by decide) _ _ _ cur cur rfl rfl rfl hold hmid ?_
  have hX : ∀ s s' o n : Nat, 0 < s → s' ≤ size → o ≤ n → n ≤ new →
      extPart ⟨persistent, code, s, s', o, n⟩ c cur
        = divCeil ((s' : Int) * c.feePerRent1Kb * ((n : Int) - o)) (rdenom persistent c) := by
    intro s s' o n h1 h2 h3 h4
    have hp : paidUpTo ⟨persistent, code, s, s', o, n⟩ cur = o := by
      unfold paidUpTo; rw [if_neg]; unfold IsNew; simp only; omega
    rw [ext_eq, hp, if_pos h3]
    simp only
    rw [R_eq _ _ _ _ hr]
    have hsub : ((n - o : Nat) : Int) = (n : Int) - o := by omega
    rw [hsub, min_eq_left]
    refine le_trans ?_ hfit
    have : (s' : Int) ≤ size := by omega
    have : ((n : Int) - o) ≤ new + 1 := by omega
    have : 0 ≤ (n : Int) - o := by omega
    gcongr
  have hT : ∀ s s' o n : Nat, 0 < s → s ≤ s' → s' ≤ size → cur ≤ o → o ≤ new →
      topPart ⟨persistent, code, s, s', o, n⟩ c cur
        = divCeil (((s' : Int) - s) * c.feePerRent1Kb * ((o : Int) - cur + 1)) (rdenom persistent c) := by
    intro s s' o n h1 h2 h3 h4 h5
    rw [top_eq, if_pos ⟨by unfold IsNew; simp only; omega, h4, h2⟩]
    simp only
    rw [R_eq _ _ _ _ hr, satAddU32_eq (by omega)]
    have hsub : ((o - cur + 1 : Nat) : Int) = (o : Int) - cur + 1 := by omega
    have hsub' : ((s' - s : Nat) : Int) = (s' : Int) - s := by omega
    rw [hsub, hsub', min_eq_left]
    refine le_trans ?_ hfit
    have : (s' : Int) - s ≤ size := by omega
    have : 0 ≤ (s' : Int) - s := by omega
    have : ((o : Int) - cur + 1) ≤ new + 1 := by omega
    have : 0 ≤ (o : Int) - cur + 1 := by omega
    gcongr
  have n1 := ext_nonneg ⟨persistent, code, oldSize, size, old, new⟩ c cur hr
  have n2 := top_nonneg ⟨persistent, code, oldSize, size, old, new⟩ c cur hr
  have n3 := ext_nonneg ⟨persistent, code, oldSize, midSize, old, mid⟩ c cur hr
  have n4 := top_nonneg ⟨persistent, code, oldSize, midSize, old, mid⟩ c cur hr
  have n5 := ext_nonneg ⟨persistent, code, midSize, size, mid, new⟩ c cur hr
  have n6 := top_nonneg ⟨persistent, code, midSize, size, mid, new⟩ c cur hr
  have key : extPart ⟨persistent, code, oldSize, size, old, new⟩ c cur
        + topPart ⟨persistent, code, oldSize, size, old, new⟩ c cur
      ≤ (extPart ⟨persistent, code, oldSize, midSize, old, mid⟩ c cur
        + topPart ⟨persistent, code, oldSize, midSize, old, mid⟩ c cur)
      + (extPart ⟨persistent, code, midSize, size, mid, new⟩ c cur
        + topPart ⟨persistent, code, midSize, size, mid, new⟩ c cur) + 1 := by
    rw [hX _ _ _ _ hsize (le_refl _) (by omega) (le_refl _), hX _ _ _ _ hsize hs2 hold hmid,
      hX _ _ _ _ (by omega) (le_refl _) hmid (le_refl _),
      hT _ _ _ _ hsize (by omega) (le_refl _) hcur (by omega), hT _ _ _ _ hsize hs1 hs2 hcur (by omega),
      hT _ _ _ _ (by omega) hs2 (le_refl _) (by omega) hmid]
    have hd := rdenom_pos persistent c
    have g := divCeil_add_ge (a := (size : Int) * c.feePerRent1Kb * ((new : Int) - old))
      (b := ((size : Int) - oldSize) * c.feePerRent1Kb * ((old : Int) - cur + 1)) hd
    have e : (size : Int) * c.feePerRent1Kb * ((new : Int) - old)
        + ((size : Int) - oldSize) * c.feePerRent1Kb * ((old : Int) - cur + 1)
        = ((midSize : Int) * c.feePerRent1Kb * ((mid : Int) - old)
          + ((midSize : Int) - oldSize) * c.feePerRent1Kb * ((old : Int) - cur + 1))
        + ((size : Int) * c.feePerRent1Kb * ((new : Int) - mid)
          + ((size : Int) - midSize) * c.feePerRent1Kb * ((mid : Int) - cur + 1)) := by ring
    rw [e] at g
    have g1 := divCeil_add_le (a := ((midSize : Int) * c.feePerRent1Kb * ((mid : Int) - old)
          + ((midSize : Int) - oldSize) * c.feePerRent1Kb * ((old : Int) - cur + 1)))
        (b := ((size : Int) * c.feePerRent1Kb * ((new : Int) - mid)
          + ((size : Int) - midSize) * c.feePerRent1Kb * ((mid : Int) - cur + 1))) hd
    have g2 := divCeil_add_le (a := (midSize : Int) * c.feePerRent1Kb * ((mid : Int) - old))
      (b := ((midSize : Int) - oldSize) * c.feePerRent1Kb * ((old : Int) - cur + 1)) hd
    have g3 := divCeil_add_le (a := (size : Int) * c.feePerRent1Kb * ((new : Int) - mid))
      (b := ((size : Int) - midSize) * c.feePerRent1Kb * ((mid : Int) - cur + 1)) hd
    omega
  rw [entry_eq _ _ _ hr, entry_eq _ _ _ hr, entry_eq _ _ _ hr]
  have hM : (0:Int) < i64Max := by decide
  have hsat : ∀ x y z : Int, 0 ≤ x → 0 ≤ y → 0 ≤ z → x ≤ y + z + 1 → satI64 x ≤ satI64 y + satI64 z + 1 := by
    intro x y z hx hy hz h
    rw [satI64_eq_min hx, satI64_eq_min hy, satI64_eq_min hz]; omega
  have hk := hsat _ _ _ (Int.add_nonneg n1 n2) (Int.add_nonneg n3 n4) (Int.add_nonneg n5 n6) key
  cases code
  · exact hk
  · refine le_trans (divCeil_mono (by decide) hk) ?_
    refine le_trans (divCeil_add_le (by decide)) ?_
    refine Int.add_le_add (divCeil_add_le (by decide)) (by decide)

/-- The saving of one stroop does happen: extend first, grow afterwards. -/
theorem C31_split_can_save_one : ∃ (c : RentFeeConfiguration), RentSane c ∧
    computeRentFee [⟨true, false, 1024, 1025, 10, 12⟩] c 10
      = computeRentFee [⟨true, false, 1024, 1024, 10, 12⟩] c 10
        + computeRentFee [⟨true, false, 1024, 1025, 12, 12⟩] c 10 + 1 := by
  refine ⟨⟨0, 1, 0, 1, 1⟩, by unfold RentSane; decide, by decide⟩

/-! ### C32 -/

/-- The rent write fee is at least the protocol minimum and representable, for every configuration and state size. -/
theorem C32_write_fee_bounds (size : Int) (c : RentWriteFeeConfiguration) :
    1000 ≤ computeRentWriteFeePer1Kb size c ∧ computeRentWriteFeePer1Kb size c ≤ i64Max := by
  unfold computeRentWriteFeePer1Kb minimumRentWriteFeePer1Kb
  have h : (1000:Int) ≤ i64Max := by decide
  constructor
  · exact le_max_right _ _
  · simp only
    apply max_le _ h
    split <;> exact (satI64_range _).2

theorem clamp128_mono {x y : Int} (hx : 0 ≤ x) (h : x ≤ y) : clampFeeI128 x ≤ clampFeeI128 y := by
  have hM : (0:Int) < i64Max := by decide
  unfold clampFeeI128; rw [if_neg (by omega : ¬ x < 0), if_neg (by omega : ¬ y < 0)]; split <;> split <;> omega

theorem clamp128_range {x : Int} (hx : 0 ≤ x) : 0 ≤ clampFeeI128 x ∧ clampFeeI128 x ≤ x := by
  have hM : (0:Int) < i64Max := by decide
  unfold clampFeeI128; split <;> (try split) <;> omega

theorem clamp64_mult {c : RentWriteFeeConfiguration} (hc : WriteFeeSane c) :
    clampFeeI64 (satI64 (c.rentFee1KbStateSizeHigh - c.rentFee1KbStateSizeLow))
      = c.rentFee1KbStateSizeHigh - c.rentFee1KbStateSizeLow := by
  obtain ⟨h1, h2, h3, h4, h5⟩ := hc
  rw [satI64_eq (by unfold i64Min; omega) (by omega)]; unfold clampFeeI64; rw [if_neg (by omega)]

/-- Below the target, the fee stays between the low and the high rate (continuity at the target). -/
theorem below_le {size : Int} {c : RentWriteFeeConfiguration} (hc : WriteFeeSane c) (h0 : 0 ≤ size)
    (h : size < c.stateTargetSizeBytes) :
    clampFeeI128 (divCeil (satI128 ((c.rentFee1KbStateSizeHigh - c.rentFee1KbStateSizeLow) * size))
      (max c.stateTargetSizeBytes 1)) ≤ c.rentFee1KbStateSizeHigh - c.rentFee1KbStateSizeLow := by
  obtain ⟨h1, h2, h3, h4, h5⟩ := hc
  have hnn : 0 ≤ (c.rentFee1KbStateSizeHigh - c.rentFee1KbStateSizeLow) * size := mul_nonneg (by omega) h0
  refine le_trans (clamp128_range (divCeil_nonneg (by omega) (satI128_nonneg hnn))).2 ?_
  apply divCeil_least (by omega)
  refine le_trans (satI128_le (by have : i128Min ≤ 0 := by decide
                                  omega)) ?_
  exact mul_le_mul_of_nonneg_left (by omega) (by omega)

/-- A larger state never makes the rent write fee smaller. -/
theorem C32_write_fee_monotone (size size' : Int) (c : RentWriteFeeConfiguration) (hc : WriteFeeSane c)
    (h0 : 0 ≤ size) (hle : size ≤ size') : computeRentWriteFeePer1Kb size c ≤ computeRentWriteFeePer1Kb size' c := by
  have hm := clamp64_mult hc
  unfold computeRentWriteFeePer1Kb
  simp only [hm]
  have hb := fun h => below_le (size := size) hc h0 h
  obtain ⟨h1, h2, h3, h4, h5⟩ := hc
  have hmul : 0 ≤ c.rentFee1KbStateSizeHigh - c.rentFee1KbStateSizeLow := by omega
  apply max_le_max_right
  have hT : 0 < max c.stateTargetSizeBytes 1 := by omega
  by_cases a : size < c.stateTargetSizeBytes <;> by_cases b : size' < c.stateTargetSizeBytes
  · rw [if_pos a, if_pos b]
    apply satI64_mono
    apply Int.add_le_add_right
    apply clamp128_mono
    · exact divCeil_nonneg hT (satI128_nonneg (mul_nonneg hmul h0))
    · exact divCeil_mono hT (satI128_mono (mul_le_mul_of_nonneg_left hle hmul))
  · rw [if_pos a, if_neg b]
    apply satI64_mono
    have := hb a
    have h2 : 0 ≤ clampFeeI128 (divCeil (satI128 (satI128 ((c.rentFee1KbStateSizeHigh - c.rentFee1KbStateSizeLow)
        * satI64 (size' - c.stateTargetSizeBytes)) * (c.stateSizeRentFeeGrowthFactor : Int)))
        (max c.stateTargetSizeBytes 1)) := by
      refine (clamp128_range (divCeil_nonneg hT (satI128_nonneg (mul_nonneg (satI128_nonneg (mul_nonneg hmul ?_)) ?_)))).1
      · exact satI64_nonneg (by omega)
      · positivity
    omega
  · omega
  · rw [if_neg a, if_neg b]
    apply satI64_mono
    apply Int.add_le_add_left
    apply clamp128_mono
    · refine divCeil_nonneg hT (satI128_nonneg (mul_nonneg (satI128_nonneg (mul_nonneg hmul ?_)) ?_))
      · exact satI64_nonneg (by omega)
      · positivity
    · refine divCeil_mono hT (satI128_mono (mul_le_mul_of_nonneg_right (satI128_mono
        (mul_le_mul_of_nonneg_left (satI64_mono (by omega)) hmul)) (by positivity)))

/-- The two ends of the curve below the target: the low rate for an empty state, the high rate at the target
(both floored at the minimum), and in between never outside them. -/
theorem C32_write_fee_endpoints (c : RentWriteFeeConfiguration) (hc : WriteFeeSane c) :
    computeRentWriteFeePer1Kb 0 c = max c.rentFee1KbStateSizeLow 1000 ∧
    computeRentWriteFeePer1Kb c.stateTargetSizeBytes c = max c.rentFee1KbStateSizeHigh 1000 := by
  have hm := clamp64_mult hc
  obtain ⟨h1, h2, h3, h4, h5⟩ := hc
  have hM : (0:Int) < i64Max := by decide
  have hz : clampFeeI128 0 = 0 := by decide
  have hs : satI128 0 = 0 := by decide
  have hs' : satI64 0 = 0 := by decide
  constructor
  · unfold computeRentWriteFeePer1Kb minimumRentWriteFeePer1Kb
    simp only [hm]
    rw [if_pos h1, Int.mul_zero, hs, divCeil_zero, hz, Int.zero_add, satI64_eq (by unfold i64Min; omega) (by omega)]
  · unfold computeRentWriteFeePer1Kb minimumRentWriteFeePer1Kb
    simp only [hm]
    rw [if_neg (lt_irrefl _), Int.sub_self, hs', Int.mul_zero, hs, Int.zero_mul, hs, divCeil_zero, hz, Int.add_zero,
      satI64_eq (by unfold i64Min; omega) (by omega)]

/-- The exact curve, when nothing overflows: linear up to the target, `growth` times steeper beyond it. -/
theorem C32_write_fee_exact (size : Int) (c : RentWriteFeeConfiguration) (hc : WriteFeeSane c) (h0 : 0 ≤ size)
    (hsize : size ≤ i64Max)
    (hfit : (c.rentFee1KbStateSizeHigh - c.rentFee1KbStateSizeLow) * size * (c.stateSizeRentFeeGrowthFactor + 1)
      + c.rentFee1KbStateSizeHigh ≤ i64Max) :
    computeRentWriteFeePer1Kb size c = max 1000
      (if size < c.stateTargetSizeBytes
        then c.rentFee1KbStateSizeLow
          + Spec.ceil ((c.rentFee1KbStateSizeHigh - c.rentFee1KbStateSizeLow) * size) c.stateTargetSizeBytes
        else c.rentFee1KbStateSizeHigh
          + Spec.ceil ((c.rentFee1KbStateSizeHigh - c.rentFee1KbStateSizeLow) * (size - c.stateTargetSizeBytes)
              * c.stateSizeRentFeeGrowthFactor) c.stateTargetSizeBytes) := by
  have hm := clamp64_mult hc
  obtain ⟨h1, h2, h3, h4, h5⟩ := hc
  unfold computeRentWriteFeePer1Kb minimumRentWriteFeePer1Kb
  simp only [hm]
  have hmul : 0 ≤ c.rentFee1KbStateSizeHigh - c.rentFee1KbStateSizeLow := by omega
  have hT : max c.stateTargetSizeBytes 1 = c.stateTargetSizeBytes := by omega
  have hMM : i64Max < i128Max := by decide
  have hm0 : i128Min < 0 := by decide
  rw [max_comm, hT]
  generalize hk : c.rentFee1KbStateSizeHigh - c.rentFee1KbStateSizeLow = k at *
  have hg0 : (0:Int) ≤ c.stateSizeRentFeeGrowthFactor := by positivity
  generalize (c.stateSizeRentFeeGrowthFactor : Int) = g at *
  have hks : 0 ≤ k * size := mul_nonneg hmul h0
  have hksg : k * size ≤ k * size * (g + 1) := by nlinarith
  congr 1
  split
  · rename_i a
    rw [satI128_eq (by omega) (by omega), divCeil_eq _ h1]
    have hc0 : 0 ≤ Spec.ceil (k * size) c.stateTargetSizeBytes := ceil_nonneg hks h1
    have hcle : Spec.ceil (k * size) c.stateTargetSizeBytes ≤ k * size := by
      unfold Spec.ceil; rw [← divCeil_eq _ h1]; exact divCeil_le_self h1 hks
    change satI64 (clampFeeI128 (Spec.ceil _ _) + _) = _
    have : clampFeeI128 (Spec.ceil (k * size) c.stateTargetSizeBytes) = Spec.ceil (k * size) c.stateTargetSizeBytes := by
      unfold clampFeeI128; rw [if_neg (by omega), if_neg (by omega)]
    rw [this, satI64_eq (by unfold i64Min; omega) (by omega)]
    omega
  · rename_i a
    have hd : 0 ≤ size - c.stateTargetSizeBytes := by omega
    have hkd : 0 ≤ k * (size - c.stateTargetSizeBytes) := mul_nonneg hmul hd
    have hkd' : k * (size - c.stateTargetSizeBytes) ≤ k * size := mul_le_mul_of_nonneg_left (by omega) hmul
    have hkdg : 0 ≤ k * (size - c.stateTargetSizeBytes) * g := mul_nonneg hkd hg0
    have hkdg' : k * (size - c.stateTargetSizeBytes) * g ≤ k * size * (g + 1) := by nlinarith
    rw [satI64_eq (x := size - _) (by unfold i64Min; omega) (by omega), satI128_eq (x := k * _) (by omega) (by omega),
      satI128_eq (by omega) (by omega), divCeil_eq _ h1]
    have hc0 : 0 ≤ Spec.ceil (k * (size - c.stateTargetSizeBytes) * g) c.stateTargetSizeBytes := ceil_nonneg hkdg h1
    have hcle : Spec.ceil (k * (size - c.stateTargetSizeBytes) * g) c.stateTargetSizeBytes
        ≤ k * (size - c.stateTargetSizeBytes) * g := by
      unfold Spec.ceil; rw [← divCeil_eq _ h1]; exact divCeil_le_self h1 hkdg
    change satI64 (_ + clampFeeI128 (Spec.ceil _ _)) = _
    have : clampFeeI128 (Spec.ceil (k * (size - c.stateTargetSizeBytes) * g) c.stateTargetSizeBytes)
        = Spec.ceil (k * (size - c.stateTargetSizeBytes) * g) c.stateTargetSizeBytes := by
      unfold clampFeeI128; rw [if_neg (by omega), if_neg (by omega)]
    rw [this, satI64_eq (by unfold i64Min; omega) (by omega)]

/-- Mainnet-like parameters: 3 GB target, growth factor 5000, evaluated just below, at and above the target. -/
example : let c : RentWriteFeeConfiguration := ⟨3000000000, 1200, 10000, 5000⟩
    WriteFeeSane c ∧ computeRentWriteFeePer1Kb 2999999999 c = 10000 ∧
    computeRentWriteFeePer1Kb 1500000000 c = 5600 ∧ computeRentWriteFeePer1Kb 3000000001 c = 10001 ∧
    computeRentWriteFeePer1Kb 3030000000 c = 450000 := by
  refine ⟨by unfold WriteFeeSane; decide, ?_⟩; decide

end Soroban.Props
