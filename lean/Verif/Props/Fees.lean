import Verif.Model.Fees
import Verif.Spec.Fees
import Verif.Lemmas.Arith
/-!
C30 resource fees, C31 rent fees, C32 rent write fee.
-/
namespace Soroban.Fees
open Soroban Spec

/-! ### helpers -/

theorem fpi_eq (n : Nat) (rate inc : Int) (h : 0 ≤ (n : Int) * rate) (hm : (n : Int) * rate ≤ i64Max) (hi : 1 ≤ inc) :
    computeFeePerIncrement n rate inc = ceil (n * rate) inc := by
  unfold computeFeePerIncrement ceil
  rw [satI64_eq (by unfold i64Min; omega) hm, max_eq_left hi, divCeil_eq _ (by omega)]

theorem fpi_mono {n n' : Nat} {rate rate' inc : Int} (h0 : 0 ≤ rate) (hn : n ≤ n') (hr : rate ≤ rate') :
    computeFeePerIncrement n rate inc ≤ computeFeePerIncrement n' rate' inc := by
  unfold computeFeePerIncrement
  apply divCeil_mono (by omega)
  apply satI64_mono
  have : (n : Int) ≤ n' := by omega
  nlinarith

theorem fpi_nonneg {n : Nat} {rate inc : Int} (h0 : 0 ≤ rate) : 0 ≤ computeFeePerIncrement n rate inc :=
  divCeil_nonneg (by omega) (satI64_nonneg (by positivity))

theorem fpi_le {n : Nat} {rate inc : Int} (h0 : 0 ≤ rate) : computeFeePerIncrement n rate inc ≤ i64Max :=
  le_trans (divCeil_le_self (by omega) (satI64_nonneg (by positivity))) (satI64_range _).2

theorem ceil_nonneg {a b : Int} (h : 0 ≤ a) (hb : 0 < b) : 0 ≤ ceil a b := by
  unfold ceil; exact Int.ediv_nonneg (by omega) (by omega)

theorem le_ceil_mul {a b : Int} (hb : 0 < b) : a ≤ ceil a b * b := by
  unfold ceil; rw [← divCeil_eq a hb]; exact (divCeil_bounds a hb).1

end Soroban.Fees

namespace Soroban.Props
open Soroban Soroban.Fees Soroban.Fees.Spec

/-! ### C30 -/

/-- `Spec.ceil` is the least integer that is at least the quotient. -/
theorem C30_ceil_is_least (num den : Int) (h : 0 < den) : IsCeilOf num den (ceil num den) := by
  unfold IsCeilOf
  constructor
  · exact le_ceil_mul h
  · intro q' hq
    unfold ceil; rw [← divCeil_eq num h]; exact divCeil_least h hq

/-- For non-negative rates and a bill that fits in `i64`, both fee components are exactly the schedule's. -/
theorem C30_resource_fee_exact (r : TransactionResources) (c : FeeConfiguration) (hc : FeeConfiguration.Sane c)
    (hsize : r.transactionSizeBytes + 300 ≤ u32Max)
    (hprod : r.instructions * c.feePerInstructionIncrement ≤ i64Max ∧ r.diskReadBytes * c.feePerDiskRead1Kb ≤ i64Max ∧
      r.writeBytes * c.feePerWrite1Kb ≤ i64Max ∧
      ((r.transactionSizeBytes : Int) + 300) * c.feePerHistorical1Kb ≤ i64Max ∧
      r.transactionSizeBytes * c.feePerTransactionSize1Kb ≤ i64Max ∧
      r.contractEventsSizeBytes * c.feePerContractEvent1Kb ≤ i64Max)
    (htotal : nonRefundable r c ≤ i64Max) :
    computeTransactionResourceFee r c = (nonRefundable r c, refundable r c) := by
  obtain ⟨h1, h2, h3, h4, h5, h6, h7, h8⟩ := hc
  obtain ⟨p1, p2, p3, p4, p5, p6⟩ := hprod
  have e1 : (0:Int) ≤ r.instructions * c.feePerInstructionIncrement := by positivity
  have e2 : (0:Int) ≤ r.diskReadBytes * c.feePerDiskRead1Kb := by positivity
  have e3 : (0:Int) ≤ r.writeBytes * c.feePerWrite1Kb := by positivity
  have e4 : (0:Int) ≤ ((r.transactionSizeBytes : Int) + 300) * c.feePerHistorical1Kb := by positivity
  have e5 : (0:Int) ≤ r.transactionSizeBytes * c.feePerTransactionSize1Kb := by positivity
  have e6 : (0:Int) ≤ r.contractEventsSizeBytes * c.feePerContractEvent1Kb := by positivity
  have e7 : (0:Int) ≤ r.diskReadEntries * c.feePerDiskReadEntry := by positivity
  have e8 : (0:Int) ≤ r.writeEntries * c.feePerWriteEntry := by positivity
  have hcast : ((satAddU32 r.transactionSizeBytes txBaseResultSize : Nat) : Int) = (r.transactionSizeBytes : Int) + 300 := by
    rw [satAddU32_eq (by unfold txBaseResultSize; omega)]; unfold txBaseResultSize; push_cast; rfl
  have f1 := ceil_nonneg (b := 10000) e1 (by omega)
  have f2 := ceil_nonneg (b := 1024) e2 (by omega)
  have f3 := ceil_nonneg (b := 1024) e3 (by omega)
  have f4 := ceil_nonneg (b := 1024) e4 (by omega)
  have f5 := ceil_nonneg (b := 1024) e5 (by omega)
  unfold nonRefundable at htotal
  unfold computeTransactionResourceFee nonRefundable refundable
  have q1 := fpi_eq r.instructions c.feePerInstructionIncrement instructionsIncrement e1 p1 (by decide)
  have q2 := fpi_eq r.diskReadBytes c.feePerDiskRead1Kb dataSize1KbIncrement e2 p2 (by decide)
  have q3 := fpi_eq r.writeBytes c.feePerWrite1Kb dataSize1KbIncrement e3 p3 (by decide)
  have q4 := fpi_eq (satAddU32 r.transactionSizeBytes txBaseResultSize) c.feePerHistorical1Kb dataSize1KbIncrement
    (by rw [hcast]; exact e4) (by rw [hcast]; exact p4) (by decide)
  have q5 := fpi_eq r.transactionSizeBytes c.feePerTransactionSize1Kb dataSize1KbIncrement e5 p5 (by decide)
  have q6 := fpi_eq r.contractEventsSizeBytes c.feePerContractEvent1Kb dataSize1KbIncrement e6 p6 (by decide)
  rw [hcast] at q4
  unfold instructionsIncrement at q1
  unfold dataSize1KbIncrement at q2 q3 q4 q5 q6
  simp only [instructionsIncrement, dataSize1KbIncrement]
  rw [q1, q2, q3, q4, q5, q6, Int.mul_comm c.feePerDiskReadEntry, Int.mul_comm c.feePerWriteEntry]
  have hm : i64Min ≤ 0 := by decide
  rw [satI64_eq (x := ↑r.diskReadEntries * c.feePerDiskReadEntry) (by omega) (by omega),
    satI64_eq (x := ↑r.writeEntries * c.feePerWriteEntry) (by omega) (by omega)]
  generalize ceil (↑r.instructions * c.feePerInstructionIncrement) 10000 = a at *
  generalize ceil (↑r.diskReadBytes * c.feePerDiskRead1Kb) 1024 = d at *
  generalize ceil (↑r.writeBytes * c.feePerWrite1Kb) 1024 = e at *
  generalize ceil ((↑r.transactionSizeBytes + 300) * c.feePerHistorical1Kb) 1024 = f at *
  generalize ceil (↑r.transactionSizeBytes * c.feePerTransactionSize1Kb) 1024 = g at *
  generalize (r.diskReadEntries : Int) * c.feePerDiskReadEntry = x at *
  generalize (r.writeEntries : Int) * c.feePerWriteEntry = y at *
  rw [satI64_eq (x := a + x) (by omega) (by omega), satI64_eq (x := a + x + y) (by omega) (by omega),
    satI64_eq (x := a + x + y + d) (by omega) (by omega), satI64_eq (x := a + x + y + d + e) (by omega) (by omega),
    satI64_eq (x := a + x + y + d + e + f) (by omega) (by omega),
    satI64_eq (x := a + x + y + d + e + f + g) (by omega) (by omega)]

/-- Non-vacuity: a realistic transaction meets the hypotheses of `C30_resource_fee_exact`. -/
example : ∃ (r : TransactionResources) (c : FeeConfiguration), FeeConfiguration.Sane c ∧
    nonRefundable r c ≤ i64Max ∧ computeTransactionResourceFee r c = (9108, 11) := by
  refine ⟨⟨5000001, 2, 3, 10000, 2049, 1025, 800⟩, ⟨10, 500, 1000, 7, 11, 13, 10, 1⟩, ?_, ?_, ?_⟩
  · simp [FeeConfiguration.Sane]
  · decide
  · decide +kernel

/-- Every fee is non-negative and representable, for every resource request whatever its size. -/
theorem C30_resource_fee_nonneg (r : TransactionResources) (c : FeeConfiguration) (hc : FeeConfiguration.Sane c) :
    0 ≤ (computeTransactionResourceFee r c).1 ∧ (computeTransactionResourceFee r c).1 ≤ i64Max ∧
    0 ≤ (computeTransactionResourceFee r c).2 ∧ (computeTransactionResourceFee r c).2 ≤ i64Max := by
  obtain ⟨h1, h2, h3, h4, h5, h6, h7, h8⟩ := hc
  unfold computeTransactionResourceFee
  refine ⟨?_, (satI64_range _).2, fpi_nonneg h7, fpi_le h7⟩
  have a : (0:Int) ≤ satI64 (c.feePerDiskReadEntry * r.diskReadEntries) := satI64_nonneg (by positivity)
  have b : (0:Int) ≤ satI64 (c.feePerWriteEntry * r.writeEntries) := satI64_nonneg (by positivity)
  refine satI64_nonneg (Int.add_nonneg (satI64_nonneg (Int.add_nonneg (satI64_nonneg (Int.add_nonneg (satI64_nonneg
    (Int.add_nonneg (satI64_nonneg (Int.add_nonneg (satI64_nonneg (Int.add_nonneg ?_ a)) b)) ?_)) ?_)) ?_)) ?_)
  all_goals apply fpi_nonneg; assumption

/-- Asking for more of any resource, or raising any rate, never lowers either fee. -/
theorem C30_resource_fee_monotone (r r' : TransactionResources) (c c' : FeeConfiguration)
    (hc : FeeConfiguration.Sane c) (hr : ResourcesLe r r') (hcc : RatesLe c c') :
    (computeTransactionResourceFee r c).1 ≤ (computeTransactionResourceFee r' c').1 ∧
    (computeTransactionResourceFee r c).2 ≤ (computeTransactionResourceFee r' c').2 := by
  obtain ⟨h1, h2, h3, h4, h5, h6, h7, h8⟩ := hc
  obtain ⟨r1, r2, r3, r4, r5, r6, r7⟩ := hr
  obtain ⟨c1, c2, c3, c4, c5, c6, c7, c8⟩ := hcc
  unfold computeTransactionResourceFee
  refine ⟨?_, fpi_mono h7 r6 c7⟩
  have a : satI64 (c.feePerDiskReadEntry * r.diskReadEntries) ≤ satI64 (c'.feePerDiskReadEntry * r'.diskReadEntries) := by
    apply satI64_mono
    have : (r.diskReadEntries : Int) ≤ r'.diskReadEntries := by omega
    nlinarith
  have b : satI64 (c.feePerWriteEntry * r.writeEntries) ≤ satI64 (c'.feePerWriteEntry * r'.writeEntries) := by
    apply satI64_mono
    have : (r.writeEntries : Int) ≤ r'.writeEntries := by omega
    nlinarith
  refine satI64_mono (Int.add_le_add (satI64_mono (Int.add_le_add (satI64_mono (Int.add_le_add (satI64_mono
    (Int.add_le_add (satI64_mono (Int.add_le_add (satI64_mono (Int.add_le_add ?_ a)) b)) ?_)) ?_)) ?_)) ?_)
  all_goals first
    | exact fpi_mono (by assumption) (by assumption) (by assumption)
    | exact fpi_mono (by assumption) (satAddU32_mono r7 (le_refl _)) (by assumption)

/-- The refundable part depends on the events only, and the non-refundable part does not depend on them. -/
theorem C30_refundable_split (r : TransactionResources) (c : FeeConfiguration) (ev : Nat) :
    (computeTransactionResourceFee { r with contractEventsSizeBytes := ev } c).1
      = (computeTransactionResourceFee r c).1 ∧
    ∀ r' : TransactionResources, r'.contractEventsSizeBytes = r.contractEventsSizeBytes →
      (computeTransactionResourceFee r' c).2 = (computeTransactionResourceFee r c).2 := by
  constructor
  · rfl
  · intro r' h; simp [computeTransactionResourceFee, h]

/-- Limit of the guarantee: when `resource * rate` does not fit in `i64` the product saturates *before* the division, so
the fee is below the schedule's (and yet representable). This needs a rate above 2^31; the code documents that it
"expects sane configuration". -/
theorem C30_saturation_undercharges : ∃ (n : Nat) (rate : Int), n ≤ u32Max ∧ 0 ≤ rate ∧ rate ≤ i64Max ∧
    ceil (n * rate) instructionsIncrement ≤ i64Max ∧
    computeFeePerIncrement n rate instructionsIncrement < ceil (n * rate) instructionsIncrement :=
  ⟨4, 9223372036854775807, by decide, by decide, by decide, by decide +kernel, by decide +kernel⟩

end Soroban.Props
