import Verif.Model.Fees
/-!
Specification of the fee schedule in exact integer arithmetic (no saturation): each byte- or instruction-metered resource
is charged at `rate` per `increment`, rounded up.
-/
namespace Soroban.Fees.Spec
open Soroban

/-- `q` is the least integer that is at least `num / den`. -/
def IsCeilOf (num den q : Int) : Prop := num ≤ q * den ∧ ∀ q' : Int, num ≤ q' * den → q ≤ q'

/-- Closed form of the ceiling (shown to satisfy `IsCeilOf` in `Props/Fees.lean`). -/
def ceil (num den : Int) : Int := (num + den - 1) / den

/-- Exact non-refundable fee. -/
def nonRefundable (r : TransactionResources) (c : FeeConfiguration) : Int :=
  ceil (r.instructions * c.feePerInstructionIncrement) 10000
  + r.diskReadEntries * c.feePerDiskReadEntry
  + r.writeEntries * c.feePerWriteEntry
  + ceil (r.diskReadBytes * c.feePerDiskRead1Kb) 1024
  + ceil (r.writeBytes * c.feePerWrite1Kb) 1024
  + ceil ((r.transactionSizeBytes + 300) * c.feePerHistorical1Kb) 1024
  + ceil (r.transactionSizeBytes * c.feePerTransactionSize1Kb) 1024

/-- Exact refundable fee: only the contract events. -/
def refundable (r : TransactionResources) (c : FeeConfiguration) : Int :=
  ceil (r.contractEventsSizeBytes * c.feePerContractEvent1Kb) 1024

/-- All rates are non-negative (the "sane configuration" the code asks for). -/
def FeeConfiguration.Sane (c : FeeConfiguration) : Prop :=
  0 ≤ c.feePerInstructionIncrement ∧ 0 ≤ c.feePerDiskReadEntry ∧ 0 ≤ c.feePerWriteEntry ∧
  0 ≤ c.feePerDiskRead1Kb ∧ 0 ≤ c.feePerWrite1Kb ∧ 0 ≤ c.feePerHistorical1Kb ∧
  0 ≤ c.feePerContractEvent1Kb ∧ 0 ≤ c.feePerTransactionSize1Kb

/-- Every resource of `r` is at most that of `r'`. -/
def ResourcesLe (r r' : TransactionResources) : Prop :=
  r.instructions ≤ r'.instructions ∧ r.diskReadEntries ≤ r'.diskReadEntries ∧ r.writeEntries ≤ r'.writeEntries ∧
  r.diskReadBytes ≤ r'.diskReadBytes ∧ r.writeBytes ≤ r'.writeBytes ∧
  r.contractEventsSizeBytes ≤ r'.contractEventsSizeBytes ∧ r.transactionSizeBytes ≤ r'.transactionSizeBytes

/-- Every rate of `c` is at most that of `c'`. -/
def RatesLe (c c' : FeeConfiguration) : Prop :=
  c.feePerInstructionIncrement ≤ c'.feePerInstructionIncrement ∧ c.feePerDiskReadEntry ≤ c'.feePerDiskReadEntry ∧
  c.feePerWriteEntry ≤ c'.feePerWriteEntry ∧ c.feePerDiskRead1Kb ≤ c'.feePerDiskRead1Kb ∧
  c.feePerWrite1Kb ≤ c'.feePerWrite1Kb ∧ c.feePerHistorical1Kb ≤ c'.feePerHistorical1Kb ∧
  c.feePerContractEvent1Kb ≤ c'.feePerContractEvent1Kb ∧ c.feePerTransactionSize1Kb ≤ c'.feePerTransactionSize1Kb

/-- Rent configuration with non-negative rates and positive denominators. -/
def RentSane (c : RentFeeConfiguration) : Prop :=
  0 ≤ c.feePerWrite1Kb ∧ 0 ≤ c.feePerRent1Kb ∧ 0 ≤ c.feePerWriteEntry ∧
  0 < c.persistentRentRateDenominator ∧ 0 < c.temporaryRentRateDenominator

/-- Exact rent for holding `size` bytes for `ledgers` ledgers: `size * rate * ledgers / (1024 * denominator)`, rounded up. -/
def rent (c : RentFeeConfiguration) (persistent : Bool) (size ledgers : Int) : Int :=
  ceil (size * c.feePerRent1Kb * ledgers)
    (1024 * if persistent then c.persistentRentRateDenominator else c.temporaryRentRateDenominator)

end Soroban.Fees.Spec

namespace Soroban.Fees.Spec

/-- An entry that did not exist before. -/
def IsNew (e : RentChange) : Prop := e.oldSizeBytes = 0 ∧ e.oldLiveUntilLedger = 0

instance (e : RentChange) : Decidable (IsNew e) := by unfold IsNew; infer_instance

/-- Exact rent for one entry change at ledger `cur`: the ledgers added to its life are paid at the new size; the ledgers
already paid for (from `cur` on) are topped up for the size increase; code entries get a third, rounded up. -/
def entryRent (c : RentFeeConfiguration) (cur : Nat) (e : RentChange) : Int :=
  let paidUpTo : Nat := if IsNew e then cur - 1 else e.oldLiveUntilLedger
  let extension := if paidUpTo ≤ e.newLiveUntilLedger
    then rent c e.isPersistent e.newSizeBytes (e.newLiveUntilLedger - paidUpTo : Int) else 0
  let topUp := if ¬ IsNew e ∧ cur ≤ e.oldLiveUntilLedger ∧ e.oldSizeBytes ≤ e.newSizeBytes
    then rent c e.isPersistent (e.newSizeBytes - e.oldSizeBytes : Int) (e.oldLiveUntilLedger - cur + 1 : Int) else 0
  if e.isCodeEntry then ceil (extension + topUp) 3 else extension + topUp

/-- The number of entries whose life was extended. -/
def extendedCount (es : List RentChange) : Nat :=
  (es.filter fun e => e.oldLiveUntilLedger < e.newLiveUntilLedger).length

/-- Exact rent bill: the entries' rents, plus one ledger write of a 48-byte TTL record per extended entry. -/
def totalRent (c : RentFeeConfiguration) (cur : Nat) (es : List RentChange) : Int :=
  (es.map (entryRent c cur)).sum + c.feePerWriteEntry * extendedCount es
    + ceil ((48 * extendedCount es : Int) * c.feePerWrite1Kb) 1024

/-- `e'` is the same change except that it leaves the entry at least as large and alive at least as long. -/
def GrowsTo (e e' : RentChange) : Prop :=
  e'.isPersistent = e.isPersistent ∧ e'.isCodeEntry = e.isCodeEntry ∧ e'.oldSizeBytes = e.oldSizeBytes ∧
  e'.oldLiveUntilLedger = e.oldLiveUntilLedger ∧ e.newSizeBytes ≤ e'.newSizeBytes ∧
  e.newLiveUntilLedger ≤ e'.newLiveUntilLedger

/-- Rent-write-fee configuration with ordered non-negative rates and a positive target. -/
def WriteFeeSane (c : RentWriteFeeConfiguration) : Prop :=
  0 < c.stateTargetSizeBytes ∧ c.stateTargetSizeBytes ≤ i64Max ∧ 0 ≤ c.rentFee1KbStateSizeLow ∧
  c.rentFee1KbStateSizeLow ≤ c.rentFee1KbStateSizeHigh ∧ c.rentFee1KbStateSizeHigh ≤ i64Max

end Soroban.Fees.Spec
