import Verif.Model.Arith
/-!
Model of `soroban-env-host/src/fees.rs`.

`u32` fields are `Nat`, `i64` fields are `Int`. All arithmetic below is the saturating/ceiling arithmetic of the code; no
range is assumed by the definitions.
-/
namespace Soroban.Fees
open Soroban

/-- fees.rs:9 -/
def txBaseResultSize : Nat := 300
/-- fees.rs:11 -/
def ttlEntrySize : Nat := 48
/-- fees.rs:13 -/
def instructionsIncrement : Int := 10000
/-- fees.rs:14 -/
def dataSize1KbIncrement : Int := 1024
/-- fees.rs:17 -/
def minimumRentWriteFeePer1Kb : Int := 1000
/-- fees.rs:23 -/
def codeEntryRentDiscountFactor : Int := 3

/-- fees.rs:26-42 `TransactionResources` (all fields `u32`). -/
structure TransactionResources where
  instructions : Nat
  diskReadEntries : Nat
  writeEntries : Nat
  diskReadBytes : Nat
  writeBytes : Nat
  contractEventsSizeBytes : Nat
  transactionSizeBytes : Nat

/-- fees.rs:51-69 `FeeConfiguration` (all fields `i64`). -/
structure FeeConfiguration where
  feePerInstructionIncrement : Int
  feePerDiskReadEntry : Int
  feePerWriteEntry : Int
  feePerDiskRead1Kb : Int
  feePerWrite1Kb : Int
  feePerHistorical1Kb : Int
  feePerContractEvent1Kb : Int
  feePerTransactionSize1Kb : Int

/-- fees.rs:76-87 `RentWriteFeeConfiguration`. -/
structure RentWriteFeeConfiguration where
  stateTargetSizeBytes : Int
  rentFee1KbStateSizeLow : Int
  rentFee1KbStateSizeHigh : Int
  stateSizeRentFeeGrowthFactor : Nat

/-- fees.rs:94-111 `LedgerEntryRentChange`. -/
structure RentChange where
  isPersistent : Bool
  isCodeEntry : Bool
  oldSizeBytes : Nat
  newSizeBytes : Nat
  oldLiveUntilLedger : Nat
  newLiveUntilLedger : Nat

/-- fees.rs:120-139 `RentFeeConfiguration`. -/
structure RentFeeConfiguration where
  feePerWrite1Kb : Int
  feePerRent1Kb : Int
  feePerWriteEntry : Int
  persistentRentRateDenominator : Int
  temporaryRentRateDenominator : Int

/-- fees.rs:418-421 `compute_fee_per_increment`. -/
def computeFeePerIncrement (resourceValue : Nat) (feeRate increment : Int) : Int :=
  divCeil (satI64 ((resourceValue : Int) * feeRate)) (max increment 1)

/-- fees.rs:149-205 `compute_transaction_resource_fee`. Returns `(non_refundable, refundable)`. -/
def computeTransactionResourceFee (r : TransactionResources) (c : FeeConfiguration) : Int × Int :=
  let computeFee := computeFeePerIncrement r.instructions c.feePerInstructionIncrement instructionsIncrement
  let ledgerReadEntryFee := satI64 (c.feePerDiskReadEntry * (r.diskReadEntries : Int))
  let ledgerWriteEntryFee := satI64 (c.feePerWriteEntry * (r.writeEntries : Int))
  let ledgerReadBytesFee := computeFeePerIncrement r.diskReadBytes c.feePerDiskRead1Kb dataSize1KbIncrement
  let ledgerWriteBytesFee := computeFeePerIncrement r.writeBytes c.feePerWrite1Kb dataSize1KbIncrement
  let historicalFee := computeFeePerIncrement (satAddU32 r.transactionSizeBytes txBaseResultSize)
    c.feePerHistorical1Kb dataSize1KbIncrement
  let eventsFee := computeFeePerIncrement r.contractEventsSizeBytes c.feePerContractEvent1Kb dataSize1KbIncrement
  let bandwidthFee := computeFeePerIncrement r.transactionSizeBytes c.feePerTransactionSize1Kb dataSize1KbIncrement
  let refundableFee := eventsFee
  let nonRefundableFee :=
    satI64 (satI64 (satI64 (satI64 (satI64 (satI64 (computeFee + ledgerReadEntryFee) + ledgerWriteEntryFee)
      + ledgerReadBytesFee) + ledgerWriteBytesFee) + historicalFee) + bandwidthFee)
  (nonRefundableFee, refundableFee)

/-- fees.rs:214-226 `clamp_fee` for `i64`. -/
def clampFeeI64 (x : Int) : Int := if x < 0 then i64Max else x

/-- fees.rs:230-236 `clamp_fee` for `i128`. -/
def clampFeeI128 (x : Int) : Int := if x < 0 then i64Max else if i64Max < x then i64Max else x

/-- fees.rs:245-280 `compute_rent_write_fee_per_1kb`. -/
def computeRentWriteFeePer1Kb (sorobanStateSizeBytes : Int) (c : RentWriteFeeConfiguration) : Int :=
  let feeRateMultiplier := clampFeeI64 (satI64 (c.rentFee1KbStateSizeHigh - c.rentFee1KbStateSizeLow))
  let fee :=
    if sorobanStateSizeBytes < c.stateTargetSizeBytes then
      let f := clampFeeI128 (divCeil (satI128 (feeRateMultiplier * sorobanStateSizeBytes))
        (max c.stateTargetSizeBytes 1))
      satI64 (f + c.rentFee1KbStateSizeLow)
    else
      let after := satI64 (sorobanStateSizeBytes - c.stateTargetSizeBytes)
      let postTargetFee := clampFeeI128 (divCeil
        (satI128 (satI128 (feeRateMultiplier * after) * (c.stateSizeRentFeeGrowthFactor : Int)))
        (max c.stateTargetSizeBytes 1))
      satI64 (c.rentFee1KbStateSizeHigh + postTargetFee)
  max fee minimumRentWriteFeePer1Kb

/-- fees.rs:324-326 `exclusive_ledger_diff`. -/
def exclusiveLedgerDiff (lo hi : Nat) : Option Nat := checkedSub hi lo

/-- fees.rs:329-331 `inclusive_ledger_diff`. -/
def inclusiveLedgerDiff (lo hi : Nat) : Option Nat := (exclusiveLedgerDiff lo hi).map (satAddU32 · 1)

/-- fees.rs:334-336 `entry_is_new`. -/
def RentChange.entryIsNew (e : RentChange) : Bool := e.oldSizeBytes == 0 && e.oldLiveUntilLedger == 0

/-- fees.rs:338-345 `extension_ledgers`. -/
def RentChange.extensionLedgers (e : RentChange) (currentLedger : Nat) : Option Nat :=
  let ledgerBeforeExtension := if e.entryIsNew then currentLedger - 1 else e.oldLiveUntilLedger
  exclusiveLedgerDiff ledgerBeforeExtension e.newLiveUntilLedger

/-- fees.rs:347-353 `prepaid_ledgers`. -/
def RentChange.prepaidLedgers (e : RentChange) (currentLedger : Nat) : Option Nat :=
  if e.entryIsNew then none else inclusiveLedgerDiff currentLedger e.oldLiveUntilLedger

/-- fees.rs:355-357 `size_increase`. -/
def RentChange.sizeIncrease (e : RentChange) : Option Nat := checkedSub e.newSizeBytes e.oldSizeBytes

/-- fees.rs:397-416 `rent_fee_for_size_and_ledgers`. -/
def rentFeeForSizeAndLedgers (isPersistent : Bool) (entrySize rentLedgers : Nat) (c : RentFeeConfiguration) : Int :=
  let num := satI64 (satI64 ((entrySize : Int) * c.feePerRent1Kb) * (rentLedgers : Int))
  let storageCoef := if isPersistent then c.persistentRentRateDenominator else c.temporaryRentRateDenominator
  let denom := satI64 (dataSize1KbIncrement * storageCoef)
  divCeil num (max denom 1)

/-- fees.rs:360-395 `rent_fee_per_entry_change`. -/
def rentFeePerEntryChange (e : RentChange) (c : RentFeeConfiguration) (currentLedger : Nat) : Int :=
  let fee : Int := 0
  let fee := match e.extensionLedgers currentLedger with
    | some rentLedgers => satI64 (fee + rentFeeForSizeAndLedgers e.isPersistent e.newSizeBytes rentLedgers c)
    | none => fee
  let fee := match e.prepaidLedgers currentLedger, e.sizeIncrease with
    | some rentLedgers, some entrySize =>
        satI64 (fee + rentFeeForSizeAndLedgers e.isPersistent entrySize rentLedgers c)
    | _, _ => fee
  if e.isCodeEntry then divCeil fee codeEntryRentDiscountFactor else fee

/-- The accumulator of the loop at fees.rs:295-305: fee, number of extended entries, their key bytes. -/
structure RentAcc where
  fee : Int
  extendedEntries : Int
  extendedEntryKeySizeBytes : Nat

/-- fees.rs:298-305, one iteration of the loop. -/
def rentStep (c : RentFeeConfiguration) (currentLedgerSeq : Nat) (acc : RentAcc) (e : RentChange) : RentAcc :=
  let fee := satI64 (acc.fee + rentFeePerEntryChange e c currentLedgerSeq)
  if e.oldLiveUntilLedger < e.newLiveUntilLedger then
    { fee := fee
      extendedEntries := satI64 (acc.extendedEntries + 1)
      extendedEntryKeySizeBytes := satAddU32 acc.extendedEntryKeySizeBytes ttlEntrySize }
  else { acc with fee := fee }

/-- fees.rs:290-321 `compute_rent_fee`. -/
def computeRentFee (changedEntries : List RentChange) (c : RentFeeConfiguration) (currentLedgerSeq : Nat) : Int :=
  let acc := changedEntries.foldl (rentStep c currentLedgerSeq) ⟨0, 0, 0⟩
  let fee := satI64 (acc.fee + satI64 (c.feePerWriteEntry * acc.extendedEntries))
  satI64 (fee + computeFeePerIncrement acc.extendedEntryKeySizeBytes c.feePerWrite1Kb dataSize1KbIncrement)

end Soroban.Fees
