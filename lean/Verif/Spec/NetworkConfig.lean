import Verif.Model.NetworkConfig
import Verif.Spec.Fees
/-! The settings of a network, and what they mean for fees, rent, time to live and the budget. -/
namespace Soroban.NetConfig.Spec
open Soroban Soroban.Fees Soroban.Fees.Spec Soroban.Budget

/-- The settings. -/
structure Network where
  compute : Compute
  cost : LedgerCost
  write1Kb : Int
  historical1Kb : Int
  events1Kb : Int
  txSize1Kb : Int
  archival : StateArchival
  cpuParams : List (Int × Int)
  memParams : List (Int × Int)
  sizes : List Nat

/-- The ledger has these settings, each under its key. -/
def Holds (s : Snapshot) (n : Network) : Prop :=
  s .compute = .setting (.compute n.compute) ∧ s .ledgerCost = .setting (.ledgerCost n.cost) ∧
  s .ledgerCostExt = .setting (.ledgerCostExt n.write1Kb) ∧ s .historicalData = .setting (.historicalData n.historical1Kb) ∧
  s .events = .setting (.events n.events1Kb) ∧ s .bandwidth = .setting (.bandwidth n.txSize1Kb) ∧
  s .stateArchival = .setting (.stateArchival n.archival) ∧ s .cpuParams = .setting (.cpuParams n.cpuParams) ∧
  s .memParams = .setting (.memParams n.memParams) ∧ s .sizeWindow = .setting (.sizeWindow n.sizes)

/-- The average of the sizes of the state in the window, rounded down. -/
def averageSize (n : Network) : Nat := n.sizes.sum / n.sizes.length

/-- The fee of a transaction that is not refunded. -/
def fee (n : Network) (r : TransactionResources) : Int :=
  ceil (r.instructions * n.compute.feeRatePerInstructionsIncrement) 10000
  + r.diskReadEntries * n.cost.feeDiskReadLedgerEntry
  + r.writeEntries * n.cost.feeWriteLedgerEntry
  + ceil (r.diskReadBytes * n.cost.feeDiskRead1Kb) 1024
  + ceil (r.writeBytes * n.write1Kb) 1024
  + ceil ((r.transactionSizeBytes + 300) * n.historical1Kb) 1024
  + ceil (r.transactionSizeBytes * n.txSize1Kb) 1024

/-- The part that may be refunded: the events. -/
def refundable (n : Network) (r : TransactionResources) : Int := ceil (r.contractEventsSizeBytes * n.events1Kb) 1024

/-- No fee of the network is negative. -/
def FeesSane (n : Network) : Prop :=
  0 ≤ n.compute.feeRatePerInstructionsIncrement ∧ 0 ≤ n.cost.feeDiskReadLedgerEntry ∧ 0 ≤ n.cost.feeWriteLedgerEntry ∧
  0 ≤ n.cost.feeDiskRead1Kb ∧ 0 ≤ n.write1Kb ∧ 0 ≤ n.historical1Kb ∧ 0 ≤ n.events1Kb ∧ 0 ≤ n.txSize1Kb

/-- The bill fits its type. -/
def FeesFit (n : Network) (r : TransactionResources) : Prop :=
  r.transactionSizeBytes + 300 ≤ u32Max ∧ r.instructions * n.compute.feeRatePerInstructionsIncrement ≤ i64Max ∧
  r.diskReadBytes * n.cost.feeDiskRead1Kb ≤ i64Max ∧ r.writeBytes * n.write1Kb ≤ i64Max ∧
  ((r.transactionSizeBytes : Int) + 300) * n.historical1Kb ≤ i64Max ∧ r.transactionSizeBytes * n.txSize1Kb ≤ i64Max ∧
  r.contractEventsSizeBytes * n.events1Kb ≤ i64Max ∧ fee n r ≤ i64Max

/-- The rent for a kilobyte, by the size of the state: it grows from the low fee to the high one at the target, and then by the growth
factor as fast; it is 1000 at least. -/
def rentFee (n : Network) : Int :=
  let c := n.cost
  let size : Int := averageSize n
  let span := c.rentFee1KbSorobanStateSizeHigh - c.rentFee1KbSorobanStateSizeLow
  max 1000
    (if size < c.sorobanStateTargetSizeBytes then
      c.rentFee1KbSorobanStateSizeLow + ceil (span * size) c.sorobanStateTargetSizeBytes
    else
      c.rentFee1KbSorobanStateSizeHigh +
        ceil (span * (size - c.sorobanStateTargetSizeBytes) * c.sorobanStateRentFeeGrowthFactor) c.sorobanStateTargetSizeBytes)

/-- The rent settings make sense and the rent fits its type. -/
def RentFits (n : Network) : Prop :=
  0 < n.cost.sorobanStateTargetSizeBytes ∧ n.cost.sorobanStateTargetSizeBytes ≤ i64Max ∧ 0 ≤ n.cost.rentFee1KbSorobanStateSizeLow ∧
  n.cost.rentFee1KbSorobanStateSizeLow ≤ n.cost.rentFee1KbSorobanStateSizeHigh ∧ n.cost.rentFee1KbSorobanStateSizeHigh ≤ i64Max ∧
  (n.cost.rentFee1KbSorobanStateSizeHigh - n.cost.rentFee1KbSorobanStateSizeLow) * averageSize n *
    (n.cost.sorobanStateRentFeeGrowthFactor + 1) + n.cost.rentFee1KbSorobanStateSizeHigh ≤ i64Max

/-- The cost of `k` times the work of type `ty` on an input, from parameters: the constant and a 128th of the linear term for each unit of
input; types without parameters cost nothing. -/
def costOf (ps : List (Int × Int)) (ty k : Nat) (input : Option Nat) : Int :=
  let p := ps.getD ty (0, 0)
  match input with
  | none => k * p.1
  | some x => k * p.1 + k * p.2 * x / 128

/-- Parameters a budget can be made of: one for each type at most, and not negative. -/
def ParamsOk (ps : List (Int × Int)) : Prop := ps.length ≤ 86 ∧ ∀ p ∈ ps, 0 ≤ p.1 ∧ 0 ≤ p.2

/-- The cost types, by number, whose cost depends on an amount of input: allocating, copying and comparing memory; writing and reading
XDR; hashing and verifying; starting code; drawing random bytes; the parts of parsing code and of instantiating it except instructions
and types; the sums and pairings of many points, hashing to points and powers of scalars. Each of the other types has a cost per use. -/
def perInput : List Nat :=
  [1, 2, 3, 6, 7, 8, 10, 11, 12, 14, 22, 23, 24, 25, 26, 27, 28, 29, 30, 31, 32, 34, 35, 36, 38, 39, 40, 41, 42, 55, 57, 60, 62, 63,
   68, 78, 79, 84]

end Soroban.NetConfig.Spec
