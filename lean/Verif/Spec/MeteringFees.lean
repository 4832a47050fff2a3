import Verif.Spec.Metering
/-!
What the fees of an invocation should be, for C80: exact arithmetic, without saturation.
-/
namespace Soroban.Metering.Spec
open Soroban Soroban.Fees Soroban.Metering

/-- `q` is `x / d`, rounded up. -/
def RoundedUp (x d q : Int) : Prop := x ≤ q * d ∧ ∀ q', x ≤ q' * d → q ≤ q'

/-- The rates: what is paid for 10000 instructions, for an entry, or for 1024 bytes. The rent for 1024 bytes is for `persistentDenom`
or `temporaryDenom` ledgers. -/
structure Rates where
  config : FeeConfiguration
  rent1Kb : Int
  persistentDenom : Int
  temporaryDenom : Int

/-- Rates that make sense: not negative, and the denominators positive and less than the greatest number in 1024-ths. -/
structure Rates.Valid (p : Rates) : Prop where
  instruction : 0 ≤ p.config.feePerInstructionIncrement
  diskReadEntry : 0 ≤ p.config.feePerDiskReadEntry
  writeEntry : 0 ≤ p.config.feePerWriteEntry
  diskRead : 0 ≤ p.config.feePerDiskRead1Kb
  write : 0 ≤ p.config.feePerWrite1Kb
  event : 0 ≤ p.config.feePerContractEvent1Kb
  historical : 0 ≤ p.config.feePerHistorical1Kb
  size : 0 ≤ p.config.feePerTransactionSize1Kb
  rent : 0 ≤ p.rent1Kb
  persistent : 0 < p.persistentDenom ∧ 1024 * p.persistentDenom ≤ i64Max
  temporary : 0 < p.temporaryDenom ∧ 1024 * p.temporaryDenom ≤ i64Max

/-- What each bump of the ledgers writes: 48 bytes. -/
def Bumps (p : Rates) (bumps fee : Int) : Prop :=
  ∃ q, RoundedUp (48 * bumps * p.config.feePerWrite1Kb) 1024 q ∧ fee = p.config.feePerWriteEntry * bumps + q

/-- No product exceeds the greatest number. -/
structure Fits (r : Resources) (p : Rates) : Prop where
  instructions : r.instructions * p.config.feePerInstructionIncrement ≤ i64Max
  entries : r.diskReadEntries + r.writeEntries ≤ 4294967295
  readEntries : p.config.feePerDiskReadEntry * (r.diskReadEntries + r.writeEntries) ≤ i64Max
  writeEntries : p.config.feePerWriteEntry * r.writeEntries ≤ i64Max
  readBytes : r.diskReadBytes * p.config.feePerDiskRead1Kb ≤ i64Max
  writeBytes : r.writeBytes * p.config.feePerWrite1Kb ≤ i64Max
  events : r.contractEventsSizeBytes * p.config.feePerContractEvent1Kb ≤ i64Max
  persistent : r.persistentRentLedgerBytes * p.rent1Kb ≤ i64Max
  temporary : r.temporaryRentLedgerBytes * p.rent1Kb ≤ i64Max
  bumpsP : p.config.feePerWriteEntry * r.persistentEntryRentBumps ≤ i64Max
  bumpsT : p.config.feePerWriteEntry * r.temporaryEntryRentBumps ≤ i64Max
  bumpBytesP : 48 * r.persistentEntryRentBumps ≤ i64Max ∧ 48 * r.persistentEntryRentBumps * p.config.feePerWrite1Kb ≤ i64Max
  bumpBytesT : 48 * r.temporaryEntryRentBumps ≤ i64Max ∧ 48 * r.temporaryEntryRentBumps * p.config.feePerWrite1Kb ≤ i64Max

/-- The resources used, the counts that are negative being taken as zero. -/
def noneNegative (r : Resources) : Resources :=
  let z : Int → Int := fun x => if x < 0 then 0 else x
  { r with
    diskReadEntries := z r.diskReadEntries
    memoryReadEntries := z r.memoryReadEntries
    writeEntries := z r.writeEntries
    diskReadBytes := z r.diskReadBytes
    writeBytes := z r.writeBytes
    contractEventsSizeBytes := z r.contractEventsSizeBytes
    persistentEntryRentBumps := z r.persistentEntryRentBumps
    temporaryEntryRentBumps := z r.temporaryEntryRentBumps }

/-- What a fee estimate should be. -/
structure IsEstimate (r : Resources) (p : Rates) (e : FeeEstimate) : Prop where
  instructions : RoundedUp (r.instructions * p.config.feePerInstructionIncrement) 10000 e.instructions
  /-- an entry that is written is also read -/
  diskReadEntries : e.diskReadEntries = p.config.feePerDiskReadEntry * (r.diskReadEntries + r.writeEntries)
  writeEntries : e.writeEntries = p.config.feePerWriteEntry * r.writeEntries
  diskReadBytes : RoundedUp (r.diskReadBytes * p.config.feePerDiskRead1Kb) 1024 e.diskReadBytes
  writeBytes : RoundedUp (r.writeBytes * p.config.feePerWrite1Kb) 1024 e.writeBytes
  contractEvents : RoundedUp (r.contractEventsSizeBytes * p.config.feePerContractEvent1Kb) 1024 e.contractEvents
  persistentEntryRent : ∃ q b, RoundedUp (r.persistentRentLedgerBytes * p.rent1Kb) (1024 * p.persistentDenom) q ∧
    Bumps p r.persistentEntryRentBumps b ∧ e.persistentEntryRent = min (q + b) i64Max
  temporaryEntryRent : ∃ q b, RoundedUp (r.temporaryRentLedgerBytes * p.rent1Kb) (1024 * p.temporaryDenom) q ∧
    Bumps p r.temporaryEntryRentBumps b ∧ e.temporaryEntryRent = min (q + b) i64Max
  total : e.total = min (e.instructions + e.diskReadEntries + e.writeEntries + e.diskReadBytes + e.writeBytes + e.contractEvents +
    e.persistentEntryRent + e.temporaryEntryRent) i64Max

end Soroban.Metering.Spec
