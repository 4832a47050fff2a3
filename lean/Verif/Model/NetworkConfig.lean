import Verif.Model.Fees
import Verif.Model.Budget
import Verif.Model.Storage
import Verif.Model.Convert
/-!
Model of soroban-simulation/src/network_config.rs: how the simulation reads the network's settings from the ledger, and the budget it
makes of them (soroban-env-host/src/budget.rs, budget/dimension.rs).

Simplifications: of the settings the model has the fields that are read; errors of the simulation crate (`anyhow`) are a single value,
as their text is all they have; wasmi's fuel costs are not modelled.
-/
namespace Soroban.NetConfig
open Soroban Soroban.Fees Soroban.Budget

/-- `ConfigSettingId`: those that are read here. -/
inductive Id where
  | compute | ledgerCost | ledgerCostExt | historicalData | events | bandwidth | stateArchival | cpuParams | memParams | sizeWindow
  deriving DecidableEq, Repr

/-- `ConfigSettingContractComputeV0` -/
structure Compute where
  feeRatePerInstructionsIncrement : Int
  txMaxInstructions : Int
  ledgerMaxInstructions : Int
  txMemoryLimit : Nat
  deriving DecidableEq, Repr

/-- `ConfigSettingContractLedgerCostV0` -/
structure LedgerCost where
  feeDiskReadLedgerEntry : Int
  feeWriteLedgerEntry : Int
  feeDiskRead1Kb : Int
  sorobanStateTargetSizeBytes : Int
  rentFee1KbSorobanStateSizeLow : Int
  rentFee1KbSorobanStateSizeHigh : Int
  sorobanStateRentFeeGrowthFactor : Nat
  deriving DecidableEq, Repr

/-- `StateArchivalSettings` -/
structure StateArchival where
  maxEntryTtl : Nat
  minTemporaryTtl : Nat
  minPersistentTtl : Nat
  persistentRentRateDenominator : Int
  tempRentRateDenominator : Int
  deriving DecidableEq, Repr

/-- `ConfigSettingEntry`. A cost parameter has a constant and a linear term. -/
inductive Setting where
  | compute (c : Compute)
  | ledgerCost (c : LedgerCost)
  | ledgerCostExt (feeWrite1Kb : Int)
  | historicalData (feeHistorical1Kb : Int)
  | events (feeContractEvents1Kb : Int)
  | bandwidth (feeTxSize1Kb : Int)
  | stateArchival (c : StateArchival)
  | cpuParams (ps : List (Int × Int))
  | memParams (ps : List (Int × Int))
  | sizeWindow (sizes : List Nat)
  | other
  deriving DecidableEq, Repr

/-- What the snapshot has under the key of a setting: it may fail, have nothing, a setting, or an entry of another kind. -/
inductive Found where
  | failed
  | missing
  | setting (s : Setting)
  | otherEntry
  deriving DecidableEq, Repr

/-- A ledger snapshot, as far as it is read here. -/
abbrev Snapshot := Id → Found

/-- network_config.rs:22-33 `NetworkConfig` -/
structure Config where
  fees : FeeConfiguration
  rent : RentFeeConfiguration
  txMaxInstructions : Int
  txMemoryLimit : Nat
  cpuParams : List (Int × Int)
  memParams : List (Int × Int)
  minTempEntryTtl : Nat
  minPersistentEntryTtl : Nat
  maxEntryTtl : Nat

/-- network_config.rs:35-54 `load_configuration_setting` -/
def loadSetting (s : Snapshot) (id : Id) : Option Setting :=
  match s id with
  | .setting c => some c
  | _ => none

/-- network_config.rs:56-66, `load_setting` for this key: what the key has must be of the case that belongs to the key. -/
def loadCompute (s : Snapshot) : Option (Compute) :=
  match loadSetting s .compute with
  | some (.compute c) => some c
  | _ => none

/-- network_config.rs:56-66, `load_setting` for this key: what the key has must be of the case that belongs to the key. -/
def loadLedgerCost (s : Snapshot) : Option (LedgerCost) :=
  match loadSetting s .ledgerCost with
  | some (.ledgerCost c) => some c
  | _ => none

/-- network_config.rs:56-66, `load_setting` for this key: what the key has must be of the case that belongs to the key. -/
def loadLedgerCostExt (s : Snapshot) : Option (Int) :=
  match loadSetting s .ledgerCostExt with
  | some (.ledgerCostExt c) => some c
  | _ => none

/-- network_config.rs:56-66, `load_setting` for this key: what the key has must be of the case that belongs to the key. -/
def loadHistoricalData (s : Snapshot) : Option (Int) :=
  match loadSetting s .historicalData with
  | some (.historicalData c) => some c
  | _ => none

/-- network_config.rs:56-66, `load_setting` for this key: what the key has must be of the case that belongs to the key. -/
def loadEvents (s : Snapshot) : Option (Int) :=
  match loadSetting s .events with
  | some (.events c) => some c
  | _ => none

/-- network_config.rs:56-66, `load_setting` for this key: what the key has must be of the case that belongs to the key. -/
def loadBandwidth (s : Snapshot) : Option (Int) :=
  match loadSetting s .bandwidth with
  | some (.bandwidth c) => some c
  | _ => none

/-- network_config.rs:56-66, `load_setting` for this key: what the key has must be of the case that belongs to the key. -/
def loadStateArchival (s : Snapshot) : Option (StateArchival) :=
  match loadSetting s .stateArchival with
  | some (.stateArchival c) => some c
  | _ => none

/-- network_config.rs:56-66, `load_setting` for this key: what the key has must be of the case that belongs to the key. -/
def loadCpuParams (s : Snapshot) : Option (List (Int × Int)) :=
  match loadSetting s .cpuParams with
  | some (.cpuParams c) => some c
  | _ => none

/-- network_config.rs:56-66, `load_setting` for this key: what the key has must be of the case that belongs to the key. -/
def loadMemParams (s : Snapshot) : Option (List (Int × Int)) :=
  match loadSetting s .memParams with
  | some (.memParams c) => some c
  | _ => none

/-- network_config.rs:56-66, `load_setting` for this key: what the key has must be of the case that belongs to the key. -/
def loadSizeWindow (s : Snapshot) : Option (List Nat) :=
  match loadSetting s .sizeWindow with
  | some (.sizeWindow c) => some c
  | _ => none

/-- network_config.rs:71-75, the sum of the sizes. -/
def sizeSum (acc : Nat) : List Nat → Nat
  | [] => acc
  | x :: xs => sizeSum (satAddU64 acc x) xs

/-- network_config.rs:68-80 `load_bucket_list_size_from_snapshot` -/
def loadStateSize (s : Snapshot) : Option Nat := do
  let w ← loadSizeWindow s
  let sum := sizeSum 0 w
  if w.isEmpty then none else some (sum / w.length)

/-- network_config.rs:87-139 `load_from_snapshot` -/
def load (s : Snapshot) : Option Config := do
  let compute ← loadCompute s
  let cost ← loadLedgerCost s
  let write1Kb ← loadLedgerCostExt s
  let historical1Kb ← loadHistoricalData s
  let events1Kb ← loadEvents s
  let txSize1Kb ← loadBandwidth s
  let archival ← loadStateArchival s
  let cpu ← loadCpuParams s
  let mem ← loadMemParams s
  let write : RentWriteFeeConfiguration :=
    { stateTargetSizeBytes := cost.sorobanStateTargetSizeBytes
      rentFee1KbStateSizeLow := cost.rentFee1KbSorobanStateSizeLow
      rentFee1KbStateSizeHigh := cost.rentFee1KbSorobanStateSizeHigh
      stateSizeRentFeeGrowthFactor := cost.sorobanStateRentFeeGrowthFactor }
  let size ← loadStateSize s
  if (size : Int) ≤ i64Max then
    some
      { fees :=
          { feePerInstructionIncrement := compute.feeRatePerInstructionsIncrement
            feePerDiskReadEntry := cost.feeDiskReadLedgerEntry
            feePerWriteEntry := cost.feeWriteLedgerEntry
            feePerDiskRead1Kb := cost.feeDiskRead1Kb
            feePerWrite1Kb := write1Kb
            feePerHistorical1Kb := historical1Kb
            feePerContractEvent1Kb := events1Kb
            feePerTransactionSize1Kb := txSize1Kb }
        rent :=
          { feePerRent1Kb := computeRentWriteFeePer1Kb size write
            feePerWrite1Kb := write1Kb
            feePerWriteEntry := cost.feeWriteLedgerEntry
            persistentRentRateDenominator := archival.persistentRentRateDenominator
            temporaryRentRateDenominator := archival.tempRentRateDenominator }
        cpuParams := cpu
        memParams := mem
        minTempEntryTtl := archival.minTemporaryTtl
        minPersistentEntryTtl := archival.minPersistentTtl
        txMaxInstructions := compute.txMaxInstructions
        txMemoryLimit := compute.txMemoryLimit
        maxEntryTtl := archival.maxEntryTtl }
  else none

/-- network_config.rs:146-150 `fill_config_fields_in_ledger_info` -/
def Config.fill (c : Config) (li : Storage.LedgerInfo) : Storage.LedgerInfo :=
  { li with minPersistent := c.minPersistentEntryTtl, minTemp := c.minTempEntryTtl, maxTtl := c.maxEntryTtl }

/-- soroban-env-host/src/budget.rs:55-161: for each cost type, in the order of `ContractCostType` (the order of the code), whether it
takes an input. -/
def kinds : List Bool :=
  [false, true, true, true, false, false, true, true, true, false, true, true, true, false, true, false, false, false, false,
   false, false, false, true, true, true, true, true, true, true, true, true, true, true, false, true, true, true, false, true,
   true, true, true, true, false, false, false, false, false, false, false, false, false, false, false, false, true, false, true,
   false, false, true, false, true, true, false, false, false, false, true, false, false, false, false, false, false, false,
   false, false, true, true, false, false, false, false, true, false]

/-- budget.rs:46-164 `default` of `BudgetTracker`: the report starts with zeros, an input only where the type takes one. -/
def newTrackers : List Tracker := kinds.map fun k => ⟨0, if k then some 0 else none, 0, 0⟩

/-- budget/dimension.rs:88-99, the loop over the parameters: `i` is the index of the next one. -/
def setModels (models : List CostModel) (i : Nat) : List (Int × Int) → Res (List CostModel)
  | [] => .ok models
  | p :: ps =>
    if i < models.length then
      match CostModel.ofParams p.1 p.2 with
      | .error e => .error e
      | .ok m => setModels (models.set i m) (i + 1) ps
    else .error (.host .budget .internalError)

/-- budget/dimension.rs:83-103 `try_from_config`, with `default` (47-58). -/
def newDim (ps : List (Int × Int)) (limit : Nat) : Res Dim :=
  match setModels (kinds.map fun _ => ⟨0, 0⟩) 0 ps with
  | .error e => .error e
  | .ok ms => .ok { models := ms, limit := limit, net := 0, peak := 0, shadowLimit := limit, shadowNet := 0 }

/-- budget.rs:210-224 `try_from_configs` of `BudgetImpl`; the depth limit is 100 (budget/limits.rs:41). -/
def newBudget (cpuLimit memLimit : Nat) (cpu mem : List (Int × Int)) : Res B :=
  match newDim cpu cpuLimit with
  | .error e => .error e
  | .ok c =>
    match newDim mem memLimit with
    | .error e => .error e
    | .ok m => .ok { cpu := c, mem := m, trackers := newTrackers, meterCount := 0, inShadow := false, depth := 100 }

/-- budget.rs:1277-1289 `try_from_configs_with_shadow_limits`, with `set_shadow_limits` (1371-1375). -/
def newBudgetWithShadow (cpuLimit memLimit cpuShadow memShadow : Nat) (cpu mem : List (Int × Int)) : Res B :=
  match newBudget cpuLimit memLimit cpu mem with
  | .error e => .error e
  | .ok b => .ok { b with cpu := { b.cpu with shadowLimit := cpuShadow }, mem := { b.mem with shadowLimit := memShadow } }

/-- network_config.rs:15-16 and 152-166 `create_budget`. The conversion `as u64` keeps the bits. -/
def Config.createBudget (c : Config) : Res B :=
  newBudgetWithShadow (asU64 c.txMaxInstructions) c.txMemoryLimit (satMulU64 (asU64 c.txMaxInstructions) 10)
    (satMulU64 c.txMemoryLimit 2) c.cpuParams c.memParams

end Soroban.NetConfig
