import Verif.Spec.NetworkConfig
import Verif.Props.Rent
import Verif.Props.Budget
/-! C87: the simulation uses the network's settings. -/
namespace Soroban.NetConfig
open Soroban Soroban.Fees Soroban.Budget Soroban.NetConfig.Spec

theorem loadSetting_iff {s : Snapshot} {id : Id} {c : Setting} : loadSetting s id = some c ↔ s id = .setting c := by
  unfold loadSetting
  cases s id <;> simp

section
variable {s : Snapshot}

theorem loadCompute_iff {c : Compute} : loadCompute s = some c ↔ s .compute = .setting (.compute c) := by
  unfold loadCompute
  rw [← loadSetting_iff]
  split <;> simp_all

theorem loadLedgerCost_iff {c : LedgerCost} : loadLedgerCost s = some c ↔ s .ledgerCost = .setting (.ledgerCost c) := by
  unfold loadLedgerCost
  rw [← loadSetting_iff]
  split <;> simp_all

theorem loadLedgerCostExt_iff {c : Int} : loadLedgerCostExt s = some c ↔ s .ledgerCostExt = .setting (.ledgerCostExt c) := by
  unfold loadLedgerCostExt
  rw [← loadSetting_iff]
  split <;> simp_all

theorem loadHistoricalData_iff {c : Int} : loadHistoricalData s = some c ↔ s .historicalData = .setting (.historicalData c) := by
  unfold loadHistoricalData
  rw [← loadSetting_iff]
  split <;> simp_all

theorem loadEvents_iff {c : Int} : loadEvents s = some c ↔ s .events = .setting (.events c) := by
  unfold loadEvents
  rw [← loadSetting_iff]
  split <;> simp_all

theorem loadBandwidth_iff {c : Int} : loadBandwidth s = some c ↔ s .bandwidth = .setting (.bandwidth c) := by
  unfold loadBandwidth
  rw [← loadSetting_iff]
  split <;> simp_all

theorem loadStateArchival_iff {c : StateArchival} : loadStateArchival s = some c ↔ s .stateArchival = .setting (.stateArchival c) := by
  unfold loadStateArchival
  rw [← loadSetting_iff]
  split <;> simp_all

theorem loadCpuParams_iff {c : List (Int × Int)} : loadCpuParams s = some c ↔ s .cpuParams = .setting (.cpuParams c) := by
  unfold loadCpuParams
  rw [← loadSetting_iff]
  split <;> simp_all

theorem loadMemParams_iff {c : List (Int × Int)} : loadMemParams s = some c ↔ s .memParams = .setting (.memParams c) := by
  unfold loadMemParams
  rw [← loadSetting_iff]
  split <;> simp_all

theorem loadSizeWindow_iff {c : List Nat} : loadSizeWindow s = some c ↔ s .sizeWindow = .setting (.sizeWindow c) := by
  unfold loadSizeWindow
  rw [← loadSetting_iff]
  split <;> simp_all

end

theorem sizeSum_eq : ∀ (l : List Nat) (a : Nat), a ≤ u64Max → sizeSum a l = min u64Max (a + l.sum)
  | [], a, h => by simp [sizeSum, Nat.min_eq_right h]
  | x :: xs, a, h => by
    rw [sizeSum, satAddU64_eq, sizeSum_eq xs _ (Nat.min_le_left _ _), List.sum_cons]
    omega

/-- The configuration the settings give, when the average is `size`. -/
def configOf (n : Network) (size : Nat) : Config :=
  { fees := ⟨n.compute.feeRatePerInstructionsIncrement, n.cost.feeDiskReadLedgerEntry, n.cost.feeWriteLedgerEntry, n.cost.feeDiskRead1Kb,
      n.write1Kb, n.historical1Kb, n.events1Kb, n.txSize1Kb⟩
    rent := ⟨n.write1Kb, computeRentWriteFeePer1Kb size ⟨n.cost.sorobanStateTargetSizeBytes, n.cost.rentFee1KbSorobanStateSizeLow,
      n.cost.rentFee1KbSorobanStateSizeHigh, n.cost.sorobanStateRentFeeGrowthFactor⟩, n.cost.feeWriteLedgerEntry,
      n.archival.persistentRentRateDenominator, n.archival.tempRentRateDenominator⟩
    txMaxInstructions := n.compute.txMaxInstructions, txMemoryLimit := n.compute.txMemoryLimit
    cpuParams := n.cpuParams, memParams := n.memParams
    minTempEntryTtl := n.archival.minTemporaryTtl, minPersistentEntryTtl := n.archival.minPersistentTtl
    maxEntryTtl := n.archival.maxEntryTtl }

theorem load_iff {s : Snapshot} {c : Config} : load s = some c ↔ ∃ n, Holds s n ∧ n.sizes ≠ [] ∧
    ((min u64Max n.sizes.sum / n.sizes.length : Nat) : Int) ≤ i64Max ∧ c = configOf n (min u64Max n.sizes.sum / n.sizes.length) := by
  unfold load loadStateSize
  simp only [Option.bind_eq_bind, Option.bind_eq_some_iff, loadCompute_iff, loadLedgerCost_iff, loadLedgerCostExt_iff,
    loadHistoricalData_iff, loadEvents_iff, loadBandwidth_iff, loadStateArchival_iff, loadCpuParams_iff, loadMemParams_iff,
    loadSizeWindow_iff]
  have hz : ∀ l : List Nat, sizeSum 0 l = min u64Max l.sum := fun l => by rw [sizeSum_eq l 0 (Nat.zero_le _), Nat.zero_add]
  constructor
  · rintro ⟨a1, h1, a2, h2, a3, h3, a4, h4, a5, h5, a6, h6, a7, h7, a8, h8, a9, h9, z, ⟨w, h10, hw⟩, h⟩
    refine ⟨⟨a1, a2, a3, a4, a5, a6, a7, a8, a9, w⟩, ⟨h1, h2, h3, h4, h5, h6, h7, h8, h9, h10⟩, ?_⟩
    cases hwe : w.isEmpty with
    | true => simp [hwe] at hw
    | false =>
      simp only [hwe, Bool.false_eq_true, if_false, Option.some.injEq] at hw
      rw [hz] at hw
      rw [← hw] at h
      by_cases hle : ((min u64Max w.sum / w.length : Nat) : Int) ≤ i64Max
      · rw [if_pos hle] at h
        exact ⟨(by intro e; dsimp only at e; rw [e] at hwe; cases hwe), hle, (Option.some.inj h).symm⟩
      · rw [if_neg hle] at h; cases h
  · rintro ⟨n, ⟨h1, h2, h3, h4, h5, h6, h7, h8, h9, h10⟩, hne, hle, rfl⟩
    refine ⟨_, h1, _, h2, _, h3, _, h4, _, h5, _, h6, _, h7, _, h8, _, h9, min u64Max n.sizes.sum / n.sizes.length, ⟨_, h10, ?_⟩, ?_⟩
    · rw [if_neg (by simpa using hne), hz]
    · rw [if_pos hle]
      rfl

theorem holds_unique {s : Snapshot} {n n' : Network} (h : Holds s n) (h' : Holds s n') : n = n' := by
  obtain ⟨h1, h2, h3, h4, h5, h6, h7, h8, h9, h10⟩ := h
  obtain ⟨g1, g2, g3, g4, g5, g6, g7, g8, g9, g10⟩ := h'
  rw [h1] at g1; rw [h2] at g2; rw [h3] at g3; rw [h4] at g4; rw [h5] at g5; rw [h6] at g6; rw [h7] at g7; rw [h8] at g8; rw [h9] at g9
  rw [h10] at g10
  cases n; cases n'
  simp only [Found.setting.injEq, Setting.compute.injEq, Setting.ledgerCost.injEq, Setting.ledgerCostExt.injEq,
    Setting.historicalData.injEq, Setting.events.injEq, Setting.bandwidth.injEq, Setting.stateArchival.injEq, Setting.cpuParams.injEq,
    Setting.memParams.injEq, Setting.sizeWindow.injEq] at *
  simp [*]

theorem setModels_spec : ∀ (ps : List (Int × Int)) (ms : List CostModel) (i : Nat),
    (∀ ms', setModels ms i ps = .ok ms' → (ps ≠ [] → i + ps.length ≤ ms.length) ∧ (∀ p ∈ ps, 0 ≤ p.1 ∧ 0 ≤ p.2) ∧
      ms'.length = ms.length ∧ ∀ j, ms'[j]? = if i ≤ j then (match ps[j - i]? with
        | some p => some ⟨p.1.toNat, p.2.toNat⟩
        | none => ms[j]?) else ms[j]?) ∧
    (i + ps.length ≤ ms.length → (∀ p ∈ ps, 0 ≤ p.1 ∧ 0 ≤ p.2) → ∃ ms', setModels ms i ps = .ok ms')
  | [], ms, i => by
    refine ⟨fun ms' h => ?_, fun _ _ => ⟨ms, rfl⟩⟩
    cases h
    exact ⟨fun h => absurd rfl h, by simp, rfl, fun j => by simp⟩
  | p :: ps, ms, i => by
    unfold setModels
    by_cases hi : i < ms.length
    · rw [if_pos hi]
      by_cases hp : 0 ≤ p.1 ∧ 0 ≤ p.2
      · have ho : CostModel.ofParams p.1 p.2 = .ok ⟨p.1.toNat, p.2.toNat⟩ := by
          unfold CostModel.ofParams
          rw [if_neg (by simp; omega)]
        rw [ho]
        dsimp only
        obtain ⟨k1, k2⟩ := setModels_spec ps (ms.set i ⟨p.1.toNat, p.2.toNat⟩) (i + 1)
        refine ⟨fun ms' h => ?_, fun hl ha => k2 (by simp at hl ⊢; omega) fun q hq => ha q (List.mem_cons_of_mem _ hq)⟩
        obtain ⟨g1, g2, g3, g4⟩ := k1 ms' h
        refine ⟨fun _ => ?_, ?_, by simpa using g3, fun j => ?_⟩
        · by_cases he : ps = []
          · rw [he]; simp; omega
          · have := g1 he; simp at this ⊢; omega
        · intro q hq
          rcases List.mem_cons.1 hq with rfl | hq
          · exact hp
          · exact g2 q hq
        · rw [g4 j]
          by_cases h1 : i + 1 ≤ j
          · rw [if_pos h1, if_pos (by omega)]
            have : j - i = (j - (i + 1)) + 1 := by omega
            rw [this, List.getElem?_cons_succ, List.getElem?_set_ne (by omega)]
          · rw [if_neg h1]
            by_cases h2 : i ≤ j
            · have : j = i := by omega
              subst this
              rw [if_pos (Nat.le_refl _), Nat.sub_self, List.getElem?_cons_zero, List.getElem?_set_self hi]
            · rw [if_neg h2, List.getElem?_set_ne (by omega)]
      · have ho : CostModel.ofParams p.1 p.2 = .error (.host .context .invalidInput) := by
          unfold CostModel.ofParams
          rw [if_pos (by simp; omega)]
        rw [ho]
        exact ⟨fun _ h => by (cases h), fun _ ha => absurd (ha p List.mem_cons_self) hp⟩
    · rw [if_neg hi]
      exact ⟨fun _ h => by (cases h), fun hl _ => by simp at hl; omega⟩

theorem kinds_length : kinds.length = 86 := by decide

theorem newDim_spec (ps : List (Int × Int)) (limit : Nat) :
    (∀ d, newDim ps limit = .ok d → ParamsOk ps ∧ (∀ j, j < 86 → d.models[j]? = some ⟨(ps.getD j (0, 0)).1.toNat,
      (ps.getD j (0, 0)).2.toNat⟩) ∧ d.limit = limit ∧ d.net = 0 ∧ d.peak = 0 ∧ d.shadowNet = 0) ∧
    (ParamsOk ps → ∃ d, newDim ps limit = .ok d) := by
  obtain ⟨k1, k2⟩ := setModels_spec ps (kinds.map fun _ => ⟨0, 0⟩) 0
  have hlen : (kinds.map fun _ => (⟨0, 0⟩ : CostModel)).length = 86 := by rw [List.length_map, kinds_length]
  unfold newDim
  constructor
  · intro d h
    cases he : setModels (kinds.map fun _ => ⟨0, 0⟩) 0 ps with
    | error e => rw [he] at h; cases h
    | ok ms =>
      rw [he] at h
      cases h
      obtain ⟨g1, g2, g3, g4⟩ := k1 ms he
      refine ⟨⟨?_, g2⟩, fun j hj => ?_, rfl, rfl, rfl, rfl⟩
      · by_cases hp : ps = []
        · rw [hp]; simp
        · have := g1 hp; rw [hlen] at this; omega
      · dsimp only
        rw [g4 j, if_pos (Nat.zero_le _), Nat.sub_zero, List.getD_eq_getElem?_getD]
        cases hq : ps[j]? with
        | none =>
          dsimp only
          rw [List.getElem?_map, List.getElem?_eq_getElem (by rw [kinds_length]; exact hj)]
          rfl
        | some p => rfl
  · intro hp
    obtain ⟨ms, hm⟩ := k2 (by rw [hlen]; have := hp.1; omega) hp.2
    rw [hm]
    exact ⟨_, rfl⟩

end Soroban.NetConfig

namespace Soroban.Props
open Soroban Soroban.Fees Soroban.Fees.Spec Soroban.Budget Soroban.NetConfig Soroban.NetConfig.Spec

/-- C87: the settings are loaded exactly when all are on the ledger, each of its kind under its key, and there is an average of the sizes
of the state. -/
theorem C87_loads (s : Snapshot) : (∃ c, load s = some c) ↔ ∃ n, Holds s n ∧ n.sizes ≠ [] ∧
    (min u64Max n.sizes.sum : Int) / n.sizes.length ≤ i64Max := by
  have hc : ∀ n : Network, ((min u64Max n.sizes.sum / n.sizes.length : Nat) : Int) = (min u64Max n.sizes.sum : Int) / n.sizes.length := by
    intro n; push_cast; rfl
  constructor
  · rintro ⟨c, h⟩
    obtain ⟨n, h1, h2, h3, _⟩ := load_iff.1 h
    exact ⟨n, h1, h2, by rw [← hc]; exact h3⟩
  · rintro ⟨n, h1, h2, h3⟩
    exact ⟨_, load_iff.2 ⟨n, h1, h2, by rw [hc]; exact h3, rfl⟩⟩

theorem load_config {s : Snapshot} {c : Config} {n : Network} (h : load s = some c) (hn : Holds s n) :
    c = configOf n (min u64Max n.sizes.sum / n.sizes.length) ∧ ((min u64Max n.sizes.sum / n.sizes.length : Nat) : Int) ≤ i64Max := by
  obtain ⟨n', h1, _, h3, h4⟩ := load_iff.1 h
  rw [holds_unique hn h1]
  exact ⟨h4, h3⟩

/-- C87: a transaction's fees are those of the settings. -/
theorem C87_fees {s : Snapshot} {c : Config} {n : Network} (h : load s = some c) (hn : Holds s n) (hs : FeesSane n)
    (r : TransactionResources) (hf : FeesFit n r) :
    computeTransactionResourceFee r c.fees = (fee n r, NetConfig.Spec.refundable n r) := by
  rw [(load_config h hn).1]
  obtain ⟨s1, s2, s3, s4, s5, s6, s7, s8⟩ := hs
  obtain ⟨f1, f2, f3, f4, f5, f6, f7, f8⟩ := hf
  exact C30_resource_fee_exact r _ ⟨s1, s2, s3, s4, s5, s6, s7, s8⟩ f1 ⟨f2, f3, f4, f5, f6, f7⟩ f8

/-- C87: rent is that of the settings and of the average size of the state. -/
theorem C87_rent {s : Snapshot} {c : Config} {n : Network} (h : load s = some c) (hn : Holds s n) (hf : RentFits n)
    (hsum : n.sizes.sum ≤ u64Max) (size ledgers : Int) :
    rent c.rent true size ledgers = ceil (size * rentFee n * ledgers) (1024 * n.archival.persistentRentRateDenominator) ∧
    rent c.rent false size ledgers = ceil (size * rentFee n * ledgers) (1024 * n.archival.tempRentRateDenominator) ∧
    c.rent.feePerWrite1Kb = n.write1Kb ∧ c.rent.feePerWriteEntry = n.cost.feeWriteLedgerEntry := by
  obtain ⟨e, hle⟩ := load_config h hn
  rw [Nat.min_eq_right hsum] at e hle
  obtain ⟨f1, f2, f3, f4, f5, f6⟩ := hf
  have hr : c.rent.feePerRent1Kb = rentFee n := by
    rw [e]
    exact C32_write_fee_exact _ ⟨n.cost.sorobanStateTargetSizeBytes, n.cost.rentFee1KbSorobanStateSizeLow,
      n.cost.rentFee1KbSorobanStateSizeHigh, n.cost.sorobanStateRentFeeGrowthFactor⟩ ⟨f1, f2, f3, f4, f5⟩ (Int.natCast_nonneg _) hle f6
  unfold rent
  rw [hr, e]
  exact ⟨rfl, rfl, rfl, rfl⟩

/-- C87: entries live as long as the settings say. -/
theorem C87_ttl {s : Snapshot} {c : Config} {n : Network} (h : load s = some c) (hn : Holds s n) (li : Storage.LedgerInfo) :
    (c.fill li).seq = li.seq ∧ (c.fill li).minTemp = n.archival.minTemporaryTtl ∧
    (c.fill li).minPersistent = n.archival.minPersistentTtl ∧ (c.fill li).maxTtl = n.archival.maxEntryTtl := by
  rw [(load_config h hn).1]
  exact ⟨rfl, rfl, rfl, rfl⟩

theorem createBudget_spec (c : Config) :
    (∀ b, c.createBudget = .ok b → ParamsOk c.cpuParams ∧ ParamsOk c.memParams ∧ ∃ dc dm, newDim c.cpuParams (asU64 c.txMaxInstructions) =
      .ok dc ∧ newDim c.memParams c.txMemoryLimit = .ok dm ∧
      b = ⟨{ dc with shadowLimit := satMulU64 (asU64 c.txMaxInstructions) 10 }, { dm with shadowLimit := satMulU64 c.txMemoryLimit 2 },
        newTrackers, 0, false, 100⟩) ∧
    (ParamsOk c.cpuParams → ParamsOk c.memParams → ∃ b, c.createBudget = .ok b) := by
  unfold Config.createBudget newBudgetWithShadow newBudget
  obtain ⟨c1, c2⟩ := newDim_spec c.cpuParams (asU64 c.txMaxInstructions)
  obtain ⟨m1, m2⟩ := newDim_spec c.memParams c.txMemoryLimit
  constructor
  · intro b h
    cases hc : newDim c.cpuParams (asU64 c.txMaxInstructions) with
    | error e => rw [hc] at h; cases h
    | ok dc =>
      cases hm : newDim c.memParams c.txMemoryLimit with
      | error e => rw [hc, hm] at h; cases h
      | ok dm =>
        rw [hc, hm] at h
        cases h
        exact ⟨(c1 dc hc).1, (m1 dm hm).1, dc, dm, rfl, rfl, rfl⟩
  · intro h1 h2
    obtain ⟨dc, hc⟩ := c2 h1
    obtain ⟨dm, hm⟩ := m2 h2
    rw [hc, hm]
    exact ⟨_, rfl⟩

/-- C87: there is a budget exactly when the cost parameters are not negative and for known types. -/
theorem C87_budget {s : Snapshot} {c : Config} {n : Network} (h : load s = some c) (hn : Holds s n) :
    (∃ b, c.createBudget = .ok b) ↔ ParamsOk n.cpuParams ∧ ParamsOk n.memParams := by
  have e := (load_config h hn).1
  obtain ⟨k1, k2⟩ := createBudget_spec c
  rw [e] at k1 k2 ⊢
  constructor
  · rintro ⟨b, hb⟩
    exact ⟨(k1 b hb).1, (k1 b hb).2.1⟩
  · rintro ⟨h1, h2⟩
    exact k2 h1 h2

theorem eval_cost {ps : List (Int × Int)} {ty k : Nat} {i : Option Nat} (hp : ParamsOk ps)
    (hf : ∀ x, i = some x → k * (ps.getD ty (0, 0)).2.toNat * x ≤ u64Max) :
    (CostModel.evaluate ⟨(ps.getD ty (0, 0)).1.toNat, (ps.getD ty (0, 0)).2.toNat⟩ k i : Int) = min (u64Max : Int) (costOf ps ty k i) := by
  have hn : 0 ≤ (ps.getD ty (0, 0)).1 ∧ 0 ≤ (ps.getD ty (0, 0)).2 := by
    rw [List.getD_eq_getElem?_getD]
    cases hq : ps[ty]? with
    | none => exact ⟨Int.le_refl _, Int.le_refl _⟩
    | some p => exact hp.2 p (List.mem_of_getElem? hq)
  have h1 : (((ps.getD ty (0, 0)).1.toNat : Nat) : Int) = (ps.getD ty (0, 0)).1 := by omega
  have h2 : (((ps.getD ty (0, 0)).2.toNat : Nat) : Int) = (ps.getD ty (0, 0)).2 := by omega
  cases i with
  | none =>
    rw [(C12_exact _ k 0 (by simp)).2]
    unfold Budget.Spec.idealCost costOf
    dsimp only
    rw [← h1]
    push_cast
    rfl
  | some x =>
    rw [(C12_exact _ k x (hf x rfl)).1]
    unfold Budget.Spec.idealCost costOf
    dsimp only
    rw [← h1, ← h2]
    push_cast
    rfl

/-- A dimension of a new budget after work, and what it says of the limit. -/
theorem newDim_charge {ps : List (Int × Int)} {limit ty k : Nat} {i : Option Nat} {d : Dim} {sl : Nat} (h : newDim ps limit = .ok d)
    (ht : ty < 86) (hf : ∀ x, i = some x → k * (ps.getD ty (0, 0)).2.toNat * x ≤ u64Max) :
    ∃ d' a, ({ d with shadowLimit := sl } : Dim).charge ty k i false = .ok (d', a) ∧ (d'.net : Int) = min (u64Max : Int) (costOf ps ty k i) ∧
      d'.limit = limit ∧ d'.peak = d'.net := by
  obtain ⟨k1, k2, k3, k4, k5, _⟩ := (newDim_spec ps limit).1 d h
  have he := eval_cost (ty := ty) (k := k) k1 hf
  generalize hm : (⟨(ps.getD ty (0, 0)).1.toNat, (ps.getD ty (0, 0)).2.toNat⟩ : CostModel) = m at he
  have hmod : ({ d with shadowLimit := sl } : Dim).costModel ty = .ok m := by
    unfold Dim.costModel
    dsimp only
    rw [k2 ty ht, hm]
  unfold Dim.charge
  rw [hmod]
  dsimp only
  rw [if_neg (by simp)]
  have hle : m.evaluate k i ≤ u64Max := by omega
  refine ⟨_, _, rfl, ?_, k3, ?_⟩
  · dsimp only
    rw [k4, satAddU64_eq, Nat.zero_add, Nat.min_eq_right hle]
    exact he
  · dsimp only
    rw [k5, Nat.zero_max]

theorem chargeDims_new {b : B} {ty k : Nat} {i : Option Nat} {dc dm : Dim} {ac am : Nat} (hs : b.inShadow = false)
    (hc : b.cpu.charge ty k i false = .ok (dc, ac)) (hm : b.mem.charge ty k i false = .ok (dm, am)) :
    ((b.chargeDims ty k i).2 = .ok () ↔ dc.net ≤ dc.limit ∧ dm.net ≤ dm.limit) ∧
    ((b.chargeDims ty k i).2 = .ok () → (b.chargeDims ty k i).1.cpu = dc ∧ (b.chargeDims ty k i).1.mem = dm) := by
  unfold B.chargeDims B.chargeCpu
  rw [hs, hc]
  dsimp only
  by_cases h1 : dc.net ≤ dc.limit
  · have e1 : dc.checkLimit false = .ok () := by unfold Dim.checkLimit; simp [h1]
    rw [e1]
    unfold B.chargeMem
    dsimp only
    rw [hm]
    by_cases h2 : dm.net ≤ dm.limit
    · have e2 : dm.checkLimit false = .ok () := by unfold Dim.checkLimit; simp [h2]
      dsimp only
      rw [e2]
      exact ⟨⟨fun _ => ⟨h1, h2⟩, fun _ => rfl⟩, fun _ => ⟨rfl, rfl⟩⟩
    · have e2 : dm.checkLimit false = .error (.host .budget .exceededLimit) := by unfold Dim.checkLimit; simp; omega
      dsimp only
      rw [e2]
      exact ⟨⟨fun h => by (cases h), fun h => absurd h.2 h2⟩, fun h => by (cases h)⟩
  · have e1 : dc.checkLimit false = .error (.host .budget .exceededLimit) := by unfold Dim.checkLimit; simp; omega
    rw [e1]
    exact ⟨⟨fun h => by (cases h), fun h => absurd h.1 h1⟩, fun h => by (cases h)⟩

/-- C87: on a new budget, work is paid for by the parameters of its type, and is accepted exactly when it is within both limits of the
settings. -/
theorem C87_charges {s : Snapshot} {c : Config} {n : Network} {b : B} (h : load s = some c) (hn : Holds s n) (hb : c.createBudget = .ok b)
    (hi : 0 ≤ n.compute.txMaxInstructions) (hi' : n.compute.txMaxInstructions < 2 ^ 63) (hm : n.compute.txMemoryLimit < 2 ^ 32)
    {ty k : Nat} {i : Option Nat} (ht : ty < 86) (hi? : i.isSome = true ↔ ty ∈ perInput)
    (hfc : ∀ x, i = some x → k * (n.cpuParams.getD ty (0, 0)).2.toNat * x ≤ u64Max)
    (hfm : ∀ x, i = some x → k * (n.memParams.getD ty (0, 0)).2.toNat * x ≤ u64Max) :
    ((b.charge ty k i).2 = .ok () ↔ costOf n.cpuParams ty k i ≤ n.compute.txMaxInstructions ∧
      costOf n.memParams ty k i ≤ n.compute.txMemoryLimit) ∧
    ((b.charge ty k i).2 = .ok () → ((b.charge ty k i).1.cpuConsumed : Int) = costOf n.cpuParams ty k i ∧
      ((b.charge ty k i).1.memConsumed : Int) = costOf n.memParams ty k i) := by
  have e := (load_config h hn).1
  obtain ⟨_, _, dc, dm, h1, h2, h3⟩ := (createBudget_spec c).1 b hb
  have hk : kinds[ty]? = some i.isSome := by
    have hall : ∀ t < 86, kinds[t]? = some (decide (t ∈ perInput)) := by decide
    rw [hall ty ht]
    congr 1
    cases hs : i.isSome with
    | true => exact decide_eq_true (hi?.mp hs)
    | false => exact decide_eq_false (fun hm => by rw [hi?.mpr hm] at hs; cases hs)
  rw [e] at h1 h2
  have hu : asU64 n.compute.txMaxInstructions = n.compute.txMaxInstructions.toNat := by
    unfold asU64
    rw [Int.emod_eq_of_lt hi (by omega)]
  rw [show asU64 (configOf n (min u64Max n.sizes.sum / n.sizes.length)).txMaxInstructions = n.compute.txMaxInstructions.toNat from hu] at h1
  obtain ⟨dc', ac, c1, c2, c3, c4⟩ := newDim_charge (sl := satMulU64 (asU64 c.txMaxInstructions) 10) h1 ht hfc
  obtain ⟨dm', am, m1, m2, m3, m4⟩ := newDim_charge (sl := satMulU64 c.txMemoryLimit 2) h2 ht hfm
  have hmx : (u64Max : Int) = 18446744073709551615 := rfl
  have m3 : dm'.limit = n.compute.txMemoryLimit := m3
  have c2 : (dc'.net : Int) = min (u64Max : Int) (costOf n.cpuParams ty k i) := c2
  have m2 : (dm'.net : Int) = min (u64Max : Int) (costOf n.memParams ty k i) := m2
  have htr : newTrackers[ty]? = some ⟨0, if i.isSome then some 0 else none, 0, 0⟩ := by
    unfold newTrackers
    rw [List.getElem?_map, hk]
    rfl
  have hadd : ((⟨0, if i.isSome then some 0 else none, 0, 0⟩ : Tracker).add k i).2 = true := by
    cases i <;> rfl
  rw [h3]
  unfold B.charge
  dsimp only
  rw [htr]
  dsimp only
  rw [if_neg (by simp), hadd, if_pos rfl]
  obtain ⟨g1, g2⟩ := chargeDims_new (b := ⟨{ dc with shadowLimit := satMulU64 (asU64 c.txMaxInstructions) 10 },
    { dm with shadowLimit := satMulU64 c.txMemoryLimit 2 }, newTrackers.set ty ((⟨0, if i.isSome then some 0 else none, 0, 0⟩ :
    Tracker).add k i).1, satAddU32 0 1, false, 100⟩) rfl c1 m1
  refine ⟨g1.trans ?_, fun h => ?_⟩
  · omega
  · have gl := g1.1 h
    unfold B.cpuConsumed B.memConsumed
    rw [(g2 h).1, (g2 h).2]
    omega

/-- C87: diagnostics may use ten times the instructions and twice the memory, within 64 bits. -/
theorem C87_diagnostics {s : Snapshot} {c : Config} {n : Network} {b : B} (h : load s = some c) (hn : Holds s n)
    (hb : c.createBudget = .ok b) (hi : 0 ≤ n.compute.txMaxInstructions) (hi' : n.compute.txMaxInstructions < 2 ^ 63)
    (hm : n.compute.txMemoryLimit < 2 ^ 32) :
    (b.cpu.shadowLimit : Int) = min (2 ^ 64 - 1) (10 * n.compute.txMaxInstructions) ∧ b.mem.shadowLimit = 2 * n.compute.txMemoryLimit := by
  obtain ⟨_, _, dc, dm, h1, h2, h3⟩ := (createBudget_spec c).1 b hb
  rw [h3, (load_config h hn).1]
  have hu : asU64 n.compute.txMaxInstructions = n.compute.txMaxInstructions.toNat := by
    unfold asU64
    rw [Int.emod_eq_of_lt hi (by omega)]
  have hmx : u64Max = 18446744073709551615 := rfl
  constructor
  · change ((satMulU64 (asU64 n.compute.txMaxInstructions) 10 : Nat) : Int) = _
    rw [hu, satMulU64_eq]
    omega
  · change satMulU64 n.compute.txMemoryLimit 2 = _
    rw [satMulU64_eq]
    omega

/-- A network. -/
def c87Network : Network :=
  { compute := ⟨25, 100000000, 500000000, 41943040⟩
    cost := ⟨6250, 10000, 1786, 3000000000, 1000, 10000, 5000⟩
    write1Kb := 11800, historical1Kb := 16235, events1Kb := 10000, txSize1Kb := 1624
    archival := ⟨3110400, 17280, 2073600, 2103, 4206⟩
    cpuParams := [(4, 0), (434, 16)], memParams := [(0, 0), (16, 128), (0, 0)]
    sizes := [2000000000, 1000000000, 1500000001] }

/-- Its ledger. -/
def c87Ledger : Snapshot
  | .compute => .setting (.compute c87Network.compute)
  | .ledgerCost => .setting (.ledgerCost c87Network.cost)
  | .ledgerCostExt => .setting (.ledgerCostExt c87Network.write1Kb)
  | .historicalData => .setting (.historicalData c87Network.historical1Kb)
  | .events => .setting (.events c87Network.events1Kb)
  | .bandwidth => .setting (.bandwidth c87Network.txSize1Kb)
  | .stateArchival => .setting (.stateArchival c87Network.archival)
  | .cpuParams => .setting (.cpuParams c87Network.cpuParams)
  | .memParams => .setting (.memParams c87Network.memParams)
  | .sizeWindow => .setting (.sizeWindow c87Network.sizes)

example : Holds c87Ledger c87Network := ⟨rfl, rfl, rfl, rfl, rfl, rfl, rfl, rfl, rfl, rfl⟩
example : c87Network.sizes ≠ [] ∧ (min u64Max c87Network.sizes.sum : Int) / c87Network.sizes.length ≤ i64Max ∧
    c87Network.sizes.sum ≤ u64Max := by decide
example : (load c87Ledger).isSome = true := by decide +kernel
example : FeesSane c87Network ∧ FeesFit c87Network ⟨1000000, 2, 3, 4000, 5000, 600, 1000⟩ := by
  unfold FeesSane FeesFit; decide
example : RentFits c87Network := by unfold RentFits; decide
example : rentFee c87Network = 5500 ∧ averageSize c87Network = 1500000000 := by decide
example : ParamsOk c87Network.cpuParams ∧ ParamsOk c87Network.memParams := by unfold ParamsOk; decide
/-- Copying 1000 bytes: a type with an input. The other memory parameter is missing: this work takes no memory. -/
example : 1 ∈ perInput ∧ 5 ∉ perInput ∧ costOf c87Network.cpuParams 1 1 (some 1000) = 559 ∧
    costOf c87Network.memParams 1 1 (some 1000) = 1016 ∧ costOf c87Network.memParams 5 1 none = 0 := by decide

/-- The sign of the instruction limit is not checked: a negative one is a limit above all positive ones. -/
theorem C87_negative_limit {c : Config} {b : B} (hb : c.createBudget = .ok b) (hi : c.txMaxInstructions < 0)
    (hi' : -2 ^ 63 ≤ c.txMaxInstructions) : (b.cpu.limit : Int) = 2 ^ 64 + c.txMaxInstructions ∧ 2 ^ 63 ≤ b.cpu.limit := by
  obtain ⟨_, _, dc, dm, h1, h2, h3⟩ := (createBudget_spec c).1 b hb
  obtain ⟨_, _, k3, _⟩ := (newDim_spec _ _).1 dc h1
  have : b.cpu.limit = asU64 c.txMaxInstructions := by rw [h3]; exact k3
  have hu : (asU64 c.txMaxInstructions : Int) = 2 ^ 64 + c.txMaxInstructions := by
    unfold asU64
    omega
  rw [this]
  omega

end Soroban.Props
