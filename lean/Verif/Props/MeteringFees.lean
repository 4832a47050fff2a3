import Verif.Spec.MeteringFees
import Verif.Props.Metering
/-!
C80: the fees estimated for an invocation and for the calls in it.
-/
namespace Soroban.Props
open Soroban Soroban.Fees Soroban.Metering Soroban.Metering.Spec

theorem sat_sat {a b : Int} (ha : 0 ≤ a) (hb : 0 ≤ b) : satI64 (satI64 a + b) = satI64 (a + b) := by
  unfold satI64 i64Min i64Max
  (repeat' split) <;> omega

theorem sat_of {a : Int} (ha : 0 ≤ a) (h : a ≤ i64Max) : satI64 a = a := satI64_eq (by unfold i64Min; omega) h

theorem roundedUp_divCeil (x : Int) {d : Int} (hd : 0 < d) : RoundedUp x d (divCeil x d) :=
  ⟨(divCeil_bounds x hd).1, fun _ h => divCeil_least hd h⟩

theorem perIncrement_roundedUp {v r d : Int} (hv : 0 ≤ v) (hr : 0 ≤ r) (hd : 0 < d) (h : v * r ≤ i64Max) :
    RoundedUp (v * r) d (feePerIncrement v r d) := by
  unfold feePerIncrement
  rw [sat_of (Int.mul_nonneg hv hr) h, show max d 1 = d by omega]
  exact roundedUp_divCeil _ hd

theorem perIncrement_nonneg {v r d : Int} (hv : 0 ≤ v) (hr : 0 ≤ r) : 0 ≤ feePerIncrement v r d :=
  divCeil_nonneg (by omega) (satI64_nonneg (Int.mul_nonneg hv hr))

theorem ttlWrites_bumps {p : Rates} (hp : p.Valid) {n : Int} (hn : 0 ≤ n) (h1 : p.config.feePerWriteEntry * n ≤ i64Max)
    (h2 : 48 * n ≤ i64Max ∧ 48 * n * p.config.feePerWrite1Kb ≤ i64Max) :
    ∃ b, Bumps p n b ∧ 0 ≤ b ∧ ttlWrites p.config n = satI64 b := by
  refine ⟨_, ⟨_, perIncrement_roundedUp (by omega : 0 ≤ 48 * n) hp.write (by decide : (0 : Int) < 1024) h2.2, rfl⟩, ?_, ?_⟩
  · exact Int.add_nonneg (Int.mul_nonneg hp.writeEntry hn) (perIncrement_nonneg (by omega) hp.write)
  · unfold ttlWrites
    rw [sat_of (Int.mul_nonneg hp.writeEntry hn) h1]
    have h48 : ((ttlEntrySize : Nat) : Int) = 48 := rfl
    rw [h48, sat_of (by omega) h2.1]
    rfl

/-- **C80**. The fees estimated for some resources are those of the rates, rounded up, part by part, and the total is their sum, up
to the greatest number. -/
theorem C80_estimate (r : Resources) (hr : Sane r) (p : Rates) (hp : p.Valid) (hf : Fits r p) :
    IsEstimate r p (estimateFees r p.config p.rent1Kb p.persistentDenom p.temporaryDenom) := by
  have e1 := hr.instructions.1
  have e2 := hr.diskReadEntries.1
  have e3 := hr.writeEntries.1
  have e4 := hr.diskReadBytes.1
  have e5 := hr.writeBytes.1
  have e6 := hr.contractEventsSizeBytes.1
  have e7 := hr.persistentRentLedgerBytes.1
  have e8 := hr.temporaryRentLedgerBytes.1
  have d1 : (0 : Int) < 10000 := by decide
  have d2 : (0 : Int) < 1024 := by decide
  have hsat : satU32 (r.diskReadEntries + r.writeEntries) = r.diskReadEntries + r.writeEntries := by
    have := hf.entries
    unfold satU32
    split <;> omega
  have hpd : satI64 (dataSize1KbIncrement * p.persistentDenom) = 1024 * p.persistentDenom :=
    sat_of (Int.mul_nonneg (by decide) (by have := hp.persistent.1; omega)) hp.persistent.2
  have htd : satI64 (dataSize1KbIncrement * p.temporaryDenom) = 1024 * p.temporaryDenom :=
    sat_of (Int.mul_nonneg (by decide) (by have := hp.temporary.1; omega)) hp.temporary.2
  obtain ⟨bp, hb1, hb2, hb3⟩ := ttlWrites_bumps hp hr.persistentEntryRentBumps.1 hf.bumpsP hf.bumpBytesP
  obtain ⟨bt, hb4, hb5, hb6⟩ := ttlWrites_bumps hp hr.temporaryEntryRentBumps.1 hf.bumpsT hf.bumpBytesT
  have n1 : 0 ≤ feePerIncrement r.instructions p.config.feePerInstructionIncrement 10000 := perIncrement_nonneg e1 hp.instruction
  have n2 : 0 ≤ p.config.feePerDiskReadEntry * (r.diskReadEntries + r.writeEntries) :=
    Int.mul_nonneg hp.diskReadEntry (by omega)
  have n3 : 0 ≤ p.config.feePerWriteEntry * r.writeEntries := Int.mul_nonneg hp.writeEntry e3
  have n4 : 0 ≤ feePerIncrement r.diskReadBytes p.config.feePerDiskRead1Kb 1024 := perIncrement_nonneg e4 hp.diskRead
  have n5 : 0 ≤ feePerIncrement r.writeBytes p.config.feePerWrite1Kb 1024 := perIncrement_nonneg e5 hp.write
  have n6 : 0 ≤ feePerIncrement r.contractEventsSizeBytes p.config.feePerContractEvent1Kb 1024 := perIncrement_nonneg e6 hp.event
  have n7 : 0 ≤ feePerIncrement r.persistentRentLedgerBytes p.rent1Kb (1024 * p.persistentDenom) := perIncrement_nonneg e7 hp.rent
  have n8 : 0 ≤ feePerIncrement r.temporaryRentLedgerBytes p.rent1Kb (1024 * p.temporaryDenom) := perIncrement_nonneg e8 hp.rent
  have s1 := sat_of n2 hf.readEntries
  have s2 := sat_of n3 hf.writeEntries
  have hsum : ∀ {q b : Int}, 0 ≤ q → 0 ≤ b → satI64 (q + satI64 b) = min (q + b) i64Max := by
    intro q b hq hb
    rw [Int.add_comm, sat_sat hb hq, satI64_eq_min (by omega), Int.add_comm]
  unfold estimateFees
  simp only [show instructionsIncrement = 10000 from rfl, hpd, htd, hsat, s1, s2, hb3, hb6]
  simp only [show dataSize1KbIncrement = 1024 from rfl]
  refine { instructions := ?_, diskReadEntries := rfl, writeEntries := rfl, diskReadBytes := ?_, writeBytes := ?_,
           contractEvents := ?_, persistentEntryRent := ?_, temporaryEntryRent := ?_, total := ?_ }
  · exact perIncrement_roundedUp e1 hp.instruction d1 hf.instructions
  · exact perIncrement_roundedUp e4 hp.diskRead d2 hf.readBytes
  · exact perIncrement_roundedUp e5 hp.write d2 hf.writeBytes
  · exact perIncrement_roundedUp e6 hp.event d2 hf.events
  · exact ⟨_, bp, perIncrement_roundedUp e7 hp.rent (by have := hp.persistent.1; omega) hf.persistent, hb1, hsum n7 hb2⟩
  · exact ⟨_, bt, perIncrement_roundedUp e8 hp.rent (by have := hp.temporary.1; omega) hf.temporary, hb4, hsum n8 hb5⟩
  · dsimp only
    generalize feePerIncrement r.instructions p.config.feePerInstructionIncrement 10000 = x1 at *
    generalize p.config.feePerDiskReadEntry * (r.diskReadEntries + r.writeEntries) = x2 at *
    generalize p.config.feePerWriteEntry * r.writeEntries = x3 at *
    generalize feePerIncrement r.diskReadBytes p.config.feePerDiskRead1Kb 1024 = x4 at *
    generalize feePerIncrement r.writeBytes p.config.feePerWrite1Kb 1024 = x5 at *
    generalize feePerIncrement r.contractEventsSizeBytes p.config.feePerContractEvent1Kb 1024 = x6 at *
    have n9 : 0 ≤ satI64 (feePerIncrement r.persistentRentLedgerBytes p.rent1Kb (1024 * p.persistentDenom) + satI64 bp) :=
      satI64_nonneg (Int.add_nonneg n7 (satI64_nonneg hb2))
    have n10 : 0 ≤ satI64 (feePerIncrement r.temporaryRentLedgerBytes p.rent1Kb (1024 * p.temporaryDenom) + satI64 bt) :=
      satI64_nonneg (Int.add_nonneg n8 (satI64_nonneg hb5))
    generalize satI64 (feePerIncrement r.persistentRentLedgerBytes p.rent1Kb (1024 * p.persistentDenom) + satI64 bp) = x7 at *
    generalize satI64 (feePerIncrement r.temporaryRentLedgerBytes p.rent1Kb (1024 * p.temporaryDenom) + satI64 bt) = x8 at *
    rw [sat_sat (by omega) n3, sat_sat (by omega) n4, sat_sat (by omega) n5, sat_sat (by omega) n6, sat_sat (by omega) n9,
      sat_sat (by omega) n10, satI64_eq_min (by omega)]

/-- **C80**. The estimate agrees with what a transaction with the same resources is charged: its refundable part is the fee of the
events, and its other part is the sum of the fees of the instructions, entries and bytes and those of the transaction's size.
The entries that the transaction declares as read must include those it writes. -/
theorem C80_charged (r : Resources) (hr : Sane r) (p : Rates) (hp : p.Valid) (tx : TransactionResources)
    (h1 : (tx.instructions : Int) = r.instructions) (h2 : (tx.diskReadEntries : Int) = r.diskReadEntries + r.writeEntries)
    (h2' : tx.diskReadEntries ≤ 4294967295)
    (h3 : (tx.writeEntries : Int) = r.writeEntries) (h4 : (tx.diskReadBytes : Int) = r.diskReadBytes)
    (h5 : (tx.writeBytes : Int) = r.writeBytes) (h6 : (tx.contractEventsSizeBytes : Int) = r.contractEventsSizeBytes) :
    let e := estimateFees r p.config p.rent1Kb p.persistentDenom p.temporaryDenom
    let charged := computeTransactionResourceFee tx p.config
    charged.2 = e.contractEvents ∧
    charged.1 = min (e.instructions + e.diskReadEntries + e.writeEntries + e.diskReadBytes + e.writeBytes +
      computeFeePerIncrement (satAddU32 tx.transactionSizeBytes txBaseResultSize) p.config.feePerHistorical1Kb dataSize1KbIncrement +
      computeFeePerIncrement tx.transactionSizeBytes p.config.feePerTransactionSize1Kb dataSize1KbIncrement) i64Max := by
  have hsat : satU32 (r.diskReadEntries + r.writeEntries) = r.diskReadEntries + r.writeEntries := by
    unfold satU32
    split <;> omega
  have m1 : computeFeePerIncrement tx.instructions = feePerIncrement r.instructions := by
    funext a b; unfold computeFeePerIncrement feePerIncrement; rw [h1]
  have m4 : computeFeePerIncrement tx.diskReadBytes = feePerIncrement r.diskReadBytes := by
    funext a b; unfold computeFeePerIncrement feePerIncrement; rw [h4]
  have m5 : computeFeePerIncrement tx.writeBytes = feePerIncrement r.writeBytes := by
    funext a b; unfold computeFeePerIncrement feePerIncrement; rw [h5]
  have m6 : computeFeePerIncrement tx.contractEventsSizeBytes = feePerIncrement r.contractEventsSizeBytes := by
    funext a b; unfold computeFeePerIncrement feePerIncrement; rw [h6]
  unfold computeTransactionResourceFee estimateFees
  simp only [hsat, h2, h3, m1, m4, m5, m6, true_and]
  have n1 : 0 ≤ feePerIncrement r.instructions p.config.feePerInstructionIncrement instructionsIncrement :=
    perIncrement_nonneg hr.instructions.1 hp.instruction
  have n2 : 0 ≤ satI64 (p.config.feePerDiskReadEntry * (r.diskReadEntries + r.writeEntries)) :=
    satI64_nonneg (Int.mul_nonneg hp.diskReadEntry (Int.add_nonneg hr.diskReadEntries.1 hr.writeEntries.1))
  have n3 : 0 ≤ satI64 (p.config.feePerWriteEntry * r.writeEntries) :=
    satI64_nonneg (Int.mul_nonneg hp.writeEntry hr.writeEntries.1)
  have n4 : 0 ≤ feePerIncrement r.diskReadBytes p.config.feePerDiskRead1Kb dataSize1KbIncrement :=
    perIncrement_nonneg hr.diskReadBytes.1 hp.diskRead
  have n5 : 0 ≤ feePerIncrement r.writeBytes p.config.feePerWrite1Kb dataSize1KbIncrement :=
    perIncrement_nonneg hr.writeBytes.1 hp.write
  have n6 : 0 ≤ computeFeePerIncrement (satAddU32 tx.transactionSizeBytes txBaseResultSize) p.config.feePerHistorical1Kb
      dataSize1KbIncrement := perIncrement_nonneg (Int.natCast_nonneg _) hp.historical
  have n7 : 0 ≤ computeFeePerIncrement tx.transactionSizeBytes p.config.feePerTransactionSize1Kb dataSize1KbIncrement :=
    perIncrement_nonneg (Int.natCast_nonneg _) hp.size
  generalize feePerIncrement r.instructions _ _ = x1 at *
  generalize satI64 (p.config.feePerDiskReadEntry * (r.diskReadEntries + r.writeEntries)) = x2 at *
  generalize satI64 (p.config.feePerWriteEntry * r.writeEntries) = x3 at *
  generalize feePerIncrement r.diskReadBytes _ _ = x4 at *
  generalize feePerIncrement r.writeBytes _ _ = x5 at *
  generalize computeFeePerIncrement (satAddU32 tx.transactionSizeBytes txBaseResultSize) _ _ = x6 at *
  generalize computeFeePerIncrement tx.transactionSizeBytes _ _ = x7 at *
  rw [sat_sat (by omega) n3, sat_sat (by omega) n4, sat_sat (by omega) n5, sat_sat (by omega) n6, sat_sat (by omega) n7,
    satI64_eq_min (by omega)]

theorem everywhere_mono {P Q : Node → Prop} (hPQ : ∀ n, P n → Q n) {n : Node} (h : Everywhere P n) : Everywhere Q n := by
  induction h with
  | mk h _ ih => exact .mk (hPQ _ h) ih

/-- Rounding up one by one costs less than one more for each. -/
theorem divCeil_sum {d : Int} (hd : 0 < d) : ∀ l : List Int, (l.map (fun a => divCeil a d)).sum ≤ divCeil l.sum d + l.length
  | [] => by simp [divCeil_zero]
  | a :: l => by
    have h1 := divCeil_sum hd l
    have h2 := divCeil_add_ge (a := a) (b := l.sum) hd
    simp only [List.map_cons, List.sum_cons, List.length_cons]
    omega

theorem unsigned_eq (r : Resources) : r.unsigned = noneNegative r := by
  have h : ∀ x : Int, max x 0 = if x < 0 then 0 else x := by intro x; split <;> omega
  unfold Resources.unsigned noneNegative
  simp only [h]

/-- The fee of a measured call. -/
def feeOf (p : Rates) (n : Node) : FeeEstimate := estimateFees (noneNegative n.res) p.config p.rent1Kb p.persistentDenom p.temporaryDenom

/-- **C80**. The tree of fee estimates has an estimate for each measured call, of that call's own resources, negative counts being
taken as zero, and the estimates of the calls made in it, in order. -/
theorem C80_tree (p : Rates) (n : Node) :
    n.estimate p.config p.rent1Kb p.persistentDenom p.temporaryDenom = .mk n.inv (feeOf p n)
      (n.subs.map (fun s => s.estimate p.config p.rent1Kb p.persistentDenom p.temporaryDenom)) := by
  obtain ⟨i, r, subs⟩ := n
  rw [Node.estimate]
  have h : ∀ l : List Node, estimateAll p.config p.rent1Kb p.persistentDenom p.temporaryDenom l =
      l.map (fun s => s.estimate p.config p.rent1Kb p.persistentDenom p.temporaryDenom) := by
    intro l
    induction l with
    | nil => rfl
    | cons a l ih => rw [estimateAll, ih]; rfl
  rw [h, unsigned_eq]
  rfl

theorem map_congr_mem {α β : Type} {f g : α → β} : ∀ {l : List α}, (∀ x ∈ l, f x = g x) → l.map f = l.map g :=
  fun h => List.map_congr_left h

theorem mem_le_sum {α : Type} (f : α → Int) : ∀ (l : List α), (∀ x ∈ l, 0 ≤ f x) → ∀ x ∈ l, f x ≤ (l.map f).sum
  | [], _, x, hx => by cases hx
  | y :: l, h, x, hx => by
    have h1 := h y List.mem_cons_self
    have h2 := sum_nonneg_of f l (fun z hz => h z (List.mem_cons_of_mem _ hz))
    rw [List.map_cons, List.sum_cons]
    rcases List.mem_cons.mp hx with rfl | hx
    · omega
    · have := mem_le_sum f l (fun z hz => h z (List.mem_cons_of_mem _ hz)) x hx
      omega

/-- **C80**. The fees estimated for the instructions of the calls that a call makes are together not more than the fee estimated for
its own, apart from rounding: less than one unit for each. -/
theorem C80_parts {H : Type} (V : View H) (inv : Invocation) (body : List (Tr H)) (h : H) (p : Rates) (hp : p.Valid)
    (hi : GrowsAll (fun h' => (V.read (V.reset h) h').instructions) body) :
    Everywhere (fun n => n.res.instructions * p.config.feePerInstructionIncrement ≤ i64Max →
      (n.subs.map (fun s => (feeOf p s).instructions)).sum ≤ (feeOf p n).instructions + n.subs.length) (outermost V inv body h).1 := by
  have hw := within_outermost (c := Resources.instructions) (fun _ _ => rfl) inv body h hi
  refine everywhere_mono ?_ hw
  intro n hn hfit
  obtain ⟨hsum, hpos⟩ := hn
  have hk := hp.instruction
  generalize hkd : p.config.feePerInstructionIncrement = k at *
  have hmul : ∀ {a b : Int}, a ≤ b → a * k ≤ b * k := fun hab => Int.mul_le_mul_of_nonneg_right hab hk
  have hn0 : 0 ≤ n.res.instructions := by
    have := sum_nonneg_of (fun s : Node => s.res.instructions) n.subs hpos
    omega
  have hfee : ∀ m : Node, 0 ≤ m.res.instructions → m.res.instructions * k ≤ i64Max →
      (feeOf p m).instructions = divCeil (m.res.instructions * k) 10000 := by
    intro m h0 h1
    show feePerIncrement m.res.instructions p.config.feePerInstructionIncrement 10000 = _
    unfold feePerIncrement
    rw [hkd, sat_of (Int.mul_nonneg h0 hk) h1]
    rfl
  rw [hfee n hn0 hfit]
  have hsubs : n.subs.map (fun s => (feeOf p s).instructions) =
      (n.subs.map (fun s => s.res.instructions * k)).map (fun a => divCeil a 10000) := by
    rw [List.map_map]
    apply map_congr_mem
    intro s hs
    have h1 := mem_le_sum (fun s : Node => s.res.instructions) n.subs hpos s hs
    have h2 := hmul (Int.le_trans h1 hsum)
    exact hfee s (hpos s hs) (Int.le_trans h2 hfit)
  rw [hsubs]
  have h1 := divCeil_sum (d := 10000) (by decide) (n.subs.map (fun s => s.res.instructions * k))
  rw [List.length_map] at h1
  have h2 : (n.subs.map (fun s => s.res.instructions * k)).sum = (n.subs.map (fun s => s.res.instructions)).sum * k := by
    generalize n.subs = l
    induction l with
    | nil => simp
    | cons a l ih => simp only [List.map_cons, List.sum_cons, ih, Int.add_mul]
  have h3 := divCeil_mono (b := 10000) (by decide) (hmul hsum)
  rw [h2] at h1
  omega

section Examples

private def cfg : FeeConfiguration := ⟨25, 6250, 10000, 1786, 11800, 16235, 10000, 1624⟩
private def rates : Rates := ⟨cfg, 20000, 1000, 2000⟩
private def res : Resources :=
  { Resources.zero with
    instructions := 1234567, diskReadEntries := 2, writeEntries := 3, diskReadBytes := 500, writeBytes := 1500
    contractEventsSizeBytes := 100, persistentRentLedgerBytes := 100000000, persistentEntryRentBumps := 1 }

private theorem rates_valid : rates.Valid := by
  constructor <;> decide +kernel

private theorem res_sane : Sane res := by
  constructor <;> decide +kernel

private theorem res_fits : Fits res rates := by
  constructor <;> decide +kernel

/-- The hypotheses can be met, and this is the estimate. -/
example : (fun e => [e.total, e.instructions, e.diskReadEntries, e.writeEntries, e.diskReadBytes, e.writeBytes, e.contractEvents,
    e.persistentEntryRent, e.temporaryEntryRent]) (estimateFees res cfg 20000 1000 2000) =
    [2047152, 3087, 31250, 30000, 873, 17286, 977, 1963679, 0] := by decide +kernel

private def entry (code : Bool) : RentChange := ⟨true, code, 0, 3072, 0, 1999⟩
private def rentCfg : RentFeeConfiguration := ⟨0, 20000, 0, 1000, 2000⟩
private def access (key : KeyKind) : Access := { key, readWrite := true, init := none, cur := some ⟨3072, 3072, some 1999⟩ }
private def freeCfg : FeeConfiguration := ⟨0, 0, 0, 0, 0, 0, 0, 0⟩

/-- **C80**, where the estimate differs from what is charged. For a new entry of data the rent charged is for one ledger more than
estimated. For a new entry of code what is charged is a third, but the estimate is the same as for data. -/
theorem C80_rent_differs :
    (Metering.measure 1000 0 0 [access .persistent] []).map (fun r => (estimateFees r freeCfg 20000 1000 2000).persistentEntryRent) =
      some 59940 ∧
    computeRentFee [entry false] rentCfg 1000 = 60000 ∧
    (Metering.measure 1000 0 0 [access .code] []).map (fun r => (estimateFees r freeCfg 20000 1000 2000).persistentEntryRent) =
      some 59940 ∧
    computeRentFee [entry true] rentCfg 1000 = 20000 := by decide +kernel

end Examples

end Soroban.Props
