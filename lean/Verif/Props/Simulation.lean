import Verif.Lemmas.Simulation
import Verif.Props.Storage
import Mathlib.Data.List.Induction
/-! C58: what a simulation declares is enough. C59: simulated extensions and restorations, and the ledger a simulation sees. -/
namespace Soroban.Props
open Soroban Soroban.Storage Soroban.E2e Soroban.Simulation Soroban.Simulation.Spec
open Soroban.Storage.Spec (view SnapshotOk recording ProgOk)

section
variable {K V Auth : Type}

/-! ### C58 -/

/-- C58: a successful invocation gives transaction data with the recorded footprint and at least the recorded resources: nothing where nothing
was used, and otherwise both margins on top, unless that exceeds the range of the declaration. It names the entries to restore, and no others. -/
theorem C58_declared {P : Kinds K V} {src : K → Option (Entry V)} {n : NetConfig} {a : Adjust} {li : LedgerInfo}
    {opSize : List Auth → Nat} {r : Recorded K V Auth} {s : InvokeSim K V Auth}
    (h : simulateInvoke P src n a li opSize (some r) = .ok s) :
    s.auth = r.auth ∧ ∃ d, s.txData = some d ∧ d.resources.footprint = r.resources.footprint ∧
      d.archived.getD [] = r.restored ∧
      ∀ (f : Factor) (used declared : Nat),
        (f, used, declared) ∈ [(a.instructions, r.resources.instructions, d.resources.instructions),
          (a.readBytes, r.resources.diskReadBytes, d.resources.diskReadBytes),
          (a.writeBytes, r.resources.writeBytes, d.resources.writeBytes)] →
        declared ≤ u32Max ∧ (used = 0 → declared = 0) ∧
        (0 < used → used ≤ u32Max → used ≤ declared ∧ min (used + f.add) u32Max ≤ declared ∧ min (f.mulU32 used) u32Max ≤ declared ∧
          (declared = min (used + f.add) u32Max ∨ declared = min (f.mulU32 used) u32Max)) := by
  unfold simulateInvoke at h
  obtain ⟨d, hd, h⟩ := sbind_ok.mp h
  injection h with h
  subst h
  obtain ⟨size, _, h1, h2, _⟩ := finish_ok hd
  refine ⟨rfl, d, rfl, by rw [h1]; rfl, ?_, ?_⟩
  · rw [h2]; cases r.restored <;> rfl
  · intro f used declared hm
    have key : declared = f.adjustU32 used := by
      rw [h1] at hm
      simp only [Adjust.resources, List.mem_cons, Prod.mk.injEq, List.not_mem_nil, or_false] at hm
      rcases hm with ⟨rfl, rfl, rfl⟩ | ⟨rfl, rfl, rfl⟩ | ⟨rfl, rfl, rfl⟩ <;> rfl
    subst key
    refine ⟨adjustU32_le _ _, fun h0 => by rw [h0]; rfl, fun h0 hu => ⟨adjustU32_ge _ hu, ?_⟩⟩
    have hs : satAddU32 used f.add = min (used + f.add) u32Max := by
      unfold satAddU32
      generalize u32Max = M at *
      split <;> omega
    unfold Factor.adjustU32
    rw [if_neg (by omega), hs]
    refine ⟨le_max_left _ _, le_max_right _ _, ?_⟩
    rcases max_choice (min (used + f.add) u32Max) (min (f.mulU32 used) u32Max) with h | h
    · exact Or.inl h
    · exact Or.inr h

/-- C58: the declared fee is enough. Whatever transaction carries the simulated operation and its data, however it is signed, with at most the
events and the rent of the simulation, the network charges at most the declared fee. -/
theorem C58_fee_covers {P : Kinds K V} {src : K → Option (Entry V)} {n : NetConfig} {a : Adjust} {li : LedgerInfo}
    {opSize : List Auth → Nat} {r : Recorded K V Auth} {s : InvokeSim K V Auth}
    (h : simulateInvoke P src n a li opSize (some r) = .ok s) (hn : Sane n) {d : TxData K} (hd : s.txData = some d)
    {e : Envelope K} (hv : Valid e) (hc : Carries e (opSize s.auth) d) {events : Nat} (he : events ≤ r.eventsSize) {rentFee : Int}
    (hr : rentFee ≤ Fees.computeRentFee (extractRentChanges r.changes) n.rent li.seq) :
    charged n (resourcesOf P d (txBytes P.keySize e) events) rentFee ≤ d.resourceFee := by
  unfold simulateInvoke at h
  obtain ⟨d', hd', h⟩ := sbind_ok.mp h
  injection h with h
  subst h
  injection hd with hd
  subst hd
  rw [txBytes_eq]
  exact finish_covers hd' hn hv hc he hr

/-- C58: the estimate of the size of a transaction bounds every transaction of one operation of this size with this footprint, and is reached by one
that restores entries. -/
theorem C58_largest_transaction {keySize : K → Nat} {op size : Nat} {f : LedgerFootprint K} {restored : List Nat}
    (h : estimateMaxSize keySize op f restored = .ok size) :
    (∀ e : Envelope K, Valid e → e.opBodySize = op → e.footprint = f → (e.archived = none ∨ e.archived = some restored) →
      txBytes keySize e ≤ size) ∧
    ∃ e : Envelope K, Valid e ∧ e.opBodySize = op ∧ e.footprint = f ∧ e.archived = some restored ∧ txBytes keySize e = size := by
  obtain ⟨h1, _⟩ := estimate_ok h
  refine ⟨fun e hv ho hf ha => by rw [h1, txBytes_eq]; exact envelope_le hv ho hf ha, maxEnvelope op f restored, ?_, rfl, rfl, rfl,
    by rw [txBytes_eq]; exact h1.symm⟩
  refine ⟨by simp [maxEnvelope], fun n hn => ?_, (fun len hl => by cases hl), fun tb lb ms signers hs => ?_⟩
  · have := List.eq_of_mem_replicate hn; omega
  · injection hs with _ _ _ hs
    subst hs
    refine ⟨by decide, fun len hl => ?_⟩
    simp only [List.mem_cons, SignerKey.signedPayload.injEq, List.not_mem_nil, or_false, or_self] at hl
    omega

/-- C58: a failed invocation gives nothing to put into a transaction; a successful one does unless its transaction would exceed what can be
encoded. -/
theorem C58_only_successful {P : Kinds K V} {src : K → Option (Entry V)} {n : NetConfig} {a : Adjust} {li : LedgerInfo}
    {opSize : List Auth → Nat} {rec : Option (Recorded K V Auth)} :
    (rec = none → ∃ s, simulateInvoke P src n a li opSize rec = .ok s ∧ s.txData = none ∧ s.auth = [] ∧ s.modified = []) ∧
    (∀ r, rec = some r →
      opSize r.auth + 4 * r.restored.length + (r.resources.footprint.readOnly.map P.keySize).sum +
        (r.resources.footprint.readWrite.map P.keySize).sum + 1916 ≤ 16777216 →
      ∃ s, simulateInvoke P src n a li opSize rec = .ok s ∧ s.txData.isSome) := by
  constructor
  · rintro rfl; exact ⟨_, rfl, rfl, rfl, rfl⟩
  · rintro r rfl hf
    obtain ⟨d, hd⟩ := finish_fits (P := P) (n := n) (seq := li.seq) (a := a) (op := opSize r.auth) (r := r.resources)
      (restored := r.restored) (ev := r.eventsSize) (rent := extractRentChanges r.changes) hf
    exact ⟨_, sbind_ok.mpr ⟨d, hd, rfl⟩, rfl⟩

/-- C58: the list of modified entries has one item for each entry the invocation could write, in order: its value after, and its value before if it
was there and alive. -/
theorem C58_modified {P : Kinds K V} {src : K → Option (Entry V)} {n : NetConfig} {a : Adjust} {li : LedgerInfo}
    {opSize : List Auth → Nat} {r : Recorded K V Auth} {s : InvokeSim K V Auth}
    (h : simulateInvoke P src n a li opSize (some r) = .ok s) :
    List.Forall₂ (fun (c : Change K V) (d : Diff V) => d.after = c.newValue ∧
      ∀ v, d.before = some v ↔ ∃ l, src c.key = some (v, l) ∧ ∀ m, l = some m → li.seq ≤ m)
      (r.changes.filter (fun c => !c.readOnly)) s.modified := by
  unfold simulateInvoke at h
  obtain ⟨d, _, h⟩ := sbind_ok.mp h
  injection h with h
  subst h
  dsimp only [modifiedEntries]
  induction r.changes with
  | nil => exact .nil
  | cons c cs ih =>
    cases hc : c.readOnly with
    | true => simpa [hc] using ih
    | false =>
      simp only [List.filter_cons, List.filterMap_cons, hc, Bool.not_false, if_true, Bool.false_eq_true, if_false]
      refine .cons ⟨rfl, fun v => ?_⟩ ih
      dsimp only
      cases hs : src c.key with
      | none => simp
      | some e =>
        obtain ⟨v', l⟩ := e
        cases l with
        | none => simp
        | some m =>
          dsimp only
          by_cases hm : m < li.seq
          · rw [if_pos hm]
            constructor
            · intro h; cases h
            · rintro ⟨l, hl, hx⟩
              simp only [Option.some.injEq, Prod.mk.injEq] at hl
              have := hx m hl.2.symm
              omega
          · rw [if_neg hm]
            constructor
            · intro h; injection h with h; subst h; exact ⟨_, rfl, fun m' hm' => by injection hm' with hm'; omega⟩
            · rintro ⟨l, hl, _⟩
              simp only [Option.some.injEq, Prod.mk.injEq] at hl
              rw [hl.1]

/-! ### C59: extensions -/

/-- C59: the simulation of an extension succeeds exactly if all keys are of kinds with lifetimes and the entries that exist are alive (and the new
last ledger and the transaction fit their types). -/
theorem C59_extend_succeeds (P : Kinds K V) (src : K → Option (Entry V)) (n : NetConfig) (a : Adjust) (li : LedgerInfo)
    (keys : List K) (extendTo : Nat) (hfit : (keys.map P.keySize).sum + 1928 ≤ 16777216) :
    (∃ d, simulateExtend P src n a li keys extendTo = .ok d) ↔
      li.seq + extendTo ≤ u32Max ∧
      ∀ k ∈ keys, (P.durability k).isSome ∧ ∀ v l, src k = some (v, l) → ∃ m, l = some m ∧ li.seq ≤ m := by
  constructor
  · rintro ⟨d, h⟩
    unfold simulateExtend at h
    obtain ⟨x, hx, _⟩ := sbind_ok.mp h
    unfold extendResources at hx
    by_cases hc : u32Max < li.seq + extendTo
    · rw [if_pos hc] at hx; cases hx
    · rw [if_neg hc] at hx
      obtain ⟨l, hl, _⟩ := sbind_ok.mp hx
      refine ⟨Nat.le_of_not_lt hc, fun k hk => ?_⟩
      obtain ⟨y, hy⟩ := collect_all hl k hk
      exact (extendKey_iff (Nat.le_add_right _ _) k).2 y hy
  · rintro ⟨h1, h2⟩
    have hl := collect_ok (f := extendKey P src li.seq (li.seq + extendTo)) (g := extension P src (li.seq + extendTo)) (ks := keys)
      (fun k hk => (extendKey_iff (Nat.le_add_right _ _) k).1 (h2 k hk))
    have hx : ∃ x, extendResources P src li.seq extendTo keys = .ok x ∧ x.1.footprint.readOnly.Perm
        (keys.filter fun k => (extension P src (li.seq + extendTo) k).isSome) ∧ x.1.footprint.readWrite = [] := by
      unfold extendResources
      rw [if_neg (Nat.not_lt.mpr h1)]
      refine ⟨_, sbind_ok.mpr ⟨_, hl, rfl⟩, ?_, rfl⟩
      dsimp only
      rw [fst_filterMap]
      exact List.mergeSort_perm _ _
    obtain ⟨x, hx, hp, hrw⟩ := hx
    have hs : (x.1.footprint.readOnly.map P.keySize).sum ≤ (keys.map P.keySize).sum := by
      rw [(hp.map P.keySize).sum_nat]
      exact sum_filter_le _ _ _
    obtain ⟨d, hd⟩ := finish_fits (P := P) (n := n) (seq := li.seq) (a := a) (op := extendOpSize) (r := x.1) (restored := [])
      (ev := 0) (rent := x.2) (by rw [hrw]; simp only [extendOpSize, maxXdrLen, List.length_nil, List.map_nil, List.sum_nil]; omega)
    exact ⟨d, sbind_ok.mpr ⟨x, hx, hd⟩⟩

/-- C59: the simulation of an extension declares exactly the keys whose entries live less long than asked, in order and as read-only, and nothing
else; and its fee is enough for the transaction and the rent of extending exactly these. -/
theorem C59_extend {P : Kinds K V} {src : K → Option (Entry V)} {n : NetConfig} {a : Adjust} {li : LedgerInfo}
    {keys : List K} {extendTo : Nat} {d : TxData K} (h : simulateExtend P src n a li keys extendTo = .ok d) :
    (Ordered P → Lists P d.resources.footprint.readOnly keys (fun k => (extension P src (li.seq + extendTo) k).isSome)) ∧
    d.resources.footprint.readWrite = [] ∧ d.resources.instructions = 0 ∧ d.resources.diskReadBytes = 0 ∧ d.resources.writeBytes = 0 ∧
    d.archived = none ∧
    (Sane n → ∀ e : Envelope K, Valid e → Carries e 12 d →
      charged n (resourcesOf P d (txBytes P.keySize e) 0)
        (Fees.computeRentFee (keys.filterMap (extension P src (li.seq + extendTo))) n.rent li.seq) ≤ d.resourceFee) := by
  unfold simulateExtend at h
  obtain ⟨x, hx, hf⟩ := sbind_ok.mp h
  unfold extendResources at hx
  by_cases hc : u32Max < li.seq + extendTo
  · rw [if_pos hc] at hx; cases hx
  rw [if_neg hc] at hx
  obtain ⟨l, hl, hx⟩ := sbind_ok.mp hx
  have hl' := collect_ok (f := extendKey P src li.seq (li.seq + extendTo)) (g := extension P src (li.seq + extendTo)) (ks := keys)
    (fun k hk => by
      obtain ⟨y, hy⟩ := collect_all hl k hk
      exact (extendKey_iff (Nat.le_add_right _ _) k).1 ((extendKey_iff (Nat.le_add_right _ _) k).2 y hy))
  rw [hl'] at hl
  injection hl with hl
  injection hx with hx
  subst hx
  obtain ⟨size, _, h1, h2, _⟩ := finish_ok hf
  refine ⟨fun ho => ?_, by rw [h1]; rfl, by rw [h1]; rfl, by rw [h1]; rfl, by rw [h1]; rfl, h2, fun hn e hv hce => ?_⟩
  · rw [h1]
    simp only [Adjust.resources]
    rw [← hl, fst_filterMap]
    exact ⟨List.mergeSort_perm _ _, List.pairwise_mergeSort ho.1 ho.2 _⟩
  · rw [txBytes_eq]
    refine finish_covers hf hn hv hce (le_refl _) (le_of_eq ?_)
    dsimp only
    rw [← hl]
    have := snd_filterMap (extension P src (li.seq + extendTo)) id keys
    simp only [Option.map_id, id] at this
    exact congrArg (fun l => Fees.computeRentFee l n.rent li.seq) this.symm

/-! ### C59: restorations -/

/-- C59: the simulation of a restoration succeeds exactly if all keys are of persistent kinds with lifetimes and have entries (and the lifetime of restored
entries and the transaction fit their types). -/
theorem C59_restore_succeeds (P : Kinds K V) (src : K → Option (Entry V)) (n : NetConfig) (a : Adjust) (li : LedgerInfo)
    (keys : List K) (hfit : (keys.map P.keySize).sum + 1924 ≤ 16777216) :
    (∃ d, simulateRestore P src n a li keys = .ok d) ↔
      (li.minLiveUntil .persistent).isSome ∧
      ∀ k ∈ keys, P.durability k = some .persistent ∧ ∃ v m, src k = some (v, some m) := by
  constructor
  · rintro ⟨d, h⟩
    unfold simulateRestore at h
    obtain ⟨x, hx, _⟩ := sbind_ok.mp h
    unfold restoreResources at hx
    cases hm : li.minLiveUntil .persistent with
    | none => rw [hm] at hx; cases hx
    | some t =>
      rw [hm] at hx
      obtain ⟨l, hl, _⟩ := sbind_ok.mp hx
      refine ⟨rfl, fun k hk => ?_⟩
      obtain ⟨y, hy⟩ := collect_all hl k hk
      exact (restoreKey_iff k).2 y hy
  · rintro ⟨h1, h2⟩
    obtain ⟨t, ht⟩ := Option.isSome_iff_exists.mp h1
    have hl := collect_ok (f := restoreKey P src li.seq t) (ks := keys) (fun k hk => (restoreKey_iff k).1 (h2 k hk))
    have hx : ∃ x, restoreResources P src li keys = .ok x ∧ x.1.footprint.readWrite.Perm
        (keys.filter fun k => (archivedAt src li.seq k).isSome) ∧ x.1.footprint.readOnly = [] := by
      unfold restoreResources
      rw [ht]
      refine ⟨_, sbind_ok.mpr ⟨_, hl, rfl⟩, ?_, rfl⟩
      dsimp only
      rw [fst_filterMap]
      simp only [Option.isSome_map]
      exact List.mergeSort_perm _ _
    obtain ⟨x, hx, hp, hro⟩ := hx
    have hs : (x.1.footprint.readWrite.map P.keySize).sum ≤ (keys.map P.keySize).sum := by
      rw [(hp.map P.keySize).sum_nat]
      exact sum_filter_le _ _ _
    obtain ⟨d, hd⟩ := finish_fits (P := P) (n := n) (seq := li.seq) (a := a) (op := restoreOpSize) (r := x.1) (restored := [])
      (ev := 0) (rent := x.2) (by rw [hro]; simp only [restoreOpSize, maxXdrLen, List.length_nil, List.map_nil, List.sum_nil]; omega)
    exact ⟨d, sbind_ok.mpr ⟨x, hx, hd⟩⟩

/-- C59: the simulation of a restoration declares exactly the keys whose entries are archived, in order and as read-write; it declares reading and
writing at least their bytes; and its fee is enough for the transaction and the rent of restoring exactly these, as new entries, with
the minimum lifetime. -/
theorem C59_restore {P : Kinds K V} {src : K → Option (Entry V)} {n : NetConfig} {a : Adjust} {li : LedgerInfo}
    {keys : List K} {d : TxData K} (h : simulateRestore P src n a li keys = .ok d) :
    ∃ target, li.minLiveUntil .persistent = some target ∧
    (Ordered P → Lists P d.resources.footprint.readWrite keys (fun k => (archivedAt src li.seq k).isSome)) ∧
    d.resources.footprint.readOnly = [] ∧ d.resources.instructions = 0 ∧ d.archived = none ∧
    min ((keys.filterMap (archivedAt src li.seq)).map P.xdrSize).sum u32Max ≤ d.resources.diskReadBytes ∧
    min ((keys.filterMap (archivedAt src li.seq)).map P.xdrSize).sum u32Max ≤ d.resources.writeBytes ∧
    (Sane n → ∀ e : Envelope K, Valid e → Carries e 8 d →
      charged n (resourcesOf P d (txBytes P.keySize e) 0)
        (Fees.computeRentFee (keys.filterMap (restoration P src li.seq target)) n.rent li.seq) ≤ d.resourceFee) := by
  unfold simulateRestore at h
  obtain ⟨x, hx, hf⟩ := sbind_ok.mp h
  unfold restoreResources at hx
  cases hm : li.minLiveUntil .persistent with
  | none => rw [hm] at hx; cases hx
  | some t =>
  rw [hm] at hx
  obtain ⟨l, hl, hx⟩ := sbind_ok.mp hx
  have hl' := collect_ok (f := restoreKey P src li.seq t) (ks := keys)
    (fun k hk => by
      obtain ⟨y, hy⟩ := collect_all hl k hk
      exact (restoreKey_iff k).1 ((restoreKey_iff k).2 y hy))
  rw [hl'] at hl
  injection hl with hl
  injection hx with hx
  subst hx
  obtain ⟨size, _, h1, h2, _⟩ := finish_ok hf
  have hb : l.foldl (fun n x => satAddU32 n x.2.1) 0 =
      min ((keys.filterMap (archivedAt src li.seq)).map P.xdrSize).sum u32Max := by
    rw [satSum (fun x : K × Nat × Fees.RentChange => x.2.1) l 0 (Nat.zero_le _), Nat.zero_add]
    refine congrArg (fun m => min m u32Max) ?_
    have := snd_filterMap (fun k => (archivedAt src li.seq k).map fun v => (P.xdrSize v, asNew P t k v)) Prod.fst keys
    rw [hl] at this
    rw [this]
    simp only [Option.map_map, Function.comp_def]
    rw [List.map_filterMap]
  have hu : l.foldl (fun n x => satAddU32 n x.2.1) 0 ≤ u32Max := by rw [hb]; exact min_le_right _ _
  refine ⟨t, rfl, fun ho => ?_, by rw [h1]; rfl, by rw [h1]; rfl, h2, ?_, ?_, fun hn e hv hce => ?_⟩
  · rw [h1]
    simp only [Adjust.resources]
    rw [← hl, fst_filterMap]
    simp only [Option.isSome_map]
    exact ⟨List.mergeSort_perm _ _, List.pairwise_mergeSort ho.1 ho.2 _⟩
  · rw [h1, ← hb]; exact adjustU32_ge _ hu
  · rw [h1, ← hb]; exact adjustU32_ge _ hu
  · rw [txBytes_eq]
    refine finish_covers hf hn hv hce (le_refl _) (le_of_eq ?_)
    dsimp only
    have := snd_filterMap (fun k => (archivedAt src li.seq k).map fun v => (P.xdrSize v, asNew P t k v)) Prod.snd keys
    rw [hl] at this
    rw [this]
    simp only [Option.map_map, Function.comp_def]
    rfl

/-! ### C59: reading archived entries as if they were restored -/

variable [DecidableEq K]

theorem autoRestoring_run {P : Kinds K V} (s : AutoRestoring K V) (os : List (SrcOp K)) :
    (s.run P os).src = s.src ∧ (s.run P os).minLive = s.minLive ∧ (s.run P os).seq = s.seq := by
  unfold AutoRestoring.run
  induction os generalizing s with
  | nil => exact ⟨rfl, rfl, rfl⟩
  | cons o os ih =>
    have h := ih (s.step P o)
    rw [List.foldl_cons]
    have h1 : (s.step P o).src = s.src ∧ (s.step P o).minLive = s.minLive ∧ (s.step P o).seq = s.seq := by
      cases o with
      | reset => exact ⟨rfl, rfl, rfl⟩
      | get k =>
        simp only [AutoRestoring.step, AutoRestoring.get]
        repeat' split
        all_goals exact ⟨rfl, rfl, rfl⟩
    exact ⟨h.1.trans h1.1, h.2.1.trans h1.2.1, h.2.2.trans h1.2.2⟩

omit [DecidableEq K] in
theorem autoRestoring_new {src : K → Option (Entry V)} {li : LedgerInfo} {s : AutoRestoring K V} (h : AutoRestoring.new src li = .ok s) :
    li.minLiveUntil .persistent = some s.minLive ∧ s.src = src ∧ s.seq = li.seq ∧ s.restored = [] := by
  unfold AutoRestoring.new at h
  cases hm : li.minLiveUntil .persistent with
  | none => rw [hm] at h; cases h
  | some m => rw [hm] at h; injection h with h; subst h; exact ⟨rfl, rfl, rfl, rfl⟩

/-- C59: through the automatically restoring source, the ledger reads as contracts see it, whatever was read before. -/
theorem C59_reads_restored {E : Env K V} {P : Kinds K V} (hP : P.durability = E.keys.durability) {src : K → Option (Entry V)}
    (h : SnapshotOk E src) {s : AutoRestoring K V} (hn : AutoRestoring.new src E.li = .ok s) (os : List (SrcOp K)) (k : K) :
    ((s.run P os).get P k).2 = .ok (view E k (src k)) := by
  obtain ⟨n1, n2, n3, _⟩ := autoRestoring_new hn
  obtain ⟨r1, r2, r3⟩ := autoRestoring_run (P := P) s os
  unfold AutoRestoring.get view
  rw [r1, r2, r3, n2, n3, hP]
  cases hs : src k with
  | none => rfl
  | some e =>
    obtain ⟨v, l⟩ := e
    cases hd : E.keys.durability k with
    | none => rfl
    | some d =>
      cases l with
      | none => exact absurd hd (h.1 k v d hs)
      | some l =>
        dsimp only
        by_cases hl : l < E.li.seq
        · rw [if_pos hl, if_neg (Nat.not_le.mpr hl)]
          cases d with
          | temporary => rfl
          | persistent => dsimp only; rw [n1]
        · rw [if_neg hl, if_pos (Nat.not_lt.mp hl)]

/-- C59: the source remembers exactly the archived persistent entries read since it was last reset, each once. -/
theorem C59_remembers_restored {P : Kinds K V} {li : LedgerInfo} {src : K → Option (Entry V)} {s : AutoRestoring K V}
    (hn : AutoRestoring.new src li = .ok s) (os : List (SrcOp K)) :
    (s.run P os).restored.Nodup ∧
    ∀ k, k ∈ (s.run P os).restored ↔
      k ∈ readSince os ∧ P.durability k = some .persistent ∧ (archivedAt src li.seq k).isSome := by
  obtain ⟨n1, n2, n3, n4⟩ := autoRestoring_new hn
  induction os using List.reverseRecOn with
  | nil =>
    have e : (s.run P []).restored = [] := n4
    rw [e]
    exact ⟨List.nodup_nil, fun k => by simp [readSince]⟩
  | append_singleton os o ih =>
    obtain ⟨r1, r2, r3⟩ := autoRestoring_run (P := P) s os
    have e : s.run P (os ++ [o]) = (s.run P os).step P o := by
      unfold AutoRestoring.run; rw [List.foldl_append]; rfl
    rw [e]
    cases o with
    | reset =>
      have e2 : readSince (os ++ [SrcOp.reset]) = ([] : List K) := by unfold readSince; rw [List.foldl_append]; rfl
      rw [e2]
      refine ⟨List.nodup_nil, fun k => ?_⟩
      simp [AutoRestoring.step, AutoRestoring.reset]
    | get k' =>
      have e2 : readSince (os ++ [SrcOp.get k']) = readSince os ++ [k'] := by unfold readSince; rw [List.foldl_append]; rfl
      rw [e2]
      generalize hq : s.run P os = q at *
      have main : (P.durability k' = some .persistent ∧ (archivedAt src li.seq k').isSome ∧
          (q.step P (.get k')).restored = if k' ∈ q.restored then q.restored else k' :: q.restored) ∨
          (¬(P.durability k' = some .persistent ∧ (archivedAt src li.seq k').isSome) ∧ (q.step P (.get k')).restored = q.restored) := by
        simp only [AutoRestoring.step, AutoRestoring.get, archivedAt, r1, n2, r3, n3]
        cases hs : src k' with
        | none => right; exact ⟨fun h => by simp at h, rfl⟩
        | some e =>
          obtain ⟨v, l⟩ := e
          cases hd : P.durability k' with
          | none => right; exact ⟨fun h => by simp at h, rfl⟩
          | some d =>
            cases l with
            | none => right; exact ⟨fun h => by simp at h, rfl⟩
            | some l =>
              dsimp only
              by_cases hl : l < li.seq
              · simp only [if_pos hl]
                cases d with
                | temporary => right; exact ⟨fun h => by simp at h, rfl⟩
                | persistent => left; exact ⟨rfl, rfl, rfl⟩
              · simp only [if_neg hl]; right; exact ⟨fun h => by simp at h, trivial⟩
      rcases main with ⟨m1, m2, m3⟩ | ⟨m1, m2⟩
      · rw [m3]
        by_cases hk : k' ∈ q.restored
        · rw [if_pos hk]
          refine ⟨ih.1, fun k => ?_⟩
          rw [ih.2 k]
          simp only [List.mem_append, List.mem_singleton]
          constructor
          · rintro ⟨a, b⟩; exact ⟨Or.inl a, b⟩
          · rintro ⟨a | rfl, b⟩
            · exact ⟨a, b⟩
            · exact (ih.2 k).mp hk
        · rw [if_neg hk]
          refine ⟨List.nodup_cons.mpr ⟨hk, ih.1⟩, fun k => ?_⟩
          rw [List.mem_cons, ih.2 k]
          simp only [List.mem_append, List.mem_singleton]
          constructor
          · rintro (rfl | ⟨a, b⟩)
            · exact ⟨Or.inr rfl, m1, m2⟩
            · exact ⟨Or.inl a, b⟩
          · rintro ⟨a | rfl, b⟩
            · exact Or.inr ⟨a, b⟩
            · exact Or.inl rfl
      · rw [m2]
        refine ⟨ih.1, fun k => ?_⟩
        rw [ih.2 k]
        simp only [List.mem_append, List.mem_singleton]
        constructor
        · rintro ⟨a, b⟩; exact ⟨Or.inl a, b⟩
        · rintro ⟨a | rfl, b⟩
          · exact ⟨a, b⟩
          · exact absurd b m1

/-- C59: the restoration the source then simulates is of exactly these entries: none if there are none, and otherwise a restoration that declares each of
them once. It cannot fail for any other reason than the size of the transaction. -/
theorem C59_restores_what_was_read {P : Kinds K V} (ho : Ordered P) {li : LedgerInfo} {src : K → Option (Entry V)} {s : AutoRestoring K V}
    (hn : AutoRestoring.new src li = .ok s) (os : List (SrcOp K)) (n : NetConfig) (a : Adjust)
    (hfit : ((s.run P os).restored.map P.keySize).sum + 1924 ≤ 16777216) :
    ∃ r, (s.run P os).simulateRestoreKeys P n a li = .ok r ∧
      (r = none ↔ ∀ k ∈ readSince os, ¬(P.durability k = some .persistent ∧ (archivedAt src li.seq k).isSome)) ∧
      ∀ d, r = some d → d.resources.footprint.readWrite.Nodup ∧ d.resources.footprint.readOnly = [] ∧
        ∀ k, k ∈ d.resources.footprint.readWrite ↔
          k ∈ readSince os ∧ P.durability k = some .persistent ∧ (archivedAt src li.seq k).isSome := by
  obtain ⟨n1, n2, n3, n4⟩ := autoRestoring_new hn
  obtain ⟨r1, _, _⟩ := autoRestoring_run (P := P) s os
  obtain ⟨hnd, hmem⟩ := C59_remembers_restored (P := P) hn os
  generalize s.run P os = q at *
  unfold AutoRestoring.simulateRestoreKeys
  cases hq : q.restored with
  | nil =>
    refine ⟨none, rfl, ⟨fun _ k hk hx => ?_, fun _ => rfl⟩, fun d hd => by cases hd⟩
    have := (hmem k).mpr ⟨hk, hx⟩
    rw [hq] at this
    simp at this
  | cons k0 ks =>
    rw [← hq]
    have hne : q.restored.isEmpty = false := by rw [hq]; rfl
    rw [hne, r1, n2]
    have hp := List.mergeSort_perm q.restored P.le
    have hok : ∃ d, simulateRestore P src n a li (q.restored.mergeSort P.le) = .ok d := by
      refine (C59_restore_succeeds P src n a li _ ?_).mpr ⟨by rw [n1]; rfl, fun k hk => ?_⟩
      · rw [(hp.map P.keySize).sum_nat]; exact hfit
      · obtain ⟨_, h1, h2⟩ := (hmem k).mp (hp.mem_iff.mp hk)
        refine ⟨h1, ?_⟩
        unfold archivedAt at h2
        split at h2
        · rename_i v l hs; exact ⟨v, l, hs⟩
        · simp at h2
    obtain ⟨d, hd⟩ := hok
    refine ⟨some d, sbind_ok.mpr ⟨d, hd, rfl⟩, ⟨(fun h => by cases h), fun h => ?_⟩, ?_⟩
    · have := (hmem k0).mp (by rw [hq]; simp)
      exact absurd this.2 (h k0 this.1)
    · intro d' hd'
      injection hd' with hd'
      subst hd'
      obtain ⟨t, _, hl, hro, _⟩ := C59_restore hd
      have hl := (hl ho).1
      have hall : (q.restored.mergeSort P.le).filter (fun k => (archivedAt src li.seq k).isSome) = q.restored.mergeSort P.le := by
        refine List.filter_eq_self.mpr fun k hk => ?_
        exact ((hmem k).mp (hp.mem_iff.mp hk)).2.2
      rw [hall] at hl
      have hl := hl.trans hp
      exact ⟨hl.nodup_iff.mpr hnd, hro, fun k => by rw [hl.mem_iff]; exact hmem k⟩

/-- C59: running over the automatically restoring source gives contracts the same results as running over the ledger itself, where the host
restores archived entries: whatever a program does, it cannot tell them apart. -/
theorem C59_restoring_is_transparent {E : Env K V} {src : K → Option (Entry V)} (h : SnapshotOk E src) (hf : E.feature = true)
    {p : Prog K V} (hp : ProgOk E p) :
    (runProg E p (recording (fun k => view E k (src k)))).2 = (runProg E p (recording src)).2 := by
  obtain ⟨m, hm⟩ := Option.isSome_iff_exists.mp h.2
  have hseq : E.li.seq ≤ m := by
    unfold LedgerInfo.minLiveUntil checkedAddU32 at hm
    dsimp only at hm
    generalize u32Max = M at hm
    split at hm
    · injection hm with hm; omega
    · cases hm
  have hvv : ∀ k, view E k (view E k (src k)) = view E k (src k) := by
    intro k
    unfold view
    cases hs : src k with
    | none => rfl
    | some e =>
      obtain ⟨v, l⟩ := e
      cases hd : E.keys.durability k with
      | none => rfl
      | some d =>
        cases l with
        | none => rfl
        | some l =>
          dsimp only
          by_cases hl : E.li.seq ≤ l
          · simp only [if_pos hl]
          · simp only [if_neg hl]
            cases d with
            | temporary => rfl
            | persistent => simp only [hm]; rw [if_pos hseq]
  have h' : SnapshotOk E (fun k => view E k (src k)) := by
    refine ⟨fun k v d hk hd => ?_, h.2⟩
    unfold view at hk
    dsimp only at hk
    rw [hd] at hk
    cases hs : src k with
    | none => rw [hs] at hk; cases hk
    | some e =>
      obtain ⟨v', l⟩ := e
      cases l with
      | none => exact h.1 k v' d hs hd
      | some l =>
        rw [hs] at hk
        dsimp only at hk
        by_cases hl : E.li.seq ≤ l
        · rw [if_pos hl] at hk; cases hk
        · rw [if_neg hl, hm] at hk
          cases d with
          | temporary => cases hk
          | persistent => cases hk
  rw [C18_recording_is_a_ledger h' hf hp, C18_recording_is_a_ledger h hf hp]
  simp only [hvv]

end

/-! ### C59: accounts -/

/-- C59: bringing an account up to date adds the extensions that are missing, and changes nothing the account says. Doing it again changes nothing. -/
theorem C59_account_update {C S : Type} (a : AccountEntry C S) :
    full (updateAccount a) ∧ updateAccount (updateAccount a) = updateAccount a ∧
    (updateAccount a).core = a.core ∧ (updateAccount a).signers = a.signers ∧
    liabilities (updateAccount a) = liabilities a ∧ sponsorships (updateAccount a) = sponsorships a ∧
    (∀ i, sponsor (updateAccount a) i = sponsor a i) ∧ seqInfo (updateAccount a) = seqInfo a ∧
    (a.signers.length ≤ 20 → Spec.v2 a = none → ∃ x, Spec.v2 (updateAccount a) = some x ∧ x.sponsors.length = a.signers.length) ∧
    (full a → updateAccount a = a) := by
  obtain ⟨c, sg, e1⟩ := a
  cases e1 with
  | none =>
    refine ⟨rfl, rfl, rfl, rfl, rfl, rfl, fun i => ?_, rfl, fun h _ => ⟨_, rfl, ?_⟩, fun h => by simp [full, Spec.v2] at h⟩
    · simp only [sponsor, Spec.v2, updateAccount, fillV2, fillV3, Option.bind_some, Option.bind_none]
      by_cases hs : sg.length ≤ 20
      · rw [if_pos hs]
        by_cases hi : i < sg.length
        · simp [hi]
        · simp [hi]
      · rw [if_neg hs]; rfl
    · simp only [fillV3] at *
      have h' : sg.length ≤ 20 := h
      simp [h']
  | some x =>
    obtain ⟨b, s, e2⟩ := x
    cases e2 with
    | none =>
      refine ⟨rfl, rfl, rfl, rfl, rfl, rfl, fun i => ?_, rfl, fun h _ => ⟨_, rfl, ?_⟩, fun h => by simp [full, Spec.v2] at h⟩
      · simp only [sponsor, Spec.v2, updateAccount, fillV2, fillV3, Option.bind_some]
        by_cases hs : sg.length ≤ 20
        · rw [if_pos hs]
          by_cases hi : i < sg.length
          · simp [hi]
          · simp [hi]
        · rw [if_neg hs]; rfl
      · simp only [fillV3] at *
        have h' : sg.length ≤ 20 := h
        simp [h']
    | some y =>
      obtain ⟨y1, y2, y3, y4⟩ := y
      cases y4 with
      | none => exact ⟨rfl, rfl, rfl, rfl, rfl, rfl, fun i => rfl, rfl, (fun _ h => by cases h), (fun h => by simp [full, Spec.v2] at h)⟩
      | some z => exact ⟨rfl, rfl, rfl, rfl, rfl, rfl, fun i => rfl, rfl, (fun _ h => by cases h), fun _ => rfl⟩

/-- C59: through the simulation's own source the ledger reads with all accounts brought up to date and nothing else changed, whatever was read before. -/
theorem C59_simulation_source {K C S O : Type} [DecidableEq K] (src : K → Option (Entry (LEntry C S O))) (ks : List K) :
    ((SimSrc.new src).gets ks).2 = ks.map (updated src) := by
  suffices h : ∀ (ks : List K) (s : SimSrc K C S O), s.src = src → (∀ k e, s.cache.get k = some e → e = updated src k) →
      (s.gets ks).2 = ks.map (updated src) from
    h ks _ rfl (by intro k e h; simp [SimSrc.new, FMap.get] at h)
  intro ks
  induction ks with
  | nil => intro s _ _; rfl
  | cons k ks ih =>
    intro s hs hc
    have main : (s.get k).2 = updated src k ∧ (s.get k).1.src = src ∧
        ∀ k' e, (s.get k).1.cache.get k' = some e → e = updated src k' := by
      unfold SimSrc.get
      cases hg : s.cache.get k with
      | some e => exact ⟨hc k e hg, hs, hc⟩
      | none =>
        dsimp only
        have hu : updated src k = (s.src k).map fun e =>
            (match e.1 with | .account a => .account (updateAccount a) | .other o => .other o, e.2) := by rw [hs]; rfl
        cases he : s.src k with
        | none => rw [he] at hu; exact ⟨hu.symm, hs, hc⟩
        | some e =>
          rw [he] at hu
          obtain ⟨x, l⟩ := e
          cases x with
          | other o => exact ⟨hu.symm, hs, hc⟩
          | account a =>
            refine ⟨hu.symm, hs, fun k' e' h' => ?_⟩
            rw [FMap.get_insert] at h'
            split at h'
            · rename_i hk; injection h' with h'; rw [hk, hu, ← h']; rfl
            · exact hc k' e' h'
    simp only [SimSrc.gets, List.map_cons, main.1]
    rw [ih _ main.2.1 main.2.2]

end Soroban.Props

/-! ### A concrete ledger: keys 1, 2 and 4 are persistent, 3 is temporary, 9 is an account; at ledger 100 the entry at 1 is archived, 2 lives until
120, 3 until 130, 4 until 1000. -/
namespace Soroban.Props.SimCase
open Soroban Soroban.Storage Soroban.E2e Soroban.Simulation Soroban.Simulation.Spec

def kinds : Kinds Nat Nat :=
  { durability := fun k => if k = 3 then some .temporary else if k = 9 then none else some .persistent
    isSoroban := fun k => k ≠ 9, isCode := fun k => k = 2, le := fun a b => decide (a ≤ b)
    keySize := fun _ => 40, xdrSize := id, rentSize := id }
def src : Nat → Option (Entry Nat)
  | 1 => some (300, some 50)
  | 2 => some (700, some 120)
  | 3 => some (100, some 130)
  | 4 => some (200, some 1000)
  | 9 => some (90, none)
  | _ => none
def li : LedgerInfo := { seq := 100, minTemp := 16, minPersistent := 4096, maxTtl := 100000 }
def net : NetConfig :=
  { fees := ⟨100, 100, 100, 100, 100, 100, 100, 100⟩, rent := ⟨100, 1000, 100, 1000, 2000⟩ }
/-- Ten per cent and 50 on top. -/
def factor : Factor := { mulU32 := fun n => n * 11 / 10, mulI64 := fun n => n.toNat * 11 / 10, add := 50 }
def adj : Adjust := ⟨factor, factor, factor, factor, factor⟩

theorem ordered : Ordered kinds := by
  refine ⟨fun a b c h1 h2 => ?_, fun a b => ?_⟩
  · simp only [kinds, decide_eq_true_eq] at *; omega
  · simp only [kinds, Bool.or_eq_true, decide_eq_true_eq]; omega
theorem sane : Sane net := by
  unfold Sane Fees.Spec.FeeConfiguration.Sane Fees.Spec.RentSane net
  decide

/-- Extending by 100 ledgers extends 3 and 2, not 4, which lives longer, and not 7, which does not exist. -/
example : ∃ d, simulateExtend kinds src net adj li [3, 7, 4, 2] 100 = .ok d :=
  (Props.C59_extend_succeeds kinds src net adj li [3, 7, 4, 2] 100 (by decide)).mpr
    ⟨by decide, by
      intro k hk
      simp only [List.mem_cons, List.not_mem_nil, or_false] at hk
      rcases hk with rfl | rfl | rfl | rfl
      · exact ⟨rfl, fun v l h => by cases h; exact ⟨_, rfl, by decide⟩⟩
      · exact ⟨rfl, fun v l h => by cases h⟩
      · exact ⟨rfl, fun v l h => by cases h; exact ⟨_, rfl, by decide⟩⟩
      · exact ⟨rfl, fun v l h => by cases h; exact ⟨_, rfl, by decide⟩⟩⟩
example : [3, 7, 4, 2].filter (fun k => (extension kinds src (li.seq + 100) k).isSome) = [3, 2] := by decide
/-- The documentation says that this fails only for a misconfigured ledger; it also fails for an archived entry and for an account. -/
example : ¬∃ d, simulateExtend kinds src net adj li [1] 100 = .ok d := by
  rw [Props.C59_extend_succeeds kinds src net adj li [1] 100 (by decide)]
  rintro ⟨_, h⟩
  obtain ⟨m, h1, h2⟩ := (h 1 (by simp)).2 300 _ rfl
  cases h1
  revert h2; decide
example : ¬∃ d, simulateExtend kinds src net adj li [9] 100 = .ok d := by
  rw [Props.C59_extend_succeeds kinds src net adj li [9] 100 (by decide)]
  rintro ⟨_, h⟩
  have := (h 9 (by simp)).1
  revert this; decide
/-- Restoring 4 and 1 restores 1. -/
example : ∃ d, simulateRestore kinds src net adj li [4, 1] = .ok d :=
  (Props.C59_restore_succeeds kinds src net adj li [4, 1] (by decide)).mpr
    ⟨by decide, by
      intro k hk
      simp only [List.mem_cons, List.not_mem_nil, or_false] at hk
      rcases hk with rfl | rfl
      · exact ⟨rfl, _, _, rfl⟩
      · exact ⟨rfl, _, _, rfl⟩⟩
example : [4, 1].filter (fun k => (archivedAt src li.seq k).isSome) = [1] := by decide
/-- Reading 1, 4 and 1 again through the restoring source remembers 1. -/
example : ∃ s, AutoRestoring.new src li = .ok s ∧ (s.run kinds [.get 1, .get 4, .get 1]).restored = [1] :=
  ⟨_, rfl, by decide⟩
example : readSince [SrcOp.get 5, .reset, .get 1, .get 4] = [1, 4] := rfl

/-- An invocation that used 1000 instructions, read an account and wrote two entries, one of them restored. -/
def recorded : Recorded Nat Nat Unit :=
  { resources := { footprint := { readOnly := [9], readWrite := [1, 4] }, instructions := 1000, diskReadBytes := 390, writeBytes := 0 }
    restored := [0], auth := [()], eventsSize := 64
    changes := [⟨true, 9, 0, none, 0, none⟩, ⟨false, 1, 0, some 301, 301, none⟩, ⟨false, 4, 200, none, 0, none⟩] }
example : ∃ s, simulateInvoke kinds src net adj li (fun _ => 200) (some recorded) = .ok s ∧ s.txData.isSome :=
  Props.C58_only_successful.2 recorded rfl (by decide)
example : modifiedEntries src li.seq recorded.changes = [⟨none, some 301⟩, ⟨some 200, none⟩] := by decide
/-- A transaction with one signature that carries the data of that invocation. -/
example : ∃ (d : TxData Nat) (e : Envelope Nat), d.archived = some [0] ∧ Valid e ∧ Carries e 200 d ∧ txBytes kinds.keySize e = 532 :=
  ⟨⟨recorded.resources, 0, some [0]⟩, ⟨false, .time, .text 5, none, 200, recorded.resources.footprint, some [0], [64]⟩, rfl,
    ⟨by decide, by decide, by rintro len ⟨⟩; decide, by rintro _ _ _ _ ⟨⟩⟩, ⟨rfl, rfl, rfl⟩, by decide⟩

end Soroban.Props.SimCase
