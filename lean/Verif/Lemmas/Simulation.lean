import Verif.Spec.Simulation
import Verif.Props.Fees
import Verif.Props.Rent
import Verif.Lemmas.Objects
/-! Lemmas about the simulation (C58, C59). -/
namespace Soroban.Simulation
open Soroban Soroban.Storage Soroban.E2e Soroban.Simulation.Spec Soroban.Fees
variable {K V : Type}

/-- A do-block succeeds if its steps do. -/
theorem sbind_ok {α β : Type} {x : Except SimErr α} {f : α → Except SimErr β} {b : β} :
    x >>= f = .ok b ↔ ∃ a, x = .ok a ∧ f a = .ok b := by
  cases x with
  | error e => constructor <;> intro h <;> [cases h; (obtain ⟨_, h, _⟩ := h; cases h)]
  | ok a => exact ⟨fun h => ⟨a, rfl, h⟩, fun ⟨_, h1, h2⟩ => by cases h1; exact h2⟩

theorem adjustU32_ge (f : Factor) {v : Nat} (h : v ≤ u32Max) : v ≤ f.adjustU32 v := by
  unfold Factor.adjustU32
  split
  · omega
  · refine le_trans ?_ (le_max_left _ _)
    unfold satAddU32
    split <;> omega

theorem adjustU32_le (f : Factor) (v : Nat) : f.adjustU32 v ≤ u32Max := by
  unfold Factor.adjustU32 satAddU32
  split
  · omega
  · refine max_le ?_ (min_le_right _ _)
    split <;> omega

theorem adjustI64_ge (f : Factor) {v : Int} (h : v ≤ i64Max) (h' : i64Min ≤ v) : v ≤ f.adjustI64 v := by
  unfold Factor.adjustI64
  split
  · omega
  · refine le_trans ?_ (le_max_left _ _)
    unfold satI64
    split
    · omega
    · split <;> omega

/-! ### Sizes -/

theorem sum_map_le_replicate {α : Type} {f : α → Nat} {b : Nat} : ∀ {l : List α} {n : Nat}, (∀ x ∈ l, f x ≤ b) → l.length ≤ n →
    (l.map f).sum ≤ n * b
  | [], n, _, _ => by simp
  | x :: l, 0, _, h => by simp at h
  | x :: l, n + 1, hb, h => by
    have h1 := hb x (by simp)
    have h2 := sum_map_le_replicate (l := l) (n := n) (fun y hy => hb y (by simp [hy])) (by simpa using h)
    simp only [List.map_cons, List.sum_cons, Nat.succ_mul]
    omega

theorem varOpaque_mono {a b : Nat} (h : a ≤ b) : varOpaqueSize a ≤ varOpaqueSize b := by
  unfold varOpaqueSize; omega

theorem memo_le {m : Memo} (h : ∀ len, m = .text len → len ≤ 28) : m.size ≤ 36 := by
  cases m with
  | none => decide
  | text len => have := varOpaque_mono (h len rfl); simp only [Memo.size]; have e : varOpaqueSize 28 = 32 := by decide
                omega
  | id => decide
  | hash => decide

theorem optSize_le (b : Bool) (n : Nat) : optSize b n ≤ 4 + n := by cases b <;> simp [optSize]

theorem cond_le {c : Precond} (h : ∀ tb lb ms signers, c = .v2 tb lb ms signers →
    signers.length ≤ 2 ∧ ∀ len, SignerKey.signedPayload len ∈ signers → len ≤ 64) : c.size ≤ 272 := by
  cases c with
  | none => decide
  | time => decide
  | v2 tb lb ms signers =>
    obtain ⟨h1, h2⟩ := h tb lb ms signers rfl
    have hs : (signers.map SignerKey.size).sum ≤ 2 * 104 := by
      refine sum_map_le_replicate (fun x hx => ?_) h1
      cases x with
      | plain => decide
      | signedPayload len =>
        have := varOpaque_mono (h2 len hx)
        have e : varOpaqueSize 64 = 68 := by decide
        simp only [SignerKey.size]; omega
    have a1 := optSize_le tb 16
    have a2 := optSize_le lb 8
    have a3 := optSize_le ms 8
    simp only [Precond.size]
    omega

theorem stringBytes_eq (n : Nat) : stringBytes n = varOpaqueSize n := by unfold stringBytes varOpaqueSize; omega

theorem accountBytes_eq (b : Bool) : accountBytes b = muxedSize b := by cases b <;> rfl

theorem signerBytes_eq : (signerBytes : SignerKey → Nat) = SignerKey.size := by
  funext k
  cases k with
  | plain => rfl
  | signedPayload n => simp only [signerBytes, SignerKey.size, stringBytes_eq]

theorem memoBytes_eq (m : Memo) : memoBytes m = m.size := by
  cases m <;> simp only [memoBytes, Memo.size, stringBytes_eq]

theorem condBytes_eq (c : Precond) : condBytes c = c.size := by
  cases c with
  | none => rfl
  | time => rfl
  | v2 tb lb ms s =>
    simp only [condBytes, Precond.size, optSize, signerBytes_eq]
    cases tb <;> cases lb <;> cases ms <;> simp <;> omega

/-- The sizes of the fields are those of XDR. -/
theorem txBytes_eq (keySize : K → Nat) (e : Envelope K) : txBytes keySize e = e.size keySize := by
  unfold txBytes Envelope.size sorobanDataSize
  simp only [accountBytes_eq, memoBytes_eq, condBytes_eq, stringBytes_eq]
  cases ho : e.opSource <;> cases ha : e.archived <;> simp only [opSourceSize] <;> omega

theorem muxed_le (b : Bool) : muxedSize b ≤ 44 := by cases b <;> decide

/-- The largest envelope. -/
theorem envelope_le {keySize : K → Nat} {e : Envelope K} {op : Nat} {f : LedgerFootprint K} {restored : List Nat} (hv : Valid e)
    (ho : e.opBodySize = op) (hf : e.footprint = f) (ha : e.archived = none ∨ e.archived = some restored) :
    e.size keySize ≤ (maxEnvelope op f restored).size keySize := by
  obtain ⟨h1, h2, h3, h4⟩ := hv
  have s1 := memo_le h3
  have s2 := cond_le h4
  have s3 := muxed_le e.sourceHasId
  have s4 : opSourceSize e.opSource ≤ 48 := by
    cases e.opSource with
    | none => decide
    | some b => have := muxed_le b; simp only [opSourceSize]; omega
  have s5 : (e.signatures.map (fun n => 4 + varOpaqueSize n)).sum ≤ 20 * 72 := by
    refine sum_map_le_replicate (fun x hx => ?_) h1
    have := varOpaque_mono (h2 x hx)
    have e : varOpaqueSize 64 = 68 := by decide
    omega
  have s6 : sorobanDataSize keySize e.footprint e.archived ≤ sorobanDataSize keySize f (some restored) := by
    rw [hf]
    unfold sorobanDataSize
    rcases ha with ha | ha <;> rw [ha] <;> dsimp only <;> omega
  have t : (maxEnvelope op f restored).size keySize =
      44 + 4 + 8 + 272 + 36 + (4 + (48 + op)) + (4 + sorobanDataSize keySize f (some restored)) + (4 + 20 * 72) := by
    have a : (Precond.v2 true true true [.signedPayload 64, .signedPayload 64]).size = 272 := by decide
    have b : ((List.replicate 20 64).map (fun n => 4 + varOpaqueSize n)).sum = 20 * 72 := by decide
    have c : muxedSize true = 44 := by decide
    have d : Memo.hash.size = 36 := by decide
    have o : opSourceSize (some true) = 48 := by decide
    simp only [maxEnvelope, Envelope.size, a, b, c, d, o]
  rw [t]
  unfold Envelope.size
  rw [ho]
  omega

/-! ### What a simulation declares -/

theorem finish_ok {P : Kinds K V} {n : NetConfig} {seq : Nat} {a : Adjust} {op : Nat} {r : Resources K} {restored : List Nat}
    {ev : Nat} {rent : List RentChange} {d : TxData K} (h : finish P n seq a op r restored ev rent = .ok d) :
    ∃ size, estimateMaxSize P.keySize op r.footprint restored = .ok size ∧
      d.resources = a.resources r ∧ d.archived = (if restored.isEmpty then none else some restored) ∧
      d.resourceFee = resourceFee n seq (resourcesOf P d (a.txSize.adjustU32 size) ev) rent a := by
  unfold finish at h
  obtain ⟨x, hx, h⟩ := sbind_ok.mp h
  unfold adjustedResources at hx
  obtain ⟨size, hs, hx⟩ := sbind_ok.mp hx
  injection hx with hx
  injection h with h
  subst hx
  subst h
  refine ⟨size, hs, rfl, rfl, ?_⟩
  have e1 : ((if restored.isEmpty then none else some restored : Option (List Nat)).getD []).length = restored.length := by
    cases restored <;> rfl
  simp only [createTransactionData, resourcesOf, List.filter_append, List.length_append, e1]

theorem estimate_ok {keySize : K → Nat} {op : Nat} {f : LedgerFootprint K} {restored : List Nat} {size : Nat}
    (h : estimateMaxSize keySize op f restored = .ok size) :
    size = (maxEnvelope op f restored).size keySize ∧ size ≤ maxXdrLen := by
  unfold estimateMaxSize at h
  dsimp only at h
  split at h
  · rename_i hc; injection h with h; subst h; exact ⟨rfl, hc⟩
  · cases h

/-- What a simulation declares is enough for every transaction that carries the data. -/
theorem finish_covers {P : Kinds K V} {n : NetConfig} {seq : Nat} {a : Adjust} {op : Nat} {r : Resources K} {restored : List Nat}
    {ev : Nat} {rent : List RentChange} {d : TxData K} (h : finish P n seq a op r restored ev rent = .ok d) (hn : Sane n)
    {e : Envelope K} (hv : Valid e) (hc : Carries e op d) {events : Nat} (he : events ≤ ev) {rentFee : Int}
    (hr : rentFee ≤ computeRentFee rent n.rent seq) :
    charged n (resourcesOf P d (e.size P.keySize) events) rentFee ≤ d.resourceFee := by
  obtain ⟨size, hs, h1, h2, h3⟩ := finish_ok h
  obtain ⟨hsz, hmax⟩ := estimate_ok hs
  have hfp : d.resources.footprint = r.footprint := by rw [h1]; rfl
  have hle : e.size P.keySize ≤ size := by
    rw [hsz]
    refine envelope_le hv hc.1 (hc.2.1.trans hfp) ?_
    rw [hc.2.2, h2]
    split
    · exact Or.inl rfl
    · exact Or.inr rfl
  have hu : size ≤ u32Max := le_trans hmax (by decide)
  have hge := adjustU32_ge a.txSize hu
  have hmono := Props.C30_resource_fee_monotone (resourcesOf P d (e.size P.keySize) events)
    (resourcesOf P d (a.txSize.adjustU32 size) ev) n.fees n.fees hn.1
    ⟨le_refl _, le_refl _, le_refl _, le_refl _, le_refl _, he, by simp only [resourcesOf]; omega⟩
    ⟨le_refl _, le_refl _, le_refl _, le_refl _, le_refl _, le_refl _, le_refl _, le_refl _⟩
  rw [h3]
  unfold charged resourceFee
  dsimp only
  refine satI64_mono (Int.add_le_add hmono.1 ?_)
  refine le_trans (satI64_mono (Int.add_le_add hmono.2 hr)) ?_
  have hrng := satI64_range ((computeTransactionResourceFee (resourcesOf P d (a.txSize.adjustU32 size) ev) n.fees).2 +
    computeRentFee rent n.rent seq)
  exact adjustI64_ge _ hrng.2 hrng.1

theorem estimate_fits {keySize : K → Nat} {op : Nat} {f : LedgerFootprint K} {restored : List Nat}
    (h : op + 4 * restored.length + (f.readOnly.map keySize).sum + (f.readWrite.map keySize).sum + 1916 ≤ maxXdrLen) :
    ∃ size, estimateMaxSize keySize op f restored = .ok size := by
  unfold estimateMaxSize
  generalize maxXdrLen = M at *
  refine ⟨(maxEnvelope op f restored).size keySize, if_pos ?_⟩
  have a : (Precond.v2 true true true [.signedPayload 64, .signedPayload 64]).size = 272 := by decide
  have b : ((List.replicate 20 64).map (fun n => 4 + varOpaqueSize n)).sum = 20 * 72 := by decide
  have c : muxedSize true = 44 := by decide
  have d : Memo.hash.size = 36 := by decide
  have o : opSourceSize (some true) = 48 := by decide
  simp only [maxEnvelope, Envelope.size, a, b, c, d, o, sorobanDataSize]
  omega

theorem finish_fits {P : Kinds K V} {n : NetConfig} {seq : Nat} {a : Adjust} {op : Nat} {r : Resources K} {restored : List Nat}
    {ev : Nat} {rent : List RentChange}
    (h : op + 4 * restored.length + (r.footprint.readOnly.map P.keySize).sum + (r.footprint.readWrite.map P.keySize).sum + 1916
      ≤ maxXdrLen) : ∃ d, finish P n seq a op r restored ev rent = .ok d := by
  obtain ⟨size, hs⟩ := estimate_fits (keySize := P.keySize) (op := op) (f := r.footprint) (restored := restored) h
  refine ⟨_, sbind_ok.mpr ⟨_, sbind_ok.mpr ⟨size, hs, rfl⟩, rfl⟩⟩

/-! ### The loops -/

theorem collect_ok {α : Type} {f : K → Except SimErr (Option α)} {g : K → Option α} : ∀ {ks : List K}, (∀ k ∈ ks, f k = .ok (g k)) →
    collect f ks = .ok (ks.filterMap fun k => (g k).map (Prod.mk k))
  | [], _ => rfl
  | k :: ks, h => by
    have ih := collect_ok (g := g) (ks := ks) (fun k' hk => h k' (List.mem_cons_of_mem _ hk))
    rw [collect]
    refine sbind_ok.mpr ⟨_, h k (List.mem_cons_self ..), sbind_ok.mpr ⟨_, ih, ?_⟩⟩
    cases hg : g k with
    | none => simp [hg]; rfl
    | some x => simp [hg]; rfl

theorem collect_all {α : Type} {f : K → Except SimErr (Option α)} : ∀ {ks : List K} {l}, collect f ks = .ok l →
    ∀ k ∈ ks, ∃ x, f k = .ok x
  | [], _, _, k, hk => by simp at hk
  | k :: ks, l, h, k', hk => by
    rw [collect] at h
    obtain ⟨x, hx, h⟩ := sbind_ok.mp h
    obtain ⟨r, hr, _⟩ := sbind_ok.mp h
    rcases List.mem_cons.mp hk with rfl | hk
    · exact ⟨x, hx⟩
    · exact collect_all hr k' hk

theorem fst_filterMap {α : Type} (g : K → Option α) : ∀ ks : List K,
    (ks.filterMap fun k => (g k).map (Prod.mk k)).map Prod.fst = ks.filter (fun k => (g k).isSome)
  | [] => rfl
  | k :: ks => by
    have ih := fst_filterMap g ks
    cases hg : g k <;> simp [hg, ih]

theorem snd_filterMap {α β : Type} (g : K → Option α) (f : α → β) : ∀ ks : List K,
    (ks.filterMap fun k => (g k).map (Prod.mk k)).map (fun x => f x.2) = ks.filterMap (fun k => (g k).map f)
  | [] => rfl
  | k :: ks => by
    have ih := snd_filterMap g f ks
    cases hg : g k <;> simp [hg, ih]

theorem sum_filter_le (f : K → Nat) (p : K → Bool) : ∀ l : List K, ((l.filter p).map f).sum ≤ (l.map f).sum
  | [] => le_refl _
  | k :: l => by
    have ih := sum_filter_le f p l
    rw [List.filter_cons]
    split
    · simp only [List.map_cons, List.sum_cons]; omega
    · simp only [List.map_cons, List.sum_cons]; omega

/-- A key that can be in a request for extension: it is of a kind with lifetimes, and its entry, if there is one, is live. -/
def Extendable (P : Kinds K V) (src : K → Option (Entry V)) (seq : Nat) (k : K) : Prop :=
  (P.durability k).isSome ∧ ∀ v l, src k = some (v, l) → ∃ n, l = some n ∧ seq ≤ n

theorem extendKey_iff {P : Kinds K V} {src : K → Option (Entry V)} {seq target : Nat} (ht : seq ≤ target) (k : K) :
    (Extendable P src seq k → extendKey P src seq target k = .ok (extension P src target k)) ∧
    (∀ x, extendKey P src seq target k = .ok x → Extendable P src seq k) := by
  unfold extendKey extension Extendable
  cases hd : P.durability k with
  | none => exact ⟨fun h => by simp at h, fun x h => by cases h⟩
  | some d =>
    dsimp only
    cases hs : src k with
    | none => exact ⟨fun _ => rfl, fun _ _ => ⟨rfl, fun v l h => by cases h⟩⟩
    | some e =>
      obtain ⟨v, l⟩ := e
      cases l with
      | none =>
        dsimp only
        refine ⟨fun h => ?_, fun x h => by cases h⟩
        obtain ⟨_, h, _⟩ := h.2 v none rfl
        cases h
      | some cur =>
        dsimp only
        constructor
        · intro h
          obtain ⟨m, hm, hle⟩ := h.2 v _ rfl
          injection hm with hm
          subst hm
          by_cases hc : target ≤ cur
          · rw [if_pos hc, if_neg (by omega)]
          · rw [if_neg hc, if_neg (by omega), if_pos (by omega)]
            cases d <;> rfl
        · intro x h
          refine ⟨rfl, fun v' l' hvl => ?_⟩
          injection hvl with hvl
          injection hvl with _ hl
          refine ⟨cur, hl.symm, ?_⟩
          by_cases hc : target ≤ cur
          · omega
          · rw [if_neg hc] at h
            by_cases h2 : cur < seq
            · rw [if_pos h2] at h; cases h
            · omega

/-- A key that can be in a request for restoration: it is of a persistent kind, and there is an entry with a lifetime. -/
def Restorable (P : Kinds K V) (src : K → Option (Entry V)) (k : K) : Prop :=
  P.durability k = some .persistent ∧ ∃ v n, src k = some (v, some n)

theorem restoreKey_iff {P : Kinds K V} {src : K → Option (Entry V)} {seq target : Nat} (k : K) :
    (Restorable P src k → restoreKey P src seq target k =
      .ok ((archivedAt src seq k).map fun v => (P.xdrSize v, asNew P target k v))) ∧
    (∀ x, restoreKey P src seq target k = .ok x → Restorable P src k) := by
  unfold restoreKey archivedAt Restorable
  by_cases hd : P.durability k = some .persistent
  · rw [if_pos hd]
    cases hs : src k with
    | none => exact ⟨(fun h => by obtain ⟨_, v', n, hx⟩ := h; cases hx), (fun x h => by cases h)⟩
    | some e =>
      obtain ⟨v, l⟩ := e
      cases l with
      | none => exact ⟨(fun h => by obtain ⟨_, v', n, hx⟩ := h; cases hx), (fun x h => by cases h)⟩
      | some cur =>
        dsimp only
        refine ⟨fun _ => ?_, fun _ _ => ⟨hd, v, cur, rfl⟩⟩
        by_cases hc : seq ≤ cur
        · rw [if_pos hc, if_neg (by omega)]; rfl
        · rw [if_neg hc, if_pos (by omega)]; rfl
  · rw [if_neg hd]
    exact ⟨fun h => absurd h.1 hd, fun x h => by cases h⟩

theorem satSum {α : Type} (f : α → Nat) : ∀ (l : List α) (n : Nat), n ≤ u32Max →
    l.foldl (fun n x => satAddU32 n (f x)) n = min (n + (l.map f).sum) u32Max
  | [], n, h => by simp [h]
  | x :: l, n, h => by
    simp only [List.foldl_cons, List.map_cons, List.sum_cons]
    have h' : satAddU32 n (f x) = min (n + f x) u32Max := by
      unfold satAddU32
      generalize u32Max = M at *
      split <;> omega
    rw [h', satSum f l _ (min_le_right _ _)]
    generalize u32Max = M at *
    omega

end Soroban.Simulation
