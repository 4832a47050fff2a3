import Verif.Lemmas.MeteredClone
/-!
C91: metered copies are paid for.
-/
namespace Soroban.Props
open Soroban Soroban.Clone Soroban.Clone.Spec
open Soroban.Budget hiding memAlloc
open Soroban.Keys (LKey)
open Soroban.Preimage (Exec IdPre XFn XInv)

/-- **C91**, values: a copy is charged for the value itself, and for each block of memory it owns once for the allocation and once for
the copy, by its size; it needs a level of depth for each level of nesting. -/
theorem C91_value (tag : Nat → Option Nat) (v : ScVal) (hw : Whole v) (hs : ∀ n ∈ valBlocks tag v, n ≤ u64Max) :
    CopyOf (cloneVal tag v) 96 (valBlocks tag v) (levels v) :=
  costs_deep (by decide) (val_costs tag v hw hs)

/-- **C91**: values with an absent vector or map are not copied. -/
theorem C91_absent (tag : Nat → Option Nat) (v : ScVal) (hw : ¬ Whole v) : NeverCopies (cloneVal tag v) := (val_never tag v hw).right

/-- **C91**, ledger keys. -/
theorem C91_key (tag : Nat → Option Nat) (k : LKey) :
    match k with
    | .contractData _ v _ => Whole v → (∀ n ∈ valBlocks tag v, n ≤ u64Max) → CopyOf (cloneKey tag k) 152 (keyBlocks tag k) (levels v)
    | .contractCode _ | .account _ | .trustline _ _ => CopyOf (cloneKey tag k) 152 (keyBlocks tag k) 0
    | _ => NeverCopies (cloneKey tag k) := by
  cases k with
  | contractData c v d => exact fun hw hs => costs_deep (by decide) (val_costs tag v hw hs)
  | contractCode h => exact costs_deep (by decide) costs_skip
  | account a => exact costs_deep (by decide) costs_skip
  | trustline a b => exact costs_deep (by decide) costs_skip
  | _ => exact (never_fail _).right

/-- **C91**, ledger entries. -/
theorem C91_entry (tag : Nat → Option Nat) (e : LedgerData) (hs : ∀ n ∈ entryBlocks tag e, n ≤ u64Max) :
    match e with
    | .contractData k v => Whole k → Whole v → CopyOf (cloneEntry tag e) 288 (entryBlocks tag e) (max (levels v) (levels k))
    | .contractCode _ | .account _ _ _ | .trustline => CopyOf (cloneEntry tag e) 288 (entryBlocks tag e) 0
    | .other => NeverCopies (cloneEntry tag e) := by
  cases e with
  | contractData k v =>
    intro hk hv
    have h := (val_costs tag v hv (Sized.left (b := valBlocks tag k) hs)).seq (val_costs tag k hk (Sized.right (a := valBlocks tag v) hs))
    rw [← pay_append] at h
    exact costs_deep (by decide) h
  | contractCode c => exact costs_deep (by decide) (costs_bytes (hs _ (by simp [entryBlocks])))
  | account h s p => exact costs_deep (by decide) (account_costs hs)
  | trustline => exact costs_deep (by decide) costs_skip
  | other => exact (never_fail _).right

/-- **C91**, trees of invocations. -/
theorem C91_invocation (tag : Nat → Option Nat) (x : XInv) (hw : WholeInv x) (ht : Told x) (hs : ∀ n ∈ invBlocks tag x, n ≤ u64Max) :
    CopyOf (cloneInv tag x) 200 (invBlocks tag x) (invLevels x) :=
  costs_deep (by decide) (inv_costs tag x hw ht hs)

/-- **C91**, vectors and maps of the host, and collections from iterators that know their size. -/
theorem C91_containers (n : Nat) (hn : 16 * n ≤ u64Max) :
    CopyOf (cloneHostVec n) 24 [8 * n] 0 ∧ CopyOf (cloneHostMap n) 24 [16 * n] 0 ∧
    (∀ size, size * n ≤ u64Max → CopyOf (meteredCollect size (some n)) 24 [size * n] 0) ∧ ∀ size, NeverCopies (meteredCollect size none) := by
  refine ⟨costs_deep (by decide) (costs_vec (by omega) costs_skip), costs_deep (by decide) (costs_vec hn costs_skip), fun size hsz => ?_,
    fun size => never_fail _⟩
  have h1 : Costs (.seq (heapAlloc size n) (shallowCopy size n)) (pay [size * n]) 0 := by
    unfold heapAlloc shallowCopy
    rw [satMul_small hsz]
    exact (costs_charge memAlloc (size * n)).seq (costs_charge memCpy (size * n))
  exact costs_deep (size := 24) (by decide) h1

private theorem evaluate_ge {m : CostModel} (hm : 128 ≤ m.linTerm) (n : Nat) : min n (2 ^ 57 - 1) ≤ m.evaluate 1 (some n) := by
  unfold CostModel.evaluate
  simp only
  rw [if_neg (by omega), satAddU64_eq, satMulU64_eq, satMulU64_eq, satMulU64_eq, Nat.mul_one, Nat.mul_one, Nat.shiftRight_eq_div_pow]
  have h1 : 128 * n ≤ m.linTerm * n := Nat.mul_le_mul_right n hm
  unfold u64Max
  generalize m.linTerm * n = y at h1 ⊢
  generalize m.constTerm = c
  omega

private theorem chargeAll_mem {mm : CostModel} (hm : 128 ≤ mm.linTerm) : ∀ (cs : List (Nat × Nat)) (b b' : B), b.inShadow = false →
    b.mem.models[memAlloc]? = some mm → b.mem.limit < 2 ^ 57 - 1 → chargeAll cs b = (b', .ok ()) → b.mem.net ≤ b.mem.limit →
    b.mem.net + ((cs.filter (fun c => c.1 = memAlloc)).map (·.2)).sum ≤ b'.mem.net ∧ b'.mem.net ≤ b.mem.limit ∧ b'.mem.limit = b.mem.limit := by
  intro cs
  induction cs with
  | nil => intro b b' _ _ _ h hn; cases h; exact ⟨by simp, hn, rfl⟩
  | cons c cs ih =>
    obtain ⟨ty, n⟩ := c
    intro b b' hr hmm hl h hn
    simp only [chargeAll] at h
    obtain ⟨b1, hb1, hs1, -, -, -, -, hok⟩ := charge_real_cases b ty 1 (some n) hr
    rcases hc : b.charge ty 1 (some n) with ⟨b2, r⟩
    rw [hc] at h hb1 hok
    cases r with
    | error e => cases h
    | ok u =>
      simp only at h hb1
      subst hb1
      obtain ⟨cm, m2, -, h2, -, h4, -, h6⟩ := hok rfl
      have hlim : b1.mem.limit = b.mem.limit := by rw [h4]; rfl
      have hmod : b1.mem.models = b.mem.models := by rw [h4]; rfl
      obtain ⟨i1, i2, i3⟩ := ih b1 b' hs1 (by rw [hmod]; exact hmm) (by omega) h (by omega)
      have hnet : b1.mem.net = min u64Max (b.mem.net + m2.evaluate 1 (some n)) := by
        rw [h4]; rfl
      have hu : 2 ^ 57 - 1 < u64Max := by decide
      generalize u64Max = U at hnet hu
      by_cases ht : ty = memAlloc
      · subst ht
        rw [hmm] at h2
        cases h2
        have he := evaluate_ge hm n
        have hsum : (((memAlloc, n) :: cs).filter (fun c => c.1 = memAlloc)).map (·.2) = n :: (cs.filter (fun c => c.1 = memAlloc)).map (·.2) := by
          simp
        rw [hsum, List.sum_cons]
        refine ⟨?_, by omega, by omega⟩
        omega
      · have hsum : (((ty, n) :: cs).filter (fun c => c.1 = memAlloc)).map (·.2) = (cs.filter (fun c => c.1 = memAlloc)).map (·.2) := by
          simp [ht]
        rw [hsum]
        exact ⟨by omega, by omega, by omega⟩

/-- **C91**: if the network charges at least one unit of memory per byte allocated, what a copy takes on the heap is within what is left
of the memory limit, and is counted in what was used afterwards. -/
theorem C91_bounded {w : Work} {size depth : Nat} {blocks : List Nat} (hc : CopyOf w size blocks depth) {s s' : S} (hd : s.b.depth ≤ u32Max)
    (hr : s.b.inShadow = false) {mm : CostModel} (hmm : s.b.mem.models[1]? = some mm) (h1 : 128 ≤ mm.linTerm)
    (hl : s.b.mem.limit < 2 ^ 57 - 1) (hn : s.b.mem.net ≤ s.b.mem.limit) (h : run w s = (s', .ok ())) :
    s.b.mem.net + blocks.sum ≤ s'.b.mem.net ∧ s'.b.mem.net ≤ s.b.mem.limit ∧ s'.b.mem.limit = s.b.mem.limit := by
  have hok := (hc.ok s hd).mp (by rw [h])
  have hdo := hc.does s hd hok.1
  rw [h] at hdo
  have hs' : s'.b = (chargeAll (charges size blocks) s.b).1 := by
    have := congrArg (fun r => r.1.b) hdo
    exact this
  have := chargeAll_mem h1 (charges size blocks) s.b s'.b hr hmm hl (by rw [hs']; exact Prod.ext rfl hok.2) hn
  have hsum : (((charges size blocks).filter (fun c => c.1 = memAlloc)).map (·.2)).sum = blocks.sum := by
    rw [charges_eq, List.filter_append]
    have h0 : ([(memCpy, size)] : List (Nat × Nat)).filter (fun c => c.1 = memAlloc) = [] := rfl
    rw [h0, List.nil_append]
    have hp : (pay blocks).filter (fun c => c.1 = memAlloc) = blocks.map (fun n => (memAlloc, n)) := by
      induction blocks with
      | nil => rfl
      | cons n bs ih =>
        have hc' : ∀ (bs : List Nat), (pay (n :: bs)).filter (fun c => c.1 = memAlloc) = (memAlloc, n) :: (pay bs).filter (fun c => c.1 = memAlloc) := by
          intro bs; rfl
        rw [hc', List.map_cons]
        congr 1
        clear * -
        induction bs with
        | nil => rfl
        | cons m bs ih => rw [show (pay (m :: bs)).filter (fun c => c.1 = memAlloc) = (memAlloc, m) :: (pay bs).filter (fun c => c.1 = memAlloc) from rfl, List.map_cons, ih]
    rw [hp, List.map_map]
    congr 1
    clear * -
    induction blocks with
    | nil => rfl
    | cons n bs ih => rw [List.map_cons, ih]; rfl
  rw [hsum] at this
  exact this

/-- **C91**, the exception: in a tree with a creation in the first format of a contract that refers to an executable tag, the tag is not
charged for, whatever its length. -/
theorem C91_unpaid_tag (tag : Nat → Option Nat) (id : IdPre) (o : ScAddr) (t : List Nat) :
    invBlocks tag (.mk (.create id (.ref o t)) []) = [t.length, 0] ∧ CopyOf (cloneInv tag (.mk (.create id (.ref o t)) [])) 200 [0] 0 := by
  refine ⟨rfl, costs_deep (by decide) ?_⟩
  exact costs_skip.seq (costs_vec (size := 200) (len := 0) (bs := []) (by decide) costs_skip)

/-- **C91**, the other exception: a copy of an authorization entry is charged for its invocations and not for its signature. -/
theorem C91_unpaid_signature (tag : Nat → Option Nat) (sig : Option ScVal) (x : XInv) (hw : WholeInv x) (ht : Told x)
    (hs : ∀ n ∈ invBlocks tag x, n ≤ u64Max) : CopyOf (cloneAuthEntry tag sig x) 384 (invBlocks tag x) (invLevels x) :=
  costs_deep (by decide) (inv_costs tag x hw ht hs)

/-! ### these cases occur -/

namespace CloneCase

/-- A map from a symbol to a vector of two byte strings. -/
def v : ScVal := .map (some [(.symbol [1, 2, 3], .vec (some [.bytes [1, 2], .bytes [9]]))])
def noTag : Nat → Option Nat := fun _ => none

example : valBlocks noTag v = [192, 3, 192, 2, 1] ∧ levels v = 3 := ⟨rfl, rfl⟩
theorem v_whole : Whole v := ⟨trivial, ⟨trivial, trivial, trivial⟩, trivial⟩
theorem v_copy : CopyOf (cloneVal noTag v) 96 [192, 3, 192, 2, 1] 3 := C91_value noTag v v_whole (by decide)

/-- One unit of CPU per charge and 1/128 per byte; 16 units of memory per allocation and one per byte. -/
def dim (models : List CostModel) (limit : Nat) : Dim := { models := models, limit := limit, net := 0, peak := 0, shadowLimit := limit, shadowNet := 0 }
def tr : Tracker := { iterations := 0, inputs := some 0, cpu := 0, mem := 0 }
def bud (mem : Nat) : S :=
  { b := { cpu := dim [⟨1, 0⟩, ⟨1, 1⟩, ⟨1, 1⟩] 1000, mem := dim [⟨0, 0⟩, ⟨16, 128⟩, ⟨0, 0⟩] mem, trackers := [tr, tr, tr], meterCount := 0,
           inShadow := false, depth := 10 }
    frames := [] }

/-- The copy takes 390 bytes in five blocks. -/
example : (run (cloneVal noTag v) (bud 470)).2 = .ok () ∧ (run (cloneVal noTag v) (bud 470)).1.b.mem.net = 470 := ⟨rfl, by decide⟩
example : (run (cloneVal noTag v) (bud 469)).2 = .error (.host .budget .exceededLimit) := rfl
example : 390 ≤ (run (cloneVal noTag v) (bud 470)).1.b.mem.net :=
  (C91_bounded v_copy (s := bud 470) (s' := (run (cloneVal noTag v) (bud 470)).1) (by decide) rfl (mm := ⟨16, 128⟩) rfl (by decide) (by decide)
    (by decide) rfl).1
/-- Two levels are not enough. -/
example : (run (cloneVal noTag v) { bud 470 with b := { (bud 470).b with depth := 2 } }).2 = .error (.host .context .exceededLimit) := rfl
/-- An absent map. -/
example : ¬ Whole (.vec (some [.map none])) := fun h => h.1
/-- An account with two signers, one of them with a payload, and an invocation with one below it. -/
example : entryBlocks noTag (.account [1] [none, some [1, 2, 3]] (some 2)) = [1, 144, 3, 66] := rfl
def inv : XInv := .mk (.call (.contract 5) [97] [.u32 1, .bytes [1, 2]])
  [.mk (.createV2 ⟨.address (.contract 5) [0], .ref (.contract 6) [1, 2, 3, 4], []⟩) []]
example : invBlocks noTag inv = [1, 192, 2, 200, 4, 0, 0] ∧ invLevels inv = 1 := ⟨rfl, rfl⟩
theorem inv_copy : CopyOf (cloneInv noTag inv) 200 [1, 192, 2, 200, 4, 0, 0] 1 :=
  C91_invocation noTag inv ⟨⟨trivial, trivial, trivial⟩, ⟨trivial, trivial⟩, trivial⟩ ⟨fun h => h, ⟨fun h => h, trivial⟩, trivial⟩ (by decide)

end CloneCase
end Soroban.Props
