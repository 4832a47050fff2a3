import Verif.Lemmas.Budget
import Verif.Spec.MeteredClone
/-!
What metered copies charge.
-/
namespace Soroban.Clone
open Soroban Soroban.Budget Soroban.Clone.Spec
open Soroban.Keys (LKey)
open Soroban.Preimage (Exec XFn XInv)

/-! ### Charges and the depth -/

theorem dims_depth (b : B) (x ty n : Nat) (i : Option Nat) :
    B.chargeDims { b with depth := x } ty n i = ({ (b.chargeDims ty n i).1 with depth := x }, (b.chargeDims ty n i).2) := by
  unfold B.chargeDims B.chargeCpu
  simp only
  cases h1 : b.cpu.charge ty n i b.inShadow with
  | error e => simp only
  | ok r =>
    simp only
    cases h2 : r.1.checkLimit b.inShadow with
    | error e => simp only
    | ok u =>
      simp only
      unfold B.chargeMem
      simp only
      cases h3 : b.mem.charge ty n i b.inShadow with
      | error e => simp only
      | ok r => simp only

theorem charge_depth (b : B) (x ty n : Nat) (i : Option Nat) :
    B.charge { b with depth := x } ty n i = ({ (b.charge ty n i).1 with depth := x }, (b.charge ty n i).2) := by
  unfold B.charge
  simp only
  cases b.trackers[ty]? with
  | none => rfl
  | some t =>
    simp only
    by_cases hs : b.inShadow = true
    · rw [if_pos hs, if_pos hs]; exact dims_depth b x ty n i
    · rw [if_neg hs, if_neg hs]
      by_cases hr : (t.add n i).2 = true
      · rw [if_pos hr, if_pos hr]; exact dims_depth { b with meterCount := satAddU32 b.meterCount 1, trackers := b.trackers.set ty (t.add n i).1 } x ty n i
      · rw [if_neg hr, if_neg hr]

theorem charge_keeps_depth (b : B) (ty n : Nat) (i : Option Nat) : (b.charge ty n i).1.depth = b.depth := by
  have h := charge_depth b b.depth ty n i
  have h1 : (B.charge b ty n i).1 = { (b.charge ty n i).1 with depth := b.depth } := congrArg Prod.fst h
  rw [h1]

theorem chargeAll_depth (cs : List (Nat × Nat)) (b : B) (x : Nat) :
    chargeAll cs { b with depth := x } = ({ (chargeAll cs b).1 with depth := x }, (chargeAll cs b).2) := by
  induction cs generalizing b with
  | nil => rfl
  | cons c cs ih =>
    obtain ⟨ty, n⟩ := c
    simp only [chargeAll]
    rw [charge_depth]
    rcases b.charge ty 1 (some n) with ⟨b1, r⟩
    cases r with
    | error e => rfl
    | ok u => exact ih b1

theorem chargeAll_keeps_depth (cs : List (Nat × Nat)) (b : B) : (chargeAll cs b).1.depth = b.depth := by
  have h := chargeAll_depth cs b b.depth
  have h1 : (chargeAll cs b).1 = { (chargeAll cs b).1 with depth := b.depth } := congrArg Prod.fst h
  rw [h1]

theorem chargeAll_append (xs ys : List (Nat × Nat)) (b : B) :
    chargeAll (xs ++ ys) b = match chargeAll xs b with
      | (b, .error e) => (b, .error e)
      | (b, .ok ()) => chargeAll ys b := by
  induction xs generalizing b with
  | nil => rfl
  | cons c xs ih =>
    obtain ⟨ty, n⟩ := c
    simp only [List.cons_append, chargeAll]
    rcases b.charge ty 1 (some n) with ⟨b1, r⟩
    cases r with
    | error e => rfl
    | ok u => exact ih b1

/-! ### What a computation charges -/

/-- A computation that makes these charges and needs this depth. -/
def Costs (w : Work) (cs : List (Nat × Nat)) (d : Nat) : Prop :=
  ∀ s : S, s.b.depth ≤ u32Max →
    (d ≤ s.b.depth → run w s = ({ s with b := (chargeAll cs s.b).1 }, (chargeAll cs s.b).2)) ∧ (s.b.depth < d → (run w s).2 ≠ .ok ())

theorem costs_skip : Costs .skip [] 0 := fun s _ => ⟨fun _ => rfl, fun h => absurd h (by omega)⟩

theorem costs_charge (ty n : Nat) : Costs (.charge ty 1 (some n)) [(ty, n)] 0 := by
  intro s _
  refine ⟨fun _ => ?_, fun h => absurd h (by omega)⟩
  simp only [run, chargeAll]
  rcases s.b.charge ty 1 (some n) with ⟨b1, r⟩
  cases r <;> rfl

theorem Costs.seq {a b : Work} {xs ys : List (Nat × Nat)} {d e : Nat} (ha : Costs a xs d) (hb : Costs b ys e) :
    Costs (.seq a b) (xs ++ ys) (max d e) := by
  intro s hs
  refine ⟨fun hd => ?_, fun hd => ?_⟩
  · simp only [run]
    rw [(ha s hs).1 (by omega), chargeAll_append]
    have hk := chargeAll_keeps_depth xs s.b
    rcases hc : chargeAll xs s.b with ⟨b1, r⟩
    rw [hc] at hk
    simp only at hk
    cases r with
    | error e => rfl
    | ok u => exact (hb { s with b := b1 } (by simp only; omega)).1 (by simp only; omega)
  · simp only [run]
    by_cases h1 : s.b.depth < d
    · have := (ha s hs).2 h1
      rcases hr : run a s with ⟨s1, r⟩
      rw [hr] at this
      cases r with
      | error e => intro h; cases h
      | ok u => exact absurd rfl this
    · rw [(ha s hs).1 (by omega)]
      have hk := chargeAll_keeps_depth xs s.b
      rcases hc : chargeAll xs s.b with ⟨b1, r⟩
      rw [hc] at hk
      simp only at hk
      cases r with
      | error e => intro h; cases h
      | ok u => exact (hb { s with b := b1 } (by simp only; omega)).2 (by simp only; omega)

theorem Costs.limited {w : Work} {xs : List (Nat × Nat)} {d : Nat} (h : Costs w xs d) : Costs (.limited w) xs (1 + d) := by
  intro s hs
  by_cases h0 : s.b.depth = 0
  · have hrun : run (.limited w) s = (s, .error (.host .context .exceededLimit)) := by
      simp only [run]; rw [h0, checkedSub_one_zero]
    refine ⟨fun hd => absurd hd (by omega), fun _ => ?_⟩
    rw [hrun]; intro e; cases e
  have hsub : checkedSub s.b.depth 1 = some (s.b.depth - 1) := checkedSub_one (by omega)
  have h2 := h { s with b := { s.b with depth := s.b.depth - 1 } } (by simp only; omega)
  refine ⟨fun hd => ?_, fun hd => ?_⟩
  · have h3 := h2.1 (by simp only; omega)
    simp only [run]
    rw [hsub]
    simp only
    rw [h3, chargeAll_depth]
    simp only
    rw [checkedAdd_one (by omega)]
    simp only
    have hk := chargeAll_keeps_depth xs s.b
    rcases hc : chargeAll xs s.b with ⟨b1, r⟩
    rw [hc] at hk
    simp only at hk ⊢
    rw [show s.b.depth - 1 + 1 = b1.depth by omega]
  · have h3 := h2.2 (by simp only; omega)
    simp only [run]
    rw [hsub]
    simp only
    split
    · intro e; cases e
    · exact h3

/-- A computation that never succeeds. -/
abbrev Never (w : Work) : Prop := ∀ s, (run w s).2 ≠ .ok ()

theorem never_fail (e : Err) : Never (.fail e) := fun s h => by cases h

theorem Never.left {a b : Work} (h : Never a) : Never (.seq a b) := by
  intro s
  simp only [run]
  have := h s
  rcases hr : run a s with ⟨s1, r⟩
  rw [hr] at this
  cases r with
  | error e => intro h; cases h
  | ok u => exact absurd rfl this

theorem Never.right {a b : Work} (h : Never b) : Never (.seq a b) := by
  intro s
  simp only [run]
  rcases hr : run a s with ⟨s1, r⟩
  cases r with
  | error e => intro h; cases h
  | ok u => exact h s1

theorem Never.limited {w : Work} (h : Never w) : Never (.limited w) := by
  intro s
  simp only [run]
  split
  · intro e; cases e
  · split
    · intro e; cases e
    · exact h _

/-! ### Blocks -/

/-- The charges for blocks. -/
def pay (blocks : List Nat) : List (Nat × Nat) := blocks.flatMap (fun n => [(memAlloc, n), (memCpy, n)])

theorem pay_append (a b : List Nat) : pay (a ++ b) = pay a ++ pay b := by simp [pay]
theorem pay_cons (n : Nat) (b : List Nat) : pay (n :: b) = [(memAlloc, n), (memCpy, n)] ++ pay b := rfl
theorem charges_eq (size : Nat) (blocks : List Nat) : charges size blocks = [(memCpy, size)] ++ pay blocks := rfl

/-- Blocks of a size that can be given to the budget. -/
def Sized (l : List Nat) : Prop := ∀ n ∈ l, n ≤ u64Max

theorem Sized.left {a b : List Nat} (h : Sized (a ++ b)) : Sized a := fun n hn => h n (List.mem_append.mpr (.inl hn))
theorem Sized.right {a b : List Nat} (h : Sized (a ++ b)) : Sized b := fun n hn => h n (List.mem_append.mpr (.inr hn))
theorem Sized.head {a : Nat} {b : List Nat} (h : Sized (a :: b)) : a ≤ u64Max := h a (List.mem_cons_self ..)
theorem Sized.tail {a : Nat} {b : List Nat} (h : Sized (a :: b)) : Sized b := fun n hn => h n (List.mem_cons_of_mem _ hn)

theorem satMul_small {n size : Nat} (h : size * n ≤ u64Max) : satMulU64 n size = size * n := by
  rw [satMulU64_eq, Nat.mul_comm n size]; omega

theorem costs_vec {size len : Nat} {w : Work} {bs : List Nat} {d : Nat} (h : size * len ≤ u64Max) (hw : Costs w (pay bs) d) :
    Costs (vecSub size len w) (pay (size * len :: bs)) d := by
  have h1 := (costs_charge memAlloc (size * len)).seq ((costs_charge memCpy (size * len)).seq hw)
  unfold vecSub heapAlloc shallowCopy
  rw [satMul_small h]
  rw [show max 0 (max 0 d) = d by omega] at h1
  exact h1

theorem costs_bytes {b : List Nat} (h : b.length ≤ u64Max) : Costs (bytesSub b) (pay [b.length]) 0 := by
  have := costs_vec (size := 1) (len := b.length) (bs := []) (by omega) costs_skip
  rw [Nat.one_mul] at this
  exact this

theorem costs_tag {t : Option Nat} (h : Sized t.toList) : Costs (tagSub t) (pay t.toList) 0 := by
  cases t with
  | none => exact costs_skip
  | some n =>
    have := costs_vec (size := 1) (len := n) (bs := []) (by have := h n (by simp); omega) costs_skip
    rw [Nat.one_mul] at this
    exact this

/-! ### Values -/

section
variable (tag : Nat → Option Nat)

mutual
theorem val_costs : ∀ v, Whole v → Sized (valBlocks tag v) → Costs (valSub tag v) (pay (valBlocks tag v)) (levels v)
  | .vec (some v), hw, hs => by
    have := vals_costs v hw hs.tail
    exact (costs_vec hs.head this).limited
  | .map (some m), hw, hs => by
    have := pairs_costs m hw hs.tail
    exact (costs_vec hs.head this).limited
  | .vec none, hw, _ => hw.elim
  | .map none, hw, _ => hw.elim
  | .bytes b, _, hs => (costs_bytes hs.head).limited
  | .string b, _, hs => (costs_bytes hs.head).limited
  | .symbol b, _, hs => (costs_bytes hs.head).limited
  | .executableTag b, _, hs => (costs_bytes hs.head).limited
  | .contractInstance ex (some m), hw, hs => by
    have h1 := pairs_costs m hw hs.right.tail
    have h2 := ((costs_tag hs.left).seq (costs_vec hs.right.head h1)).limited
    rw [← pay_append, Nat.zero_max] at h2
    exact h2
  | .contractInstance ex none, _, hs => by
    have h2 := ((costs_tag (t := tag ex) hs).seq costs_skip).limited
    rw [List.append_nil] at h2
    exact h2
  | .bool _, _, _ => costs_skip.limited
  | .void, _, _ => costs_skip.limited
  | .error _ _, _, _ => costs_skip.limited
  | .u32 _, _, _ => costs_skip.limited
  | .i32 _, _, _ => costs_skip.limited
  | .u64 _, _, _ => costs_skip.limited
  | .i64 _, _, _ => costs_skip.limited
  | .timepoint _, _, _ => costs_skip.limited
  | .duration _, _, _ => costs_skip.limited
  | .u128 _ _, _, _ => costs_skip.limited
  | .i128 _ _, _, _ => costs_skip.limited
  | .u256 _ _ _ _, _, _ => costs_skip.limited
  | .i256 _ _ _ _, _, _ => costs_skip.limited
  | .address _, _, _ => costs_skip.limited
  | .ledgerKeyContractInstance, _, _ => costs_skip.limited
  | .ledgerKeyNonce _, _, _ => costs_skip.limited
theorem vals_costs : ∀ vs, WholeAll vs → Sized (valsBlocks tag vs) → Costs (valsSub tag vs) (pay (valsBlocks tag vs)) (levelsAll vs)
  | [], _, _ => costs_skip
  | v :: vs, hw, hs => by
    have h := (val_costs v hw.1 hs.left).seq (vals_costs vs hw.2 hs.right)
    rw [← pay_append] at h
    exact h
theorem pairs_costs : ∀ m, WholePairs m → Sized (pairsBlocks tag m) → Costs (pairsSub tag m) (pay (pairsBlocks tag m)) (levelsPairs m)
  | [], _, _ => costs_skip
  | (k, v) :: m, hw, hs => by
    have h := ((val_costs k hw.1 hs.left.left).seq (val_costs v hw.2.1 hs.left.right)).seq (pairs_costs m hw.2.2 hs.right)
    rw [← pay_append, ← pay_append] at h
    exact h
end

mutual
theorem val_never : ∀ v, ¬ Whole v → Never (valSub tag v)
  | .vec (some v), hw => ((vals_never v hw).right.right).limited
  | .map (some m), hw => ((pairs_never m hw).right.right).limited
  | .vec none, _ => (never_fail _).limited
  | .map none, _ => (never_fail _).limited
  | .contractInstance _ (some m), hw => ((pairs_never m hw).right.right.right).limited
  | .contractInstance _ none, hw => absurd trivial hw
  | .bytes _, hw => absurd trivial hw
  | .string _, hw => absurd trivial hw
  | .symbol _, hw => absurd trivial hw
  | .executableTag _, hw => absurd trivial hw
  | .bool _, hw => absurd trivial hw
  | .void, hw => absurd trivial hw
  | .error _ _, hw => absurd trivial hw
  | .u32 _, hw => absurd trivial hw
  | .i32 _, hw => absurd trivial hw
  | .u64 _, hw => absurd trivial hw
  | .i64 _, hw => absurd trivial hw
  | .timepoint _, hw => absurd trivial hw
  | .duration _, hw => absurd trivial hw
  | .u128 _ _, hw => absurd trivial hw
  | .i128 _ _, hw => absurd trivial hw
  | .u256 _ _ _ _, hw => absurd trivial hw
  | .i256 _ _ _ _, hw => absurd trivial hw
  | .address _, hw => absurd trivial hw
  | .ledgerKeyContractInstance, hw => absurd trivial hw
  | .ledgerKeyNonce _, hw => absurd trivial hw
theorem vals_never : ∀ vs, ¬ WholeAll vs → Never (valsSub tag vs)
  | [], hw => absurd trivial hw
  | v :: vs, hw => by
    by_cases h : Whole v
    · exact (vals_never vs (fun h2 => hw ⟨h, h2⟩)).right
    · exact (val_never v h).left
theorem pairs_never : ∀ m, ¬ WholePairs m → Never (pairsSub tag m)
  | [], hw => absurd trivial hw
  | (k, v) :: m, hw => by
    by_cases h : Whole k
    · by_cases h' : Whole v
      · exact (pairs_never m (fun h2 => hw ⟨h, h', h2⟩)).right
      · exact ((val_never v h').right).left
    · exact ((val_never k h).left).left
end

/-! ### Entries and invocations -/

theorem signers_costs : ∀ xs : List (Option (List Nat)), Sized ((xs.filterMap id).map List.length) →
    Costs (signersSub xs) (pay ((xs.filterMap id).map List.length)) 0
  | [], _ => costs_skip
  | none :: xs, hs => by
    have h := costs_skip.seq (signers_costs xs hs)
    exact h
  | some p :: xs, hs => by
    have h := (costs_bytes (b := p) hs.head).seq (signers_costs xs hs.tail)
    rw [← pay_append] at h
    exact h

theorem account_costs {h : List Nat} {s : List (Option (List Nat))} {p : Option Nat}
    (hs : Sized (h.length :: 72 * s.length :: (s.filterMap id).map List.length ++ p.toList.map (33 * ·))) :
    Costs (accountSub h s p) (pay (h.length :: 72 * s.length :: (s.filterMap id).map List.length ++ p.toList.map (33 * ·))) 0 := by
  have h1 := costs_bytes (b := h) hs.head
  have h2 := costs_vec (size := 72) hs.left.tail.head (signers_costs s hs.left.tail.tail)
  have hr := hs.right
  have h3 : Costs (sponsorsSub p) (pay (p.toList.map (33 * ·))) 0 := by
    cases p with
    | none => exact costs_skip
    | some n => exact costs_vec (size := 33) (hr _ (by simp)) costs_skip
  have h4 := h1.seq (h2.seq h3)
  rw [← pay_append, ← pay_append] at h4
  exact h4

theorem fn_costs : ∀ f : XFn, WholeFn f → ¬ Untold f → Sized (fnBlocks tag f) → Costs (fnSub tag f) (pay (fnBlocks tag f)) (fnLevels f)
  | .call _ f as, hw, _, hs => by
    have h := (costs_bytes (b := f) hs.head).seq (costs_vec (size := 96) hs.tail.head (vals_costs tag as hw hs.tail.tail))
    rw [← pay_append, Nat.zero_max] at h
    exact h
  | .create _ (.wasm _), _, _, _ => costs_skip
  | .create _ .asset, _, _, _ => costs_skip
  | .create _ (.ref _ _), _, hu, _ => absurd trivial hu
  | .createV2 a, hw, _, hs => by
    have h := costs_skip.seq ((costs_tag hs.left).seq (costs_vec (size := 96) hs.right.head (vals_costs tag a.args hw hs.right.tail)))
    rw [← pay_append, Nat.zero_max, Nat.zero_max, List.nil_append] at h
    exact h

mutual
theorem inv_costs : ∀ x : XInv, WholeInv x → Told x → Sized (invBlocks tag x) → Costs (invSub tag x) (pay (invBlocks tag x)) (invLevels x)
  | .mk f subs, hw, ht, hs => by
    have h := (fn_costs tag f hw.1 ht.1 hs.left).seq (costs_vec (size := 200) hs.right.head (invs_costs subs hw.2 ht.2 hs.right.tail))
    rw [← pay_append] at h
    exact h
theorem invs_costs : ∀ xs : List XInv, WholeInvs xs → ToldAll xs → Sized (invsBlocks tag xs) →
    Costs (invsSub tag xs) (pay (invsBlocks tag xs)) (invsLevels xs)
  | [], _, _, _ => costs_skip
  | x :: xs, hw, ht, hs => by
    have h := (inv_costs x hw.1 ht.1 hs.left).seq (invs_costs xs hw.2 ht.2 hs.right)
    rw [← pay_append] at h
    exact h
end
end

theorem costs_deep {size : Nat} {w : Work} {bs : List Nat} {d : Nat} (hsz : size ≤ u64Max) (hw : Costs w (pay bs) d) :
    CopyOf (deepClone size w) size bs d := by
  have h := (costs_charge memCpy size).seq hw
  have he : deepClone size w = .seq (.charge memCpy 1 (some size)) w := by
    unfold deepClone shallowCopy
    rw [satMulU64_eq, Nat.one_mul, Nat.min_eq_right hsz]
  rw [← charges_eq, ← he, Nat.zero_max] at h
  refine ⟨fun s hs => ?_, fun s hs hd => (h s hs).1 hd⟩
  by_cases hd : d ≤ s.b.depth
  · rw [(h s hs).1 hd]
    exact ⟨fun h => ⟨hd, h⟩, fun h => h.2⟩
  · exact ⟨fun h1 => absurd h1 ((h s hs).2 (by omega)), fun h1 => absurd h1.1 hd⟩

end Soroban.Clone
