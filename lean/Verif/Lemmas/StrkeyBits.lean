import Verif.Model.Strkey
import Verif.Spec.Strkey
import Verif.Lemmas.MemorySpec
import Mathlib.Tactic.IntervalCases
/-! Lemmas about the bit groups and base32 of `Model/Strkey.lean`. -/
namespace Soroban.Strkey
open Spec (bit five alphabet)

theorem bitsOf_length (k v : Nat) : (bitsOf k v).length = k := by simp [bitsOf]

theorem bitsOf_succ (k v : Nat) : bitsOf (k + 1) v = bitsOf k (v / 2) ++ [v.testBit 0] := by
  unfold bitsOf
  rw [List.range_succ, List.map_append]
  congr 1
  · apply List.map_congr_left
    intro j hj
    rw [List.mem_range] at hj
    rw [← Nat.testBit_succ, show k + 1 - 1 - j = k - 1 - j + 1 by omega]
  · simp

theorem bitsOf_get {k v j : Nat} (h : j < k) : (bitsOf k v)[j]? = some (v.testBit (k - 1 - j)) := by
  simp [bitsOf, h]

theorem valOf_snoc (bs : List Bool) (b : Bool) : valOf (bs ++ [b]) = 2 * valOf bs + b.toNat := by
  simp [valOf]

theorem toNat_testBit (v : Nat) : (v.testBit 0).toNat = v % 2 := by
  rw [Nat.testBit_zero]
  rcases Nat.mod_two_eq_zero_or_one v with h | h <;> simp [h]

theorem valOf_bitsOf : ∀ (k v : Nat), v < 2 ^ k → valOf (bitsOf k v) = v
  | 0, v, h => by simp at h; simp [h, bitsOf, valOf]
  | k + 1, v, h => by
    rw [bitsOf_succ, valOf_snoc, valOf_bitsOf k (v / 2) (by rw [Nat.pow_succ] at h; omega), toNat_testBit]
    omega

theorem bitsOf_valOf : ∀ (k : Nat) (bs : List Bool), bs.length = k → bitsOf k (valOf bs) = bs := by
  intro k
  induction k with
  | zero => intro bs h; rw [List.length_eq_zero_iff.mp h]; rfl
  | succ k ih =>
    intro bs h
    rcases List.eq_nil_or_concat bs with h' | ⟨l, b, h'⟩
    · subst h'; simp at h
    · subst h'
      rw [List.concat_eq_append] at h ⊢
      have hl : l.length = k := by simpa using h
      rw [bitsOf_succ, valOf_snoc]
      have h1 : (2 * valOf l + b.toNat) / 2 = valOf l := by cases b <;> simp <;> omega
      have h2 : (2 * valOf l + b.toNat).testBit 0 = b := by
        rw [Nat.testBit_zero]; cases b <;> simp <;> omega
      rw [h1, h2, ih l hl]

theorem valOf_lt (bs : List Bool) : valOf bs < 2 ^ bs.length := by
  induction bs using List.reverseRecOn with
  | nil => simp [valOf]
  | append_singleton l b ih =>
    rw [valOf_snoc, List.length_append, List.length_singleton, Nat.pow_succ]
    have := Bool.toNat_le b
    omega

theorem flatMap_length (k : Nat) (l : List Nat) : (l.flatMap (bitsOf k)).length = k * l.length := by
  induction l with
  | nil => simp
  | cons a l ih => rw [List.flatMap_cons, List.length_append, ih, bitsOf_length, List.length_cons]; ring_nf

theorem groups_flatMap (k : Nat) (l : List Nat) (r : List Bool) (h : ∀ x ∈ l, x < 2 ^ k) :
    groups k l.length (l.flatMap (bitsOf k) ++ r) = l := by
  induction l with
  | nil => rfl
  | cons a l ih =>
    rw [List.flatMap_cons, List.length_cons, groups, List.append_assoc,
      List.take_left' (bitsOf_length k a), List.drop_left' (bitsOf_length k a),
      ih (fun x hx => h x (List.mem_cons_of_mem _ hx)), valOf_bitsOf k a (h a List.mem_cons_self)]

theorem groups_length (k n : Nat) (bs : List Bool) : (groups k n bs).length = n := by
  induction n generalizing bs with
  | zero => rfl
  | succ n ih => rw [groups, List.length_cons, ih]

theorem groups_lt (k n : Nat) (bs : List Bool) : ∀ x ∈ groups k n bs, x < 2 ^ k := by
  induction n generalizing bs with
  | zero => intro x hx; exact nomatch hx
  | succ n ih =>
    intro x hx
    rcases List.mem_cons.mp hx with h | h
    · subst h
      exact lt_of_lt_of_le (valOf_lt _) (Nat.pow_le_pow_right (by decide) (List.length_take_le _ _))
    · exact ih _ x h

theorem flatMap_groups (k n : Nat) (bs : List Bool) (h : k * n ≤ bs.length) :
    (groups k n bs).flatMap (bitsOf k) = bs.take (k * n) := by
  induction n generalizing bs with
  | zero => simp [groups]
  | succ n ih =>
    rw [Nat.mul_succ] at h
    rw [groups, List.flatMap_cons, ih _ (by rw [List.length_drop]; omega),
      bitsOf_valOf k _ (by rw [List.length_take]; omega), Nat.mul_succ, Nat.add_comm, List.take_add]

theorem groups_eq_map (k n : Nat) (bs : List Bool) :
    groups k n bs = (List.range n).map fun i => valOf ((bs.drop (k * i)).take k) := by
  induction n generalizing bs with
  | zero => rfl
  | succ n ih =>
    rw [groups, List.range_succ_eq_map, List.map_cons, List.map_map, ih]
    congr 1
    apply List.map_congr_left
    intro i _
    simp only [Function.comp, List.drop_drop]
    rw [Nat.mul_succ, Nat.add_comm]

theorem getD_bits (d : List Nat) (r j : Nat) :
    (d.flatMap (bitsOf 8) ++ List.replicate r false).getD j false = bit d j := by
  induction d generalizing j with
  | nil =>
    simp only [List.flatMap_nil, List.nil_append, bit, List.getD_nil, Nat.zero_testBit]
    rw [List.getD_eq_getElem?_getD, List.getElem?_replicate]
    split <;> rfl
  | cons x d ih =>
    rw [List.flatMap_cons, List.append_assoc]
    by_cases h : j < 8
    · rw [List.getD_eq_getElem?_getD, List.getElem?_append_left (by rw [bitsOf_length]; exact h), bitsOf_get h]
      unfold bit
      rw [Nat.div_eq_of_lt h, Nat.mod_eq_of_lt h]
      rfl
    · obtain ⟨i, rfl⟩ : ∃ i, j = i + 8 := ⟨j - 8, by omega⟩
      have := ih i
      rw [List.getD_eq_getElem?_getD] at this ⊢
      rw [List.getElem?_append_right (by rw [bitsOf_length]; omega), bitsOf_length, Nat.add_sub_cancel, this]
      unfold bit
      rw [Nat.add_div_right _ (by decide), Nat.add_mod_right]
      rfl

theorem symbolOf_eq (v : Nat) (h : v < 32) : symbolOf v = alphabet.getD v 0 := by
  unfold symbolOf; interval_cases v <;> decide

theorem take_five (bs : List Bool) (i : Nat) (h : i + 5 ≤ bs.length) :
    (bs.drop i).take 5 = [bs.getD i false, bs.getD (i + 1) false, bs.getD (i + 2) false, bs.getD (i + 3) false,
      bs.getD (i + 4) false] := by
  apply List.ext_getElem?
  intro j
  rw [List.getElem?_take]
  by_cases hj : j < 5
  · rw [if_pos hj, List.getElem?_drop]
    have hlt : i + j < bs.length := by omega
    have key : ∀ k, k < bs.length → bs[k]? = some (bs.getD k false) := fun k hk => by
      rw [List.getD_eq_getElem?_getD, List.getElem?_eq_getElem hk]; rfl
    rw [key _ hlt]
    interval_cases j <;> rfl
  · rw [if_neg hj]
    rw [List.getElem?_eq_none (by simpa using hj)]

theorem base32Encode_eq (d : List Nat) : base32Encode d = Spec.base32 d := by
  unfold base32Encode Spec.base32
  simp only [groups_eq_map, List.map_map]
  apply List.map_congr_left
  intro i hi
  rw [List.mem_range] at hi
  have hlen : (d.flatMap (bitsOf 8) ++ List.replicate (5 * ((8 * d.length + 4) / 5) - 8 * d.length) false).length =
      5 * ((8 * d.length + 4) / 5) := by
    rw [List.length_append, flatMap_length, List.length_replicate]; omega
  simp only [Function.comp]
  rw [take_five _ _ (by rw [hlen]; omega)]
  simp only [getD_bits]
  rw [← symbolOf_eq _ (by
    unfold five
    have h1 := Bool.toNat_le (bit d (5 * i)); have h2 := Bool.toNat_le (bit d (5 * i + 1))
    have h3 := Bool.toNat_le (bit d (5 * i + 2)); have h4 := Bool.toNat_le (bit d (5 * i + 3))
    have h5 := Bool.toNat_le (bit d (5 * i + 4)); omega)]
  congr 1
  unfold five valOf
  simp only [List.foldl_cons, List.foldl_nil]
  omega

theorem valueOf_symbolOf (v : Nat) (h : v < 32) : valueOf (symbolOf v) = some v := by
  interval_cases v <;> decide

theorem valueOf_some {c v : Nat} (h : valueOf c = some v) : v < 32 ∧ c = symbolOf v := by
  unfold valueOf at h
  by_cases h1 : 65 ≤ c ∧ c ≤ 90
  · rw [if_pos h1] at h
    have := Option.some.inj h
    refine ⟨by omega, ?_⟩
    unfold symbolOf; rw [if_pos (by omega)]; omega
  · rw [if_neg h1] at h
    by_cases h2 : 50 ≤ c ∧ c ≤ 55
    · rw [if_pos h2] at h
      have := Option.some.inj h
      refine ⟨by omega, ?_⟩
      unfold symbolOf; rw [if_neg (by omega)]; omega
    · rw [if_neg h2] at h; exact nomatch h

theorem mapM_valueOf_symbols (vs : List Nat) (h : ∀ v ∈ vs, v < 32) : (vs.map symbolOf).mapM valueOf = some vs := by
  induction vs with
  | nil => rfl
  | cons a l ih =>
    rw [List.map_cons, List.mapM_cons, valueOf_symbolOf a (h a List.mem_cons_self), ih (fun v hv => h v (List.mem_cons_of_mem _ hv))]
    rfl

theorem mapM_valueOf {s vs : List Nat} (h : s.mapM valueOf = some vs) : (∀ v ∈ vs, v < 32) ∧ s = vs.map symbolOf := by
  induction s generalizing vs with
  | nil => rw [List.mapM_nil] at h; have := Option.some.inj h; subst this; exact ⟨fun v hv => (nomatch hv), rfl⟩
  | cons c s ih =>
    rw [List.mapM_cons] at h
    cases hc : valueOf c with
    | none => rw [hc] at h; exact nomatch h
    | some v =>
      rw [hc] at h
      cases hs : s.mapM valueOf with
      | none => rw [hs] at h; exact nomatch h
      | some vs' =>
        rw [hs] at h
        have := Option.some.inj h
        subst this
        obtain ⟨h1, h2⟩ := valueOf_some hc
        obtain ⟨h3, h4⟩ := ih hs
        refine ⟨fun x hx => ?_, by rw [List.map_cons, ← h2, ← h4]⟩
        rcases List.mem_cons.mp hx with hx' | hx'
        · subst hx'; exact h1
        · exact h3 x hx'

theorem base32Decode_encode (d : List Nat) (h : ∀ x ∈ d, x < 256) : base32Decode (base32Encode d) = some d := by
  have hlen : (d.flatMap (bitsOf 8) ++ List.replicate (5 * ((8 * d.length + 4) / 5) - 8 * d.length) false).length =
      5 * ((8 * d.length + 4) / 5) := by
    rw [List.length_append, flatMap_length, List.length_replicate]; omega
  unfold base32Decode base32Encode
  simp only
  rw [mapM_valueOf_symbols _ (groups_lt 5 _ _)]
  simp only
  rw [flatMap_groups 5 _ _ (le_of_eq hlen.symm), List.take_of_length_le (le_of_eq hlen), hlen,
    show 5 * ((8 * d.length + 4) / 5) / 8 = d.length by omega,
    List.drop_left' (flatMap_length 8 d), groups_flatMap 8 d _ h, List.length_replicate]
  rw [if_pos]
  refine ⟨by omega, ?_⟩
  simp

theorem base32Decode_some {s d : List Nat} (h : base32Decode s = some d) :
    (∀ x ∈ d, x < 256) ∧ s = base32Encode d := by
  unfold base32Decode at h
  cases hs : s.mapM valueOf with
  | none => rw [hs] at h; exact nomatch h
  | some vs =>
    rw [hs] at h
    simp only at h
    obtain ⟨h1, h2⟩ := mapM_valueOf hs
    have hb : (vs.flatMap (bitsOf 5)).length = 5 * vs.length := flatMap_length 5 vs
    generalize hbits : vs.flatMap (bitsOf 5) = bits at h hb
    split at h
    · rename_i hc
      obtain ⟨hr, hz⟩ := hc
      have hd := Option.some.inj h
      refine ⟨by rw [← hd]; exact groups_lt 8 _ _, ?_⟩
      have hdl : d.length = bits.length / 8 := by rw [← hd, groups_length]
      rw [List.length_drop] at hr
      have hrest : bits.drop (8 * (bits.length / 8)) = List.replicate (bits.length - 8 * (bits.length / 8)) false := by
        apply List.eq_replicate_iff.mpr
        refine ⟨by rw [List.length_drop], fun b hb' => ?_⟩
        have := List.all_eq_true.mp hz b hb'
        simpa using this
      unfold base32Encode
      simp only
      rw [h2, hdl, show (8 * (bits.length / 8) + 4) / 5 = vs.length by omega, ← hd,
        flatMap_groups 8 _ _ (by omega), ← hb, ← hrest, List.take_append_drop, ← hbits]
      congr 1
      have := groups_flatMap 5 vs [] h1
      rw [List.append_nil] at this
      exact this.symm
    · exact nomatch h

end Soroban.Strkey
