import Verif.Lemmas.Strkey
/-! Lemmas for C71: a mistake confined to two neighbouring symbols changes the checksum. -/
namespace Soroban.Strkey
open Spec (IsStrkey bit five alphabet)

/-- Where bit `j` of the checksum field (low byte first) is in the checksum. -/
def fieldBit (j : Nat) : Nat := if j < 8 then 7 - j else 23 - j

theorem crc_ten : ∀ n < 1024, crcL 0 (bitsOf 10 n) = 0 → n = 0 := by decide +kernel

/-- Errors in the last `a` message bits and the first `10 - a` field bits are found, for the four ways a pair of symbols can
straddle the end of the message. -/
theorem crc_straddle : ∀ a ∈ [3, 4, 8, 9], ∀ n < 2 ^ a,
    (∀ j < 16, 10 - a ≤ j → (crcL 0 (bitsOf a n)).testBit (fieldBit j) = false) → n = 0 := by decide +kernel

theorem map_false {n : Nat} {f : Nat → Bool} (h : ∀ k < n, f k = false) : (List.range n).map f = List.replicate n false := by
  apply List.eq_replicate_iff.mpr
  refine ⟨by simp, fun b hb => ?_⟩
  obtain ⟨k, hk, rfl⟩ := List.mem_map.mp hb
  exact h k (List.mem_range.mp hk)

theorem map_range_val {a : Nat} {f : Nat → Bool} (h : valOf ((List.range a).map f) = 0) : ∀ k < a, f k = false := by
  intro k hk
  have h1 := bitsOf_valOf a ((List.range a).map f) (by simp)
  rw [h] at h1
  have h2 : ((List.range a).map f)[k]? = some (f k) := by simp [hk]
  rw [← h1, bitsOf_get hk, Nat.zero_testBit] at h2
  exact (Option.some.inj h2).symm

theorem crc_field_zero {c : Nat} (hc : c < 2 ^ 16) (h : ∀ j < 16, c.testBit (fieldBit j) = false) : c = 0 := by
  apply Nat.eq_of_testBit_eq
  intro i
  rw [Nat.zero_testBit]
  by_cases hi : i < 8
  · have := h (7 - i) (by omega)
    unfold fieldBit at this
    rw [if_pos (by omega), show 7 - (7 - i) = i by omega] at this
    exact this
  · by_cases hi' : i < 16
    · have := h (23 - i) (by omega)
      unfold fieldBit at this
      rw [if_neg (by omega), show 23 - (23 - i) = i by omega] at this
      exact this
    · exact Nat.testBit_lt_two_pow (lt_of_lt_of_le hc (Nat.pow_le_pow_right (by decide) (Nat.le_of_not_lt hi')))

theorem crc_detects {M i : Nat} {E : Nat → Bool} (hM : M = 264 ∨ M = 328)
    (hw : ∀ k, E k = true → 5 * i ≤ k ∧ k < 5 * i + 10)
    (hf : ∀ j < 16, E (M + j) = (crcL 0 ((List.range M).map E)).testBit (fieldBit j)) : ∀ k < M + 16, E k = false := by
  have hout : ∀ k, ¬ (5 * i ≤ k ∧ k < 5 * i + 10) → E k = false := fun k hk => by
    cases h : E k with
    | false => rfl
    | true => exact absurd (hw k h) hk
  have hlt : crcL 0 ((List.range M).map E) < 2 ^ 16 := crcL_lt _ 0 (by decide)
  -- it is enough that the message has no error
  suffices hmsg : ∀ k < M, E k = false by
    intro k hk
    by_cases hk' : k < M
    · exact hmsg k hk'
    · have := hf (k - M) (by omega)
      rw [show M + (k - M) = k by omega, map_false hmsg, crcL_zeros, Nat.zero_testBit] at this
      exact this
  by_cases h1 : 5 * i + 10 ≤ M
  · -- all of it in the message
    have hzero : crcL 0 ((List.range M).map E) = 0 := by
      apply crc_field_zero hlt
      intro j hj
      rw [← hf j hj]
      exact hout _ (by omega)
    have hsplit : (List.range M).map E = List.replicate (5 * i) false ++
        ((List.range 10).map (fun j => E (5 * i + j)) ++ List.replicate (M - 5 * i - 10) false) := by
      have e : M = 5 * i + (10 + (M - 5 * i - 10)) := by omega
      rw [e, List.range_add, List.map_append, List.map_map, List.range_add, List.map_append, List.map_map,
        map_false (f := E) (n := 5 * i) (fun k hk => hout k (by omega)),
        map_false (n := M - 5 * i - 10) (fun k hk => by
          simp only [Function.comp]
          exact hout _ (by omega))]
      rw [← e]
      rfl
    rw [hsplit] at hzero
    simp only [crcL, List.foldl_append] at hzero
    rw [show List.foldl crcBit 0 (List.replicate (5 * i) false) = 0 from crcL_zeros _] at hzero
    have hz := crcL_zeros_zero _ _ (crcL_lt _ 0 (by decide)) hzero
    rw [← bitsOf_valOf 10 ((List.range 10).map fun j => E (5 * i + j)) (by simp)] at hz
    have hv := crc_ten _ (by
      have := valOf_lt ((List.range 10).map fun j => E (5 * i + j))
      rw [List.length_map, List.length_range] at this
      exact this) hz
    have hin := map_range_val hv
    intro k hk
    by_cases hk' : 5 * i ≤ k ∧ k < 5 * i + 10
    · have := hin (k - 5 * i) (by omega)
      rwa [show 5 * i + (k - 5 * i) = k by omega] at this
    · exact hout k hk'
  · by_cases h2 : M ≤ 5 * i
    · exact fun k hk => hout k (by omega)
    · -- across the end of the message
      have hsplit : (List.range M).map E = List.replicate (5 * i) false ++
          (List.range (M - 5 * i)).map (fun j => E (5 * i + j)) := by
        have e : M = 5 * i + (M - 5 * i) := by omega
        rw [e, List.range_add, List.map_append, List.map_map,
          map_false (f := E) (n := 5 * i) (fun k hk => hout k (by omega)), ← e]
        rfl
      have hc : crcL 0 ((List.range M).map E) = crcL 0 (bitsOf (M - 5 * i) (valOf ((List.range (M - 5 * i)).map fun j => E (5 * i + j)))) := by
        rw [hsplit, bitsOf_valOf _ _ (by simp)]
        simp only [crcL, List.foldl_append]
        rw [show List.foldl crcBit 0 (List.replicate (5 * i) false) = 0 from crcL_zeros _]
      have hv := crc_straddle (M - 5 * i) (by
          have : M - 5 * i = 3 ∨ M - 5 * i = 4 ∨ M - 5 * i = 8 ∨ M - 5 * i = 9 := by omega
          rcases this with h | h | h | h <;> rw [h] <;> decide)
        _ (by
          have := valOf_lt ((List.range (M - 5 * i)).map fun j => E (5 * i + j))
          rwa [List.length_map, List.length_range] at this)
        (fun j hj hj' => by
          rw [← hc, ← hf j hj]
          exact hout _ (by omega))
      have hin := map_range_val hv
      intro k hk
      by_cases hk' : 5 * i ≤ k
      · have := hin (k - 5 * i) (by omega)
        rwa [show 5 * i + (k - 5 * i) = k by omega] at this
      · exact hout k (by omega)

theorem bit_append_left {m r : List Nat} {k : Nat} (h : k < 8 * m.length) : bit (m ++ r) k = bit m k := by
  unfold bit
  rw [List.getD_eq_getElem?_getD, List.getD_eq_getElem?_getD, List.getElem?_append_left (by omega)]

theorem bit_append_right {m r : List Nat} {j : Nat} : bit (m ++ r) (8 * m.length + j) = bit r j := by
  unfold bit
  rw [List.getD_eq_getElem?_getD, List.getD_eq_getElem?_getD, Nat.mul_add_div (by decide), Nat.mul_add_mod,
    List.getElem?_append_right (by omega), Nat.add_sub_cancel_left]

theorem bit_past {d : List Nat} {k : Nat} (h : 8 * d.length ≤ k) : bit d k = false := by
  unfold bit
  rw [List.getD_eq_getElem?_getD, List.getElem?_eq_none (by omega)]
  exact Nat.zero_testBit _

theorem bit_checksum (m : List Nat) {j : Nat} (h : j < 16) : bit (checksum m) j = (crc16 m).testBit (fieldBit j) := by
  unfold bit checksum fieldBit
  by_cases hj : j < 8
  · rw [if_pos hj, Nat.div_eq_of_lt hj, Nat.mod_eq_of_lt hj]
    show (crc16 m % 2 ^ 8).testBit (7 - j) = _
    rw [Nat.testBit_mod_two_pow]
    simp [show 7 - j < 8 by omega]
  · rw [if_neg hj, show j / 8 = 1 by omega, show 7 - j % 8 = 15 - j by omega]
    show (crc16 m / 2 ^ 8).testBit (15 - j) = _
    rw [Nat.testBit_div_two_pow]
    congr 1
    omega

theorem flatMap_bits (m : List Nat) : m.flatMap (bitsOf 8) = (List.range (8 * m.length)).map (bit m) := by
  apply List.ext_getElem?
  intro k
  have h := getD_bits m 0 k
  rw [List.replicate_zero, List.append_nil, List.getD_eq_getElem?_getD] at h
  by_cases hk : k < 8 * m.length
  · rw [List.getElem?_eq_getElem (by rw [flatMap_length]; exact hk)] at h ⊢
    simp only [Option.getD_some] at h
    rw [h]
    simp [hk]
  · rw [List.getElem?_eq_none (by rw [flatMap_length]; omega), List.getElem?_eq_none (by simpa using hk)]

theorem zip_map_range (n : Nat) (f g : Nat → Bool) : List.zipWith xor ((List.range n).map f) ((List.range n).map g) =
    (List.range n).map fun k => (f k ^^ g k) := by
  rw [List.zipWith_map]
  apply List.ext_getElem?
  intro k
  by_cases h : k < n <;> simp [h, List.getElem?_zipWith]

theorem five_lt (d : List Nat) (k : Nat) : five d k < 32 := by
  unfold five
  have h1 := Bool.toNat_le (bit d k); have h2 := Bool.toNat_le (bit d (k + 1))
  have h3 := Bool.toNat_le (bit d (k + 2)); have h4 := Bool.toNat_le (bit d (k + 3))
  have h5 := Bool.toNat_le (bit d (k + 4)); omega

theorem five_inj {d d' : List Nat} {k : Nat} (h : five d k = five d' k) : ∀ j < 5, bit d (k + j) = bit d' (k + j) := by
  unfold five at h
  intro j hj
  revert h
  have e0 : k + 0 = k := rfl
  generalize h0 : bit d k = a0; generalize h1 : bit d (k + 1) = a1; generalize h2 : bit d (k + 2) = a2
  generalize h3 : bit d (k + 3) = a3; generalize h4 : bit d (k + 4) = a4
  generalize g0 : bit d' k = b0; generalize g1 : bit d' (k + 1) = b1; generalize g2 : bit d' (k + 2) = b2
  generalize g3 : bit d' (k + 3) = b3; generalize g4 : bit d' (k + 4) = b4
  intro h
  have key : a0 = b0 ∧ a1 = b1 ∧ a2 = b2 ∧ a3 = b3 ∧ a4 = b4 := by
    clear h0 h1 h2 h3 h4 g0 g1 g2 g3 g4
    revert h
    cases a0 <;> cases a1 <;> cases a2 <;> cases a3 <;> cases a4 <;> cases b0 <;> cases b1 <;> cases b2 <;> cases b3 <;>
      cases b4 <;> decide
  obtain ⟨k0, k1, k2, k3, k4⟩ := key
  interval_cases j
  · rw [e0, h0, g0, k0]
  · rw [h1, g1, k1]
  · rw [h2, g2, k2]
  · rw [h3, g3, k3]
  · rw [h4, g4, k4]

theorem alphabet_inj {u v : Nat} (hu : u < 32) (hv : v < 32) (h : alphabet.getD u 0 = alphabet.getD v 0) : u = v := by
  rw [← symbolOf_eq u hu, ← symbolOf_eq v hv] at h
  have := congrArg valueOf h
  rw [valueOf_symbolOf u hu, valueOf_symbolOf v hv] at this
  exact Option.some.inj this

theorem base32_length (d : List Nat) : (Spec.base32 d).length = (8 * d.length + 4) / 5 := by simp [Spec.base32]

theorem base32_get {d : List Nat} {j : Nat} (h : j < (8 * d.length + 4) / 5) :
    (Spec.base32 d)[j]? = some (alphabet.getD (five d (5 * j)) 0) := by simp [Spec.base32, h]

/-- Two texts with correct checksums do not differ in just one or two neighbouring symbols. -/
theorem encode_typo {v v' : Nat} {p p' : List Nat} {i : Nat} (hp : p.length = 32 ∨ p.length = 40) (hl : p'.length = p.length)
    (h : ∀ j, j ≠ i → j ≠ i + 1 → (encode v p)[j]? = (encode v' p')[j]?) : encode v p = encode v' p' := by
  unfold encode at h ⊢
  rw [base32Encode_eq, base32Encode_eq] at h ⊢
  have hc : ∀ m, (checksum m).length = 2 := fun _ => rfl
  have hlen : (v :: p ++ checksum (v :: p)).length = p.length + 3 := by
    rw [List.length_append, hc]; rfl
  have hlen' : (v' :: p' ++ checksum (v' :: p')).length = p.length + 3 := by
    rw [List.length_append, hc]; show p'.length + 1 + 2 = _; omega
  have hml : (v :: p).length = p.length + 1 := rfl
  have hml' : (v' :: p').length = p.length + 1 := by show p'.length + 1 = _; omega
  generalize hm : v :: p = m at *
  generalize hm' : v' :: p' = m' at *
  have hn : (8 * (m ++ checksum m).length + 4) / 5 = (8 * (m' ++ checksum m').length + 4) / 5 := by rw [hlen, hlen']
  -- the two byte strings agree outside ten bits
  have hbits : ∀ k, ¬ (5 * i ≤ k ∧ k < 5 * i + 10) → bit (m ++ checksum m) k = bit (m' ++ checksum m') k := by
    intro k hk
    by_cases hk' : k < 8 * (p.length + 3)
    · have hj := h (k / 5) (by omega) (by omega)
      rw [base32_get (by rw [hlen]; omega), base32_get (by rw [hlen']; omega)] at hj
      have := five_inj (alphabet_inj (five_lt _ _) (five_lt _ _) (Option.some.inj hj)) (k % 5) (by omega)
      rwa [show 5 * (k / 5) + k % 5 = k by omega] at this
    · rw [bit_past (by rw [hlen]; omega), bit_past (by rw [hlen']; omega)]
  have hall : ∀ k < 8 * (p.length + 1) + 16, (bit (m ++ checksum m) k ^^ bit (m' ++ checksum m') k) = false := by
    apply crc_detects (M := 8 * (p.length + 1)) (i := i) (by omega)
    · intro k hk
      apply Classical.byContradiction
      intro hn
      rw [hbits k hn, Bool.xor_self] at hk
      exact nomatch hk
    · intro j hj
      have e1 : bit (m ++ checksum m) (8 * (p.length + 1) + j) = (crc16 m).testBit (fieldBit j) := by
        rw [← hml, bit_append_right, bit_checksum m hj]
      have e2 : bit (m' ++ checksum m') (8 * (p.length + 1) + j) = (crc16 m').testBit (fieldBit j) := by
        rw [← hml', bit_append_right, bit_checksum m' hj]
      rw [e1, e2, ← Nat.testBit_xor]
      congr 1
      unfold crc16
      have := crcL_lin (m.flatMap (bitsOf 8)) (m'.flatMap (bitsOf 8)) 0 0 (by rw [flatMap_length, flatMap_length, hml, hml'])
      rw [Nat.xor_self] at this
      rw [← this, flatMap_bits, flatMap_bits, hml, hml', zip_map_range]
      congr 1
      apply List.map_congr_left
      intro k hk
      rw [List.mem_range] at hk
      rw [bit_append_left (by rw [hml]; exact hk), bit_append_left (by rw [hml']; exact hk)]
  have heq : ∀ k, bit (m ++ checksum m) k = bit (m' ++ checksum m') k := by
    intro k
    by_cases hk : k < 8 * (p.length + 1) + 16
    · have := hall k hk
      revert this
      cases bit (m ++ checksum m) k <;> cases bit (m' ++ checksum m') k <;> decide
    · rw [bit_past (by rw [hlen]; omega), bit_past (by rw [hlen']; omega)]
  unfold Spec.base32
  rw [hn]
  apply List.map_congr_left
  intro j _
  congr 1
  unfold five
  simp only [heq]

theorem isStrkey_encode {s : List Nat} {a : ScAddr} (h : IsStrkey s a) :
    ∃ v p, s = encode v p ∧ (p.length = 32 ∨ p.length = 40) := by
  obtain ⟨v, p, hi, lo, hf, hc, hs⟩ := h
  refine ⟨v, p, encode_spec.mp ⟨hi, lo, hc, hs⟩, ?_⟩
  cases a with
  | account k => left; rw [hf.2.2, be_eq_beBytes, beBytes_length]
  | contract k => left; rw [hf.2.2, be_eq_beBytes, beBytes_length]
  | muxedAccount i k => right; rw [hf.2.2.2, List.length_append, be_eq_beBytes, be_eq_beBytes, beBytes_length, beBytes_length]
  | claimableBalance i => exact hf.elim
  | liquidityPool i => exact hf.elim

theorem isStrkey_typo {s s' : List Nat} {a a' : ScAddr} {i : Nat} (h : IsStrkey s a) (h' : IsStrkey s' a')
    (hd : ∀ j, j ≠ i → j ≠ i + 1 → s[j]? = s'[j]?) (hl : s.length = s'.length) : s = s' := by
  obtain ⟨v, p, e, hp⟩ := isStrkey_encode h
  obtain ⟨v', p', e', hp'⟩ := isStrkey_encode h'
  rw [e, e', encode_length, encode_length] at hl
  rw [e, e'] at hd ⊢
  exact encode_typo hp (by omega) hd

end Soroban.Strkey
