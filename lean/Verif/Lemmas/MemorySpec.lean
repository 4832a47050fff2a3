import Verif.Lemmas.Memory
import Mathlib.Data.List.Forall2
/-!
Reading and writing memory in terms of the specification.
-/
namespace Soroban
open Soroban.Spec

theorem fromLe_append_eq : ∀ (n w : Nat) (b : List Nat), b.length = n → w < 256 ^ n → (∀ k, k < n → b[k]? = some (w / 256 ^ k % 256)) →
    b = toLe n w := by
  intro n w b hb hw h
  apply List.ext_getElem?
  intro k
  by_cases hk : k < n
  · rw [h k hk, toLe_get n w k hk]
  · rw [List.getElem?_eq_none (by omega), List.getElem?_eq_none (by rw [toLe_length]; omega)]

theorem readBytes_iff {m b : List Nat} {pos n : Nat} : readBytes m pos n = .ok b ↔ b.length = n ∧ BytesAt m pos b := by
  constructor
  · intro h
    obtain ⟨h1, h2, h3⟩ := readBytes_ok h
    refine ⟨h3, by omega, ?_⟩
    intro k hk
    exact (readBytes_get h k (by omega)).symm
  · rintro ⟨h1, h2, h3⟩
    unfold readBytes
    rw [if_pos (by omega)]
    congr 1
    apply List.ext_getElem?
    intro k
    by_cases hk : k < n
    · rw [List.getElem?_take, if_pos hk, List.getElem?_drop, h3 k (by omega)]
    · rw [List.getElem?_eq_none (by rw [List.length_take]; omega), List.getElem?_eq_none (by omega)]

theorem numAt_iff {m : List Nat} {pos n w : Nat} (hw : w < 256 ^ n) (hn : 0 < n) : NumAt m pos n w ↔ readBytes m pos n = .ok (toLe n w) := by
  rw [readBytes_iff]
  unfold NumAt BytesAt
  rw [toLe_length]
  constructor
  · rintro ⟨_, h⟩
    refine ⟨rfl, ?_, ?_⟩
    · have := (List.getElem?_eq_some_iff.1 (h (n - 1) (by omega))).1
      omega
    · intro k hk
      rw [h k hk, toLe_get n w k hk]
  · rintro ⟨_, _, h⟩
    refine ⟨hw, ?_⟩
    intro k hk
    rw [h k hk, toLe_get n w k hk]

theorem numAt_unique {m : List Nat} {pos n w w' : Nat} (hn : 0 < n) (h : NumAt m pos n w) (h' : NumAt m pos n w') : w = w' := by
  have h1 := (numAt_iff h.1 hn).1 h
  have h2 := (numAt_iff h'.1 hn).1 h'
  rw [h1] at h2
  rw [← fromLe_toLe n w h.1, Except.ok.inj h2, fromLe_toLe n w' h'.1]

theorem toLe_fromLe (b : List Nat) (h : ∀ x ∈ b, x < 256) : toLe b.length (fromLe b) = b := by
  induction b with
  | nil => rfl
  | cons a t ih =>
    have ha := h a (by simp)
    rw [List.length_cons, toLe, fromLe, show (a + 256 * fromLe t) % 256 = a by omega, show (a + 256 * fromLe t) / 256 = fromLe t by omega,
      ih (fun x hx => h x (by simp [hx]))]

theorem numAt_of_read {m b : List Nat} {pos n : Nat} (hn : 0 < n) (hm : ∀ x ∈ m, x < 256) (h : readBytes m pos n = .ok b) :
    NumAt m pos n (fromLe b) := by
  obtain ⟨_, hb, hl⟩ := readBytes_ok h
  have hlt : ∀ x ∈ b, x < 256 := by
    rw [hb]
    exact fun x hx => hm x (List.mem_of_mem_drop (List.mem_of_mem_take hx))
  have h1 := fromLe_lt b hlt
  rw [hl] at h1
  rw [numAt_iff h1 hn, h]
  congr 1
  have := toLe_fromLe b hlt
  rw [hl] at this
  exact this.symm

theorem readBytes_split {m b : List Nat} {pos n k : Nat} (h : readBytes m pos (n + k) = .ok b) :
    readBytes m pos n = .ok (b.take n) ∧ readBytes m (pos + n) k = .ok (b.drop n) := by
  obtain ⟨h1, h2, h3⟩ := readBytes_ok h
  have hg := readBytes_get h
  constructor
  · rw [readBytes_iff]
    refine ⟨by rw [List.length_take]; omega, by rw [List.length_take]; omega, ?_⟩
    intro i hi
    rw [List.length_take] at hi
    rw [List.getElem?_take, if_pos (by omega), hg i (by omega)]
  · rw [readBytes_iff]
    refine ⟨by rw [List.length_drop]; omega, by rw [List.length_drop]; omega, ?_⟩
    intro i hi
    rw [List.length_drop] at hi
    rw [List.getElem?_drop, hg (n + i) (by omega), Nat.add_assoc]

theorem readBytes_join {m a b : List Nat} {pos n k : Nat} (h : readBytes m pos n = .ok a) (h' : readBytes m (pos + n) k = .ok b) :
    readBytes m pos (n + k) = .ok (a ++ b) := by
  rw [readBytes_iff] at *
  obtain ⟨h1, h2, h3⟩ := h
  obtain ⟨h4, h5, h6⟩ := h'
  refine ⟨by simp [h1, h4], by rw [List.length_append]; omega, ?_⟩
  intro i hi
  rw [List.length_append] at hi
  by_cases hlt : i < n
  · rw [List.getElem?_append_left (by omega), h3 i (by omega)]
  · rw [List.getElem?_append_right (by omega), ← h6 (i - a.length) (by omega)]
    congr 1
    omega

theorem scanSlice_iff {m : List Nat} {pos i ptr len : Nat} (hm : ∀ x ∈ m, x < 256) :
    scanSlice m pos i = .ok (ptr, len) ↔ NumAt m (pos + 8 * i) 4 ptr ∧ NumAt m (pos + 8 * i + 4) 4 len ∧ ptr + len ≤ u32Max := by
  unfold scanSlice
  constructor
  · intro h
    obtain ⟨b, h1, h⟩ := bind_ok.mp h
    obtain ⟨h2, h3⟩ := readBytes_split (n := 4) (k := 4) h1
    dsimp only at h
    by_cases hc : fromLe (b.take 4) + fromLe (b.drop 4) > u32Max
    · rw [if_pos hc] at h; cases h
    · rw [if_neg hc] at h
      cases h
      exact ⟨numAt_of_read (by omega) hm h2, numAt_of_read (by omega) hm h3, by omega⟩
  · rintro ⟨h1, h2, h3⟩
    have e1 := (numAt_iff h1.1 (by omega)).1 h1
    have e2 := (numAt_iff h2.1 (by omega)).1 h2
    refine bind_ok.mpr ⟨_, readBytes_join e1 e2, ?_⟩
    have hl : (toLe 4 ptr).length = 4 := toLe_length 4 ptr
    dsimp only
    rw [List.take_append_of_le_length (by omega), List.take_of_length_le (by omega), List.drop_append_of_le_length (by omega),
      List.drop_of_length_le (by omega), List.nil_append, fromLe_toLe 4 ptr h1.1, fromLe_toLe 4 len h2.1, if_neg (by omega)]

theorem scanSlices_iff' {m : List Nat} {pos : Nat} (hm : ∀ x ∈ m, x < 256) : ∀ (n i : Nat) (bs : List (List Nat)),
    scanSlices m pos i n = .ok bs ↔ bs.length = n ∧ SlicesAt m (pos + 8 * i) bs := by
  intro n
  induction n with
  | zero =>
    intro i bs
    constructor
    · intro h; cases h; exact ⟨rfl, by intro j b hb; simp at hb⟩
    · rintro ⟨h, _⟩
      rw [List.length_eq_zero_iff] at h
      subst h
      rfl
  | succ n ih =>
    intro i bs
    rw [scanSlices]
    constructor
    · intro h
      obtain ⟨⟨ptr, len⟩, h1, h⟩ := bind_ok.mp h
      obtain ⟨b, h2, h⟩ := bind_ok.mp h
      obtain ⟨bs', h3, h⟩ := bind_ok.mp h
      cases h
      obtain ⟨i1, i2⟩ := (ih (i + 1) bs').1 h3
      obtain ⟨g1, g2, g3⟩ := (scanSlice_iff hm).1 h1
      obtain ⟨g4, g5⟩ := readBytes_iff.1 h2
      dsimp only at g4
      refine ⟨by simp [i1], ?_⟩
      intro j c hj
      cases j with
      | zero =>
        cases hj
        rw [Nat.mul_zero, Nat.add_zero, g4]
        refine ⟨ptr, g1, g2, ?_, g5⟩
        unfold u32Max at g3
        omega
      | succ j =>
        have := i2 j c hj
        rw [show pos + 8 * (i + 1) + 8 * j = pos + 8 * i + 8 * (j + 1) by omega] at this
        exact this
    · rintro ⟨h1, h2⟩
      cases bs with
      | nil => cases h1
      | cons b bs =>
        obtain ⟨ptr, g1, g2, g3, g4⟩ := h2 0 b rfl
        refine bind_ok.mpr ⟨(ptr, b.length), (scanSlice_iff hm).2 ⟨g1, g2, ?_⟩, ?_⟩
        · unfold u32Max; omega
        · refine bind_ok.mpr ⟨b, readBytes_iff.2 ⟨rfl, g4⟩, ?_⟩
          refine bind_ok.mpr ⟨bs, (ih (i + 1) bs).2 ⟨by simpa using h1, ?_⟩, rfl⟩
          intro j c hj
          have := h2 (j + 1) c hj
          rw [show pos + 8 * i + 8 * (j + 1) = pos + 8 * (i + 1) + 8 * j by omega] at this
          exact this

theorem scanSlices_iff {m : List Nat} {pos n : Nat} {bs : List (List Nat)} (hm : ∀ x ∈ m, x < 256) :
    scanSlices m pos 0 n = .ok bs ↔ bs.length = n ∧ SlicesAt m pos bs := by
  have := scanSlices_iff' (pos := pos) hm n 0 bs
  rwa [Nat.mul_zero, Nat.add_zero] at this

/-- Words read from memory. -/
theorem words_at {m b : List Nat} {pos n : Nat} (hm : ∀ x ∈ m, x < 256) (h : readBytes m pos (n * 8) = .ok b) :
    WordsAt m pos (words n b) := by
  intro i w hi
  have hlt : i < n := by
    have := (List.getElem?_eq_some_iff.1 hi).1
    rwa [words_length] at this
  rw [words_get n b i hlt] at hi
  cases hi
  refine numAt_of_read (by omega) hm ?_
  rw [readBytes_iff]
  obtain ⟨g1, _, g3⟩ := readBytes_ok h
  have hg := readBytes_get h
  have hlen : ((b.drop (8 * i)).take 8).length = 8 := by rw [List.length_take, List.length_drop]; omega
  refine ⟨hlen, by omega, ?_⟩
  intro k hk
  rw [hlen] at hk
  rw [List.getElem?_take, if_pos hk, List.getElem?_drop, hg (8 * i + k) (by omega), Nat.add_assoc]

theorem readBytes_words {m : List Nat} : ∀ {ws : List Nat} {pos : Nat}, pos ≤ m.length → WordsAt m pos ws →
    readBytes m pos (ws.length * 8) = .ok (unwords ws)
  | [], pos, hp, _ => by
    rw [readBytes_iff]
    exact ⟨rfl, by simpa [unwords] using hp, by intro k hk; simp [unwords] at hk⟩
  | w :: ws, pos, _, h => by
    have h0 := h 0 w rfl
    rw [Nat.mul_zero, Nat.add_zero] at h0
    have hlt := h0.1
    rw [numAt_iff hlt (by omega)] at h0
    have hp := (readBytes_ok h0).1
    have ih := readBytes_words (ws := ws) (pos := pos + 8) hp (by
      intro i w hi
      have := h (i + 1) w hi
      rw [show pos + 8 * (i + 1) = pos + 8 + 8 * i by omega] at this
      exact this)
    have := readBytes_join h0 ih
    rw [List.length_cons, show (ws.length + 1) * 8 = 8 + ws.length * 8 by omega, this]
    rfl

theorem wordsAt_lt {m ws : List Nat} {pos : Nat} (h : WordsAt m pos ws) : ∀ w ∈ ws, w < 2^64 := by
  intro w hw
  obtain ⟨i, hi⟩ := List.mem_iff_getElem?.1 hw
  exact (h i w hi).1

/-- Which values are read. -/
theorem readVals_iff {m tbl vs : List Nat} {pos n : Nat} (hm : ∀ x ∈ m, x < 256) :
    readVals m tbl pos n = .ok vs ↔ pos + n * 8 ≤ m.length ∧ pos + n * 8 < 2^32 ∧
      ∃ ws, ws.length = n ∧ WordsAt m pos ws ∧ List.Forall₂ (fun w v => relToAbs tbl w = .ok v) ws vs := by
  unfold readVals
  constructor
  · intro h
    obtain ⟨s, h1, h⟩ := bind_ok.mp h
    obtain ⟨b, h2, h⟩ := bind_ok.mp h
    have hr := relToAbsAll_ok h
    obtain ⟨rfl, h3⟩ := valsSize_ok h1
    refine ⟨(readBytes_ok h2).1, ?_, _, words_length n b, words_at hm h2, hr⟩
    unfold u32Max at h3
    omega
  · rintro ⟨h1, h2, ws, rfl, hw, hf⟩
    refine bind_ok.mpr ⟨_, valsSize_eq ?_, ?_⟩
    · unfold u32Max; omega
    · refine bind_ok.mpr ⟨_, readBytes_words (by omega) hw, ?_⟩
      rw [words_unwords ws (wordsAt_lt hw)]
      exact relToAbsAll_eq hf

/-- The words of a memory that was overwritten with words. -/
theorem overwritten_words {m m' ws : List Nat} {pos : Nat} (hw : ∀ w ∈ ws, w < 2^64) (h : Overwritten m m' pos (unwords ws)) :
    WordsAt m' pos ws := by
  obtain ⟨_, _, h3, _⟩ := h
  intro i w hi
  have hlt := (List.getElem?_eq_some_iff.1 hi).1
  refine ⟨hw w (List.mem_of_getElem? hi), ?_⟩
  intro k hk
  rw [Nat.add_assoc, h3 (8 * i + k) (by rw [unwords_length]; omega), unwords_get ws i w hi k hk]

theorem overwritten_unique {m m₁ m₂ bs : List Nat} {pos : Nat} (h₁ : Overwritten m m₁ pos bs) (h₂ : Overwritten m m₂ pos bs) : m₁ = m₂ := by
  apply List.ext_getElem?
  intro i
  by_cases hi : i < pos ∨ pos + bs.length ≤ i
  · rw [h₁.2.2.2 i hi, h₂.2.2.2 i hi]
  · have e : i = pos + (i - pos) := by omega
    rw [e, h₁.2.2.1 (i - pos) (by omega), h₂.2.2.1 (i - pos) (by omega)]

theorem writeBytes_iff {m m' bs : List Nat} {pos : Nat} : writeBytes m pos bs = .ok m' ↔ Overwritten m m' pos bs := by
  constructor
  · exact writeBytes_ok
  · intro h
    have hc := h.2.1
    have : writeBytes m pos bs = .ok (m.take pos ++ bs ++ m.drop (pos + bs.length)) := if_pos hc
    rw [this, overwritten_unique h (writeBytes_ok this)]

end Soroban
