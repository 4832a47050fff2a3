import Verif.Spec.Symbols
import Verif.Lemmas.ContractTypes
/-!
Symbols and their texts.
-/
namespace Soroban.Symbols
open Soroban Soroban.Spec Soroban.Symbols.Spec Soroban.ContractTypes
open Soroban.Props (visitSymbol_ok symbolText_ok lexCmp_spec)

theorem overwrite_eq : ∀ (d s : List Nat), s.length ≤ d.length → overwrite d s = s ++ d.drop s.length
  | [], [], _ => rfl
  | [], _ :: _, h => by simp at h
  | _ :: _, [], _ => rfl
  | _ :: ds, s :: ss, h => by
    rw [overwrite, overwrite_eq ds ss (by simpa using h)]
    simp

theorem overwrite_zeros {s : List Nat} (h : s.length ≤ 32) : overwrite (List.replicate 32 0) s = s ++ List.replicate (32 - s.length) 0 := by
  rw [overwrite_eq _ _ (by simpa using h), List.drop_replicate]

theorem strLen_pad : ∀ {s : List Nat} (n : Nat), (∀ c ∈ s, c ≠ 0) → strLen (s ++ List.replicate n 0) = s.length
  | [], 0, _ => rfl
  | [], n + 1, _ => by simp [List.replicate, strLen]
  | c :: s, n, h => by
    rw [List.cons_append, strLen, if_neg (h c (by simp)), strLen_pad n (fun x hx => h x (by simp [hx]))]
    rfl

theorem strBytes_pad {s : List Nat} (n : Nat) (h : ∀ c ∈ s, c ≠ 0) : strBytes (s ++ List.replicate n 0) = s := by
  unfold strBytes
  rw [strLen_pad n h]
  simp

theorem symbolIter_length : ∀ (n s : Nat), (symbolIter n s).length ≤ n
  | 0, _ => by simp [symbolIter]
  | n + 1, s => by
    rw [symbolIter]
    split
    · simp
    · dsimp only
      split
      · have := symbolIter_length n (shl64 s 6)
        rw [List.length_cons]; omega
      · have := symbolIter_length n (shl64 s 6)
        omega

theorem symbolChars_length (v : Nat) : (symbolChars v).length ≤ 11 := symbolIter_length _ _

theorem smallToStr_eq (v : Nat) : smallToStr v = symbolChars v ++ List.replicate (32 - (symbolChars v).length) 0 :=
  overwrite_zeros (by have := symbolChars_length v; omega)

theorem char_ne_zero {c : Nat} (h : isSymbolChar c) : c ≠ 0 := by unfold isSymbolChar at h; omega

variable {objs : List HostObj}

/-- The text of a symbol fits the array and has no zeros. -/
theorem text_fits (htext : ∀ o ∈ objs, TextOk o) {v : Nat} {t : List Nat} (h : symbolText objs v = .ok t) : t.length ≤ 32 ∧ ∀ c ∈ t, c ≠ 0 := by
  rcases symbolText_ok.mp h with ⟨_, rfl⟩ | ⟨_, h1⟩
  · exact ⟨by have := symbolChars_length v; omega, fun c hc => symbolIter_ne_zero _ _ c hc⟩
  · obtain ⟨_, _, h2⟩ := visitObj_ok.mp h1
    obtain ⟨h3, h4⟩ := (htext _ (List.mem_of_getElem? h2)).2 t rfl
    exact ⟨h3, fun c hc => char_ne_zero (h4 c hc)⟩

theorem toStr_text (htext : ∀ o ∈ objs, TextOk o) {v : Nat} {t : List Nat} (h : symbolText objs v = .ok t) :
    toStr objs v = .ok (t ++ List.replicate (32 - t.length) 0) := by
  have hf := text_fits htext h
  unfold toStr
  rcases symbolText_ok.mp h with ⟨h0, rfl⟩ | ⟨h0, h1⟩
  · rw [if_pos h0, smallToStr_eq]
  · rw [if_neg (by rw [h0]; decide)]
    refine bind_ok.mpr ⟨t, visitSymbol_ok.mpr h1, ?_⟩
    rw [if_pos hf.1]
    refine bind_ok.mpr ⟨t, ?_, ?_⟩
    · unfold bytesOut
      rw [if_neg (by have := hf.1; simp [u32Max]; omega), if_pos (by omega)]
      simp
    · rw [overwrite_zeros hf.1]

theorem compareToBytes_text (htext : ∀ o ∈ objs, TextOk o) {v : Nat} {t b : List Nat} (h : symbolText objs v = .ok t) :
    compareToBytes objs v b = .ok (lexCmp t b) := by
  have hf := text_fits htext h
  unfold compareToBytes
  rcases symbolText_ok.mp h with ⟨h0, rfl⟩ | ⟨h0, h1⟩
  · rw [if_pos h0, smallToStr_eq, strBytes_pad _ hf.2]
  · rw [if_neg (by rw [h0]; decide), if_pos h0]
    exact bind_ok.mpr ⟨t, visitSymbol_ok.mpr h1, rfl⟩

/-- Padding with zeros does not change the order of texts. -/
theorem lexCmp_pad : ∀ {s t : List Nat} {n m : Nat}, (∀ c ∈ s, c ≠ 0) → (∀ c ∈ t, c ≠ 0) → s.length + n = t.length + m →
    lexCmp (s ++ List.replicate n 0) (t ++ List.replicate m 0) = lexCmp s t
  | [], [], n, m, _, _, h => by
    have : n = m := by simpa using h
    subst this
    exact (lexCmp_spec _ _).2.2.mpr rfl
  | [], c :: t, 0, m, _, _, h => by simp at h; omega
  | [], c :: t, n + 1, m, _, ht, _ => by
    have : 0 < c := Nat.pos_of_ne_zero (ht c (by simp))
    simp [List.replicate, lexCmp, this]
  | c :: s, [], n, 0, _, _, h => by simp at h
  | c :: s, [], n, m + 1, hs, _, _ => by
    have : 0 < c := Nat.pos_of_ne_zero (hs c (by simp))
    simp [List.replicate, lexCmp, this]
  | a :: s, b :: t, n, m, hs, ht, h => by
    have ih := lexCmp_pad (s := s) (t := t) (n := n) (m := m) (fun x hx => hs x (by simp [hx])) (fun x hx => ht x (by simp [hx]))
      (by simp at h; omega)
    simp only [List.cons_append, lexCmp, ih]

end Soroban.Symbols
