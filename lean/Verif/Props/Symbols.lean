import Verif.Lemmas.Symbols
/-!
C104: symbols read as the same text in either form, and which comparisons follow it.
-/
namespace Soroban.Props
open Soroban Soroban.Spec Soroban.Symbols Soroban.Symbols.Spec

variable {objs objs' : List HostObj}

private theorem symText (hobjs : ObjsOk objs) {v : Nat} {t : List Nat} (h : IsSymbol objs v t) : symbolText objs v = .ok t :=
  ContractTypes.symbol_is hobjs h

private theorem tells (s t : List Nat) : Tells (lexCmp s t) s t := lexCmp_spec s t

/-- C104: Rust code reads a symbol of either form as its text, and its length and emptiness are those of the text; converting it back to a ledger
value gives the symbol with this text. -/
theorem C104_text (hobjs : ObjsOk objs) (htext : ∀ o ∈ objs, TextOk o) {v : Nat} {t : List Nat} (h : IsSymbol objs v t) :
    ∃ s, toStr objs v = .ok s ∧ s.length = 32 ∧ strBytes s = t ∧ strLen s = t.length ∧ (strIsEmpty s = true ↔ t = []) ∧
      toScVal objs v = .ok (.symbol t) := by
  have ht := symText hobjs h
  obtain ⟨h1, h2⟩ := text_fits htext ht
  refine ⟨_, toStr_text htext ht, ?_, strBytes_pad _ h2, strLen_pad _ h2, ?_, ?_⟩
  · rw [List.length_append, List.length_replicate]; omega
  · unfold strIsEmpty
    cases t with
    | nil => simp
    | cons c t => simp [h2 c (by simp)]
  · unfold toScVal
    refine bind_ok.mpr ⟨_, toStr_text htext ht, ?_⟩
    exact congrArg (fun x => Except.ok (ScVal.symbol x)) (strBytes_pad _ h2)

private theorem fromSlice_iff (hroom : objs.length < 2^31) (t : List Nat) : (∃ r, symbolFromSlice objs t = .ok r) ↔ IsText t := by
  constructor
  · rintro ⟨⟨objs₁, v⟩, h⟩
    have hl : objs₁.length ≤ 2^31 := by
      have := symbolsFromSlices_len (bs := [t]) (objs := objs) (objs' := objs₁) (ks := [v])
        (by unfold symbolsFromSlices; exact bind_ok.mpr ⟨_, h, rfl⟩)
      simp at this; omega
    exact (symbolFromSlice_text h hl).2
  · intro h
    obtain ⟨objs₁, ks, h1, _⟩ := symbolsFromSlices_succeeds (bs := [t]) (objs := objs) (by simp; omega)
      (by intro b hb; rw [List.mem_singleton.mp hb]; exact h)
    unfold symbolsFromSlices at h1
    obtain ⟨r, h1, _⟩ := bind_ok.mp h1
    exact ⟨r, h1⟩

/-- C104: texts of symbols, and no others, are made symbols, as long as there is room for an object; the symbol has the text it was made of, and no
other value changes its meaning. -/
theorem C104_made (hobjs : ObjsOk objs) (htext : ∀ o ∈ objs, TextOk o) (hroom : objs.length < 2^31) (t : List Nat) :
    ((∃ r, ofScVal objs (.symbol t) = .ok r) ↔ IsText t) ∧
    ∀ {v}, ofScVal objs (.symbol t) = .ok (objs', v) →
      IsSymbol objs' v t ∧ ObjsOk objs' ∧ (∀ o ∈ objs', TextOk o) ∧ ∃ e, objs' = objs ++ e ∧ e.length ≤ 1 := by
  refine ⟨fromSlice_iff hroom t, ?_⟩
  intro v h
  change symbolFromSlice objs t = .ok (objs', v) at h
  have hlen : objs'.length ≤ objs.length + 1 := by
    have := symbolsFromSlices_len (bs := [t]) (objs := objs) (objs' := objs') (ks := [v])
      (by unfold symbolsFromSlices; exact bind_ok.mpr ⟨_, h, rfl⟩)
    simpa using this
  have ht := (symbolFromSlice_text h (by omega)).1
  unfold symbolFromSlice at h
  cases hx : symbolTryFromBytes t with
  | some w =>
    rw [hx] at h; cases h
    exact ⟨⟨symbolTry_sound hx, ⟨1, symbol_reads ht 0⟩⟩, hobjs, htext, [], by simp, by simp⟩
  | none =>
    rw [hx] at h
    obtain ⟨o, ho, h⟩ := bind_ok.mp h
    have hn := newOk_symbol (d := 0) (objs := objs) ho
    have hv := addObj_sound hroom h
    have heq := addObj_eq h
    refine ⟨⟨hv.2.1, ⟨1, symbol_reads ht 0⟩⟩, ?_, ?_, [o], heq, by simp⟩
    · rw [heq]; exact ObjsOk_snoc hobjs hn.ok hn.inner
    · rw [heq]
      intro x hx
      rcases List.mem_append.mp hx with hx | hx
      · exact htext x hx
      · rw [List.mem_singleton.mp hx]; exact hn.text

/-- C104: comparing what Rust code reads gives the order of the texts, whatever the forms of the symbols are. -/
theorem C104_text_order (hobjs : ObjsOk objs) (htext : ∀ o ∈ objs, TextOk o) {v w : Nat} {s t : List Nat} (hv : IsSymbol objs v s)
    (hw : IsSymbol objs w t) {x y : List Nat} (hx : toStr objs v = .ok x) (hy : toStr objs w = .ok y) :
    Tells (strCmp x y) s t ∧ Tells (strHostCmp x y) s t := by
  have h1 := text_fits htext (symText hobjs hv)
  have h2 := text_fits htext (symText hobjs hw)
  rw [toStr_text htext (symText hobjs hv)] at hx
  rw [toStr_text htext (symText hobjs hw)] at hy
  cases hx; cases hy
  unfold strCmp strHostCmp
  rw [lexCmp_pad h1.2 h2.2 (by omega), strBytes_pad _ h1.2, strBytes_pad _ h2.2]
  exact ⟨tells s t, tells s t⟩

/-- C104: a symbol matches exactly the bytes of its text. -/
theorem C104_matches (hobjs : ObjsOk objs) (htext : ∀ o ∈ objs, TextOk o) {v : Nat} {t : List Nat} (h : IsSymbol objs v t) (b : List Nat) :
    symbolMatches objs b v = .ok (decide (t = b)) := by
  unfold symbolMatches
  rw [compareToBytes_text htext (symText hobjs h)]
  change Except.ok (lexCmp t b == .eq) = _
  congr 1
  rw [Bool.eq_iff_iff]
  simp [(lexCmp_spec t b).2.2]

/-- C104: symbols of the same form compare by their texts. -/
theorem C104_same_form (hobjs : ObjsOk objs) {v w : Nat} {s t : List Nat} (hv : IsSymbol objs v s) (hw : IsSymbol objs w t)
    (hform : Val.isObject v = Val.isObject w) (d : Nat) : ∃ o, symbolCmp objs (d + 1) v w = .ok o ∧ Tells o s t := by
  refine ⟨lexCmp s t, ?_, tells s t⟩
  have h1 := symText hobjs hv
  have h2 := symText hobjs hw
  unfold symbolCmp
  rcases symbolText_ok.mp h1 with ⟨hv1, rfl⟩ | ⟨hv1, hv2⟩ <;> rcases symbolText_ok.mp h2 with ⟨hw1, rfl⟩ | ⟨hw1, hw2⟩
  · rw [hv1, hw1]; rfl
  · rw [notObject_symbolSmall hv1, (visitObj_ok.mp hw2).1] at hform; cases hform
  · rw [notObject_symbolSmall hw1, (visitObj_ok.mp hv2).1] at hform; cases hform
  · rw [hv1, hw1]
    change valCmp objs (d + 1) v w = _
    rw [valCmp_spec hobjs hv.1 hw.1 (symbol_reads h1 d) (symbol_reads h2 d), scOrd_symbol]

/-- C104: symbols of different forms do not: the one without an object is the smaller one whatever the texts are. -/
theorem C104_other_form (hobjs : ObjsOk objs) {v w : Nat} {s t : List Nat} (hv : IsSymbol objs v s) (hw : IsSymbol objs w t)
    (hv' : Val.isObject v = false) (hw' : Val.isObject w = true) (d : Nat) :
    symbolCmp objs d v w = .ok .lt ∧ symbolCmp objs d w v = .ok .gt := by
  unfold symbolCmp
  rcases symbolText_ok.mp (symText hobjs hv) with ⟨hv1, rfl⟩ | ⟨hv1, hv2⟩
  · rcases symbolText_ok.mp (symText hobjs hw) with ⟨hw1, rfl⟩ | ⟨hw1, hw2⟩
    · rw [notObject_symbolSmall hw1] at hw'; cases hw'
    · rw [hv1, hw1]; exact ⟨rfl, rfl⟩
  · rw [(visitObj_ok.mp hv2).1] at hv'; cases hv'

/-- C104: so the comparison of symbols is neither the order of texts nor the order of host values: the same text in the two forms is told apart,
although the host's comparison of values says equal, and `b` comes before the object `a`. -/
theorem C104_forms_told_apart : ∃ (objs : List HostObj) (b a a' : Nat), ObjsOk objs ∧ (∀ o ∈ objs, TextOk o) ∧ IsSymbol objs b [98] ∧
    IsSymbol objs a [97] ∧ IsSymbol objs a' [97] ∧ valCmp objs 10 a a' = .ok .eq ∧ symbolCmp objs 10 a a' = .ok .lt ∧
    valCmp objs 10 b a' = .ok .gt ∧ symbolCmp objs 10 b a' = .ok .lt := by
  refine ⟨[.symbol [97]], (symbolTryFromBytes [98]).get!, (symbolTryFromBytes [97]).get!, valObject 1 .SymbolObject, ?_, ?_, ?_, ?_, ?_, ?_⟩
  · intro i o h
    cases i with
    | zero => cases h; exact ⟨trivial, by simp [elems]⟩
    | succ i => cases h
  · intro o h
    rw [List.mem_singleton] at h
    subst h
    refine ⟨by simp [octets], ?_⟩
    intro s h; cases h
    exact ⟨by decide, by simp [isSymbolChar]⟩
  · exact ⟨⟨by decide +kernel, rfl⟩, 1, rfl⟩
  · exact ⟨⟨by decide +kernel, rfl⟩, 1, rfl⟩
  · exact ⟨⟨by decide +kernel, rfl⟩, 1, rfl⟩
  · exact ⟨rfl, rfl, rfl, rfl⟩

/-- A long symbol is read back, is longer than a short one, and is ordered by its text. -/
example : toStr [.symbol (List.replicate 12 97)] (valObject 1 .SymbolObject) = .ok (List.replicate 12 97 ++ List.replicate 20 0) ∧
    (toStr [] (symbolTryFromBytes [98]).get!).toOption = some ([98] ++ List.replicate 31 0) ∧
    strCmp ([98] ++ List.replicate 31 0) (List.replicate 12 97 ++ List.replicate 20 0) = .gt := by
  refine ⟨rfl, rfl, rfl⟩

end Soroban.Props
