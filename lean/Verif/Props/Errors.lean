import Verif.Spec.Errors
import Verif.Lemmas.Convert
import Verif.Model.Host
import Verif.Model.Delegates
import Verif.Model.Prng
/-!
C105: errors as words, and failures of libraries as errors.
-/
namespace Soroban.Props
open Soroban.Errors Soroban.Errors.Spec Soroban.VmCall

private theorem tyNum_of {t : ErrTy} {i : Nat} (h : types[i]? = some t) : tyNum t = i + 1 ∧ i < 9 := by
  obtain ⟨hi, he⟩ := List.getElem?_eq_some_iff.mp h
  have h9 : i < 9 := hi
  subst he
  have : ∀ i : Fin 9, tyNum (types[i.1]'(i.2)) = i.1 + 1 := by decide
  exact ⟨this ⟨i, h9⟩, h9⟩

private theorem codeNum_of {c : ErrCode} {j : Nat} (h : codes[j]? = some c) : codeNum c = j ∧ j < 10 := by
  obtain ⟨hi, he⟩ := List.getElem?_eq_some_iff.mp h
  have h9 : j < 10 := hi
  subst he
  have : ∀ i : Fin 10, codeNum (codes[i.1]'(i.2)) = i.1 := by decide
  exact ⟨this ⟨j, h9⟩, h9⟩

private theorem types_get (t : ErrTy) : types[tyNum t - 1]? = some t ∧ 1 ≤ tyNum t := by
  cases t <;> decide

private theorem codes_get (c : ErrCode) : codes[codeNum c]? = some c := by
  cases c <;> decide

private theorem tyOf_iff {n : Nat} {t : ErrTy} : tyOf n = some t ↔ n = tyNum t := by
  constructor
  · intro h
    unfold tyOf at h
    split at h <;> first | (cases h; rfl) | cases h
  · rintro rfl
    cases t <;> rfl

private theorem codeOf_iff {n : Nat} {c : ErrCode} : codeOf n = some c ↔ n = codeNum c := by
  constructor
  · intro h
    unfold codeOf at h
    split at h <;> first | (cases h; rfl) | cases h
  · rintro rfl
    cases c <;> rfl

/-- An error has exactly one pair of numbers. -/
private theorem numbers_iff {e : Err} {t c : Nat} : HasNumbers e t c ↔
    (t = 0 ∧ c < 2^32 ∧ e = .contract c) ∨ ∃ ty co, e = .host ty co ∧ t = tyNum ty ∧ c = codeNum co := by
  constructor
  · rintro (h | ⟨h1, h2⟩)
    · exact .inl ⟨rfl, h, rfl⟩
    · exact .inr ⟨_, _, rfl, (tyNum_of h1).1.symm, (codeNum_of h2).1.symm⟩
  · rintro (⟨rfl, h, rfl⟩ | ⟨ty, co, rfl, rfl, rfl⟩)
    · exact .contract h
    · have h1 := types_get ty
      have := HasNumbers.host h1.1 (codes_get co)
      rwa [Nat.sub_add_cancel h1.2] at this

private theorem numbers_small {e : Err} {t c : Nat} (h : HasNumbers e t c) : t < 10 ∧ c < 2^32 := by
  rcases h with h | ⟨h1, h2⟩
  · exact ⟨by decide, h⟩
  · have := (tyNum_of h1).2
    have := (codeNum_of h2).2
    exact ⟨by omega, by omega⟩

private theorem word_eq {e : Err} {t c : Nat} (h : HasNumbers e t c) : fromScError e = Val.fromMajorMinorAndTag c t .Error := by
  rcases numbers_iff.mp h with ⟨rfl, _, rfl⟩ | ⟨ty, co, rfl, rfl, rfl⟩ <;> rfl

/-- The word of an error, and what it is read as. -/
private theorem word_parts {e : Err} {t c : Nat} (h : HasNumbers e t c) :
    fromScError e = c * 2^32 + t * 2^8 + 3 ∧ Val.minor (fromScError e) = t ∧ Val.major (fromScError e) = c := by
  have hs := numbers_small h
  have ht : t < 2^24 := Nat.lt_of_lt_of_le hs.1 (by decide)
  rw [word_eq h, minor_eq, major_eq, fromMajorMinorAndTag_eq .Error hs.2 ht]
  have h3 : Tag.code .Error = 3 := rfl
  rw [h3]
  refine ⟨rfl, ?_, ?_⟩ <;> omega

/-- C105: the word of an error has the error's code in its upper half, the number of its type below and the tag 3; a program
that reads the word finds the same error again. -/
theorem C105_word {e : Err} {t c : Nat} (h : HasNumbers e t c) :
    fromScError e = c * 2^32 + t * 2^8 + 3 ∧ Val.tag (fromScError e) = .Error ∧ toScError (fromScError e) = some e ∧
      getCode (fromScError e) = c ∧ (∀ n, isType (fromScError e) n = true ↔ n = t) := by
  obtain ⟨h1, h2, h3⟩ := word_parts h
  have hs := numbers_small h
  refine ⟨h1, ?_, ?_, h3, ?_⟩
  · rw [word_eq h]
    exact tag_majMin hs.2 (Nat.lt_of_lt_of_le hs.1 (by decide)) (by decide) (by decide) (by decide)
  · unfold toScError
    rw [h2, h3]
    rcases numbers_iff.mp h with ⟨rfl, _, rfl⟩ | ⟨ty, co, rfl, rfl, rfl⟩
    · rfl
    · have : tyNum ty ≠ 0 := by cases ty <;> decide
      rw [if_neg this, tyOf_iff.mpr rfl, codeOf_iff.mpr rfl]
      rfl
  · intro n
    unfold isType
    rw [h2, beq_iff_eq]
    exact eq_comm

/-- C105: a word with the tag of errors is read as an error exactly if its numbers are those of the error; of all the 2^56 words
with the tag the others mean no error. -/
theorem C105_read {w : Nat} (hw : w < 2^64) (ht : w % 2^8 = 3) (e : Err) :
    toScError w = some e ↔ HasNumbers e (w / 2^8 % 2^24) (w / 2^32) := by
  have hm : Val.minor w = w / 2^8 % 2^24 := minor_eq w
  have hM : Val.major w = w / 2^32 := by
    rw [major_eq]
    omega
  rw [← hm, ← hM, numbers_iff]
  have hlt : Val.major w < 2^32 := by rw [hM]; omega
  unfold toScError
  by_cases h0 : Val.minor w = 0
  · rw [if_pos h0]
    constructor
    · intro h
      injection h with h
      exact .inl ⟨h0, hlt, h.symm⟩
    · rintro (⟨_, _, rfl⟩ | ⟨ty, _, _, hty, _⟩)
      · rfl
      · rw [h0] at hty
        cases ty <;> cases hty
  · rw [if_neg h0]
    constructor
    · intro h
      cases hty : tyOf (Val.minor w) with
      | none => rw [hty] at h; cases h
      | some ty =>
        rw [hty] at h
        cases hco : codeOf (Val.major w) with
        | none => simp only [hco] at h; cases h
        | some co =>
          simp only [hco] at h
          cases h
          exact .inr ⟨ty, co, rfl, tyOf_iff.mp hty, codeOf_iff.mp hco⟩
    · rintro (⟨h, _⟩ | ⟨ty, co, rfl, h1, h2⟩)
      · exact absurd h h0
      · rw [tyOf_iff.mpr h1, codeOf_iff.mpr h2]
        rfl

/-- C105: words of errors are equal exactly if the errors are, and are ordered by the type and then by the code, which is the
order of XDR. -/
theorem C105_order {e e' : Err} {t c t' c' : Nat} (h : HasNumbers e t c) (h' : HasNumbers e' t' c') :
    (eqWord (fromScError e) (fromScError e') = true ↔ e = e') ∧
      (cmpWord (fromScError e) (fromScError e') = .lt ↔ t < t' ∨ (t = t' ∧ c < c')) ∧
      (cmpWord (fromScError e) (fromScError e') = .eq ↔ e = e') := by
  obtain ⟨h1, h2, h3⟩ := word_parts h
  obtain ⟨h1', h2', h3'⟩ := word_parts h'
  have key : e = e' ↔ t = t' ∧ c = c' := by
    constructor
    · rintro rfl
      exact ⟨h2.symm.trans h2', h3.symm.trans h3'⟩
    · rintro ⟨rfl, rfl⟩
      have a := (C105_word h).2.2.1
      have b := (C105_word h').2.2.1
      rw [h1] at a
      rw [h1', a] at b
      exact Option.some.inj b
  refine ⟨?_, ?_, ?_⟩
  · unfold eqWord
    rw [beq_iff_eq]
    refine ⟨fun he => key.mpr ?_, fun he => by rw [he]⟩
    exact ⟨by rw [← h2, ← h2', he], by rw [← h3, ← h3', he]⟩
  · unfold cmpWord
    rw [h2, h3, h2', h3', Ordering.then_eq_lt, Nat.compare_eq_lt, Nat.compare_eq_eq, Nat.compare_eq_lt]
  · unfold cmpWord
    rw [h2, h3, h2', h3', Ordering.then_eq_eq, Nat.compare_eq_eq, Nat.compare_eq_eq, key]

/-- C105: a failed call can be caught exactly if its error is not fatal: an error of a contract is never fatal, whatever its
code, and a host error is fatal if it is internal or says that the budget or the footprint is exceeded. -/
theorem C105_recoverable {e : Err} {t c : Nat} (h : HasNumbers e t c) : isRecoverable (fromScError e) = true ↔ ¬ Fatal e := by
  obtain ⟨_, h2, h3⟩ := word_parts h
  unfold isRecoverable isType isCode
  rw [h2, h3]
  rcases numbers_iff.mp h with ⟨rfl, _, rfl⟩ | ⟨ty, co, rfl, rfl, rfl⟩
  · unfold Fatal
    by_cases hc : c = 5
    · subst hc
      exact ⟨fun _ h => h, fun _ => by decide⟩
    · have : (c == codeNum .exceededLimit) = false := by
        rw [beq_eq_false_iff_ne]
        exact hc
      simp only [this]
      exact ⟨fun _ h => h, fun _ => rfl⟩
  · unfold Fatal
    cases ty <;> cases co <;> decide

/-- C105: calls of contracts that catch failures, the authorization of an entry and the generators of random numbers decide
alike, from the error alone, what can be caught. -/
theorem C105_decided_alike (e : Err) :
    (Host.recoverable e = true ↔ ¬ Fatal e) ∧ (Delegates.recoverable e = true ↔ ¬ Fatal e) ∧
      (Prng.recoverable e = true ↔ ¬ Fatal e) := by
  cases e with
  | contract u => exact ⟨⟨fun _ h => h, fun _ => rfl⟩, ⟨fun _ h => h, fun _ => rfl⟩, ⟨fun _ h => h, fun _ => rfl⟩⟩
  | host t c =>
    unfold Fatal
    cases t <;> cases c <;> decide

/-- C105: every failure of the Wasm engine is an error of its own type or of the budget. It is the budget error, which no caller
can catch, exactly if the engine ran out of a resource; every other failure can be caught. -/
theorem C105_engine (e : WasmiError) :
    (failureErr (.wasmi e) = .host .budget .exceededLimit ↔ OutOfResources e) ∧
      (¬ OutOfResources e → ∃ c, failureErr (.wasmi e) = .host .wasmVm c) ∧
      (Fatal (failureErr (.wasmi e)) ↔ OutOfResources e) := by
  have no : failureErr (.wasmi e) ≠ .host .budget .exceededLimit → ¬ OutOfResources e := by
    intro h hr
    cases hr with
    | memory h' => rcases h' with rfl | rfl <;> exact h rfl
    | instantiationMemory h' => rcases h' with rfl | rfl <;> exact h rfl
    | trap h' => rcases h' with rfl | rfl | rfl <;> exact h rfl
    | _ => exact h rfl
  have key : (OutOfResources e ∧ failureErr (.wasmi e) = .host .budget .exceededLimit) ∨
      (¬ OutOfResources e ∧ ∃ c, c ≠ .internalError ∧ failureErr (.wasmi e) = .host .wasmVm c) := by
    cases e with
    | memory e =>
      cases e
      · exact .inl ⟨.memory (.inl rfl), rfl⟩
      · exact .inl ⟨.memory (.inr rfl), rfl⟩
      · exact .inr ⟨no (by decide), _, (by decide), rfl⟩
      · exact .inr ⟨no (by decide), _, (by decide), rfl⟩
    | instantiationMemory e =>
      cases e
      · exact .inl ⟨.instantiationMemory (.inl rfl), rfl⟩
      · exact .inl ⟨.instantiationMemory (.inr rfl), rfl⟩
      · exact .inr ⟨no (by decide), _, (by decide), rfl⟩
      · exact .inr ⟨no (by decide), _, (by decide), rfl⟩
    | table e =>
      cases e
      · exact .inl ⟨.table, rfl⟩
      all_goals exact .inr ⟨no (by decide), _, (by decide), rfl⟩
    | instantiationTable e =>
      cases e
      · exact .inl ⟨.instantiationTable, rfl⟩
      all_goals exact .inr ⟨no (by decide), _, (by decide), rfl⟩
    | storeOutOfFuel => exact .inl ⟨.fuel, rfl⟩
    | trap c =>
      cases c with
      | none => exact .inr ⟨no (by decide), _, (by decide), rfl⟩
      | some c =>
        by_cases h : c = .stackOverflow ∨ c = .outOfFuel ∨ c = .growthOperationLimited
        · refine .inl ⟨.trap h, ?_⟩
          rcases h with rfl | rfl | rfl <;> rfl
        · refine .inr ⟨fun hr => by cases hr with | trap h' => exact h h', ?_⟩
          cases c <;> first | exact ⟨_, by decide, rfl⟩ | exact absurd (by decide) h
    | func e => cases e <;> exact .inr ⟨no (by decide), _, (by decide), rfl⟩
    | _ => exact .inr ⟨no (by decide), _, (by decide), rfl⟩
  rcases key with ⟨h1, h2⟩ | ⟨h1, c, h2, h3⟩
  · rw [h2]
    exact ⟨⟨fun _ => h1, fun _ => rfl⟩, fun h => absurd h1 h, ⟨fun _ => h1, fun _ => .inr ⟨rfl, .inr rfl⟩⟩⟩
  · rw [h3]
    refine ⟨⟨fun h => (by cases h), fun h => absurd h h1⟩, fun _ => ⟨c, rfl⟩, ⟨?_, fun h => absurd h h1⟩⟩
    rintro (h | ⟨_, h | h⟩)
    · exact absurd h h2
    · cases h
    · cases h

/-- C105: a value that the environment cannot read is an error that the caller can catch, also if it is too deep or too
long. -/
theorem C105_input {x : Failure} (h : ∀ e, x ≠ .wasmi e) : ¬ Fatal (failureErr x) := by
  cases x with
  | wasmi e => exact absurd rfl (h e)
  | xdr e => cases e <;> (rintro (h | ⟨_, h | h⟩) <;> cases h)
  | _ => rintro (h | ⟨_, h | h⟩) <;> cases h

section Examples

/-- A contract's error may have any code, also those of fatal host errors, and can be caught. -/
example : HasNumbers (.contract 7) 0 7 ∧ HasNumbers (.host .storage .exceededLimit) 3 5 ∧ ¬ Fatal (.contract 7) ∧
    Fatal (.host .storage .exceededLimit) :=
  ⟨.contract (by decide), .host (i := 2) rfl rfl, fun h => h, .inr ⟨rfl, .inl rfl⟩⟩

/-- A word with the tag of errors that means no error: type 10. -/
example : (10 * 2^8 + 3) % 2^8 = 3 ∧ toScError (10 * 2^8 + 3) = none := by decide

/-- Both sides of the claim about the engine occur. -/
example : OutOfResources (.trap (some .outOfFuel)) ∧ ¬ OutOfResources (.trap (some .unreachableCodeReached)) :=
  ⟨.trap (.inr (.inl rfl)), fun h => by cases h with | trap h => rcases h with h | h | h <;> cases h⟩

end Examples

end Soroban.Props
