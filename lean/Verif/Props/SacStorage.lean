import Verif.Lemmas.SacStorage
/-! C88: what the asset contract stores is found again, and under keys of its own. -/
namespace Soroban.Props
open Soroban Soroban.Spec Soroban.Sac Soroban.ContractTypes.Spec Soroban.SacValues.Spec Soroban.SacStorage Soroban.SacStorage.Spec
open Soroban.ContractTypes (struct2_inj struct3_inj enum_inj)
open Soroban.SacValues (int128_inj address_inj)
open Soroban.Auth (Addr)

variable {objs objs' objs₂ objs₃ : List HostObj} {d : Nat}

theorem keyOf_storable (k : DataKey) : Storable 3 (keyOf k) := by
  have ha : ∀ (n : Nat) (a : Addr), Storable (n + 1) (address a) := fun n a => by
    cases a <;> exact ⟨fun i k e => (by cases e), fun x hx => (by cases hx)⟩
  have hs : ∀ (n : Nat) (t : List Nat), Storable (n + 1) (.symbol t) := fun n t =>
    ⟨fun i k e => (by cases e), fun x hx => (by cases hx)⟩
  cases k with
  | allowance f s =>
    refine ⟨fun i k e => (by cases e), fun x hx => ?_⟩
    simp only [keyOf, tagged, children, List.mem_cons, List.not_mem_nil, or_false] at hx
    rcases hx with rfl | rfl
    · exact hs 1 _
    · refine ⟨fun i k e => (by cases e), fun x hx => ?_⟩
      simp only [struct, children, List.map_cons, List.map_nil, List.flatMap_cons, List.flatMap_nil, List.append_nil,
        List.mem_append, List.mem_cons, List.not_mem_nil, or_false] at hx
      rcases hx with (rfl | rfl) | (rfl | rfl)
      exacts [hs 0 _, ha 0 _, hs 0 _, ha 0 _]
  | balance a =>
    refine ⟨fun i k e => (by cases e), fun x hx => ?_⟩
    simp only [keyOf, tagged, children, List.mem_cons, List.not_mem_nil, or_false] at hx
    rcases hx with rfl | rfl
    · exact hs 1 _
    · exact ha 1 _

theorem storable_mono : ∀ {d e : Nat} {s : ScVal}, d ≤ e → Storable d s → Storable e s
  | 0, _, _, _, h => h.elim
  | d + 1, 0, _, h, _ => by omega
  | d + 1, e + 1, _, h, ⟨h1, h2⟩ => ⟨h1, fun x hx => storable_mono (by omega) (h2 x hx)⟩

theorem stored_of_is {v : Nat} {s : ScVal} {n : Nat} (ho : ObjsOk objs) (h : ContractTypes.Is objs v s) (hs : Storable n s) :
    StoredAs objs v s n := by
  refine ⟨fun d t ht => Denotes.unique ⟨d, storage_agree ht⟩ h.2, fun d hd => ?_⟩
  obtain ⟨D, hD⟩ := h.2
  exact storable_converts ho hD (storable_mono hd hs)

/-- C88, keys of users' data: the key that the contract makes for an allowance or a balance becomes, as a storage key, exactly the
documented ledger key; and with room for its objects it can be made. -/
theorem C88_keys {k : DataKey} (ho : ObjsOk objs) :
    (∀ v, newDataKey d objs k = .ok (objs', v) → objs'.length ≤ 2 ^ 31 → Sound objs' v ∧ StoredAs objs' v (keyOf k) 3) ∧
    (objs.length + 7 ≤ 2 ^ 31 → ∃ o v, newDataKey (d + 1) objs k = .ok (o, v) ∧ o.length ≤ objs.length + 7) :=
  ⟨fun _ h hl => let m := dataKey_made ho h hl; ⟨m.is.1, stored_of_is m.good m.is (keyOf_storable k)⟩, fun hl => dataKey_makes ho hl⟩

/-- C88, keys of the instance's map. -/
theorem C88_instance_keys {k : InstKey} (ho : ObjsOk objs) :
    (∀ v, newInstKey objs k = .ok (objs', v) → objs'.length ≤ 2 ^ 31 → Sound objs' v ∧ Denotes objs' v (instKeyOf k)) ∧
    (objs.length + 2 ≤ 2 ^ 31 → ∃ o v, newInstKey objs k = .ok (o, v) ∧ o.length ≤ objs.length + 2) :=
  ⟨fun _ h hl => (instKey_made ho h hl).is, fun hl => instKey_makes ho hl⟩

/-- C88, no two things share a key: balances of different holders, allowances of different pairs, a balance and an allowance. -/
theorem C88_distinct :
    (∀ k k', keyOf k = keyOf k' → k = k') ∧ (∀ i i', instKeyOf i = instKeyOf i' → i = i') ∧ ∀ i k, instKeyOf i ≠ keyOf k := by
  refine ⟨fun k k' h => ?_, fun i i' h => ?_, fun i k h => ?_⟩
  · cases k <;> cases k' <;> obtain ⟨h1, h2⟩ := enum_inj h
    · obtain ⟨h3, h4⟩ := struct2_inj h2
      rw [address_inj h3, address_inj h4]
    · exact absurd h1 (by decide)
    · exact absurd h1 (by decide)
    · rw [address_inj h2]
  · cases i <;> cases i' <;> first | rfl | (exfalso; revert h; simp [instKeyOf, txt])
  · cases i <;> cases k <;> simp [instKeyOf, keyOf, tagged] at h

/-- C88, stored values: the value made for a balance or an allowance is the documented one, a value is read as a balance exactly when it
is that balance in the documented form, and different balances (allowances) have different forms. -/
theorem C88_values (ho : ObjsOk objs) :
    (∀ b v, Fits b.amount → newBalance d objs b = .ok (objs', v) → objs'.length ≤ 2 ^ 31 → Sound objs' v ∧ Denotes objs' v (balanceOf b)) ∧
    (∀ a v, Fits a.amount → a.liveUntil < 2 ^ 32 → newAllowance d objs a = .ok (objs', v) → objs'.length ≤ 2 ^ 31 →
      Sound objs' v ∧ Denotes objs' v (allowanceOf a)) ∧
    (∀ v s b, Sound objs v → Denotes objs v s → (readBalance objs v = .ok b ↔ s = balanceOf b ∧ Fits b.amount)) ∧
    (∀ v s a, Sound objs v → Denotes objs v s → (readAllowance objs v = .ok a ↔ s = allowanceOf a ∧ Fits a.amount)) ∧
    (∀ b b', balanceOf b = balanceOf b' → b = b') ∧ (∀ a a', allowanceOf a = allowanceOf a' → a = a') := by
  refine ⟨fun b v hf h hl => (balance_made ho hf h hl).is, fun a v hf hu h hl => (allowance_made ho hf hu h hl).is,
    fun v s b h1 h2 => readBalance_iff ho ⟨h1, h2⟩, fun v s a h1 h2 => readAllowance_iff ho ⟨h1, h2⟩, fun b b' h => ?_, fun a a' h => ?_⟩
  · obtain ⟨h1, h2, h3⟩ := struct3_inj h
    cases b; cases b'
    injection h2 with h2
    injection h3 with h3
    simp only at h1 h2 h3
    rw [int128_inj h1, h2, h3]
  · obtain ⟨h1, h2⟩ := struct2_inj h
    cases a; cases a'
    injection h2 with h2
    simp only at h1 h2
    rw [int128_inj h1, h2]

/-- Every name of a field is a symbol that the host accepts. -/
theorem field_names : ∀ t ∈ [txt "amount", txt "authorized", txt "clawback", txt "live_until_ledger"],
    t.length ≤ 32 ∧ ∀ c ∈ t, isSymbolChar c := by unfold isSymbolChar; decide

theorem balanceOf_accepted (n : Nat) (b : BalanceV) : Accepted (n + 2) (balanceOf b) := by
  refine ⟨by simp [u32Max], fun p hp => ?_, ?_⟩
  · simp only [List.map_cons, List.map_nil, List.mem_cons, List.not_mem_nil, or_false] at hp
    rcases hp with rfl | rfl | rfl
    · exact ⟨field_names _ (by simp), trivial⟩
    · exact ⟨field_names _ (by simp), trivial⟩
    · exact ⟨field_names _ (by simp), trivial⟩
  · have e : ∀ x y z : ScVal, List.Pairwise (fun p q : ScVal × ScVal => scOrd p.1 q.1 = .lt)
        [(.symbol (txt "amount"), x), (.symbol (txt "authorized"), y), (.symbol (txt "clawback"), z)] := fun x y z => by
      have h1 : scOrd (.symbol (txt "amount")) (.symbol (txt "authorized")) = .lt := by decide
      have h2 : scOrd (.symbol (txt "amount")) (.symbol (txt "clawback")) = .lt := by decide
      have h3 : scOrd (.symbol (txt "authorized")) (.symbol (txt "clawback")) = .lt := by decide
      simp [h1, h2, h3]
    exact e _ _ _

theorem allowanceOf_accepted (n : Nat) (a : AllowanceV) : Accepted (n + 2) (allowanceOf a) := by
  refine ⟨by simp [u32Max], fun p hp => ?_, ?_⟩
  · simp only [List.map_cons, List.map_nil, List.mem_cons, List.not_mem_nil, or_false] at hp
    rcases hp with rfl | rfl
    · exact ⟨field_names _ (by simp), trivial⟩
    · exact ⟨field_names _ (by simp), trivial⟩
  · have h1 : scOrd (.symbol (txt "amount")) (.symbol (txt "live_until_ledger")) = .lt := by decide
    simp [h1]

/-- What is made of a value and stored is, converted back in another table, the same ledger value. -/
theorem found_again {o₁ o₃ : List HostObj} {v e d₂ w : Nat} {s t : ScVal} (hm : ContractTypes.Made objs o₁ v t) (ho₂ : ObjsOk objs₂)
    (h : fromVal false o₁ e v = .ok s) (h3 : toVal d₂ objs₂ s = .ok (o₃, w)) (hl3 : o₃.length ≤ 2 ^ 31) :
    ObjsOk o₃ ∧ ContractTypes.Is o₃ w t := by
  obtain rfl := Denotes.unique ⟨e, h⟩ hm.is.2
  obtain ⟨r1, r2, r3⟩ := C04_round_trip ho₂ (denotes_xdrOk hm.good hm.is.1 hm.is.2) h3 hl3
  exact ⟨r1, r2, d₂, by simpa using r3 [] d₂ (Nat.le_refl _)⟩

theorem found_steps {o₁ : List HostObj} {v n : Nat} {t : ScVal} (hm : ContractTypes.Made objs o₁ v t) (ho₂ : ObjsOk objs₂)
    (hst : Storable 2 t) (ha : Accepted (n + 2) t) (hn : objs₂.length + nodes t ≤ 2 ^ 31) :
    fromVal false o₁ (n + 2) v = .ok t ∧ ∃ o₃ w, toVal (n + 2) objs₂ t = .ok (o₃, w) ∧ o₃.length ≤ objs₂.length + nodes t :=
  ⟨storage_agree ((stored_of_is hm.good hm.is hst).2 (n + 2) (by omega)),
    toVal_total ho₂ (denotes_xdrOk hm.good hm.is.1 hm.is.2) ha hn⟩

/-- C88, a balance is found again: what one execution stores of it, any later one reads back as the same balance; and with room for the
objects every step succeeds. -/
theorem C88_balance_found {b : BalanceV} (ho : ObjsOk objs) (ho₂ : ObjsOk objs₂) (hf : Fits b.amount) :
    (∀ v e s d₂ w, newBalance d objs b = .ok (objs', v) → objs'.length ≤ 2 ^ 31 → fromVal false objs' e v = .ok s →
      toVal d₂ objs₂ s = .ok (objs₃, w) → objs₃.length ≤ 2 ^ 31 → readBalance objs₃ w = .ok b) ∧
    (objs.length + 7 ≤ 2 ^ 31 → objs₂.length + 7 ≤ 2 ^ 31 →
      ∃ o v s o₃ w, newBalance (d + 2) objs b = .ok (o, v) ∧ fromVal false o (d + 2) v = .ok s ∧
        toVal (d + 2) objs₂ s = .ok (o₃, w) ∧ readBalance o₃ w = .ok b) := by
  refine ⟨fun v e s d₂ w h hl h2 h3 hl3 => ?_, fun hl hl2 => ?_⟩
  · obtain ⟨r1, r2⟩ := found_again (balance_made ho hf h hl) ho₂ h2 h3 hl3
    exact (readBalance_iff r1 r2).2 ⟨rfl, hf⟩
  · obtain ⟨o, v, h, hlo⟩ := balance_makes ho (d := d + 1) hf hl
    have m := balance_made ho hf h (by omega)
    have hst : Storable 2 (balanceOf b) := by
      refine ⟨fun i k e => (by cases e), fun x hx => ?_⟩
      simp only [balanceOf, struct, children, List.map_cons, List.map_nil, List.flatMap_cons, List.flatMap_nil, List.append_nil,
        List.mem_append, List.mem_cons, List.not_mem_nil, or_false] at hx
      rcases hx with (rfl | rfl) | (rfl | rfl) | (rfl | rfl) <;> exact ⟨fun i k e => (by cases e), fun x hx => (by cases hx)⟩
    have hn : nodes (balanceOf b) = 7 := by simp [balanceOf, struct, nodes, nodesEntries, int128]
    obtain ⟨h2, o₃, w, h3, hl3⟩ := found_steps m ho₂ hst (balanceOf_accepted d b) (by omega)
    obtain ⟨r1, r2⟩ := found_again m ho₂ h2 h3 (by omega)
    exact ⟨o, v, _, o₃, w, h, h2, h3, (readBalance_iff r1 r2).2 ⟨rfl, hf⟩⟩

/-- C88, an allowance is found again. -/
theorem C88_allowance_found {a : AllowanceV} (ho : ObjsOk objs) (ho₂ : ObjsOk objs₂) (hf : Fits a.amount) (hu : a.liveUntil < 2 ^ 32) :
    (∀ v e s d₂ w, newAllowance d objs a = .ok (objs', v) → objs'.length ≤ 2 ^ 31 → fromVal false objs' e v = .ok s →
      toVal d₂ objs₂ s = .ok (objs₃, w) → objs₃.length ≤ 2 ^ 31 → readAllowance objs₃ w = .ok a) ∧
    (objs.length + 5 ≤ 2 ^ 31 → objs₂.length + 5 ≤ 2 ^ 31 →
      ∃ o v s o₃ w, newAllowance (d + 2) objs a = .ok (o, v) ∧ fromVal false o (d + 2) v = .ok s ∧
        toVal (d + 2) objs₂ s = .ok (o₃, w) ∧ readAllowance o₃ w = .ok a) := by
  refine ⟨fun v e s d₂ w h hl h2 h3 hl3 => ?_, fun hl hl2 => ?_⟩
  · obtain ⟨r1, r2⟩ := found_again (allowance_made ho hf hu h hl) ho₂ h2 h3 hl3
    exact (readAllowance_iff r1 r2).2 ⟨rfl, hf⟩
  · obtain ⟨o, v, h, hlo⟩ := allowance_makes ho (d := d + 1) hf hu hl
    have m := allowance_made ho hf hu h (by omega)
    have hst : Storable 2 (allowanceOf a) := by
      refine ⟨fun i k e => (by cases e), fun x hx => ?_⟩
      simp only [allowanceOf, struct, children, List.map_cons, List.map_nil, List.flatMap_cons, List.flatMap_nil, List.append_nil,
        List.mem_append, List.mem_cons, List.not_mem_nil, or_false] at hx
      rcases hx with (rfl | rfl) | (rfl | rfl) <;> exact ⟨fun i k e => (by cases e), fun x hx => (by cases hx)⟩
    have hn : nodes (allowanceOf a) = 5 := by simp [allowanceOf, struct, nodes, nodesEntries, int128]
    obtain ⟨h2, o₃, w, h3, hl3⟩ := found_steps m ho₂ hst (allowanceOf_accepted d a) (by omega)
    obtain ⟨r1, r2⟩ := found_again m ho₂ h2 h3 (by omega)
    exact ⟨o, v, _, o₃, w, h, h2, h3, (readAllowance_iff r1 r2).2 ⟨rfl, hf⟩⟩

/-! ### non-vacuity -/

/-- In a table that has objects already, the balance `-5` of an authorized holder: made, stored, loaded into an empty table, read. -/
example : (match newBalance 5 [.u64 9] ⟨-5, true, false⟩ with
    | .ok (o, v) => match fromVal false o 5 v with
      | .ok s => match toVal 5 [] s with
        | .ok (o', w) => match readBalance o' w with
          | .ok b => decide (b = ⟨-5, true, false⟩)
          | _ => false
        | _ => false
      | _ => false
    | _ => false) = true := by decide +kernel

/-- The key of an allowance, as XDR. -/
example : (match newDataKey 5 [] (.allowance (.account 7) (.contract 8)) with
    | .ok (o, v) => match fromVal true o 3 v with
      | .ok s => decide (Xdr.write s = Xdr.write (keyOf (.allowance (.account 7) (.contract 8))) ∧
          Xdr.write s ≠ Xdr.write (keyOf (.allowance (.contract 8) (.account 7))))
      | _ => false
    | _ => false) = true := by decide +kernel

/-- A map with another field is not a balance. -/
example : (match toVal 5 [] (struct [(txt "amount", int128 1), (txt "authorized", .bool true), (txt "clawbacks", .bool true)]) with
    | .ok (o, v) => match readBalance o v with | .ok _ => false | .error _ => true
    | _ => false) = true := by decide +kernel

end Soroban.Props
