import Verif.Lemmas.HostData
import Verif.Props.HostEntries
/-!
C97: exactly when the storage functions of contracts succeed, what they return and what they change.
-/
namespace Soroban.Props
open Soroban Soroban.Auth Soroban.Host Soroban.Host.Spec
open Soroban.Storage (Store Entry Access Out)

section
variable {E : HEnv} {st : Store LKey LVal} {orig : List Acct}

/-- **C97**. A storage function called with success: it is allowed, and it has the result and the effect it should have. -/
theorem C97_succeeds (h : TxStart E st orig) {s : Host} (hr : Reach E st orig s) (h32 : Lifetimes32 E s) (id : Nat) {o : DataOp}
    (ho : ∀ c scope x, o ≠ .extendContract c scope x) (r : Out LVal) :
    (dataOp E s id o).2 = .ok r ↔ Allowed E s id o ∧ Gives E s id r o := by
  obtain ⟨h1, h2⟩ := data_settles (reach_hok h hr).st h32 id ho
  constructor
  · intro hx
    by_cases ha : Allowed E s id o
    · obtain ⟨⟨v, hv, hg⟩, -⟩ := h1 ha
      rw [hx] at hv
      cases hv
      exact ⟨ha, hg⟩
    · obtain ⟨⟨e, he⟩, -⟩ := h2 ha
      rw [hx] at he; cases he
  · rintro ⟨ha, hg⟩
    obtain ⟨⟨v, hv, hg'⟩, -⟩ := h1 ha
    rw [hv]
    congr 1
    cases o with
    | get k d => obtain ⟨e, he, rfl⟩ := hg; obtain ⟨e', he', rfl⟩ := hg'; rw [he] at he'; cases he'; rfl
    | getClassic n => obtain ⟨e, he, rfl⟩ := hg; obtain ⟨e', he', rfl⟩ := hg'; rw [he] at he'; cases he'; rfl
    | has k d => exact Eq.trans hg' (Eq.symm hg)
    | put k v d => exact Eq.trans hg' (Eq.symm hg)
    | del k d => exact Eq.trans hg' (Eq.symm hg)
    | extend k d t x => exact Eq.trans hg' (Eq.symm hg)
    | extendV2 k d x a b => exact Eq.trans hg' (Eq.symm hg)
    | extendContract c scope x => exact Eq.trans hg' (Eq.symm hg)
    | putClassic n v => exact Eq.trans hg' (Eq.symm hg)

/-- **C97**. The ledger after a storage function: as it should be if the function is allowed, the same otherwise. -/
theorem C97_ledger (h : TxStart E st orig) {s : Host} (hr : Reach E st orig s) (h32 : Lifetimes32 E s) (id : Nat) {o : DataOp}
    (ho : ∀ c scope x, o ≠ .extendContract c scope x) :
    (Allowed E s id o → visible E (dataOp E s id o).1 = ledgerAfter E s id o) ∧
    (¬ Allowed E s id o → visible E (dataOp E s id o).1 = visible E s) := by
  obtain ⟨h1, h2⟩ := data_settles (reach_hok h hr).st h32 id ho
  exact ⟨fun ha => (h1 ha).2, fun ha => (h2 ha).2⟩

end

namespace DataCase
open HostCase

/-- Contract 1 with a temporary entry 3 (until ledger 150), a persistent entry 5 that is read-only, and room for an entry 4 and a tag 2. -/
def fpD : FMap LKey Access :=
  [(.inst 1, .readOnly), (.code 7, .readOnly), (.data (.contract 1) (.val 3) .temporary, .readWrite),
   (.data (.contract 1) (.val 4) .persistent, .readWrite), (.data (.contract 1) (.val 5) .persistent, .readOnly),
   (.data (.contract 1) (.tag 2) .persistent, .readWrite)]
def mapD : FMap LKey (Option (Entry LVal)) :=
  [(.inst 1, some (.inst (.wasm 7) [], some 200)), (.code 7, some (.code 1, some 200)),
   (.data (.contract 1) (.val 3) .temporary, some (.data 9, some 150)), (.data (.contract 1) (.val 4) .persistent, none),
   (.data (.contract 1) (.val 5) .persistent, some (.data 8, some 160)), (.data (.contract 1) (.tag 2) .persistent, none)]
def stD : Store LKey LVal := { footprint := fpD, mode := .enforcing, map := mapD }

theorem startD : TxStart env stD [] := by
  refine ⟨rfl, ⟨_, .enforcing (fp := fpD) (map := mapD) ⟨?_, ?_⟩, rfl⟩, ⟨?_, ?_, ?_⟩⟩
  · have : ∀ x ∈ fpD, (mapD.get x.1).isSome = true := by decide
    intro k hk
    obtain ⟨v, hv⟩ := Option.isSome_iff_exists.mp hk
    exact this (k, v) (get_mem hv)
  · have : ∀ x ∈ mapD, (match x.2 with | some (_, some l) => decide (100 ≤ l) | some (_, none) => (keysOf.durability x.1).isNone | none => true) = true := by
      decide
    intro k e he v l d h hd
    have hx := this (k, e) (get_mem he)
    subst h
    cases l with
    | none =>
      simp only at hx
      have hd' : keysOf.durability k = some d := hd
      rw [hd'] at hx; cases hx
    | some l => exact ⟨l, rfl, of_decide_eq_true hx⟩
  · intro a ha; cases ha
  · intro a ha; cases ha
  · intro a ha; cases ha

/-- The state in which contract 1 runs. -/
def sD : Host := (pushContext (pushContext (Host.init stD []) hostFrame).1 { cid := some 1, fn := fnA, inst := [], storage := none }).1

theorem reachD : Reach env stD [] sD :=
  .called (s := (pushContext (Host.init stD []) hostFrame).1) .start (by decide) (by decide) (by decide)
    (.wasm (ex := .wasm 7) (h := 7) rfl rfl rfl)

theorem lifetimesD : Lifetimes32 env sD := by
  have : ∀ x ∈ mapD, (match x.2 with | some (_, some l) => decide (l ≤ u32Max) | _ => true) = true := by decide
  intro k v l hv
  have hm : sD.st.map.get k = some (some (v, some l)) := by
    unfold visible Storage.Spec.absMap at hv
    cases hx : sD.st.map.get k with
    | none => rw [hx] at hv; cases hv
    | some e => rw [hx] at hv; exact congrArg some hv
  exact of_decide_eq_true (this (k, some (v, some l)) (get_mem hm))

example : (dataOp env sD 1 (.get (.val 3) .temporary)).2 = .ok (.entry (.data 9, some 150)) := rfl
example : (dataOp env sD 1 (.get (.val 4) .persistent)).2 = .error (.host .storage .missingValue) := rfl
example : (dataOp env sD 1 (.has (.val 6) .persistent)).2 = .error (.host .storage .exceededLimit) := rfl

/-- A new entry gets the minimum lifetime, an old one keeps its own. -/
example : visible env (dataOp env sD 1 (.put (.val 4) 1 .persistent)).1 (.data (.contract 1) (.val 4) .persistent) = some (.data 1, some 149) ∧
    visible env (dataOp env sD 1 (.put (.val 3) 1 .temporary)).1 (.data (.contract 1) (.val 3) .temporary) = some (.data 1, some 150) := by
  decide

/-- A read-only entry cannot be written, but its lifetime can be extended. -/
example : ¬ Allowed env sD 1 (.put (.val 5) 1 .persistent) ∧ Allowed env sD 1 (.extend (.val 5) .persistent 100 100) := by
  constructor
  · rintro ⟨-, h, -⟩
    exact absurd (h rfl) (by decide)
  · exact ⟨⟨by decide, by decide⟩, ⟨fun _ => by decide, by decide⟩, ⟨_, rfl, fun h => by cases h⟩⟩
example : visible env (dataOp env sD 1 (.extend (.val 5) .persistent 100 100)).1 (.data (.contract 1) (.val 5) .persistent) =
    some (.data 8, some 200) := by decide

/-- A tag cannot be deleted. -/
example : (dataOp env sD 1 (.del (.tag 2) .persistent)).2 = .error (.host .storage .invalidAction) := rfl

example : (dataOp env sD 1 (.extendV2 (.val 3) .temporary 60 1 100)).2 = .ok .unit :=
  (C97_succeeds startD reachD lifetimesD 1 (by intro c sc x h; cases h) .unit).mpr
    ⟨⟨by change (1:Nat) ≤ 100; decide, ⟨fun _ => by decide, by decide⟩, ⟨_, rfl, fun _ => by decide⟩⟩, rfl⟩
end DataCase

end Soroban.Props
