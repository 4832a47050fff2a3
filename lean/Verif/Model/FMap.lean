/-!
Finite maps as association lists. They stand for the host's internal uses of `MeteredOrdMap` (storage.rs:28-31), whose own
code is modelled in `Verif/Model/Containers.lean` and proved to behave as a finite map (C06). Simplification: new keys are
added at the end rather than in key order, and comparisons of keys do not fail.
-/
namespace Soroban

/-- host/metered_map.rs:14-27 `MeteredOrdMap`, up to the order of the keys. -/
abbrev FMap (K V : Type) := List (K × V)

namespace FMap
variable {K V : Type} [DecidableEq K]

/-- host/metered_map.rs:227-242 `get`. -/
def get (m : FMap K V) (k : K) : Option V :=
  match m with
  | [] => none
  | (k', v) :: m => if k' = k then some v else get m k

/-- host/metered_map.rs:196-225 `insert`. -/
def insert (m : FMap K V) (k : K) (v : V) : FMap K V :=
  match m with
  | [] => [(k, v)]
  | (k', v') :: m => if k' = k then (k, v) :: m else (k', v') :: insert m k v

/-- host/metered_map.rs:294-300 `contains_key`. -/
def contains (m : FMap K V) (k : K) : Bool := (m.get k).isSome

theorem get_insert_self (m : FMap K V) (k : K) (v : V) : (m.insert k v).get k = some v := by
  induction m with
  | nil => simp [insert, get]
  | cons p m ih =>
    obtain ⟨k', v'⟩ := p
    by_cases h : k' = k
    · simp [insert, get, h]
    · simp only [insert, h, if_false, get]; exact ih

theorem get_insert_ne (m : FMap K V) {k k' : K} (v : V) (h : k' ≠ k) : (m.insert k v).get k' = m.get k' := by
  induction m with
  | nil => simp [insert, get, Ne.symm h]
  | cons p m ih =>
    obtain ⟨k'', v''⟩ := p
    by_cases h1 : k'' = k
    · subst h1; simp [insert, get, Ne.symm h]
    · simp only [insert, h1, if_false, get, ih]

theorem get_insert (m : FMap K V) (k k' : K) (v : V) :
    (m.insert k v).get k' = if k' = k then some v else m.get k' := by
  by_cases h : k' = k
  · subst h; simp [get_insert_self]
  · simp [h, get_insert_ne m v h]

/-- The keys of a map. -/
def keys (m : FMap K V) : List K := m.map Prod.fst

theorem mem_keys_iff (m : FMap K V) (k : K) : k ∈ m.keys ↔ (m.get k).isSome := by
  induction m with
  | nil => simp [keys, get]
  | cons p m ih =>
    obtain ⟨k', v'⟩ := p
    by_cases h : k' = k
    · simp [keys, get, h]
    · simp only [keys, List.map_cons, List.mem_cons, get, h, if_false]
      simp only [keys] at ih
      rw [ih]
      simp [Ne.symm h]

theorem keys_insert_mem {m : FMap K V} {k : K} (h : k ∈ m.keys) (v : V) : (m.insert k v).keys = m.keys := by
  induction m with
  | nil => cases h
  | cons p m ih =>
    obtain ⟨k', v'⟩ := p
    by_cases h1 : k' = k
    · subst h1; simp [keys, insert]
    · have h2 : k ∈ keys m := by
        rcases List.mem_cons.mp h with h | h
        · exact absurd h.symm h1
        · exact h
      have := ih h2
      simp only [keys, insert, h1, if_false, List.map_cons] at this ⊢
      rw [this]

theorem keys_insert_new {m : FMap K V} {k : K} (h : k ∉ m.keys) (v : V) : (m.insert k v).keys = m.keys ++ [k] := by
  induction m with
  | nil => rfl
  | cons p m ih =>
    obtain ⟨k', v'⟩ := p
    have h1 : k' ≠ k := by rintro rfl; exact h (by simp [keys])
    have h2 : k ∉ keys m := fun hm => h (List.mem_cons_of_mem _ hm)
    have := ih h2
    simp only [keys, insert, h1, if_false, List.map_cons] at this ⊢
    rw [this]; rfl

theorem nodup_insert {m : FMap K V} (hm : m.keys.Nodup) (k : K) (v : V) : (m.insert k v).keys.Nodup := by
  by_cases h : k ∈ m.keys
  · rw [keys_insert_mem h]; exact hm
  · rw [keys_insert_new h, List.nodup_append]
    refine ⟨hm, by simp, ?_⟩
    intro a ha b hb hab
    simp at hb
    subst hb hab
    exact h ha

theorem get_of_mem {m : FMap K V} (hm : m.keys.Nodup) {k : K} {v : V} (h : (k, v) ∈ m) : m.get k = some v := by
  induction m with
  | nil => cases h
  | cons p m ih =>
    obtain ⟨k', v'⟩ := p
    simp only [keys, List.map_cons, List.nodup_cons] at hm
    rcases List.mem_cons.mp h with h1 | h1
    · cases h1; simp [get]
    · have : k' ≠ k := by
        rintro rfl
        exact hm.1 (List.mem_map.mpr ⟨_, h1, rfl⟩)
      simp only [get, this, if_false]
      exact ih hm.2 h1

theorem mem_of_get {m : FMap K V} {k : K} {v : V} (h : m.get k = some v) : (k, v) ∈ m := by
  induction m with
  | nil => cases h
  | cons p m ih =>
    obtain ⟨k', v'⟩ := p
    by_cases h1 : k' = k
    · simp only [get, h1, if_true, Option.some.injEq] at h
      subst h h1; simp
    · simp only [get, h1, if_false] at h
      exact List.mem_cons_of_mem _ (ih h)

end FMap
end Soroban
