import Verif.Model.Storage
import Verif.Spec.Storage
import Mathlib.Data.List.Nodup
/-! What holds of the footprint that is recorded. -/
namespace Soroban.Storage
open Soroban

variable {K V : Type} [DecidableEq K]

/-- A storage in recording mode: no key is recorded twice, all keys that are in the storage map are recorded, and archived
entries are recorded as read-write. -/
structure RecInv (E : Env K V) (src : K → Option (Entry V)) (s : Store K V) : Prop where
  mode : s.mode = .recording src
  nodup : s.footprint.keys.Nodup
  decl : ∀ k, (s.map.get k).isSome = true → (s.footprint.get k).isSome = true
  exp : ∀ k v l, src k = some (v, some l) → l < E.li.seq → E.keys.durability k = some .persistent →
    (s.footprint.get k).isSome = true → s.footprint.get k = some .readWrite

variable {E : Env K V} {src : K → Option (Entry V)} {s : Store K V}

theorem recordAccess_get (fp : FMap K Access) (k : K) (a : Access) (k' : K) : (recordAccess fp k a).get k' =
    if k' = k then some (if a = .readWrite then .readWrite else (fp.get k).getD .readOnly) else fp.get k' := by
  unfold recordAccess
  by_cases hk : k' = k
  · subst hk
    simp only [if_true]
    cases hg : fp.get k' with
    | none => cases a <;> simp [FMap.get_insert_self]
    | some b => cases b <;> cases a <;> simp [FMap.get_insert_self, hg]
  · simp only [hk, if_false]
    cases hg : fp.get k with
    | none => simp [FMap.get_insert_ne _ _ hk]
    | some b => cases b <;> cases a <;> simp [FMap.get_insert_ne _ _ hk]

theorem recordAccess_nodup {fp : FMap K Access} (h : fp.keys.Nodup) (k : K) (a : Access) : (recordAccess fp k a).keys.Nodup := by
  unfold recordAccess
  split
  · split <;> first | exact h | exact FMap.nodup_insert h _ _
  · exact FMap.nodup_insert h _ _

theorem recordAccess_again {fp : FMap K Access} {k : K} (h : (fp.get k).isSome = true) : recordAccess fp k .readOnly = fp := by
  obtain ⟨a, ha⟩ := Option.isSome_iff_exists.mp h
  unfold recordAccess
  rw [ha]; cases a <;> rfl

theorem RecInv.recordRw (h : RecInv E src s) (k : K) : RecInv E src (s.record k .readWrite) := by
  refine ⟨h.mode, recordAccess_nodup h.nodup _ _, ?_, ?_⟩
  · intro k' hk'
    simp only [Store.record, recordAccess_get]
    split
    · rfl
    · exact h.decl k' hk'
  · intro k' v l h1 h2 h3 h4
    simp only [Store.record, recordAccess_get] at h4 ⊢
    split
    · rfl
    · rename_i hk; rw [if_neg hk] at h4; exact h.exp k' v l h1 h2 h3 h4

theorem RecInv.setMap (h : RecInv E src s) {k : K} (hk : (s.footprint.get k).isSome = true) (e : Option (Entry V)) :
    RecInv E src { s with map := s.map.insert k e } := by
  refine ⟨h.mode, h.nodup, ?_, h.exp⟩
  intro k' hk'
  simp only [FMap.get_insert] at hk'
  by_cases hkk : k' = k
  · subst hkk; exact hk
  · rw [if_neg hkk] at hk'; exact h.decl k' hk'

theorem handle_rec (h : RecInv E src s) (k : K) : RecInv E src (handleMaybeExpired E s k).1 := by
  unfold handleMaybeExpired
  split
  · rename_i entry live hg
    have hk : (s.footprint.get k).isSome = true := h.decl k (by rw [hg]; rfl)
    split
    · exact h
    · split
      · exact h
      · split
        · split
          · exact h.setMap hk none
          · have hr := h.recordRw k
            have hk' : ((recordAccess s.footprint k .readWrite).get k).isSome = true := by rw [recordAccess_get]; simp
            split
            · exact hr
            · exact hr.setMap hk' _
        · exact h
  · exact h

theorem prepareReadOnly_rec (h : RecInv E src s) (k : K) : RecInv E src (prepareReadOnly E s k).1 := by
  unfold prepareReadOnly
  rw [h.mode]
  simp only
  cases hg : s.map.get k with
  | some e =>
    obtain ⟨a, ha⟩ := Option.isSome_iff_exists.mp (h.decl k (by rw [hg]; rfl))
    have h1 : recordAccess s.footprint k .readOnly = s.footprint := by
      unfold recordAccess; rw [ha]; cases a <;> rfl
    have h2 : s.record k .readOnly = s := by unfold Store.record; rw [h1]
    have h3 : s.load src k = s := by unfold Store.load FMap.contains; rw [hg]; rfl
    rw [h2, h3, h2]
    exact handle_rec h k
  | none =>
    have e1 : ((s.record k .readOnly).load src k).record k .readOnly =
        { s with footprint := recordAccess s.footprint k .readOnly, map := s.map.insert k (src k) } := by
      have : (s.record k .readOnly).load src k =
          { s with footprint := recordAccess s.footprint k .readOnly, map := s.map.insert k (src k) } := by
        unfold Store.load FMap.contains Store.record; simp only [hg]; rfl
      rw [this]
      unfold Store.record
      simp only [recordAccess_again (show ((recordAccess s.footprint k .readOnly).get k).isSome = true by rw [recordAccess_get]; simp)]
    rw [e1]
    have hfs : ((recordAccess s.footprint k .readOnly).get k).isSome = true := by rw [recordAccess_get]; simp
    by_cases hx : ∃ v l, src k = some (v, some l) ∧ l < E.li.seq ∧ E.keys.durability k = some .persistent
    · obtain ⟨v, l, hs, hl, hd⟩ := hx
      have hfin : ∀ m : FMap K (Option (Entry V)), (∀ k', k' ≠ k → (m.get k').isSome = true → (s.map.get k').isSome = true) →
          RecInv E src { s with footprint := recordAccess (recordAccess s.footprint k .readOnly) k .readWrite, map := m } := by
        intro m hm
        refine ⟨h.mode, recordAccess_nodup (recordAccess_nodup h.nodup _ _) _ _, ?_, ?_⟩
        · intro k' hk'
          simp only [recordAccess_get]
          by_cases hkk : k' = k
          · simp [hkk]
          · simp only [if_neg hkk]; exact h.decl k' (hm k' hkk hk')
        · intro k' v' l' h1 h2 h3 h4
          simp only [recordAccess_get] at h4 ⊢
          by_cases hkk : k' = k
          · simp [hkk]
          · simp only [if_neg hkk] at h4 ⊢; exact h.exp k' v' l' h1 h2 h3 h4
      unfold handleMaybeExpired
      simp only [FMap.get_insert_self, hs, hd, if_pos hl]
      cases E.li.minLiveUntil .persistent with
      | none =>
        refine hfin _ (fun k' hk' hg' => ?_)
        rwa [FMap.get_insert_ne _ _ hk'] at hg'
      | some m =>
        refine hfin _ (fun k' hk' hg' => ?_)
        rwa [FMap.get_insert_ne _ _ hk', FMap.get_insert_ne _ _ hk'] at hg'
    · refine handle_rec (s := { s with footprint := recordAccess s.footprint k .readOnly, map := s.map.insert k (src k) })
        ⟨h.mode, recordAccess_nodup h.nodup _ _, ?_, ?_⟩ k
      · intro k' hk'
        simp only [recordAccess_get]
        by_cases hkk : k' = k
        · simp [hkk]
        · simp only [if_neg hkk]
          simp only [FMap.get_insert_ne _ _ hkk] at hk'
          exact h.decl k' hk'
      · intro k' v' l' h1 h2 h3 h4
        simp only [recordAccess_get] at h4 ⊢
        by_cases hkk : k' = k
        · subst hkk; exact absurd ⟨v', l', h1, h2, h3⟩ hx
        · simp only [if_neg hkk] at h4 ⊢; exact h.exp k' v' l' h1 h2 h3 h4

theorem tryGet_rec (h : RecInv E src s) (k : K) : RecInv E src (tryGet E s k).1 := by
  unfold tryGet
  have hp := prepareReadOnly_rec h k
  split
  · split
    · rename_i hh; rw [hh] at hp; exact hp
    · rename_i hh; rw [hh] at hp; split <;> exact hp
  · exact h

theorem getEntry_rec (h : RecInv E src s) (k : K) : RecInv E src (getEntry E s k).1 := by
  unfold getEntry
  have hp := tryGet_rec h k
  split <;> rename_i hh <;> rw [hh] at hp <;> exact hp

theorem has_rec (h : RecInv E src s) (k : K) : RecInv E src (has E s k).1 := by
  unfold has
  have hp := tryGet_rec h k
  split <;> rename_i hh <;> rw [hh] at hp <;> exact hp

theorem feature_rec (h : RecInv E src s) (k : K) :
    RecInv E src (if E.feature then handleMaybeExpired E s k else (s, .ok ())).1 := by
  split
  · exact handle_rec h k
  · exact h

theorem putOpt_rec (h : RecInv E src s) (k : K) (e : Option (Entry V)) : RecInv E src (putOpt E s k e).1 := by
  unfold putOpt
  split
  · split
    · exact h
    · have hp := feature_rec h k
      split
      · rename_i hh; rw [hh] at hp; exact hp
      · rename_i s1 hh
        rw [hh] at hp
        simp only at hp
        unfold accessForWrite
        rw [hp.mode]
        refine (hp.recordRw k).setMap ?_ e
        simp only [Store.record, recordAccess_get]; simp
  · exact h

theorem prepareExtend_rec (h : RecInv E src s) (k : K) (x : Nat) : RecInv E src (prepareExtend E s k x).1 := by
  unfold prepareExtend
  split
  · have hp := feature_rec h k
    split
    · rename_i hh; rw [hh] at hp; exact hp
    · rename_i s1 hh
      rw [hh] at hp
      have hq := getEntry_rec hp k
      split <;> rename_i hh <;> rw [hh] at hq <;> exact hq
  · exact h

theorem tryGet_map {k : K} {s1 : Store K V} {o : Option (Entry V)} (hp : tryGet E s k = (s1, .ok o)) : s1.map.get k = some o := by
  unfold tryGet at hp
  split at hp
  · rcases hq : prepareReadOnly E s k with ⟨s2, e | u⟩
    · rw [hq] at hp; cases hp
    · rw [hq] at hp
      dsimp only at hp
      cases hm : s2.map.get k with
      | none => rw [hm] at hp; cases hp
      | some v => rw [hm] at hp; cases hp; exact hm
  · cases hp

theorem getEntry_map {k : K} {s1 : Store K V} {e : Entry V} (hp : getEntry E s k = (s1, .ok e)) : s1.map.get k = some (some e) := by
  unfold getEntry at hp
  rcases hq : tryGet E s k with ⟨s2, x | o⟩
  · rw [hq] at hp; cases hp
  · rw [hq] at hp
    cases o with
    | none => cases hp
    | some y => cases hp; exact tryGet_map hq

theorem prepareExtend_map {k : K} {x : Nat} {s1 : Store K V} {i : ExtInfo V} (hp : prepareExtend E s k x = (s1, .ok i)) :
    (s1.map.get k).isSome = true := by
  unfold prepareExtend at hp
  split at hp
  · rcases hq : (if E.feature then handleMaybeExpired E s k else (s, .ok ())) with ⟨s2, e | u⟩
    · rw [hq] at hp; cases hp
    · rw [hq] at hp
      dsimp only at hp
      rcases hg : getEntry E s2 k with ⟨s3, e | ⟨v, l⟩⟩
      · rw [hg] at hp; cases hp
      · rw [hg] at hp
        have h1 : s3 = s1 := congrArg Prod.fst hp
        rw [← h1, getEntry_map hg]; rfl
  · cases hp

theorem applyExtension_rec (h : RecInv E src s) {k : K} (hk : (s.map.get k).isSome = true) (i : ExtInfo V) (n : Nat) :
    RecInv E src (applyExtension s k i n) := by
  unfold applyExtension
  split
  · exact h.setMap (h.decl k hk) _
  · exact h

theorem extendTtl_rec (h : RecInv E src s) (k : K) (t x : Nat) : RecInv E src (extendTtl E s k t x).1 := by
  unfold extendTtl
  split
  · exact h
  · have hp := prepareExtend_rec h k x
    split
    · rename_i hh; rw [hh] at hp; exact hp
    · rename_i s1 i hh
      have hm := prepareExtend_map hh
      rw [hh] at hp
      split
      · exact hp
      · simp only
        split
        · exact applyExtension_rec hp hm _ _
        · exact hp

theorem extendTtlV2_rec (h : RecInv E src s) (k : K) (x a b : Nat) : RecInv E src (extendTtlV2 E s k x a b).1 := by
  unfold extendTtlV2
  split
  · exact h
  · have hp := prepareExtend_rec h k x
    split
    · rename_i hh; rw [hh] at hp; exact hp
    · rename_i s1 i hh
      have hm := prepareExtend_map hh
      rw [hh] at hp
      simp only
      split
      · exact hp
      · split
        · exact hp
        · exact applyExtension_rec hp hm _ _

theorem write_rec (h : RecInv E src s) (k : K) (u : Option V → V) : RecInv E src (write E s k u).1 := by
  unfold write
  have hp := has_rec h k
  split
  · rename_i hh; rw [hh] at hp; exact hp
  · rename_i hh
    rw [hh] at hp
    have hq := getEntry_rec hp k
    split
    · rename_i hh; rw [hh] at hq; exact hq
    · rename_i hh; rw [hh] at hq; exact putOpt_rec hq _ _
  · rename_i hh
    rw [hh] at hp
    split
    · exact hp
    · exact putOpt_rec hp _ _

theorem start_rec (E : Env K V) (src : K → Option (Entry V)) :
    RecInv E src { footprint := [], mode := .recording src, map := [] } :=
  ⟨rfl, List.nodup_nil, by intro k h; simp [FMap.get] at h, by intro k v l _ _ _ h; simp [FMap.get] at h⟩

end Soroban.Storage
