import Verif.Spec.E2eRecording
import Verif.Lemmas.E2e
import Verif.Lemmas.HostReplay
/-! What preflight reports for a key, and what the submitted transaction reports. -/
namespace Soroban.E2e
open Soroban Soroban.Storage Soroban.Storage.Spec Soroban.E2e.Spec

section
variable {K V : Type} [DecidableEq K]

/-- The entry of the snapshot, as preflight takes it. -/
def raw (P : Sizes K V) (src : K → Option (Entry V)) (k : K) : Option V × Option TtlMeta :=
  match src k with
  | none => (none, none)
  | some (v, l) => (some v, l.map (fun l => { liveUntil := l, sizeForRent := P.sizeForRent v }))

/-- The change for one key. -/
def keyChange (E : Env K V) (P : Sizes K V) (init : K → Option (Option Nat)) (m : Nat) (restored : Option (List K)) (x : Access × K)
    (size : Option Nat) (new : Option (Entry V)) : Res (Change K V) := do
  let c ← withOld E init size (emptyChange E P x.2)
  let c ← withNew new c
  return withValue P restored m x.1 new c

theorem ledgerChanges_cons {E : Env K V} {P : Sizes K V} {final : FMap K (Option (Entry V))} {init : K → Option (Option Nat)} {m : Nat}
    {restored : Option (List K)} {x : Access × K} {size : Option Nat} {new : Option (Entry V)} {rest : List ((Access × K) × Option Nat)}
    {c : Change K V} {r : List (Change K V)} (hf : final.get x.2 = some new) (hc : keyChange E P init m restored x size new = .ok c)
    (hr : ledgerChanges E P final init m restored rest = .ok r) :
    ledgerChanges E P final init m restored ((x, size) :: rest) = .ok (c :: r) := by
  obtain ⟨a, k⟩ := x
  simp only [ledgerChanges, hf]
  unfold keyChange at hc
  cases h1 : withOld E init size (emptyChange E P k) with
  | error e => simp only [h1] at hc; cases hc
  | ok c1 =>
    simp only [h1, bind, Except.bind] at hc ⊢
    cases h2 : withNew new c1 with
    | error e => simp only [h2] at hc; cases hc
    | ok c2 =>
      simp only [h2, pure, Except.pure, Except.ok.injEq] at hc
      simp only [hr, pure, Except.pure, hc]

theorem keyChange_key {E : Env K V} {P : Sizes K V} {init : K → Option (Option Nat)} {m : Nat}
    {restored : Option (List K)} {x : Access × K} {size : Option Nat} {new : Option (Entry V)} {c : Change K V}
    (hc : keyChange E P init m restored x size new = .ok c) : c.key = x.2 := by
  unfold keyChange at hc
  cases h1 : withOld E init size (emptyChange E P x.2) with
  | error e => simp only [h1] at hc; cases hc
  | ok c1 =>
    have hk1 : c1.key = x.2 := by
      unfold withOld at h1
      repeat' split at h1
      all_goals first | cases h1; rfl | cases h1
    simp only [h1, bind, Except.bind] at hc
    cases h2 : withNew new c1 with
    | error e => simp only [h2] at hc; cases hc
    | ok c2 =>
      have hk2 : c2.key = c1.key := by
        unfold withNew at h2
        repeat' split at h2
        all_goals first | cases h2; rfl | cases h2
      simp only [h2, pure, Except.pure, Except.ok.injEq] at hc
      rw [← hc, ← hk1, ← hk2]
      unfold withValue
      split
      · rfl
      · split
        · unfold withRestored
          split
          · split <;> rfl
          · rfl
        · rfl

theorem withRestored_in {restored : Option (List K)} {m : Nat} {c : Change K V} (h : inSet restored c.key) :
    withRestored restored m c = { c with
      oldSize := 0
      ttl := c.ttl.map (fun t => { t with oldLiveUntil := 0, newLiveUntil := max t.newLiveUntil m }) } := by
  obtain ⟨ks, rfl, hk⟩ := h
  simp only [withRestored, if_pos hk]

theorem withRestored_out {restored : Option (List K)} {m : Nat} {c : Change K V} (h : ¬ inSet restored c.key) :
    withRestored restored m c = c := by
  cases restored with
  | none => rfl
  | some ks =>
    simp only [withRestored]
    rw [if_neg (fun hk => h ⟨ks, rfl, hk⟩)]

theorem withValue_congr {P : Sizes K V} {restored restored' : Option (List K)} {m : Nat} {a : Access} {new : Option (Entry V)} {c : Change K V}
    (h : inSet restored c.key ↔ inSet restored' c.key) : withValue P restored' m a new c = withValue P restored m a new c := by
  cases a with
  | readOnly => rfl
  | readWrite =>
    cases new with
    | none => rfl
    | some p =>
      obtain ⟨v, l⟩ := p
      simp only [withValue]
      by_cases hr : inSet restored c.key
      · rw [withRestored_in (restored := restored) (by exact hr), withRestored_in (restored := restored') (by exact h.mp hr)]
      · rw [withRestored_out (restored := restored) (by exact hr), withRestored_out (restored := restored') (by exact fun hc => hr (h.mpr hc))]

theorem SameChange.refl (c : Change K V) : SameChange c c := ⟨rfl, rfl, rfl, rfl, fun _ => rfl, rfl⟩

theorem withNew_some {E : Env K V} {k : K} {new : Option (Entry V)} {c : Change K V} (hnew : LiveEntry E k new)
    (hd : c.ttl.map LiveUntilChange.durability = E.keys.durability k) : ∃ c2, withNew new c = .ok c2 ∧ c2.key = c.key := by
  cases new with
  | none => exact ⟨c, rfl, rfl⟩
  | some p =>
    obtain ⟨v, l⟩ := p
    cases ht : c.ttl with
    | none => exact ⟨c, by simp only [withNew, ht], rfl⟩
    | some t =>
      rw [ht] at hd
      obtain ⟨l', rfl, _⟩ := hnew v l t.durability rfl hd.symm
      exact ⟨{ c with ttl := some { t with newLiveUntil := max l' t.oldLiveUntil } }, by simp only [withNew, ht], rfl⟩

/-- If the old values are the same, all is the same. -/
theorem same_of_old {E E' : Env K V} {P : Sizes K V} {init init' : K → Option (Option Nat)} {m : Nat}
    {restored restored' : Option (List K)} {a : Access} {k : K} {size size' : Option Nat} {new : Option (Entry V)} {c1 : Change K V}
    (h1 : withOld E init size (emptyChange E P k) = .ok c1) (h1' : withOld E' init' size' (emptyChange E' P k) = .ok c1)
    (hk : c1.key = k) (hd : c1.ttl.map LiveUntilChange.durability = E.keys.durability k) (hnew : LiveEntry E k new)
    (hres : inSet restored k ↔ inSet restored' k) :
    ∃ c c', keyChange E P init m restored (a, k) size new = .ok c ∧ keyChange E' P init' m restored' (a, k) size' new = .ok c' ∧
      SameChange c c' := by
  obtain ⟨c2, h2, hk2⟩ := withNew_some hnew hd
  refine ⟨withValue P restored m a new c2, withValue P restored' m a new c2, ?_, ?_, ?_⟩
  · simp only [keyChange, h1, h2, bind, Except.bind, pure, Except.pure]
  · simp only [keyChange, h1', h2, bind, Except.bind, pure, Except.pure]
  · rw [withValue_congr (restored := restored) (restored' := restored') (by rw [hk2, hk]; exact hres)]
    exact SameChange.refl _

/-- The change of a key in preflight and in the submitted transaction. -/
theorem change_same {E : Env K V} {b : Bool} {P : Sizes K V} {src : K → Option (Entry V)} {init : FMap K (Option (Entry V))} {m : Nat}
    {restored restored' : Option (List K)} {a : Access} {k : K} {new : Option (Entry V)} (hfeat : E.feature = true)
    (hts : ∀ v l, src k = some (v, l) → l.isSome = (E.keys.durability k).isSome) (hmin : E.li.minLiveUntil .persistent = some m)
    (hseq : E.li.seq ≤ m) (hnew : LiveEntry E k new) (harch : archived E src k = true → a = .readWrite)
    (hres : inSet restored k ↔ archived E src k = true) (hres' : inSet restored' k ↔ archived E src k = true)
    (hinit : init.get k = some (view E k (src k))) :
    ∃ c c', keyChange E P (snapshotLiveUntil src) m restored (a, k) ((raw P src k).2.map TtlMeta.sizeForRent) new = .ok c ∧
      keyChange { E with feature := b } P (initLiveUntil init) m restored' (a, k) ((supplied E P src k).2.map TtlMeta.sizeForRent) new = .ok c' ∧
      SameChange c c' := by
  have hrr : inSet restored k ↔ inSet restored' k := hres.trans hres'.symm
  have hkey : (emptyChange E P k).key = k := rfl
  have hkey' : (emptyChange { E with feature := b } P k).key = k := rfl
  cases hs : src k with
  | none =>
    have hv : view E k (src k) = none := by rw [hs]; rfl
    refine same_of_old (c1 := emptyChange E P k) ?_ ?_ rfl ?_ hnew hrr
    · simp only [withOld, hkey, snapshotLiveUntil, hs, raw, Option.map]; rfl
    · simp only [withOld, hkey', initLiveUntil, hinit, hv, supplied, Option.map]; rfl
    · simp only [emptyChange, Option.map_map]; cases E.keys.durability k <;> rfl
  | some p =>
    obtain ⟨v, l⟩ := p
    have ht := hts v l hs
    cases hd : E.keys.durability k with
    | none =>
      rw [hd] at ht
      cases l with
      | some l => cases ht
      | none =>
        have hv : view E k (src k) = some (v, none) := by simp only [view, hs, hd]
        refine same_of_old (c1 := emptyChange E P k) ?_ ?_ rfl ?_ hnew hrr
        · simp only [withOld, hkey, snapshotLiveUntil, hs, raw, Option.map]; simp [emptyChange, hd]
        · simp only [withOld, hkey', initLiveUntil, hinit, hv, supplied, Option.map]; simp [emptyChange, hd]
        · simp only [emptyChange, Option.map_map]; cases E.keys.durability k <;> rfl
    | some d =>
      rw [hd] at ht
      cases l with
      | none => cases ht
      | some l =>
        have het : (emptyChange E P k).ttl = some { isCode := P.isCode k, durability := d, oldLiveUntil := 0, newLiveUntil := 0 } := by
          simp [emptyChange, hd]
        by_cases hl : E.li.seq ≤ l
        · have hv : view E k (src k) = some (v, some l) := by simp only [view, hs, hd, if_pos hl]
          refine same_of_old (c1 := { emptyChange E P k with
              oldSize := P.sizeForRent v
              ttl := some { isCode := P.isCode k, durability := d, oldLiveUntil := l, newLiveUntil := 0 } }) ?_ ?_ rfl ?_ hnew hrr
          · simp only [withOld, hkey, snapshotLiveUntil, hs, raw, Option.map, het]
            simp [Nat.not_lt.mpr hl]
          · simp only [withOld, hkey', initLiveUntil, hinit, hv, supplied, Option.map]
            have het' : (emptyChange { E with feature := b } P k).ttl = _ := het
            rw [het']
            simp [Nat.not_lt.mpr hl, emptyChange]
          · simp [hd]
        · have hl' : l < E.li.seq := Nat.lt_of_not_le hl
          cases d with
          | temporary =>
            have hv : view E k (src k) = none := by simp only [view, hs, hd, if_neg hl]
            refine same_of_old (c1 := emptyChange E P k) ?_ ?_ rfl ?_ hnew hrr
            · simp only [withOld, hkey, snapshotLiveUntil, hs, raw, Option.map, het]
              simp [hfeat, hl', emptyChange, hd]
            · simp only [withOld, hkey', initLiveUntil, hinit, hv, supplied, Option.map]; rfl
            · simp only [emptyChange, Option.map_map]; cases E.keys.durability k <;> rfl
          | persistent =>
            have hv : view E k (src k) = some (v, some m) := by simp only [view, hs, hd, if_neg hl, hmin]
            have ha : archived E src k = true := by simp [archived, hs, hl', hd]
            have hrw := harch ha
            subst hrw
            have e1 : withOld E (snapshotLiveUntil src) ((raw P src k).2.map TtlMeta.sizeForRent) (emptyChange E P k) = .ok (emptyChange E P k) := by
              simp only [withOld, hkey, snapshotLiveUntil, hs, raw, Option.map, het]
              simp [hfeat, hl', emptyChange, hd]
            have e2 : withOld { E with feature := b } (initLiveUntil init) ((supplied E P src k).2.map TtlMeta.sizeForRent)
                (emptyChange { E with feature := b } P k) = .ok { emptyChange E P k with
                  oldSize := P.sizeForRent v
                  ttl := some { isCode := P.isCode k, durability := .persistent, oldLiveUntil := m, newLiveUntil := 0 } } := by
              simp only [withOld, hkey', initLiveUntil, hinit, hv, supplied, Option.map]
              have het' : (emptyChange { E with feature := b } P k).ttl = _ := het
              rw [het']
              simp [Nat.not_lt.mpr hseq, emptyChange]
            cases new with
            | none =>
              refine ⟨emptyChange E P k, { emptyChange E P k with
                  oldSize := P.sizeForRent v
                  ttl := some { isCode := P.isCode k, durability := .persistent, oldLiveUntil := m, newLiveUntil := 0 } }, ?_, ?_, ?_⟩
              · simp only [keyChange, e1, withNew, withValue, bind, Except.bind, pure, Except.pure]
              · simp only [keyChange, e2, withNew, withValue, bind, Except.bind, pure, Except.pure]
              · refine ⟨rfl, rfl, rfl, ?_, fun h => absurd ⟨rfl, rfl⟩ h, ?_⟩
                · simp [het]
                · simp only [rentChange, het]
                  simp [emptyChange]
            | some q =>
              obtain ⟨v', l0⟩ := q
              obtain ⟨l', rfl, _⟩ := hnew v' l0 _ rfl hd
              have fin : ∀ r (c : Change K V), inSet r k → c.key = k → c.readOnly = false → c.ttl.map (fun t => (t.isCode, t.durability)) = some (P.isCode k, .persistent) →
                  (∀ t, c.ttl = some t → max t.oldLiveUntil m = m) →
                  ∃ c2, withNew (some (v', some l')) c = .ok c2 ∧ withValue P r m .readWrite (some (v', some l')) c2 =
                    { readOnly := false, key := k, oldSize := 0, newValue := some v', newSize := P.sizeForRent v'
                      ttl := some { isCode := P.isCode k, durability := .persistent, oldLiveUntil := 0, newLiveUntil := max l' m } } := by
                intro r c hr hk hro ht hm
                obtain ⟨ro, key, os, nv, ns, ttl⟩ := c
                simp only at hk hro ht hm
                subst hk hro
                cases ttl with
                | none => cases ht
                | some t =>
                  obtain ⟨ic, du, ol, nl⟩ := t
                  have := hm _ rfl
                  simp only [Option.map, Option.some.injEq, Prod.mk.injEq] at ht this
                  obtain ⟨rfl, rfl⟩ := ht
                  refine ⟨_, rfl, ?_⟩
                  simp only [withValue]
                  rw [withRestored_in (by exact hr)]
                  simp only [Option.map]
                  have hmax : max (max l' ol) m = max l' m := by omega
                  rw [hmax]
              obtain ⟨c2, f1, f2⟩ := fin restored (emptyChange E P k) (hres.mpr ha) rfl rfl (by rw [het]; rfl) (by
                intro t ht; rw [het] at ht; cases ht; exact Nat.zero_max ..)
              obtain ⟨c2', f1', f2'⟩ := fin restored' { emptyChange E P k with
                  oldSize := P.sizeForRent v
                  ttl := some { isCode := P.isCode k, durability := .persistent, oldLiveUntil := m, newLiveUntil := 0 } } (hres'.mpr ha) rfl rfl rfl (by
                intro t ht; cases ht; exact Nat.max_self ..)
              refine ⟨{ readOnly := false, key := k, oldSize := 0, newValue := some v', newSize := P.sizeForRent v'
                        ttl := some { isCode := P.isCode k, durability := .persistent, oldLiveUntil := 0, newLiveUntil := max l' m } }, _, ?_, ?_,
                SameChange.refl _⟩
              · simp only [keyChange, e1, f1, bind, Except.bind, pure, Except.pure, f2]
              · simp only [keyChange, e2, f1', bind, Except.bind, pure, Except.pure, f2']

/-- The changes of all declared keys. `L` is the ledger at the end. -/
theorem changes_same {E : Env K V} {b : Bool} {P : Sizes K V} {src : K → Option (Entry V)} {final final' init : FMap K (Option (Entry V))} {m : Nat}
    {restored restored' : Option (List K)} {L : Ledger K V} (hfeat : E.feature = true)
    (hts : ∀ k v l, src k = some (v, l) → l.isSome = (E.keys.durability k).isSome) (hmin : E.li.minLiveUntil .persistent = some m)
    (hseq : E.li.seq ≤ m) (hfin : ∀ k e, final.get k = some e → e = L k) :
    ∀ (l : List (Access × K)), (∀ x ∈ l, final'.get x.2 = some (L x.2)) → (∀ x ∈ l, LiveEntry E x.2 (L x.2)) →
    (∀ x ∈ l, archived E src x.2 = true → x.1 = .readWrite) →
    (∀ x ∈ l, inSet restored x.2 ↔ archived E src x.2 = true) → (∀ x ∈ l, inSet restored' x.2 ↔ archived E src x.2 = true) →
    (∀ x ∈ l, init.get x.2 = some (view E x.2 (src x.2))) →
    ∃ cs cs', ledgerChanges E P final (snapshotLiveUntil src) m restored
        (l.zip (l.map (fun x => (raw P src x.2).2.map TtlMeta.sizeForRent))) = .ok cs ∧
      ledgerChanges { E with feature := b } P final' (initLiveUntil init) m restored'
        (l.zip (l.map (fun x => (supplied E P src x.2).2.map TtlMeta.sizeForRent))) = .ok cs' ∧
      cs'.map Change.key = l.map Prod.snd ∧
      (∀ c ∈ cs, (final.get c.key).isSome = true) ∧
      List.Forall₂ SameChange cs (cs'.filter (fun c => (final.get c.key).isSome)) := by
  intro l
  induction l with
  | nil => intros; exact ⟨[], [], rfl, rfl, rfl, by simp, .nil⟩
  | cons x xs ih =>
    intro h1 h2 h3 h4 h5 h6
    obtain ⟨cs, cs', r1, r2, r3, r4, r5⟩ := ih (fun y hy => h1 y (List.mem_cons_of_mem _ hy)) (fun y hy => h2 y (List.mem_cons_of_mem _ hy))
      (fun y hy => h3 y (List.mem_cons_of_mem _ hy)) (fun y hy => h4 y (List.mem_cons_of_mem _ hy))
      (fun y hy => h5 y (List.mem_cons_of_mem _ hy)) (fun y hy => h6 y (List.mem_cons_of_mem _ hy))
    have hx := List.mem_cons_self (a := x) (l := xs)
    obtain ⟨c, c', k1, k2, k3⟩ := change_same (b := b) (P := P) (new := L x.2) hfeat (hts x.2) hmin hseq (h2 x hx) (h3 x hx) (h4 x hx) (h5 x hx) (h6 x hx)
    have hk' : c'.key = x.2 := keyChange_key k2
    have hk : c.key = x.2 := keyChange_key k1
    cases hf : final.get x.2 with
    | none =>
      refine ⟨cs, c' :: cs', ?_, ?_, ?_, r4, ?_⟩
      · obtain ⟨a, k⟩ := x
        simp only [List.map_cons, List.zip_cons_cons, ledgerChanges]
        simp only at hf
        rw [hf]
        exact r1
      · exact ledgerChanges_cons (h1 x hx) k2 r2
      · simp [r3, hk']
      · rw [List.filter_cons_of_neg (by rw [hk', hf]; simp)]
        exact r5
    | some e =>
      refine ⟨c :: cs, c' :: cs', ?_, ?_, ?_, ?_, ?_⟩
      · exact ledgerChanges_cons (by rw [hf, hfin _ _ hf]) k1 r1
      · exact ledgerChanges_cons (h1 x hx) k2 r2
      · simp [r3, hk']
      · intro y hy
        rcases List.mem_cons.mp hy with rfl | hy
        · rw [hk, hf]; rfl
        · exact r4 y hy
      · rw [List.filter_cons_of_pos (by rw [hk', hf]; rfl)]
        exact .cons k3 r5


theorem satAdd_eq (a b : Nat) : satAddU32 a b = min (a + b) u32Max := by
  unfold satAddU32
  generalize u32Max = M
  split <;> omega

/-- The entries of the declared keys, what is read from disk and what is restored. -/
theorem snapKeys_eq {E : Env K V} {P : Sizes K V} {len : V → Nat} {src : K → Option (Entry V)}
    (hts : ∀ k v l, src k = some (v, l) → l.isSome = (E.keys.durability k).isSome) :
    ∀ (xs : List (Option Nat × K)) (acc : Snap K V), acc.diskBytes ≤ u32Max → (∀ x ∈ xs, archived E src x.2 = true → x.1.isSome = true) →
      snapKeys E P len src xs acc = .ok
        { diskBytes := min (acc.diskBytes + (xs.map (fun x => diskLen E len src x.2)).sum) u32Max
          restoredIds := acc.restoredIds ++ xs.filterMap (fun x => if archived E src x.2 then x.1 else none)
          restoredKeys := acc.restoredKeys ++ (xs.filter (fun x => archived E src x.2)).map Prod.snd
          entries := acc.entries ++ xs.map (fun x => raw P src x.2) } := by
  intro xs
  induction xs with
  | nil =>
    intro acc ha _
    obtain ⟨d, i, r, e⟩ := acc
    simp only at ha
    simp [snapKeys, Nat.min_eq_left ha]
  | cons x xs ih =>
    intro acc ha hx
    have hx' := fun y hy => hx y (List.mem_cons_of_mem _ hy)
    have hx0 := hx x (List.mem_cons_self ..)
    have main : ∀ acc1 : Snap K V, snapKey E P len src x acc = .ok acc1 → acc1.diskBytes = min (acc.diskBytes + diskLen E len src x.2) u32Max →
        acc1.restoredIds = acc.restoredIds ++ (if archived E src x.2 then x.1.toList else []) →
        acc1.restoredKeys = acc.restoredKeys ++ (if archived E src x.2 then [x.2] else []) →
        acc1.entries = acc.entries ++ [raw P src x.2] →
        snapKeys E P len src (x :: xs) acc = .ok
          { diskBytes := min (acc.diskBytes + ((x :: xs).map (fun x => diskLen E len src x.2)).sum) u32Max
            restoredIds := acc.restoredIds ++ (x :: xs).filterMap (fun x => if archived E src x.2 then x.1 else none)
            restoredKeys := acc.restoredKeys ++ ((x :: xs).filter (fun x => archived E src x.2)).map Prod.snd
            entries := acc.entries ++ (x :: xs).map (fun x => raw P src x.2) } := by
      intro acc1 e1 d1 i1 k1 n1
      have hle : acc1.diskBytes ≤ u32Max := by rw [d1]; exact Nat.min_le_right ..
      rw [snapKeys, e1]
      simp only [bind, Except.bind]
      rw [ih acc1 hle hx']
      congr 1
      have hd : min (acc1.diskBytes + (xs.map (fun x => diskLen E len src x.2)).sum) u32Max =
          min (acc.diskBytes + ((x :: xs).map (fun x => diskLen E len src x.2)).sum) u32Max := by
        rw [d1, List.map_cons, List.sum_cons]
        generalize u32Max = M
        omega
      rw [hd, i1, k1, n1]
      congr 1
      · cases h : archived E src x.2
        · simp [h]
        · obtain ⟨i, hi⟩ := Option.isSome_iff_exists.mp (hx0 h)
          simp [h, hi]
      · cases h : archived E src x.2 <;> simp [h]
      · simp
    have h0 : acc.diskBytes = min (acc.diskBytes + 0) u32Max := by rw [Nat.add_zero, Nat.min_eq_left ha]
    cases hs : src x.2 with
    | none =>
      have hna : archived E src x.2 = false := by simp [archived, hs]
      refine main _ (by simp only [snapKey, hs]; rfl) ?_ ?_ ?_ ?_
      · simp only [diskLen, hs]; exact h0
      · simp [hna]
      · simp [hna]
      · simp [raw, hs]
    | some p =>
      obtain ⟨v, l⟩ := p
      have ht := hts _ v l hs
      cases hd : E.keys.durability x.2 with
      | none =>
        rw [hd] at ht
        cases l with
        | some l => cases ht
        | none =>
          have hna : archived E src x.2 = false := by simp [archived, hs]
          refine main _ (by simp only [snapKey, hs, hd]; rfl) ?_ ?_ ?_ ?_
          · simp only [diskLen, hs, hd, or_true, if_true]; exact satAdd_eq _ _
          · simp [hna]
          · simp [hna]
          · simp [raw, hs]
      | some d =>
        rw [hd] at ht
        cases l with
        | none => cases ht
        | some l =>
          by_cases hl : l < E.li.seq ∧ d = .persistent
          · have ha : archived E src x.2 = true := by simp [archived, hs, hl.1, hd, hl.2]
            obtain ⟨i, hi⟩ := Option.isSome_iff_exists.mp (hx0 ha)
            refine main _ (by simp only [snapKey, hs, hd, if_pos hl, hi]; rfl) ?_ ?_ ?_ ?_
            · simp only [diskLen, hs, ha, true_or, if_true]; exact satAdd_eq _ _
            · simp [ha, hi]
            · simp [ha]
            · simp [raw, hs]
          · have hna : archived E src x.2 = false := by
              simp only [archived, hs, hd, Bool.and_eq_false_iff, decide_eq_false_iff_not, Option.some.injEq]
              by_cases h1 : l < E.li.seq
              · exact Or.inr (fun h2 => hl ⟨h1, h2⟩)
              · exact Or.inl h1
            refine main _ (by simp only [snapKey, hs, hd, if_neg hl]; rfl) ?_ ?_ ?_ ?_
            · simp only [diskLen, hs, hna, hd]; simp only [Bool.false_eq_true, reduceCtorEq, or_self, if_false]; exact h0
            · simp [hna]
            · simp [hna]
            · simp [raw, hs]

theorem indexedKeys_snd (fp : LedgerFootprint K) : (indexedKeys fp).map Prod.snd = fp.readOnly ++ fp.readWrite := by
  unfold indexedKeys
  rw [List.map_append, List.map_map, List.map_map]
  congr 1
  · simp [Function.comp_def]
  · have : (Prod.snd ∘ fun x : K × Nat => (some x.2, x.1)) = Prod.fst := rfl
    rw [this, List.zipIdx_map_fst]

/-- The positions of the restored entries. -/
theorem mem_restored (p : K → Bool) (fp : LedgerFootprint K) (i : Nat) :
    i ∈ (indexedKeys fp).filterMap (fun x => if p x.2 then x.1 else none) ↔ ∃ k, fp.readWrite[i]? = some k ∧ p k = true := by
  unfold indexedKeys
  rw [List.filterMap_append, List.mem_append, List.mem_filterMap, List.mem_filterMap]
  constructor
  · rintro (⟨x, hx, hi⟩ | ⟨x, hx, hi⟩)
    · obtain ⟨k, _, rfl⟩ := List.mem_map.mp hx
      simp at hi
    · obtain ⟨⟨k, j⟩, hk, rfl⟩ := List.mem_map.mp hx
      have hk := List.mem_zipIdx_iff_getElem?.mp hk
      by_cases hp : p k = true
      · simp only [hp, if_true, Option.some.injEq] at hi
        subst hi
        exact ⟨k, hk, hp⟩
      · simp [hp] at hi
  · rintro ⟨k, hk, hp⟩
    refine Or.inr ⟨(some i, k), List.mem_map.mpr ⟨(k, i), List.mem_zipIdx_iff_getElem?.mpr hk, rfl⟩, ?_⟩
    simp [hp]

theorem initialSizes_eq {E : Env K V} {P : Sizes K V} {src : K → Option (Entry V)}
    (hts : ∀ k v l, src k = some (v, l) → l.isSome = (E.keys.durability k).isSome) (hsup : ∀ k, E.keys.supported k = true) :
    ∀ ks : List K, initialSizes E (ks.zip (ks.map (raw P src))) = .ok (ks.map (fun k => (raw P src k).2.map TtlMeta.sizeForRent)) := by
  intro ks
  induction ks with
  | nil => rfl
  | cons k ks ih =>
    rw [List.map_cons, List.zip_cons_cons]
    have hc : checkEntry E k (raw P src k).1 (raw P src k).2 = .ok () := by
      unfold checkEntry
      rw [if_pos (hsup k)]
      cases hs : src k with
      | none => simp [raw, hs]
      | some p =>
        obtain ⟨v, l⟩ := p
        have ht := hts _ v l hs
        cases hd : E.keys.durability k with
        | none =>
          rw [hd] at ht
          cases l with
          | some l => cases ht
          | none => simp [raw, hs]
        | some d =>
          rw [hd] at ht
          cases l with
          | none => cases ht
          | some l => simp [raw, hs]
    generalize hr : raw P src k = rk at hc
    obtain ⟨e, t⟩ := rk
    simp only [initialSizes, hc, ih, bind, Except.bind, pure, Except.pure, List.map_cons, hr]


/-! ### The submitted transaction can be set up -/

theorem restoredKeys_some {rw : List K} : ∀ {is : List Nat}, (∀ i ∈ is, ∃ k, rw[i]? = some k) → ∃ ks, restoredKeys rw is = .ok ks := by
  intro is
  induction is with
  | nil => intro _; exact ⟨[], rfl⟩
  | cons i is ih =>
    intro h
    obtain ⟨k, hk⟩ := h i (List.mem_cons_self ..)
    obtain ⟨ks, hks⟩ := ih (fun j hj => h j (List.mem_cons_of_mem _ hj))
    exact ⟨k :: ks, by simp only [restoredKeys, hk, hks, bind, Except.bind, pure, Except.pure]⟩

theorem buildRestoredKeySet_some {fp : LedgerFootprint K} {is : List Nat} (h : ∀ i ∈ is, ∃ k, fp.readWrite[i]? = some k) :
    ∃ r, buildRestoredKeySet fp is = .ok r := by
  unfold buildRestoredKeySet
  split
  · exact ⟨_, rfl⟩
  · obtain ⟨ks, hks⟩ := restoredKeys_some h
    exact ⟨some ks, by simp only [hks, bind, Except.bind, pure, Except.pure]⟩

theorem addKeys_some {keys : Keys K V} (hsup : ∀ k, keys.supported k = true) (a : Access) : ∀ (ks : List K) (m : FMap K Access),
    ∃ m', addKeys keys a ks m = .ok m' := by
  intro ks
  induction ks with
  | nil => intro m; exact ⟨m, rfl⟩
  | cons k ks ih => intro m; simp only [addKeys, hsup, if_true]; exact ih _

theorem buildFootprint_some {keys : Keys K V} (hsup : ∀ k, keys.supported k = true) (fp : LedgerFootprint K) :
    ∃ m, buildFootprint keys fp = .ok m := by
  unfold buildFootprint
  obtain ⟨m, hm⟩ := addKeys_some hsup .readWrite fp.readWrite []
  obtain ⟨m', hm'⟩ := addKeys_some hsup .readOnly fp.readOnly m
  exact ⟨m', by simp only [hm, bind, Except.bind]; exact hm'⟩

theorem view_live {E : Env K V} {src : K → Option (Entry V)} {m : Nat}
    (hts : ∀ k v l, src k = some (v, l) → l.isSome = (E.keys.durability k).isSome) (hmin : E.li.minLiveUntil .persistent = some m)
    (hseq : E.li.seq ≤ m) (k : K) : ∀ v l, view E k (src k) = some (v, l) →
      l.isSome = (E.keys.durability k).isSome ∧ ∀ l', l = some l' → (E.keys.durability k).isSome → E.li.seq ≤ l' := by
  intro v l hv
  cases hs : src k with
  | none => rw [hs] at hv; cases hv
  | some p =>
    obtain ⟨w, lo⟩ := p
    have ht := hts k w lo hs
    rw [hs] at hv
    cases hd : E.keys.durability k with
    | none =>
      simp only [view, hd] at hv
      cases hv
      rw [hd] at ht
      exact ⟨ht, fun l' _ h => by cases h⟩
    | some d =>
      rw [hd] at ht
      cases lo with
      | none => cases ht
      | some lo =>
        simp only [view, hd] at hv
        split at hv
        · rename_i hle
          cases hv
          exact ⟨rfl, fun l' hl _ => by cases hl; exact hle⟩
        · cases d with
          | temporary => cases hv
          | persistent =>
            simp only [hmin] at hv
            cases hv
            exact ⟨rfl, fun l' hl _ => by cases hl; exact hseq⟩

theorem initialEntry_supplied {E : Env K V} {b : Bool} {P : Sizes K V} {src : K → Option (Entry V)} {m : Nat}
    (hts : ∀ k v l, src k = some (v, l) → l.isSome = (E.keys.durability k).isSome) (hmin : E.li.minLiveUntil .persistent = some m)
    (hseq : E.li.seq ≤ m) (k : K) :
    initialEntry { E with feature := b } k (supplied E P src k).1 (supplied E P src k).2 = .ok (view E k (src k)) := by
  have hv := view_live hts hmin hseq k
  unfold supplied
  cases h : view E k (src k) with
  | none => rfl
  | some p =>
    obtain ⟨v, l⟩ := p
    obtain ⟨h1, h2⟩ := hv v l h
    cases hd : E.keys.durability k with
    | none =>
      rw [hd] at h1
      cases l with
      | some l => cases h1
      | none => simp only [initialEntry, Option.map, hd]
    | some d =>
      rw [hd] at h1
      cases l with
      | none => cases h1
      | some l =>
        have := h2 l rfl (by rw [hd]; rfl)
        simp only [initialEntry, Option.map, hd, if_neg (Nat.not_lt.mpr this)]

theorem addEntries_supplied {E : Env K V} {b : Bool} {P : Sizes K V} {src : K → Option (Entry V)} {m : Nat}
    (hts : ∀ k v l, src k = some (v, l) → l.isSome = (E.keys.durability k).isSome) (hmin : E.li.minLiveUntil .persistent = some m)
    (hseq : E.li.seq ≤ m) (hsup : ∀ k, E.keys.supported k = true) :
    ∀ (ks : List K) (map : FMap K (Option (Entry V))) (sz : List (Option Nat)), ∃ map',
      addEntries { E with feature := b } (ks.zip (ks.map (supplied E P src))) map sz =
        .ok (map', sz ++ ks.map (fun k => (supplied E P src k).2.map TtlMeta.sizeForRent)) ∧
      ∀ k, map'.get k = if k ∈ ks then some (view E k (src k)) else map.get k := by
  intro ks
  induction ks with
  | nil => intro map sz; exact ⟨map, by simp [addEntries], by simp⟩
  | cons k ks ih =>
    intro map sz
    obtain ⟨map', h1, h2⟩ := ih (map.insert k (view E k (src k))) (sz ++ [(supplied E P src k).2.map TtlMeta.sizeForRent])
    refine ⟨map', ?_, fun k' => ?_⟩
    · have hi := initialEntry_supplied (b := b) (P := P) hts hmin hseq k
      rw [List.map_cons, List.zip_cons_cons]
      generalize hx : supplied E P src k = x at hi h1
      obtain ⟨e, t⟩ := x
      rw [addEntries, if_pos (hsup k), hi]
      simp only [bind, Except.bind]
      rw [h1]
      simp [hx]
    · rw [h2 k']
      by_cases hk : k' = k
      · subst hk
        by_cases hm : k' ∈ ks
        · simp [hm]
        · simp [hm, FMap.get_insert_self]
      · simp only [List.mem_cons, hk, false_or, FMap.get_insert_ne _ _ hk]

theorem buildStorageMap_supplied {E : Env K V} {b : Bool} {P : Sizes K V} {src : K → Option (Entry V)} {m : Nat}
    (hts : ∀ k v l, src k = some (v, l) → l.isSome = (E.keys.durability k).isSome) (hmin : E.li.minLiveUntil .persistent = some m)
    (hseq : E.li.seq ≤ m) (hsup : ∀ k, E.keys.supported k = true) (fp : LedgerFootprint K) : ∃ map,
      buildStorageMap { E with feature := b } fp ((fp.readOnly ++ fp.readWrite).map (supplied E P src)) =
        .ok (map, (fp.readOnly ++ fp.readWrite).map (fun k => (supplied E P src k).2.map TtlMeta.sizeForRent)) ∧
      ∀ k, map.get k = if k ∈ fp.readOnly ++ fp.readWrite then some (view E k (src k)) else none := by
  obtain ⟨map, h1, h2⟩ := addEntries_supplied (b := b) (P := P) hts hmin hseq hsup (fp.readOnly ++ fp.readWrite) [] []
  refine ⟨map, ?_, fun k => by rw [h2 k]; rfl⟩
  unfold buildStorageMap
  rw [if_neg (by simp)]
  exact h1

/-! ### The recorded footprint -/

theorem mem_ledgerFootprint {fp : FMap K Access} (hn : fp.keys.Nodup) (k : K) :
    (k ∈ (ledgerFootprint fp).readOnly ↔ fp.get k = some .readOnly) ∧ (k ∈ (ledgerFootprint fp).readWrite ↔ fp.get k = some .readWrite) := by
  have main : ∀ a, k ∈ (fp.filter (fun x => x.2 = a)).map Prod.fst ↔ fp.get k = some a := by
    intro a
    constructor
    · intro h
      obtain ⟨⟨k', a'⟩, hm, rfl⟩ := List.mem_map.mp h
      obtain ⟨h1, h2⟩ := List.mem_filter.mp hm
      have h2 : a' = a := by simpa using h2
      subst h2
      exact FMap.get_of_mem hn h1
    · intro h
      exact List.mem_map.mpr ⟨(k, a), List.mem_filter.mpr ⟨FMap.mem_of_get h, by simp⟩, rfl⟩
  exact ⟨main _, main _⟩


end

open Soroban.Host Soroban.Auth Soroban.Host.Spec Soroban.Props
variable {X : Type} {E : HEnv} {R : RecInput X}

/-- The declared footprint. -/
def recFp (E : HEnv) (R : RecInput X) : LedgerFootprint LKey := ledgerFootprint (recEnded E R).1.st.footprint

/-- The positions of the restored keys. -/
def recIds (E : HEnv) (R : RecInput X) : List Nat :=
  (indexedKeys (recFp E R)).filterMap (fun x => if archived E.sto R.snapshot x.2 then x.1 else none)

/-- The restored keys. -/
def recRestored (E : HEnv) (R : RecInput X) : Option (List LKey) :=
  if ((indexedKeys (recFp E R)).filter (fun x => archived E.sto R.snapshot x.2)).map Prod.snd = [] then none
  else some (((indexedKeys (recFp E R)).filter (fun x => archived E.sto R.snapshot x.2)).map Prod.snd)

/-- The initial sizes. -/
def recSizes (E : HEnv) (R : RecInput X) : List (Option Nat) :=
  ((recFp E R).readOnly ++ (recFp E R).readWrite).map (fun k => (raw R.sizes R.snapshot k).2.map TtlMeta.sizeForRent)

theorem start_ok (h : RecInputOk E R) :
    ROk E R.snapshot (Host.init { footprint := [], mode := .recording R.snapshot, map := [] } R.auth) := by
  refine ⟨⟨h.keys, ⟨⟨?_, h.min⟩, h.feature⟩, ⟨?_, ?_⟩⟩, start_rec _ _⟩
  · intro k v d hs hd
    have := h.snapshot k v none hs
    rw [hd] at this; cases this
  · intro k e he; cases he
  · intro hm; cases hm

theorem ended_ok (h : RecInputOk E R) : ROk E R.snapshot (recEnded E R).1 :=
  (lock_invoke (b := true) (F := []) R.hostFn _ (start_ok h)).ok

theorem supported (h : RecInputOk E R) (k : LKey) : E.sto.keys.supported k = true := by rw [h.keys]; rfl

/-- Archived entries are declared read-write. -/
theorem archived_rw (h : RecInputOk E R) {k : LKey} (ha : archived E.sto R.snapshot k = true)
    (hk : k ∈ (recFp E R).readOnly ++ (recFp E R).readWrite) : k ∈ (recFp E R).readWrite ∧ k ∉ (recFp E R).readOnly := by
  have hi := (ended_ok h).inv
  obtain ⟨m1, m2⟩ := mem_ledgerFootprint hi.nodup k
  have hsome : ((recEnded E R).1.st.footprint.get k).isSome = true := by
    rcases List.mem_append.mp hk with hk | hk
    · rw [m1.mp hk]; rfl
    · rw [m2.mp hk]; rfl
  unfold archived at ha
  split at ha
  · rename_i v l hs
    simp only [Bool.and_eq_true, decide_eq_true_eq] at ha
    have := hi.exp k v l hs ha.1 ha.2 hsome
    exact ⟨m2.mpr this, fun hc => by have h1 := m1.mp hc; rw [this] at h1; cases h1⟩
  · cases ha

theorem recRestored_iff {k : LKey} (hk : k ∈ (recFp E R).readOnly ++ (recFp E R).readWrite) :
    inSet (recRestored E R) k ↔ archived E.sto R.snapshot k = true := by
  have hmem : k ∈ ((indexedKeys (recFp E R)).filter (fun x => archived E.sto R.snapshot x.2)).map Prod.snd ↔ archived E.sto R.snapshot k = true := by
    constructor
    · intro hm
      obtain ⟨x, hx, rfl⟩ := List.mem_map.mp hm
      exact (List.mem_filter.mp hx).2
    · intro ha
      rw [← indexedKeys_snd] at hk
      obtain ⟨x, hx, rfl⟩ := List.mem_map.mp hk
      exact List.mem_map.mpr ⟨x, List.mem_filter.mpr ⟨hx, ha⟩, rfl⟩
  unfold recRestored
  split
  · rename_i he
    rw [he] at hmem
    constructor
    · rintro ⟨ks, hks, _⟩; cases hks
    · intro ha; cases hmem.mpr ha
  · constructor
    · rintro ⟨ks, hks, hk'⟩; cases hks; exact hmem.mp hk'
    · intro ha; exact ⟨_, rfl, hmem.mpr ha⟩

/-- What is computed from the recorded footprint. -/
theorem snap_eq (h : RecInputOk E R) :
    snapKeys E.sto R.sizes R.len R.snapshot (indexedKeys (recFp E R)) { diskBytes := 0, restoredIds := [], restoredKeys := [], entries := [] } = .ok
      { diskBytes := min (((recFp E R).readOnly ++ (recFp E R).readWrite).map (diskLen E.sto R.len R.snapshot)).sum u32Max
        restoredIds := recIds E R
        restoredKeys := ((indexedKeys (recFp E R)).filter (fun x => archived E.sto R.snapshot x.2)).map Prod.snd
        entries := ((recFp E R).readOnly ++ (recFp E R).readWrite).map (raw R.sizes R.snapshot) } := by
  rw [snapKeys_eq h.snapshot _ _ (Nat.zero_le _) ?_]
  · have e : ∀ {A : Type} (f : LKey → A), (indexedKeys (recFp E R)).map (fun x => f x.2) = ((recFp E R).readOnly ++ (recFp E R).readWrite).map f := by
      intro A f
      rw [← indexedKeys_snd, List.map_map]; rfl
    rw [e, e]
    simp only [List.nil_append, Nat.zero_add]
    rfl
  · intro x hx ha
    obtain ⟨o, k⟩ := x
    have hk : k ∈ (recFp E R).readOnly ++ (recFp E R).readWrite := by
      rw [← indexedKeys_snd]; exact List.mem_map.mpr ⟨_, hx, rfl⟩
    have hno := (archived_rw h ha hk).2
    unfold indexedKeys at hx
    rcases List.mem_append.mp hx with hx | hx
    · obtain ⟨k', hk', he⟩ := List.mem_map.mp hx
      cases he
      exact absurd hk' hno
    · obtain ⟨y, _, he⟩ := List.mem_map.mp hx
      cases he; rfl

theorem sizes_eq (h : RecInputOk E R) : initialSizes E.sto (((recFp E R).readOnly ++ (recFp E R).readWrite).zip
    (((recFp E R).readOnly ++ (recFp E R).readWrite).map (raw R.sizes R.snapshot))) = .ok (recSizes E R) :=
  initialSizes_eq h.snapshot (supported h) _

/-- The submitted transaction and preflight in lockstep. -/
structure Replayed (E : HEnv) (b : Bool) (R : RecInput X) (I : Input X) (m : Nat) (st : Store LKey LVal) (sizes : List (Option Nat))
    (restored : Option (List LKey)) (s' : Host) (cs cs' : List (Change LKey LVal)) : Prop where
  setup : setup (E.feat b) I = .ok (st, sizes, restored, m)
  run : invoke (E.feat b) (Host.init st I.auth) I.hostFn = (s', (recEnded E R).2)
  sim : Sim E b st.footprint (recEnded E R).1 s'
  recorded : getLedgerChanges E.sto R.sizes (recEnded E R).1.st.map (snapshotLiveUntil R.snapshot) (recFp E R) (recSizes E R) m
    (recRestored E R) = .ok cs
  enforced : getLedgerChanges (E.feat b).sto I.sizes s'.st.map (initLiveUntil st.map) I.footprint sizes m restored = .ok cs'
  keys : cs'.map Change.key = (recFp E R).readOnly ++ (recFp E R).readWrite
  here : ∀ c ∈ cs, ((recEnded E R).1.st.map.get c.key).isSome = true
  same : List.Forall₂ SameChange cs (cs'.filter (fun c => ((recEnded E R).1.st.map.get c.key).isSome))

theorem replay (h : RecInputOk E R) (b : Bool) {m : Nat} (hmin : E.sto.li.minLiveUntil .persistent = some m) {out : RecOutput X}
    (hfp : out.footprint = recFp E R) (hids : out.restored = recIds E R) (hauth : out.auth = R.auth) :
    ∃ st sizes restored s' cs cs', Replayed E b R (submitted E R out) m st sizes restored s' cs cs' := by
  have hseq := minLiveUntil_ge hmin
  have hi := ended_ok h
  -- the setup
  obtain ⟨restored, hr⟩ := buildRestoredKeySet_some (fp := recFp E R) (is := recIds E R) (by
    intro i hi
    obtain ⟨k, hk, _⟩ := (mem_restored (archived E.sto R.snapshot) _ i).mp hi
    exact ⟨k, hk⟩)
  obtain ⟨F, hF⟩ := buildFootprint_some (supported h) (recFp E R)
  obtain ⟨map, hm1, hm2⟩ := buildStorageMap_supplied (b := b) (P := R.sizes) h.snapshot hmin hseq (supported h) (recFp E R)
  have hset : setup (E.feat b) (submitted E R out) = .ok ({ footprint := F, mode := .enforcing, map := map },
      ((recFp E R).readOnly ++ (recFp E R).readWrite).map (fun k => (supplied E.sto R.sizes R.snapshot k).2.map TtlMeta.sizeForRent), restored, m) := by
    unfold setup
    simp only [submitted, hfp, hids, hr, bind, Except.bind]
    have hF' : buildFootprint (E.feat b).sto.keys (recFp E R) = .ok F := hF
    have hmin' : (E.feat b).sto.li.minLiveUntil .persistent = some m := hmin
    have hm1' : buildStorageMap (E.feat b).sto (recFp E R) _ = _ := hm1
    simp only [hF', hmin', hm1', pure, Except.pure]
  -- the footprint
  have hFget : ∀ k, F.get k = (recEnded E R).1.st.footprint.get k := by
    intro k
    rw [buildFootprint_ok hF k]
    obtain ⟨m1, m2⟩ := mem_ledgerFootprint hi.inv.nodup k
    have m1 : k ∈ (recFp E R).readOnly ↔ _ := m1
    have m2 : k ∈ (recFp E R).readWrite ↔ _ := m2
    cases hg : (recEnded E R).1.st.footprint.get k with
    | none => rw [hg] at m1 m2; simp [m1, m2]
    | some a => rw [hg] at m1 m2; cases a <;> simp [m1, m2]
  have hdecl : ∀ k, k ∈ (recFp E R).readOnly ++ (recFp E R).readWrite ↔ (F.get k).isSome = true := by
    intro k
    rw [buildFootprint_ok hF k, List.mem_append]
    by_cases h1 : k ∈ (recFp E R).readOnly
    · simp [h1]
    · by_cases h2 : k ∈ (recFp E R).readWrite <;> simp [h1, h2]
  have hle : FpLe (recEnded E R).1.st.footprint F := by
    intro k a ha
    cases a <;> simpa only [allows, hFget] using ha
  -- the run
  have hvl := view_live h.snapshot hmin hseq
  have hlive : ∀ k e, map.get k = some e → LiveEntry (E.feat b).sto k e := by
    intro k e he
    rw [hm2 k] at he
    split at he
    · cases he
      intro v l d hv hd
      obtain ⟨h1, h2⟩ := hvl k v l hv
      have hd : E.sto.keys.durability k = some d := hd
      rw [hd] at h1
      obtain ⟨l', rfl⟩ := Option.isSome_iff_exists.mp h1
      exact ⟨l', rfl, h2 l' rfl (by rw [hd]; rfl)⟩
    · cases he
  have hcov : ∀ k, (F.get k).isSome = true → map.get k = some (view E.sto k (R.snapshot k)) := by
    intro k hk
    rw [hm2 k, if_pos ((hdecl k).mpr hk)]
  have hsim : Sim E b F (Host.init { footprint := [], mode := .recording R.snapshot, map := [] } R.auth)
      (Host.init { footprint := F, mode := .enforcing, map := map } R.auth) := by
    refine ⟨⟨h.keys, trivial, ⟨hlive, ?_⟩⟩, rfl, rfl, ?_, rfl⟩
    · intro _ k hk
      show (map.get k).isSome = true
      rw [hcov k hk]; rfl
    · intro k hk
      unfold Host.ledger absMap
      show (match (FMap.get ([] : FMap LKey (Option (Entry LVal))) k) with | some e => e | none => view E.sto k (R.snapshot k)) = _
      have : map.get k = _ := hcov k hk
      simp only [Host.init, this]
      rfl
  obtain ⟨hr2, hsim'⟩ := (lock_invoke (b := b) (F := F) R.hostFn _ (start_ok h)).sim _ hsim hle
  simp only at hr2 hsim'
  -- the changes
  obtain ⟨s', hs'⟩ : ∃ s', s' = (invoke (E.feat b) (Host.init { footprint := F, mode := .enforcing, map := map } R.auth) R.hostFn).1 := ⟨_, rfl⟩
  rw [← hs'] at hsim'
  have hsimR : Sim E b F (recEnded E R).1 s' := hsim'
  have hmemacc : ∀ x ∈ accesses (recFp E R), x.2 ∈ (recFp E R).readOnly ++ (recFp E R).readWrite := by
    intro x hx; rw [← accesses_keys]; exact List.mem_map.mpr ⟨x, hx, rfl⟩
  have hfinal : ∀ x ∈ accesses (recFp E R), s'.st.map.get x.2 = some (Host.ledger E (recEnded E R).1.st x.2) := by
    intro x hx
    have hd := (hdecl x.2).mp (hmemacc x hx)
    have hc := hsimR.ok.map.cover hsimR.mode x.2 (by rw [hsimR.fp]; exact hd)
    obtain ⟨e, he⟩ := Option.isSome_iff_exists.mp hc
    rw [hsimR.agree x.2 hd]
    unfold Host.ledger absMap
    rw [he]
  obtain ⟨cs, cs', c1, c2, c3, c4, c5⟩ := changes_same (E := E.sto) (b := b) (P := R.sizes) (src := R.snapshot) (final := (recEnded E R).1.st.map)
    (final' := s'.st.map) (init := map) (m := m) (restored := recRestored E R) (restored' := restored) (L := Host.ledger E (recEnded E R).1.st)
    h.feature h.snapshot hmin hseq (by
      intro k e he
      unfold Host.ledger absMap
      rw [he]) (accesses (recFp E R)) hfinal
    (fun x hx => hsimR.ok.map.live _ _ (hfinal x hx))
    (fun x hx ha => by
      obtain ⟨a, k⟩ := x
      have := archived_rw h ha (hmemacc _ hx)
      rcases mem_accesses.mp hx with ⟨_, h2⟩ | ⟨h1, _⟩
      · exact absurd h2 this.2
      · exact h1)
    (fun x hx => recRestored_iff (hmemacc x hx))
    (fun x hx => by
      rw [buildRestoredKeySet_ok hr]
      constructor
      · rintro ⟨i, hi, hk⟩
        obtain ⟨k, hk', ha⟩ := (mem_restored (archived E.sto R.snapshot) _ i).mp hi
        rw [hk] at hk'; cases hk'; exact ha
      · intro ha
        have := (archived_rw h ha (hmemacc x hx)).1
        obtain ⟨i, hi⟩ := List.mem_iff_getElem?.mp this
        exact ⟨i, (mem_restored (archived E.sto R.snapshot) _ i).mpr ⟨_, hi, ha⟩, hi⟩)
    (fun x hx => hcov x.2 ((hdecl x.2).mp (hmemacc x hx)))
  have hsz : ∀ {A : Type} (f : LKey → A), (accesses (recFp E R)).map (fun x => f x.2) = ((recFp E R).readOnly ++ (recFp E R).readWrite).map f := by
    intro A f; rw [← accesses_keys, List.map_map]; rfl
  rw [hsz (fun k => (raw R.sizes R.snapshot k).2.map TtlMeta.sizeForRent)] at c1
  rw [hsz (fun k => (supplied E.sto R.sizes R.snapshot k).2.map TtlMeta.sizeForRent)] at c2
  refine ⟨_, _, _, s', cs, cs', hset, ?_, hsimR, ?_, ?_, ?_, c4, c5⟩
  · have e1 : (submitted E R out).auth = R.auth := hauth
    have e2 : (submitted E R out).hostFn = R.hostFn := rfl
    rw [e1, e2]
    exact Prod.ext hs'.symm hr2
  · unfold getLedgerChanges
    rw [if_neg (by simp [recSizes])]
    exact c1
  · unfold getLedgerChanges
    have e1 : (submitted E R out).footprint = recFp E R := hfp
    rw [e1, if_neg (by simp)]
    exact c2
  · rw [c3, accesses_keys]

end Soroban.E2e
