import Verif.Spec.E2e
import Verif.Lemmas.HostReach
import Mathlib.Data.List.Forall2
/-! Lemmas about `invoke_host_function`. -/
namespace Soroban.E2e
open Soroban Soroban.Storage Soroban.Storage.Spec Soroban.E2e.Spec

section
variable {K V : Type} [DecidableEq K]

theorem addKeys_ok {keys : Keys K V} {a : Access} {ks : List K} : ∀ {m m' : FMap K Access}, addKeys keys a ks m = .ok m' →
    ∀ k, m'.get k = if k ∈ ks then some a else m.get k := by
  induction ks with
  | nil => intro m m' h k; cases h; simp
  | cons x xs ih =>
    intro m m' h k
    unfold addKeys at h
    split at h
    · rw [ih h k, FMap.get_insert]
      by_cases h1 : k ∈ xs
      · simp [h1]
      · by_cases h2 : k = x <;> simp [h1, h2]
    · cases h

theorem buildFootprint_ok {keys : Keys K V} {fp : LedgerFootprint K} {m : FMap K Access} (h : buildFootprint keys fp = .ok m) (k : K) :
    m.get k = if k ∈ fp.readOnly then some .readOnly else if k ∈ fp.readWrite then some .readWrite else none := by
  unfold buildFootprint at h
  cases h1 : addKeys keys .readWrite fp.readWrite [] with
  | error e => rw [h1] at h; cases h
  | ok m1 =>
    rw [h1] at h
    rw [addKeys_ok h, addKeys_ok h1]
    rfl

/-- The entry of the initial map. -/
def givenEntry (x : K × Option V × Option TtlMeta) : Option (Entry V) := x.2.1.map (fun v => (v, x.2.2.map TtlMeta.liveUntil))

theorem initialEntry_ok {E : Env K V} {k : K} {entry : Option V} {ttl : Option TtlMeta} {e : Option (Entry V)}
    (h : initialEntry E k entry ttl = .ok e) : e = givenEntry (k, entry, ttl) ∧ LiveEntry E k e ∧ (E.keys.durability k = none → ttl = none) ∧
      (entry = none → ttl = none) ∧ (entry.isSome = true → ttl.isSome = (E.keys.durability k).isSome) := by
  unfold initialEntry at h
  cases entry with
  | none =>
    simp only at h
    cases ttl with
    | none => cases h; exact ⟨rfl, fun _ _ _ h _ => (by cases h), fun _ => rfl, fun _ => rfl, fun h => (by cases h)⟩
    | some t => cases h
  | some v =>
    simp only at h
    cases ttl with
    | none =>
      cases hd : E.keys.durability k with
      | none =>
        rw [hd] at h; cases h
        refine ⟨rfl, fun v l d he hd' => ?_, fun _ => rfl, fun _ => rfl, fun _ => rfl⟩
        rw [hd] at hd'; cases hd'
      | some d => rw [hd] at h; cases h
    | some t =>
      cases hd : E.keys.durability k with
      | none => rw [hd] at h; cases h
      | some d =>
        rw [hd] at h
        simp only at h
        split at h
        · cases h
        · rename_i hl
          cases h
          refine ⟨rfl, fun v l d he hd' => ?_, fun h => (by cases h), fun h => (by cases h), fun _ => rfl⟩
          cases he
          exact ⟨_, rfl, Nat.le_of_not_lt hl⟩

theorem addEntries_ok {E : Env K V} {l : List (K × Option V × Option TtlMeta)} : ∀ {m m' : FMap K (Option (Entry V))} {sz sz' : List (Option Nat)},
    addEntries E l m sz = .ok (m', sz') →
      sz' = sz ++ l.map (fun x => x.2.2.map TtlMeta.sizeForRent) ∧
      (∀ x ∈ l, (x.2.1.isSome = true → x.2.2.isSome = (E.keys.durability x.1).isSome) ∧ (x.2.1 = none → x.2.2 = none) ∧
        (E.keys.durability x.1 = none → x.2.2 = none)) ∧
      (∀ k, m'.get k = if k ∈ l.map Prod.fst then some (l.foldl (fun (L : Ledger K V) x => L.set x.1 (givenEntry x)) (fun k => (m.get k).join) k) else m.get k) ∧
      ((∀ k e, m.get k = some e → LiveEntry E k e) → ∀ k e, m'.get k = some e → LiveEntry E k e) := by
  induction l with
  | nil => intro m m' sz sz' h; cases h; exact ⟨by simp, fun x hx => (by cases hx), fun k => rfl, fun h => h⟩
  | cons x xs ih =>
    intro m m' sz sz' h
    obtain ⟨k, entry, ttl⟩ := x
    unfold addEntries at h
    split at h
    · cases he : initialEntry E k entry ttl with
      | error e => rw [he] at h; cases h
      | ok e =>
        rw [he] at h
        obtain ⟨h1, h2, h3, h4⟩ := ih h
        obtain ⟨i1, i2, i3, i4, i5⟩ := initialEntry_ok he
        refine ⟨by rw [h1]; simp, ?_, ?_, ?_⟩
        · intro x hx
          rcases List.mem_cons.mp hx with rfl | hx
          · exact ⟨i5, i4, i3⟩
          · exact h2 x hx
        · intro k'
          rw [h3 k']
          have hfun : (fun k'' => ((FMap.insert m k e).get k'').join) = Ledger.set (fun k'' => (m.get k'').join) k (givenEntry (k, entry, ttl)) := by
            funext k''
            rw [FMap.get_insert]
            unfold Ledger.set
            split
            · rw [← i1]; rfl
            · rfl
          rw [hfun]
          by_cases hk : k' ∈ xs.map Prod.fst
          · rw [if_pos hk, if_pos (by simp only [List.map_cons, List.mem_cons]; exact Or.inr hk)]
            rfl
          · rw [if_neg hk, FMap.get_insert]
            by_cases hkk : k' = k
            · rw [if_pos hkk, if_pos (by simp [hkk])]
              congr 1
              have hun : ∀ (l : List (K × Option V × Option TtlMeta)) (L : Ledger K V), k' ∉ l.map Prod.fst →
                  l.foldl (fun (L : Ledger K V) x => L.set x.1 (givenEntry x)) L k' = L k' := by
                intro l
                induction l with
                | nil => intro L _; rfl
                | cons y ys ihy =>
                  intro L hn
                  simp only [List.map_cons, List.mem_cons, not_or] at hn
                  rw [List.foldl_cons, ihy _ hn.2]
                  unfold Ledger.set
                  rw [if_neg hn.1]
              rw [List.foldl_cons, hun xs _ hk]
              unfold Ledger.set
              rw [if_pos hkk, i1]
            · rw [if_neg hkk, if_neg]
              simp only [List.map_cons, List.mem_cons, not_or]
              exact ⟨hkk, hk⟩
        · intro hm
          refine h4 (fun k' e' hk' => ?_)
          rw [FMap.get_insert] at hk'
          split at hk'
          · rename_i heq; subst heq; cases hk'; exact i2
          · exact hm k' e' hk'
    · cases h

theorem restoredKeys_ok {rw : List K} {is : List Nat} : ∀ {ks : List K}, restoredKeys rw is = .ok ks →
    ∀ k, k ∈ ks ↔ ∃ i ∈ is, rw[i]? = some k := by
  induction is with
  | nil => intro ks h k; cases h; simp
  | cons i is ih =>
    intro ks h k
    unfold restoredKeys at h
    cases hi : rw[i]? with
    | none => rw [hi] at h; cases h
    | some k0 =>
      rw [hi] at h
      dsimp only at h
      cases hr : restoredKeys rw is with
      | error e => rw [hr] at h; cases h
      | ok r =>
        rw [hr] at h; cases h
        simp only [List.mem_cons, ih hr k, exists_eq_or_imp, hi, Option.some.injEq]
        constructor
        · rintro (rfl | h)
          · exact Or.inl rfl
          · exact Or.inr h
        · rintro (rfl | h)
          · exact Or.inl rfl
          · exact Or.inr h

/-- Whether a key counts as restored. -/
def inSet (s : Option (List K)) (k : K) : Prop := ∃ ks, s = some ks ∧ k ∈ ks

theorem buildRestoredKeySet_ok {fp : LedgerFootprint K} {is : List Nat} {s : Option (List K)} (h : buildRestoredKeySet fp is = .ok s) (k : K) :
    inSet s k ↔ IsRestored fp is k := by
  unfold buildRestoredKeySet at h
  split at h
  · rename_i he
    cases h
    cases is with
    | nil => constructor
             · rintro ⟨ks, h, _⟩; cases h
             · rintro ⟨i, hi, _⟩; cases hi
    | cons a b => cases he
  · cases hr : restoredKeys fp.readWrite is with
    | error e => rw [hr] at h; cases h
    | ok ks =>
      rw [hr] at h; cases h
      unfold inSet IsRestored
      rw [← restoredKeys_ok hr k]
      exact ⟨fun ⟨ks', h, hk⟩ => (by cases h; exact hk), fun h => ⟨ks, rfl, h⟩⟩

/-- What one key contributes. -/
theorem change_ok {E : Env K V} {P : Sizes K V} {init : FMap K (Option (Entry V))} {m : Nat} {restored : Option (List K)} {a : Access} {k : K}
    {entry : Option V} {ttl : Option TtlMeta} {new : Option (Entry V)} {c1 c2 : Change K V}
    {L L' : Ledger K V} (hL : ∃ e, init.get k = some e ∧ L k = e) (hL' : L' k = new)
    (hi : LiveEntry E k (L k)) (hf : LiveEntry E k new)
    (h1 : withOld E (initLiveUntil init) (ttl.map TtlMeta.sizeForRent) (emptyChange E P k) = .ok c1) (h2 : withNew new c1 = .ok c2) :
    ChangeOk E.keys P m (inSet restored) L L' ((a, k), (entry, ttl)) (withValue P restored m a new c2) := by
  obtain ⟨e0, hg, he0⟩ := hL
  -- the change with the old values
  have o : c1.key = k ∧ c1.readOnly = false ∧ c1.newValue = none ∧ c1.newSize = 0 ∧ c1.ttl.map LiveUntilChange.durability = E.keys.durability k ∧
      (∀ t, c1.ttl = some t → t.isCode = P.isCode k ∧ t.oldLiveUntil = liveOf (L k) ∧ c1.oldSize = (ttl.map TtlMeta.sizeForRent).getD 0 ∧ t.newLiveUntil = 0) := by
    unfold withOld at h1
    have hkey : (emptyChange E P k).key = k := rfl
    rw [hkey] at h1
    unfold initLiveUntil at h1
    rw [hg] at h1
    cases e0 with
    | none =>
      simp only at h1
      cases ttl with
      | none =>
        cases h1
        refine ⟨rfl, rfl, rfl, rfl, ?_, ?_⟩
        · simp only [emptyChange]; cases E.keys.durability k <;> rfl
        · intro t ht
          simp only [emptyChange] at ht
          cases hd : E.keys.durability k with
          | none => rw [hd] at ht; cases ht
          | some d => rw [hd] at ht; cases ht; rw [he0]; exact ⟨rfl, rfl, rfl, rfl⟩
      | some t => cases h1
    | some p =>
      obtain ⟨v, l⟩ := p
      simp only at h1
      split at h1
      · cases h1
      · rename_i hs
        cases hd : E.keys.durability k with
        | none =>
          have het : (emptyChange E P k).ttl = none := by simp [emptyChange, hd]
          rw [het] at h1
          cases h1
          refine ⟨rfl, rfl, rfl, rfl, by rw [het]; rfl, ?_⟩
          intro t ht
          rw [het] at ht; cases ht
        | some d =>
          have het : (emptyChange E P k).ttl = some { isCode := P.isCode k, durability := d, oldLiveUntil := 0, newLiveUntil := 0 } := by simp [emptyChange, hd]
          rw [het] at h1
          obtain ⟨l', hl', hseq⟩ := hi v l d he0 hd
          subst hl'
          cases ttl with
          | none => simp at hs
          | some t =>
            simp only [Option.map_some] at h1
            rw [if_neg (fun hc => Nat.not_lt.mpr hseq hc.2)] at h1
            cases h1
            refine ⟨rfl, rfl, rfl, rfl, rfl, ?_⟩
            intro t' ht'
            cases ht'
            rw [he0]; exact ⟨rfl, rfl, rfl, rfl⟩
  clear h1
  obtain ⟨o1, o2, o3, o4, o5, o6⟩ := o
  -- the change with the new lifetime
  have n : c2.key = k ∧ c2.readOnly = false ∧ c2.newValue = none ∧ c2.newSize = 0 ∧ c2.ttl.map LiveUntilChange.durability = E.keys.durability k ∧
      (∀ t, c2.ttl = some t → t.isCode = P.isCode k ∧ t.oldLiveUntil = liveOf (L k) ∧ c2.oldSize = (ttl.map TtlMeta.sizeForRent).getD 0 ∧
        t.newLiveUntil = if new.isSome then max (liveOf new) (liveOf (L k)) else 0) := by
    unfold withNew at h2
    cases new with
    | none =>
      cases h2
      refine ⟨o1, o2, o3, o4, o5, fun t ht => ?_⟩
      obtain ⟨p1, p2, p3, p4⟩ := o6 t ht
      exact ⟨p1, p2, p3, p4⟩
    | some p =>
      obtain ⟨v, l⟩ := p
      simp only at h2
      cases ht : c1.ttl with
      | none =>
        rw [ht] at h2; cases h2
        refine ⟨o1, o2, o3, o4, o5, fun t ht' => ?_⟩
        rw [ht] at ht'; cases ht'
      | some t =>
        rw [ht] at h2
        cases l with
        | none => cases h2
        | some l =>
          cases h2
          obtain ⟨p1, p2, p3, p4⟩ := o6 t ht
          refine ⟨o1, o2, o3, o4, ?_, fun t' ht' => ?_⟩
          · rw [ht] at o5; exact o5
          · cases ht'
            refine ⟨p1, p2, p3, ?_⟩
            show max l t.oldLiveUntil = _
            rw [p2]; rfl
  clear o1 o2 o3 o4 o5 o6 h2
  obtain ⟨n1, n2, n3, n4, n5, n6⟩ := n
  -- the value
  cases a with
  | readOnly =>
    simp only [withValue]
    refine ⟨n1, by simp, by simpa using n3, fun v hv => ?_, n5, fun t ht => (n6 t ht).1, fun t ht _ => ⟨(n6 t ht).2.1, (n6 t ht).2.2.1⟩,
      fun t ht h => (by cases h), fun t ht hs _ => ?_, fun t ht hs h => (by cases h), fun t ht hs => ?_⟩
    · rw [show c2.newValue = some v from hv] at n3; cases n3
    · have := (n6 t ht).2.2.2
      simp only [hL'] at hs ⊢
      rw [if_pos hs] at this; exact this
    · have := (n6 t ht).2.2.2
      simp only [hL'] at hs
      subst hs
      exact this
  | readWrite =>
    cases new with
    | none =>
      simp only [withValue]
      refine ⟨n1, by simp [n2], by simp [n3, hL', valueOf], fun v hv => ?_, n5, fun t ht => (n6 t ht).1, fun t ht _ => ⟨(n6 t ht).2.1, (n6 t ht).2.2.1⟩,
        fun t ht _ _ hs => ?_, fun t ht hs _ => ?_, fun t ht hs => ?_, fun t ht hs => ?_⟩
      · rw [n3] at hv; cases hv
      · simp only [hL'] at hs; cases hs
      · simp only [hL'] at hs; cases hs
      · simp only [hL'] at hs; cases hs
      · exact (n6 t ht).2.2.2
    | some p =>
      obtain ⟨v, l⟩ := p
      simp only [withValue]
      by_cases hin : inSet restored k
      · obtain ⟨ks, hks, hk⟩ := hin
        have hin : inSet restored k := ⟨ks, hks, hk⟩
        have hw : withRestored restored m { c2 with newSize := P.sizeForRent v, newValue := some v } =
            { c2 with
              newSize := P.sizeForRent v, newValue := some v, oldSize := 0
              ttl := c2.ttl.map (fun t => { t with oldLiveUntil := 0, newLiveUntil := max t.newLiveUntil m }) } := by
          unfold withRestored
          rw [hks]
          simp only
          rw [if_pos (by rw [n1]; exact hk)]
        rw [hw]
        have htt : ∀ t, c2.ttl.map (fun t => { t with oldLiveUntil := 0, newLiveUntil := max t.newLiveUntil m : LiveUntilChange }) = some t →
            ∃ t0, c2.ttl = some t0 ∧ t = { t0 with oldLiveUntil := 0, newLiveUntil := max t0.newLiveUntil m } := by
          intro t ht
          cases h : c2.ttl with
          | none => rw [h] at ht; cases ht
          | some t0 => rw [h] at ht; cases ht; exact ⟨t0, rfl, rfl⟩
        refine ⟨n1, by simp [n2], by simp [hL', valueOf], fun v' hv => (by cases hv; rfl), ?_, fun t ht => ?_, fun t ht hn => ?_, fun t ht _ _ _ => ?_,
          fun t ht hs hn => ?_, fun t ht hs _ _ => ?_, fun t ht hs => ?_⟩
        · rw [← n5]; cases c2.ttl <;> rfl
        · obtain ⟨t0, h0, rfl⟩ := htt t ht
          exact (n6 t0 h0).1
        · exact absurd ⟨rfl, hin, by simp only [hL']; rfl⟩ hn
        · obtain ⟨t0, h0, rfl⟩ := htt t ht
          exact ⟨rfl, rfl⟩
        · exact absurd ⟨rfl, hin⟩ hn
        · obtain ⟨t0, h0, rfl⟩ := htt t ht
          show max t0.newLiveUntil m = _
          rw [(n6 t0 h0).2.2.2]
          simp only [hL', Option.isSome_some, if_true]
        · simp only [hL'] at hs; cases hs
      · have hw : withRestored restored m { c2 with newSize := P.sizeForRent v, newValue := some v } =
            { c2 with newSize := P.sizeForRent v, newValue := some v } := by
          unfold withRestored
          cases hr : restored with
          | none => rfl
          | some ks =>
            simp only
            rw [if_neg]
            intro hk
            rw [n1] at hk
            exact hin ⟨ks, hr, hk⟩
        rw [hw]
        refine ⟨n1, by simp [n2], by simp [hL', valueOf], fun v' hv => (by cases hv; rfl), n5, fun t ht => (n6 t ht).1,
          fun t ht _ => ⟨(n6 t ht).2.1, (n6 t ht).2.2.1⟩, fun t ht _ h => absurd h hin,
          fun t ht hs hn => ?_, fun t ht hs _ h => absurd h hin, fun t ht hs => ?_⟩
        · have := (n6 t ht).2.2.2
          simp only [hL']
          exact this
        · simp only [hL'] at hs; cases hs

theorem ledgerChanges_ok {E : Env K V} {P : Sizes K V} {final init : FMap K (Option (Entry V))} {m : Nat} {restored : Option (List K)}
    {L L' : Ledger K V} {l : List ((Access × K) × (Option V × Option TtlMeta))}
    (hL : ∀ x ∈ l, ∃ e, init.get x.1.2 = some e ∧ L x.1.2 = e) (hL' : ∀ x ∈ l, final.get x.1.2 = some (L' x.1.2))
    (hi : ∀ x ∈ l, LiveEntry E x.1.2 (L x.1.2)) (hf : ∀ x ∈ l, LiveEntry E x.1.2 (L' x.1.2)) :
    ∀ {cs : List (Change K V)}, ledgerChanges E P final (initLiveUntil init) m restored (l.map (fun x => (x.1, x.2.2.map TtlMeta.sizeForRent))) = .ok cs →
      List.Forall₂ (ChangeOk E.keys P m (inSet restored) L L') l cs := by
  induction l with
  | nil => intro cs h; cases h; exact .nil
  | cons x xs ih =>
    intro cs h
    obtain ⟨⟨a, k⟩, entry, ttl⟩ := x
    simp only [List.map_cons, ledgerChanges] at h
    rw [hL' _ (List.mem_cons_self ..)] at h
    dsimp only at h
    cases h1 : withOld E (initLiveUntil init) (ttl.map TtlMeta.sizeForRent) (emptyChange E P k) with
    | error e => rw [h1] at h; cases h
    | ok c1 =>
      rw [h1] at h
      cases h2 : withNew (L' k) c1 with
      | error e => simp only [h2, bind, Except.bind] at h; cases h
      | ok c2 =>
        cases hr : ledgerChanges E P final (initLiveUntil init) m restored (xs.map (fun x => (x.1, x.2.2.map TtlMeta.sizeForRent))) with
        | error e => simp only [h2, hr, bind, Except.bind] at h; cases h
        | ok r =>
          simp only [h2, hr, bind, Except.bind, pure, Except.pure, Except.ok.injEq] at h
          subst h
          refine .cons ?_ (ih (fun x hx => hL x (List.mem_cons_of_mem _ hx)) (fun x hx => hL' x (List.mem_cons_of_mem _ hx))
            (fun x hx => hi x (List.mem_cons_of_mem _ hx)) (fun x hx => hf x (List.mem_cons_of_mem _ hx)) hr)
          exact change_ok (hL _ (List.mem_cons_self ..)) rfl (hi _ (List.mem_cons_self ..)) (hf _ (List.mem_cons_self ..)) h1 h2

/-- The declared accesses. -/
def accesses (fp : LedgerFootprint K) : List (Access × K) :=
  fp.readOnly.map (fun k => (Access.readOnly, k)) ++ fp.readWrite.map (fun k => (Access.readWrite, k))

theorem accesses_keys (fp : LedgerFootprint K) : (accesses fp).map Prod.snd = fp.readOnly ++ fp.readWrite := by
  simp [accesses, Function.comp_def]

theorem items_keys (fp : LedgerFootprint K) (entries : List (Option V × Option TtlMeta)) :
    (fp.readOnly ++ fp.readWrite).zip entries = (items fp entries).map (fun x => (x.1.2, x.2)) := by
  rw [← accesses_keys, List.zip_map_left]
  rfl

theorem items_fst {fp : LedgerFootprint K} {entries : List (Option V × Option TtlMeta)}
    (h : fp.readOnly.length + fp.readWrite.length = entries.length) : (items fp entries).map Prod.fst = accesses fp := by
  unfold items
  rw [List.map_fst_zip]
  · rfl
  · simp [h]

theorem items_snd {fp : LedgerFootprint K} {entries : List (Option V × Option TtlMeta)}
    (h : fp.readOnly.length + fp.readWrite.length = entries.length) : (items fp entries).map Prod.snd = entries := by
  unfold items
  rw [List.map_snd_zip]
  simp [h]

theorem mem_items {fp : LedgerFootprint K} {entries : List (Option V × Option TtlMeta)} {x : (Access × K) × (Option V × Option TtlMeta)}
    (h : x ∈ items fp entries) : x.1 ∈ accesses fp := by
  unfold items at h
  exact (List.of_mem_zip (a := x.1) (b := x.2) h).1

theorem mem_accesses {fp : LedgerFootprint K} {a : Access} {k : K} :
    (a, k) ∈ accesses fp ↔ (a = .readOnly ∧ k ∈ fp.readOnly) ∨ (a = .readWrite ∧ k ∈ fp.readWrite) := by
  unfold accesses
  simp only [List.mem_append, List.mem_map, Prod.mk.injEq]
  constructor
  · rintro (⟨k', h, rfl, rfl⟩ | ⟨k', h, rfl, rfl⟩)
    · exact Or.inl ⟨rfl, h⟩
    · exact Or.inr ⟨rfl, h⟩
  · rintro (⟨rfl, h⟩ | ⟨rfl, h⟩)
    · exact Or.inl ⟨k, h, rfl, rfl⟩
    · exact Or.inr ⟨k, h, rfl, rfl⟩

/-- The storage map built from the inputs. -/
structure MapBuilt (E : Env K V) (fp : LedgerFootprint K) (entries : List (Option V × Option TtlMeta)) (map : FMap K (Option (Entry V)))
    (sizes : List (Option Nat)) : Prop where
  len : fp.readOnly.length + fp.readWrite.length = entries.length
  sizes : sizes = entries.map (fun x => x.2.map TtlMeta.sizeForRent)
  get : ∀ k, map.get k = if k ∈ fp.readOnly ++ fp.readWrite then some (givenLedger fp entries k) else none
  live : ∀ k e, map.get k = some e → LiveEntry E k e

theorem buildStorageMap_ok {E : Env K V} {fp : LedgerFootprint K} {entries : List (Option V × Option TtlMeta)} {map : FMap K (Option (Entry V))}
    {sizes : List (Option Nat)} (h : buildStorageMap E fp entries = .ok (map, sizes)) : MapBuilt E fp entries map sizes := by
  unfold buildStorageMap at h
  split at h
  · cases h
  · rename_i hlen
    have hlen := Classical.not_not.mp hlen
    obtain ⟨h1, _, h3, h4⟩ := addEntries_ok h
    have hk : ((fp.readOnly ++ fp.readWrite).zip entries).map Prod.fst = fp.readOnly ++ fp.readWrite := by
      rw [List.map_fst_zip]; simp [hlen]
    refine ⟨hlen, ?_, fun k => ?_, h4 (fun k e he => (by cases he))⟩
    · rw [h1, List.nil_append]
      have : entries.map (fun x => x.2.map TtlMeta.sizeForRent) =
          (((fp.readOnly ++ fp.readWrite).zip entries).map Prod.snd).map (fun x => x.2.map TtlMeta.sizeForRent) := by
        rw [List.map_snd_zip]; simp [hlen]
      rw [this, List.map_map]; rfl
    · rw [h3 k, hk]
      congr 2
      unfold givenLedger
      rw [items_keys, List.foldl_map]
      rfl

theorem givenLedger_none {fp : LedgerFootprint K} {entries : List (Option V × Option TtlMeta)} {k : K} (h : k ∉ fp.readOnly ++ fp.readWrite) :
    givenLedger fp entries k = none := by
  unfold givenLedger
  have hun : ∀ (l : List ((Access × K) × (Option V × Option TtlMeta))) (L : Ledger K V), (∀ x ∈ l, x.1.2 ≠ k) →
      l.foldl (fun L x => L.set x.1.2 (x.2.1.map (fun v => (v, x.2.2.map TtlMeta.liveUntil)))) L k = L k := by
    intro l
    induction l with
    | nil => intro L _; rfl
    | cons y ys ih =>
      intro L hn
      rw [List.foldl_cons, ih _ (fun x hx => hn x (List.mem_cons_of_mem _ hx))]
      unfold Ledger.set
      rw [if_neg (fun hc => hn y (List.mem_cons_self ..) hc.symm)]
  apply hun
  intro x hx hc
  apply h
  have := mem_items hx
  rw [← accesses_keys]
  exact List.mem_map.mpr ⟨x.1, this, hc⟩

end

open Soroban.Host Soroban.Auth Soroban.Host.Spec
variable {X : Type}

/-- What is set up for an invocation. -/
structure SetUp (E : HEnv) (I : Input X) (st : Store LKey LVal) (sizes : List (Option Nat)) (restored : Option (List LKey)) (m : Nat) : Prop where
  mode : st.mode = .enforcing
  fp : ∀ k, st.footprint.get k = if k ∈ I.footprint.readOnly then some .readOnly else if k ∈ I.footprint.readWrite then some .readWrite else none
  map : MapBuilt E.sto I.footprint I.entries st.map sizes
  restored : ∀ k, inSet restored k ↔ IsRestored I.footprint I.restored k
  min : E.sto.li.minLiveUntil .persistent = some m

theorem setup_ok {E : HEnv} {I : Input X} {st : Store LKey LVal} {sizes : List (Option Nat)} {restored : Option (List LKey)} {m : Nat}
    (h : setup E I = .ok (st, sizes, restored, m)) : SetUp E I st sizes restored m := by
  unfold setup at h
  cases h1 : buildRestoredKeySet I.footprint I.restored with
  | error e => rw [h1] at h; cases h
  | ok r =>
    cases h2 : buildFootprint E.sto.keys I.footprint with
    | error e => simp only [h1, h2, bind, Except.bind] at h; cases h
    | ok fp =>
      cases h3 : E.sto.li.minLiveUntil .persistent with
      | none => simp only [h1, h2, h3, bind, Except.bind] at h; cases h
      | some m' =>
        cases h4 : buildStorageMap E.sto I.footprint I.entries with
        | error e => simp only [h1, h2, h3, h4, bind, Except.bind] at h; cases h
        | ok p =>
          obtain ⟨map, sz⟩ := p
          simp only [h1, h2, h3, h4, bind, Except.bind, pure, Except.pure, Except.ok.injEq, Prod.mk.injEq] at h
          obtain ⟨rfl, rfl, rfl, rfl⟩ := h
          exact ⟨rfl, buildFootprint_ok h2, buildStorageMap_ok h4, buildRestoredKeySet_ok h1, h3⟩

theorem SetUp.start {E : HEnv} {I : Input X} {st : Store LKey LVal} {sizes : List (Option Nat)} {restored : Option (List LKey)} {m : Nat}
    (h : SetUp E I st sizes restored m) (hi : InputOk E I) : TxStart E st I.auth := by
  refine ⟨hi.keys, ⟨Storage.Spec.enforcing st.footprint st.map, .enforcing ⟨fun k hk => ?_, h.map.live⟩, ?_⟩, hi.auth⟩
  · rw [h.map.get]
    rw [h.fp] at hk
    by_cases h1 : k ∈ I.footprint.readOnly
    · simp [h1]
    · by_cases h2 : k ∈ I.footprint.readWrite
      · simp [h2]
      · simp [h1, h2] at hk
  · have := h.mode
    obtain ⟨a, b, c⟩ := st
    simp only at this
    subst this
    rfl

theorem SetUp.ledger {E : HEnv} {I : Input X} {st : Store LKey LVal} {sizes : List (Option Nat)} {restored : Option (List LKey)} {m : Nat}
    (h : SetUp E I st sizes restored m) : Host.ledger E st = givenLedger I.footprint I.entries := by
  funext k
  unfold Host.ledger absMap
  rw [h.map.get, h.mode]
  by_cases hk : k ∈ I.footprint.readOnly ++ I.footprint.readWrite
  · simp [hk]
  · simp only [if_neg hk]; rw [givenLedger_none hk]

theorem getLedgerChanges_ok {E : HEnv} {I : Input X} {st st' : Store LKey LVal} {sizes : List (Option Nat)} {restored : Option (List LKey)} {m : Nat}
    (h : SetUp E I st sizes restored m) (hs : SLe E st st') {cs : List (Change LKey LVal)}
    (hc : getLedgerChanges E.sto I.sizes st'.map (initLiveUntil st.map) I.footprint sizes m restored = .ok cs) :
    List.Forall₂ (ChangeOk E.sto.keys I.sizes m (IsRestored I.footprint I.restored) (givenLedger I.footprint I.entries) (Host.ledger E st'))
      (items I.footprint I.entries) cs := by
  have hres : inSet restored = IsRestored I.footprint I.restored := by funext k; exact propext (h.restored k)
  rw [← hres]
  unfold getLedgerChanges at hc
  split at hc
  · cases hc
  · have hz : ((I.footprint.readOnly.map (fun k => (Access.readOnly, k)) ++ I.footprint.readWrite.map (fun k => (Access.readWrite, k))).zip sizes) =
        (items I.footprint I.entries).map (fun x => (x.1, x.2.2.map TtlMeta.sizeForRent)) := by
      rw [h.map.sizes, List.zip_map_right]
      rfl
    rw [hz] at hc
    have hmem : ∀ x ∈ items I.footprint I.entries, x.1.2 ∈ I.footprint.readOnly ++ I.footprint.readWrite := by
      intro x hx
      rw [← accesses_keys]
      exact List.mem_map.mpr ⟨x.1, mem_items hx, rfl⟩
    have hget : ∀ x ∈ items I.footprint I.entries, st.map.get x.1.2 = some (givenLedger I.footprint I.entries x.1.2) := by
      intro x hx
      rw [h.map.get, if_pos (hmem x hx)]
    have hfin : ∀ x ∈ items I.footprint I.entries, st'.map.get x.1.2 = some (Host.ledger E st' x.1.2) := by
      intro x hx
      have hm' : st'.mode = .enforcing := by rw [hs.mode]; exact h.mode
      have hcov : (st'.map.get x.1.2).isSome := by
        refine hs.ok.map.cover hm' x.1.2 ?_
        rw [hs.fpE h.mode]
        show (st.footprint.get x.1.2).isSome = true
        rw [h.fp]
        have := hmem x hx
        by_cases h1 : x.1.2 ∈ I.footprint.readOnly
        · simp [h1]
        · by_cases h2 : x.1.2 ∈ I.footprint.readWrite
          · simp [h1, h2]
          · simp [h1, h2] at this
      obtain ⟨e, he⟩ := Option.isSome_iff_exists.mp hcov
      rw [he]
      unfold Host.ledger absMap
      rw [he]
    exact ledgerChanges_ok (fun x hx => ⟨_, hget x hx, rfl⟩) hfin (fun x hx => h.map.live _ _ (hget x hx))
      (fun x hx => hs.ok.map.live _ _ (hfin x hx)) hc

end Soroban.E2e
