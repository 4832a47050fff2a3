import Verif.Spec.Storage
/-! The storage code refines the ledger specification. -/
namespace Soroban.Storage
open Soroban Soroban.Storage.Spec
variable {K V : Type} [DecidableEq K]

theorem enforceAccess_eq (fp : FMap K Access) (k : K) (ty : Access) :
    enforceAccess fp k ty = if allows fp k ty then .ok () else .error (.host .storage .exceededLimit) := by
  unfold enforceAccess allows
  cases h : fp.get k with
  | none => cases ty <;> simp
  | some a => cases a <;> cases ty <;> simp

theorem allows_recordAccess (fp : FMap K Access) (k k' : K) (a b : Access) :
    allows (recordAccess fp k a) k' b = (allows fp k' b || (decide (k' = k) && (a == .readWrite || b == .readOnly))) := by
  unfold recordAccess
  by_cases hk : k' = k
  · subst hk
    cases h : fp.get k' with
    | none =>
      cases a <;> cases b <;> simp [allows, FMap.get_insert_self, h]
    | some c =>
      cases c <;> cases a <;> cases b <;> simp [allows, FMap.get_insert_self, h]
  · have key : ∀ v, allows (fp.insert k v) k' b = allows fp k' b := by
      intro v; cases b <;> simp [allows, FMap.get_insert_ne fp v hk]
    simp only [hk, decide_false, Bool.false_and, Bool.or_false]
    cases h : fp.get k with
    | none => exact key _
    | some c => cases c <;> cases a <;> (first | rfl | exact key _)

/-- One footprint allows all that another does. -/
def FpLe (f g : FMap K Access) : Prop := ∀ k a, allows f k a = true → allows g k a = true

theorem FpLe.refl (f : FMap K Access) : FpLe f f := fun _ _ h => h
theorem FpLe.trans {f g h : FMap K Access} (a : FpLe f g) (b : FpLe g h) : FpLe f h := fun k x hx => b k x (a k x hx)

theorem FpLe.record (f : FMap K Access) (k : K) (a : Access) : FpLe f (recordAccess f k a) := by
  intro k' b h; rw [allows_recordAccess, h]; rfl

theorem allows_record_self (f : FMap K Access) (k : K) (a : Access) : allows (recordAccess f k a) k a = true := by
  rw [allows_recordAccess]; cases a <;> simp

theorem allows_rw_ro {f : FMap K Access} {k : K} (h : allows f k .readWrite = true) : allows f k .readOnly = true := by
  simp only [allows, beq_iff_eq] at h ⊢; rw [h]; rfl

/-- The permissions of a storage: everything when recording. -/
def permOf (mode : Mode K V) (fp : FMap K Access) : K → Access → Bool := match mode with
  | .recording _ => fun _ _ => true
  | .enforcing => allows fp

/-- What holds of a storage map at all times. -/
structure MapOk (E : Env K V) (mode : Mode K V) (fp : FMap K Access) (map : FMap K (Option (Entry V))) : Prop where
  live : ∀ k e, map.get k = some e → LiveEntry E k e
  cover : mode = .enforcing → ∀ k, allows fp k .readOnly = true → (map.get k).isSome

/-- What is assumed of the snapshot. -/
def ModeOk (E : Env K V) : Mode K V → Prop
  | .recording src => SnapshotOk E src ∧ E.feature = true
  | .enforcing => True

theorem MapOk.mono {E : Env K V} {mode : Mode K V} {fp fp' : FMap K Access} {map : FMap K (Option (Entry V))}
    (h : MapOk E mode fp map) (hfp : mode = .enforcing → fp' = fp) : MapOk E mode fp' map :=
  ⟨h.live, fun he k hk => h.cover he k (by rw [hfp he] at hk; exact hk)⟩

theorem MapOk.insert {E : Env K V} {mode : Mode K V} {fp : FMap K Access} {map : FMap K (Option (Entry V))}
    (h : MapOk E mode fp map) {k : K} {e : Option (Entry V)} (he : LiveEntry E k e) : MapOk E mode fp (map.insert k e) := by
  constructor
  · intro k' e' hk
    rw [FMap.get_insert] at hk
    split at hk
    · rename_i heq; subst heq; cases hk; exact he
    · exact h.live k' e' hk
  · intro hm k' hk
    rw [FMap.get_insert]
    split
    · rfl
    · exact h.cover hm k' hk

theorem absMap_insert (E : Env K V) (mode : Mode K V) (map : FMap K (Option (Entry V))) (k : K) (e : Option (Entry V)) :
    absMap E mode (map.insert k e) = (absMap E mode map).set k e := by
  funext k'
  simp only [absMap, Ledger.set, FMap.get_insert]
  by_cases h : k' = k
  · simp [h]
  · simp [h]

theorem absMap_get {E : Env K V} {mode : Mode K V} {map : FMap K (Option (Entry V))} {k : K} {e : Option (Entry V)}
    (h : map.get k = some e) : absMap E mode map k = e := by
  unfold absMap; rw [h]

theorem ledger_set_same (L : Ledger K V) (k : K) : L.set k (L k) = L := by
  funext k'; unfold Ledger.set; split
  · rename_i h; rw [h]
  · rfl

/-- `s'` is `s` after some bookkeeping: the same ledger, a footprint that allows more (only when recording). -/
structure Same (E : Env K V) (s s' : Store K V) : Prop where
  mode : s'.mode = s.mode
  abs : absMap E s'.mode s'.map = absMap E s.mode s.map
  ok : MapOk E s'.mode s'.footprint s'.map
  fp : FpLe s.footprint s'.footprint
  fpE : s.mode = .enforcing → s'.footprint = s.footprint

theorem Same.refl {E : Env K V} {s : Store K V} (h : MapOk E s.mode s.footprint s.map) : Same E s s :=
  ⟨rfl, rfl, h, FpLe.refl _, fun _ => rfl⟩

theorem Same.trans {E : Env K V} {a b c : Store K V} (h1 : Same E a b) (h2 : Same E b c) : Same E a c :=
  ⟨h2.mode.trans h1.mode, h2.abs.trans h1.abs, h2.ok, h1.fp.trans h2.fp,
    fun h => (h2.fpE (by rw [h1.mode]; exact h)).trans (h1.fpE h)⟩

theorem handle_live {E : Env K V} {s : Store K V} {k : K} (h : ∀ e, s.map.get k = some e → LiveEntry E k e) :
    handleMaybeExpired E s k = (s, .ok ()) := by
  unfold handleMaybeExpired
  cases hg : s.map.get k with
  | none => rfl
  | some e =>
    cases e with
    | none => rfl
    | some p =>
      obtain ⟨v, l⟩ := p
      simp only
      cases hd : E.keys.durability k with
      | none => rfl
      | some d =>
        obtain ⟨l', hl, hle⟩ := h _ hg v l d rfl hd
        subst hl
        simp only
        rw [if_neg (by omega)]

theorem minLiveUntil_ge {li : LedgerInfo} {d : Durability} {m : Nat} (h : li.minLiveUntil d = some m) : li.seq ≤ m := by
  unfold LedgerInfo.minLiveUntil at h
  generalize (match d with | .temporary => li.minTemp | .persistent => li.minPersistent) - 1 = x at h
  unfold checkedAddU32 at h
  split at h
  · cases h; omega
  · cases h

theorem view_live {E : Env K V} {src : K → Option (Entry V)} (h : SnapshotOk E src) (k : K) :
    LiveEntry E k (view E k (src k)) := by
  intro v l d he hd
  unfold view at he
  rw [hd] at he
  cases hs : src k with
  | none => rw [hs] at he; cases he
  | some p =>
    obtain ⟨v', l'⟩ := p
    rw [hs] at he
    cases l' with
    | none => exact absurd hd (h.1 k v' d hs)
    | some l' =>
      simp only at he
      split at he
      · rename_i hle
        cases he; exact ⟨l', rfl, hle⟩
      · cases d with
        | temporary => cases he
        | persistent =>
          simp only at he
          obtain ⟨m, hm⟩ := Option.isSome_iff_exists.mp h.2
          rw [hm] at he
          cases he
          exact ⟨m, rfl, minLiveUntil_ge hm⟩

/-- Loading a key from the snapshot. -/
theorem handle_load {E : Env K V} {s : Store K V} {src : K → Option (Entry V)} (hs : SnapshotOk E src)
    {k : K} (hk : s.map.get k = some (src k)) :
    ∃ s', handleMaybeExpired E s k = (s', .ok ()) ∧ s'.mode = s.mode ∧ FpLe s.footprint s'.footprint ∧
      s'.map.get k = some (view E k (src k)) ∧ ∀ k', k' ≠ k → s'.map.get k' = s.map.get k' := by
  unfold handleMaybeExpired
  rw [hk]
  unfold view
  cases h : src k with
  | none => exact ⟨s, rfl, rfl, FpLe.refl _, by rw [hk, h], fun _ _ => rfl⟩
  | some p =>
    obtain ⟨v, l⟩ := p
    simp only
    cases hd : E.keys.durability k with
    | none => exact ⟨s, rfl, rfl, FpLe.refl _, by rw [hk, h], fun _ _ => rfl⟩
    | some d =>
      cases l with
      | none => exact absurd hd (hs.1 k v d h)
      | some l =>
        simp only
        by_cases hl : l < E.li.seq
        · rw [if_pos hl, if_neg (by omega)]
          cases d with
          | temporary =>
            exact ⟨_, rfl, rfl, FpLe.refl _, FMap.get_insert_self _ _ _, fun k' hk' => FMap.get_insert_ne _ _ hk'⟩
          | persistent =>
            simp only
            obtain ⟨m, hm'⟩ := Option.isSome_iff_exists.mp hs.2
            rw [hm']
            exact ⟨_, rfl, rfl, FpLe.record _ _ _, FMap.get_insert_self _ _ _, fun k' hk' => FMap.get_insert_ne _ _ hk'⟩
        · rw [if_neg hl, if_pos (by omega)]
          exact ⟨s, rfl, rfl, FpLe.refl _, by rw [hk, h], fun _ _ => rfl⟩

theorem prepareReadOnly_spec {E : Env K V} {s : Store K V} (hm : ModeOk E s.mode)
    (ho : MapOk E s.mode s.footprint s.map) (k : K) :
    ∃ s', Same E s s' ∧ prepareReadOnly E s k = (s', if permOf s.mode s.footprint k .readOnly then .ok ()
        else .error (.host .storage .exceededLimit)) ∧
      (permOf s.mode s.footprint k .readOnly = true → s'.map.get k = some (absMap E s.mode s.map k) ∧
        allows s'.footprint k .readOnly = true) := by
  unfold prepareReadOnly
  cases hmode : s.mode with
  | enforcing =>
    simp only [permOf]
    refine ⟨s, Same.refl ho, by rw [enforceAccess_eq]; rfl, ?_⟩
    intro h
    have := ho.cover hmode k h
    obtain ⟨e, he⟩ := Option.isSome_iff_exists.mp this
    exact ⟨by rw [he, absMap_get he], h⟩
  | recording src =>
    rw [hmode] at hm
    simp only [permOf, if_true]
    generalize hs1 : s.record k .readOnly = s1
    have hs1m : s1.map = s.map := by rw [← hs1]; rfl
    have hs1f : s1.footprint = recordAccess s.footprint k .readOnly := by rw [← hs1]; rfl
    have hs1mo : s1.mode = s.mode := by rw [← hs1]; rfl
    by_cases hc : s1.map.contains k = true
    · rw [show s1.load src k = s1 from if_pos hc]
      generalize hs2 : s1.record k .readOnly = s2
      have hs2m : s2.map = s.map := by rw [← hs2, ← hs1m]; rfl
      have hs2f : s2.footprint = recordAccess s1.footprint k .readOnly := by rw [← hs2]; rfl
      have hs2mo : s2.mode = s.mode := by rw [← hs2, ← hs1mo]; rfl
      have hok : MapOk E s2.mode s2.footprint s2.map := by
        rw [hs2m, hs2mo]; exact ho.mono (by rw [hmode]; intro h; cases h)
      refine ⟨s2, ⟨hs2mo, by rw [hs2mo, hs2m], hok, ?_, ?_⟩, handle_live (hok.live k), ?_⟩
      · rw [hs2f, hs1f]; exact (FpLe.record _ _ _).trans (FpLe.record _ _ _)
      · rw [hmode]; intro h; cases h
      · intro _
        refine ⟨?_, by rw [hs2f]; exact allows_record_self _ _ _⟩
        rw [hs1m] at hc
        obtain ⟨e, he⟩ := Option.isSome_iff_exists.mp hc
        rw [hs2m, he, absMap_get he]
    · rw [show s1.load src k = { s1 with map := s1.map.insert k (src k) } from if_neg hc]
      generalize hs2 : ({ s1 with map := s1.map.insert k (src k) } : Store K V) = s2
      generalize hs3 : s2.record k .readOnly = s3
      have hs3mo : s3.mode = .recording src := by rw [← hs3, ← hs2, ← hmode, ← hs1mo]; rfl
      have hs3m : s3.map = s.map.insert k (src k) := by rw [← hs3, ← hs2, ← hs1m]; rfl
      have hs3f : s3.footprint = recordAccess s1.footprint k .readOnly := by rw [← hs3, ← hs2]; rfl
      obtain ⟨s', h1, h2, h3, h4, h5⟩ := handle_load hm.1 (s := s3) (k := k)
        (by rw [hs3m]; exact FMap.get_insert_self _ _ _)
      have hcn : s.map.get k = none := by
        rw [hs1m] at hc
        cases hg : s.map.get k with
        | none => rfl
        | some x => exact absurd (show FMap.contains s.map k = true from by unfold FMap.contains; rw [hg]; rfl) hc
      have habs : absMap E s.mode s.map k = view E k (src k) := by
        unfold absMap; rw [hcn, hmode]
      have hmo : s'.mode = s.mode := by rw [h2, hs3mo, hmode]
      have hother : ∀ k', k' ≠ k → s'.map.get k' = s.map.get k' := by
        intro k' hk'; rw [h5 k' hk', hs3m, FMap.get_insert_ne _ _ hk']
      refine ⟨s', ⟨hmo, ?_, ⟨?_, ?_⟩, ?_, ?_⟩, h1, ?_⟩
      · funext k'
        by_cases hk' : k' = k
        · subst hk'; rw [absMap_get h4, habs]
        · unfold absMap; rw [hother k' hk', hmo]
      · intro k' e he
        by_cases hk' : k' = k
        · subst hk'; rw [h4] at he; cases he; exact view_live hm.1 _
        · rw [hother k' hk'] at he; exact ho.live k' e he
      · rw [hmo, hmode]; intro h; cases h
      · refine FpLe.trans ?_ h3
        rw [hs3f, hs1f]; exact (FpLe.record _ _ _).trans (FpLe.record _ _ _)
      · rw [hmode]; intro h; cases h
      · intro _
        rw [← hmode, habs]
        refine ⟨h4, h3 _ _ ?_⟩
        rw [hs3f]; exact allows_record_self _ _ _

/-- What a specification-level access needs of a footprint. -/
theorem tryGet_spec {E : Env K V} {s : Store K V} (hm : ModeOk E s.mode) (ho : MapOk E s.mode s.footprint s.map) (k : K) :
    ∃ s', Same E s s' ∧
      tryGet E s k = (s', readAt E (permOf s.mode s.footprint) (absMap E s.mode s.map) k) ∧
      (E.keys.supported k = true → permOf s.mode s.footprint k .readOnly = true →
        s'.map.get k = some (absMap E s.mode s.map k) ∧ allows s'.footprint k .readOnly = true) := by
  unfold tryGet readAt
  by_cases hk : E.keys.supported k = true
  · rw [if_pos hk, if_pos hk]
    obtain ⟨s', h1, h2, h3⟩ := prepareReadOnly_spec hm ho k
    rw [h2]
    by_cases hp : permOf s.mode s.footprint k .readOnly = true
    · rw [if_pos hp, if_pos hp]
      simp only
      rw [(h3 hp).1]
      exact ⟨s', h1, rfl, fun _ h => h3 h⟩
    · rw [if_neg hp, if_neg hp]
      exact ⟨s', h1, rfl, fun _ h => absurd h hp⟩
  · rw [if_neg hk, if_neg hk]
    exact ⟨s, Same.refl ho, rfl, fun h => absurd h hk⟩

theorem getEntry_spec {E : Env K V} {s : Store K V} (hm : ModeOk E s.mode) (ho : MapOk E s.mode s.footprint s.map) (k : K) :
    ∃ s', Same E s s' ∧
      getEntry E s k = (s', getAt E (permOf s.mode s.footprint) (absMap E s.mode s.map) k) ∧
      (E.keys.supported k = true → permOf s.mode s.footprint k .readOnly = true →
        s'.map.get k = some (absMap E s.mode s.map k) ∧ allows s'.footprint k .readOnly = true) := by
  obtain ⟨s', h1, h2, h3⟩ := tryGet_spec hm ho k
  refine ⟨s', h1, ?_, h3⟩
  unfold getEntry getAt
  rw [h2]
  generalize readAt E (permOf s.mode s.footprint) (absMap E s.mode s.map) k = r
  cases r with
  | error e => rfl
  | ok o => cases o <;> rfl

theorem has_spec {E : Env K V} {s : Store K V} (hm : ModeOk E s.mode) (ho : MapOk E s.mode s.footprint s.map) (k : K) :
    ∃ s', Same E s s' ∧
      has E s k = (s', match readAt E (permOf s.mode s.footprint) (absMap E s.mode s.map) k with
        | .ok e => .ok e.isSome | .error e => .error e) ∧
      (E.keys.supported k = true → permOf s.mode s.footprint k .readOnly = true →
        s'.map.get k = some (absMap E s.mode s.map k) ∧ allows s'.footprint k .readOnly = true) := by
  obtain ⟨s', h1, h2, h3⟩ := tryGet_spec hm ho k
  refine ⟨s', h1, ?_, h3⟩
  unfold has
  rw [h2]
  generalize readAt E (permOf s.mode s.footprint) (absMap E s.mode s.map) k = r
  cases r with
  | error e => rfl
  | ok o => rfl

/-- `s'` is `s` after a change of the ledger to `L`. -/
structure Moved (E : Env K V) (s s' : Store K V) (L : Ledger K V) : Prop where
  mode : s'.mode = s.mode
  abs : absMap E s'.mode s'.map = L
  ok : MapOk E s'.mode s'.footprint s'.map
  fp : FpLe s.footprint s'.footprint
  fpE : s.mode = .enforcing → s'.footprint = s.footprint

theorem Same.moved {E : Env K V} {s s' : Store K V} (h : Same E s s') : Moved E s s' (absMap E s.mode s.map) :=
  ⟨h.mode, h.abs, h.ok, h.fp, h.fpE⟩

theorem Same.thenMoved {E : Env K V} {a b c : Store K V} {L : Ledger K V} (h1 : Same E a b) (h2 : Moved E b c L) :
    Moved E a c L :=
  ⟨h2.mode.trans h1.mode, h2.abs, h2.ok, h1.fp.trans h2.fp, fun h => (h2.fpE (by rw [h1.mode]; exact h)).trans (h1.fpE h)⟩

/-- The ledger after a fallible change. -/
def orElse (L : Ledger K V) : Res (Ledger K V) → Ledger K V
  | .ok L' => L'
  | .error _ => L

/-- Whether a change succeeded. -/
def toUnit : Res (Ledger K V) → Res Unit
  | .ok _ => .ok ()
  | .error e => .error e

/-- A footprint allows the accesses of a fallible change: with it, permissions make no difference. -/
def Covers (f : FMap K Access) (r : (K → Access → Bool) → Res (Ledger K V)) : Prop :=
  ∀ g, FpLe f g → r (allows g) = r (fun _ _ => true)

theorem putOpt_spec {E : Env K V} {s : Store K V} (ho : MapOk E s.mode s.footprint s.map) (k : K) {e : Option (Entry V)}
    (he : LiveEntry E k e) :
    ∃ s', Moved E s s' (orElse (absMap E s.mode s.map) (writeAt E (permOf s.mode s.footprint) (absMap E s.mode s.map) k e)) ∧
      putOpt E s k e = (s', toUnit (writeAt E (permOf s.mode s.footprint) (absMap E s.mode s.map) k e)) ∧
      ((∃ src, s.mode = .recording src) → Covers s'.footprint (fun p => writeAt E p (absMap E s.mode s.map) k e)) := by
  unfold putOpt writeAt
  by_cases hk : E.keys.supported k = true
  · simp only [hk, if_true]
    cases hc : checkEntry E e with
    | error err =>
      exact ⟨s, (Same.refl ho).moved, rfl, fun _ g _ => by simp only⟩
    | ok _ =>
      simp only
      have hh : (if E.feature = true then handleMaybeExpired E s k else (s, .ok ())) = (s, .ok ()) := by
        split
        · exact handle_live (ho.live k)
        · rfl
      rw [hh]
      simp only [accessForWrite]
      cases hmode : s.mode with
      | enforcing =>
        simp only [permOf, enforceAccess_eq]
        by_cases hp : allows s.footprint k .readWrite = true
        · simp only [hp, if_true]
          refine ⟨{ s with map := s.map.insert k e }, ⟨rfl, ?_, ?_, FpLe.refl _, fun _ => rfl⟩, rfl, ?_⟩
          · simp only [orElse, hmode]; rw [absMap_insert]
          · exact ho.insert he
          · rintro ⟨src, h⟩; cases h
        · simp only [hp, if_false, Bool.false_eq_true]
          refine ⟨s, ?_, rfl, ?_⟩
          · simp only [orElse]
            rw [← hmode]; exact (Same.refl ho).moved
          · rintro ⟨src, h⟩; cases h
      | recording src =>
        simp only [permOf, if_true]
        refine ⟨{ s.record k .readWrite with map := s.map.insert k e }, ⟨rfl, ?_, ?_, FpLe.record _ _ _, ?_⟩, rfl, ?_⟩
        · simp only [orElse, Store.record, hmode]; rw [absMap_insert]
        · exact (ho.mono (fp' := recordAccess s.footprint k .readWrite) (by rw [hmode]; intro h; cases h)).insert he
        · rw [hmode]; intro h; cases h
        · intro _ g hg
          simp only
          rw [if_pos (hg _ _ (allows_record_self _ _ _)), if_pos trivial]
  · simp only [hk, if_false, Bool.false_eq_true]
    exact ⟨s, (Same.refl ho).moved, rfl, fun _ g _ => rfl⟩

theorem permOf_same {E : Env K V} {s s' : Store K V} (h : Same E s s') :
    permOf s'.mode s'.footprint = permOf s.mode s.footprint := by
  rw [h.mode]
  cases hm : s.mode with
  | recording src => rfl
  | enforcing => simp only [permOf]; rw [h.fpE hm]

theorem readAt_covered {E : Env K V} {L : Ledger K V} {k : K} {f g : FMap K Access} (h : E.keys.supported k = true →
    allows f k .readOnly = true) (hg : FpLe f g) : readAt E (allows g) L k = readAt E (fun _ _ => true) L k := by
  unfold readAt
  by_cases hk : E.keys.supported k = true
  · rw [if_pos hk, if_pos hk, if_pos (hg _ _ (h hk)), if_pos rfl]
  · rw [if_neg hk, if_neg hk]

theorem getAt_covered {E : Env K V} {L : Ledger K V} {k : K} {f g : FMap K Access} (h : E.keys.supported k = true →
    allows f k .readOnly = true) (hg : FpLe f g) : getAt E (allows g) L k = getAt E (fun _ _ => true) L k := by
  unfold getAt; rw [readAt_covered h hg]

theorem extendInfo_ok {E : Env K V} {k : K} {x : Nat} {v : V} {l : Option Nat} {i : ExtInfo V}
    (h : extendInfo E k x v l = .ok i) : i.entry = v ∧ l = some i.oldLiveUntil ∧ E.li.seq ≤ i.oldLiveUntil ∧
      i.currentTtl = i.oldLiveUntil - E.li.seq ∧ E.li.maxLiveUntil = some i.maxLiveUntil ∧
      (∃ d, E.keys.durability k = some d ∧ (d = .temporary → x ≤ i.maxLiveUntil - E.li.seq)) := by
  unfold extendInfo at h
  cases l with
  | none => cases h
  | some old =>
    simp only at h
    split at h
    · cases h
    · rename_i hs
      cases hm : E.li.maxLiveUntil with
      | none => rw [hm] at h; cases h
      | some m =>
        rw [hm] at h
        simp only at h
        cases hd : E.keys.durability k with
        | none => rw [hd] at h; cases h
        | some d =>
          rw [hd] at h
          simp only at h
          split at h
          · cases h
          · rename_i hd'
            cases h
            refine ⟨rfl, rfl, by simp only; omega, rfl, rfl, d, rfl, ?_⟩
            intro hdt
            simp only
            simp only [hdt, true_and] at hd'
            omega

/-- Common part of the two extension functions. -/
theorem prepareExtend_spec {E : Env K V} {s : Store K V} (hm : ModeOk E s.mode) (ho : MapOk E s.mode s.footprint s.map)
    (k : K) (x : Nat) :
    ∃ s', Same E s s' ∧
      prepareExtend E s k x = (s', match getAt E (permOf s.mode s.footprint) (absMap E s.mode s.map) k with
        | .ok e => extendInfo E k x e.1 e.2 | .error e => .error e) ∧
      (E.keys.supported k = true → permOf s.mode s.footprint k .readOnly = true →
        s'.map.get k = some (absMap E s.mode s.map k) ∧ allows s'.footprint k .readOnly = true) := by
  unfold prepareExtend
  by_cases hk : E.keys.supported k = true
  · rw [if_pos hk]
    have hh : (if E.feature = true then handleMaybeExpired E s k else (s, .ok ())) = (s, .ok ()) := by
      split
      · exact handle_live (ho.live k)
      · rfl
    rw [hh]
    simp only
    obtain ⟨s', h1, h2, h3⟩ := getEntry_spec hm ho k
    rw [h2]
    refine ⟨s', h1, ?_, h3⟩
    cases getAt E (permOf s.mode s.footprint) (absMap E s.mode s.map) k with
    | error e => rfl
    | ok e => rfl
  · rw [if_neg hk]
    refine ⟨s, Same.refl ho, ?_, fun h => absurd h hk⟩
    unfold getAt readAt
    rw [if_neg hk]

theorem getAt_ok {E : Env K V} {p : K → Access → Bool} {L : Ledger K V} {k : K} {e : Entry V} (h : getAt E p L k = .ok e) :
    L k = some e ∧ E.keys.supported k = true ∧ p k .readOnly = true := by
  unfold getAt readAt at h
  by_cases hk : E.keys.supported k = true
  · rw [if_pos hk] at h
    by_cases hp : p k .readOnly = true
    · rw [if_pos hp] at h
      cases hl : L k with
      | none => rw [hl] at h; cases h
      | some e' => rw [hl] at h; cases h; exact ⟨rfl, hk, hp⟩
    · rw [if_neg hp] at h; cases h
  · rw [if_neg hk] at h; cases h

/-- Inserting an extended entry, or leaving the old one. -/
theorem apply_moved {E : Env K V} {s : Store K V} {k : K} {v : V} {old new : Nat} (ho : MapOk E s.mode s.footprint s.map)
    (hk : absMap E s.mode s.map k = some (v, some old)) (hold : E.li.seq ≤ old) (i : ExtInfo V) (hi : i.entry = v)
    (hio : i.oldLiveUntil = old) :
    Moved E s (applyExtension s k i new)
      ((absMap E s.mode s.map).set k (some (if old < new then (v, some new) else (v, some old)))) := by
  unfold applyExtension
  rw [hio, hi]
  by_cases h : old < new
  · rw [if_pos h, if_pos h]
    refine ⟨rfl, by simp only; rw [absMap_insert], ?_, FpLe.refl _, fun _ => rfl⟩
    apply ho.insert
    intro v' l' d hv _
    cases hv
    exact ⟨new, rfl, by omega⟩
  · rw [if_neg h, if_neg h]
    have : (absMap E s.mode s.map).set k (some (v, some old)) = absMap E s.mode s.map := by
      rw [← hk]; exact ledger_set_same _ _
    rw [this]
    exact (Same.refl ho).moved

theorem extend_covers {E : Env K V} {L : Ledger K V} {k : K} {f : FMap K Access} {x : Entry V → Res (Entry V)}
    (h : E.keys.supported k = true → allows f k .readOnly = true) : Covers f (fun p => extendAt E p L k x) := by
  intro g hg
  simp only [extendAt, getAt_covered h hg]

theorem recording_cover {s : Store K V} {E : Env K V} {f : FMap K Access} {k : K} {P : Prop}
    (h : E.keys.supported k = true → permOf s.mode s.footprint k .readOnly = true → P ∧ allows f k .readOnly = true)
    (hr : ∃ src, s.mode = .recording src) : E.keys.supported k = true → allows f k .readOnly = true := by
  intro hk
  obtain ⟨src, hr⟩ := hr
  exact (h hk (by rw [hr]; rfl)).2

theorem extendTtl_spec {E : Env K V} {s : Store K V} (hm : ModeOk E s.mode) (ho : MapOk E s.mode s.footprint s.map) (k : K)
    (t x : Nat) (htx : ¬ t > x) :
    ∃ s', Moved E s s' (orElse (absMap E s.mode s.map)
        (extendAt E (permOf s.mode s.footprint) (absMap E s.mode s.map) k (extended E k t x))) ∧
      extendTtl E s k t x = (s', toUnit (extendAt E (permOf s.mode s.footprint) (absMap E s.mode s.map) k (extended E k t x))) ∧
      ((∃ src, s.mode = .recording src) →
        Covers s'.footprint (fun p => extendAt E p (absMap E s.mode s.map) k (extended E k t x))) := by
  obtain ⟨s', h1, h2, h3⟩ := prepareExtend_spec hm ho k x
  unfold extendTtl extendAt
  rw [if_neg htx, h2]
  cases hg : getAt E (permOf s.mode s.footprint) (absMap E s.mode s.map) k with
  | error err =>
    exact ⟨s', h1.moved, rfl, fun hr => extend_covers (recording_cover h3 hr)⟩
  | ok e =>
    obtain ⟨hL, hk, hp⟩ := getAt_ok hg
    simp only [extended]
    cases hi : extendInfo E k x e.1 e.2 with
    | error err =>
      refine ⟨s', h1.moved, rfl, fun hr => ?_⟩
      intro g hg'
      simp only [getAt_covered (recording_cover h3 hr) hg']
    | ok i =>
      simp only
      obtain ⟨i1, i2, i3, i4, i5, _⟩ := extendInfo_ok hi
      unfold checkedAddU32
      by_cases hov : E.li.seq + x ≤ u32Max
      · rw [if_pos hov, if_neg (show ¬ u32Max < E.li.seq + x by omega)]
        simp only
        have hs' : absMap E s'.mode s'.map k = some (e.1, some i.oldLiveUntil) := by
          rw [h1.abs, hL, ← i2]
        have hset : ∀ y, (absMap E s.mode s.map).set k y = (absMap E s'.mode s'.map).set k y := by
          intro y; rw [h1.abs]
        have hee : e = (e.1, some i.oldLiveUntil) := by rw [← i2]
        have hcov : ((∃ src, s.mode = .recording src) → Covers s'.footprint
            (fun p => extendAt E p (absMap E s.mode s.map) k (extended E k t x))) := fun hr =>
          extend_covers (recording_cover h3 hr)
        by_cases hc : i.currentTtl ≤ t
        · rw [if_pos hc]
          have hmv := h1.thenMoved (apply_moved h1.ok hs' i3 (new := min (E.li.seq + x) i.maxLiveUntil) i i1 rfl)
          by_cases hlt : i.oldLiveUntil < min (E.li.seq + x) i.maxLiveUntil
          · rw [if_pos ⟨by omega, hlt⟩]
            rw [if_pos hlt] at hmv
            refine ⟨_, ?_, rfl, ?_⟩
            · simp only [orElse, hset]; exact hmv
            · intro hr
              have := hcov hr
              unfold applyExtension
              rw [if_pos hlt]
              simp only [extendAt, extended] at this
              exact this
          · rw [if_neg (by omega)]
            rw [if_neg hlt] at hmv
            refine ⟨_, ?_, rfl, ?_⟩
            · simp only [orElse, hset]; rw [hee]; exact hmv
            · intro hr
              have := hcov hr
              unfold applyExtension
              rw [if_neg hlt]
              simp only [extendAt, extended] at this
              exact this
        · rw [if_neg hc, if_neg (by omega)]
          refine ⟨s', ?_, rfl, ?_⟩
          · simp only [orElse]
            rw [← hL, ledger_set_same]; exact h1.moved
          · intro hr
            have := hcov hr
            simp only [extendAt, extended] at this
            exact this
      · rw [if_neg hov, if_pos (show u32Max < E.li.seq + x by omega)]
        refine ⟨s', h1.moved, rfl, fun hr => ?_⟩
        intro g hg'
        simp only [getAt_covered (recording_cover h3 hr) hg']

theorem extendTtlV2_spec {E : Env K V} {s : Store K V} (hm : ModeOk E s.mode) (ho : MapOk E s.mode s.footprint s.map) (k : K)
    (x a b : Nat) (hab : ¬ b < a) :
    ∃ s', Moved E s s' (orElse (absMap E s.mode s.map)
        (extendAt E (permOf s.mode s.footprint) (absMap E s.mode s.map) k (extendedV2 E k x a b))) ∧
      extendTtlV2 E s k x a b =
        (s', toUnit (extendAt E (permOf s.mode s.footprint) (absMap E s.mode s.map) k (extendedV2 E k x a b))) ∧
      ((∃ src, s.mode = .recording src) →
        Covers s'.footprint (fun p => extendAt E p (absMap E s.mode s.map) k (extendedV2 E k x a b))) := by
  obtain ⟨s', h1, h2, h3⟩ := prepareExtend_spec hm ho k x
  have hcov : ((∃ src, s.mode = .recording src) → Covers s'.footprint
      (fun p => extendAt E p (absMap E s.mode s.map) k (extendedV2 E k x a b))) := fun hr =>
    extend_covers (recording_cover h3 hr)
  have hfp : ∀ i n, (applyExtension s' k i n).footprint = s'.footprint := by
    intro i n; unfold applyExtension; split <;> rfl
  unfold extendTtlV2
  rw [if_neg hab, h2]
  generalize hX : (fun p => extendAt E p (absMap E s.mode s.map) k (extendedV2 E k x a b)) = X at hcov ⊢
  have hval : extendAt E (permOf s.mode s.footprint) (absMap E s.mode s.map) k (extendedV2 E k x a b) =
    X (permOf s.mode s.footprint) := by rw [← hX]
  rw [hval]
  have hval' := hval
  unfold extendAt at hval'
  cases hg : getAt E (permOf s.mode s.footprint) (absMap E s.mode s.map) k with
  | error err =>
    rw [hg] at hval'
    rw [← hval']
    exact ⟨s', h1.moved, rfl, hcov⟩
  | ok e =>
    rw [hg] at hval'
    obtain ⟨hL, hk, hp⟩ := getAt_ok hg
    simp only [extendedV2] at hval' ⊢
    cases hi : extendInfo E k x e.1 e.2 with
    | error err =>
      rw [hi] at hval'
      rw [← hval']
      exact ⟨s', h1.moved, rfl, hcov⟩
    | ok i =>
      rw [hi] at hval'
      simp only at hval' ⊢
      obtain ⟨i1, i2, i3, i4, i5, _⟩ := extendInfo_ok hi
      have hsub : x - i.currentTtl = E.li.seq + x - i.oldLiveUntil := by omega
      rw [hsub]
      generalize min (min (E.li.seq + x - i.oldLiveUntil) b) (i.maxLiveUntil - i.oldLiveUntil) = n at hval' ⊢
      have hs' : absMap E s'.mode s'.map k = some (e.1, some i.oldLiveUntil) := by
        rw [h1.abs, hL, ← i2]
      have hset : ∀ y, (absMap E s.mode s.map).set k y = (absMap E s'.mode s'.map).set k y := by
        intro y; rw [h1.abs]
      have hee : e = (e.1, some i.oldLiveUntil) := by rw [← i2]
      have hsame : (absMap E s.mode s.map).set k (some e) = absMap E s.mode s.map := by
        rw [← hL]; exact ledger_set_same _ _
      by_cases hn : n < a
      · rw [if_pos hn] at hval' ⊢
        rw [← hval']
        refine ⟨s', ?_, rfl, hcov⟩
        simp only [orElse, hsame]
        exact h1.moved
      · rw [if_neg hn] at hval' ⊢
        unfold checkedAddU32
        by_cases hov : i.oldLiveUntil + n ≤ u32Max
        · rw [if_pos hov]
          rw [if_neg (show ¬ u32Max < i.oldLiveUntil + n by omega)] at hval'
          simp only
          have hmv := h1.thenMoved (apply_moved h1.ok hs' i3 (new := i.oldLiveUntil + n) i i1 rfl)
          by_cases h0 : n = 0
          · rw [if_pos h0] at hval'
            rw [if_neg (by omega), ← hee] at hmv
            rw [← hval']
            refine ⟨_, ?_, rfl, by rw [hfp]; exact hcov⟩
            simp only [orElse, hset]
            exact hmv
          · rw [if_neg h0] at hval'
            rw [if_pos (by omega)] at hmv
            rw [← hval']
            refine ⟨_, ?_, rfl, by rw [hfp]; exact hcov⟩
            simp only [orElse, hset]
            exact hmv
        · rw [if_neg hov]
          rw [if_pos (show u32Max < i.oldLiveUntil + n by omega)] at hval'
          rw [← hval']
          exact ⟨s', h1.moved, rfl, hcov⟩

theorem writeAt_same {E : Env K V} {s s' : Store K V} (h : Same E s s') (k : K) (e : Option (Entry V)) :
    writeAt E (permOf s'.mode s'.footprint) (absMap E s'.mode s'.map) k e =
      writeAt E (permOf s.mode s.footprint) (absMap E s.mode s.map) k e := by
  rw [permOf_same h, h.abs]

theorem absMap_live {E : Env K V} {s : Store K V} (hm : ModeOk E s.mode) (ho : MapOk E s.mode s.footprint s.map) (k : K) :
    LiveEntry E k (absMap E s.mode s.map k) := by
  unfold absMap
  cases hg : s.map.get k with
  | some e => exact ho.live k e hg
  | none =>
    cases hmode : s.mode with
    | enforcing => intro v l d h; cases h
    | recording src => rw [hmode] at hm; exact view_live hm.1 k

theorem newLive_live {E : Env K V} {k : K} {l : Option Nat} (h : newLiveUntil E k = .ok l) (v : V) :
    LiveEntry E k (some (v, l)) := by
  intro v' l' d hv hd
  cases hv
  unfold newLiveUntil at h
  rw [hd] at h
  simp only at h
  cases hm : E.li.minLiveUntil d with
  | none => rw [hm] at h; cases h
  | some m => rw [hm] at h; cases h; exact ⟨m, rfl, minLiveUntil_ge hm⟩

theorem write_spec {E : Env K V} {s : Store K V} (hm : ModeOk E s.mode) (ho : MapOk E s.mode s.footprint s.map) (k : K)
    (u : Option V → V) :
    ∃ s', Moved E s s' (orElse (absMap E s.mode s.map)
        (updateAt E (permOf s.mode s.footprint) (absMap E s.mode s.map) k u)) ∧
      write E s k u = (s', toUnit (updateAt E (permOf s.mode s.footprint) (absMap E s.mode s.map) k u)) ∧
      ((∃ src, s.mode = .recording src) → Covers s'.footprint (fun p => updateAt E p (absMap E s.mode s.map) k u)) := by
  obtain ⟨s1, h1, h2, h3⟩ := has_spec hm ho k
  have hm1 : ModeOk E s1.mode := by rw [h1.mode]; exact hm
  have hrc : ∀ {f}, FpLe s1.footprint f → (∃ src, s.mode = .recording src) → ∀ g, FpLe f g →
      readAt E (allows g) (absMap E s.mode s.map) k = readAt E (fun _ _ => true) (absMap E s.mode s.map) k := by
    intro f hf hr g hg
    exact readAt_covered (recording_cover h3 hr) (hf.trans hg)
  have hperm : ∀ src, s.mode = .recording src → permOf s.mode s.footprint = fun _ _ => true := by
    intro src h; rw [h]; rfl
  unfold write updateAt
  rw [h2]
  cases hr : readAt E (permOf s.mode s.footprint) (absMap E s.mode s.map) k with
  | error err =>
    refine ⟨s1, h1.moved, rfl, ?_⟩
    intro hrec g hg
    have := hrc (FpLe.refl _) hrec g hg
    obtain ⟨src, hsrc⟩ := hrec
    rw [hperm src hsrc] at hr
    simp only
    rw [this, hr]
  | ok o =>
    cases o with
    | none =>
      simp only [Option.isSome_none]
      cases hn : newLiveUntil E k with
      | error err =>
        refine ⟨s1, h1.moved, rfl, ?_⟩
        intro hrec g hg
        simp only
        rw [hrc (FpLe.refl _) hrec g hg]
        obtain ⟨src, hsrc⟩ := hrec
        rw [hperm src hsrc] at hr
        rw [hr]
      | ok l =>
        simp only
        obtain ⟨s2, p1, p2, p3⟩ := putOpt_spec h1.ok k (newLive_live hn (u none))
        rw [writeAt_same h1] at p1 p2
        refine ⟨s2, ?_, p2, ?_⟩
        · have := h1.thenMoved p1
          rw [h1.abs] at this
          exact this
        · intro hrec g hg
          simp only
          rw [hrc p1.fp hrec g hg]
          obtain ⟨src, hsrc⟩ := hrec
          have := p3 ⟨src, by rw [h1.mode]; exact hsrc⟩ g hg
          simp only [h1.abs] at this
          rw [hperm src hsrc] at hr
          rw [hr]
          exact this
    | some e =>
      obtain ⟨v, l⟩ := e
      simp only [Option.isSome_some]
      obtain ⟨s2, q1, q2, q3⟩ := getEntry_spec hm1 h1.ok k
      rw [q2, permOf_same h1, h1.abs]
      have hget : getAt E (permOf s.mode s.footprint) (absMap E s.mode s.map) k = .ok (v, l) := by
        unfold getAt; rw [hr]
      rw [hget]
      simp only
      have hlive : LiveEntry E k (some (u (some v), l)) := by
        have := absMap_live hm ho k
        rw [(getAt_ok hget).1] at this
        intro v' l' d hv hd
        cases hv
        exact this v l d rfl hd
      obtain ⟨s3, p1, p2, p3⟩ := putOpt_spec q1.ok k hlive
      have h12 := h1.trans q1
      rw [writeAt_same h12] at p1 p2
      refine ⟨s3, ?_, p2, ?_⟩
      · have := h12.thenMoved p1
        rw [h12.abs] at this
        exact this
      · intro hrec g hg
        simp only
        rw [hrc (q1.fp.trans p1.fp) hrec g hg]
        obtain ⟨src, hsrc⟩ := hrec
        have := p3 ⟨src, by rw [h12.mode]; exact hsrc⟩ g hg
        simp only [h12.abs] at this
        rw [hperm src hsrc] at hr
        rw [hr]
        exact this

/-- The ledger machine a storage machine stands for. -/
def absM (E : Env K V) (m : Machine K V) : LM K V :=
  { L := absMap E m.st.mode m.st.map, saved := m.saved.map (absMap E m.st.mode) }

/-- What holds of a machine at all times. -/
structure Ok (E : Env K V) (m : Machine K V) : Prop where
  mode : ModeOk E m.st.mode
  cur : MapOk E m.st.mode m.st.footprint m.st.map
  saved : ∀ x ∈ m.saved, MapOk E m.st.mode m.st.footprint x

/-- The result of the refinement for one step. -/
structure StepOk (E : Env K V) (m : Machine K V) (o : Op K V) : Prop where
  res : (step E m o).2 = (Spec.step E (permOf m.st.mode m.st.footprint) (absM E m) o).2
  abs : absM E (step E m o).1 = (Spec.step E (permOf m.st.mode m.st.footprint) (absM E m) o).1
  ok : Ok E (step E m o).1
  mode : (step E m o).1.st.mode = m.st.mode
  fp : FpLe m.st.footprint (step E m o).1.st.footprint
  fpE : m.st.mode = .enforcing → (step E m o).1.st.footprint = m.st.footprint
  covers : (∃ src, m.st.mode = .recording src) → ∀ g, FpLe (step E m o).1.st.footprint g →
    Spec.step E (allows g) (absM E m) o = Spec.step E (fun _ _ => true) (absM E m) o

theorem ok_of_moved {E : Env K V} {m : Machine K V} {s' : Store K V} {L : Ledger K V} (h : Ok E m) (hm : Moved E m.st s' L) :
    Ok E { m with st := s' } := by
  refine ⟨by simp only; rw [hm.mode]; exact h.mode, hm.ok, ?_⟩
  intro x hx
  simp only
  rw [hm.mode]
  exact (h.saved x hx).mono hm.fpE

theorem absM_moved {E : Env K V} {m : Machine K V} {s' : Store K V} {L : Ledger K V} (hm : Moved E m.st s' L) :
    absM E { m with st := s' } = { absM E m with L := L } := by
  unfold absM
  simp only
  rw [hm.abs, hm.mode]

theorem change_step {E : Env K V} {m : Machine K V} {o : Op K V} {s' : Store K V}
    {X : (K → Access → Bool) → Res (Ledger K V)} (hO : Ok E m) (hmv : Moved E m.st s' (orElse (absM E m).L (X (permOf m.st.mode m.st.footprint))))
    (hstep : step E m o = wrap m (fun _ => .unit) (s', toUnit (X (permOf m.st.mode m.st.footprint))))
    (hspec : ∀ p, Spec.step E p (absM E m) o = change (absM E m) (X p))
    (hcov : (∃ src, m.st.mode = .recording src) → Covers s'.footprint X) : StepOk E m o := by
  have hres : (step E m o).2 = (change (absM E m) (X (permOf m.st.mode m.st.footprint))).2 := by
    rw [hstep]; unfold wrap change
    cases X (permOf m.st.mode m.st.footprint) <;> rfl
  have hst : (step E m o).1 = { m with st := s' } := by rw [hstep]; rfl
  refine ⟨by rw [hres, hspec], ?_, ?_, ?_, ?_, ?_, ?_⟩
  · rw [hst, absM_moved hmv, hspec]
    unfold change
    cases X (permOf m.st.mode m.st.footprint) <;> rfl
  · rw [hst]; exact ok_of_moved hO hmv
  · rw [hst]; exact hmv.mode
  · rw [hst]; exact hmv.fp
  · rw [hst]; exact hmv.fpE
  · intro hr g hg
    rw [hst] at hg
    rw [hspec, hspec, hcov hr g hg]

theorem read_step {E : Env K V} {m : Machine K V} {o : Op K V} {s' : Store K V} {R : (K → Access → Bool) → Res (Out V)}
    (hO : Ok E m) (hs : Same E m.st s') (hstep : step E m o = ({ m with st := s' }, R (permOf m.st.mode m.st.footprint)))
    (hspec : ∀ p, Spec.step E p (absM E m) o = (absM E m, R p))
    (hcov : (∃ src, m.st.mode = .recording src) → ∀ g, FpLe s'.footprint g → R (allows g) = R (fun _ _ => true)) :
    StepOk E m o := by
  refine ⟨by rw [hstep, hspec], ?_, ?_, ?_, ?_, ?_, ?_⟩
  · rw [hstep, hspec]; simp only; rw [absM_moved hs.moved]; rfl
  · rw [hstep]; exact ok_of_moved hO hs.moved
  · rw [hstep]; exact hs.mode
  · rw [hstep]; exact hs.fp
  · rw [hstep]; exact hs.fpE
  · intro hr g hg
    rw [hstep] at hg
    rw [hspec, hspec, hcov hr g hg]

theorem step_ok {E : Env K V} {m : Machine K V} (h : Ok E m) {o : Op K V} (ho : OpOk E o) : StepOk E m o := by
  cases o with
  | get k =>
    obtain ⟨s', h1, h2, h3⟩ := getEntry_spec h.mode h.cur k
    refine read_step (R := fun p => match getAt E p (absM E m).L k with | .ok e => .ok (.entry e) | .error e => .error e)
      h h1 ?_ (fun p => rfl) ?_
    · simp only [step]; rw [h2]; unfold wrap
      simp only [absM]
      generalize getAt E (permOf m.st.mode m.st.footprint) (absMap E m.st.mode m.st.map) k = r
      cases r <;> rfl
    · intro hr g hg
      rw [getAt_covered (recording_cover h3 hr) hg]
  | has k =>
    obtain ⟨s', h1, h2, h3⟩ := has_spec h.mode h.cur k
    refine read_step (R := fun p => match readAt E p (absM E m).L k with | .ok e => .ok (.bool e.isSome) | .error e => .error e)
      h h1 ?_ (fun p => rfl) ?_
    · simp only [step]; rw [h2]; unfold wrap
      simp only [absM]
      generalize readAt E (permOf m.st.mode m.st.footprint) (absMap E m.st.mode m.st.map) k = r
      cases r <;> rfl
    · intro hr g hg
      rw [readAt_covered (recording_cover h3 hr) hg]
  | del k =>
    obtain ⟨s', h1, h2, h3⟩ := putOpt_spec (E := E) h.cur k (e := none) (by intro v l d hv; cases hv)
    exact change_step (X := fun p => writeAt E p (absM E m).L k none) h h1 (by simp only [step]; rw [h2]; rfl)
      (fun p => rfl) h3
  | put k v l =>
    obtain ⟨s', h1, h2, h3⟩ := putOpt_spec (E := E) h.cur k (e := some (v, l)) ho
    exact change_step (X := fun p => writeAt E p (absM E m).L k (some (v, l))) h h1 (by simp only [step]; rw [h2]; rfl)
      (fun p => rfl) h3
  | write k u =>
    obtain ⟨s', h1, h2, h3⟩ := write_spec h.mode h.cur k u
    exact change_step (X := fun p => updateAt E p (absM E m).L k u) h h1 (by simp only [step]; rw [h2]; rfl)
      (fun p => rfl) h3
  | extend k t x =>
    by_cases htx : t > x
    · refine read_step (s' := m.st) (R := fun _ => .error (.host .storage .invalidInput)) h (Same.refl h.cur) ?_ ?_ ?_
      · simp only [step, extendTtl]; rw [if_pos htx]; rfl
      · intro p; simp only [Spec.step]; rw [if_pos htx]
      · intro _ _ _; rfl
    · obtain ⟨s', h1, h2, h3⟩ := extendTtl_spec h.mode h.cur k t x htx
      refine change_step (X := fun p => extendAt E p (absM E m).L k (extended E k t x)) h h1
        (by simp only [step]; rw [h2]; rfl) ?_ h3
      intro p; simp only [Spec.step]; rw [if_neg htx]
  | extendV2 k x a b =>
    by_cases hab : b < a
    · refine read_step (s' := m.st) (R := fun _ => .error (.host .storage .invalidInput)) h (Same.refl h.cur) ?_ ?_ ?_
      · simp only [step, extendTtlV2]; rw [if_pos hab]; rfl
      · intro p; simp only [Spec.step]; rw [if_pos hab]
      · intro _ _ _; rfl
    · obtain ⟨s', h1, h2, h3⟩ := extendTtlV2_spec h.mode h.cur k x a b hab
      refine change_step (X := fun p => extendAt E p (absM E m).L k (extendedV2 E k x a b)) h h1
        (by simp only [step]; rw [h2]; rfl) ?_ h3
      intro p; simp only [Spec.step]; rw [if_neg hab]
  | mark =>
    refine ⟨rfl, rfl, ⟨h.mode, h.cur, ?_⟩, rfl, FpLe.refl _, fun _ => rfl, fun _ _ _ => rfl⟩
    intro x hx
    rcases List.mem_cons.mp hx with rfl | hx
    · exact h.cur
    · exact h.saved x hx
  | commit =>
    refine ⟨rfl, ?_, ⟨h.mode, h.cur, ?_⟩, rfl, FpLe.refl _, fun _ => rfl, fun _ _ _ => rfl⟩
    · simp only [step, Spec.step, absM]; rw [List.map_tail]
    · intro x hx; exact h.saved x (List.mem_of_mem_tail hx)
  | abort =>
    cases hsv : m.saved with
    | nil =>
      have hst : step E m .abort = (m, .ok .unit) := by simp only [step]; rw [hsv]
      have hsp : ∀ p, Spec.step E p (absM E m) .abort = (absM E m, .ok .unit) := by
        intro p; simp only [Spec.step, absM]; rw [hsv]; rfl
      exact ⟨by rw [hst, hsp], by rw [hst, hsp], by rw [hst]; exact h, by rw [hst], by rw [hst]; exact FpLe.refl _,
        by rw [hst]; exact fun _ => rfl, fun _ _ _ => by rw [hsp, hsp]⟩
    | cons old rest =>
      have hst : step E m .abort = ({ st := { m.st with map := old }, saved := rest }, .ok .unit) := by
        simp only [step]; rw [hsv]
      have hsp : ∀ p, Spec.step E p (absM E m) .abort =
          ({ L := absMap E m.st.mode old, saved := rest.map (absMap E m.st.mode) }, .ok .unit) := by
        intro p; simp only [Spec.step, absM]; rw [hsv]; rfl
      refine ⟨by rw [hst, hsp], by rw [hst, hsp]; rfl, ?_, by rw [hst], by rw [hst]; exact FpLe.refl _,
        by rw [hst]; exact fun _ => rfl, fun _ _ _ => by rw [hsp, hsp]⟩
      rw [hst]
      refine ⟨h.mode, h.saved old (by rw [hsv]; simp), ?_⟩
      intro x hx
      exact h.saved x (by rw [hsv]; exact List.mem_cons_of_mem _ hx)

/-! ### what the specification changes -/

theorem writeAt_value {E : Env K V} {p : K → Access → Bool} {L L' : Ledger K V} {k : K} {e : Option (Entry V)}
    (h : writeAt E p L k e = .ok L') : L' = L.set k e ∧ p k .readWrite = true ∧ E.keys.supported k = true := by
  unfold writeAt at h
  by_cases hk : E.keys.supported k = true
  · rw [if_pos hk] at h
    cases hc : checkEntry E e with
    | error err => rw [hc] at h; cases h
    | ok _ =>
      rw [hc] at h
      simp only at h
      by_cases hp : p k .readWrite = true
      · rw [if_pos hp] at h; cases h; exact ⟨rfl, hp, hk⟩
      · rw [if_neg hp] at h; cases h
  · rw [if_neg hk] at h; cases h

theorem updateAt_value {E : Env K V} {p : K → Access → Bool} {L L' : Ledger K V} {k : K} {u : Option V → V}
    (h : updateAt E p L k u = .ok L') : ∃ l, L' = L.set k (some (u (valueOf (L k)), l)) ∧ p k .readWrite = true := by
  unfold updateAt readAt at h
  by_cases hk : E.keys.supported k = true
  · rw [if_pos hk] at h
    by_cases hp : p k .readOnly = true
    · rw [if_pos hp] at h
      cases hl : L k with
      | none =>
        rw [hl] at h
        simp only at h
        cases hn : newLiveUntil E k with
        | error e => rw [hn] at h; cases h
        | ok l =>
          rw [hn] at h
          obtain ⟨h1, h2, _⟩ := writeAt_value h
          exact ⟨l, h1, h2⟩
      | some e =>
        obtain ⟨v, l⟩ := e
        rw [hl] at h
        obtain ⟨h1, h2, _⟩ := writeAt_value h
        exact ⟨l, h1, h2⟩
    · rw [if_neg hp] at h; cases h
  · rw [if_neg hk] at h; cases h

theorem extended_value {E : Env K V} {k : K} {t x : Nat} {e e' : Entry V} (h : extended E k t x e = .ok e') :
    e'.1 = e.1 := by
  unfold extended at h
  cases hi : extendInfo E k x e.1 e.2 with
  | error err => rw [hi] at h; cases h
  | ok i =>
    rw [hi] at h
    simp only at h
    split at h
    · cases h
    · split at h <;> (cases h; rfl)

theorem extendedV2_value {E : Env K V} {k : K} {x a b : Nat} {e e' : Entry V} (h : extendedV2 E k x a b e = .ok e') :
    e'.1 = e.1 := by
  unfold extendedV2 at h
  cases hi : extendInfo E k x e.1 e.2 with
  | error err => rw [hi] at h; cases h
  | ok i =>
    rw [hi] at h
    simp only at h
    split at h
    · cases h; rfl
    · split at h
      · cases h
      · split at h <;> (cases h; rfl)

theorem extendAt_value {E : Env K V} {p : K → Access → Bool} {L L' : Ledger K V} {k : K} {f : Entry V → Res (Entry V)}
    (hf : ∀ e e', f e = .ok e' → e'.1 = e.1) (h : extendAt E p L k f = .ok L') : ∃ e e', L k = some e ∧ f e = .ok e' ∧
      L' = L.set k (some e') ∧ ∀ k', valueOf (L' k') = valueOf (L k') := by
  unfold extendAt at h
  cases hg : getAt E p L k with
  | error err => rw [hg] at h; cases h
  | ok e =>
    rw [hg] at h
    simp only at h
    cases hfe : f e with
    | error err => rw [hfe] at h; cases h
    | ok e' =>
      rw [hfe] at h
      cases h
      refine ⟨e, e', (getAt_ok hg).1, hfe, rfl, ?_⟩
      intro k'
      unfold Ledger.set
      split
      · rename_i hk; subst hk
        rw [(getAt_ok hg).1]
        simp [valueOf, hf e e' hfe]
      · rfl

/-- Changes of a ledger within the declared accesses. -/
def Allowed (p : K → Access → Bool) (L L' : Ledger K V) : Prop :=
  ∀ k, (p k .readOnly = false → L' k = L k) ∧ (p k .readWrite = false → valueOf (L' k) = valueOf (L k))

theorem Allowed.refl (p : K → Access → Bool) (L : Ledger K V) : Allowed p L L := fun _ => ⟨fun _ => rfl, fun _ => rfl⟩

theorem Allowed.trans {p : K → Access → Bool} {L L' L'' : Ledger K V} (h : Allowed p L L') (h' : Allowed p L' L'') :
    Allowed p L L'' :=
  fun k => ⟨fun hk => ((h' k).1 hk).trans ((h k).1 hk), fun hk => ((h' k).2 hk).trans ((h k).2 hk)⟩

theorem permOf_read {mode : Mode K V} {fp : FMap K Access} {k : K} (h : permOf mode fp k .readOnly = false) :
    permOf mode fp k .readWrite = false := by
  cases mode with
  | recording src => cases h
  | enforcing =>
    simp only [permOf, allows, Option.isSome_eq_false_iff, Option.isNone_iff_eq_none] at h ⊢
    rw [h]; rfl

theorem writeAt_allowed {E : Env K V} {mode : Mode K V} {fp : FMap K Access} {L L' : Ledger K V} {k : K} {e : Option (Entry V)}
    (h : writeAt E (permOf mode fp) L k e = .ok L') : Allowed (permOf mode fp) L L' := by
  obtain ⟨h1, h2, _⟩ := writeAt_value h
  rw [h1]
  intro k'
  unfold Ledger.set
  by_cases hk : k' = k
  · subst hk
    refine ⟨fun hr => ?_, fun hw => ?_⟩
    · rw [permOf_read hr] at h2; cases h2
    · rw [hw] at h2; cases h2
  · rw [if_neg hk]; exact ⟨fun _ => rfl, fun _ => rfl⟩

theorem updateAt_allowed {E : Env K V} {mode : Mode K V} {fp : FMap K Access} {L L' : Ledger K V} {k : K} {u : Option V → V}
    (h : updateAt E (permOf mode fp) L k u = .ok L') : Allowed (permOf mode fp) L L' := by
  unfold updateAt at h
  split at h
  · cases h
  · exact writeAt_allowed h
  · split at h
    · cases h
    · exact writeAt_allowed h

theorem getAt_perm {E : Env K V} {p : K → Access → Bool} {L : Ledger K V} {k : K} {e : Entry V} (h : getAt E p L k = .ok e) :
    p k .readOnly = true := by
  unfold getAt readAt at h
  by_cases hp : p k .readOnly = true
  · exact hp
  · rw [if_neg hp] at h
    by_cases hk : E.keys.supported k = true
    · rw [if_pos hk] at h; cases h
    · rw [if_neg hk] at h; cases h

theorem extendAt_allowed {E : Env K V} {p : K → Access → Bool} {L L' : Ledger K V} {k : K} {f : Entry V → Res (Entry V)}
    (hf : ∀ e e', f e = .ok e' → e'.1 = e.1) (h : extendAt E p L k f = .ok L') : Allowed p L L' := by
  obtain ⟨e, e', _, _, h3, h4⟩ := extendAt_value hf h
  refine fun k' => ⟨fun hr => ?_, fun _ => h4 k'⟩
  rw [h3]
  unfold Ledger.set
  by_cases hk : k' = k
  · subst hk
    unfold extendAt at h
    split at h
    · cases h
    · rename_i hg
      rw [getAt_perm hg] at hr; cases hr
  · rw [if_neg hk]

theorem Allowed.orElse {p : K → Access → Bool} {L : Ledger K V} {r : Res (Ledger K V)}
    (h : ∀ L', r = .ok L' → Allowed p L L') : Allowed p L (Storage.orElse L r) := by
  cases r with
  | ok L' => exact h L' rfl
  | error e => exact Allowed.refl p L

end Soroban.Storage
