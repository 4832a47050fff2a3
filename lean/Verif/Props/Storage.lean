import Verif.Lemmas.Storage
import Mathlib.Data.List.Forall2
/-! C17-C21: ledger storage, footprints and lifetimes. -/
namespace Soroban.Props
open Soroban Soroban.Storage
open Soroban.Storage.Spec hiding step runProg
variable {K V : Type} [DecidableEq K]

theorem ok_enforcing {E : Env K V} {fp : FMap K Access} {map : FMap K (Option (Entry V))} (h : Loaded E fp map) :
    Ok E (enforcing fp map) :=
  ⟨trivial, ⟨h.live, fun _ k hk => h.cover k hk⟩, by intro x hx; cases hx⟩

theorem ok_recording {E : Env K V} {src : K → Option (Entry V)} (h : SnapshotOk E src) (hf : E.feature = true) :
    Ok E (recording src) :=
  ⟨⟨h, hf⟩, ⟨by intro k e hk; simp [recording, FMap.get] at hk, by intro hk; simp [recording] at hk⟩, by intro x hx; cases hx⟩

/-- Permissions along a run. -/
theorem permOf_step {E : Env K V} {m : Machine K V} {o : Op K V} (h : StepOk E m o) :
    permOf (step E m o).1.st.mode (step E m o).1.st.footprint = permOf m.st.mode m.st.footprint := by
  rw [h.mode]
  cases hm : m.st.mode with
  | recording src => rfl
  | enforcing => simp only [permOf]; rw [h.fpE hm]

theorem runProg_refines {E : Env K V} {p : Prog K V} (hp : ProgOk E p) : ∀ {m : Machine K V}, Ok E m →
    (runProg E p m).2 = (Spec.runProg E (permOf m.st.mode m.st.footprint) p (absM E m)).2 ∧
    absM E (runProg E p m).1 = (Spec.runProg E (permOf m.st.mode m.st.footprint) p (absM E m)).1 ∧
    Ok E (runProg E p m).1 ∧ (runProg E p m).1.st.mode = m.st.mode ∧
    FpLe m.st.footprint (runProg E p m).1.st.footprint ∧
    (m.st.mode = .enforcing → (runProg E p m).1.st.footprint = m.st.footprint) := by
  induction hp with
  | done => intro m h; exact ⟨rfl, rfl, h, rfl, FpLe.refl _, fun _ => rfl⟩
  | @op o next ho _ ih =>
    intro m h
    have hs := step_ok h ho
    have h1 := ih (step E m o).2 hs.ok
    rw [permOf_step hs, hs.res, hs.abs] at h1
    simp only [runProg, Spec.runProg]
    rw [hs.res]
    obtain ⟨a, b, c, d, e, f⟩ := h1
    refine ⟨by rw [a], b, c, d.trans hs.mode, hs.fp.trans e, ?_⟩
    intro hm
    exact (f (by rw [hs.mode]; exact hm)).trans (hs.fpE hm)

/-! ### C18 -/

theorem read_current {E : Env K V} {s : Store K V} (hm : ModeOk E s.mode) (ho : MapOk E s.mode s.footprint s.map) {k : K}
    (hk : E.keys.supported k = true) (hp : s.mode = .enforcing → (s.footprint.get k).isSome) :
    (getEntry E s k).2 = (match absMap E s.mode s.map k with
      | some e => .ok e
      | none => .error (.host .storage .missingValue)) ∧
    (has E s k).2 = .ok (absMap E s.mode s.map k).isSome := by
  have hperm : permOf s.mode s.footprint k .readOnly = true := by
    cases hmode : s.mode with
    | recording src => rfl
    | enforcing => exact hp hmode
  obtain ⟨s1, _, h2, _⟩ := getEntry_spec hm ho k
  obtain ⟨s2, _, h4, _⟩ := has_spec hm ho k
  rw [h2, h4]
  simp only [getAt, readAt, hk, hperm, if_true]
  refine ⟨?_, trivial⟩
  cases absMap E s.mode s.map k <;> rfl

/-- C18: a host in enforcing mode behaves as a ledger (a function from keys to entries, read and updated at one key at a
time) guarded by the declared footprint, for every program, whatever it does with the results it sees. -/
theorem C18_enforcing_is_a_ledger {E : Env K V} {fp : FMap K Access} {map : FMap K (Option (Entry V))}
    (h : Loaded E fp map) {p : Prog K V} (hp : ProgOk E p) :
    (runProg E p (enforcing fp map)).2 =
      (Spec.runProg E (allows fp) p { L := fun k => (map.get k).getD none, saved := [] }).2 := by
  have h1 := (runProg_refines hp (ok_enforcing h)).1
  have e : absM E (enforcing fp map) = { L := fun k => (map.get k).getD none, saved := [] } := by
    unfold absM enforcing
    simp only [List.map_nil]
    congr
    funext k
    unfold absMap
    cases map.get k <;> rfl
  rw [e] at h1
  exact h1

/-- C18: a host in recording mode behaves as the ledger its snapshot shows, with every access allowed. -/
theorem C18_recording_is_a_ledger {E : Env K V} {src : K → Option (Entry V)} (h : SnapshotOk E src) (hf : E.feature = true)
    {p : Prog K V} (hp : ProgOk E p) :
    (runProg E p (recording src)).2 =
      (Spec.runProg E (fun _ _ => true) p { L := fun k => view E k (src k), saved := [] }).2 :=
  (runProg_refines hp (ok_recording h hf)).1

/-- One step of the specification, seen at one key. -/
theorem spec_lastWrite {E : Env K V} {p : K → Access → Bool} {m : LM K V} (k : K) (o : Op K V) (os : List (Op K V))
    (rs : List (Res (Out V))) :
    lastWrite k (o :: os) ((Spec.step E p m o).2 :: rs) (valueOf (m.L k)) (m.saved.map (fun L => valueOf (L k))) =
      lastWrite k os rs (valueOf ((Spec.step E p m o).1.L k)) ((Spec.step E p m o).1.saved.map (fun L => valueOf (L k))) := by
  cases o with
  | get k' => simp only [Spec.step, lastWrite]
  | has k' => simp only [Spec.step, lastWrite]
  | del k' =>
    simp only [Spec.step, change]
    cases h : writeAt E p m.L k' none with
    | error e => simp only [lastWrite]
    | ok L =>
      simp only [lastWrite]
      rw [(writeAt_value h).1]
      unfold Ledger.set
      by_cases hk : k' = k
      · simp [hk, valueOf]
      · simp [hk, Ne.symm hk]
  | put k' v l =>
    simp only [Spec.step, change]
    cases h : writeAt E p m.L k' (some (v, l)) with
    | error e => simp only [lastWrite]
    | ok L =>
      simp only [lastWrite]
      rw [(writeAt_value h).1]
      unfold Ledger.set
      by_cases hk : k' = k
      · simp [hk, valueOf]
      · simp [hk, Ne.symm hk]
  | write k' u =>
    simp only [Spec.step, change]
    cases h : updateAt E p m.L k' u with
    | error e => simp only [lastWrite]
    | ok L =>
      simp only [lastWrite]
      obtain ⟨l, hl, _⟩ := updateAt_value h
      rw [hl]
      unfold Ledger.set
      by_cases hk : k' = k
      · subst hk; simp [valueOf]
      · simp [hk, Ne.symm hk]
  | extend k' t x =>
    simp only [Spec.step]
    split
    · simp only [lastWrite]
    · simp only [change]
      cases h : extendAt E p m.L k' (extended E k' t x) with
      | error e => simp only [lastWrite]
      | ok L =>
        simp only [lastWrite]
        obtain ⟨_, _, _, _, _, hv⟩ := extendAt_value (fun _ _ => extended_value) h
        rw [hv]
  | extendV2 k' x a b =>
    simp only [Spec.step]
    split
    · simp only [lastWrite]
    · simp only [change]
      cases h : extendAt E p m.L k' (extendedV2 E k' x a b) with
      | error e => simp only [lastWrite]
      | ok L =>
        simp only [lastWrite]
        obtain ⟨_, _, _, _, _, hv⟩ := extendAt_value (fun _ _ => extendedV2_value) h
        rw [hv]
  | mark => simp only [Spec.step, lastWrite, List.map_cons]
  | commit => simp only [Spec.step, lastWrite, List.map_tail]
  | abort =>
    simp only [Spec.step]
    cases hs : m.saved with
    | nil => simp [lastWrite, hs]
    | cons L rest => simp [lastWrite]

theorem runOps_lastWrite {E : Env K V} (k : K) : ∀ (os : List (Op K V)) (m : Machine K V), Ok E m → (∀ o ∈ os, OpOk E o) →
    valueOf ((absM E (runOps E os m).1).L k) =
      lastWrite k os (runOps E os m).2 (valueOf ((absM E m).L k)) ((absM E m).saved.map (fun L => valueOf (L k))) ∧
    Ok E (runOps E os m).1 ∧ (runOps E os m).1.st.mode = m.st.mode ∧
    (m.st.mode = .enforcing → (runOps E os m).1.st.footprint = m.st.footprint) := by
  intro os
  induction os with
  | nil => intro m h _; exact ⟨rfl, h, rfl, fun _ => rfl⟩
  | cons o os ih =>
    intro m h hos
    have hs := step_ok h (hos o (by simp))
    obtain ⟨h1, h2, h3, h4⟩ := ih (step E m o).1 hs.ok (fun o' ho' => hos o' (List.mem_cons_of_mem _ ho'))
    simp only [runOps]
    refine ⟨?_, h2, h3.trans hs.mode, ?_⟩
    · rw [h1, hs.res, hs.abs, spec_lastWrite]
    · intro hm; exact (h4 (by rw [hs.mode]; exact hm)).trans (hs.fpE hm)

theorem ok_start {E : Env K V} {m : Machine K V} (h : Start E m) : Ok E m := by
  cases h with
  | enforcing h => exact ok_enforcing h
  | recording h hf => exact ok_recording h hf

theorem ok_reachable {E : Env K V} {m : Machine K V} (h : Reachable E m) : Ok E m := by
  obtain ⟨m₀, os, hs, ho, rfl⟩ := h
  by_cases hk : Nonempty K
  · obtain ⟨k⟩ := hk
    exact (runOps_lastWrite k os m₀ (ok_start hs) ho).2.1
  · have : ∀ (os : List (Op K V)) (m : Machine K V), Ok E m → (∀ o ∈ os, OpOk E o) → Ok E (runOps E os m).1 := by
      intro os
      induction os with
      | nil => intro m h _; exact h
      | cons o os ih =>
        intro m h ho
        exact ih _ (step_ok h (ho o (by simp))).ok (fun o' h' => ho o' (List.mem_cons_of_mem _ h'))
    exact this os m₀ (ok_start hs) ho

/-- C18: `get` and `has` return the entry a contract should see (`current`), in both modes. -/
theorem C18_read {E : Env K V} {m : Machine K V} (hR : Reachable E m) {k : K}
    (hk : E.keys.supported k = true) (hp : m.st.mode = .enforcing → (m.st.footprint.get k).isSome) :
    (getEntry E m.st k).2 = (match current E m k with
      | some e => .ok e
      | none => .error (.host .storage .missingValue)) ∧
    (has E m.st k).2 = .ok (current E m k).isSome :=
  read_current (ok_reachable hR).mode (ok_reachable hR).cur hk hp

/-- C18: after any history of operations, with failures and with frames rolled back, reading a key gives the value of the last
successful write to that key that was not rolled back, or the initial value if there is none. -/
theorem C18_last_write {E : Env K V} {m : Machine K V} (hst : Start E m) (os : List (Op K V))
    (hos : ∀ o ∈ os, OpOk E o) {k : K} (hk : E.keys.supported k = true)
    (hp : m.st.mode = .enforcing → (m.st.footprint.get k).isSome) :
    (match (getEntry E (runOps E os m).1.st k).2 with
      | .ok e => some (some e.1)
      | .error (.host .storage .missingValue) => some none
      | .error _ => none) =
    some (lastWrite k os (runOps E os m).2 (valueOf (current E m k)) []) := by
  have hO := ok_start hst
  have hs : m.saved = [] := by cases hst <;> rfl
  unfold current
  obtain ⟨h1, h2, h3, h4⟩ := runOps_lastWrite (E := E) k os m hO hos
  have hr := (read_current h2.mode h2.cur hk (by
    intro hm; rw [h3] at hm; rw [h4 hm]; exact hp hm)).1
  rw [hr]
  have e : (absM E (runOps E os m).1).L k = absMap E (runOps E os m).1.st.mode (runOps E os m).1.st.map k := rfl
  rw [e] at h1
  simp only [absM, hs, List.map_nil] at h1
  rw [← h1]
  cases absMap E (runOps E os m).1.st.mode (runOps E os m).1.st.map k <;> rfl

/-! ### C17 -/

/-- C17: in enforcing mode an access to a key outside the footprint fails with Storage/ExceededLimit and changes nothing. -/
theorem C17_undeclared_key {E : Env K V} {m : Machine K V} (hm : m.st.mode = .enforcing) {k : K}
    (hk : E.keys.supported k = true) (hp : m.st.footprint.get k = none) (hR : Reachable E m) :
    (∀ o ∈ ([.get k, .has k, .del k] : List (Op K V)), step E m o = (m, .error (.host .storage .exceededLimit))) ∧
    (∀ v l, E.keys.entrySupported v = true → step E m (.put k v l) = (m, .error (.host .storage .exceededLimit))) ∧
    (∀ u, step E m (.write k u) = (m, .error (.host .storage .exceededLimit))) ∧
    (∀ t x, t ≤ x → step E m (.extend k t x) = (m, .error (.host .storage .exceededLimit))) ∧
    (∀ x a b, a ≤ b → step E m (.extendV2 k x a b) = (m, .error (.host .storage .exceededLimit))) := by
  have hO := ok_reachable hR
  have hro : ∀ a, enforceAccess m.st.footprint k a = .error (.host .storage .exceededLimit) := by
    intro a; unfold enforceAccess; rw [hp]
  have hmap : handleMaybeExpired E m.st k = (m.st, .ok ()) := handle_live (hO.cur.live k)
  have hif : (if E.feature = true then handleMaybeExpired E m.st k else (m.st, .ok ())) = (m.st, .ok ()) := by
    split
    · exact hmap
    · rfl
  have hget : tryGet E m.st k = (m.st, .error (.host .storage .exceededLimit)) := by
    unfold tryGet prepareReadOnly; rw [if_pos hk, hm]; simp only; rw [hro]
  have hg : getEntry E m.st k = (m.st, .error (.host .storage .exceededLimit)) := by unfold getEntry; rw [hget]
  have hh : Storage.has E m.st k = (m.st, .error (.host .storage .exceededLimit)) := by unfold Storage.has; rw [hget]
  have hput : ∀ e, checkEntry E e = .ok () → putOpt E m.st k e = (m.st, .error (.host .storage .exceededLimit)) := by
    intro e he
    unfold putOpt accessForWrite; rw [if_pos hk, he]; simp only; rw [hif]; simp only; rw [hm]; simp only; rw [hro]
  have hpe : ∀ x, prepareExtend E m.st k x = (m.st, .error (.host .storage .exceededLimit)) := by
    intro x
    unfold prepareExtend; rw [if_pos hk, hif]; simp only; rw [hg]
  refine ⟨?_, ?_, ?_, ?_, ?_⟩
  · intro o ho
    simp only [List.mem_cons, List.not_mem_nil, or_false] at ho
    rcases ho with rfl | rfl | rfl
    · simp only [step, hg, wrap]
    · simp only [step, hh, wrap]
    · simp only [step, hput none rfl, wrap]
  · intro v l hv
    simp only [step, hput (some (v, l)) (by simp [checkEntry, hv]), wrap]
  · intro u
    simp only [step, write, hh, wrap]
  · intro t x htx
    simp only [step, extendTtl, hpe, wrap]
    rw [if_neg (by omega)]
  · intro x a b hab
    simp only [step, extendTtlV2, hpe, wrap]
    rw [if_neg (by omega)]

/-- C17: in enforcing mode writing, deleting or updating a key that is declared read-only fails with Storage/ExceededLimit and
changes nothing. -/
theorem C17_read_only_key {E : Env K V} {m : Machine K V} (hm : m.st.mode = .enforcing) {k : K}
    (hk : E.keys.supported k = true) (hp : m.st.footprint.get k = some .readOnly) (hR : Reachable E m) :
    step E m (.del k) = (m, .error (.host .storage .exceededLimit)) ∧
    (∀ v l, E.keys.entrySupported v = true → step E m (.put k v l) = (m, .error (.host .storage .exceededLimit))) ∧
    (∀ u, (∀ v, E.keys.entrySupported v = true) → (∃ l, newLiveUntil E k = .ok l) →
      step E m (.write k u) = (m, .error (.host .storage .exceededLimit))) := by
  have hO := ok_reachable hR
  have hrw : enforceAccess m.st.footprint k .readWrite = .error (.host .storage .exceededLimit) := by
    unfold enforceAccess; rw [hp]
  have hro : enforceAccess m.st.footprint k .readOnly = .ok () := by
    unfold enforceAccess; rw [hp]
  have hif : (if E.feature = true then handleMaybeExpired E m.st k else (m.st, .ok ())) = (m.st, .ok ()) := by
    split
    · exact handle_live (hO.cur.live k)
    · rfl
  have hput : ∀ e, checkEntry E e = .ok () → putOpt E m.st k e = (m.st, .error (.host .storage .exceededLimit)) := by
    intro e he
    unfold putOpt accessForWrite; rw [if_pos hk, he]; simp only; rw [hif]; simp only; rw [hm]; simp only; rw [hrw]
  have hcov : (m.st.map.get k).isSome := hO.cur.cover hm k (by simp [allows, hp])
  obtain ⟨e, he⟩ := Option.isSome_iff_exists.mp hcov
  have hget : tryGet E m.st k = (m.st, .ok e) := by
    unfold tryGet prepareReadOnly; rw [if_pos hk, hm]; simp only; rw [hro]; simp only; rw [he]
  refine ⟨?_, ?_, ?_⟩
  · simp only [step, hput none rfl, wrap]
  · intro v l hv
    simp only [step, hput (some (v, l)) (by simp [checkEntry, hv]), wrap]
  · intro u hv hn
    have hck : ∀ v l, checkEntry E (some (v, l)) = .ok () := by intro v l; simp [checkEntry, hv]
    cases e with
    | none =>
      obtain ⟨l, hnl⟩ := hn
      simp only [step, write, Storage.has, hget, Option.isSome_none, hnl, hput _ (hck _ _), wrap]
    | some e =>
      obtain ⟨v, l⟩ := e
      simp only [step, write, Storage.has, getEntry, hget, Option.isSome_some, hput _ (hck _ _), wrap]

theorem spec_step_value {E : Env K V} {p : K → Access → Bool} {k : K} (hk : p k .readWrite = false) (m : LM K V)
    (hsv : ∀ L ∈ m.saved, valueOf (L k) = valueOf (m.L k)) (o : Op K V) :
    valueOf ((Spec.step E p m o).1.L k) = valueOf (m.L k) ∧
    ∀ L ∈ (Spec.step E p m o).1.saved, valueOf (L k) = valueOf (m.L k) := by
  have hset : ∀ {k' : K} {L L' : Ledger K V} {e}, p k' .readWrite = true → L' = L.set k' e → valueOf (L' k) = valueOf (L k) := by
    rintro k' L L' e hp' rfl
    unfold Ledger.set
    have : k ≠ k' := by rintro rfl; rw [hk] at hp'; cases hp'
    rw [if_neg this]
  cases o with
  | get k' => exact ⟨rfl, hsv⟩
  | has k' => exact ⟨rfl, hsv⟩
  | del k' =>
    simp only [Spec.step, change]
    cases h : writeAt E p m.L k' none with
    | error e => exact ⟨rfl, hsv⟩
    | ok L => obtain ⟨h1, h2, _⟩ := writeAt_value h; exact ⟨hset h2 h1, hsv⟩
  | put k' v l =>
    simp only [Spec.step, change]
    cases h : writeAt E p m.L k' (some (v, l)) with
    | error e => exact ⟨rfl, hsv⟩
    | ok L => obtain ⟨h1, h2, _⟩ := writeAt_value h; exact ⟨hset h2 h1, hsv⟩
  | write k' u =>
    simp only [Spec.step, change]
    cases h : updateAt E p m.L k' u with
    | error e => exact ⟨rfl, hsv⟩
    | ok L => obtain ⟨l, h1, h2⟩ := updateAt_value h; exact ⟨hset h2 h1, hsv⟩
  | extend k' t x =>
    simp only [Spec.step]
    split
    · exact ⟨rfl, hsv⟩
    · simp only [change]
      cases h : extendAt E p m.L k' (extended E k' t x) with
      | error e => exact ⟨rfl, hsv⟩
      | ok L => obtain ⟨_, _, _, _, _, hv⟩ := extendAt_value (fun _ _ => extended_value) h; exact ⟨hv k, hsv⟩
  | extendV2 k' x a b =>
    simp only [Spec.step]
    split
    · exact ⟨rfl, hsv⟩
    · simp only [change]
      cases h : extendAt E p m.L k' (extendedV2 E k' x a b) with
      | error e => exact ⟨rfl, hsv⟩
      | ok L => obtain ⟨_, _, _, _, _, hv⟩ := extendAt_value (fun _ _ => extendedV2_value) h; exact ⟨hv k, hsv⟩
  | mark =>
    refine ⟨rfl, ?_⟩
    intro L hL
    rcases List.mem_cons.mp hL with rfl | hL
    · rfl
    · exact hsv L hL
  | commit => exact ⟨rfl, fun L hL => hsv L (List.mem_of_mem_tail hL)⟩
  | abort =>
    simp only [Spec.step]
    cases hs : m.saved with
    | nil => exact ⟨rfl, by intro L hL; exact hsv L (by rw [hs] at hL; cases hL)⟩
    | cons L rest => exact ⟨hsv L (by rw [hs]; simp), fun L' hL' => hsv L' (by rw [hs]; exact List.mem_cons_of_mem _ hL')⟩

theorem spec_run_value {E : Env K V} {p : K → Access → Bool} {k : K} (hk : p k .readWrite = false) {q : Prog K V}
    (hq : ProgOk E q) : ∀ (m : LM K V), (∀ L ∈ m.saved, valueOf (L k) = valueOf (m.L k)) →
    valueOf ((Spec.runProg E p q m).1.L k) = valueOf (m.L k) := by
  induction hq with
  | done => intro m _; rfl
  | @op o next _ _ ih =>
    intro m hsv
    obtain ⟨h1, h2⟩ := spec_step_value (E := E) hk m hsv o
    simp only [Spec.runProg]
    rw [ih _ (Spec.step E p m o).1 (fun L hL => by rw [h2 L hL, h1]), h1]

/-- C17: whatever a program does in enforcing mode, the footprint stays as declared and the data of an entry that is not
declared read-write stays as it was. -/
theorem C17_only_declared_data_changes {E : Env K V} {fp : FMap K Access} {map : FMap K (Option (Entry V))}
    (h : Loaded E fp map) {p : Prog K V} (hp : ProgOk E p) {k : K} (hk : fp.get k ≠ some .readWrite) :
    (runProg E p (enforcing fp map)).1.st.footprint = fp ∧
    valueOf (((runProg E p (enforcing fp map)).1.st.map.get k).getD none) = valueOf ((map.get k).getD none) := by
  obtain ⟨_, h2, _, h4, _, h6⟩ := runProg_refines hp (ok_enforcing h)
  refine ⟨h6 rfl, ?_⟩
  have hv := spec_run_value (E := E) (p := allows fp) (k := k) (by simp [allows]; exact hk) hp
    (absM E (enforcing fp map)) (by intro L hL; cases hL)
  have e : ∀ m : Machine K V, m.st.mode = .enforcing → (absM E m).L k = (m.st.map.get k).getD none := by
    intro m hm
    simp only [absM, absMap, hm]
    cases m.st.map.get k <;> rfl
  rw [e (enforcing fp map) rfl] at hv
  rw [← e _ h4, h2]
  exact hv

/-! ### C19 -/

/-- Two ledgers agree on the keys a footprint declares. -/
def Agree (F : FMap K Access) (a b : Ledger K V) : Prop := ∀ k, allows F k .readOnly = true → a k = b k

theorem Agree.set {F : FMap K Access} {a b : Ledger K V} (h : Agree F a b) (k : K) (e : Option (Entry V)) :
    Agree F (a.set k e) (b.set k e) := by
  intro k' hk'
  unfold Ledger.set
  split
  · rfl
  · exact h k' hk'

/-- Two results of a change: the same error, or ledgers that agree. -/
def AgreeRes (F : FMap K Access) (a b : Res (Ledger K V)) : Prop :=
  match a, b with
  | .ok a, .ok b => Agree F a b
  | .error a, .error b => a = b
  | _, _ => False

theorem readAt_agree {E : Env K V} {F : FMap K Access} {a b : Ledger K V} (h : Agree F a b) (k : K) :
    readAt E (allows F) a k = readAt E (allows F) b k := by
  unfold readAt
  by_cases hp : allows F k .readOnly = true
  · rw [h k hp]
  · simp only [hp, Bool.false_eq_true, if_false]

theorem getAt_agree {E : Env K V} {F : FMap K Access} {a b : Ledger K V} (h : Agree F a b) (k : K) :
    getAt E (allows F) a k = getAt E (allows F) b k := by
  unfold getAt; rw [readAt_agree h]

theorem writeAt_agree {E : Env K V} {F : FMap K Access} {a b : Ledger K V} (h : Agree F a b) (k : K) (e : Option (Entry V)) :
    AgreeRes F (writeAt E (allows F) a k e) (writeAt E (allows F) b k e) := by
  unfold writeAt
  by_cases hk : E.keys.supported k = true
  · simp only [hk, if_true]
    cases checkEntry E e with
    | error err => exact rfl
    | ok _ =>
      simp only
      split
      · exact h.set k e
      · exact rfl
  · simp only [hk, Bool.false_eq_true, if_false]; exact rfl

theorem updateAt_agree {E : Env K V} {F : FMap K Access} {a b : Ledger K V} (h : Agree F a b) (k : K) (u : Option V → V) :
    AgreeRes F (updateAt E (allows F) a k u) (updateAt E (allows F) b k u) := by
  unfold updateAt
  rw [readAt_agree h]
  cases readAt E (allows F) b k with
  | error e => exact rfl
  | ok o =>
    cases o with
    | none =>
      simp only
      cases newLiveUntil E k with
      | error e => exact rfl
      | ok l => exact writeAt_agree h k _
    | some e => exact writeAt_agree h k _

theorem extendAt_agree {E : Env K V} {F : FMap K Access} {a b : Ledger K V} (h : Agree F a b) (k : K)
    (f : Entry V → Res (Entry V)) : AgreeRes F (extendAt E (allows F) a k f) (extendAt E (allows F) b k f) := by
  unfold extendAt
  rw [getAt_agree h]
  cases getAt E (allows F) b k with
  | error e => exact rfl
  | ok e =>
    simp only
    cases f e with
    | error e => exact rfl
    | ok e' => exact h.set k _

/-- Two ledger machines agree on the declared keys. -/
structure AgreeM (F : FMap K Access) (a b : LM K V) : Prop where
  L : Agree F a.L b.L
  saved : List.Forall₂ (Agree F) a.saved b.saved

theorem change_agree {F : FMap K Access} {a b : LM K V} (h : AgreeM F a b) {x y : Res (Ledger K V)} (hr : AgreeRes F x y) :
    (change a x).2 = (change b y).2 ∧ AgreeM F (change a x).1 (change b y).1 := by
  cases x with
  | error e =>
    cases y with
    | error e' => cases hr; exact ⟨rfl, h⟩
    | ok _ => cases hr
  | ok L =>
    cases y with
    | error e' => cases hr
    | ok L' => exact ⟨rfl, hr, h.saved⟩

theorem spec_step_agree {E : Env K V} {F : FMap K Access} {a b : LM K V} (h : AgreeM F a b) (o : Op K V) :
    (Spec.step E (allows F) a o).2 = (Spec.step E (allows F) b o).2 ∧
    AgreeM F (Spec.step E (allows F) a o).1 (Spec.step E (allows F) b o).1 := by
  cases o with
  | get k => simp only [Spec.step]; rw [getAt_agree h.L]; exact ⟨rfl, h⟩
  | has k => simp only [Spec.step]; rw [readAt_agree h.L]; exact ⟨rfl, h⟩
  | del k => exact change_agree h (writeAt_agree h.L k none)
  | put k v l => exact change_agree h (writeAt_agree h.L k _)
  | write k u => exact change_agree h (updateAt_agree h.L k u)
  | extend k t x =>
    simp only [Spec.step]
    split
    · exact ⟨rfl, h⟩
    · exact change_agree h (extendAt_agree h.L k _)
  | extendV2 k x y z =>
    simp only [Spec.step]
    split
    · exact ⟨rfl, h⟩
    · exact change_agree h (extendAt_agree h.L k _)
  | mark => exact ⟨rfl, h.L, .cons h.L h.saved⟩
  | commit =>
    obtain ⟨aL, as⟩ := a
    obtain ⟨bL, bs⟩ := b
    have hs := h.saved
    refine ⟨rfl, h.L, ?_⟩
    simp only [Spec.step] at hs ⊢
    cases hs with
    | nil => exact .nil
    | cons _ hr => exact hr
  | abort =>
    obtain ⟨aL, as⟩ := a
    obtain ⟨bL, bs⟩ := b
    have hs := h.saved
    simp only at hs
    cases hs with
    | nil => exact ⟨rfl, h⟩
    | cons h1 hr => exact ⟨rfl, h1, hr⟩

theorem replay {E : Env K V} {p : Prog K V} (hp : ProgOk E p) : ∀ {m : Machine K V} {src : K → Option (Entry V)},
    m.st.mode = .recording src → Ok E m → ∀ {F : FMap K Access}, FpLe (runProg E p m).1.st.footprint F → ∀ {b : LM K V},
    AgreeM F (absM E m) b →
    (Spec.runProg E (allows F) p b).2 = (runProg E p m).2 ∧
    AgreeM F (absM E (runProg E p m).1) (Spec.runProg E (allows F) p b).1 := by
  induction hp with
  | done => intro m src _ _ F _ b hb; exact ⟨rfl, hb⟩
  | @op o next ho hn ih =>
    intro m src hm hO F hF b hb
    have hs := step_ok hO ho
    have hF1 : FpLe (step E m o).1.st.footprint F := by
      refine FpLe.trans ?_ hF
      simp only [runProg]
      exact (runProg_refines (hn _) hs.ok).2.2.2.2.1
    have hc := hs.covers ⟨src, hm⟩ F hF1
    have hperm : permOf m.st.mode m.st.footprint = fun _ _ => true := by rw [hm]; rfl
    obtain ⟨g1, g2⟩ := spec_step_agree (E := E) hb o
    rw [hc] at g1 g2
    have hres := hs.res
    have habs := hs.abs
    rw [hperm] at hres habs
    rw [← hres] at g1
    rw [← habs] at g2
    obtain ⟨i1, i2⟩ := ih (step E m o).2 (by rw [hs.mode]; exact hm) hs.ok (by simpa only [runProg] using hF) g2
    simp only [Spec.runProg, runProg]
    rw [← g1]
    exact ⟨by rw [i1], i2⟩

/-- C19: a program run in recording mode and then in enforcing mode, with the recorded footprint (or a larger one) and with
the ledger entries of the snapshot (expired temporary ones absent, expired persistent ones restored), sees the same results,
operation by operation, and leaves the same entries under the declared keys. -/
theorem C19_recorded_footprint_replays {E : Env K V} {src : K → Option (Entry V)} (hs : SnapshotOk E src)
    (hf : E.feature = true) {p : Prog K V} (hp : ProgOk E p) {F : FMap K Access}
    (hF : ∀ k a, allows (runProg E p (recording src)).1.st.footprint k a = true → allows F k a = true)
    {map : FMap K (Option (Entry V))} (hmap : ∀ k, (F.get k).isSome → map.get k = some (view E k (src k)))
    (hlive : ∀ k e, map.get k = some e → LiveEntry E k e) (feature' : Bool) :
    (runProg { E with feature := feature' } p (enforcing F map)).2 = (runProg E p (recording src)).2 ∧
    ∀ k, (F.get k).isSome → absMap E (.recording src) (runProg E p (recording src)).1.st.map k =
      ((runProg { E with feature := feature' } p (enforcing F map)).1.st.map.get k).getD none := by
  have hload : Loaded { E with feature := feature' } F map :=
    ⟨fun k hk => by rw [hmap k hk]; rfl, fun k e he v l d h1 h2 => hlive k e he v l d h1 h2⟩
  have hp' : ProgOk { E with feature := feature' } p := by
    clear hF
    induction hp with
    | done => exact .done
    | @op o next ho _ ih =>
      refine .op ?_ (fun r => ih r)
      cases o <;> exact ho
  have hspec : ∀ (q : Prog K V) (m : LM K V), Spec.runProg { E with feature := feature' } (allows F) q m =
      Spec.runProg E (allows F) q m := by
    intro q
    induction q with
    | done => intro m; rfl
    | op o next ih =>
      intro m
      simp only [Spec.runProg]
      have : Spec.step { E with feature := feature' } (allows F) m o = Spec.step E (allows F) m o := by
        cases o <;> rfl
      rw [this, ih]
  obtain ⟨e1, e2, _, e4, _, _⟩ := runProg_refines hp' (ok_enforcing hload)
  have hag : AgreeM F (absM E (recording src)) (absM { E with feature := feature' } (enforcing F map)) := by
    refine ⟨?_, .nil⟩
    intro k hk
    have := hmap k hk
    simp only [absM, recording, enforcing, absMap, this]
    rfl
  obtain ⟨r1, r2⟩ := replay hp (src := src) rfl (ok_recording hs hf) hF hag
  have hperm : permOf (enforcing F map).st.mode (enforcing F map).st.footprint = allows F := rfl
  rw [hperm, hspec] at e1 e2
  refine ⟨by rw [e1, r1], ?_⟩
  intro k hk
  have h1 := r2.L k hk
  rw [← e2] at h1
  have hmode : (runProg E p (recording src)).1.st.mode = .recording src :=
    (runProg_refines hp (ok_recording hs hf)).2.2.2.1
  simp only [absM, hmode] at h1
  rw [h1]
  have e4' : (runProg { E with feature := feature' } p (enforcing F map)).1.st.mode = .enforcing := e4
  rw [e4']
  unfold absMap
  generalize (runProg { E with feature := feature' } p (enforcing F map)).1.st.map.get k = x
  cases x <;> rfl

/-! ### C20 -/

theorem step_perm {E : Env K V} {m : Machine K V} {k : K} (hp : m.st.mode = .enforcing → (m.st.footprint.get k).isSome) :
    permOf m.st.mode m.st.footprint k .readOnly = true := by
  cases hmode : m.st.mode with
  | recording src => rfl
  | enforcing => exact hp hmode

theorem getAt_current {E : Env K V} {m : Machine K V} {k : K} {e : Entry V} (hk : E.keys.supported k = true)
    (hp : m.st.mode = .enforcing → (m.st.footprint.get k).isSome) (hc : current E m k = some e) :
    getAt E (permOf m.st.mode m.st.footprint) (absM E m).L k = .ok e := by
  have : (absM E m).L k = some e := hc
  simp only [getAt, readAt, hk, step_perm (E := E) hp, if_true, this]

omit [DecidableEq K] in
theorem lastPossible_iff {E : Env K V} {M : Nat} : LastPossible E.li M ↔ E.li.maxLiveUntil = some M := by
  unfold LastPossible LedgerInfo.maxLiveUntil checkedAddU32
  have hu : u32Max = 4294967295 := rfl
  rw [← hu]
  generalize E.li.maxTtl - 1 = x
  generalize u32Max = u
  split
  · rename_i h
    rw [Option.some.injEq]
    constructor
    · intro hx; exact hx.1.symm
    · intro hx; exact ⟨hx.symm, by rw [← hx]; exact h⟩
  · rename_i h
    refine ⟨fun hx => absurd (hx.1 ▸ hx.2) h, fun hx => by cases hx⟩


theorem extendInfo_eq {E : Env K V} {k : K} {x : Nat} {v : V} {old M : Nat} {d : Durability} (hl : E.li.seq ≤ old)
    (hM : E.li.maxLiveUntil = some M) (hd : E.keys.durability k = some d) (ht : d = .temporary → x ≤ M - E.li.seq) :
    extendInfo E k x v (some old) = .ok { entry := v, oldLiveUntil := old, currentTtl := old - E.li.seq, maxLiveUntil := M } := by
  unfold extendInfo
  simp only [hM, hd]
  rw [if_neg (by omega), if_neg]
  rintro ⟨h1, h2⟩
  have := ht h1
  omega

/-- C20: `extend` raises the lifetime of a live entry with at most `threshold` ledgers left to `extendTo` ledgers from now, or
to the network maximum if that is less, never below what it was. Nothing else changes: not the data, not any other entry, not
an entry with more than `threshold` ledgers left. -/
theorem C20_extend_exact {E : Env K V} {m : Machine K V} (hR : Reachable E m) {k : K} {v : V} {old M t x : Nat}
    {d : Durability} (hk : E.keys.supported k = true) (hp : m.st.mode = .enforcing → (m.st.footprint.get k).isSome)
    (hc : current E m k = some (v, some old)) (hl : E.li.seq ≤ old) (hM : LastPossible E.li M)
    (hd : E.keys.durability k = some d) (htx : t ≤ x) (hx : E.li.seq + x ≤ u32Max)
    (htmp : d = .temporary → x ≤ M - E.li.seq) :
    (step E m (.extend k t x)).2 = .ok .unit ∧
    current E (step E m (.extend k t x)).1 k =
      some (v, some (if old - E.li.seq ≤ t then max old (min (E.li.seq + x) M) else old)) ∧
    ∀ k', k' ≠ k → current E (step E m (.extend k t x)).1 k' = current E m k' := by
  rw [lastPossible_iff] at hM
  have hs := step_ok (o := .extend k t x) (ok_reachable hR) trivial
  have hex : extended E k t x (v, some old) =
      .ok (v, some (if old - E.li.seq ≤ t then max old (min (E.li.seq + x) M) else old)) := by
    unfold extended
    simp only [extendInfo_eq (v := v) hl hM hd htmp]
    rw [if_neg (by omega)]
    by_cases h1 : old - E.li.seq ≤ t
    · rw [if_pos h1]
      by_cases h2 : old < min (E.li.seq + x) M
      · rw [if_pos ⟨h1, h2⟩]; congr 3; omega
      · rw [if_neg (fun h => h2 h.2)]; congr 3; omega
    · rw [if_neg h1, if_neg (fun h => h1 h.1)]
  have hsp : Spec.step E (permOf m.st.mode m.st.footprint) (absM E m) (.extend k t x) =
      (LM.mk ((absM E m).L.set k
        (some (v, some (if old - E.li.seq ≤ t then max old (min (E.li.seq + x) M) else old)))) (absM E m).saved, .ok .unit) := by
    simp only [Spec.step]
    rw [if_neg (by omega)]
    simp only [extendAt, getAt_current hk hp hc, hex, change]
  refine ⟨by rw [hs.res, hsp], ?_, ?_⟩
  · have : current E (step E m (.extend k t x)).1 k = (absM E (step E m (.extend k t x)).1).L k := rfl
    rw [this, hs.abs, hsp]
    simp [Ledger.set]
  · intro k' hk'
    have : current E (step E m (.extend k t x)).1 k' = (absM E (step E m (.extend k t x)).1).L k' := rfl
    rw [this, hs.abs, hsp]
    simp [Ledger.set, hk']
    rfl

/-- C20: the bounded variant extends by as much as leads to `extendTo` ledgers from now, at most `maxExt` and not past the
network maximum, and only if that is at least `minExt`. Nothing else changes. -/
theorem C20_extend_bounded_exact {E : Env K V} {m : Machine K V} (hR : Reachable E m) {k : K} {v : V} {old M x a b : Nat}
    {d : Durability} (hk : E.keys.supported k = true) (hp : m.st.mode = .enforcing → (m.st.footprint.get k).isSome)
    (hc : current E m k = some (v, some old)) (hl : E.li.seq ≤ old) (ho : old ≤ u32Max) (hM : LastPossible E.li M)
    (hd : E.keys.durability k = some d) (hab : a ≤ b) (htmp : d = .temporary → x ≤ M - E.li.seq) :
    let ext := min (min (E.li.seq + x - old) b) (M - old)
    (step E m (.extendV2 k x a b)).2 = .ok .unit ∧
    current E (step E m (.extendV2 k x a b)).1 k = some (v, some (if a ≤ ext then old + ext else old)) ∧
    ∀ k', k' ≠ k → current E (step E m (.extendV2 k x a b)).1 k' = current E m k' := by
  rw [lastPossible_iff] at hM
  intro ext
  have hs := step_ok (o := .extendV2 k x a b) (ok_reachable hR) trivial
  have hMu : M ≤ u32Max := by
    unfold LedgerInfo.maxLiveUntil checkedAddU32 at hM
    split at hM
    · cases hM; assumption
    · cases hM
  have hex : extendedV2 E k x a b (v, some old) = .ok (v, some (if a ≤ ext then old + ext else old)) := by
    unfold extendedV2
    simp only [extendInfo_eq (v := v) hl hM hd htmp]
    show (if ext < a then _ else if u32Max < old + ext then _ else if ext = 0 then _ else Except.ok (v, some (old + ext))) = _
    have he : old + ext ≤ u32Max := by
      have : ext ≤ M - old := Nat.min_le_right _ _
      omega
    clear_value ext
    by_cases h1 : a ≤ ext
    · rw [if_neg (by omega), if_neg (by omega), if_pos h1]
      by_cases h2 : ext = 0
      · rw [if_pos h2, h2]; rfl
      · rw [if_neg h2]
    · rw [if_pos (by omega), if_neg h1]
  clear_value ext
  have hsp : Spec.step E (permOf m.st.mode m.st.footprint) (absM E m) (.extendV2 k x a b) =
      ({ absM E m with L := (absM E m).L.set k (some (v, some (if a ≤ ext then old + ext else old))) }, .ok .unit) := by
    simp only [Spec.step]
    rw [if_neg (by omega)]
    simp only [extendAt, getAt_current hk hp hc, hex, change]
  refine ⟨by rw [hs.res, hsp], ?_, ?_⟩
  · have : current E (step E m (.extendV2 k x a b)).1 k = (absM E (step E m (.extendV2 k x a b)).1).L k := rfl
    rw [this, hs.abs, hsp]
    simp [Ledger.set]
  · intro k' hk'
    have : current E (step E m (.extendV2 k x a b)).1 k' = (absM E (step E m (.extendV2 k x a b)).1).L k' := rfl
    rw [this, hs.abs, hsp]
    simp [Ledger.set, hk']
    rfl

/-- C20: a temporary entry is never given less than what was asked: a request beyond the network maximum fails with
Storage/InvalidAction and changes nothing. -/
theorem C20_temporary_not_clamped {E : Env K V} {m : Machine K V} (hR : Reachable E m) {k : K} {v : V} {old M x : Nat}
    (hk : E.keys.supported k = true) (hp : m.st.mode = .enforcing → (m.st.footprint.get k).isSome)
    (hc : current E m k = some (v, some old)) (hl : E.li.seq ≤ old) (hM : LastPossible E.li M)
    (hd : E.keys.durability k = some .temporary) (hx : M - E.li.seq < x) :
    (∀ t ≤ x, (step E m (.extend k t x)).2 = .error (.host .storage .invalidAction) ∧
      ∀ k', current E (step E m (.extend k t x)).1 k' = current E m k') ∧
    (∀ a b, a ≤ b → (step E m (.extendV2 k x a b)).2 = .error (.host .storage .invalidAction) ∧
      ∀ k', current E (step E m (.extendV2 k x a b)).1 k' = current E m k') := by
  rw [lastPossible_iff] at hM
  have hi : extendInfo E k x v (some old) = .error (.host .storage .invalidAction) := by
    unfold extendInfo
    simp only [hM, hd]
    rw [if_neg (by omega), if_pos ⟨trivial, hx⟩]
  constructor
  · intro t ht
    have hs := step_ok (o := .extend k t x) (ok_reachable hR) trivial
    have hsp : Spec.step E (permOf m.st.mode m.st.footprint) (absM E m) (.extend k t x) =
        (absM E m, .error (.host .storage .invalidAction)) := by
      simp only [Spec.step]
      rw [if_neg (by omega)]
      simp only [extendAt, getAt_current hk hp hc, extended, hi, change]
    refine ⟨by rw [hs.res, hsp], ?_⟩
    intro k'
    have : current E (step E m (.extend k t x)).1 k' = (absM E (step E m (.extend k t x)).1).L k' := rfl
    rw [this, hs.abs, hsp]
    rfl
  · intro a b hab
    have hs := step_ok (o := .extendV2 k x a b) (ok_reachable hR) trivial
    have hsp : Spec.step E (permOf m.st.mode m.st.footprint) (absM E m) (.extendV2 k x a b) =
        (absM E m, .error (.host .storage .invalidAction)) := by
      simp only [Spec.step]
      rw [if_neg (by omega)]
      simp only [extendAt, getAt_current hk hp hc, extendedV2, hi, change]
    refine ⟨by rw [hs.res, hsp], ?_⟩
    intro k'
    have : current E (step E m (.extendV2 k x a b)).1 k' = (absM E (step E m (.extendV2 k x a b)).1).L k' := rfl
    rw [this, hs.abs, hsp]
    rfl

/-- The live-until ledger of an entry. -/
def liveUntil (e : Option (Entry V)) : Option Nat := e.bind Prod.snd

theorem extended_bounds {E : Env K V} {k : K} {t x M : Nat} {e e' : Entry V} (hM : E.li.maxLiveUntil = some M)
    (h : extended E k t x e = .ok e') : ∃ old new, e.2 = some old ∧ e'.2 = some new ∧ old ≤ new ∧ new ≤ max old M := by
  unfold extended at h
  cases hi : extendInfo E k x e.1 e.2 with
  | error err => rw [hi] at h; cases h
  | ok i =>
    obtain ⟨v, l⟩ := e
    cases l with
    | none => simp [extendInfo] at hi
    | some old =>
      have hio : i.oldLiveUntil = old ∧ i.maxLiveUntil = M := by
        unfold extendInfo at hi
        simp only [hM] at hi
        split at hi
        · cases hi
        · split at hi
          · cases hi
          · split at hi
            · cases hi
            · cases hi; exact ⟨rfl, rfl⟩
      rw [hi] at h
      simp only [hio.1, hio.2] at h
      split at h
      · cases h
      · split at h
        · cases h; exact ⟨old, _, rfl, rfl, by omega, by omega⟩
        · cases h; exact ⟨old, old, rfl, rfl, by omega, by omega⟩

theorem extendedV2_bounds {E : Env K V} {k : K} {x a b M : Nat} {e e' : Entry V} (hM : E.li.maxLiveUntil = some M)
    (h : extendedV2 E k x a b e = .ok e') : ∃ old new, e.2 = some old ∧ e'.2 = some new ∧ old ≤ new ∧ new ≤ max old M := by
  unfold extendedV2 at h
  cases hi : extendInfo E k x e.1 e.2 with
  | error err => rw [hi] at h; cases h
  | ok i =>
    obtain ⟨v, l⟩ := e
    cases l with
    | none => simp [extendInfo] at hi
    | some old =>
      have hio : i.oldLiveUntil = old ∧ i.maxLiveUntil = M := by
        unfold extendInfo at hi
        simp only [hM] at hi
        split at hi
        · cases hi
        · split at hi
          · cases hi
          · split at hi
            · cases hi
            · cases hi; exact ⟨rfl, rfl⟩
      rw [hi] at h
      simp only [hio.1, hio.2] at h
      split at h
      · cases h; exact ⟨old, old, rfl, rfl, by omega, by omega⟩
      · split at h
        · cases h
        · split at h
          · cases h; exact ⟨old, old, rfl, rfl, by omega, by omega⟩
          · cases h; exact ⟨old, _, rfl, rfl, by omega, by omega⟩

/-- C20: whatever the arguments and the outcome, an extension never shortens a lifetime, never takes one beyond the network
maximum, and never changes the data of any entry. -/
theorem C20_never_shortens {E : Env K V} {m : Machine K V} (hR : Reachable E m) {M : Nat}
    (hM : LastPossible E.li M) {o : Op K V} (ho : (∃ k t x, o = .extend k t x) ∨ ∃ k x a b, o = .extendV2 k x a b)
    (k : K) :
    valueOf (current E (step E m o).1 k) = valueOf (current E m k) ∧
    (liveUntil (current E (step E m o).1 k) = liveUntil (current E m k) ∨
      ∃ old new, liveUntil (current E m k) = some old ∧ liveUntil (current E (step E m o).1 k) = some new ∧
        old ≤ new ∧ new ≤ max old M) := by
  rw [lastPossible_iff] at hM
  have key : ∀ (k' : K) (f : Entry V → Res (Entry V)) (r : Res (Ledger K V)),
      r = extendAt E (permOf m.st.mode m.st.footprint) (absM E m).L k' f → (∀ e e', f e = .ok e' → e'.1 = e.1) →
      (∀ e e', f e = .ok e' → ∃ old new, e.2 = some old ∧ e'.2 = some new ∧ old ≤ new ∧ new ≤ max old M) →
      valueOf ((change (absM E m) r).1.L k) = valueOf (current E m k) ∧
      (liveUntil ((change (absM E m) r).1.L k) = liveUntil (current E m k) ∨
      ∃ old new, liveUntil (current E m k) = some old ∧ liveUntil ((change (absM E m) r).1.L k) = some new ∧
        old ≤ new ∧ new ≤ max old M) := by
    intro k' f r hr hf1 hf2
    cases hrr : r with
    | error err => exact ⟨rfl, .inl rfl⟩
    | ok L =>
      rw [hrr] at hr
      obtain ⟨e, e', h1, h2, h3, h4⟩ := extendAt_value hf1 hr.symm
      refine ⟨h4 k, ?_⟩
      simp only [change]
      by_cases hk : k = k'
      · subst hk
        right
        obtain ⟨old, new, g1, g2, g3, g4⟩ := hf2 e e' h2
        have hcur : current E m k = some e := h1
        refine ⟨old, new, by simp [liveUntil, hcur, g1], ?_, g3, g4⟩
        rw [h3]
        simp [liveUntil, Ledger.set, g2]
      · left
        rw [h3]
        simp only [Ledger.set, hk, if_false]
        rfl
  have hcur : current E (step E m o).1 k = (absM E (step E m o).1).L k := rfl
  have hOk : OpOk E o := by rcases ho with ⟨_, _, _, rfl⟩ | ⟨_, _, _, _, rfl⟩ <;> trivial
  rw [hcur, (step_ok (ok_reachable hR) hOk).abs]
  rcases ho with ⟨k', t, x, rfl⟩ | ⟨k', x, a, b, rfl⟩
  · simp only [Spec.step]
    split
    · exact ⟨rfl, .inl rfl⟩
    · exact key k' _ _ rfl (fun _ _ => extended_value) (fun _ _ => extended_bounds hM)
  · simp only [Spec.step]
    split
    · exact ⟨rfl, .inl rfl⟩
    · exact key k' _ _ rfl (fun _ _ => extendedV2_value) (fun _ _ => extendedV2_bounds hM)

/-! ### C21 -/

theorem getEntry_recording {E : Env K V} {m : Machine K V} {src : K → Option (Entry V)} {k : K}
    (hmode : m.st.mode = .recording src) (hload : m.st.map.get k = none) (hk : E.keys.supported k = true) :
    tryGet E m.st k = (match handleMaybeExpired E (Store.mk
        (recordAccess (recordAccess m.st.footprint k .readOnly) k .readOnly) m.st.mode (m.st.map.insert k (src k))) k with
      | (s, .error e) => (s, .error e)
      | (s, .ok ()) => match s.map.get k with
        | none => (s, .error (.host .storage .internalError))
        | some v => (s, .ok v)) := by
  have hn : m.st.map.contains k = false := by simp [FMap.contains, hload]
  unfold tryGet prepareReadOnly
  simp only [hk, if_true, hmode, Store.record, Store.load, hn, Bool.false_eq_true, if_false]
  rfl

/-- C21: in recording mode the first read of a key whose temporary entry has expired finds nothing. -/
theorem C21_expired_temporary_is_gone {E : Env K V} {m : Machine K V} {src : K → Option (Entry V)} {k : K} {v : V} {l : Nat}
    (hmode : m.st.mode = .recording src) (hload : m.st.map.get k = none) (hk : E.keys.supported k = true)
    (hsrc : src k = some (v, some l)) (hl : l < E.li.seq) (hd : E.keys.durability k = some .temporary) :
    (step E m (.get k)).2 = .error (.host .storage .missingValue) ∧ (step E m (.has k)).2 = .ok (.bool false) := by
  have : tryGet E m.st k = (match handleMaybeExpired E (Store.mk
        (recordAccess (recordAccess m.st.footprint k .readOnly) k .readOnly) m.st.mode (m.st.map.insert k (src k))) k with
      | (s, .error e) => (s, .error e)
      | (s, .ok ()) => match s.map.get k with
        | none => (s, .error (.host .storage .internalError))
        | some v => (s, .ok v)) := getEntry_recording hmode hload hk
  simp only [handleMaybeExpired, FMap.get_insert_self, hsrc, hd, if_pos hl] at this
  simp only [step, getEntry, Storage.has, this, wrap, Option.isSome_none]
  exact ⟨trivial, trivial⟩

/-- C21: in recording mode the first read of a key whose persistent entry has expired finds its data with the minimum
lifetime, and the key becomes part of the read-write footprint. -/
theorem C21_expired_persistent_is_restored {E : Env K V} {m : Machine K V} {src : K → Option (Entry V)} {k : K} {v : V}
    {l : Nat} (hmode : m.st.mode = .recording src) (hload : m.st.map.get k = none) (hk : E.keys.supported k = true)
    (hsrc : src k = some (v, some l)) (hl : l < E.li.seq) (hd : E.keys.durability k = some .persistent)
    (hu : E.li.seq + (E.li.minPersistent - 1) ≤ u32Max) :
    (step E m (.get k)).2 = .ok (.entry (v, some (E.li.seq + (E.li.minPersistent - 1)))) ∧
    (step E m (.has k)).2 = .ok (.bool true) ∧
    (step E m (.get k)).1.st.footprint.get k = some .readWrite ∧
    (step E m (.has k)).1.st.footprint.get k = some .readWrite := by
  have : tryGet E m.st k = (match handleMaybeExpired E (Store.mk
        (recordAccess (recordAccess m.st.footprint k .readOnly) k .readOnly) m.st.mode (m.st.map.insert k (src k))) k with
      | (s, .error e) => (s, .error e)
      | (s, .ok ()) => match s.map.get k with
        | none => (s, .error (.host .storage .internalError))
        | some v => (s, .ok v)) := getEntry_recording hmode hload hk
  have hml : E.li.minLiveUntil .persistent = some (E.li.seq + (E.li.minPersistent - 1)) := by
    unfold LedgerInfo.minLiveUntil checkedAddU32; simp only [if_pos hu]
  simp only [handleMaybeExpired, FMap.get_insert_self, hsrc, hd, if_pos hl, hml] at this
  have hrw : ∀ f : FMap K Access, (recordAccess f k .readWrite).get k = some .readWrite := by
    intro f
    have := allows_record_self f k .readWrite
    simpa [allows] using this
  simp only [step, getEntry, Storage.has, this, wrap, Option.isSome_some, hrw]
  exact ⟨trivial, trivial, trivial, trivial⟩

/-- C21: in recording mode the first read of a live entry returns it unchanged and the key is declared (read-only if it was
not declared before). -/
theorem C21_live_is_unchanged {E : Env K V} {m : Machine K V} {src : K → Option (Entry V)} {k : K} {v : V} {l : Nat}
    (hmode : m.st.mode = .recording src) (hload : m.st.map.get k = none) (hk : E.keys.supported k = true)
    (hsrc : src k = some (v, some l)) (hl : E.li.seq ≤ l) :
    (step E m (.get k)).2 = .ok (.entry (v, some l)) ∧ (step E m (.has k)).2 = .ok (.bool true) ∧
    (step E m (.get k)).1.st.footprint.get k = some ((m.st.footprint.get k).getD .readOnly) := by
  have h0 : tryGet E m.st k = (match handleMaybeExpired E (Store.mk
        (recordAccess (recordAccess m.st.footprint k .readOnly) k .readOnly) m.st.mode (m.st.map.insert k (src k))) k with
      | (s, .error e) => (s, .error e)
      | (s, .ok ()) => match s.map.get k with
        | none => (s, .error (.host .storage .internalError))
        | some v => (s, .ok v)) := getEntry_recording hmode hload hk
  have hh : ∀ s : Store K V, s.map.get k = some (some (v, some l)) → handleMaybeExpired E s k = (s, .ok ()) := by
    intro s hs
    apply handle_live
    intro e he
    rw [hs] at he
    cases he
    rintro v' l' d h _
    cases h
    exact ⟨l, rfl, hl⟩
  rw [hh _ (by simp [FMap.get_insert_self, hsrc])] at h0
  simp only [FMap.get_insert_self, hsrc] at h0
  have hfp : ∀ f : FMap K Access, (recordAccess (recordAccess f k .readOnly) k .readOnly).get k =
      some ((f.get k).getD .readOnly) := by
    intro f
    have h1 : ∀ f : FMap K Access, (recordAccess f k .readOnly).get k = some ((f.get k).getD .readOnly) := by
      intro f
      unfold recordAccess
      cases h : f.get k with
      | none => simp [FMap.get_insert_self]
      | some a => cases a <;> simp [h]
    rw [h1, h1]; rfl
  simp only [step, getEntry, Storage.has, h0, wrap, Option.isSome_some, hfp]
  exact ⟨trivial, trivial, trivial⟩

/-! ### Concrete cases -/

namespace StorageExample

/-- Keys 0-9 are temporary, 10-19 persistent, others have no lifetime. -/
def keys : Keys Nat Nat :=
  { supported := fun k => k < 100, entrySupported := fun _ => true,
    durability := fun k => if k < 10 then some .temporary else if k < 20 then some .persistent else none }

def env : Env Nat Nat := { keys := keys, li := { seq := 100, minTemp := 16, minPersistent := 50, maxTtl := 1000 }, feature := true }

/-- 1: live, 2: expired temporary, 11: live, 12: expired persistent, 30: no lifetime. -/
def src : Nat → Option (Entry Nat) := fun k =>
  if k = 1 then some (7, some 120) else if k = 2 then some (8, some 99) else if k = 11 then some (9, some 150)
  else if k = 12 then some (10, some 3) else if k = 30 then some (11, none) else none

theorem snapshotOk : SnapshotOk env src := by
  refine ⟨?_, rfl⟩
  intro k v d h
  unfold src at h
  split at h
  · cases h
  · split at h
    · cases h
    · split at h
      · cases h
      · split at h
        · cases h
        · split at h
          · rename_i hk; subst hk; simp [env, keys]
          · cases h

theorem start : Start env (recording src) := .recording snapshotOk rfl

/-- A program that reads, branches on what it read, writes, and rolls back. -/
def prog : Prog Nat Nat :=
  .op (.has 2) fun r => match r with
    | .ok (.bool false) => .op .mark fun _ => .op (.write 12 (fun v => v.getD 0 + 1)) fun _ => .op .abort fun _ =>
        .op (.get 12) fun _ => .op (.write 5 (fun _ => 3)) fun _ => .op (.extend 1 50 60) fun _ => .op (.get 1) fun _ => .done
    | _ => .done

theorem progOk : ProgOk env prog := by
  refine .op trivial fun r => ?_
  split
  · exact .op trivial fun _ => .op trivial fun _ => .op trivial fun _ => .op trivial fun _ => .op trivial fun _ =>
      .op trivial fun _ => .op trivial fun _ => .done
  · exact .done

/-- The recorded footprint: 2 and 1 read, 12 and 5 written. -/
example : (runProg env prog (recording src)).1.st.footprint.get 12 = some .readWrite ∧
    (runProg env prog (recording src)).1.st.footprint.get 1 = some .readOnly ∧
    (runProg env prog (recording src)).1.st.footprint.get 5 = some .readWrite ∧
    (runProg env prog (recording src)).1.st.footprint.get 11 = none := by decide

/-- The results of the recording run: the write to 12 is rolled back, the extension is not. -/
example : (runProg env prog (recording src)).2 = [.ok (.bool false), .ok .unit, .ok .unit, .ok .unit,
    .ok (.entry (10, some 149)), .ok .unit, .ok .unit, .ok (.entry (7, some 160))] := rfl

/-- The hypotheses of `C19_recorded_footprint_replays` are met: the map loaded from the snapshot for the recorded keys. -/
def F : FMap Nat Access := (runProg env prog (recording src)).1.st.footprint
def loaded : FMap Nat (Option (Entry Nat)) := F.map fun x => (x.1, view env x.1 (src x.1))

example : ∀ k, (F.get k).isSome → loaded.get k = some (view env k (src k)) := by
  have : ∀ x ∈ F.map Prod.fst, loaded.get x = some (view env x (src x)) := by decide
  intro k hk
  obtain ⟨v, hv⟩ := Option.isSome_iff_exists.mp hk
  exact this k (List.mem_map.mpr ⟨(k, v), FMap.mem_of_get hv, rfl⟩)

example : (runProg { env with feature := false } prog (enforcing F loaded)).2 = (runProg env prog (recording src)).2 := rfl

/-- `C17_only_declared_data_changes`, `C17_undeclared_key`: a host that may read 1 and write 2 but not touch 3. -/
def fp : FMap Nat Access := [(1, .readOnly), (2, .readWrite)]
def map : FMap Nat (Option (Entry Nat)) := [(1, some (7, some 120)), (2, none)]

theorem isLoaded : Loaded env fp map := by
  refine ⟨?_, ?_⟩
  · intro k hk
    by_cases h1 : k = 1
    · subst h1; rfl
    · by_cases h2 : k = 2
      · subst h2; rfl
      · simp [fp, FMap.get, Ne.symm h1, Ne.symm h2] at hk
  · intro k e he v l d h _
    by_cases h1 : k = 1
    · subst h1; cases he; cases h; exact ⟨120, rfl, by decide⟩
    · by_cases h2 : k = 2
      · subst h2; cases he; cases h
      · simp [map, FMap.get, Ne.symm h1, Ne.symm h2] at he

example : (step env (enforcing fp map) (.get 3)).2 = .error (.host .storage .exceededLimit) := rfl
example : (step env (enforcing fp map) (.del 1)).2 = .error (.host .storage .exceededLimit) := rfl
example : (step env (enforcing fp map) (.write 2 (fun _ => 4))).2 = .ok .unit := rfl

/-- `C20_extend_exact`, `C20_extend_bounded_exact`, `C20_temporary_not_clamped` at key 1 of that host: 20 ledgers left. -/
example : Reachable env (enforcing fp map) ∧ current env (enforcing fp map) 1 = some (7, some 120) ∧
    LastPossible env.li 1099 ∧
    current env (step env (enforcing fp map) (.extend 1 30 500)).1 1 = some (7, some 600) ∧
    current env (step env (enforcing fp map) (.extend 1 10 500)).1 1 = some (7, some 120) ∧
    current env (step env (enforcing fp map) (.extendV2 1 500 5 40)).1 1 = some (7, some 160) ∧
    (step env (enforcing fp map) (.extend 1 30 1000)).2 = .error (.host .storage .invalidAction) :=
  ⟨⟨_, [], .enforcing isLoaded, by simp, rfl⟩, rfl, ⟨by decide, by decide⟩, by decide, by decide, by decide, rfl⟩

/-- C21: the three kinds of entries, read for the first time. -/
example : (step env (recording src) (.get 2)).2 = .error (.host .storage .missingValue) ∧
    (step env (recording src) (.get 12)).2 = .ok (.entry (10, some 149)) ∧
    (step env (recording src) (.get 11)).2 = .ok (.entry (9, some 150)) := ⟨rfl, rfl, rfl⟩

end StorageExample

end Soroban.Props
