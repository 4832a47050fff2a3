import Verif.Lemmas.LazyLog
import Mathlib.Data.List.Perm.Subperm
/-!
C96: that ledger entries are decoded only when they are first read cannot be observed, as long as the entries that are read are
sound; each is decoded at most once; and what happens to entries that are not sound.
-/
namespace Soroban.Props
open Soroban Soroban.Storage Soroban.LazyEntry Soroban.LazyEntry.Spec

section
variable {K B V : Type} [DecidableEq K]

/-- **C96**. A transaction that reads only sound entries (those of the keys in `G`) sees the same, operation by operation, as if all
entries had been decoded at the start, whatever the others contain: they may even be garbage. It ends with the same footprint, the
same keys with the same live-until ledgers, and reports the same new values. -/
theorem C96_enforcing (E : Env K V) (C : Codec K B V) (G : K → Prop) (fp : FMap K Access) {es : List (K × Option (B × Option Nat))}
    {ds : List (K × Option (Entry V))} (hm : List.Forall₂ (fun e d => e.1 = d.1 ∧ Match C G e.1 e.2 d.2) es ds) (p : Prog K V)
    (hr : ∀ k ∈ readsOf E C p (enforcing fp es), G k) :
    let lz := LazyEntry.runProg E C p (enforcing fp es)
    let eg := Storage.runProg E p (eager fp ds)
    lz.2 = eg.2 ∧ lz.1.lz.st.footprint = eg.1.st.footprint ∧ (∀ k, outline lz.1.lz.st k = outline eg.1.st k) ∧
      ∀ ks, (∀ k ∈ ks, G k) → (newValues C lz.1.lz ks).2 = .ok (ks.map (fun k => (valueAt eg.1.st k).map C.enc)) := by
  obtain ⟨h1, h2⟩ := runProg_same E p (enforcing_sim hm fp) hr
  exact ⟨h2, h1.sim.st.fp, h1.sim.outline, fun ks hk => newValues_same ks h1.sim hk⟩

/-- **C96**. The same of a transaction recorded over a snapshot. -/
theorem C96_recording (E : Env K V) (C : Codec K B V) (G : K → Prop) {src : K → Option (B × Option Nat)}
    {src' : K → Option (Entry V)} (hm : ∀ k, Match C G k (src k) (src' k)) (p : Prog K V)
    (hr : ∀ k ∈ readsOf E C p (recording src), G k) :
    let lz := LazyEntry.runProg E C p (recording src)
    let eg := Storage.runProg E p (eagerRecording src')
    lz.2 = eg.2 ∧ lz.1.lz.st.footprint = eg.1.st.footprint ∧ (∀ k, outline lz.1.lz.st k = outline eg.1.st k) ∧
      ∀ ks, (∀ k ∈ ks, G k) → (newValues C lz.1.lz ks).2 = .ok (ks.map (fun k => (valueAt eg.1.st k).map C.enc)) := by
  obtain ⟨h1, h2⟩ := runProg_same E p (recording_sim hm) hr
  exact ⟨h2, h1.sim.st.fp, h1.sim.outline, fun ks hk => newValues_same ks h1.sim hk⟩

/-- **C96**. No entry is decoded, and paid for, more than once in a transaction and the computation of its changes, even if calls that
read it are rolled back; and those decoded were read, or are declared read-write. -/
theorem C96_once (E : Env K V) (C : Codec K B V) (fp : FMap K Access) (es : List (K × Option (B × Option Nat))) (p : Prog K V)
    (ws : List K) :
    let lz := (LazyEntry.runProg E C p (enforcing fp es)).1.lz
    let log := (newValues C lz ws).1.log
    log.Nodup ∧ log.length ≤ es.length ∧
      (∀ r ∈ lz.log, ∃ k, (loadedKeys es)[r]? = some k ∧ k ∈ readsOf E C p (enforcing fp es)) ∧
      ∀ r ∈ log, ∃ k, (loadedKeys es)[r]? = some k ∧ (k ∈ readsOf E C p (enforcing fp es) ∨ k ∈ ws) := by
  intro lz log
  obtain ⟨h1, h2⟩ := runProg_log (C := C) E p (enforcing_log fp es)
  have h3 := newValues_log (C := C) ws h1.lz
  have h4 : ∀ r ∈ lz.log, ∃ k, (loadedKeys es)[r]? = some k ∧ k ∈ readsOf E C p (enforcing fp es) := by
    intro r hr
    rcases h2 r hr with hx | ⟨k, hk, hx⟩
    · cases hx
    · exact ⟨k, hx, hk⟩
  refine ⟨h3.ok.nodup, ?_, h4, ?_⟩
  · have h5 : log.length ≤ (loadedKeys es).length := by
      have : log ⊆ List.range (loadedKeys es).length := fun r hr => List.mem_range.mpr (h3.ok.done r hr).1
      have := (List.Nodup.subperm h3.ok.nodup this).length_le
      rwa [List.length_range] at this
    refine Nat.le_trans h5 ?_
    unfold loadedKeys
    rw [List.length_map]
    exact List.length_filter_le _ _
  · intro r hr
    rcases h3.log r hr with hx | ⟨k, hk, hx⟩
    · obtain ⟨k, a, b⟩ := h4 r hx
      exact ⟨k, a, .inl b⟩
    · exact ⟨k, hx, .inr hk⟩

/-- **C96**. An entry that cannot be decoded exists, for those who only ask that, but every attempt to read it fails. -/
theorem C96_garbage (E : Env K V) (C : Codec K B V) {L : Lazy K B V} {k : K} (hm : MayRead E L k) {b : B} {l : Option Nat}
    (hb : Raw L k b l) {e : Err} (he : C.dec b = .error e) :
    LazyEntry.has E L k = (L, .ok true) ∧ LazyEntry.getEntry E C L k = (L, .error e) ∧ newValue C L k = (L, .error e) := by
  obtain ⟨r, h1, h2⟩ := hb
  have h3 := tryGetHost_may hm h1
  have h4 : decodedAt C L r = (L, .error e) := by unfold decodedAt; rw [h2]; dsimp only; rw [he]
  refine ⟨?_, ?_, ?_⟩
  · unfold LazyEntry.has; rw [h3]; rfl
  · unfold LazyEntry.getEntry tryGetFull; rw [h3]; dsimp only; rw [h4]
  · unfold newValue; rw [h1]; dsimp only; rw [h4]

/-- **C96**. The first attempt to read an entry stored under a key that is not its own is an internal error. The next one succeeds. The
new value is reported in any case. -/
theorem C96_misplaced (E : Env K V) (C : Codec K B V) {L : Lazy K B V} {k : K} (hm : MayRead E L k) {b : B} {l : Option Nat}
    (hb : Raw L k b l) {v : V} (hv : C.dec b = .ok v) (hk : C.keyOf v ≠ some k) :
    LazyEntry.has E L k = (L, .ok true) ∧ (LazyEntry.getEntry E C L k).2 = .error (.host .storage .internalError) ∧
      (LazyEntry.getEntry E C (LazyEntry.getEntry E C L k).1 k).2 = .ok (v, l) ∧ (newValue C L k).2 = .ok (some (C.enc v)) := by
  obtain ⟨r, h1, h2⟩ := hb
  have h3 := tryGetHost_may hm h1
  have h4 : decodedAt C L r =
      ({ L with heap := L.heap.set r { encoded := some b, decoded := some v }, log := L.log ++ [r] }, .ok v) := by
    unfold decodedAt; rw [h2]; dsimp only; rw [hv]
  have h5 : isDecoded L r = false := by unfold isDecoded; rw [h2]; rfl
  have h6 : checkKey C k v = .error (.host .storage .internalError) := by
    unfold checkKey
    cases hx : C.keyOf v with
    | none => rfl
    | some k' =>
      dsimp only
      rw [if_neg]
      rintro rfl
      exact hk hx
  have h7 : LazyEntry.getEntry E C L k =
      ({ L with heap := L.heap.set r { encoded := some b, decoded := some v }, log := L.log ++ [r] },
        .error (.host .storage .internalError)) := by
    unfold LazyEntry.getEntry tryGetFull
    rw [h3]
    dsimp only
    rw [h4]
    dsimp only
    rw [h5]
    simp only [Bool.false_eq_true, if_false]
    rw [h6]
  refine ⟨?_, by rw [h7], ?_, ?_⟩
  · unfold LazyEntry.has; rw [h3]; rfl
  · rw [h7]
    dsimp only
    have hin := (List.getElem?_eq_some_iff.mp h2).1
    have g1 := tryGetHost_may (E := E)
      (L := { L with heap := L.heap.set r { encoded := some b, decoded := some v }, log := L.log ++ [r] }) (k := k) hm h1
    have g2 : (L.heap.set r { encoded := some b, decoded := some v })[r]? = some { encoded := some b, decoded := some v } := by
      rw [List.getElem?_set]; simp only [if_true, hin]
    unfold LazyEntry.getEntry tryGetFull
    rw [g1]
    dsimp only
    unfold decodedAt isDecoded
    dsimp only
    rw [g2]
    rfl
  · unfold newValue; rw [h1]; dsimp only; rw [h4]

end

/-! ### a concrete case: encoded entries are pairs of a key and a value; entry 2 is stored as entry 3; entry 4 is garbage -/
namespace LazyCase

def codec : Codec Nat (List Nat) (Nat × Nat) where
  dec b := match b with | [k, v] => .ok (k, v) | _ => .error (.host .value .invalidInput)
  enc v := [v.1, v.2]
  keyOf v := some v.1

def env : Env Nat (Nat × Nat) where
  keys := { supported := fun _ => true, entrySupported := fun _ => true, durability := fun _ => some .persistent }
  li := { seq := 10, minTemp := 5, minPersistent := 20, maxTtl := 100 }
  feature := false

def fp : FMap Nat Access := [(1, .readWrite), (2, .readWrite), (3, .readOnly), (4, .readOnly), (5, .readWrite)]
def es : List (Nat × Option (List Nat × Option Nat)) :=
  [(1, some ([1, 100], some 12)), (2, some ([2, 200], some 13)), (3, some ([2, 300], some 14)), (4, some ([], some 15)), (5, none)]
/-- Decoded, with anything for the entries that are not sound. -/
def ds : List (Nat × Option (Entry (Nat × Nat))) :=
  [(1, some ((1, 100), some 12)), (2, some ((2, 200), some 13)), (3, some ((0, 0), some 14)), (4, some ((0, 0), some 15)), (5, none)]

/-- Tests the garbage and extends it, reads 1 in a call that is rolled back, then again, and updates 2 and 5. -/
def prog : Prog Nat (Nat × Nat) :=
  .op (.has 4) fun _ => .op (.extend 4 50 50) fun _ => .op .mark fun _ => .op (.get 1) fun _ => .op .abort fun _ =>
  .op (.get 1) fun _ => .op (.write 2 fun v => (2, (v.map Prod.snd).getD 0 + 1)) fun _ => .op (.write 5 fun _ => (5, 500)) fun _ => .done

theorem sound : List.Forall₂ (fun e d => e.1 = d.1 ∧ Match codec (fun k => k ∈ [1, 2, 5]) e.1 e.2 d.2) es ds := by
  refine .cons ⟨rfl, rfl, fun _ => ⟨rfl, rfl⟩⟩ (.cons ⟨rfl, rfl, fun _ => ⟨rfl, rfl⟩⟩ (.cons ⟨rfl, rfl, fun h => ?_⟩
    (.cons ⟨rfl, rfl, fun h => ?_⟩ (.cons ⟨rfl, trivial⟩ .nil))))
  · exact absurd h (by decide)
  · exact absurd h (by decide)

example : ∀ k ∈ readsOf env codec prog (enforcing fp es), k ∈ [1, 2, 5] := by decide
/-- Each of the entries 1 and 2 is decoded once; 3, 4 are not, and 5 never was encoded. -/
example : (LazyEntry.runProg env codec prog (enforcing fp es)).1.lz.log = [0, 1] := by decide
example : (newValues codec (LazyEntry.runProg env codec prog (enforcing fp es)).1.lz [1, 2, 5]).2 =
    .ok [some [1, 100], some [2, 201], some [5, 500]] := rfl
/-- Recording reads entry 1 anew after the rollback, and decodes it again. -/
example : (LazyEntry.runProg env codec prog (recording (fun k => (FMap.get es k).getD none))).1.lz.log = [1, 2, 3] := by decide
/-- The hypotheses of `C96_garbage` and `C96_misplaced` hold at the start. -/
example : MayRead env (enforcing (V := Nat × Nat) fp es).lz 4 ∧ Raw (enforcing (V := Nat × Nat) fp es).lz 4 [] (some 15) :=
  ⟨⟨rfl, rfl, rfl⟩, 3, rfl, rfl⟩
example : MayRead env (enforcing (V := Nat × Nat) fp es).lz 3 ∧ Raw (enforcing (V := Nat × Nat) fp es).lz 3 [2, 300] (some 14) ∧
    codec.dec [2, 300] = .ok (2, 300) ∧ codec.keyOf (2, 300) ≠ some 3 :=
  ⟨⟨rfl, rfl, rfl⟩, ⟨2, rfl, rfl⟩, rfl, by decide⟩

end LazyCase
end Soroban.Props
