import Verif.Spec.LazyEntry
import Mathlib.Data.List.Forall2
/-! Lemmas on lazily decoded entries. -/
set_option linter.unusedSectionVars false
namespace Soroban.LazyEntry
open Soroban Soroban.Storage Soroban.LazyEntry.Spec

section
variable {K A B V : Type} [DecidableEq K]

/-! ### relations between storages of different kinds of entries -/

/-- Both absent, or related with the same live-until ledger. -/
inductive EntRel (ρ : A → V → Prop) : Option (Entry A) → Option (Entry V) → Prop
  | none : EntRel ρ none none
  | some {a : A} {v : V} {l : Option Nat} (h : ρ a v) : EntRel ρ (some (a, l)) (some (v, l))

/-- Both unknown, or related. -/
inductive SlotRel (ρ : A → V → Prop) : Option (Option (Entry A)) → Option (Option (Entry V)) → Prop
  | none : SlotRel ρ none none
  | some {x : Option (Entry A)} {y : Option (Entry V)} (h : EntRel ρ x y) : SlotRel ρ (some x) (some y)

def MapRel (ρ : K → A → V → Prop) (m : FMap K (Option (Entry A))) (m' : FMap K (Option (Entry V))) : Prop :=
  ∀ k, SlotRel (ρ k) (m.get k) (m'.get k)

theorem MapRel.insert {ρ : K → A → V → Prop} {m : FMap K (Option (Entry A))} {m' : FMap K (Option (Entry V))} (h : MapRel ρ m m')
    {k : K} {x : Option (Entry A)} {y : Option (Entry V)} (hx : EntRel (ρ k) x y) : MapRel ρ (m.insert k x) (m'.insert k y) := by
  intro k'
  rw [FMap.get_insert, FMap.get_insert]
  by_cases hk : k' = k
  · subst hk; simp only [if_true]; exact .some hx
  · simp only [hk, if_false]; exact h k'

theorem MapRel.mono {ρ ρ' : K → A → V → Prop} (hρ : ∀ k a v, ρ k a v → ρ' k a v) {m : FMap K (Option (Entry A))}
    {m' : FMap K (Option (Entry V))} (h : MapRel ρ m m') : MapRel ρ' m m' := by
  intro k
  have := h k
  generalize m.get k = x at this ⊢
  generalize m'.get k = y at this ⊢
  cases this with
  | none => exact .none
  | some hx =>
    refine .some ?_
    cases hx with
    | none => exact .none
    | some hv => exact .some (hρ _ _ _ hv)

/-- The same footprint, and related maps. -/
structure StRel (ρ : K → A → V → Prop) (s : Store K A) (s' : Store K V) : Prop where
  fp : s.footprint = s'.footprint
  map : MapRel ρ s.map s'.map

/-- The state after an operation keeps the mode. -/
theorem handle_mode (E : Env K V) (s : Store K V) (k : K) : (handleMaybeExpired E s k).1.mode = s.mode := by
  unfold handleMaybeExpired
  repeat' split
  all_goals rfl

theorem handle_rel {ρ : K → Nat → V → Prop} (E : Env K V) {s : Store K Nat} {s' : Store K V} (h : StRel ρ s s') (k : K) :
    StRel ρ (handleMaybeExpired (refEnv E) s k).1 (handleMaybeExpired E s' k).1 ∧
      (handleMaybeExpired (refEnv E) s k).2 = (handleMaybeExpired E s' k).2 := by
  have hk := h.map k
  unfold handleMaybeExpired
  generalize hx : s.map.get k = x at hk
  generalize hy : s'.map.get k = y at hk
  cases hk with
  | none => exact ⟨h, rfl⟩
  | some hv =>
    cases hv with
    | none => exact ⟨h, rfl⟩
    | @some a v l hv =>
      dsimp only [refEnv]
      cases hd : E.keys.durability k with
      | none => exact ⟨h, rfl⟩
      | some d =>
        dsimp only
        cases l with
        | none => exact ⟨h, rfl⟩
        | some l =>
          dsimp only
          by_cases hl : l < E.li.seq
          · simp only [hl, if_true]
            cases d with
            | temporary => exact ⟨⟨h.fp, h.map.insert .none⟩, rfl⟩
            | persistent =>
              dsimp only
              cases E.li.minLiveUntil .persistent with
              | none => exact ⟨⟨by rw [h.fp], h.map⟩, rfl⟩
              | some m => exact ⟨⟨by rw [h.fp], h.map.insert (.some hv)⟩, rfl⟩
          · simp only [hl, if_false]; exact ⟨h, trivial⟩

/-! ### cells -/

/-- Cells keep what they encode; they are only ever filled with what that decodes to. -/
def CellLe (C : Codec K B V) (c c' : Cell B V) : Prop :=
  c'.encoded = c.encoded ∧
    (c'.decoded = c.decoded ∨ (c.decoded = none ∧ ∃ b v, c.encoded = some b ∧ C.dec b = .ok v ∧ c'.decoded = some v))

def HeapLe (C : Codec K B V) (h h' : List (Cell B V)) : Prop :=
  ∀ (r : Nat) (c : Cell B V), h[r]? = some c → ∃ c', h'[r]? = some c' ∧ CellLe C c c'

theorem CellLe.rfl' {C : Codec K B V} (c : Cell B V) : CellLe C c c := ⟨rfl, .inl rfl⟩

theorem HeapLe.refl (C : Codec K B V) (h : List (Cell B V)) : HeapLe C h h := fun _ c hc => ⟨c, hc, .rfl' c⟩

theorem HeapLe.append (C : Codec K B V) (h t : List (Cell B V)) : HeapLe C h (h ++ t) := by
  intro r c hc
  refine ⟨c, ?_, .rfl' c⟩
  rw [List.getElem?_append_left (List.getElem?_eq_some_iff.mp hc).1]
  exact hc

theorem HeapLe.trans {C : Codec K B V} {h0 h1 h2 : List (Cell B V)} (a : HeapLe C h0 h1) (b : HeapLe C h1 h2) : HeapLe C h0 h2 := by
  intro r0 c0 hc0
  obtain ⟨c1, hc1, l1⟩ := a r0 c0 hc0
  obtain ⟨c2, hc2, l2⟩ := b r0 c1 hc1
  refine ⟨c2, hc2, l2.1.trans l1.1, ?_⟩
  rcases l1.2 with q1 | ⟨q1, b, w, q2, q3, q4⟩
  · rcases l2.2 with q5 | ⟨q5, b, w, q6, q7, q8⟩
    · exact .inl (q5.trans q1)
    · exact .inr ⟨q1 ▸ q5, b, w, l1.1 ▸ q6, q7, q8⟩
  · rcases l2.2 with q5 | ⟨q5, _⟩
    · exact .inr ⟨q1, b, w, q2, q3, q5.trans q4⟩
    · rw [q4] at q5; cases q5

/-- What a cell under the key `k` stands for. -/
def Den (C : Codec K B V) (k : K) (c : Cell B V) (v : V) : Prop :=
  match c.encoded with
  | none => c.decoded = some v
  | some b => Says C k b v ∧ (c.decoded = none ∨ c.decoded = some v)

theorem Den.mono {C : Codec K B V} {k : K} {c c' : Cell B V} {v : V} (hc : CellLe C c c') (h : Den C k c v) : Den C k c' v := by
  unfold Den at *
  obtain ⟨he, hd⟩ := hc
  rw [he]
  cases hx : c.encoded with
  | none =>
    rw [hx] at h hd
    dsimp only at h ⊢
    rcases hd with hd | ⟨-, b, v', hb, -⟩
    · rw [hd]; exact h
    · cases hb
  | some b =>
    rw [hx] at h hd
    dsimp only at h ⊢
    refine ⟨h.1, ?_⟩
    rcases hd with hd | ⟨-, b', v', hb, hv, hd⟩
    · rw [hd]; exact h.2
    · obtain rfl := Option.some.inj hb
      rw [h.1.1] at hv
      obtain rfl := Except.ok.inj hv
      exact .inr hd

/-- A pointer under the key `k` points to a cell that stands for `v`, if `G k`. -/
def Ptr (C : Codec K B V) (G : K → Prop) (h : List (Cell B V)) (k : K) (r : Nat) (v : V) : Prop :=
  ∃ c, h[r]? = some c ∧ (G k → Den C k c v)

theorem Ptr.mono {C : Codec K B V} {G : K → Prop} {h h' : List (Cell B V)} (hh : HeapLe C h h') (k : K) (r : Nat) (v : V)
    (hp : Ptr C G h k r v) : Ptr C G h' k r v := by
  obtain ⟨c, hc, hd⟩ := hp
  obtain ⟨c', hc', hle⟩ := hh r c hc
  exact ⟨c', hc', fun g => (hd g).mono hle⟩

/-! ### the simulation -/

/-- The snapshots agree, in recording mode. -/
def ModeRel (C : Codec K B V) (G : K → Prop) (L : Lazy K B V) (s : Store K V) : Prop :=
  match L.st.mode, s.mode with
  | .enforcing, .enforcing => True
  | .recording src, .recording src' => (∀ k, src k = none) ∧ ∀ k, Match C G k (L.snapshot k) (src' k)
  | _, _ => False

structure Sim (C : Codec K B V) (G : K → Prop) (L : Lazy K B V) (s : Store K V) : Prop where
  st : StRel (Ptr C G L.heap) L.st s
  mode : ModeRel C G L s

theorem ModeRel.of {C : Codec K B V} {G : K → Prop} {L L' : Lazy K B V} {s s' : Store K V} (h : ModeRel C G L s)
    (h1 : L'.st.mode = L.st.mode) (h2 : L'.snapshot = L.snapshot) (h3 : s'.mode = s.mode) : ModeRel C G L' s' := by
  unfold ModeRel at *
  rw [h1, h2, h3]
  exact h

/-- What loading the entry of a key does. -/
theorem load_sim {C : Codec K B V} {G : K → Prop} {L : Lazy K B V} {s : Store K V} (h : Sim C G L s) (k : K) :
    HeapLe C L.heap (load L k).heap ∧ (load L k).st.mode = L.st.mode ∧ (load L k).snapshot = L.snapshot ∧
      (load L k).st.footprint = L.st.footprint ∧ (load L k).log = L.log ∧
      (L.st.mode = .enforcing → load L k = L) ∧
      (∀ src, s.mode = .recording src → MapRel (Ptr C G (load L k).heap) (load L k).st.map (s.load src k).map ∧
        ((load L k).st.map.get k).isSome = true) := by
  unfold load
  cases hm : L.st.mode with
  | enforcing =>
    refine ⟨.refl _ _, hm, rfl, rfl, rfl, fun _ => rfl, fun src hs => ?_⟩
    have := h.mode
    unfold ModeRel at this
    rw [hm, hs] at this
    exact this.elim
  | recording src0 =>
    dsimp only
    have hk := h.st.map k
    by_cases hc : L.st.map.contains k = true
    · simp only [hc, if_true]
      refine ⟨.refl _ _, hm, trivial, trivial, trivial, fun hx => (by cases hx), fun src hs => ⟨?_, hc⟩⟩
      have hc' : s.map.contains k = true := by
        unfold FMap.contains at hc ⊢
        generalize L.st.map.get k = x at hc hk
        generalize s.map.get k = y at hk ⊢
        cases hk with
        | none => exact hc
        | some _ => rfl
      unfold Store.load
      rw [if_pos hc']
      exact h.st.map
    · have hc0 : L.st.map.contains k = false := by simpa using hc
      simp only [hc0, Bool.false_eq_true, if_false]
      have hc' : s.map.contains k = false := by
        unfold FMap.contains at hc0 ⊢
        generalize L.st.map.get k = x at hc0 hk
        generalize s.map.get k = y at hk ⊢
        cases hk with
        | none => rfl
        | some _ => cases hc0
      have hmr := h.mode
      unfold ModeRel at hmr
      rw [hm] at hmr
      cases hsn : L.snapshot k with
      | none =>
        refine ⟨.refl _ _, hm, rfl, rfl, rfl, fun hx => (by cases hx), fun src hs => ⟨?_, ?_⟩⟩
        · rw [hs] at hmr
          have h2 := hmr.2 k
          rw [hsn] at h2
          unfold Store.load
          simp only [hc', Bool.false_eq_true, if_false]
          cases hsrc : src k with
          | none => exact h.st.map.insert .none
          | some e => rw [hsrc] at h2; exact h2.elim
        · dsimp only; rw [FMap.get_insert_self]; rfl
      | some e =>
        obtain ⟨b, l⟩ := e
        refine ⟨.append _ _ _, hm, rfl, rfl, rfl, fun hx => (by cases hx), fun src hs => ⟨?_, ?_⟩⟩
        · rw [hs] at hmr
          have h2 := hmr.2 k
          rw [hsn] at h2
          unfold Store.load
          simp only [hc', Bool.false_eq_true, if_false]
          cases hsrc : src k with
          | none => rw [hsrc] at h2; exact h2.elim
          | some e =>
            obtain ⟨v, l'⟩ := e
            rw [hsrc] at h2
            obtain ⟨rfl, h2⟩ := h2
            refine (h.st.map.mono (Ptr.mono (.append _ _ _))).insert (.some ⟨{ encoded := some b, decoded := none }, ?_, fun g => ?_⟩)
            · simp
            · exact ⟨h2 g, .inl rfl⟩
        · dsimp only; rw [FMap.get_insert_self]; rfl

/-- Looking up the entry of a key. -/
theorem tryGetHost_sim {C : Codec K B V} {G : K → Prop} {L : Lazy K B V} {s : Store K V} (E : Env K V) (h : Sim C G L s) (k : K) :
    Sim C G (tryGetHost E L k).1 (tryGet E s k).1 ∧ HeapLe C L.heap (tryGetHost E L k).1.heap ∧
      ((∃ e, (tryGetHost E L k).2 = .error e ∧ (tryGet E s k).2 = .error e) ∨
       (∃ x y, (tryGetHost E L k).2 = .ok x ∧ (tryGet E s k).2 = .ok y ∧ EntRel (Ptr C G (tryGetHost E L k).1.heap k) x y ∧
         (tryGetHost E L k).1.st.map.get k = some x)) := by
  unfold tryGetHost
  by_cases hs : E.keys.supported k = true
  · simp only [hs, if_true]
    unfold tryGet
    simp only [show (refEnv E).keys.supported k = true from hs, hs, if_true]
    obtain ⟨hl, hlm, hls, hlf, hlg, hle, hlr⟩ := load_sim h k
    -- the two preparations
    have key : StRel (Ptr C G (load L k).heap) (prepareReadOnly (refEnv E) (load L k).st k).1 (prepareReadOnly E s k).1 ∧
        (prepareReadOnly (refEnv E) (load L k).st k).2 = (prepareReadOnly E s k).2 ∧
        (prepareReadOnly (refEnv E) (load L k).st k).1.mode = L.st.mode ∧ (prepareReadOnly E s k).1.mode = s.mode := by
      have hmr := h.mode
      unfold ModeRel at hmr
      unfold prepareReadOnly
      rw [hlm]
      cases hm : L.st.mode with
      | enforcing =>
        rw [hm] at hmr
        cases hm' : s.mode with
        | recording src => rw [hm'] at hmr; exact hmr.elim
        | enforcing =>
          dsimp only
          rw [hle hm]
          exact ⟨h.st, by rw [h.st.fp], hm, hm'⟩
      | recording src0 =>
        rw [hm] at hmr
        cases hm' : s.mode with
        | enforcing => rw [hm'] at hmr; exact hmr.elim
        | recording src =>
          dsimp only
          obtain ⟨hmap, hin⟩ := hlr src hm'
          have h1 : StRel (Ptr C G (load L k).heap) ((((load L k).st.record k .readOnly).load src0 k).record k .readOnly)
              (((s.record k .readOnly).load src k).record k .readOnly) := by
            have e1 : ((load L k).st.record k .readOnly).load src0 k = (load L k).st.record k .readOnly := by
              unfold Store.load
              rw [if_pos]
              exact hin
            have e2 : ((s.record k .readOnly).load src k).footprint = recordAccess s.footprint k .readOnly := by
              unfold Store.load
              by_cases hx : (s.record k .readOnly).map.contains k = true
              · rw [if_pos hx]; rfl
              · rw [if_neg hx]; rfl
            have e3 : ((s.record k .readOnly).load src k).map = (s.load src k).map := by
              unfold Store.load
              by_cases hx : s.map.contains k = true
              · rw [if_pos hx, if_pos (show (s.record k .readOnly).map.contains k = true from hx)]; rfl
              · rw [if_neg hx, if_neg (show ¬ (s.record k .readOnly).map.contains k = true from hx)]; rfl
            rw [e1]
            refine ⟨?_, ?_⟩
            · show recordAccess (recordAccess (load L k).st.footprint k .readOnly) k .readOnly =
                recordAccess ((s.record k .readOnly).load src k).footprint k .readOnly
              rw [e2, hlf, h.st.fp]
            · show MapRel _ (load L k).st.map ((s.record k .readOnly).load src k).map
              rw [e3]; exact hmap
          obtain ⟨h2, h3⟩ := handle_rel E h1 k
          refine ⟨h2, h3, ?_, ?_⟩
          · rw [handle_mode]
            show (((load L k).st.record k .readOnly).load src0 k).mode = _
            unfold Store.load
            split
            · exact hlm.trans hm
            · exact hlm.trans hm
          · rw [handle_mode]
            show ((s.record k .readOnly).load src k).mode = _
            unfold Store.load
            split
            · exact hm'
            · exact hm'
    generalize prepareReadOnly (refEnv E) (load L k).st k = p at key
    generalize prepareReadOnly E s k = q at key
    obtain ⟨p1, p2⟩ := p
    obtain ⟨q1, q2⟩ := q
    obtain ⟨k1, k2, k3, k4⟩ := key
    dsimp only at k1 k2 k3 k4
    subst k2
    have hsim : Sim C G { load L k with st := p1 } q1 := ⟨k1, h.mode.of k3 hls k4⟩
    cases p2 with
    | error e => exact ⟨hsim, hl, .inl ⟨e, rfl, rfl⟩⟩
    | ok u =>
      dsimp only
      have hk := k1.map k
      generalize hx : p1.map.get k = x at hk
      generalize hy : q1.map.get k = y at hk
      cases hk with
      | none => exact ⟨hsim, hl, .inl ⟨_, rfl, rfl⟩⟩
      | some hv => exact ⟨hsim, hl, .inr ⟨_, _, rfl, rfl, hv, hx⟩⟩
  · have hs0 : E.keys.supported k = false := by simpa using hs
    simp only [hs0, Bool.false_eq_true, if_false]
    have e1 : tryGet (refEnv E) L.st k = (L.st, .error (.host .storage .internalError)) := by
      unfold tryGet; rw [if_neg (show ¬ (refEnv E).keys.supported k = true from hs)]
    have e2 : tryGet E s k = (s, .error (.host .storage .internalError)) := by unfold tryGet; rw [if_neg hs]
    rw [e1, e2]
    exact ⟨h, .refl _ _, .inl ⟨_, rfl, rfl⟩⟩

/-- Decoding a cell that stands for `v`. -/
theorem decodedAt_ptr {C : Codec K B V} {L : Lazy K B V} {k : K} {r : Nat} {c : Cell B V} {v : V} (hc : L.heap[r]? = some c)
    (hd : Den C k c v) :
    (decodedAt C L r).2 = .ok v ∧ (decodedAt C L r).1.st = L.st ∧ (decodedAt C L r).1.snapshot = L.snapshot ∧
      HeapLe C L.heap (decodedAt C L r).1.heap ∧ (isDecoded L r = false → checkKey C k v = .ok ()) := by
  unfold decodedAt isDecoded
  rw [hc]
  dsimp only
  unfold Den at hd
  cases hdec : c.decoded with
  | some v' =>
    have : v' = v := by
      cases he : c.encoded with
      | none => rw [he, hdec] at hd; exact Option.some.inj hd
      | some b =>
        rw [he, hdec] at hd
        rcases hd.2 with hx | hx
        · cases hx
        · exact Option.some.inj hx
    subst this
    exact ⟨rfl, rfl, rfl, .refl _ _, fun hx => (by cases hx)⟩
  | none =>
    dsimp only
    cases he : c.encoded with
    | none => rw [he, hdec] at hd; cases hd
    | some b =>
      rw [he] at hd
      dsimp only at hd ⊢
      obtain ⟨⟨hb, hk⟩, -⟩ := hd
      rw [hb]
      dsimp only
      refine ⟨rfl, rfl, rfl, ?_, fun _ => ?_⟩
      · intro r' c' hc'
        rw [List.getElem?_set]
        by_cases hr : r = r'
        · subst hr
          rw [hc] at hc'
          obtain rfl := Option.some.inj hc'
          have := (List.getElem?_eq_some_iff.mp hc).1
          simp only [if_true, this]
          exact ⟨_, rfl, he.symm, .inr ⟨hdec, b, v, he, hb, rfl⟩⟩
        · simp only [hr, if_false]; exact ⟨c', hc', .rfl' c'⟩
      · unfold checkKey; rw [hk]; simp

theorem tryGetFull_sim {C : Codec K B V} {G : K → Prop} {L : Lazy K B V} {s : Store K V} (E : Env K V) (h : Sim C G L s) {k : K}
    (hg : G k) :
    Sim C G (tryGetFull E C L k).1 (tryGet E s k).1 ∧ HeapLe C L.heap (tryGetFull E C L k).1.heap ∧
      (tryGetFull E C L k).2 = (tryGet E s k).2 := by
  obtain ⟨h1, h2, h3⟩ := tryGetHost_sim E h k
  unfold tryGetFull
  generalize tryGetHost E L k = p at h1 h2 h3
  generalize tryGet E s k = q at h1 h3
  obtain ⟨L1, r⟩ := p
  obtain ⟨s1, r'⟩ := q
  dsimp only at h1 h2 h3
  rcases h3 with ⟨e, rfl, rfl⟩ | ⟨x, y, rfl, rfl, hxy, -⟩
  · exact ⟨h1, h2, rfl⟩
  · cases hxy with
    | none => exact ⟨h1, h2, rfl⟩
    | @some a v l hv =>
      obtain ⟨c, hc, hd⟩ := hv
      obtain ⟨d1, d2, d3, d4, d5⟩ := decodedAt_ptr hc (hd hg)
      dsimp only
      generalize decodedAt C L1 a = dd at d1 d2 d3 d4
      obtain ⟨L2, r2⟩ := dd
      dsimp only at d1 d2 d3 d4
      subst d1
      have hle : HeapLe C L.heap L2.heap := h2.trans d4
      have hsim : Sim C G L2 s1 := by
        refine ⟨?_, h1.mode.of (by rw [d2]) d3 rfl⟩
        rw [d2]
        exact ⟨h1.st.fp, h1.st.map.mono (Ptr.mono d4)⟩
      cases hid : isDecoded L1 a with
      | true => simp only [if_true]; exact ⟨hsim, hle, trivial⟩
      | false =>
        simp only [Bool.false_eq_true, if_false]
        rw [d5 hid]
        exact ⟨hsim, hle, rfl⟩

/-- An operation on the two storages: the storages stay related and the results are the same. -/
def Same {α : Type} (C : Codec K B V) (G : K → Prop) (L : Lazy K B V) (p : Lazy K B V × Res α) (q : Store K V × Res α) : Prop :=
  Sim C G p.1 q.1 ∧ HeapLe C L.heap p.1.heap ∧ p.2 = q.2

theorem getEntry_same {C : Codec K B V} {G : K → Prop} {L : Lazy K B V} {s : Store K V} (E : Env K V) (h : Sim C G L s) {k : K}
    (hg : G k) : Same C G L (getEntry E C L k) (Storage.getEntry E s k) := by
  obtain ⟨h1, h2, h3⟩ := tryGetFull_sim E h hg
  unfold getEntry Storage.getEntry
  generalize tryGetFull E C L k = p at h1 h2 h3
  generalize tryGet E s k = q at h1 h3
  obtain ⟨L1, r⟩ := p
  obtain ⟨s1, r'⟩ := q
  dsimp only at h1 h2 h3
  subst h3
  rcases r with e | (_ | e)
  · exact ⟨h1, h2, rfl⟩
  · exact ⟨h1, h2, rfl⟩
  · exact ⟨h1, h2, rfl⟩

theorem has_same {C : Codec K B V} {G : K → Prop} {L : Lazy K B V} {s : Store K V} (E : Env K V) (h : Sim C G L s) (k : K) :
    Same C G L (has E L k) (Storage.has E s k) := by
  obtain ⟨h1, h2, h3⟩ := tryGetHost_sim E h k
  unfold has Storage.has
  generalize tryGetHost E L k = p at h1 h2 h3
  generalize tryGet E s k = q at h1 h3
  obtain ⟨L1, r⟩ := p
  obtain ⟨s1, r'⟩ := q
  dsimp only at h1 h2 h3
  rcases h3 with ⟨e, rfl, rfl⟩ | ⟨x, y, rfl, rfl, hxy, -⟩
  · exact ⟨h1, h2, rfl⟩
  · refine ⟨h1, h2, ?_⟩
    cases hxy with
    | none => rfl
    | some _ => rfl

/-- The preparation of writes. -/
theorem prehandle_rel {ρ : K → Nat → V → Prop} (E : Env K V) {s : Store K Nat} {s' : Store K V} (h : StRel ρ s s') (k : K) :
    StRel ρ (if (refEnv E).feature then handleMaybeExpired (refEnv E) s k else (s, .ok ())).1
        (if E.feature then handleMaybeExpired E s' k else (s', .ok ())).1 ∧
      (if (refEnv E).feature then handleMaybeExpired (refEnv E) s k else (s, .ok ())).2 =
        (if E.feature then handleMaybeExpired E s' k else (s', .ok ())).2 ∧
      (if (refEnv E).feature then handleMaybeExpired (refEnv E) s k else (s, .ok ())).1.mode = s.mode ∧
      (if E.feature then handleMaybeExpired E s' k else (s', .ok ())).1.mode = s'.mode := by
  show StRel ρ (if E.feature then handleMaybeExpired (refEnv E) s k else (s, .ok ())).1 _ ∧
    (if E.feature then handleMaybeExpired (refEnv E) s k else (s, .ok ())).2 = _ ∧
    (if E.feature then handleMaybeExpired (refEnv E) s k else (s, .ok ())).1.mode = _ ∧ _
  cases E.feature with
  | false => exact ⟨h, rfl, rfl, rfl⟩
  | true =>
    obtain ⟨h1, h2⟩ := handle_rel E h k
    exact ⟨h1, h2, handle_mode _ _ _, handle_mode _ _ _⟩

/-- Putting a pointer and putting an entry. -/
theorem put_rel {ρ : K → Nat → V → Prop} (E : Env K V) {s : Store K Nat} {s' : Store K V} (h : StRel ρ s s')
    (hm : (∃ a b, s.mode = .recording a ∧ s'.mode = .recording b) ∨ (s.mode = .enforcing ∧ s'.mode = .enforcing)) (k : K)
    {x : Option (Entry Nat)} {y : Option (Entry V)} (hxy : EntRel (ρ k) x y) (hs : E.keys.supported k = true)
    (hy : checkEntry E y = .ok ()) :
    StRel ρ (Storage.putOpt (refEnv E) s k x).1 (Storage.putOpt E s' k y).1 ∧
      (Storage.putOpt (refEnv E) s k x).2 = (Storage.putOpt E s' k y).2 ∧
      (Storage.putOpt (refEnv E) s k x).1.mode = s.mode ∧ (Storage.putOpt E s' k y).1.mode = s'.mode := by
  have hx : checkEntry (refEnv E) x = .ok () := by
    unfold checkEntry
    cases x <;> rfl
  obtain ⟨h1, h2, h3, h4⟩ := prehandle_rel E h k
  unfold Storage.putOpt
  rw [if_pos (show (refEnv E).keys.supported k = true from hs), if_pos hs, hx, hy]
  dsimp only
  generalize (if (refEnv E).feature then handleMaybeExpired (refEnv E) s k else (s, .ok ())) = p at h1 h2 h3 h4
  generalize (if E.feature then handleMaybeExpired E s' k else (s', .ok ())) = q at h1 h2 h3 h4
  obtain ⟨p1, p2⟩ := p
  obtain ⟨q1, q2⟩ := q
  dsimp only at h1 h2 h3 h4
  subst h2
  cases p2 with
  | error e => exact ⟨h1, rfl, h3, h4⟩
  | ok u =>
    dsimp only
    unfold accessForWrite
    rcases hm with ⟨a, b, ha, hb⟩ | ⟨ha, hb⟩
    · rw [h3, h4, ha, hb]
      dsimp only
      refine ⟨⟨?_, h1.map.insert hxy⟩, rfl, h3.trans ha, h4.trans hb⟩
      show recordAccess p1.footprint k .readWrite = recordAccess q1.footprint k .readWrite
      rw [h1.fp]
    · rw [h3, h4, ha, hb]
      dsimp only
      rw [h1.fp]
      cases enforceAccess q1.footprint k .readWrite with
      | error e => exact ⟨h1, rfl, h3.trans ha, h4.trans hb⟩
      | ok u => exact ⟨⟨h1.fp, h1.map.insert hxy⟩, rfl, h3.trans ha, h4.trans hb⟩

theorem ModeRel.modes {C : Codec K B V} {G : K → Prop} {L : Lazy K B V} {s : Store K V} (h : ModeRel C G L s) :
    (∃ a b, L.st.mode = .recording a ∧ s.mode = .recording b) ∨ (L.st.mode = .enforcing ∧ s.mode = .enforcing) := by
  unfold ModeRel at h
  cases hl : L.st.mode <;> cases hs : s.mode <;> rw [hl, hs] at h
  · exact .inl ⟨_, _, rfl, rfl⟩
  · exact h.elim
  · exact h.elim
  · exact .inr ⟨rfl, rfl⟩

theorem putOpt_same {C : Codec K B V} {G : K → Prop} {L : Lazy K B V} {s : Store K V} (E : Env K V) (h : Sim C G L s) (k : K)
    (val : Option (Entry V)) : Same C G L (putOpt E L k val) (Storage.putOpt E s k val) := by
  unfold putOpt
  by_cases hs : E.keys.supported k = true
  · rw [if_pos hs]
    cases hc : checkEntry E val with
    | error e =>
      have : Storage.putOpt E s k val = (s, .error e) := by unfold Storage.putOpt; rw [if_pos hs, hc]
      rw [this]
      exact ⟨h, .refl _ _, rfl⟩
    | ok u =>
      dsimp only
      cases val with
      | none =>
        obtain ⟨h1, h2, h3, h4⟩ := put_rel E h.st h.mode.modes k .none hs hc
        exact ⟨⟨h1, h.mode.of h3 rfl h4⟩, .refl _ _, h2⟩
      | some e =>
        obtain ⟨v, l⟩ := e
        have hap : HeapLe C L.heap (L.heap ++ [{ encoded := none, decoded := some v }]) := .append _ _ _
        have hst : StRel (Ptr C G (L.heap ++ [{ encoded := none, decoded := some v }])) L.st s :=
          ⟨h.st.fp, h.st.map.mono (Ptr.mono hap)⟩
        obtain ⟨h1, h2, h3, h4⟩ := put_rel (y := some (v, l)) (x := some (L.heap.length, l)) E hst h.mode.modes k
          (.some ⟨{ encoded := none, decoded := some v }, by simp, fun _ => rfl⟩) hs hc
        exact ⟨⟨h1, h.mode.of h3 rfl h4⟩, hap, h2⟩
  · rw [if_neg hs]
    have : Storage.putOpt E s k val = (s, .error (.host .storage .internalError)) := by unfold Storage.putOpt; rw [if_neg hs]
    rw [this]
    exact ⟨h, .refl _ _, rfl⟩

/-- The information on an extension, with a pointer and with an entry. -/
inductive ExtRel (ρ : Nat → V → Prop) : Res (ExtInfo Nat) → Res (ExtInfo V) → Prop
  | error (e : Err) : ExtRel ρ (.error e) (.error e)
  | ok {r : Nat} {v : V} (h : ρ r v) (o c m : Nat) : ExtRel ρ (.ok ⟨r, o, c, m⟩) (.ok ⟨v, o, c, m⟩)

theorem extendInfo_rel {ρ : Nat → V → Prop} (E : Env K V) (k : K) (x : Nat) {r : Nat} {v : V} (h : ρ r v) (l : Option Nat) :
    ExtRel ρ (extendInfo (refEnv E) k x r l) (extendInfo E k x v l) := by
  unfold extendInfo
  cases l with
  | none => exact .error _
  | some o =>
    dsimp only [refEnv]
    by_cases h1 : o < E.li.seq
    · simp only [h1, if_true]; exact .error _
    · simp only [h1, if_false]
      cases E.li.maxLiveUntil with
      | none => exact .error _
      | some m =>
        dsimp only
        cases E.keys.durability k with
        | none => exact .error _
        | some d =>
          dsimp only
          by_cases h2 : d = .temporary ∧ x > m - E.li.seq
          · simp only [h2, and_self, if_true]; exact .error _
          · simp only [h2, if_false]; exact .ok h _ _ _

theorem prepareExtend_sim {C : Codec K B V} {G : K → Prop} {L : Lazy K B V} {s : Store K V} (E : Env K V) (h : Sim C G L s) (k : K)
    (x : Nat) :
    Sim C G (prepareExtend E L k x).1 (Storage.prepareExtend E s k x).1 ∧ HeapLe C L.heap (prepareExtend E L k x).1.heap ∧
      ExtRel (Ptr C G (prepareExtend E L k x).1.heap k) (prepareExtend E L k x).2 (Storage.prepareExtend E s k x).2 := by
  unfold prepareExtend Storage.prepareExtend
  by_cases hs : E.keys.supported k = true
  · rw [if_pos hs, if_pos hs]
    obtain ⟨h1, h2, h3, h4⟩ := prehandle_rel E h.st k
    change StRel _ (if E.feature then handleMaybeExpired (refEnv E) L.st k else (L.st, .ok ())).1 _ at h1
    change (if E.feature then handleMaybeExpired (refEnv E) L.st k else (L.st, .ok ())).2 = _ at h2
    change (if E.feature then handleMaybeExpired (refEnv E) L.st k else (L.st, .ok ())).1.mode = _ at h3
    generalize (if E.feature then handleMaybeExpired (refEnv E) L.st k else (L.st, .ok ())) = p at h1 h2 h3
    generalize (if E.feature then handleMaybeExpired E s k else (s, .ok ())) = q at h1 h2 h4
    obtain ⟨p1, p2⟩ := p
    obtain ⟨q1, q2⟩ := q
    dsimp only at h1 h2 h3 h4
    subst h2
    have hsim : Sim C G { L with st := p1 } q1 := ⟨h1, h.mode.of h3 rfl h4⟩
    cases p2 with
    | error e => exact ⟨hsim, .refl _ _, .error _⟩
    | ok u =>
      dsimp only
      obtain ⟨g1, g2, g3⟩ := tryGetHost_sim E hsim k
      unfold Storage.getEntry
      generalize tryGetHost E { L with st := p1 } k = p at g1 g2 g3
      generalize tryGet E q1 k = q at g1 g3
      obtain ⟨L1, r⟩ := p
      obtain ⟨s1, r'⟩ := q
      dsimp only at g1 g2 g3
      rcases g3 with ⟨e, rfl, rfl⟩ | ⟨x, y, rfl, rfl, hxy, -⟩
      · exact ⟨g1, g2, .error _⟩
      · cases hxy with
        | none => exact ⟨g1, g2, .error _⟩
        | some hv => exact ⟨g1, g2, extendInfo_rel E k _ hv _⟩
  · rw [if_neg hs, if_neg hs]
    exact ⟨h, .refl _ _, .error _⟩

theorem apply_sim {C : Codec K B V} {G : K → Prop} {L : Lazy K B V} {s : Store K V} (h : Sim C G L s) {k : K} {r : Nat} {v : V}
    (hv : Ptr C G L.heap k r v) (o c m n : Nat) :
    Sim C G (applyExtension L k ⟨r, o, c, m⟩ n) (Storage.applyExtension s k ⟨v, o, c, m⟩ n) := by
  unfold applyExtension Storage.applyExtension
  dsimp only
  by_cases hn : n > o
  · simp only [hn, if_true]
    exact ⟨⟨h.st.fp, h.st.map.insert (.some hv)⟩, h.mode.of rfl rfl rfl⟩
  · simp only [hn, if_false]
    exact h

theorem extendTtl_same {C : Codec K B V} {G : K → Prop} {L : Lazy K B V} {s : Store K V} (E : Env K V) (h : Sim C G L s) (k : K)
    (t x : Nat) : Same C G L (extendTtl E L k t x) (Storage.extendTtl E s k t x) := by
  unfold extendTtl Storage.extendTtl
  by_cases ht : t > x
  · rw [if_pos ht, if_pos ht]; exact ⟨h, .refl _ _, rfl⟩
  · rw [if_neg ht, if_neg ht]
    obtain ⟨h1, h2, h3⟩ := prepareExtend_sim E h k x
    generalize prepareExtend E L k x = p at h1 h2 h3
    generalize Storage.prepareExtend E s k x = q at h1 h3
    obtain ⟨L1, r⟩ := p
    obtain ⟨s1, r'⟩ := q
    dsimp only at h1 h2 h3
    cases h3 with
    | error e => exact ⟨h1, h2, rfl⟩
    | ok hv o c m =>
      dsimp only
      cases checkedAddU32 E.li.seq x with
      | none => exact ⟨h1, h2, rfl⟩
      | some n =>
        dsimp only
        by_cases hc : c ≤ t
        · rw [if_pos hc, if_pos hc]; exact ⟨apply_sim h1 hv _ _ _ _, h2, rfl⟩
        · rw [if_neg hc, if_neg hc]; exact ⟨h1, h2, rfl⟩

theorem extendTtlV2_same {C : Codec K B V} {G : K → Prop} {L : Lazy K B V} {s : Store K V} (E : Env K V) (h : Sim C G L s) (k : K)
    (x a b : Nat) : Same C G L (extendTtlV2 E L k x a b) (Storage.extendTtlV2 E s k x a b) := by
  unfold extendTtlV2 Storage.extendTtlV2
  by_cases ht : b < a
  · rw [if_pos ht, if_pos ht]; exact ⟨h, .refl _ _, rfl⟩
  · rw [if_neg ht, if_neg ht]
    obtain ⟨h1, h2, h3⟩ := prepareExtend_sim E h k x
    generalize prepareExtend E L k x = p at h1 h2 h3
    generalize Storage.prepareExtend E s k x = q at h1 h3
    obtain ⟨L1, r⟩ := p
    obtain ⟨s1, r'⟩ := q
    dsimp only at h1 h2 h3
    cases h3 with
    | error e => exact ⟨h1, h2, rfl⟩
    | ok hv o c m =>
      dsimp only
      by_cases hc : min (min (x - c) b) (m - o) < a
      · rw [if_pos hc, if_pos hc]; exact ⟨h1, h2, rfl⟩
      · rw [if_neg hc, if_neg hc]
        cases checkedAddU32 o (min (min (x - c) b) (m - o)) with
        | none => exact ⟨h1, h2, rfl⟩
        | some n => exact ⟨apply_sim h1 hv _ _ _ _, h2, rfl⟩

theorem write_same {C : Codec K B V} {G : K → Prop} {L : Lazy K B V} {s : Store K V} (E : Env K V) (h : Sim C G L s) {k : K}
    (hg : G k) (u : Option V → V) : Same C G L (write E C L k u) (Storage.write E s k u) := by
  unfold write Storage.write
  obtain ⟨h1, h2, h3⟩ := has_same E h k
  generalize has E L k = p at h1 h2 h3
  generalize Storage.has E s k = q at h1 h3
  obtain ⟨L1, r⟩ := p
  obtain ⟨s1, r'⟩ := q
  dsimp only at h1 h2 h3
  subst h3
  rcases r with e | (_ | _)
  · exact ⟨h1, h2, rfl⟩
  · dsimp only
    cases newLiveUntil E k with
    | error e => exact ⟨h1, h2, rfl⟩
    | ok l =>
      obtain ⟨g1, g2, g3⟩ := putOpt_same E h1 k (some (u none, l))
      exact ⟨g1, h2.trans g2, g3⟩
  · dsimp only
    obtain ⟨g1, g2, g3⟩ := getEntry_same E h1 hg
    generalize getEntry E C L1 k = p at g1 g2 g3
    generalize Storage.getEntry E s1 k = q at g1 g3
    obtain ⟨L2, r⟩ := p
    obtain ⟨s2, r'⟩ := q
    dsimp only at g1 g2 g3
    subst g3
    rcases r with e | ⟨v, l⟩
    · exact ⟨g1, h2.trans g2, rfl⟩
    · obtain ⟨f1, f2, f3⟩ := putOpt_same E g1 k (some (u (some v), l))
      exact ⟨f1, (h2.trans g2).trans f2, f3⟩

/-- Related machines: also the saved maps are related. -/
structure MSim (C : Codec K B V) (G : K → Prop) (m : LMachine K B V) (m' : Machine K V) : Prop where
  sim : Sim C G m.lz m'.st
  saved : List.Forall₂ (MapRel (Ptr C G m.lz.heap)) m.saved m'.saved

theorem wrap_same {α : Type} {C : Codec K B V} {G : K → Prop} {m : LMachine K B V} {m' : Machine K V} (h : MSim C G m m')
    {p : Lazy K B V × Res α} {q : Store K V × Res α} (hs : Same C G m.lz p q) (f : α → Out V) :
    MSim C G (wrap m f p).1 (Storage.wrap m' f q).1 ∧ (wrap m f p).2 = (Storage.wrap m' f q).2 := by
  obtain ⟨h1, h2, h3⟩ := hs
  refine ⟨⟨h1, ?_⟩, ?_⟩
  · exact h.saved.imp (fun _ _ hx => hx.mono (Ptr.mono h2))
  · unfold wrap Storage.wrap; dsimp only; rw [h3]; cases q.2 <;> rfl

theorem step_same {C : Codec K B V} {G : K → Prop} {m : LMachine K B V} {m' : Machine K V} (E : Env K V) (h : MSim C G m m')
    (o : Op K V) (hg : ∀ k ∈ readKey o, G k) :
    MSim C G (step E C m o).1 (Storage.step E m' o).1 ∧ (step E C m o).2 = (Storage.step E m' o).2 := by
  cases o with
  | get k => exact wrap_same h (getEntry_same E h.sim (hg k (by simp [readKey]))) _
  | has k => exact wrap_same h (has_same E h.sim k) _
  | del k => exact wrap_same h (putOpt_same E h.sim k _) _
  | put k v l => exact wrap_same h (putOpt_same E h.sim k _) _
  | write k u => exact wrap_same h (write_same E h.sim (hg k (by simp [readKey])) u) _
  | extend k t x => exact wrap_same h (extendTtl_same E h.sim k t x) _
  | extendV2 k x a b => exact wrap_same h (extendTtlV2_same E h.sim k x a b) _
  | mark => exact ⟨⟨h.sim, .cons h.sim.st.map h.saved⟩, rfl⟩
  | commit =>
    refine ⟨⟨h.sim, ?_⟩, rfl⟩
    have := h.saved
    show List.Forall₂ _ m.saved.tail m'.saved.tail
    generalize m.saved = x at this
    generalize m'.saved = y at this
    cases this with
    | nil => exact .nil
    | cons _ hx => exact hx
  | abort =>
    have hs := h.saved
    unfold step Storage.step
    dsimp only
    generalize hx : m.saved = x at hs
    generalize hy : m'.saved = y at hs
    cases hs with
    | nil => exact ⟨h, rfl⟩
    | cons h1 h2 => exact ⟨⟨⟨⟨h.sim.st.fp, h1⟩, h.sim.mode.of rfl rfl rfl⟩, h2⟩, rfl⟩

theorem runProg_same {C : Codec K B V} {G : K → Prop} (E : Env K V) (p : Prog K V) :
    ∀ {m : LMachine K B V} {m' : Machine K V}, MSim C G m m' → (∀ k ∈ readsOf E C p m, G k) →
      MSim C G (runProg E C p m).1 (Storage.runProg E p m').1 ∧ (runProg E C p m).2 = (Storage.runProg E p m').2 := by
  induction p with
  | done => intro m m' h _; exact ⟨h, rfl⟩
  | op o next ih =>
    intro m m' h hg
    obtain ⟨h1, h2⟩ := step_same E h o (fun k hk => hg k (List.mem_append_left _ hk))
    have h3 := ih (step E C m o).2 h1 (fun k hk => hg k (List.mem_append_right _ hk))
    unfold runProg Storage.runProg
    dsimp only
    rw [← h2]
    exact ⟨h3.1, by rw [h3.2]⟩

/-! ### the beginning -/

theorem build_rel {C : Codec K B V} {G : K → Prop} {es : List (K × Option (B × Option Nat))} {ds : List (K × Option (Entry V))}
    (h : List.Forall₂ (fun e d => e.1 = d.1 ∧ Match C G e.1 e.2 d.2) es ds) :
    ∀ {m : FMap K (Option (Entry Nat))} {hp : List (Cell B V)} {m' : FMap K (Option (Entry V))}, MapRel (Ptr C G hp) m m' →
      MapRel (Ptr C G (build es (m, hp)).2) (build es (m, hp)).1 (ds.foldl (fun m d => m.insert d.1 d.2) m') := by
  induction h with
  | nil => intro m hp m' hm; exact hm
  | @cons e d es ds hed _ ih =>
    intro m hp m' hm
    obtain ⟨k, e⟩ := e
    obtain ⟨k', d⟩ := d
    obtain ⟨hk, hed⟩ := hed
    dsimp only at hk hed
    subst hk
    rcases e with _ | ⟨b, l⟩
    · rcases d with _ | ⟨v, l'⟩
      · exact ih (hm.insert .none)
      · exact hed.elim
    · rcases d with _ | ⟨v, l'⟩
      · exact hed.elim
      · obtain ⟨rfl, hs⟩ := hed
        refine ih ((hm.mono (Ptr.mono (.append _ _ _))).insert (.some ⟨{ encoded := some b, decoded := none }, ?_, fun g => ?_⟩))
        · simp
        · exact ⟨hs g, .inl rfl⟩

theorem enforcing_sim {C : Codec K B V} {G : K → Prop} {es : List (K × Option (B × Option Nat))} {ds : List (K × Option (Entry V))}
    (h : List.Forall₂ (fun e d => e.1 = d.1 ∧ Match C G e.1 e.2 d.2) es ds) (fp : FMap K Access) :
    MSim C G (enforcing fp es) (eager fp ds) :=
  ⟨⟨⟨rfl, build_rel h (fun _ => .none)⟩, trivial⟩, .nil⟩

theorem recording_sim {C : Codec K B V} {G : K → Prop} {src : K → Option (B × Option Nat)} {src' : K → Option (Entry V)}
    (h : ∀ k, Match C G k (src k) (src' k)) : MSim C G (recording src) (eagerRecording src') :=
  ⟨⟨⟨rfl, fun _ => .none⟩, fun _ => rfl, h⟩, .nil⟩

/-! ### the end -/

theorem Sim.outline {C : Codec K B V} {G : K → Prop} {L : Lazy K B V} {s : Store K V} (h : Sim C G L s) (k : K) :
    outline L.st k = outline s k := by
  have := h.st.map k
  unfold Spec.outline
  generalize L.st.map.get k = x at this
  generalize s.map.get k = y at this
  cases this with
  | none => rfl
  | some hv =>
    cases hv with
    | none => rfl
    | some _ => rfl

theorem newValue_same {C : Codec K B V} {G : K → Prop} {L : Lazy K B V} {s : Store K V} (h : Sim C G L s) {k : K} (hg : G k) :
    Sim C G (newValue C L k).1 s ∧ (newValue C L k).2 = .ok ((valueAt s k).map C.enc) := by
  have := h.st.map k
  unfold newValue valueAt
  generalize L.st.map.get k = x at this
  generalize s.map.get k = y at this
  cases this with
  | none => exact ⟨h, rfl⟩
  | some hv =>
    cases hv with
    | none => exact ⟨h, rfl⟩
    | @some a v l hv =>
      obtain ⟨c, hc, hd⟩ := hv
      obtain ⟨d1, d2, d3, d4, -⟩ := decodedAt_ptr hc (hd hg)
      dsimp only
      generalize decodedAt C L a = dd at d1 d2 d3 d4
      obtain ⟨L2, r2⟩ := dd
      dsimp only at d1 d2 d3 d4
      subst d1
      refine ⟨⟨?_, h.mode.of (by rw [d2]) d3 rfl⟩, rfl⟩
      dsimp only
      rw [d2]
      exact ⟨h.st.fp, h.st.map.mono (Ptr.mono d4)⟩

theorem newValues_same {C : Codec K B V} {G : K → Prop} {s : Store K V} (ks : List K) :
    ∀ {L : Lazy K B V}, Sim C G L s → (∀ k ∈ ks, G k) →
      (newValues C L ks).2 = .ok (ks.map (fun k => (valueAt s k).map C.enc)) := by
  induction ks with
  | nil => intro L _ _; rfl
  | cons k ks ih =>
    intro L h hg
    obtain ⟨h1, h2⟩ := newValue_same h (hg k List.mem_cons_self)
    have h3 := ih h1 (fun k' hk => hg k' (List.mem_cons_of_mem _ hk))
    unfold newValues
    generalize newValue C L k = p at h1 h2 h3
    obtain ⟨L1, r⟩ := p
    dsimp only at h1 h2 h3
    subst h2
    dsimp only
    generalize newValues C L1 ks = q at h3
    obtain ⟨L2, r⟩ := q
    dsimp only at h3
    subst h3
    rfl

end
end Soroban.LazyEntry
