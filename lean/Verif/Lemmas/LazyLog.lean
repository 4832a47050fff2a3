import Verif.Lemmas.LazyEntry
/-! How often entries are decoded, and what happens to entries that are not sound. -/
set_option linter.unusedSectionVars false
namespace Soroban.LazyEntry
open Soroban Soroban.Storage Soroban.LazyEntry.Spec

section
variable {K B V : Type} [DecidableEq K]

theorem refEnv_supported (E : Env K V) (k : K) : (refEnv E).keys.supported k = E.keys.supported k := rfl

/-- Lookups change nothing in enforcing mode. -/
theorem tryGetHost_enf (E : Env K V) {L : Lazy K B V} (hm : L.st.mode = .enforcing) (k : K) :
    (tryGetHost E L k).1 = L ∧ (∀ x, (tryGetHost E L k).2 = .ok x → L.st.map.get k = some x) := by
  have hl : load L k = L := by unfold load; rw [hm]
  unfold tryGetHost
  have h1 : (if E.keys.supported k = true then load L k else L) = L := by rw [hl]; simp
  rw [h1]
  dsimp only
  unfold tryGet
  rw [refEnv_supported]
  by_cases hs : E.keys.supported k = true
  · rw [if_pos hs]
    unfold prepareReadOnly
    rw [hm]
    dsimp only
    cases enforceAccess L.st.footprint k .readOnly with
    | error e => exact ⟨rfl, fun x hx => (by cases hx)⟩
    | ok u =>
      dsimp only
      cases hx : L.st.map.get k with
      | none => exact ⟨rfl, fun x hx => (by cases hx)⟩
      | some v => exact ⟨rfl, fun x hx => by rw [Except.ok.inj hx]⟩
  · rw [if_neg hs]; exact ⟨rfl, fun x hx => (by cases hx)⟩

/-- Pointers to the cells loaded at the start are under the keys they were loaded for. -/
def Owned (ks : List K) (m : FMap K (Option (Entry Nat))) : Prop :=
  ∀ k r l, m.get k = some (some (r, l)) → r < ks.length → ks[r]? = some k

theorem Owned.insert {ks : List K} {m : FMap K (Option (Entry Nat))} (h : Owned ks m) {k : K} {x : Option (Entry Nat)}
    (hx : ∀ r l, x = some (r, l) → r < ks.length → ks[r]? = some k) : Owned ks (m.insert k x) := by
  intro k' r l hg hr
  rw [FMap.get_insert] at hg
  by_cases hk : k' = k
  · subst hk
    simp only [if_true] at hg
    exact hx r l (Option.some.inj hg) hr
  · simp only [hk, if_false] at hg
    exact h k' r l hg hr

theorem handle_owned {ks : List K} (E : Env K Nat) {s : Store K Nat} (h : Owned ks s.map) (k : K) :
    Owned ks (handleMaybeExpired E s k).1.map := by
  unfold handleMaybeExpired
  cases hx : s.map.get k with
  | none => exact h
  | some x =>
    rcases x with _ | ⟨r, l⟩
    · exact h
    · dsimp only
      cases E.keys.durability k with
      | none => exact h
      | some d =>
        cases l with
        | none => exact h
        | some l =>
          dsimp only
          by_cases hl : l < E.li.seq
          · rw [if_pos hl]
            cases d with
            | temporary => exact h.insert (fun _ _ he => (by cases he))
            | persistent =>
              dsimp only
              cases E.li.minLiveUntil .persistent with
              | none => exact h
              | some m =>
                refine h.insert (fun r' l' he hr => ?_)
                cases he
                exact h k r _ hx hr
          · rw [if_neg hl]; exact h

theorem prehandle_owned {ks : List K} (E : Env K Nat) {s : Store K Nat} (h : Owned ks s.map) (k : K) :
    Owned ks (if E.feature then handleMaybeExpired E s k else (s, .ok ())).1.map ∧
      (if E.feature then handleMaybeExpired E s k else (s, .ok ())).1.mode = s.mode := by
  cases E.feature with
  | false => exact ⟨h, rfl⟩
  | true => exact ⟨handle_owned E h k, handle_mode E s k⟩

theorem put_owned {ks : List K} (E : Env K Nat) {s : Store K Nat} (h : Owned ks s.map) (k : K) {x : Option (Entry Nat)}
    (hx : ∀ r l, x = some (r, l) → ks.length ≤ r) :
    Owned ks (Storage.putOpt E s k x).1.map ∧ (Storage.putOpt E s k x).1.mode = s.mode := by
  unfold Storage.putOpt
  by_cases hs : E.keys.supported k = true
  · rw [if_pos hs]
    cases checkEntry E x with
    | error e => exact ⟨h, rfl⟩
    | ok u =>
      dsimp only
      obtain ⟨h1, h2⟩ := prehandle_owned E h k
      generalize (if E.feature then handleMaybeExpired E s k else (s, .ok ())) = p at h1 h2
      obtain ⟨s1, r⟩ := p
      dsimp only at h1 h2
      cases r with
      | error e => exact ⟨h1, h2⟩
      | ok u =>
        dsimp only
        have ha : (accessForWrite s1 k).1.map = s1.map ∧ (accessForWrite s1 k).1.mode = s1.mode := by
          unfold accessForWrite
          cases hmo : s1.mode with
          | recording src => exact ⟨rfl, hmo⟩
          | enforcing => exact ⟨rfl, hmo⟩
        generalize accessForWrite s1 k = q at ha
        obtain ⟨s2, r⟩ := q
        dsimp only at ha
        cases r with
        | error e => exact ⟨by rw [ha.1]; exact h1, ha.2.trans h2⟩
        | ok u =>
          refine ⟨?_, ha.2.trans h2⟩
          show Owned ks (s2.map.insert k x)
          rw [ha.1]
          exact h1.insert (fun r l he hr => absurd hr (Nat.not_lt.mpr (hx r l he)))
  · rw [if_neg hs]; exact ⟨h, rfl⟩

/-- The state of an enforcing storage whose entries, of the keys `ks`, were loaded at the start. -/
structure LogOk (ks : List K) (L : Lazy K B V) : Prop where
  mode : L.st.mode = .enforcing
  owned : Owned ks L.st.map
  cells : ∀ (r : Nat) (c : Cell B V), L.heap[r]? = some c → r < ks.length ∨ (c.encoded = none ∧ c.decoded.isSome = true)
  len : ks.length ≤ L.heap.length
  nodup : L.log.Nodup
  done : ∀ r ∈ L.log, r < ks.length ∧ ∃ c : Cell B V, L.heap[r]? = some c ∧ c.decoded.isSome = true

/-- An operation that reads the keys in `rd`. -/
structure LogStep (ks : List K) (rd : List K) (L L' : Lazy K B V) : Prop where
  ok : LogOk ks L'
  log : ∀ r ∈ L'.log, r ∈ L.log ∨ ∃ k ∈ rd, ks[r]? = some k

theorem LogStep.same {ks rd : List K} {L : Lazy K B V} (h : LogOk ks L) : LogStep ks rd L L := ⟨h, fun _ hr => .inl hr⟩

theorem LogStep.trans {ks rd : List K} {L L' L'' : Lazy K B V} (a : LogStep ks rd L L') (b : LogStep ks rd L' L'') :
    LogStep ks rd L L'' :=
  ⟨b.ok, fun r hr => (b.log r hr).elim (fun hx => a.log r hx) .inr⟩

/-- Changing the map only. -/
theorem LogOk.withSt {ks : List K} {L : Lazy K B V} (h : LogOk ks L) {s : Store K Nat} (hm : s.mode = .enforcing)
    (ho : Owned ks s.map) : LogOk ks { L with st := s } := ⟨hm, ho, h.cells, h.len, h.nodup, h.done⟩

theorem decodedAt_log {C : Codec K B V} {ks rd : List K} {L : Lazy K B V} (h : LogOk ks L) {r : Nat}
    (hr : r < ks.length → ∃ k ∈ rd, ks[r]? = some k) : LogStep ks rd L (decodedAt C L r).1 := by
  unfold decodedAt
  cases hc : L.heap[r]? with
  | none => exact .same h
  | some c =>
    dsimp only
    cases hd : c.decoded with
    | some v => exact .same h
    | none =>
      cases he : c.encoded with
      | none => exact .same h
      | some b =>
        dsimp only
        cases C.dec b with
        | error e => exact .same h
        | ok v =>
          dsimp only
          have hlt : r < ks.length := by
            rcases h.cells r c hc with hx | ⟨hx, -⟩
            · exact hx
            · rw [he] at hx; cases hx
          have hin := (List.getElem?_eq_some_iff.mp hc).1
          have hnew : r ∉ L.log := by
            intro hx
            obtain ⟨-, c', hc', hd'⟩ := h.done r hx
            rw [hc] at hc'
            obtain rfl := Option.some.inj hc'
            rw [hd] at hd'
            cases hd'
          refine ⟨⟨h.mode, h.owned, ?_, ?_, ?_, ?_⟩, ?_⟩
          · intro r' c' hc'
            dsimp only at hc'
            rw [List.getElem?_set] at hc'
            by_cases hr' : r = r'
            · subst hr'; exact .inl hlt
            · simp only [hr', if_false] at hc'; exact h.cells r' c' hc'
          · dsimp only; rw [List.length_set]; exact h.len
          · dsimp only
            refine List.nodup_append.mpr ⟨h.nodup, by simp, ?_⟩
            intro a ha b hb
            rw [List.mem_singleton.mp hb]
            intro hab
            exact hnew (hab ▸ ha)
          · intro r' hr'
            dsimp only at hr' ⊢
            rcases List.mem_append.mp hr' with hx | hx
            · obtain ⟨h1, c', h2, h3⟩ := h.done r' hx
              refine ⟨h1, c', ?_, h3⟩
              rw [List.getElem?_set]
              by_cases hrr : r = r'
              · subst hrr; exact absurd hx hnew
              · simp only [hrr, if_false]; exact h2
            · rw [List.mem_singleton.mp hx]
              refine ⟨hlt, { c with decoded := some v }, ?_, rfl⟩
              rw [List.getElem?_set]
              simp only [if_true, hin, he]
          · intro r' hr'
            dsimp only at hr'
            rcases List.mem_append.mp hr' with hx | hx
            · exact .inl hx
            · rw [List.mem_singleton.mp hx]; exact .inr (hr hlt)

theorem tryGetFull_log {C : Codec K B V} {ks rd : List K} {L : Lazy K B V} (E : Env K V) (h : LogOk ks L) {k : K} (hk : k ∈ rd) :
    LogStep ks rd L (tryGetFull E C L k).1 := by
  obtain ⟨h1, h2⟩ := tryGetHost_enf E h.mode k
  unfold tryGetFull
  generalize tryGetHost E L k = p at h1 h2
  obtain ⟨L1, r⟩ := p
  dsimp only at h1 h2
  subst h1
  rcases r with e | (_ | ⟨r, l⟩)
  · exact .same h
  · exact .same h
  · dsimp only
    have hd := decodedAt_log (C := C) (rd := rd) h (r := r) (fun hr => ⟨k, hk, h.owned k r l (h2 _ rfl) hr⟩)
    generalize decodedAt C L1 r = q at hd
    obtain ⟨L2, r2⟩ := q
    cases r2 with
    | error e => exact hd
    | ok v =>
      dsimp only
      by_cases hi : isDecoded L1 r = true
      · rw [if_pos hi]; exact hd
      · rw [if_neg hi]
        cases checkKey C k v with
        | error e => exact hd
        | ok u => exact hd

theorem getEntry_log {C : Codec K B V} {ks rd : List K} {L : Lazy K B V} (E : Env K V) (h : LogOk ks L) {k : K} (hk : k ∈ rd) :
    LogStep ks rd L (getEntry E C L k).1 := by
  have h1 := tryGetFull_log (C := C) E h hk
  unfold getEntry
  generalize tryGetFull E C L k = p at h1
  obtain ⟨L1, r⟩ := p
  rcases r with e | (_ | e) <;> exact h1

theorem has_log {ks rd : List K} {L : Lazy K B V} (E : Env K V) (h : LogOk ks L) (k : K) : LogStep ks rd L (has E L k).1 := by
  obtain ⟨h1, -⟩ := tryGetHost_enf E h.mode k
  unfold has
  generalize tryGetHost E L k = p at h1
  obtain ⟨L1, r⟩ := p
  dsimp only at h1
  subst h1
  cases r <;> exact .same h

theorem putOpt_log {ks rd : List K} {L : Lazy K B V} (E : Env K V) (h : LogOk ks L) (k : K) (val : Option (Entry V)) :
    LogStep ks rd L (putOpt E L k val).1 := by
  unfold putOpt
  by_cases hs : E.keys.supported k = true
  · rw [if_pos hs]
    cases checkEntry E val with
    | error e => exact .same h
    | ok u =>
      dsimp only
      cases val with
      | none =>
        obtain ⟨h1, h2⟩ := put_owned (refEnv E) h.owned k (x := none) (fun _ _ hx => (by cases hx))
        exact ⟨h.withSt (h2.trans h.mode) h1, fun _ hr => .inl hr⟩
      | some e =>
        obtain ⟨v, l⟩ := e
        obtain ⟨h1, h2⟩ := put_owned (refEnv E) h.owned k (x := some (L.heap.length, l))
          (fun r l hx => by cases hx; exact h.len)
        refine ⟨⟨h2.trans h.mode, h1, ?_, ?_, h.nodup, ?_⟩, fun _ hr => .inl hr⟩
        · intro r c hc
          dsimp only at hc
          rw [List.getElem?_append] at hc
          by_cases hr : r < L.heap.length
          · simp only [hr, if_true] at hc; exact h.cells r c hc
          · simp only [hr, if_false] at hc
            have := List.mem_of_getElem? hc
            rw [List.mem_singleton.mp this]
            exact .inr ⟨rfl, rfl⟩
        · dsimp only; rw [List.length_append]; exact Nat.le_trans h.len (Nat.le_add_right _ _)
        · intro r hr
          obtain ⟨a, c, b, d⟩ := h.done r hr
          refine ⟨a, c, ?_, d⟩
          dsimp only
          rw [List.getElem?_append_left (List.getElem?_eq_some_iff.mp b).1]
          exact b
  · rw [if_neg hs]; exact .same h

theorem prepareExtend_log {ks rd : List K} {L : Lazy K B V} (E : Env K V) (h : LogOk ks L) (k : K) (x : Nat) :
    LogStep ks rd L (prepareExtend E L k x).1 ∧
      (∀ i, (prepareExtend E L k x).2 = .ok i → i.entry < ks.length → ks[i.entry]? = some k) := by
  unfold prepareExtend
  by_cases hs : E.keys.supported k = true
  · rw [if_pos hs]
    obtain ⟨h1, h2⟩ := prehandle_owned (refEnv E) h.owned k
    change Owned ks (if E.feature then handleMaybeExpired (refEnv E) L.st k else (L.st, .ok ())).1.map at h1
    change (if E.feature then handleMaybeExpired (refEnv E) L.st k else (L.st, .ok ())).1.mode = _ at h2
    generalize (if E.feature then handleMaybeExpired (refEnv E) L.st k else (L.st, .ok ())) = p at h1 h2
    obtain ⟨s1, r⟩ := p
    dsimp only at h1 h2
    have hok : LogOk ks { L with st := s1 } := h.withSt (h2.trans h.mode) h1
    have hstep : LogStep ks rd L { L with st := s1 } := ⟨hok, fun _ hr => .inl hr⟩
    cases r with
    | error e => exact ⟨hstep, fun i hx => (by cases hx)⟩
    | ok u =>
      dsimp only
      obtain ⟨g1, g2⟩ := tryGetHost_enf E hok.mode k
      generalize tryGetHost E { L with st := s1 } k = p at g1 g2
      obtain ⟨L1, r⟩ := p
      dsimp only at g1 g2
      subst g1
      rcases r with e | (_ | ⟨r, l⟩)
      · exact ⟨hstep, fun i hx => (by cases hx)⟩
      · exact ⟨hstep, fun i hx => (by cases hx)⟩
      · refine ⟨hstep, fun i hx hlt => ?_⟩
        dsimp only at hx
        have hi : i.entry = r := by
          unfold extendInfo at hx
          repeat' split at hx
          all_goals first | (cases hx; done) | (cases hx; rfl)
        rw [hi] at hlt ⊢
        exact h1 k r l (g2 _ rfl) hlt
  · rw [if_neg hs]; exact ⟨.same h, fun i hx => (by cases hx)⟩

theorem apply_log {ks rd : List K} {L : Lazy K B V} (h : LogOk ks L) {k : K} {i : ExtInfo Nat}
    (hi : i.entry < ks.length → ks[i.entry]? = some k) (n : Nat) : LogStep ks rd L (applyExtension L k i n) := by
  unfold applyExtension Storage.applyExtension
  by_cases hn : n > i.oldLiveUntil
  · rw [if_pos hn]
    exact ⟨h.withSt h.mode (h.owned.insert (fun r l he hr => by cases he; exact hi hr)), fun _ hr => .inl hr⟩
  · rw [if_neg hn]; exact .same h

theorem extendTtl_log {ks rd : List K} {L : Lazy K B V} (E : Env K V) (h : LogOk ks L) (k : K) (t x : Nat) :
    LogStep ks rd L (extendTtl E L k t x).1 := by
  unfold extendTtl
  by_cases ht : t > x
  · rw [if_pos ht]; exact .same h
  · rw [if_neg ht]
    obtain ⟨h1, h2⟩ := prepareExtend_log (rd := rd) E h k x
    generalize prepareExtend E L k x = p at h1 h2
    obtain ⟨L1, r⟩ := p
    cases r with
    | error e => exact h1
    | ok i =>
      dsimp only
      cases checkedAddU32 E.li.seq x with
      | none => exact h1
      | some n =>
        dsimp only
        by_cases hc : i.currentTtl ≤ t
        · rw [if_pos hc]; exact h1.trans (apply_log h1.ok (h2 i rfl) _)
        · rw [if_neg hc]; exact h1

theorem extendTtlV2_log {ks rd : List K} {L : Lazy K B V} (E : Env K V) (h : LogOk ks L) (k : K) (x a b : Nat) :
    LogStep ks rd L (extendTtlV2 E L k x a b).1 := by
  unfold extendTtlV2
  by_cases ht : b < a
  · rw [if_pos ht]; exact .same h
  · rw [if_neg ht]
    obtain ⟨h1, h2⟩ := prepareExtend_log (rd := rd) E h k x
    generalize prepareExtend E L k x = p at h1 h2
    obtain ⟨L1, r⟩ := p
    cases r with
    | error e => exact h1
    | ok i =>
      dsimp only
      by_cases hc : min (min (x - i.currentTtl) b) (i.maxLiveUntil - i.oldLiveUntil) < a
      · rw [if_pos hc]; exact h1
      · rw [if_neg hc]
        cases checkedAddU32 i.oldLiveUntil (min (min (x - i.currentTtl) b) (i.maxLiveUntil - i.oldLiveUntil)) with
        | none => exact h1
        | some n => exact h1.trans (apply_log h1.ok (h2 i rfl) _)

theorem write_log {C : Codec K B V} {ks rd : List K} {L : Lazy K B V} (E : Env K V) (h : LogOk ks L) {k : K} (hk : k ∈ rd)
    (u : Option V → V) : LogStep ks rd L (write E C L k u).1 := by
  unfold write
  have h1 := has_log (rd := rd) E h k
  generalize has E L k = p at h1
  obtain ⟨L1, r⟩ := p
  rcases r with e | (_ | _)
  · exact h1
  · dsimp only
    cases newLiveUntil E k with
    | error e => exact h1
    | ok l => exact h1.trans (putOpt_log E h1.ok k _)
  · dsimp only
    have h2 := getEntry_log (C := C) E h1.ok hk
    generalize getEntry E C L1 k = p at h2
    obtain ⟨L2, r⟩ := p
    rcases r with e | ⟨v, l⟩
    · exact h1.trans h2
    · exact (h1.trans h2).trans (putOpt_log E h2.ok k _)

/-- Also of the saved maps. -/
structure MOk (ks : List K) (m : LMachine K B V) : Prop where
  lz : LogOk ks m.lz
  saved : ∀ x ∈ m.saved, Owned ks x

theorem step_log {C : Codec K B V} {ks : List K} {m : LMachine K B V} (E : Env K V) (h : MOk ks m) (o : Op K V) :
    MOk ks (step E C m o).1 ∧ ∀ r ∈ (step E C m o).1.lz.log, r ∈ m.lz.log ∨ ∃ k ∈ readKey o, ks[r]? = some k := by
  have key : ∀ {L : Lazy K B V}, LogStep ks (readKey o) m.lz L →
      MOk ks { m with lz := L } ∧ ∀ r ∈ L.log, r ∈ m.lz.log ∨ ∃ k ∈ readKey o, ks[r]? = some k :=
    fun hL => ⟨⟨hL.ok, h.saved⟩, hL.log⟩
  cases o with
  | get k => exact key (getEntry_log E h.lz (by simp [readKey]))
  | has k => exact key (has_log E h.lz k)
  | del k => exact key (putOpt_log E h.lz k _)
  | put k v l => exact key (putOpt_log E h.lz k _)
  | write k u => exact key (write_log E h.lz (by simp [readKey]) u)
  | extend k t x => exact key (extendTtl_log E h.lz k t x)
  | extendV2 k x a b => exact key (extendTtlV2_log E h.lz k x a b)
  | mark =>
    refine ⟨⟨h.lz, fun x hx => ?_⟩, fun r hr => .inl hr⟩
    rcases List.mem_cons.mp hx with hx | hx
    · rw [hx]; exact h.lz.owned
    · exact h.saved x hx
  | commit => exact ⟨⟨h.lz, fun x hx => h.saved x (List.mem_of_mem_tail hx)⟩, fun r hr => .inl hr⟩
  | abort =>
    unfold step
    dsimp only
    cases hs : m.saved with
    | nil => exact ⟨h, fun r hr => .inl hr⟩
    | cons x xs =>
      have h1 := h.saved
      rw [hs] at h1
      exact ⟨⟨h.lz.withSt h.lz.mode (h1 x List.mem_cons_self), fun y hy => h1 y (List.mem_cons_of_mem _ hy)⟩, fun r hr => .inl hr⟩

theorem runProg_log {C : Codec K B V} {ks : List K} (E : Env K V) (p : Prog K V) :
    ∀ {m : LMachine K B V}, MOk ks m →
      MOk ks (runProg E C p m).1 ∧
        ∀ r ∈ (runProg E C p m).1.lz.log, r ∈ m.lz.log ∨ ∃ k ∈ readsOf E C p m, ks[r]? = some k := by
  induction p with
  | done => intro m h; exact ⟨h, fun r hr => .inl hr⟩
  | op o next ih =>
    intro m h
    obtain ⟨h1, h2⟩ := step_log (C := C) E h o
    obtain ⟨h3, h4⟩ := ih (step E C m o).2 h1
    refine ⟨h3, fun r hr => ?_⟩
    unfold readsOf
    rcases h4 r hr with hx | ⟨k, hk, hx⟩
    · rcases h2 r hx with hy | ⟨k, hk, hy⟩
      · exact .inl hy
      · exact .inr ⟨k, List.mem_append_left _ hk, hy⟩
    · exact .inr ⟨k, List.mem_append_right _ hk, hx⟩

theorem newValues_log {C : Codec K B V} {ks : List K} (ws : List K) :
    ∀ {L : Lazy K B V}, LogOk ks L → LogStep ks ws L (newValues C L ws).1 := by
  have one : ∀ (rd : List K) (k : K), k ∈ rd → ∀ {L : Lazy K B V}, LogOk ks L → LogStep ks rd L (newValue C L k).1 := by
    intro rd k hk L h
    unfold newValue
    cases hx : L.st.map.get k with
    | none => exact .same h
    | some x =>
      rcases x with _ | ⟨r, l⟩
      · exact .same h
      · dsimp only
        have hd := decodedAt_log (C := C) (rd := rd) h (r := r) (fun hr => ⟨k, hk, h.owned k r l hx hr⟩)
        generalize decodedAt C L r = q at hd
        obtain ⟨L2, r2⟩ := q
        cases r2 <;> exact hd
  have all : ∀ (rd ws : List K), (∀ k ∈ ws, k ∈ rd) → ∀ {L : Lazy K B V}, LogOk ks L → LogStep ks rd L (newValues C L ws).1 := by
    intro rd ws
    induction ws with
    | nil => intro _ L h; exact .same h
    | cons k ws ih =>
      intro hk L h
      have h1 := one rd k (hk k List.mem_cons_self) h
      unfold newValues
      generalize newValue C L k = p at h1
      obtain ⟨L1, r⟩ := p
      cases r with
      | error e => exact h1
      | ok b =>
        dsimp only
        have h2 := ih (fun k' hk' => hk k' (List.mem_cons_of_mem _ hk')) h1.ok
        generalize newValues C L1 ws = q at h2
        obtain ⟨L2, r⟩ := q
        cases r <;> exact h1.trans h2
  intro L h
  exact all ws ws (fun _ hk => hk) h

theorem build_log {es : List (K × Option (B × Option Nat))} :
    ∀ {ks : List K} {m : FMap K (Option (Entry Nat))} {hp : List (Cell B V)}, hp.length = ks.length → Owned ks m →
      (∀ k r l, m.get k = some (some (r, l)) → r < ks.length) →
      (build es (m, hp)).2.length = (ks ++ loadedKeys es).length ∧ Owned (ks ++ loadedKeys es) (build es (m, hp)).1 := by
  induction es with
  | nil => intro ks m hp hl ho _; simpa [build, loadedKeys] using ⟨hl, ho⟩
  | cons e es ih =>
    intro ks m hp hl ho hlt
    obtain ⟨k, e⟩ := e
    rcases e with _ | ⟨b, l⟩
    · have hk : loadedKeys ((k, (none : Option (B × Option Nat))) :: es) = loadedKeys es := by simp [loadedKeys]
      rw [hk]
      refine ih hl (ho.insert (fun _ _ hx => (by cases hx))) ?_
      intro k' r l hg
      rw [FMap.get_insert] at hg
      by_cases hkk : k' = k
      · simp only [hkk, if_true] at hg; cases hg
      · simp only [hkk, if_false] at hg; exact hlt k' r l hg
    · have hk : ks ++ loadedKeys ((k, some (b, l)) :: es) = (ks ++ [k]) ++ loadedKeys es := by simp [loadedKeys]
      rw [hk]
      refine ih (by simp [hl]) ?_ ?_
      · intro k' r l' hg hr
        rw [FMap.get_insert] at hg
        by_cases hkk : k' = k
        · simp only [hkk, if_true] at hg
          have : hp.length = r := by cases hg; rfl
          rw [← this, hl, hkk]; simp
        · simp only [hkk, if_false] at hg
          have := hlt k' r l' hg
          rw [List.getElem?_append_left this]
          exact ho k' r l' hg this
      · intro k' r l' hg
        rw [FMap.get_insert] at hg
        rw [List.length_append, List.length_singleton]
        by_cases hkk : k' = k
        · simp only [hkk, if_true] at hg
          have : hp.length = r := by cases hg; rfl
          rw [← this, hl]; exact Nat.lt_succ_self _
        · simp only [hkk, if_false] at hg
          exact Nat.lt_succ_of_lt (hlt k' r l' hg)

theorem enforcing_log (fp : FMap K Access) (es : List (K × Option (B × Option Nat))) :
    MOk (loadedKeys es) (enforcing (V := V) fp es) := by
  obtain ⟨h1, h2⟩ := build_log (V := V) (es := es) (ks := []) (m := []) (hp := []) rfl (fun _ _ _ hx => (by cases hx))
    (fun _ _ _ hx => (by cases hx))
  rw [List.nil_append] at h1 h2
  refine ⟨⟨rfl, h2, ?_, ?_, List.nodup_nil, fun r hr => (by cases hr)⟩, fun x hx => (by cases hx)⟩
  · intro r c hc
    exact .inl (h1 ▸ (List.getElem?_eq_some_iff.mp hc).1)
  · exact Nat.le_of_eq h1.symm

/-! ### entries that are not sound -/

theorem tryGetHost_may {E : Env K V} {L : Lazy K B V} {k : K} (h : MayRead E L k) {x : Option (Entry Nat)}
    (hx : L.st.map.get k = some x) : tryGetHost E L k = (L, .ok x) := by
  obtain ⟨hm, hs, hf⟩ := h
  have hl : load L k = L := by unfold load; rw [hm]
  unfold tryGetHost
  have h1 : (if E.keys.supported k = true then load L k else L) = L := by rw [hl]; simp
  rw [h1]
  dsimp only
  have he : enforceAccess L.st.footprint k .readOnly = .ok () := by
    unfold enforceAccess
    cases hg : L.st.footprint.get k with
    | none => rw [hg] at hf; cases hf
    | some a => cases a <;> rfl
  have : tryGet (refEnv E) L.st k = (L.st, .ok x) := by
    unfold tryGet
    rw [refEnv_supported, if_pos hs]
    unfold prepareReadOnly
    rw [hm]
    dsimp only
    rw [he]
    dsimp only
    rw [hx]
  rw [this]

end
end Soroban.LazyEntry
