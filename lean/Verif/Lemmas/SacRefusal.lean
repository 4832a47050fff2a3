import Verif.Lemmas.SacBase
import Verif.Spec.SacRefusal
/-!
How computations of the asset contract end (C89): with a result, or with an error of the contract for a known reason.
-/
namespace Soroban.Sac
open Soroban Soroban.Storage Soroban.Auth Soroban.Sac.Spec
open Soroban.Storage.Spec hiding step runProg

/-- A state in good order that stands for a ledger, lifetimes aside, with given permissions. -/
structure At (E : SEnv) (P : SKey → Access → Bool) (L : Spec.Led) (s : Tok) : Prop where
  ok : StOk E s.st
  seen : ∀ k, valueOf (led E s k) = valueOf (L k)
  perm : ∀ k a, permOf s.st.mode s.st.footprint k a = P k a

theorem At.congr {E : SEnv} {P : SKey → Access → Bool} {L L' : Spec.Led} {s : Tok} (h : At E P L s)
    (hl : ∀ k, valueOf (L k) = valueOf (L' k)) : At E P L' s :=
  ⟨h.ok, fun k => (h.seen k).trans (hl k), h.perm⟩

/-- A computation ends well, or with an error of the contract. -/
def Ends {α : Type} (x : M α) (s : Tok) (post : α → Tok → Prop) (bad : Nat → Prop) : Prop :=
  (∃ a s', x s = .ok (a, s') ∧ post a s') ∨ ∃ n, x s = .error (.contract n) ∧ bad n

theorem Ends.bind {α β : Type} {x : M α} {f : α → M β} {s : Tok} {post : α → Tok → Prop} {post2 : β → Tok → Prop}
    {bad : Nat → Prop} (h : Ends x s post bad) (hf : ∀ a s', post a s' → Ends (f a) s' post2 bad) :
    Ends (x >>= f) s post2 bad := by
  have hb : (x >>= f) s = match x s with | .error e => .error e | .ok (a, s') => f a s' := rfl
  rcases h with ⟨a, s', h, hp⟩ | ⟨n, h, hn⟩
  · have := hf a s' hp
    unfold Ends at this ⊢
    rw [hb, h]
    exact this
  · exact .inr ⟨n, by rw [hb, h], hn⟩

theorem Ends.pure {α : Type} {a : α} {s : Tok} {post : α → Tok → Prop} {bad : Nat → Prop} (h : post a s) :
    Ends (pure a : M α) s post bad := .inl ⟨a, s, rfl, h⟩

theorem Ends.fail {α : Type} {n : Nat} {s : Tok} {post : α → Tok → Prop} {bad : Nat → Prop} (h : bad n) :
    Ends (Sac.fail (.contract n) : M α) s post bad := .inr ⟨n, rfl, h⟩

theorem Ends.mono {α : Type} {x : M α} {s : Tok} {post post' : α → Tok → Prop} {bad bad' : Nat → Prop}
    (h : Ends x s post bad) (hp : ∀ a s', post a s' → post' a s') (hb : ∀ n, bad n → bad' n) : Ends x s post' bad' := by
  rcases h with ⟨a, s', h, q⟩ | ⟨n, h, q⟩
  · exact .inl ⟨a, s', h, hp _ _ q⟩
  · exact .inr ⟨n, h, hb _ q⟩

theorem Ends.lift {α : Type} {a : α} {s : Tok} {post : α → Tok → Prop} {bad : Nat → Prop} (h : post a s) :
    Ends (Sac.lift (.ok a) : M α) s post bad := .inl ⟨a, s, rfl, h⟩

theorem Ends.liftFail {α : Type} {n : Nat} {s : Tok} {post : α → Tok → Prop} {bad : Nat → Prop} (h : bad n) :
    Ends (Sac.lift (.error (.contract n)) : M α) s post bad := .inr ⟨n, rfl, h⟩

theorem Ends.pureBind {α β : Type} {a : α} {f : α → M β} {s : Tok} {post : β → Tok → Prop} {bad : Nat → Prop}
    (h : Ends (f a) s post bad) : Ends ((Pure.pure a : M α) >>= f) s post bad := h

theorem Ends.liftBind {α β : Type} {a : α} {f : α → M β} {s : Tok} {post : β → Tok → Prop} {bad : Nat → Prop}
    (h : Ends (f a) s post bad) : Ends (Sac.lift (.ok a) >>= f) s post bad := h

variable {E : SEnv} {P : SKey → Access → Bool} {L : Spec.Led} {s : Tok} {bad : Nat → Prop}

theorem perm_same {st st' : Store SKey SVal} (hm : st'.mode = st.mode) (hf : st.mode = .enforcing → st'.footprint = st.footprint)
    (k : SKey) (a : Access) : permOf st'.mode st'.footprint k a = permOf st.mode st.footprint k a := by
  rw [hm]
  cases h : st.mode with
  | recording src => rfl
  | enforcing => rw [hf h]

theorem At.same (h : At E P L s) {st' : Store SKey SVal} (hs : Same E.sto s.st st') : At E P L { s with st := st' } :=
  ⟨stok_of h.ok hs.moved, fun k => by
    have : led E { s with st := st' } = led E s := hs.abs
    rw [this]; exact h.seen k, fun k a => by rw [perm_same hs.mode hs.fpE]; exact h.perm k a⟩

theorem has_ends (h : At E P L s) {k : SKey} (hr : P k .readOnly = true) :
    Ends (onStore fun st => has E.sto st k) s (fun b s' => b = (valueOf (L k)).isSome ∧ At E P L s') bad := by
  obtain ⟨st', hsame, h2, -⟩ := has_spec h.ok.1 h.ok.2 k
  refine .inl ⟨_, { s with st := st' }, ?_, rfl, h.same hsame⟩
  have hread : readAt E.sto (permOf s.st.mode s.st.footprint) (absMap E.sto s.st.mode s.st.map) k = .ok (led E s k) := by
    unfold readAt
    rw [h.perm, hr]
    rfl
  rw [hread] at h2
  have hv := h.seen k
  refine onStore_ok.mpr ⟨st', ?_, rfl⟩
  rw [h2, ← hv]
  cases led E s k <;> rfl

theorem getEntry_ends (h : At E P L s) {k : SKey} (hr : P k .readOnly = true) {v : SVal} (hv : valueOf (L k) = some v) :
    Ends (onStore fun st => getEntry E.sto st k) s (fun e s' => e.1 = v ∧ At E P L s') bad := by
  obtain ⟨st', hsame, h2, -⟩ := getEntry_spec h.ok.1 h.ok.2 k
  have hs := h.seen k
  rw [hv] at hs
  obtain ⟨e, he, hev⟩ : ∃ e, led E s k = some e ∧ e.1 = v := by
    cases hl : led E s k with
    | none => rw [hl] at hs; cases hs
    | some e => rw [hl] at hs; exact ⟨e, rfl, by simpa [valueOf] using hs⟩
  refine .inl ⟨e, { s with st := st' }, ?_, hev, h.same hsame⟩
  have hg : getAt E.sto (permOf s.st.mode s.st.footprint) (absMap E.sto s.st.mode s.st.map) k = .ok e := by
    have hread : readAt E.sto (permOf s.st.mode s.st.footprint) (absMap E.sto s.st.mode s.st.map) k = .ok (led E s k) := by
      unfold readAt
      rw [h.perm, hr]
      rfl
    unfold getAt
    rw [hread, he]
  exact onStore_ok.mpr ⟨st', by rw [h2, hg], rfl⟩

theorem tryGetData_ends (h : At E P L s) {k : SKey} (hr : P k .readOnly = true) :
    Ends (tryGetData E k) s (fun v s' => v = valueOf (L k) ∧ At E P L s') bad := by
  unfold tryGetData
  refine Ends.bind (has_ends h hr) ?_
  rintro b s1 ⟨rfl, h1⟩
  cases hv : valueOf (L k) with
  | none => exact Ends.pure ⟨rfl, h1⟩
  | some v =>
    refine Ends.bind (getEntry_ends h1 hr hv) ?_
    rintro e s2 ⟨rfl, h2⟩
    exact Ends.pure ⟨rfl, h2⟩

theorem tryGetClassic_ends (h : At E P L s) {k : SKey} (hr : P k .readOnly = true) :
    Ends (tryGetClassic E k) s (fun v s' => v = valueOf (L k) ∧ At E P L s') bad := by
  unfold tryGetClassic
  refine Ends.bind (post := fun e s' => e.map Prod.fst = valueOf (L k) ∧ At E P L s') ?_ ?_
  · obtain ⟨st', hsame, h2, -⟩ := tryGet_spec h.ok.1 h.ok.2 k
    have hread : readAt E.sto (permOf s.st.mode s.st.footprint) (absMap E.sto s.st.mode s.st.map) k = .ok (led E s k) := by
      unfold readAt
      rw [h.perm, hr]
      rfl
    exact .inl ⟨led E s k, { s with st := st' }, onStore_ok.mpr ⟨st', by rw [h2, hread], rfl⟩, h.seen k, h.same hsame⟩
  · rintro e s1 ⟨he, h1⟩
    exact Ends.pure ⟨he, h1⟩

theorem At.moved (h : At E P L s) {st' : Store SKey SVal} {k : SKey} {v : SVal} {l : Option Nat}
    (hm : Moved E.sto s.st st' ((led E s).set k (some (v, l)))) : At E P (L.set k (some (v, none))) { s with st := st' } := by
  refine ⟨stok_of h.ok hm, fun k' => ?_, fun k a => by rw [perm_same hm.mode hm.fpE]; exact h.perm k a⟩
  have : led E { s with st := st' } = (led E s).set k (some (v, l)) := hm.abs
  rw [this]
  unfold Ledger.set
  split
  · rfl
  · exact h.seen k'

theorem putClassic_ends (h : At E P L s) {k : SKey} (hk : sacKeys.durability k = none) (hw : P k .readWrite = true) (v : SVal) :
    Ends (putClassic E k v) s (fun _ s' => At E P (L.set k (some (v, none))) s') bad := by
  obtain ⟨st', hm, h2, -⟩ := putOpt_spec (E := E.sto) h.ok.2 k (liveEntry_classic hk v)
  have hwr : writeAt E.sto (permOf s.st.mode s.st.footprint) (absMap E.sto s.st.mode s.st.map) k (some (v, none)) =
      .ok ((led E s).set k (some (v, none))) := by
    unfold writeAt
    rw [h.perm, hw]
    rfl
  rw [hwr] at hm h2
  exact .inl ⟨(), { s with st := st' }, onStore_ok.mpr ⟨st', h2, rfl⟩, h.moved hm⟩

theorem newLiveUntil_some (hr : Running E.li) (k : SKey) : ∃ l, newLiveUntil E.sto k = .ok l := by
  have h1 := hr.minTemp
  have h2 := hr.minPersistent
  have hu : u32Max = 2 ^ 32 - 1 := rfl
  unfold newLiveUntil
  cases hd : E.sto.keys.durability k with
  | none => exact ⟨none, rfl⟩
  | some d =>
    have : ∃ m, E.sto.li.minLiveUntil d = some m := by
      unfold LedgerInfo.minLiveUntil checkedAddU32
      have he : E.sto.li = E.li := rfl
      rw [he]
      cases d
      · exact ⟨_, if_pos (by simp only; omega)⟩
      · exact ⟨_, if_pos (by simp only; omega)⟩
    obtain ⟨m, hm⟩ := this
    simp only [hm]
    exact ⟨_, rfl⟩

theorem putData_ends (hr : Running E.li) (h : At E P L s) {k : SKey} (hro : P k .readOnly = true) (hw : P k .readWrite = true)
    (v : SVal) : Ends (putData E k v) s (fun _ s' => At E P (L.set k (some (v, none))) s') bad := by
  obtain ⟨st', hm, h2, -⟩ := write_spec (E := E.sto) h.ok.1 h.ok.2 k (fun _ => v)
  have hu : ∃ l, updateAt E.sto (permOf s.st.mode s.st.footprint) (absMap E.sto s.st.mode s.st.map) k (fun _ => v) =
      .ok ((led E s).set k (some (v, l))) := by
    have hread : readAt E.sto (permOf s.st.mode s.st.footprint) (absMap E.sto s.st.mode s.st.map) k = .ok (led E s k) := by
      unfold readAt
      rw [h.perm, hro]
      rfl
    have hwr : ∀ l, writeAt E.sto (permOf s.st.mode s.st.footprint) (absMap E.sto s.st.mode s.st.map) k (some (v, l)) =
        .ok ((led E s).set k (some (v, l))) := by
      intro l
      unfold writeAt
      rw [h.perm, hw]
      rfl
    unfold updateAt
    rw [hread]
    cases led E s k with
    | none =>
      obtain ⟨l, hl⟩ := newLiveUntil_some hr k
      simp only [hl]
      exact ⟨l, hwr l⟩
    | some e => exact ⟨e.2, hwr e.2⟩
  obtain ⟨l, hu⟩ := hu
  rw [hu] at hm h2
  exact .inl ⟨(), { s with st := st' }, onStore_ok.mpr ⟨st', h2, rfl⟩, h.moved hm⟩

theorem maxLiveUntil_eq (hr : Running E.li) : E.li.maxLiveUntil = some (E.li.seq + (E.li.maxTtl - 1)) := by
  have := hr.maxTtl
  have hu : u32Max = 2 ^ 32 - 1 := rfl
  unfold LedgerInfo.maxLiveUntil checkedAddU32
  exact if_pos (by omega)

/-- An entry with a lifetime can have it extended. -/
theorem extendData_ends (hr : Running E.li) (h : At E P L s) {k : SKey} (hro : P k .readOnly = true) {d : Durability}
    (hk : sacKeys.durability k = some d) (hv : valueOf (L k) ≠ none) {t x : Nat} (htx : t ≤ x) (hx : E.li.seq + x ≤ u32Max)
    (hd : d = .temporary → x ≤ E.li.maxTtl - 1) :
    Ends (extendData E k t x) s (fun _ s' => At E P L s') bad := by
  obtain ⟨st', hm, h2, -⟩ := extendTtl_spec (E := E.sto) h.ok.1 h.ok.2 k t x (by omega)
  obtain ⟨v, hv⟩ := Option.ne_none_iff_exists'.mp hv
  have hs := h.seen k
  rw [hv] at hs
  obtain ⟨l, he⟩ : ∃ l, led E s k = some (v, l) := by
    cases hl : led E s k with
    | none => rw [hl] at hs; cases hs
    | some e =>
      rw [hl] at hs
      obtain ⟨v', l⟩ := e
      exact ⟨l, by simp only [valueOf, Option.map_some, Option.some.injEq] at hs; rw [hs]⟩
  have hlive : LiveEntry E.sto k (led E s k) := absMap_live h.ok.1 h.ok.2 k
  obtain ⟨l', rfl, hl'⟩ := hlive v l d he hk
  have hext : ∃ l2, extendAt E.sto (permOf s.st.mode s.st.footprint) (absMap E.sto s.st.mode s.st.map) k
      (extended E.sto k t x) = .ok ((led E s).set k (some (v, l2))) := by
    have hg : getAt E.sto (permOf s.st.mode s.st.footprint) (absMap E.sto s.st.mode s.st.map) k = .ok (v, some l') := by
      have hread : readAt E.sto (permOf s.st.mode s.st.footprint) (absMap E.sto s.st.mode s.st.map) k = .ok (led E s k) := by
        unfold readAt
        rw [h.perm, hro]
        rfl
      unfold getAt
      rw [hread, he]
    have hi : extendInfo E.sto k x v (some l') = .ok ⟨v, l', l' - E.li.seq, E.li.seq + (E.li.maxTtl - 1)⟩ := by
      unfold extendInfo
      have h1 : ¬ l' < E.sto.li.seq := by show ¬ l' < E.li.seq; have : E.li.seq ≤ l' := hl'; omega
      have h2 : E.sto.li.maxLiveUntil = some (E.li.seq + (E.li.maxTtl - 1)) := maxLiveUntil_eq hr
      have h3 : E.sto.keys.durability k = some d := hk
      simp only [h1, if_false, h2, h3]
      rw [if_neg]
      · rfl
      · rintro ⟨hd', hlt⟩
        have := hd hd'
        have he : E.sto.li = E.li := rfl
        rw [he] at hlt
        omega
    have hx2 : ∃ l2, extended E.sto k t x (v, some l') = .ok (v, l2) := by
      simp only [extended, hi]
      have hu : ¬ u32Max < E.sto.li.seq + x := by show ¬ u32Max < E.li.seq + x; omega
      rw [if_neg hu]
      split
      · exact ⟨_, rfl⟩
      · exact ⟨_, rfl⟩
    obtain ⟨l2, hx2⟩ := hx2
    unfold extendAt
    rw [hg]
    simp only [hx2]
    exact ⟨l2, rfl⟩
  obtain ⟨l2, hext⟩ := hext
  rw [hext] at hm h2
  refine .inl ⟨(), { s with st := st' }, onStore_ok.mpr ⟨st', h2, rfl⟩, (h.moved hm).congr fun k' => ?_⟩
  unfold Ledger.set
  split
  · rename_i e; rw [e, hv]; rfl
  · rfl

theorem bumpInstance_ends (hr : Running E.li) (h : At E P L s) (hro : P .inst .readOnly = true)
    (hi : valueOf (L .inst) ≠ none) : Ends (bumpInstance E) s (fun _ s' => At E P L s') bad := by
  have := hr.seq
  have hu : u32Max = 2 ^ 32 - 1 := rfl
  exact extendData_ends hr h hro (d := .persistent) rfl hi (by omega) (by omega) (by intro e; cases e)

theorem emit_ends (h : At E P L s) (e : TokEvent) : Ends (emit e) s (fun _ s' => At E P L s') bad :=
  .inl ⟨(), _, rfl, ⟨h.ok, h.seen, h.perm⟩⟩

end Soroban.Sac
