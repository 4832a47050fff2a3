import Verif.Spec.Prng
import Mathlib.Data.List.Nodup
/-! Lemmas about pseudo-random numbers. -/
namespace Soroban.Prng
open Soroban Soroban.Prng.Spec
variable {R : Type}

/-! ### shuffling -/

theorem swap_length (v : List Nat) (i j : Nat) : (swap v i j).length = v.length := by
  unfold swap
  split <;> simp

theorem swap_perm (v : List Nat) (i j : Nat) : (swap v i j).Perm v := by
  unfold swap
  cases hi : v[i]? with
  | none => exact List.Perm.refl _
  | some a =>
    cases hj : v[j]? with
    | none => exact List.Perm.refl _
    | some b =>
      dsimp only
      obtain ⟨hil, hia⟩ := List.getElem?_eq_some_iff.1 hi
      obtain ⟨hjl, hjb⟩ := List.getElem?_eq_some_iff.1 hj
      subst hia hjb
      exact List.set_set_perm hil hjl

theorem shuffleLoop_perm (G : Gen R) : ∀ (n : Nat) (r : R) (v : List Nat), (shuffleLoop G n r v).1.Perm v
  | 0, _, v => List.Perm.refl v
  | n + 1, r, v => by
    rw [shuffleLoop]
    exact (shuffleLoop_perm G n _ _).trans (swap_perm v _ _)

/-! ### streams -/

/-- The generator after a list of requests. -/
def after (G : Gen R) : R → List Op → R
  | r, [] => r
  | r, o :: os => after G (perform G r o).2 os

/-- The generator after `n` seeds have been drawn. -/
def drawn (G : Gen R) : R → Nat → R
  | r, 0 => r
  | r, n + 1 => drawn G (G.fill r 32).2 n

theorem drawn_succ (G : Gen R) : ∀ (r : R) (n : Nat), drawn G r (n + 1) = (G.fill (drawn G r n) 32).2
  | _, 0 => rfl
  | r, n + 1 => by
    rw [drawn, drawn_succ G _ n]
    rfl

theorem nthSeed_eq (G : Gen R) : ∀ (r : R) (n : Nat), nthSeed G r n = (G.fill (drawn G r n) 32).1
  | _, 0 => rfl
  | r, n + 1 => by
    rw [nthSeed, nthSeed_eq G _ n]
    rfl

theorem stream_append (G : Gen R) (os : List Op) (o : Op) : ∀ r : R,
    stream G r (os ++ [o]) = stream G r os ++ [(perform G (after G r os) o).1] := by
  induction os with
  | nil => intro r; rfl
  | cons p os ih => intro r; simp only [List.cons_append, stream, after, ih]

theorem after_append (G : Gen R) (os : List Op) (o : Op) : ∀ r : R,
    after G r (os ++ [o]) = (perform G (after G r os) o).2 := by
  induction os with
  | nil => intro r; rfl
  | cons p os ih => intro r; simp only [List.cons_append, after, ih]

theorem asked_append (i j : Nat) (log : List (Nat × Op × Res Out)) (o : Op) (v : Res Out) :
    asked i (log ++ [(j, o, v)]) = if j = i then asked i log ++ [o] else asked i log := by
  unfold asked
  rw [List.filter_append, List.map_append]
  by_cases h : j = i
  · subst h; simp
  · simp [h]

theorem got_append (i j : Nat) (log : List (Nat × Op × Res Out)) (o : Op) (v : Res Out) :
    got i (log ++ [(j, o, v)]) = if j = i then got i log ++ [v] else got i log := by
  unfold got
  rw [List.filter_append, List.map_append]
  by_cases h : j = i
  · subst h; simp
  · simp [h]

theorem asked_none (i : Nat) (log : List (Nat × Op × Res Out)) (h : ∀ e ∈ log, e.1 ≠ i) : asked i log = [] := by
  unfold asked
  rw [List.filter_eq_nil_iff.2 (by intro e he; simpa using h e he)]
  rfl

theorem got_none (i : Nat) (log : List (Nat × Op × Res Out)) (h : ∀ e ∈ log, e.1 ≠ i) : got i log = [] := by
  unfold got
  rw [List.filter_eq_nil_iff.2 (by intro e he; simpa using h e he)]
  rfl

/-! ### the invariant -/

/-- The first generator of the `k`th frame that uses randomness. -/
def gen (G : Gen R) (b : R) (k : Nat) : R := G.fromSeed (nthSeed G b k)

structure PInv (G : Gen R) (b : R) (s : PSt R) : Prop where
  base : s.base = some (drawn G b s.order.length)
  nodup : s.order.Nodup
  lt : ∀ i ∈ s.order, i < s.next
  logged : ∀ e ∈ s.log, e.1 ∈ s.order
  ids : (s.frames.map PFrame.id).Nodup
  framesLt : ∀ f ∈ s.frames, f.id < s.next
  unused : ∀ f ∈ s.frames, f.prng = none → f.id ∉ s.order
  used : ∀ f ∈ s.frames, ∀ r, f.prng = some r →
    f.id ∈ s.order ∧ ∀ k : Nat, s.order[k]? = some f.id → r = after G (gen G b k) (asked f.id s.log)
  streams : ∀ k i : Nat, s.order[k]? = some i → got i s.log = stream G (gen G b k) (asked i s.log)

theorem start_inv (G : Gen R) (b : R) :
    PInv G b { base := some b, frames := [], next := 0, log := [], order := [] } where
  base := rfl
  nodup := List.nodup_nil
  lt := fun i h => (by cases h)
  logged := fun e h => (by cases h)
  ids := List.nodup_nil
  framesLt := fun f h => (by cases h)
  unused := fun f h => (by cases h)
  used := fun f h => (by cases h)
  streams := fun k i h => (by cases h)

theorem index_unique {l : List Nat} (h : l.Nodup) {i j a : Nat} (hi : l[i]? = some a) (hj : l[j]? = some a) : i = j := by
  obtain ⟨h1, e1⟩ := List.getElem?_eq_some_iff.1 hi
  obtain ⟨h2, e2⟩ := List.getElem?_eq_some_iff.1 hj
  exact (List.Nodup.getElem_inj_iff h).1 (e1.trans e2.symm)

/-- Using a generator the frame has. -/
theorem perform_inv {G : Gen R} {b : R} {s : PSt R} {f : PFrame R} {fs : List (PFrame R)} {r : R} (h : PInv G b s)
    (hf : s.frames = f :: fs) (hr : f.prng = some r) (o : Op) :
    PInv G b { s with frames := { f with prng := some (perform G r o).2 } :: fs, log := s.log ++ [(f.id, o, (perform G r o).1)] } := by
  have hin : f ∈ s.frames := by rw [hf]; exact List.mem_cons_self
  obtain ⟨hmem, hgen⟩ := h.used f hin r hr
  have hids := h.ids
  rw [hf] at hids
  have hne : ∀ g ∈ fs, g.id ≠ f.id := by
    intro g hg he
    have := (List.nodup_cons.1 hids).1
    exact this (he ▸ List.mem_map_of_mem hg)
  constructor
  · exact h.base
  · exact h.nodup
  · exact h.lt
  · intro e he
    rcases List.mem_append.1 he with he | he
    · exact h.logged e he
    · rw [List.mem_singleton.1 he]; exact hmem
  · exact hids
  · intro g hg
    rcases List.mem_cons.1 hg with hg | hg
    · rw [hg]; exact h.framesLt f hin
    · exact h.framesLt g (by rw [hf]; exact List.mem_cons_of_mem _ hg)
  · intro g hg hn
    rcases List.mem_cons.1 hg with hg | hg
    · rw [hg] at hn; cases hn
    · exact h.unused g (by rw [hf]; exact List.mem_cons_of_mem _ hg) hn
  · intro g hg r' hr'
    rcases List.mem_cons.1 hg with hg | hg
    · rw [hg] at hr' ⊢
      refine ⟨hmem, ?_⟩
      intro k hk
      simp only [Option.some.injEq] at hr'
      rw [← hr']
      dsimp only
      rw [asked_append, if_pos rfl, after_append, ← hgen k hk]
    · obtain ⟨h1, h2⟩ := h.used g (by rw [hf]; exact List.mem_cons_of_mem _ hg) r' hr'
      refine ⟨h1, ?_⟩
      intro k hk
      dsimp only
      rw [asked_append, if_neg (fun e => hne g hg e.symm)]
      exact h2 k hk
  · intro k i hk
    dsimp only
    rw [asked_append, got_append]
    by_cases hi : f.id = i
    · rw [if_pos hi, if_pos hi]
      subst hi
      rw [stream_append, h.streams k _ hk, ← hgen k hk]
    · rw [if_neg hi, if_neg hi]
      exact h.streams k i hk

/-- Giving a frame its generator. -/
theorem seed_inv {G : Gen R} {b b' : R} {s : PSt R} {f : PFrame R} {fs : List (PFrame R)} (h : PInv G b s)
    (hf : s.frames = f :: fs) (hr : f.prng = none) (hb : s.base = some b') :
    PInv G b { s with base := some (subPrng G b').2, order := s.order ++ [f.id],
                      frames := { f with prng := some (subPrng G b').1 } :: fs } := by
  have hin : f ∈ s.frames := by rw [hf]; exact List.mem_cons_self
  have hnew := h.unused f hin hr
  have hids := h.ids
  rw [hf] at hids
  have hne : ∀ g ∈ fs, g.id ≠ f.id := by
    intro g hg he
    have := (List.nodup_cons.1 hids).1
    exact this (he ▸ List.mem_map_of_mem hg)
  have hb' : b' = drawn G b s.order.length := by
    have := h.base
    rw [hb] at this
    exact Option.some.inj this
  have hlog : ∀ e ∈ s.log, e.1 ≠ f.id := by
    intro e he hc
    exact hnew (hc ▸ h.logged e he)
  have hlast : ∀ k : Nat, (s.order ++ [f.id])[k]? = some f.id → k = s.order.length := by
    intro k hk
    rw [List.getElem?_append] at hk
    split at hk
    · exact absurd (List.mem_of_getElem? hk) hnew
    · obtain ⟨h1, -⟩ := List.getElem?_eq_some_iff.1 hk
      simp only [List.length_singleton] at h1
      omega
  have hold : ∀ k i : Nat, i ≠ f.id → (s.order ++ [f.id])[k]? = some i → s.order[k]? = some i := by
    intro k i hi hk
    rw [List.getElem?_append] at hk
    split at hk
    · exact hk
    · exact absurd (List.mem_singleton.1 (List.mem_of_getElem? hk)) hi
  constructor
  · dsimp only
    rw [List.length_append, List.length_singleton, drawn_succ, hb']
    rfl
  · exact List.nodup_append.2 ⟨h.nodup, List.nodup_singleton _, by
      intro x hx y hy e
      rw [List.mem_singleton] at hy
      exact hnew (by rw [← hy, ← e]; exact hx)⟩
  · intro i hi
    rcases List.mem_append.1 hi with hi | hi
    · exact h.lt i hi
    · rw [List.mem_singleton.1 hi]; exact h.framesLt f hin
  · intro e he
    exact List.mem_append_left _ (h.logged e he)
  · exact hids
  · intro g hg
    rcases List.mem_cons.1 hg with hg | hg
    · rw [hg]; exact h.framesLt f hin
    · exact h.framesLt g (by rw [hf]; exact List.mem_cons_of_mem _ hg)
  · intro g hg hn
    rcases List.mem_cons.1 hg with hg | hg
    · rw [hg] at hn; cases hn
    · intro hm
      rcases List.mem_append.1 hm with hm | hm
      · exact h.unused g (by rw [hf]; exact List.mem_cons_of_mem _ hg) hn hm
      · exact hne g hg (List.mem_singleton.1 hm)
  · intro g hg r' hr'
    rcases List.mem_cons.1 hg with hg | hg
    · rw [hg] at hr' ⊢
      refine ⟨List.mem_append_right _ (List.mem_singleton.2 rfl), ?_⟩
      intro k hk
      have hk' := hlast k hk
      simp only [Option.some.injEq] at hr'
      rw [← hr']
      dsimp only
      rw [asked_none _ _ hlog, hk']
      unfold gen
      rw [nthSeed_eq, ← hb']
      rfl
    · obtain ⟨h1, h2⟩ := h.used g (by rw [hf]; exact List.mem_cons_of_mem _ hg) r' hr'
      refine ⟨List.mem_append_left _ h1, ?_⟩
      intro k hk
      exact h2 k (hold k _ (hne g hg) hk)
  · intro k i hk
    dsimp only
    by_cases hi : i = f.id
    · rw [hi, asked_none _ _ hlog, got_none _ _ hlog]
      rfl
    · exact h.streams k i (hold k i hi hk)

/-- What a piece of code does to the state. -/
structure PStep (G : Gen R) (b : R) (s s' : PSt R) : Prop where
  inv : PInv G b s'
  tail : s'.frames.tail = s.frames.tail
  ne : s'.frames ≠ []
  order : s.order <+: s'.order
  log : s.log <+: s'.log

theorem PStep.refl {G : Gen R} {b : R} {s : PSt R} (h : PInv G b s) (hn : s.frames ≠ []) : PStep G b s s :=
  ⟨h, rfl, hn, List.prefix_rfl, List.prefix_rfl⟩

theorem PStep.trans {G : Gen R} {b : R} {s t u : PSt R} (h : PStep G b s t) (h' : PStep G b t u) : PStep G b s u :=
  ⟨h'.inv, h'.tail.trans h.tail, h'.ne, h.order.trans h'.order, h.log.trans h'.log⟩

theorem withCurrent_step {G : Gen R} {b : R} {s : PSt R} (h : PInv G b s) (hn : s.frames ≠ []) (o : Op) :
    PStep G b s (withCurrent G s o).1 := by
  unfold withCurrent
  cases hf : s.frames with
  | nil => exact absurd hf hn
  | cons f fs =>
    dsimp only
    unfold currentPrng
    cases hr : f.prng with
    | some r =>
      dsimp only
      exact ⟨perform_inv h hf hr o, (by rw [hf]; rfl), (by simp), List.prefix_rfl, List.prefix_append _ _⟩
    | none =>
      cases hb : s.base with
      | none => dsimp only; exact PStep.refl h hn
      | some b' =>
        dsimp only
        exact ⟨perform_inv (seed_inv h hf hr hb) (f := { f with prng := some (subPrng G b').1 }) rfl rfl o,
          (by rw [hf]; rfl), (by simp), List.prefix_append _ _, List.prefix_append _ _⟩

theorem useOp_step {G : Gen R} {b : R} {s : PSt R} (h : PInv G b s) (hn : s.frames ≠ []) (o : Op) :
    PStep G b s (useOp G s o).1 := by
  unfold useOp
  split
  · split
    · exact withCurrent_step h hn _
    · exact PStep.refl h hn
  · exact withCurrent_step h hn _

theorem push_inv {G : Gen R} {b : R} {s : PSt R} (h : PInv G b s) :
    PInv G b { s with frames := ⟨s.next, none⟩ :: s.frames, next := s.next + 1 } := by
  constructor
  · exact h.base
  · exact h.nodup
  · intro i hi; exact Nat.lt_succ_of_lt (h.lt i hi)
  · exact h.logged
  · refine List.nodup_cons.2 ⟨?_, h.ids⟩
    intro hm
    obtain ⟨g, hg, he⟩ := List.mem_map.1 hm
    have := h.framesLt g hg
    dsimp only at he
    omega
  · intro g hg
    rcases List.mem_cons.1 hg with hg | hg
    · rw [hg]; exact Nat.lt_succ_self _
    · exact Nat.lt_succ_of_lt (h.framesLt g hg)
  · intro g hg hn
    rcases List.mem_cons.1 hg with hg | hg
    · rw [hg]; intro hm; exact absurd (h.lt _ hm) (Nat.lt_irrefl _)
    · exact h.unused g hg hn
  · intro g hg r hr
    rcases List.mem_cons.1 hg with hg | hg
    · rw [hg] at hr; cases hr
    · exact h.used g hg r hr
  · exact h.streams

theorem pop_inv {G : Gen R} {b : R} {s : PSt R} (h : PInv G b s) : PInv G b { s with frames := s.frames.tail } := by
  have hsub : ∀ f ∈ s.frames.tail, f ∈ s.frames := fun f hf => List.mem_of_mem_tail hf
  constructor
  · exact h.base
  · exact h.nodup
  · exact h.lt
  · exact h.logged
  · dsimp only
    rw [List.map_tail]
    exact h.ids.sublist (List.tail_sublist _)
  · intro g hg; exact h.framesLt g (hsub g hg)
  · intro g hg; exact h.unused g (hsub g hg)
  · intro g hg; exact h.used g (hsub g hg)
  · exact h.streams

theorem framed_inv {G : Gen R} {b : R} {s : PSt R} (h : PInv G b s) {f : PSt R → PSt R × Res Unit}
    (hf : ∀ t, PInv G b t → t.frames ≠ [] → PStep G b t (f t).1) :
    PInv G b (framed s f).1 ∧ (framed s f).1.frames = s.frames ∧ s.order <+: (framed s f).1.order ∧ s.log <+: (framed s f).1.log := by
  have := hf _ (push_inv h) (by simp)
  unfold framed
  exact ⟨pop_inv this.inv, this.tail, this.order, this.log⟩

theorem framed_step {G : Gen R} {b : R} {s : PSt R} (h : PInv G b s) (hn : s.frames ≠ []) {f : PSt R → PSt R × Res Unit}
    (hf : ∀ t, PInv G b t → t.frames ≠ [] → PStep G b t (f t).1) : PStep G b s (framed s f).1 := by
  obtain ⟨h1, h2, h3, h4⟩ := framed_inv h hf
  exact ⟨h1, by rw [h2], by rw [h2]; exact hn, h3, h4⟩

theorem run_step {G : Gen R} {b : R} (p : PProg) : ∀ {s : PSt R}, PInv G b s → s.frames ≠ [] → PStep G b s (run G p s).1 := by
  induction p with
  | ret => intro s h hn; exact PStep.refl h hn
  | fail e => intro s h hn; exact PStep.refl h hn
  | op o k ih =>
    intro s h hn
    rw [run]
    have hs := useOp_step h hn o
    cases hq : useOp G s o with
    | mk t r =>
      rw [hq] at hs
      cases r with
      | error e => exact hs
      | ok v => exact hs.trans (ih v hs.inv hs.ne)
  | call body k ihb ihk =>
    intro s h hn
    rw [run]
    have hs := framed_step h hn (f := run G body) (fun t ht hnt => ihb ht hnt)
    cases hq : framed s (run G body) with
    | mk t r =>
      rw [hq] at hs
      cases r with
      | error e => exact hs
      | ok v => exact hs.trans (ihk hs.inv hs.ne)
  | tryCall body k ihb ihk =>
    intro s h hn
    rw [run]
    have hs := framed_step h hn (f := run G body) (fun t ht hnt => ihb ht hnt)
    cases hq : framed s (run G body) with
    | mk t r =>
      rw [hq] at hs
      cases r with
      | error e =>
        dsimp only
        split
        · exact hs.trans (ihk false hs.inv hs.ne)
        · exact hs
      | ok v => exact hs.trans (ihk true hs.inv hs.ne)

end Soroban.Prng
