import Verif.Lemmas.PoseidonPerm
/-!
C69: the Poseidon and Poseidon2 host functions compute what the papers define, and permute.
-/
namespace Soroban.Props

open Soroban.Poseidon Soroban.Poseidon.Spec
open Soroban.Curves (blsR bnR invalidInput)

/-- The residues of numbers. -/
def residues (r : Nat) (ns : List Nat) : List (ZMod r) := ns.map Nat.cast

theorem shape_map {α β : Type} (g : α → β) {t d rf rp : Nat} {xs : List α} {ms cs : List (List α)} :
    Shape t d rf rp (xs.map g) (ms.map (List.map g)) (cs.map (List.map g)) ↔ Shape t d rf rp xs ms cs := by
  constructor
  · rintro ⟨h1, h2, h3, h4, h5, h6⟩
    refine ⟨by simpa using h1, by simpa using h2, by simpa using h3, ?_, ?_, h6⟩
    · intro h0 row hr
      simpa using h4 h0 (row.map g) (List.mem_map_of_mem hr)
    · intro c hc
      simpa using h5 (c.map g) (List.mem_map_of_mem hc)
  · rintro ⟨h1, h2, h3, h4, h5, h6⟩
    refine ⟨by simpa using h1, by simpa using h2, by simpa using h3, ?_, ?_, h6⟩
    · intro h0 row hr
      obtain ⟨row, hr', rfl⟩ := List.mem_map.mp hr
      simpa using h4 h0 row hr'
    · intro c hc
      obtain ⟨c, hc', rfl⟩ := List.mem_map.mp hc
      simpa using h5 c hc'

theorem shape2_map {α β : Type} (g : α → β) {t d rf rp : Nat} {xs ds : List α} {cs : List (List α)} :
    Shape2 t d rf rp (xs.map g) (ds.map g) (cs.map (List.map g)) ↔ Shape2 t d rf rp xs ds cs := by
  constructor
  · rintro ⟨h1, h2, h3, h4, h5, h6, h7⟩
    refine ⟨by simpa using h1, h2, by simpa using h3, by simpa using h4, ?_, ?_, ?_⟩
    · intro c hc
      simpa using h5 (c.map g) (by rw [← List.map_take]; exact List.mem_map_of_mem hc)
    · intro c hc
      simpa using h6 (c.map g) (by rw [← List.map_drop, ← List.map_take]; exact List.mem_map_of_mem hc)
    · intro c hc
      simpa using h7 (c.map g) (by rw [← List.map_drop]; exact List.mem_map_of_mem hc)
  · rintro ⟨h1, h2, h3, h4, h5, h6, h7⟩
    refine ⟨by simpa using h1, h2, by simpa using h3, by simpa using h4, ?_, ?_, ?_⟩
    · intro c hc
      rw [← List.map_take] at hc
      obtain ⟨c, hc', rfl⟩ := List.mem_map.mp hc
      simpa using h5 c hc'
    · intro c hc
      rw [← List.map_drop, ← List.map_take] at hc
      obtain ⟨c, hc', rfl⟩ := List.mem_map.mp hc
      simpa using h6 c hc'
    · intro c hc
      rw [← List.map_drop] at hc
      obtain ⟨c, hc', rfl⟩ := List.mem_map.mp hc
      simpa using h7 c hc'

theorem poseidonImpl_iff {r : Nat} {input : List Cell} {t d rf rp : Nat} {mds rcs : List Row} {out : List Nat} :
    poseidonImpl r input t d rf rp mds rcs = .ok out ↔
      ∃ (xs : List Nat) (ms cs : List (List Nat)),
        input = xs.map some ∧ mds = ms.map (fun row => some (row.map some)) ∧ rcs = cs.map (fun row => some (row.map some)) ∧
        Shape t d rf rp xs ms cs ∧
        out = (List.ofFn (poseidon d rf rp (mat t (ms.map (residues r))) (cs.map fun c => vec t (residues r c))
          (vec t (residues r xs)))).map ZMod.val := by
  unfold poseidonImpl
  constructor
  · intro h
    obtain ⟨l1, h1, h⟩ := bind_ok.mp h
    obtain ⟨l2, h2, h⟩ := bind_ok.mp h
    obtain ⟨l3, h3, h⟩ := bind_ok.mp h
    obtain ⟨p, h4, h⟩ := bind_ok.mp h
    obtain ⟨o, h5, h6⟩ := bind_ok.mp h
    injection h6 with h6
    obtain ⟨xs, rfl, rfl⟩ := scalars_iff.mp h1
    obtain ⟨ms, rfl, rfl⟩ := scalarRows_iff.mp h2
    obtain ⟨cs, rfl, rfl⟩ := scalarRows_iff.mp h3
    obtain ⟨hc, hl, rfl⟩ := checkParams_iff h4
    by_cases hs : Shape t d rf rp (xs.map (Nat.cast : Nat → ZMod r)) (ms.map (List.map Nat.cast)) (cs.map (List.map Nat.cast))
    · rw [permutation_ok hs] at h5
      injection h5 with h5
      refine ⟨xs, ms, cs, rfl, rfl, rfl, (shape_map _).mp hs, ?_⟩
      rw [← h6, ← h5, List.map_map]
      rfl
    · obtain ⟨e, he⟩ := permutation_err hc hl hs
      rw [he] at h5
      exact nomatch h5
  · rintro ⟨xs, ms, cs, rfl, rfl, rfl, hs, rfl⟩
    have hs' := (shape_map (Nat.cast : Nat → ZMod r)).mpr hs
    refine bind_ok.mpr ⟨_, scalars_iff.mpr ⟨xs, rfl, rfl⟩, ?_⟩
    refine bind_ok.mpr ⟨_, scalarRows_iff.mpr ⟨ms, rfl, rfl⟩, ?_⟩
    refine bind_ok.mpr ⟨_, scalarRows_iff.mpr ⟨cs, rfl, rfl⟩, ?_⟩
    refine bind_ok.mpr ⟨_, checkParams_ok hs'.common hs'.matrix, ?_⟩
    refine bind_ok.mpr ⟨_, permutation_ok hs', ?_⟩
    rw [List.map_map]
    rfl

theorem poseidon2Impl_iff {r : Nat} {input : List Cell} {t d rf rp : Nat} {diag : List Cell} {rcs : List Row} {out : List Nat} :
    poseidon2Impl r input t d rf rp diag rcs = .ok out ↔
      ∃ (xs ds : List Nat) (cs : List (List Nat)),
        input = xs.map some ∧ diag = ds.map some ∧ rcs = cs.map (fun row => some (row.map some)) ∧
        Shape2 t d rf rp xs ds cs ∧
        out = (List.ofFn (poseidon2 d rf rp (external t) (internal t (usedDiag t (vec t (residues r ds))))
          (cs.map fun c => vec t (residues r c)) (vec t (residues r xs)))).map ZMod.val := by
  unfold poseidon2Impl
  constructor
  · intro h
    obtain ⟨l1, h1, h⟩ := bind_ok.mp h
    obtain ⟨l2, h2, h⟩ := bind_ok.mp h
    obtain ⟨l3, h3, h⟩ := bind_ok.mp h
    obtain ⟨p, h4, h⟩ := bind_ok.mp h
    obtain ⟨o, h5, h6⟩ := bind_ok.mp h
    injection h6 with h6
    obtain ⟨xs, rfl, rfl⟩ := scalars_iff.mp h1
    obtain ⟨ds, rfl, rfl⟩ := scalars_iff.mp h2
    obtain ⟨cs, rfl, rfl⟩ := scalarRows_iff.mp h3
    obtain ⟨hc, hl, rfl⟩ := checkParams_iff h4
    by_cases hs : Shape2 t d rf rp (xs.map (Nat.cast : Nat → ZMod r)) (ds.map Nat.cast) (cs.map (List.map Nat.cast))
    · rw [permutation2_ok hs] at h5
      injection h5 with h5
      refine ⟨xs, ds, cs, rfl, rfl, rfl, (shape2_map _).mp hs, ?_⟩
      rw [← h6, ← h5, List.map_map]
      rfl
    · obtain ⟨e, he⟩ := permutation2_err hc hl hs
      rw [he] at h5
      exact nomatch h5
  · rintro ⟨xs, ds, cs, rfl, rfl, rfl, hs, rfl⟩
    have hs' := (shape2_map (Nat.cast : Nat → ZMod r)).mpr hs
    refine bind_ok.mpr ⟨_, scalars_iff.mpr ⟨xs, rfl, rfl⟩, ?_⟩
    refine bind_ok.mpr ⟨_, scalars_iff.mpr ⟨ds, rfl, rfl⟩, ?_⟩
    refine bind_ok.mpr ⟨_, scalarRows_iff.mpr ⟨cs, rfl, rfl⟩, ?_⟩
    refine bind_ok.mpr ⟨_, checkParams_ok hs'.common hs'.diagonal, ?_⟩
    refine bind_ok.mpr ⟨_, permutation2_ok hs', ?_⟩
    rw [List.map_map]
    rfl

/-- The order of the scalars of a field's name. -/
def orderOf : FieldName → Option Nat
  | .bls12_381 => some 0x73eda753299d7d483339d80809a1d80553bda402fffe5bfeffffffff00000001
  | .bn254 => some 0x30644e72e131a029b85045b68181585d2833e84879b9709143e1f593f0000001
  | .other => none

theorem order_good {f : FieldName} {r : Nat} (h : orderOf f = some r) : Good r ∧
    (∀ input t d rf rp mds rcs, poseidonPermutation input f t d rf rp mds rcs = poseidonImpl r input t d rf rp mds rcs) ∧
    ∀ input t d rf rp diag rcs, poseidon2Permutation input f t d rf rp diag rcs = poseidon2Impl r input t d rf rp diag rcs := by
  cases f with
  | bls12_381 =>
    have : r = blsR := by
      injection h with h
      rw [← h]
      decide +kernel
    subst this
    exact ⟨good_bls, fun _ _ _ _ _ _ _ => rfl, fun _ _ _ _ _ _ _ => rfl⟩
  | bn254 =>
    have : r = bnR := by
      injection h with h
      rw [← h]
      decide +kernel
    subst this
    exact ⟨good_bn, fun _ _ _ _ _ _ _ => rfl, fun _ _ _ _ _ _ _ => rfl⟩
  | other => exact nomatch h

/-- **C69, Poseidon.** For the two fields the host function succeeds exactly if all vectors consist of 256-bit numbers and their sizes
fit, and then gives the permutation of the residues, in canonical form. For other fields it fails. -/
theorem C69_poseidon (f : FieldName) (input : List Cell) (t d rf rp : Nat) (mds rcs : List Row) :
    (∀ r, orderOf f = some r → ∀ out, poseidonPermutation input f t d rf rp mds rcs = .ok out ↔
      ∃ (xs : List Nat) (ms cs : List (List Nat)),
        input = xs.map some ∧ mds = ms.map (fun row => some (row.map some)) ∧ rcs = cs.map (fun row => some (row.map some)) ∧
        Shape t d rf rp xs ms cs ∧
        out = (List.ofFn (poseidon d rf rp (mat t (ms.map (residues r))) (cs.map fun c => vec t (residues r c))
          (vec t (residues r xs)))).map ZMod.val) ∧
    (orderOf f = none → poseidonPermutation input f t d rf rp mds rcs = .error invalidInput) := by
  constructor
  · intro r hr out
    rw [(order_good hr).2.1]
    exact poseidonImpl_iff
  · intro hr
    cases f with
    | bls12_381 => exact nomatch hr
    | bn254 => exact nomatch hr
    | other => rfl

/-- **C69, Poseidon2.** -/
theorem C69_poseidon2 (f : FieldName) (input : List Cell) (t d rf rp : Nat) (diag : List Cell) (rcs : List Row) :
    (∀ r, orderOf f = some r → ∀ out, poseidon2Permutation input f t d rf rp diag rcs = .ok out ↔
      ∃ (xs ds : List Nat) (cs : List (List Nat)),
        input = xs.map some ∧ diag = ds.map some ∧ rcs = cs.map (fun row => some (row.map some)) ∧
        Shape2 t d rf rp xs ds cs ∧
        out = (List.ofFn (poseidon2 d rf rp (external t) (internal t (usedDiag t (vec t (residues r ds))))
          (cs.map fun c => vec t (residues r c)) (vec t (residues r xs)))).map ZMod.val) ∧
    (orderOf f = none → poseidon2Permutation input f t d rf rp diag rcs = .error invalidInput) := by
  constructor
  · intro r hr out
    rw [(order_good hr).2.2]
    exact poseidon2Impl_iff
  · intro hr
    cases f with
    | bls12_381 => exact nomatch hr
    | bn254 => exact nomatch hr
    | other => rfl

/-! ### Permutations -/

/-- A vector of `t` canonical scalars. -/
def Canon (r t : Nat) (ns : List Nat) : Prop := ns.length = t ∧ ∀ n ∈ ns, n < r

/-- Canonical vectors are the vectors of residues. -/
theorem canon_vals {r t : Nat} [NeZero r] {ns : List Nat} (h : Canon r t ns) :
    (List.ofFn (vec t (residues r ns))).map ZMod.val = ns := by
  rw [ofFn_vec (by simpa [residues] using h.1), residues, List.map_map]
  conv_rhs => rw [← List.map_id ns]
  apply List.map_congr_left
  intro n hn
  exact ZMod.val_cast_of_lt (h.2 n hn)

theorem canon_of {r t : Nat} [NeZero r] (x : Fin t → ZMod r) : Canon r t ((List.ofFn x).map ZMod.val) := by
  refine ⟨by simp, ?_⟩
  intro n hn
  obtain ⟨y, _, rfl⟩ := List.mem_map.mp hn
  exact ZMod.val_lt y

theorem vec_of {r t : Nat} [NeZero r] (x : Fin t → ZMod r) : vec t (residues r ((List.ofFn x).map ZMod.val)) = x := by
  rw [residues, List.map_map]
  have : (Nat.cast ∘ ZMod.val : ZMod r → ZMod r) = id := by
    funext y
    simp
  rw [this, List.map_id, vec_ofFn]

/-- An injective function on vectors hits every canonical vector once. -/
theorem permutes {r t : Nat} [NeZero r] {g : (Fin t → ZMod r) → Fin t → ZMod r} (hg : Function.Injective g) {out : List Nat}
    (ho : Canon r t out) : ∃! xs, Canon r t xs ∧ (List.ofFn (g (vec t (residues r xs)))).map ZMod.val = out := by
  have hs := Finite.surjective_of_injective hg
  obtain ⟨x, hx⟩ := hs (vec t (residues r out))
  refine ⟨(List.ofFn x).map ZMod.val, ⟨canon_of x, ?_⟩, ?_⟩
  · rw [vec_of, hx, canon_vals ho]
  · rintro xs ⟨h1, h2⟩
    have : g (vec t (residues r xs)) = vec t (residues r out) := by
      rw [← h2, vec_of]
    have : vec t (residues r xs) = x := hg (this.trans hx.symm)
    rw [← this, canon_vals h1]

/-- **C69, a permutation.** With an invertible matrix and parameters that are accepted for one input, every vector of canonical scalars
is the result of exactly one vector of canonical scalars. -/
theorem C69_permutes (f : FieldName) (r t d rf rp : Nat) (input0 : List Cell) (out0 : List Nat) (ms : List (List Nat)) (rcs : List Row)
    (hr : orderOf f = some r) (hM : IsUnit (mat t (ms.map (residues r))).det)
    (h0 : poseidonPermutation input0 f t d rf rp (ms.map fun row => some (row.map some)) rcs = .ok out0) (out : List Nat)
    (ho : Canon r t out) :
    ∃! xs, Canon r t xs ∧
      poseidonPermutation (xs.map some) f t d rf rp (ms.map fun row => some (row.map some)) rcs = .ok out := by
  obtain ⟨hgood, heq, -⟩ := order_good hr
  have : NeZero r := ⟨hgood.prime.ne_zero⟩
  rw [heq] at h0
  obtain ⟨xs0, ms', cs, rfl, hms, rfl, hs, -⟩ := poseidonImpl_iff.mp h0
  have hms : ms = ms' := by
    have hi : Function.Injective fun row : List Nat => some (row.map some) := by
      intro a b hab
      exact List.map_injective_iff.mpr (Option.some_injective _) (Option.some.inj hab)
    exact List.map_injective_iff.mpr hi hms
  subst hms
  have hd := hs.common.degree
  subst hd
  have key : ∀ xs, (Canon r t xs ∧ poseidonPermutation (xs.map some) f t 5 rf rp (ms.map fun row => some (row.map some))
      (cs.map fun row => some (row.map some)) = .ok out) ↔ (Canon r t xs ∧
      (List.ofFn (poseidon 5 rf rp (mat t (ms.map (residues r))) (cs.map fun c => vec t (residues r c)) (vec t (residues r xs)))).map
        ZMod.val = out) := by
    intro xs
    rw [heq]
    constructor
    · rintro ⟨h1, h2⟩
      refine ⟨h1, ?_⟩
      obtain ⟨xs', ms', cs', e1, e2, e3, -, e4⟩ := poseidonImpl_iff.mp h2
      have hi : Function.Injective fun row : List Nat => some (row.map some) := by
        intro a b hab
        exact List.map_injective_iff.mpr (Option.some_injective _) (Option.some.inj hab)
      have e1 := List.map_injective_iff.mpr (Option.some_injective _) e1
      have e2 := List.map_injective_iff.mpr hi e2
      have e3 := List.map_injective_iff.mpr hi e3
      subst e1 e2 e3
      exact e4.symm
    · rintro ⟨h1, h2⟩
      exact ⟨h1, poseidonImpl_iff.mpr ⟨xs, ms, cs, rfl, rfl, rfl, ⟨hs.common, h1.1, hs.matrix, hs.rows, hs.consts, hs.nonempty⟩, h2.symm⟩⟩
  simp only [key]
  exact permutes (poseidon_inj hgood (inj_of_det hM) rf rp _) ho

/-- **C69, Poseidon2 is a permutation.** Its external matrix is always invertible; the internal one is for the sizes two and three, and
otherwise has to be. -/
theorem C69_permutes2 (f : FieldName) (r t d rf rp : Nat) (input0 : List Cell) (out0 : List Nat) (ds : List Nat) (rcs : List Row)
    (hr : orderOf f = some r) (hM : t = 2 ∨ t = 3 ∨ IsUnit (internal t (vec t (residues r ds))).det)
    (h0 : poseidon2Permutation input0 f t d rf rp (ds.map some) rcs = .ok out0) (out : List Nat) (ho : Canon r t out) :
    ∃! xs, Canon r t xs ∧ poseidon2Permutation (xs.map some) f t d rf rp (ds.map some) rcs = .ok out := by
  obtain ⟨hgood, -, heq⟩ := order_good hr
  have : NeZero r := ⟨hgood.prime.ne_zero⟩
  rw [heq] at h0
  obtain ⟨xs0, ds', cs, rfl, hds, rfl, hs, -⟩ := poseidon2Impl_iff.mp h0
  have hds := List.map_injective_iff.mpr (Option.some_injective _) hds
  subst hds
  have hd := hs.common.degree
  subst hd
  have key : ∀ xs, (Canon r t xs ∧ poseidon2Permutation (xs.map some) f t 5 rf rp (ds.map some)
      (cs.map fun row => some (row.map some)) = .ok out) ↔ (Canon r t xs ∧
      (List.ofFn (poseidon2 5 rf rp (external t) (internal t (usedDiag t (vec t (residues r ds))))
        (cs.map fun c => vec t (residues r c)) (vec t (residues r xs)))).map ZMod.val = out) := by
    intro xs
    rw [heq]
    constructor
    · rintro ⟨h1, h2⟩
      refine ⟨h1, ?_⟩
      obtain ⟨xs', ds', cs', e1, e2, e3, -, e4⟩ := poseidon2Impl_iff.mp h2
      have hi : Function.Injective fun row : List Nat => some (row.map some) := by
        intro a b hab
        exact List.map_injective_iff.mpr (Option.some_injective _) (Option.some.inj hab)
      have e1 := List.map_injective_iff.mpr (Option.some_injective _) e1
      have e2 := List.map_injective_iff.mpr (Option.some_injective _) e2
      have e3 := List.map_injective_iff.mpr hi e3
      subst e1 e2 e3
      exact e4.symm
    · rintro ⟨h1, h2⟩
      exact ⟨h1, poseidon2Impl_iff.mpr ⟨xs, ds, cs, rfl, rfl, rfl,
        ⟨hs.common, hs.size, h1.1, hs.diagonal, hs.before, hs.middle, hs.after⟩, h2.symm⟩⟩
  have hI : Function.Injective (fun x => Matrix.mulVec (internal t (usedDiag t (vec t (residues r ds)))) x) := by
    by_cases h23 : t = 2 ∨ t = 3
    · exact internal_small_inj hgood h23 _
    · have hu : usedDiag t (vec t (residues r ds)) = vec t (residues r ds) := by
        funext i
        unfold usedDiag
        rw [if_neg h23]
      rw [hu]
      rcases hM with h | h | h
      · exact (h23 (.inl h)).elim
      · exact (h23 (.inr h)).elim
      · exact inj_of_det h
  simp only [key]
  exact permutes (poseidon2_inj hgood (external_inj hgood hs.size) hI rf rp _) ho

/-- **C69, a finding.** For the sizes two and three the diagonal is ignored. -/
theorem C69_diagonal_ignored (f : FieldName) (input : List Cell) (t d rf rp : Nat) (ds ds' : List Nat) (rcs : List Row)
    (ht : t = 2 ∨ t = 3) (hl : ds'.length = ds.length) (out : List Nat)
    (h : poseidon2Permutation input f t d rf rp (ds.map some) rcs = .ok out) :
    poseidon2Permutation input f t d rf rp (ds'.map some) rcs = .ok out := by
  cases hr : orderOf f with
  | none =>
    rw [(C69_poseidon2 f input t d rf rp (ds.map some) rcs).2 hr] at h
    exact nomatch h
  | some r =>
    obtain ⟨xs, ds0, cs, rfl, e, rfl, hs, rfl⟩ := ((C69_poseidon2 f input t d rf rp (ds.map some) rcs).1 r hr out).mp h
    have e := List.map_injective_iff.mpr (Option.some_injective _) e
    subst e
    refine ((C69_poseidon2 f _ t d rf rp (ds'.map some) _).1 r hr _).mpr ⟨xs, ds', cs, rfl, rfl, rfl,
      ⟨hs.common, hs.size, hs.state, hl.trans hs.diagonal, hs.before, hs.middle, hs.after⟩, ?_⟩
    have : usedDiag t (vec t (residues r ds')) = usedDiag t (vec t (residues r ds)) := by
      funext i
      unfold usedDiag
      rw [if_pos ht, if_pos ht]
    rw [this]

/-! ### Concrete cases -/

/-- Whether a call gives these numbers. -/
def gives (res : Res (List Nat)) (out : List Nat) : Bool :=
  match res with
  | .ok l => l == out
  | .error _ => false

theorem of_gives {res : Res (List Nat)} {out : List Nat} (h : gives res out = true) : res = .ok out := by
  cases res with
  | error e => exact nomatch h
  | ok l => exact congrArg _ (by simpa [gives] using h)

/-- A row of numbers. -/
def numRow (ns : List Nat) : Row := some (ns.map some)

end Soroban.Props
