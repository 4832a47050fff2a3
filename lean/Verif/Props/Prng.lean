import Mathlib.Data.List.Perm.Basic
import Verif.Lemmas.Prng
/-!
C53: every contract call has its own stream of pseudo-random numbers, and the functions that use it return what they promise.
-/
namespace Soroban.Props
open Soroban Soroban.Prng Soroban.Prng.Spec
variable {R : Type}

/-- A transaction: the code `p` is called in the first frame of a host whose base generator was seeded with `seed`. -/
def prngTx (G : Gen R) (seed : List Nat) (p : PProg) : PSt R := (Prng.framed (Prng.start G seed) (Prng.run G p)).1

theorem prngTx_inv (G : Gen R) (seed : List Nat) (p : PProg) : PInv G (baseFromSeed G seed) (prngTx G seed p) :=
  (framed_inv (start_inv G _) (fun _ ht hn => run_step p ht hn)).1

/-- The frames that use pseudo-random numbers are numbered by first use, and none has two numbers. Frame number `k` gets exactly the
stream of the generator whose seed is draw `k + 2` of the base generator (the first two draws are not for contracts): what it gets
depends on nothing but the seed of the transaction, its number and its own requests, whatever other frames ask for, whether they are
called before, during or after it, and whether they fail. -/
theorem C53_streams (G : Gen R) (seed : List Nat) (p : PProg) :
    (prngTx G seed p).order.Nodup ∧
    (∀ e ∈ (prngTx G seed p).log, e.1 ∈ (prngTx G seed p).order) ∧
    ∀ k i : Nat, (prngTx G seed p).order[k]? = some i →
      got i (prngTx G seed p).log =
        stream G (G.fromSeed (nthSeed G (G.fromSeed (G.unbias seed)) (k + 2))) (asked i (prngTx G seed p).log) :=
  have h := prngTx_inv G seed p
  ⟨h.nodup, h.logged, fun k i hk => h.streams k i hk⟩

/-- Two transactions with the same seed: frames with the same number that ask for the same things get the same answers, whatever the
rest of the two transactions does. -/
theorem C53_isolated (G : Gen R) (seed : List Nat) (p q : PProg) (k i j : Nat)
    (hi : (prngTx G seed p).order[k]? = some i) (hj : (prngTx G seed q).order[k]? = some j)
    (ha : asked i (prngTx G seed p).log = asked j (prngTx G seed q).log) :
    got i (prngTx G seed p).log = got j (prngTx G seed q).log := by
  rw [(C53_streams G seed p).2.2 k i hi, (C53_streams G seed q).2.2 k j hj, ha]

/-- More generally the answers to the first requests agree if these requests do. -/
theorem C53_isolated_prefix (G : Gen R) (seed : List Nat) (p q : PProg) (k i j n : Nat)
    (hi : (prngTx G seed p).order[k]? = some i) (hj : (prngTx G seed q).order[k]? = some j)
    (ha : (asked i (prngTx G seed p).log).take n = (asked j (prngTx G seed q).log).take n) :
    (got i (prngTx G seed p).log).take n = (got j (prngTx G seed q).log).take n := by
  have htake : ∀ (os : List Op) (n : Nat) (r : R), (stream G r os).take n = stream G r (os.take n) := by
    intro os
    induction os with
    | nil => intro n r; simp [stream]
    | cons o os ih =>
      intro n r
      cases n with
      | zero => rfl
      | succ n => simp only [stream, List.take_succ_cons, ih]
  rw [(C53_streams G seed p).2.2 k i hi, (C53_streams G seed q).2.2 k j hj, htake, htake, ha]

/-- The states of a host in the course of a transaction: contracts ask for random numbers, call and return (or fail). -/
inductive PReach (G : Gen R) (seed : List Nat) : PSt R → Prop where
  | start : PReach G seed (Prng.start G seed)
  | call {s : PSt R} : PReach G seed s → PReach G seed { s with frames := ⟨s.next, none⟩ :: s.frames, next := s.next + 1 }
  | op {s : PSt R} (o : Op) : PReach G seed s → s.frames ≠ [] → PReach G seed (useOp G s o).1
  | leave {s : PSt R} : PReach G seed s → PReach G seed { s with frames := s.frames.tail }

theorem preach_inv {G : Gen R} {seed : List Nat} {s : PSt R} (h : PReach G seed s) : PInv G (baseFromSeed G seed) s := by
  induction h with
  | start => exact start_inv G _
  | call _ ih => exact push_inv ih
  | op o _ hn ih => exact (useOp_step ih hn o).inv
  | leave _ ih => exact pop_inv ih

/-- A call that fails does not take back the random numbers it used: the frames that were given generators stay on record, so that no
later frame gets one of these generators again. The generators of the frames below are untouched. -/
theorem C53_no_reuse (G : Gen R) (seed : List Nat) (s : PSt R) (h : PReach G seed s) (body : PProg) :
    s.order <+: (Prng.framed s (Prng.run G body)).1.order ∧ (Prng.framed s (Prng.run G body)).1.order.Nodup ∧
    (Prng.framed s (Prng.run G body)).1.frames = s.frames :=
  have h' := framed_inv (preach_inv h) (fun _ ht hn => run_step body ht hn)
  ⟨h'.2.2.1, h'.1.nodup, h'.2.1⟩

/-- After a contract has set its seed, what it gets depends on nothing but that seed and its requests. -/
theorem C53_reseed (G : Gen R) (r r' : R) (s : List Nat) (os : List Op) :
    (stream G r (.reseed s :: os)) = stream G r' (.reseed s :: os) := rfl

/-- A seed is accepted if it has 32 bytes, whatever it contains; otherwise nothing changes. -/
theorem C53_reseed_size (G : Gen R) (seed0 : List Nat) (s : PSt R) (h : PReach G seed0 s) (hf : s.frames ≠ []) (seed : List Nat) :
    (seed.length = 32 → (useOp G s (.reseed seed)).2 = .ok .void) ∧
    (seed.length ≠ 32 → useOp G s (.reseed seed) = (s, .error (.host .value .unexpectedSize))) := by
  refine ⟨?_, ?_⟩
  · intro hl
    have hu : useOp G s (.reseed seed) = withCurrent G s (.reseed seed) := if_pos hl
    rw [hu]
    unfold withCurrent
    cases hfr : s.frames with
    | nil => exact absurd hfr hf
    | cons f fs =>
      dsimp only
      unfold currentPrng
      cases f.prng with
      | some r => rfl
      | none =>
        rw [(preach_inv h).base]
        rfl
  · intro hl
    exact if_neg hl

/-- `prng_u64_in_inclusive_range` returns a number in the range, and fails exactly if the range is empty. -/
theorem C53_range (G : Gen R) (r : R) (lo hi : Nat) :
    (hi < lo → (perform G r (.range lo hi)).1 = .error (.host .value .invalidInput)) ∧
    (lo ≤ hi → ∃ n, (perform G r (.range lo hi)).1 = .ok (.u64 n) ∧ lo ≤ n ∧ n ≤ hi) := by
  constructor
  · intro h
    simp only [perform, u64InRange, if_pos h]
  · intro h
    have hn : ¬ lo > hi := by omega
    simp only [perform, u64InRange, if_neg hn]
    exact ⟨_, rfl, G.sample_range r lo hi h⟩

/-- `prng_vec_shuffle` returns the elements of the vector, each as often as before. -/
theorem C53_shuffle (G : Gen R) (r : R) (v : List Nat) :
    ∃ w, (perform G r (.shuffle v)).1 = .ok (.vec w) ∧ w.Perm v :=
  ⟨_, rfl, shuffleLoop_perm G _ r v⟩

/-- A generator that picks the indices it was given. -/
def scripted : Gen (List Nat) where
  fromSeed _ := []
  fill r n := (List.replicate n 0, r)
  sample r lo _ := (lo, r)
  index r n := (if r.headD 0 < n then r.headD 0 else 0, r.tail)
  unbias s := s
  fill_length _ _ := by simp
  sample_range _ _ _ h := ⟨Nat.le_refl _, h⟩
  index_lt r n h := by dsimp only; split <;> assumption

theorem swap_get {v : List Nat} {i j x : Nat} (hi : i < v.length) (hj : v[j]? = some x) :
    (swap v i j)[i]? = some x ∧ ∀ k, k ≠ i → k ≠ j → (swap v i j)[k]? = v[k]? := by
  obtain ⟨hjl, hj'⟩ := List.getElem?_eq_some_iff.1 hj
  unfold swap
  rw [List.getElem?_eq_getElem hi, hj]
  dsimp only
  constructor
  · by_cases h : j = i
    · subst h
      rw [List.getElem?_set_self (by simpa using hi), hj']
    · rw [List.getElem?_set_ne h, List.getElem?_set_self hi]
  · intro k h1 h2
    rw [List.getElem?_set_ne (Ne.symm h2), List.getElem?_set_ne (Ne.symm h1)]

theorem shuffle_reaches : ∀ (i : Nat) (v w : List Nat), w.Perm v → i < v.length → (∀ k, i < k → v[k]? = w[k]?) →
    ∃ r, (shuffleLoop scripted i r v).1 = w
  | 0, v, w, hp, hi, hk => by
    refine ⟨[], ?_⟩
    show v = w
    cases v with
    | nil => cases hi
    | cons a t =>
      cases w with
      | nil => exact absurd hp.length_eq (by simp)
      | cons b t' =>
        have ht : t = t' := by
          apply List.ext_getElem?
          intro k
          simpa using hk (k + 1) (by omega)
        subst ht
        have := hp.mem_iff (a := a)
        have hc := List.Perm.count_eq hp a
        rw [List.count_cons, List.count_cons] at hc
        by_cases hab : b = a
        · rw [hab]
        · have : (b == a) = false := by simpa using hab
          rw [this] at hc
          simp at hc
  | i + 1, v, w, hp, hi, hk => by
    have hwl : w.length = v.length := hp.length_eq
    have hd : v.drop (i + 2) = w.drop (i + 2) := by
      apply List.ext_getElem?
      intro k
      rw [List.getElem?_drop, List.getElem?_drop]
      exact hk _ (by omega)
    have hpt : (w.take (i + 2)).Perm (v.take (i + 2)) := by
      have h1 : (w.take (i + 2) ++ w.drop (i + 2)).Perm (v.take (i + 2) ++ v.drop (i + 2)) := by
        rw [List.take_append_drop, List.take_append_drop]; exact hp
      rw [hd] at h1
      exact (List.perm_append_right_iff _).1 h1
    have hx : w[i + 1]'(by omega) ∈ v.take (i + 2) := by
      refine (hpt.mem_iff).1 ?_
      rw [List.mem_iff_getElem?]
      exact ⟨i + 1, by rw [List.getElem?_take]; simp [List.getElem?_eq_getElem (show i + 1 < w.length by omega)]⟩
    obtain ⟨j, hj⟩ := List.mem_iff_getElem?.1 hx
    rw [List.getElem?_take] at hj
    split at hj
    · rename_i hjlt
      obtain ⟨hs1, hs2⟩ := swap_get (i := i + 1) hi hj
      obtain ⟨r, hr⟩ := shuffle_reaches i (swap v (i + 1) j) w (hp.trans (swap_perm v (i + 1) j).symm) (by rw [(swap_perm v (i + 1) j).length_eq]; omega) (by
        intro k hkk
        by_cases hki : k = i + 1
        · subst hki
          rw [hs1, List.getElem?_eq_getElem (by omega)]
        · rw [hs2 k hki (by omega)]
          exact hk k (by omega))
      refine ⟨j :: r, ?_⟩
      rw [shuffleLoop]
      have : scripted.index (j :: r) (i + 2) = (j, r) := by
        show (if j < i + 2 then j else 0, r) = _
        rw [if_pos hjlt]
      rw [this]
      exact hr
    · cases hj

/-- C53: shuffling can give every arrangement of the elements: no position is left out. -/
theorem C53_shuffle_any {v w : List Nat} (h : w.Perm v) :
    ∃ r : List Nat, (perform scripted r (.shuffle v)).1 = .ok (.vec w) := by
  suffices hs : ∃ r : List Nat, (vecShuffle scripted r v).1 = w by
    obtain ⟨r, hr⟩ := hs
    exact ⟨r, congrArg (fun x => Except.ok (Out.vec x)) hr⟩
  cases v with
  | nil => exact ⟨[], h.eq_nil.symm⟩
  | cons a t =>
    exact shuffle_reaches t.length (a :: t) w h (by simp) (by
      intro k hk
      have hl := h.length_eq
      simp only [List.length_cons] at hl
      rw [List.getElem?_eq_none (by simp; omega), List.getElem?_eq_none (by omega)])

/-- `prng_bytes_new` returns as many bytes as were asked for. -/
theorem C53_bytes (G : Gen R) (r : R) (n : Nat) :
    ∃ w, (perform G r (.bytes n)).1 = .ok (.bytes w) ∧ w.length = n :=
  ⟨_, rfl, G.fill_length r n⟩

/-- Without a seed for the base generator no contract gets random numbers. -/
theorem C53_unseeded (G : Gen R) (s : PSt R) (f : PFrame R) (fs : List (PFrame R)) (hf : s.frames = f :: fs)
    (hp : f.prng = none) (hb : s.base = none) (o : Op) :
    (withCurrent G s o) = (s, .error (.host .context .internalError)) := by
  simp only [withCurrent, hf, currentPrng, hp, hb]

/-! ### a concrete case -/
namespace PrngCase

/-- A toy generator: a counter. -/
def toy : Gen Nat where
  fromSeed s := s.sum
  fill r n := (List.replicate n r, r + 1)
  sample r lo hi := (lo + r % (hi - lo + 1), r + 1)
  index r n := (r % n, r + 1)
  unbias s := s.map (· + 1)
  fill_length _ _ := List.length_replicate
  sample_range r lo hi h := by
    have := Nat.mod_lt r (Nat.succ_pos (hi - lo))
    dsimp only
    simp only [Nat.succ_eq_add_one] at this
    omega
  index_lt r n h := Nat.mod_lt _ h

def seed : List Nat := List.replicate 32 0

/-- The caller draws, calls a contract that draws and sets its seed, catches the failure of another that draws, and shuffles. -/
def prog : PProg :=
  .op (.range 3 9) fun _ =>
  .call (.op (.bytes 2) fun _ => .op (.reseed seed) fun _ => .op (.range 0 1000) fun _ => .ret) <|
  .tryCall (.op (.range 0 100) fun _ => .fail (.contract 1)) fun _ =>
  .op (.shuffle [10, 20, 30, 40]) fun _ => .ret

example : (prngTx toy seed prog).order = [0, 1, 2] := by decide +kernel
example : asked 0 (prngTx toy seed prog).log = [.range 3 9, .shuffle [10, 20, 30, 40]] := by decide +kernel
example : asked 1 (prngTx toy seed prog).log = [.bytes 2, .reseed seed, .range 0 1000] := by decide +kernel
example : asked 2 (prngTx toy seed prog).log = [.range 0 100] := by decide +kernel
/-- The failed call used the third seed. -/
example : got 2 (prngTx toy seed prog).log = stream toy (toy.fromSeed (nthSeed toy (toy.fromSeed (toy.unbias seed)) 4)) [.range 0 100] :=
  (C53_streams toy seed prog).2.2 2 2 (by decide +kernel)

/-- Another transaction, in which the second frame is called in another place and does the same. -/
def prog2 : PProg :=
  .call (.op (.range 7 7) fun _ => .ret) <|
  .op (.bytes 2) fun _ => .op (.reseed seed) fun _ => .call (.op (.bytes 1) fun _ => .ret) <| .op (.range 0 1000) fun _ => .ret

/-- A state in the course of a transaction, with two frames that use random numbers. -/
example : PReach toy seed (useOp toy { (useOp toy { Prng.start toy seed with frames := [⟨0, none⟩], next := 1 } (.bytes 3)).1 with
    frames := [⟨1, none⟩, ⟨0, some 1089⟩], next := 2 } (.bytes 3)).1 :=
  .op _ (.call (.op (.bytes 3) (.call .start) (by simp))) (by simp)

example : (prngTx toy seed prog2).order = [1, 0, 2] := by decide +kernel
example : got 1 (prngTx toy seed prog).log = got 0 (prngTx toy seed prog2).log :=
  C53_isolated toy seed prog prog2 1 1 0 (by decide +kernel) (by decide +kernel) (by decide +kernel)

end PrngCase

end Soroban.Props
