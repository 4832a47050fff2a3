import Mathlib.NumberTheory.LucasPrimality
import Mathlib.Data.ZMod.Basic
/-!
Certificates of primality after Pratt: a number `p` is prime if some `a` has order `p - 1` modulo `p`. The check is a function the
kernel evaluates.
-/
namespace Soroban.Primes

/-- `a ^ n % m` by repeated squaring, for exponents of at most `f` bits. -/
def powMod : Nat → Nat → Nat → Nat → Nat
  | 0, _, _, m => 1 % m
  | f + 1, a, n, m =>
    if n = 0 then 1 % m
    else if n % 2 = 0 then powMod f (a * a % m) (n / 2) m
    else a * powMod f (a * a % m) (n / 2) m % m

theorem powMod_eq (f : Nat) : ∀ {a n m : Nat}, n < 2 ^ f → powMod f a n m = a ^ n % m := by
  induction f with
  | zero =>
    intro a n m h
    have : n = 0 := by simpa using h
    subst this
    simp [powMod]
  | succ f ih =>
    intro a n m h
    have hn : n / 2 < 2 ^ f := by
      rw [pow_succ] at h
      omega
    have key : powMod f (a * a % m) (n / 2) m = a ^ (2 * (n / 2)) % m := by
      rw [ih hn, ← Nat.pow_mod, pow_mul, pow_two]
    unfold powMod
    split
    · rename_i h0
      subst h0
      simp
    split
    · rename_i h0
      rw [key, Nat.mul_div_cancel' (Nat.dvd_of_mod_eq_zero h0)]
    · rename_i h0
      rw [key, Nat.mul_mod, Nat.mod_mod, ← Nat.mul_mod, ← pow_succ']
      congr 2
      omega

/-- A step of a certificate: a number, a primitive root and the factors of the number minus one. -/
structure Step where
  p : Nat
  a : Nat
  fs : List (Nat × Nat)

def checkStep (known : List Nat) (s : Step) : Bool :=
  decide (1 < s.p) && decide (s.p < 2 ^ 512) && decide ((s.fs.map fun f => f.1 ^ f.2).prod = s.p - 1) &&
    decide (powMod 512 s.a (s.p - 1) s.p = 1) &&
    s.fs.all fun f => decide (f.1 ∈ known) && decide (powMod 512 s.a ((s.p - 1) / f.1) s.p ≠ 1)

/-- The numbers shown to be prime by a certificate. -/
def check : List Step → List Nat → List Nat
  | [], known => known
  | s :: ss, known => if checkStep known s then check ss (s.p :: known) else []

theorem checkStep_prime {known : List Nat} {s : Step} (hk : ∀ q ∈ known, q.Prime) (h : checkStep known s = true) : s.p.Prime := by
  unfold checkStep at h
  simp only [Bool.and_eq_true, decide_eq_true_eq, List.all_eq_true] at h
  obtain ⟨⟨⟨⟨h1, h2⟩, h3⟩, h4⟩, h5⟩ := h
  have cast : ∀ n, n < 2 ^ 512 → ((s.a : ZMod s.p) ^ n = 1 ↔ powMod 512 s.a n s.p = 1) := by
    intro n hn
    rw [powMod_eq 512 hn, ← Nat.cast_pow, ← Nat.cast_one, ZMod.natCast_eq_natCast_iff']
    rw [Nat.mod_eq_of_lt h1]
  refine lucas_primality s.p s.a ((cast _ (by omega)).mpr h4) fun q hq hd => ?_
  rw [← h3] at hd
  obtain ⟨f, hf, hqf⟩ := (Nat.prime_iff.mp hq).dvd_prod_iff.mp hd
  obtain ⟨f, hf', rfl⟩ := List.mem_map.mp hf
  have hqf := hq.dvd_of_dvd_pow hqf
  obtain ⟨hm, hne⟩ := h5 f hf'
  have : q = f.1 := (Nat.prime_dvd_prime_iff_eq hq (hk _ hm)).mp hqf
  subst this
  intro hc
  exact hne ((cast _ (Nat.lt_of_le_of_lt (Nat.div_le_self _ _) (by omega))).mp hc)

theorem check_prime (ss : List Step) : ∀ {known : List Nat}, (∀ q ∈ known, q.Prime) → ∀ q ∈ check ss known, q.Prime := by
  induction ss with
  | nil => exact fun h => h
  | cons s ss ih =>
    intro known hk
    unfold check
    split
    · rename_i h
      refine ih fun q hq => ?_
      rcases List.mem_cons.mp hq with rfl | hq
      · exact checkStep_prime hk h
      · exact hk q hq
    · intro q hq
      cases hq

/-- A number is prime if a certificate that starts from 2 shows it. -/
theorem prime_of_check (ss : List Step) {p : Nat} (h : decide (p ∈ check ss [2]) = true) : p.Prime :=
  check_prime ss (fun q hq => by rw [List.mem_singleton.mp hq]; exact Nat.prime_two) p (of_decide_eq_true h)

end Soroban.Primes
