import Mathlib.Algebra.Module.Basic
import Mathlib.Tactic.LinearCombination
import Verif.Lemmas.CurvePrimes
import Verif.Lemmas.Curves
import Verif.Lemmas.MemorySpec
import Verif.Spec.Signatures
/-!
Reading of signatures.
-/
namespace Soroban.Signatures

open Spec
open Soroban.Curves (invalidInput)
open Soroban.Primes (Step prime_of_check)
open Soroban.Curves.Spec (be IsBytes)

/-- A certificate for the order of secp256r1. -/
def r1Cert : List Step :=
  [ ⟨3, 2, [(2, 1)]⟩,
    ⟨5, 2, [(2, 2)]⟩,
    ⟨7, 3, [(2, 1), (3, 1)]⟩,
    ⟨71, 7, [(2, 1), (5, 1), (7, 1)]⟩,
    ⟨13, 2, [(2, 2), (3, 1)]⟩,
    ⟨131, 2, [(2, 1), (5, 1), (13, 1)]⟩,
    ⟨31, 3, [(2, 1), (3, 1), (5, 1)]⟩,
    ⟨373, 2, [(2, 2), (3, 1), (31, 1)]⟩,
    ⟨3407, 5, [(2, 1), (13, 1), (131, 1)]⟩,
    ⟨11, 2, [(2, 1), (5, 1)]⟩,
    ⟨727, 5, [(2, 1), (3, 1), (11, 2)]⟩,
    ⟨17449, 14, [(2, 3), (3, 1), (727, 1)]⟩,
    ⟨37, 2, [(2, 2), (3, 2)]⟩,
    ⟨43, 3, [(2, 1), (3, 1), (7, 1)]⟩,
    ⟨9547, 2, [(2, 1), (3, 1), (37, 1), (43, 1)]⟩,
    ⟨38189, 2, [(2, 2), (9547, 1)]⟩,
    ⟨17, 3, [(2, 4)]⟩,
    ⟨19, 2, [(2, 1), (3, 2)]⟩,
    ⟨229, 6, [(2, 2), (3, 1), (19, 1)]⟩,
    ⟨1201, 11, [(2, 4), (3, 1), (5, 2)]⟩,
    ⟨9350987, 2, [(2, 1), (17, 1), (229, 1), (1201, 1)]⟩,
    ⟨187019741, 2, [(2, 2), (5, 1), (9350987, 1)]⟩,
    ⟨29, 2, [(2, 2), (7, 1)]⟩,
    ⟨311, 17, [(2, 1), (5, 1), (31, 1)]⟩,
    ⟨311245691, 2, [(2, 1), (5, 1), (7, 1), (17, 1), (29, 2), (311, 1)]⟩,
    ⟨622491383, 5, [(2, 1), (311245691, 1)]⟩,
    ⟨263, 5, [(2, 1), (131, 1)]⟩,
    ⟨126241, 7, [(2, 5), (3, 1), (5, 1), (263, 1)]⟩,
    ⟨337, 10, [(2, 4), (3, 1), (7, 1)]⟩,
    ⟨104471, 11, [(2, 1), (5, 1), (31, 1), (337, 1)]⟩,
    ⟨3969899, 2, [(2, 1), (19, 1), (104471, 1)]⟩,
    ⟨1002328039319, 19, [(2, 1), (126241, 1), (3969899, 1)]⟩,
    ⟨1297, 10, [(2, 4), (3, 4)]⟩,
    ⟨97, 5, [(2, 5), (3, 1)]⟩,
    ⟨16879, 3, [(2, 1), (3, 1), (29, 1), (97, 1)]⟩,
    ⟨127, 3, [(2, 1), (3, 2), (7, 1)]⟩,
    ⟨151, 6, [(2, 1), (3, 1), (5, 2)]⟩,
    ⟨1511, 11, [(2, 1), (5, 1), (151, 1)]⟩,
    ⟨3023, 5, [(2, 1), (1511, 1)]⟩,
    ⟨41, 6, [(2, 3), (5, 1)]⟩,
    ⟨155317, 5, [(2, 2), (3, 1), (7, 1), (43, 2)]⟩,
    ⟨191039911, 3, [(2, 1), (3, 1), (5, 1), (41, 1), (155317, 1)]⟩,
    ⟨208150935158385979, 2, [(2, 1), (3, 1), (11, 1), (43, 1), (127, 1), (3023, 1), (191039911, 1)]⟩,
    ⟨2624747550333869278416773953, 7, [(2, 6), (3, 2), (1297, 1), (16879, 1), (208150935158385979, 1)]⟩,
    ⟨115792089210356248762697446949407573529996955224135760342422259061068512044369, 7, [(2, 4), (3, 1), (71, 1), (131, 1), (373, 1), (3407, 1), (17449, 1), (38189, 1), (187019741, 1), (622491383, 1), (1002328039319, 1), (2624747550333869278416773953, 1)]⟩]

theorem r1_prime : r1Order.Prime := prime_of_check r1Cert (by decide +kernel)

theorem be_reverse (v : Nat) (hv : v < 256 ^ 32) : fromLe (be 32 v).reverse = v := by
  rw [Curves.be_eq, List.reverse_reverse]
  exact fromLe_toLe 32 v hv

theorem be_length (n v : Nat) : (be n v).length = n := by
  rw [Curves.be_eq, List.length_reverse, toLe_length]

theorem be_fromLe {b : List Nat} (hb : IsBytes b) (hl : b.length = 32) : be 32 (fromLe b.reverse) = b := by
  have h := toLe_fromLe b.reverse (fun x hx => hb x (by simpa using hx))
  rw [List.length_reverse, hl] at h
  rw [Curves.be_eq, h, List.reverse_reverse]

/-- Only the encodings of low signatures are read. -/
theorem ecSigFromBytes_iff {n : Nat} (hn : n < 2 ^ 256) (ho : n % 2 = 1) {b : List Nat} (hb : IsBytes b) {sig : EcSig} :
    ecSigFromBytes n b = .ok sig ↔ b = enc sig.r sig.s ∧ Low n sig.r sig.s := by
  have h256 : (256 : Nat) ^ 32 = 2 ^ 256 := by decide
  unfold ecSigFromBytes ecSigParse
  constructor
  · intro h
    by_cases hl : b.length = 64
    swap
    · rw [if_neg hl] at h; exact nomatch h
    rw [if_pos hl] at h
    dsimp only at h
    by_cases hr : 0 < fromLe (b.take 32).reverse ∧ fromLe (b.take 32).reverse < n ∧ 0 < fromLe (b.drop 32).reverse ∧
        fromLe (b.drop 32).reverse < n
    swap
    · rw [if_neg hr] at h; exact nomatch h
    rw [if_pos hr] at h
    dsimp only at h
    by_cases hh : isHigh n (fromLe (b.drop 32).reverse) = true
    · rw [if_pos hh] at h; exact nomatch h
    rw [if_neg hh] at h
    injection h with h
    subst h
    have hs : ¬ n / 2 < fromLe (b.drop 32).reverse := by simpa [isHigh] using hh
    have e1 := be_fromLe (b := b.take 32) (fun x hx => hb x (List.mem_of_mem_take hx)) (by simp [hl])
    have e2 := be_fromLe (b := b.drop 32) (fun x hx => hb x (List.mem_of_mem_drop hx)) (by simp [hl])
    refine ⟨?_, hr.1, hr.2.1, hr.2.2.1, ?_⟩
    · unfold enc
      dsimp only
      rw [e1, e2, List.take_append_drop]
    · dsimp only
      omega
  · intro h
    have hE := h.1
    have h1 := h.2.1
    have h2 := h.2.2.1
    have h3 := h.2.2.2.1
    have h4 := h.2.2.2.2
    rw [hE]
    clear hE hb h
    have e1 : (enc sig.r sig.s).take 32 = be 32 sig.r := by
      unfold enc
      rw [List.take_left' (be_length 32 _)]
    have e2 : (enc sig.r sig.s).drop 32 = be 32 sig.s := by
      unfold enc
      rw [List.drop_left' (be_length 32 _)]
    have hl : (enc sig.r sig.s).length = 64 := by unfold enc; rw [List.length_append, be_length, be_length]
    have b1 : sig.r < 256 ^ 32 := by rw [h256]; exact Nat.lt_trans h2 hn
    have b2 : sig.s < 256 ^ 32 := by rw [h256]; exact Nat.lt_trans (by omega) hn
    rw [if_pos hl, e1, e2, be_reverse _ b1, be_reverse _ b2]
    dsimp only
    rw [if_pos ⟨h1, h2, h3, by omega⟩]
    dsimp only
    rw [if_neg (by simp only [isHigh, decide_eq_true_eq]; omega)]

end Soroban.Signatures
