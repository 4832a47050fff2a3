import Verif.Lemmas.AccountSignature
import Verif.Props.Account
import Verif.Props.Convert
import Verif.Lemmas.LedgerKey
/-!
C102: the signature value of a Stellar account.
-/
namespace Soroban.Props
open Soroban Soroban.Spec Soroban.Account Soroban.Account.Spec Soroban.AccountSig Soroban.AccountSig.Spec
open Soroban.ContractTypes (Is)

/-- C102: a value authenticates an account exactly if the account exists and the value is that of a list of signatures, with keys of
32 bytes and signatures of 64, that sign the payload for it. -/
theorem C102_authentication (verify : Nat → Nat → Nat → Bool) (account : Res AccountEntry) (payload : Nat)
    (hm : ∀ a, account = .ok a → a.masterWeight ≤ 255) {objs : List HostObj} (hok : ObjsOk objs) {v : Nat} {s : ScVal}
    (hs : Sound objs v) (hd : Denotes objs v s) :
    checkSignature verify account payload objs v = .ok () ↔
      ∃ a l, account = .ok a ∧ s = valueOf l ∧ (∀ p ∈ l, p.Sized) ∧ Signed verify a payload (l.map KeySig.numbers) := by
  unfold checkSignature
  rw [C50_authentication verify account payload _ hm]
  constructor
  · rintro ⟨a, xs, h1, h2, h3⟩
    obtain ⟨l, h4, h5, rfl⟩ := (readSigs_iff hok ⟨hs, hd⟩ xs).mp h2
    exact ⟨a, l, h1, h4, h5, h3⟩
  · rintro ⟨a, l, h1, h2, h3, h4⟩
    exact ⟨a, _, h1, (readSigs_iff hok ⟨hs, hd⟩ _).mpr ⟨l, h2, h3, rfl⟩, h4⟩

/-- C102, for the signature of an authorization entry: once it is converted to a value of the host, it authenticates the account
exactly if it is the value of a list of signatures that sign the payload, whatever objects are created later. -/
theorem C102_entry (verify : Nat → Nat → Nat → Bool) (account : Res AccountEntry) (payload : Nat)
    (hm : ∀ a, account = .ok a → a.masterWeight ≤ 255) {objs objs' : List HostObj} (hok : ObjsOk objs) {d v : Nat} {s : ScVal}
    (hx : XdrOk s) (h : toVal d objs s = .ok (objs', v)) (hl : objs'.length ≤ 2 ^ 31) :
    checkSignature verify account payload objs' v = .ok () ↔
      ∃ a l, account = .ok a ∧ s = valueOf l ∧ (∀ p ∈ l, p.Sized) ∧ Signed verify a payload (l.map KeySig.numbers) := by
  obtain ⟨h1, h2, h3⟩ := C04_round_trip hok hx h hl
  have hd : Denotes objs' v s := ⟨d, by have := h3 [] d (Nat.le_refl _); rwa [List.append_nil] at this⟩
  exact C102_authentication verify account payload hm h1 h2 hd

/-- C102: comparing keys as numbers is comparing their bytes from the first to the last. -/
theorem C102_order {a b : List Nat} (hl : a.length = b.length) (ha : ∀ x ∈ a, x < 256) (hb : ∀ x ∈ b, x < 256) :
    lexCmp a b = .lt ↔ number a < number b := (lexCmp_number hl ha hb).1

/-- C102: no two signature values stand for the same keys and signatures. -/
theorem C102_one_value {l m : List KeySig} (hl : ∀ p ∈ l, p.Sized ∧ (∀ x ∈ p.key, x < 256) ∧ ∀ x ∈ p.sig, x < 256)
    (hm : ∀ p ∈ m, p.Sized ∧ (∀ x ∈ p.key, x < 256) ∧ ∀ x ∈ p.sig, x < 256)
    (h : l.map KeySig.numbers = m.map KeySig.numbers) : valueOf l = valueOf m := by
  have inj : ∀ {a b : List Nat}, a.length = b.length → (∀ x ∈ a, x < 256) → (∀ x ∈ b, x < 256) → number a = number b → a = b := by
    intro a b h1 h2 h3 h4
    obtain ⟨g1, g2⟩ := lexCmp_number h1 h2 h3
    have k1 : lexCmp a b = .eq := by
      cases hc : lexCmp a b with
      | lt => have := g1.mp hc; omega
      | gt => have := g2.mp hc; omega
      | eq => rfl
    exact Keys.lexCmp_eq.mp k1
  suffices l = m by rw [this]
  induction l generalizing m with
  | nil => cases m with
    | nil => rfl
    | cons q m => cases h
  | cons p l ih => cases m with
    | nil => cases h
    | cons q m =>
      rw [List.map_cons, List.map_cons] at h
      injection h with h1 h2
      obtain ⟨s1, a1, a2⟩ := hl p List.mem_cons_self
      obtain ⟨s2, b1, b2⟩ := hm q List.mem_cons_self
      unfold KeySig.numbers at h1
      injection h1 with h3 h4
      have e1 := inj (s1.1.trans s2.1.symm) a1 b1 h3
      have e2 := inj (s1.2.trans s2.2.symm) a2 b2 h4
      obtain ⟨pk, ps⟩ := p
      obtain ⟨qk, qs⟩ := q
      cases e1; cases e2
      rw [ih (fun p hp => hl p (List.mem_cons_of_mem _ hp)) (fun p hp => hm p (List.mem_cons_of_mem _ hp)) h2]

/-! ### non-vacuity -/

/-- Two signatures, with keys in increasing order. -/
def c102Sigs : List KeySig := [⟨List.replicate 31 0 ++ [1], List.replicate 63 0 ++ [7]⟩, ⟨List.replicate 31 0 ++ [2], List.replicate 63 0 ++ [8]⟩]

/-- Whether a value, once converted, authenticates an account with the key 1 and the signer 2, whose medium threshold is 3. -/
def c102Try (s : ScVal) : Option Bool :=
  match toVal 9 [] s with
  | .ok (o, v) => some (checkSignature (fun k _ t => t = k + 6) (.ok ⟨1, 2, 0, 3, 0, [(.ed25519 2, 1)]⟩) 5 o v).isOk
  | .error _ => none

example : c102Try (valueOf c102Sigs) = some true := by decide +kernel
example : c102Try (valueOf c102Sigs.reverse) = some false := by decide +kernel
example : c102Try (valueOf (c102Sigs.take 1)) = some false := by decide +kernel
/-- One with a key that is too short. -/
example : c102Try (valueOf (c102Sigs.take 1 ++ [⟨[2], List.replicate 63 0 ++ [8]⟩])) = some false := by decide +kernel
/-- One signature, outside of a list. -/
example : c102Try (KeySig.value ⟨List.replicate 31 0 ++ [1], List.replicate 63 0 ++ [7]⟩) = some false := by decide +kernel

end Soroban.Props
