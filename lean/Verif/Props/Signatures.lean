import Mathlib.Algebra.Field.ZMod
import Verif.Lemmas.Signatures
/-!
C70: which signatures the host functions accept.
-/
namespace Soroban.Props

open Soroban.Signatures Soroban.Signatures.Spec
open Soroban.Curves (invalidInput)
open Soroban.Curves.Spec (be IsBytes)

theorem k1_small : k1Order < 2 ^ 256 := by decide +kernel
theorem k1_odd : k1Order % 2 = 1 := by decide +kernel
theorem r1_small : r1Order < 2 ^ 256 := by decide +kernel
theorem r1_odd : r1Order % 2 = 1 := by decide +kernel

theorem fixedLength_iff {n : Nat} {b c : List Nat} : fixedLength n b = .ok c ↔ b.length = n ∧ c = b := by
  unfold fixedLength
  by_cases h : b.length = n
  · rw [if_pos h]
    constructor
    · intro he; injection he with he; exact ⟨h, he.symm⟩
    · rintro ⟨-, rfl⟩; rfl
  · rw [if_neg h]
    exact ⟨fun he => (nomatch he), fun he => (h he.1).elim⟩

/-- **C70, Ed25519.** A call succeeds exactly if the key has 32 bytes and is a point, the signature has 64 bytes and the strict
verification accepts it. The errors are `Crypto`/`InvalidInput`, or `Object`/`UnexpectedSize` for a signature of another length. -/
theorem C70_ed25519 (L : EdLib) (k x s : List Nat) :
    (verifySigEd25519 L k x s = .ok () ↔
      k.length = 32 ∧ s.length = 64 ∧ ∃ key, L.fromBytes k = some key ∧ L.verifyStrict key x s = true) ∧
    ∀ e, verifySigEd25519 L k x s = .error e → e = .host .crypto .invalidInput ∨ e = .host .object .unexpectedSize ∧ s.length ≠ 64 := by
  unfold verifySigEd25519
  have hk : ∀ key, edPubKey L k = .ok key ↔ k.length = 32 ∧ L.fromBytes k = some key := by
    intro key
    unfold edPubKey
    by_cases h : k.length = 32
    · rw [if_pos h]
      cases hf : L.fromBytes k with
      | none => exact ⟨fun he => (nomatch he), fun he => (nomatch he.2)⟩
      | some key' =>
        constructor
        · intro he; injection he with he; exact ⟨h, by rw [he]⟩
        · rintro ⟨-, he⟩; injection he with he; exact congrArg _ he
    · rw [if_neg h]
      exact ⟨fun he => (nomatch he), fun he => (h he.1).elim⟩
  constructor
  · constructor
    · intro h
      obtain ⟨key, h1, h'⟩ := bind_ok.mp h
      obtain ⟨sig, h2, h3⟩ := bind_ok.mp h'
      obtain ⟨hl, rfl⟩ := fixedLength_iff.mp h2
      unfold edVerify at h3
      by_cases hv : L.verifyStrict key x sig = true
      · exact ⟨((hk key).mp h1).1, hl, key, ((hk key).mp h1).2, hv⟩
      · rw [if_neg hv] at h3; exact nomatch h3
    · rintro ⟨h1, h2, key, h3, h4⟩
      refine bind_ok.mpr ⟨key, (hk key).mpr ⟨h1, h3⟩, bind_ok.mpr ⟨s, fixedLength_iff.mpr ⟨h2, rfl⟩, ?_⟩⟩
      unfold edVerify
      rw [if_pos h4]
  · intro e h
    cases hp : edPubKey L k with
    | error e' =>
      rw [hp] at h
      injection h with h
      subst h
      refine .inl ?_
      unfold edPubKey at hp
      split at hp
      · cases hf : L.fromBytes k with
        | none => rw [hf] at hp; injection hp with hp; exact hp.symm
        | some _ => rw [hf] at hp; exact nomatch hp
      · injection hp with hp; exact hp.symm
    | ok key =>
      rw [hp] at h
      replace h : (do let sig ← fixedLength 64 s; edVerify L x key sig : Res Unit) = .error e := h
      by_cases hl : s.length = 64
      · rw [fixedLength_iff.mpr ⟨hl, rfl⟩] at h
        replace h : edVerify L x key s = .error e := h
        unfold edVerify at h
        split at h
        · exact nomatch h
        · injection h with h; exact .inl h.symm
      · refine .inr ⟨?_, hl⟩
        unfold fixedLength at h
        rw [if_neg hl] at h
        injection h with h
        exact h.symm

/-- **C70, secp256k1.** Recovery succeeds exactly for a signature in the only encoding of numbers in range with a low `s`, an identifier
of at most three, a digest of 32 bytes and if the library finds a key; the key is returned uncompressed. -/
theorem C70_secp256k1 (L : K1Lib) (digest signature : List Nat) (rid : Nat) (hb : IsBytes signature) (out : List Nat) :
    recoverKeyEcdsaSecp256k1 L digest signature rid = .ok out ↔
      ∃ r s x y, signature = enc r s ∧ Low 0xfffffffffffffffffffffffffffffffebaaedce6af48a03bbfd25e8cd0364141 r s ∧ rid ≤ 3 ∧
        digest.length = 32 ∧ L digest ⟨r, s⟩ rid = some (x, y) ∧ out = 4 :: (be 32 x ++ be 32 y) := by
  have hn : (0xfffffffffffffffffffffffffffffffebaaedce6af48a03bbfd25e8cd0364141 : Nat) = k1Order := rfl
  rw [hn]
  clear hn
  unfold recoverKeyEcdsaSecp256k1
  constructor
  · intro h
    obtain ⟨sig, h1, h'⟩ := bind_ok.mp h
    obtain ⟨rid', h2, h''⟩ := bind_ok.mp h'
    obtain ⟨d, h3, h4⟩ := bind_ok.mp h''
    obtain ⟨hE, hL⟩ := (ecSigFromBytes_iff k1_small k1_odd hb).mp h1
    obtain ⟨hl, rfl⟩ := fixedLength_iff.mp h3
    unfold recoveryId at h2
    split at h2
    · exact nomatch h2
    rename_i hr
    injection h2 with h2
    subst h2
    unfold recoverKey at h4
    cases hf : L d sig rid with
    | none => rw [hf] at h4; exact nomatch h4
    | some xy =>
      rw [hf] at h4
      injection h4 with h4
      refine ⟨sig.r, sig.s, xy.1, xy.2, hE, hL, by omega, hl, hf, ?_⟩
      rw [← h4, Curves.be_eq, Curves.be_eq]
  · rintro ⟨r, s, x, y, hE, hL, hr, hl, hf, rfl⟩
    refine bind_ok.mpr ⟨⟨r, s⟩, (ecSigFromBytes_iff k1_small k1_odd hb).mpr ⟨hE, hL⟩, bind_ok.mpr ⟨rid, ?_,
      bind_ok.mpr ⟨digest, fixedLength_iff.mpr ⟨hl, rfl⟩, ?_⟩⟩⟩
    · unfold recoveryId
      rw [if_neg (by omega)]
    · unfold recoverKey
      rw [hf, Curves.be_eq, Curves.be_eq]

/-- **C70, secp256r1.** Verification succeeds exactly for a key that starts with the byte 4 and is read by the library, a signature in
the only encoding of numbers in range with a low `s`, a digest of 32 bytes and if the library accepts. -/
theorem C70_secp256r1 (L : R1Lib) (key digest signature : List Nat) (hb : IsBytes signature) :
    verifySigEcdsaSecp256r1 L key digest signature = .ok () ↔
      ∃ r s k, signature = enc r s ∧ Low 0xffffffff00000000ffffffffffffffffbce6faada7179e84f3b9cac2fc632551 r s ∧
        key.head? = some 4 ∧ L.fromSec1 key = some k ∧ digest.length = 32 ∧ L.verifyPrehash k digest ⟨r, s⟩ = true := by
  have hn : (0xffffffff00000000ffffffffffffffffbce6faada7179e84f3b9cac2fc632551 : Nat) = r1Order := rfl
  rw [hn]
  clear hn
  unfold verifySigEcdsaSecp256r1
  constructor
  · intro h
    obtain ⟨k, h1, h'⟩ := bind_ok.mp h
    obtain ⟨sig, h2, h''⟩ := bind_ok.mp h'
    obtain ⟨d, h3, h5⟩ := bind_ok.mp h''
    obtain ⟨hE, hL⟩ := (ecSigFromBytes_iff r1_small r1_odd hb).mp h2
    obtain ⟨hl, rfl⟩ := fixedLength_iff.mp h3
    unfold r1Verify at h5
    by_cases hv : L.verifyPrehash k d sig = true
    swap
    · rw [if_neg hv] at h5; exact nomatch h5
    cases key with
    | nil => exact nomatch h1
    | cons tag rest =>
      unfold r1PubKey at h1
      dsimp only at h1
      by_cases ht : (!isTag tag) = true
      · rw [if_pos ht] at h1; exact nomatch h1
      rw [if_neg ht] at h1
      by_cases h4 : tag ≠ 4
      · rw [if_pos h4] at h1; exact nomatch h1
      rw [if_neg h4] at h1
      have h4 : tag = 4 := by omega
      subst h4
      cases hf : L.fromSec1 (4 :: rest) with
      | none => rw [hf] at h1; exact nomatch h1
      | some k' =>
        rw [hf] at h1
        injection h1 with h1
        subst h1
        exact ⟨sig.r, sig.s, k', hE, hL, rfl, rfl, hl, hv⟩
  · rintro ⟨r, s, k, hE, hL, h4, hf, hl, hv⟩
    refine bind_ok.mpr ⟨k, ?_, bind_ok.mpr ⟨⟨r, s⟩, (ecSigFromBytes_iff r1_small r1_odd hb).mpr ⟨hE, hL⟩,
      bind_ok.mpr ⟨digest, fixedLength_iff.mpr ⟨hl, rfl⟩, ?_⟩⟩⟩
    · cases key with
      | nil => exact nomatch h4
      | cons tag rest =>
        have : tag = 4 := by simpa using h4
        subst this
        unfold r1PubKey
        dsimp only
        rw [if_neg (by decide), if_neg (by decide), hf]
    · unfold r1Verify
      rw [if_pos hv]

theorem be_bytes (n v : Nat) : IsBytes (be n v) := by
  rw [Curves.be_eq]
  intro x hx
  exact Curves.toLe_bytes n v x (by simpa using hx)

theorem enc_bytes (r s : Nat) : IsBytes (enc r s) := by
  intro x hx
  rcases List.mem_append.mp hx with hx | hx
  · exact be_bytes 32 r x hx
  · exact be_bytes 32 s x hx

theorem enc_inj {r s r' s' : Nat} (h1 : r < 2 ^ 256) (h2 : s < 2 ^ 256) (h3 : r' < 2 ^ 256) (h4 : s' < 2 ^ 256)
    (h : enc r s = enc r' s') : r = r' ∧ s = s' := by
  have h256 : (256 : Nat) ^ 32 = 2 ^ 256 := by decide
  obtain ⟨e1, e2⟩ := List.append_inj h (by rw [be_length, be_length])
  constructor
  · rw [← be_reverse r (h256 ▸ h1), e1, be_reverse r' (h256 ▸ h3)]
  · rw [← be_reverse s (h256 ▸ h2), e2, be_reverse s' (h256 ▸ h4)]

/-- **C70, not malleable.** If a signature is accepted in some call, the signature with the opposite `s` is refused in all calls. -/
theorem C70_not_malleable :
    (∀ (L L' : K1Lib) d d' rid rid' r s out, r < k1Order → s < k1Order →
      recoverKeyEcdsaSecp256k1 L d (enc r s) rid = .ok out → ∃ e, recoverKeyEcdsaSecp256k1 L' d' (enc r (k1Order - s)) rid' = .error e) ∧
    ∀ (L L' : R1Lib) k k' d d' r s, r < r1Order → s < r1Order →
      verifySigEcdsaSecp256r1 L k d (enc r s) = .ok () → ∃ e, verifySigEcdsaSecp256r1 L' k' d' (enc r (r1Order - s)) = .error e := by
  have key : ∀ n r s r1 s1 r2 s2, n < 2 ^ 256 → r < n → s < n → enc r s = enc r1 s1 → Low n r1 s1 →
      enc r (n - s) = enc r2 s2 → Low n r2 s2 → False := by
    intro n r s r1 s1 r2 s2 hn hr hs e1 l1 e2 l2
    have m1 := l1.2.1
    have m2 := l1.2.2.2
    have m3 := l2.2.1
    have m4 := l2.2.2.2
    clear l1 l2
    obtain ⟨rfl, rfl⟩ := enc_inj (Nat.lt_trans hr hn) (Nat.lt_trans hs hn) (Nat.lt_trans m1 hn) (Nat.lt_trans (by omega) hn) e1
    have hlt : n - s < 2 ^ 256 := Nat.lt_of_le_of_lt (Nat.sub_le n s) hn
    obtain ⟨-, e3⟩ := enc_inj (Nat.lt_trans hr hn) hlt (Nat.lt_trans m3 hn) (Nat.lt_trans (by omega) hn) e2
    clear hn hlt e1 e2
    omega
  constructor
  · intro L L' d d' rid rid' r s out hr hs h
    cases h' : recoverKeyEcdsaSecp256k1 L' d' (enc r (k1Order - s)) rid' with
    | error e => exact ⟨e, rfl⟩
    | ok out' =>
      obtain ⟨r1, s1, _, _, e1, l1, _⟩ := (C70_secp256k1 L d _ rid (enc_bytes _ _) out).mp h
      obtain ⟨r2, s2, _, _, e2, l2, _⟩ := (C70_secp256k1 L' d' _ rid' (enc_bytes _ _) out').mp h'
      exact (key _ _ _ _ _ _ _ k1_small hr hs e1 l1 e2 l2).elim
  · intro L L' k k' d d' r s hr hs h
    cases h' : verifySigEcdsaSecp256r1 L' k' d' (enc r (r1Order - s)) with
    | error e => exact ⟨e, rfl⟩
    | ok u =>
      obtain ⟨r1, s1, _, e1, l1, _⟩ := (C70_secp256r1 L k d _ (enc_bytes _ _)).mp h
      obtain ⟨r2, s2, _, e2, l2, _⟩ := (C70_secp256r1 L' k' d' _ (enc_bytes _ _)).mp h'
      exact (key _ _ _ _ _ _ _ r1_small hr hs e1 l1 e2 l2).elim

/-- Low numbers that give the same point up to its sign are equal. -/
theorem low_unique {n : Nat} [Fact n.Prime] {P : Type} [AddCommGroup P] [Module (ZMod n) P] {T : P} (hT0 : T ≠ 0) {s s' : Nat}
    (p1 : 0 < s) (p2 : s < n - s) (q1 : 0 < s') (q2 : s' < n - s')
    (hpt : (s' : ZMod n)⁻¹ • T = (s : ZMod n)⁻¹ • T ∨ (s' : ZMod n)⁻¹ • T = -((s : ZMod n)⁻¹ • T)) : s = s' := by
  have hne : ∀ v, 0 < v → v < n → ((v : Nat) : ZMod n) ≠ 0 := by
    intro v h0 h1 he
    have := Nat.le_of_dvd h0 ((ZMod.natCast_eq_zero_iff v n).mp he)
    omega
  have hs0 : (s : ZMod n) ≠ 0 := hne s p1 (by omega)
  have hs0' : (s' : ZMod n) ≠ 0 := hne s' q1 (by omega)
  have hval : ∀ v, v < n → ((v : Nat) : ZMod n).val = v := fun v hv => ZMod.val_cast_of_lt hv
  rcases hpt with hpt | hpt
  · have h1 : ((s' : ZMod n)⁻¹ - (s : ZMod n)⁻¹) • T = 0 := by rw [sub_smul, hpt, sub_self]
    have h2 : (s' : ZMod n)⁻¹ = (s : ZMod n)⁻¹ := sub_eq_zero.mp ((smul_eq_zero.mp h1).resolve_right hT0)
    have h3 : (s' : ZMod n) = s := inv_injective h2
    have h4 := congrArg ZMod.val h3
    rw [hval s' (by omega), hval s (by omega)] at h4
    exact h4.symm
  · exfalso
    have h1 : ((s' : ZMod n)⁻¹ + (s : ZMod n)⁻¹) • T = 0 := by rw [add_smul, hpt, neg_add_cancel]
    have h2 : (s' : ZMod n)⁻¹ + (s : ZMod n)⁻¹ = 0 := (smul_eq_zero.mp h1).resolve_right hT0
    have h3 : ((s + s' : Nat) : ZMod n) = 0 := by
      push_cast
      field_simp at h2
      rw [h2, mul_zero]
    exact hne (s + s') (by omega) (by omega) h3

/-- **C70, one signature for a nonce.** If the library accepts only what satisfies the equation of ECDSA, then two accepted signatures
with the same key and digest whose nonce points have the same coordinate are the same bytes. -/
theorem C70_unique {P : Type} [AddCommGroup P] [Module (ZMod r1Order) P] (E : Curve r1Order P) (L : R1Lib) (point : L.Key → P)
    (num : List Nat → ZMod r1Order)
    (hlib : ∀ k d sig, L.verifyPrehash k d sig = true → Verifies E (point k) (num d) sig.r sig.s)
    (key digest : List Nat) (k : L.Key) (hk : L.fromSec1 key = some k) (r s r' s' : Nat)
    (hr : r < 2 ^ 256) (hs : s < 2 ^ 256) (hr' : r' < 2 ^ 256) (hs' : s' < 2 ^ 256)
    (h : verifySigEcdsaSecp256r1 L key digest (enc r s) = .ok ()) (h' : verifySigEcdsaSecp256r1 L key digest (enc r' s') = .ok ())
    (hx : E.x (noncePoint E (point k) (num digest) r s) = E.x (noncePoint E (point k) (num digest) r' s')) :
    enc r s = enc r' s' := by
  have : Fact r1Order.Prime := ⟨r1_prime⟩
  have hodd := r1_odd
  have hsm := r1_small
  have numbers : ∀ r s, r < 2 ^ 256 → s < 2 ^ 256 → verifySigEcdsaSecp256r1 L key digest (enc r s) = .ok () →
      Low r1Order r s ∧ Verifies E (point k) (num digest) r s := by
    intro r s hr hs h
    obtain ⟨r1, s1, k1, e, low, -, hk1, -, hv⟩ := (C70_secp256r1 L key digest _ (enc_bytes _ _)).mp h
    have low' : Low r1Order r1 s1 := low
    have hb : r1 < 2 ^ 256 := Nat.lt_trans low'.2.1 hsm
    have hb' : s1 < 2 ^ 256 := Nat.lt_trans (Nat.lt_of_lt_of_le low'.2.2.2 (Nat.sub_le _ _)) hsm
    obtain ⟨rfl, rfl⟩ := enc_inj hr hs hb hb' e
    rw [hk] at hk1
    injection hk1 with hk1
    subst hk1
    exact ⟨low', hlib _ _ _ hv⟩
  have n1 := numbers r s hr hs h
  have n2 := numbers r' s' hr' hs' h'
  clear numbers hlib h h' hr hs hr' hs' hsm hodd
  have l1 := n1.1
  have l2 := n2.1
  have v1 := n1.2
  have v2 := n2.2
  unfold Verifies at v1 v2
  obtain ⟨a, hv1⟩ := v1
  obtain ⟨a', hv2⟩ := v2
  have ha := hv1.1
  have ha' := hv2.1
  have haa : a = a' := Option.some.inj (ha.symm.trans (hx.trans ha'))
  have hrr : r = r' := hv1.2.symm.trans ((congrArg (· % r1Order) haa).trans hv2.2)
  clear n1 n2 hv1 hv2
  rw [← haa] at ha'
  clear haa
  subst hrr
  have hpt := E.same_x _ _ _ ha ha'
  unfold noncePoint at hpt ha
  have hT0 : num digest • E.gen + (r : ZMod r1Order) • point k ≠ 0 := by
    intro hz
    rw [hz, smul_zero, E.x_zero] at ha
    cases ha
  rw [low_unique hT0 l1.2.2.1 l1.2.2.2 l2.2.2.1 l2.2.2.2 hpt]

/-! ### Concrete cases -/

/-- A library for a group of the order of secp256r1: numbers, where opposite ones share the smaller as coordinate. -/
def toyCurve : Curve r1Order (ZMod r1Order) where
  gen := 1
  x p := if p = 0 then none else some (min p.val (-p).val)
  x_zero := if_pos rfl
  same_x := by
    have : NeZero r1Order := ⟨r1_prime.ne_zero⟩
    intro p q a hp hq
    have hp0 : p ≠ 0 := by rintro rfl; simp at hp
    have hq0 : q ≠ 0 := by rintro rfl; simp at hq
    rw [if_neg hp0] at hp
    rw [if_neg hq0] at hq
    injection hp with hp
    injection hq with hq
    have h := hq.trans hp.symm
    rcases Nat.le_total q.val (-q).val with hq | hq <;> rcases Nat.le_total p.val (-p).val with hp | hp
    · rw [Nat.min_eq_left hq, Nat.min_eq_left hp] at h
      exact .inl (ZMod.val_injective _ h)
    · rw [Nat.min_eq_left hq, Nat.min_eq_right hp] at h
      exact .inr (ZMod.val_injective _ h)
    · rw [Nat.min_eq_right hq, Nat.min_eq_left hp] at h
      exact .inr (by rw [← ZMod.val_injective _ h, neg_neg])
    · rw [Nat.min_eq_right hq, Nat.min_eq_right hp] at h
      exact .inl (neg_injective (ZMod.val_injective _ h))

/-- ECDSA over that group. -/
def toyLib : R1Lib where
  Key := ZMod r1Order
  fromSec1 b := if b.length = 65 then some (fromLe (b.drop 1).reverse : ZMod r1Order) else none
  verifyPrehash k d sig := decide (toyCurve.x (noncePoint toyCurve k (fromLe d.reverse : ZMod r1Order) sig.r sig.s) = some sig.r) &&
    decide (sig.r < r1Order)

theorem toy_hlib (k : toyLib.Key) (d : List Nat) (sig : EcSig) (h : toyLib.verifyPrehash k d sig = true) :
    Verifies toyCurve k (fromLe d.reverse : ZMod r1Order) sig.r sig.s := by
  have h := (Bool.and_eq_true _ _).mp h
  exact ⟨sig.r, of_decide_eq_true h.1, Nat.mod_eq_of_lt (of_decide_eq_true h.2)⟩

/-- Whether a call succeeds. -/
def succeeds (res : Res Unit) : Bool :=
  match res with
  | .ok _ => true
  | .error _ => false

theorem of_succeeds {res : Res Unit} (h : succeeds res = true) : res = .ok () := by
  cases res with
  | error e => exact nomatch h
  | ok u => rfl

/-- With the key 1 and the digest 4 the signature `(1, 5)` is accepted. -/
theorem toy_accepts : verifySigEcdsaSecp256r1 toyLib (4 :: be 64 1) (be 32 4) (enc 1 5) = .ok () := of_succeeds (by decide +kernel)

example (r s : Nat) (hr : r < 2 ^ 256) (hs : s < 2 ^ 256)
    (h : verifySigEcdsaSecp256r1 toyLib (4 :: be 64 1) (be 32 4) (enc r s) = .ok ())
    (hx : toyCurve.x (noncePoint toyCurve 1 4 r s) = some 1) : enc 1 5 = enc r s :=
  C70_unique toyCurve toyLib id (fun d => (fromLe d.reverse : ZMod r1Order)) toy_hlib (4 :: be 64 1) (be 32 4) (1 : ZMod r1Order)
    (show (if (4 :: be 64 1).length = 65 then some (fromLe ((4 :: be 64 1).drop 1).reverse : ZMod r1Order) else none) = some 1 by
      decide +kernel) 1 5 r s (by decide +kernel) (by decide +kernel) hr hs toy_accepts h
    (Eq.trans (by decide +kernel) (Eq.trans hx.symm (congrArg (fun z => toyCurve.x (noncePoint toyCurve 1 z r s)) (by decide +kernel))))

/-- The opposite signature is refused. -/
example : ∃ e, verifySigEcdsaSecp256r1 toyLib (4 :: be 64 1) (be 32 4) (enc 1 (r1Order - 5)) = .error e :=
  C70_not_malleable.2 toyLib toyLib _ _ _ _ 1 5 (by decide +kernel) (by decide +kernel) toy_accepts

example : recoverKeyEcdsaSecp256k1 (fun _ _ _ => some (1, 2)) (be 32 4) (enc 1 5) 3 = .ok (4 :: (be 32 1 ++ be 32 2)) :=
  (C70_secp256k1 _ _ _ 3 (enc_bytes 1 5) _).mpr
    ⟨1, 5, 1, 2, rfl, ⟨by decide, by decide +kernel, by decide, by decide +kernel⟩, by decide, by decide +kernel, rfl, rfl⟩

example : verifySigEd25519 ⟨Nat, fun b => some b.length, fun k x s => decide (k + x.length = s.length)⟩ (be 32 7) (be 32 8) (be 64 9) = .ok () :=
  (C70_ed25519 _ _ _ _).1.mpr ⟨by decide +kernel, by decide +kernel, 32, by decide +kernel, by decide +kernel⟩

end Soroban.Props
