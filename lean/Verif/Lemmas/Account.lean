import Verif.Spec.Account
import Verif.Lemmas.Auth
import Mathlib.Data.List.Perm.Subperm
/-! Lemmas about the authentication of accounts and about signature payloads. -/
namespace Soroban.Account
open Soroban Soroban.Auth Soroban.Account.Spec

theorem signerWeight_eq (k : Nat) (l : List (SignerKey × Nat)) :
    signerWeight k l = match l.find? (fun s => s.1 = SignerKey.ed25519 k) with
      | some s => min s.2 255
      | none => 0 := by
  induction l with
  | nil => rfl
  | cons x xs ih =>
    obtain ⟨key, w⟩ := x
    cases key with
    | ed25519 k' =>
      by_cases h : k = k'
      · subst h; simp [signerWeight]
      · have h' : ¬ k' = k := fun e => h e.symm
        simp only [signerWeight, if_neg h, ih]
        rw [List.find?_cons_of_neg (by simpa using h')]
    | preAuthTx _ => simp only [signerWeight, ih]; rw [List.find?_cons_of_neg (by simp)]
    | hashX _ => simp only [signerWeight, ih]; rw [List.find?_cons_of_neg (by simp)]
    | signedPayload _ _ => simp only [signerWeight, ih]; rw [List.find?_cons_of_neg (by simp)]

theorem weightFromAccount_eq (k : Nat) (a : AccountEntry) : weightFromAccount k a = keyWeight a k := by
  unfold weightFromAccount keyWeight
  by_cases h : a.id = k
  · rw [if_pos h, if_pos h.symm]
  · rw [if_neg h, if_neg (fun e => h e.symm), signerWeight_eq]
    cases a.signers.find? (fun s => s.1 = SignerKey.ed25519 k) <;> rfl

/-- Weights fit a byte when the master weight does. -/
theorem keyWeight_le {a : AccountEntry} (h : a.masterWeight ≤ 255) (k : Nat) : keyWeight a k ≤ 255 := by
  unfold keyWeight
  split
  · exact h
  · split
    · exact Nat.min_le_right _ _
    · omega

theorem totalWeight_le {a : AccountEntry} (h : a.masterWeight ≤ 255) : ∀ ks : List Nat, totalWeight a ks ≤ 255 * ks.length
  | [] => by simp [totalWeight]
  | k :: ks => by
    have h1 := keyWeight_le h k
    have h2 := totalWeight_le h ks
    simp only [totalWeight, List.map_cons, List.sum_cons, List.length_cons] at *
    omega

theorem totalWeight_cons (a : AccountEntry) (k : Nat) (ks : List Nat) :
    totalWeight a (k :: ks) = keyWeight a k + totalWeight a ks := by
  simp [totalWeight]

/-- The keys come after a previous key. -/
def After (prev : Option Nat) (ks : List Nat) : Prop := ∀ p, prev = some p → ∀ k ∈ ks, p < k

/-- What the loop over the signatures accepts. -/
theorem sigLoop_iff {verify : Nat → Nat → Nat → Bool} {a : AccountEntry} {payload : Nat} (hm : a.masterWeight ≤ 255)
    (l : List (Res Sig)) : ∀ (prev : Option Nat) (w r : Nat), w + 255 * l.length ≤ 4294967295 →
      (sigLoop verify a payload prev w l = .ok r ↔
        ∃ sigs : List Sig, l = sigs.map .ok ∧ After prev (sigs.map Sig.publicKey) ∧
          (sigs.map Sig.publicKey).Pairwise (· < ·) ∧
          (∀ s ∈ sigs, verify s.publicKey payload s.signature = true) ∧ (∀ s ∈ sigs, 0 < keyWeight a s.publicKey) ∧
          r = w + totalWeight a (sigs.map Sig.publicKey)) := by
  induction l with
  | nil =>
    intro prev w r _
    constructor
    · intro h
      simp only [sigLoop] at h
      cases h
      exact ⟨[], rfl, fun _ _ _ h => (by cases h), List.Pairwise.nil, fun _ h => (by cases h), fun _ h => (by cases h),
        by simp [totalWeight]⟩
    · rintro ⟨sigs, h1, -, -, -, -, h2⟩
      cases sigs with
      | nil => simp [sigLoop, totalWeight] at h2 ⊢; exact h2.symm
      | cons s ss => simp at h1
  | cons x xs ih =>
    intro prev w r hb
    simp only [List.length_cons] at hb
    cases x with
    | error e =>
      constructor
      · intro h; simp [sigLoop] at h
      · rintro ⟨sigs, h1, -⟩
        cases sigs with
        | nil => simp at h1
        | cons s ss => simp at h1
    | ok s =>
      have hk := keyWeight_le hm s.publicKey
      have hmin : min (w + keyWeight a s.publicKey) 4294967295 = w + keyWeight a s.publicKey := by omega
      rw [sigLoop]
      simp only [weightFromAccount_eq, hmin]
      constructor
      · intro h
        by_cases h1 : keyAfter prev s.publicKey = true
        swap
        · rw [if_pos (by simpa using h1)] at h; cases h
        rw [if_neg (by simp [h1])] at h
        by_cases h2 : verify s.publicKey payload s.signature = true
        swap
        · rw [if_pos (by simpa using h2)] at h; cases h
        rw [if_neg (by simp [h2])] at h
        by_cases h3 : keyWeight a s.publicKey = 0
        · rw [if_pos h3] at h; cases h
        rw [if_neg h3] at h
        obtain ⟨sigs, q1, q2, q3, q4, q5, q6⟩ := (ih _ _ _ (by omega)).1 h
        have hhead : ∀ k ∈ sigs.map Sig.publicKey, s.publicKey < k := q2 _ rfl
        have hprev : ∀ p, prev = some p → p < s.publicKey := by
          intro p hp; subst hp; simpa [keyAfter] using h1
        refine ⟨s :: sigs, by simp [q1], ?_, ?_, ?_, ?_, ?_⟩
        · intro p hp k hkm
          rw [List.map_cons, List.mem_cons] at hkm
          rcases hkm with rfl | hkm
          · exact hprev p hp
          · exact Nat.lt_trans (hprev p hp) (hhead k hkm)
        · rw [List.map_cons]; exact List.Pairwise.cons hhead q3
        · intro t ht
          rcases List.mem_cons.1 ht with rfl | ht
          · exact h2
          · exact q4 t ht
        · intro t ht
          rcases List.mem_cons.1 ht with rfl | ht
          · omega
          · exact q5 t ht
        · rw [List.map_cons, totalWeight_cons, q6]; omega
      · rintro ⟨sigs, q1, q2, q3, q4, q5, q6⟩
        cases sigs with
        | nil => simp at q1
        | cons t ts =>
          simp only [List.map_cons, List.cons.injEq, Except.ok.injEq] at q1
          obtain ⟨rfl, q1⟩ := q1
          have h1 : keyAfter prev s.publicKey = true := by
            cases prev with
            | none => rfl
            | some p => simpa [keyAfter] using q2 p rfl s.publicKey (by simp)
          have h2 := q4 s (by simp)
          have h3 := q5 s (by simp)
          rw [if_neg (by simp [h1]), if_neg (by simp [h2]), if_neg (by omega)]
          rw [List.map_cons, List.pairwise_cons] at q3
          refine (ih _ _ _ (by omega)).2 ⟨ts, q1, ?_, q3.2, fun t ht => q4 t (List.mem_cons_of_mem _ ht),
            fun t ht => q5 t (List.mem_cons_of_mem _ ht), ?_⟩
          · intro p hp k hkm
            cases hp
            exact q3.1 k hkm
          · rw [q6, List.map_cons, totalWeight_cons]; omega

/-- The weight of distinct keys out of a list is at most the weight of the list. -/
theorem totalWeight_sublist (a : AccountEntry) {l m : List Nat} (h : l.Sublist m) : totalWeight a l ≤ totalWeight a m := by
  induction h with
  | slnil => exact Nat.le_refl _
  | cons k _ ih => rw [totalWeight_cons]; omega
  | cons_cons k _ ih => rw [totalWeight_cons, totalWeight_cons]; omega

theorem totalWeight_subset (a : AccountEntry) {l m : List Nat} (hn : l.Nodup) (h : l ⊆ m) : totalWeight a l ≤ totalWeight a m := by
  obtain ⟨l', hp, hs⟩ := hn.subperm h
  have h1 : totalWeight a l' = totalWeight a l := by
    unfold totalWeight; exact (hp.map _).sum_nat
  rw [← h1]
  exact totalWeight_sublist a hs

/-! ### trees -/

mutual
theorem toXdr_fromXdr : ∀ x : XInv, invToXdr false (invFromXdr x) = plainInv x
  | .mk f subs => by
    simp only [invFromXdr, invToXdr, plainInv, toXdrs_fromXdrs subs]
    cases f <;> rfl
theorem toXdrs_fromXdrs : ∀ xs : List XInv, invsToXdr false (invsFromXdr xs) = plainInvs xs
  | [] => rfl
  | x :: xs => by simp only [invsFromXdr, invsToXdr, plainInvs, toXdr_fromXdr x, toXdrs_fromXdrs xs]; simp
end

mutual
theorem toXdr_reset : ∀ i : Inv, invToXdr false i.reset = invToXdr false i
  | .mk f subs u => by
    simp only [Inv.reset, invToXdr, toXdrs_resets subs]
theorem toXdrs_resets : ∀ is : List Inv, invsToXdr false (resets is) = invsToXdr false is
  | [] => rfl
  | i :: is => by simp only [resets, invsToXdr, toXdr_reset i, toXdrs_resets is]; simp
end

mutual
theorem pushContexts_spec (saltOf : Nat → Nat) : ∀ (i : Inv) (out : List AuthContext) (r : List AuthContext),
    pushContexts saltOf i out = .ok r ↔ ∃ cs, (functions i).map (contextOf saltOf) = cs.map .ok ∧ r = out ++ cs
  | .mk f subs u, out, r => by
    rw [pushContexts]
    simp only [functions, List.map_cons]
    cases hc : contextOf saltOf f with
    | error e =>
      constructor
      · intro h; cases h
      · rintro ⟨cs, h, -⟩
        cases cs <;> simp at h
    | ok c =>
      dsimp only
      rw [pushContextsAll_spec saltOf subs (out ++ [c]) r]
      constructor
      · rintro ⟨cs, h1, h2⟩
        exact ⟨c :: cs, by simp [h1], by simp [h2]⟩
      · rintro ⟨cs, h1, h2⟩
        cases cs with
        | nil => simp at h1
        | cons d ds =>
          simp only [List.map_cons, List.cons.injEq, Except.ok.injEq] at h1
          obtain ⟨rfl, h1⟩ := h1
          exact ⟨ds, h1, by simp [h2]⟩
theorem pushContextsAll_spec (saltOf : Nat → Nat) : ∀ (is : List Inv) (out : List AuthContext) (r : List AuthContext),
    pushContextsAll saltOf is out = .ok r ↔ ∃ cs, (functionsAll is).map (contextOf saltOf) = cs.map .ok ∧ r = out ++ cs
  | [], out, r => by
    rw [pushContextsAll]
    simp only [functionsAll, List.map_nil]
    constructor
    · intro h; cases h; exact ⟨[], rfl, by simp⟩
    · rintro ⟨cs, h1, h2⟩
      cases cs with
      | nil => simp [h2]
      | cons _ _ => simp at h1
  | i :: is, out, r => by
    rw [pushContextsAll]
    simp only [functionsAll, List.map_append]
    constructor
    · intro h
      cases hq : pushContexts saltOf i out with
      | error e => rw [hq] at h; cases h
      | ok o1 =>
        rw [hq] at h
        dsimp only at h
        obtain ⟨c1, h1, rfl⟩ := (pushContexts_spec saltOf i out o1).1 hq
        obtain ⟨c2, h2, rfl⟩ := (pushContextsAll_spec saltOf is _ r).1 h
        exact ⟨c1 ++ c2, by simp [h1, h2], by simp⟩
    · rintro ⟨cs, h1, rfl⟩
      rw [eq_comm, List.map_eq_append_iff] at h1
      obtain ⟨c1, c2, rfl, h1, h2⟩ := h1
      rw [(pushContexts_spec saltOf i out _).2 ⟨c1, h1.symm, rfl⟩]
      dsimp only
      exact (pushContextsAll_spec saltOf is _ _).2 ⟨c2, h2.symm, by simp⟩
end

mutual
theorem functions_iff (f : AuthFn) : ∀ i : Inv, f ∈ functions i ↔ Occurs f i
  | .mk g subs u => by
    simp only [functions, List.mem_cons, functionsAll_iff f subs]
    constructor
    · rintro (rfl | ⟨i, hi, ho⟩)
      · exact .here _ _
      · exact .under hi ho
    · intro h
      cases h with
      | here => exact .inl rfl
      | under hi ho => exact .inr ⟨_, hi, ho⟩
theorem functionsAll_iff (f : AuthFn) : ∀ is : List Inv, f ∈ functionsAll is ↔ ∃ i ∈ is, Occurs f i
  | [] => by simp [functionsAll]
  | i :: is => by simp [functionsAll, functions_iff f i, functionsAll_iff f is]
end

end Soroban.Account
