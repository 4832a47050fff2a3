import Verif.Lemmas.SacRefusalOps
/-!
How calls of the asset contract end (C89).
-/
namespace Soroban.Sac
open Soroban Soroban.Storage Soroban.Auth Soroban.Sac.Spec
open Soroban.Storage.Spec hiding step runProg

variable {E : SEnv} {P : SKey → Access → Bool} {L : Spec.Led} {s : Tok} {bad : Nat → Prop}

theorem read_holding {asset : Asset} {a : Addr} (hro : ∀ k ∈ holdingReads asset a, P k .readOnly = true) :
    P (holdingKey asset a) .readOnly = true := hro _ (by simp [holdingReads])

theorem read_issuer {asset : Asset} {a : Addr} (hro : ∀ k ∈ holdingReads asset a, P k .readOnly = true) (i : Nat)
    (hi : asset = .credit i) : P (.account i) .readOnly = true := hro _ (by rw [hi]; simp [holdingReads])

theorem spendBalance_ends (hs : Sane E.asset E.baseReserve L) (hr : Running E.li) (h : At E P L s) {a : Addr} {d : Int}
    (hd : 0 ≤ d) (hro : ∀ k ∈ holdingReads E.asset a, P k .readOnly = true) (hw : P (holdingKey E.asset a) .readWrite = true)
    (hb : ∀ n, CannotPay E.asset E.baseReserve L a d n → bad n) :
    Ends (spendBalance E a d) s (fun _ s' => At E P (taken E.asset L a d) s' ∧
      ∀ n, ¬ CannotPay E.asset E.baseReserve L a d n) bad := by
  unfold spendBalance
  refine Ends.bind (isAuthorized_ends hs h hro (fun e => hb _ (.taking (.noTrustline e)))) ?_
  intro b s1 q
  obtain ⟨hb1, h1, -⟩ := q
  split
  · rename_i hy
    refine (spendNoCheck_ends hs hr h1 hd (read_holding hro) hw (fun n e => hb n (.taking e))).mono ?_ (fun _ e => e)
    rintro _ s2 ⟨q1, q2⟩
    refine ⟨q1, fun n q => ?_⟩
    cases q with
    | taking q => exact q2 n q
    | unauthorized q => rw [hb1, q] at hy; cases hy
  · rename_i hn
    exact Ends.fail (hb _ (.unauthorized (by rw [← hb1]; simpa using hn)))

theorem taken_value (asset : Asset) (L : Spec.Led) (a : Addr) (d : Int) (k : SKey) :
    valueOf (taken asset L a d k) =
      if k = holdingKey asset a ∧ ¬ Issues asset a then (valueOf (L k)).map (withAmount (-d)) else valueOf (L k) := by
  unfold taken
  split
  · cases L k <;> rfl
  · rfl

/-- What is left after a payment is as good as what was there. -/
theorem Sane.taken {asset : Asset} {r : Nat} (hs : Sane asset r L) {a : Addr} {d : Int} (hd : 0 ≤ d)
    (hn : ∀ n, ¬ CannotTake asset r L a d n) : Sane asset r (taken asset L a d) := by
  have hl : ∀ v, ¬ Issues asset a → valueOf (L (holdingKey asset a)) = some v →
      leastIn r (some v) ≤ amountIn (some v) - d := by
    intro v hni hv
    by_contra hlt
    refine hn _ (.notEnough hni ?_)
    simp only [balanceOf, holding, hv]
    omega
  have key : ∀ k v, valueOf (Spec.taken asset L a d k) = some v → valueOf (L k) = some v ∨
      ∃ v0, valueOf (L k) = some v0 ∧ v = withAmount (-d) v0 ∧ leastIn r (some v0) ≤ amountIn (some v0) - d := by
    intro k v h
    rw [taken_value] at h
    split at h
    · rename_i q
      cases hv : valueOf (L k) with
      | none => rw [hv] at h; cases h
      | some v0 =>
        rw [hv] at h
        simp only [Option.map_some, Option.some.injEq] at h
        exact .inr ⟨v0, rfl, h.symm, hl v0 q.2 (by rw [← q.1]; exact hv)⟩
    · exact .inl h
  refine ⟨?_, ?_, ?_, ?_⟩
  · intro k v h
    rcases key k v h with hq | ⟨v0, hq, rfl, -⟩
    · exact hs.kinds k v hq
    · have := hs.kinds k v0 hq
      cases v0 <;> cases k <;> first | trivial | exact this.elim
  · intro k v h
    rcases key k v h with hq | ⟨v0, hq, rfl, hle⟩
    · exact hs.bounds k v hq
    · have hb := hs.bounds k v0 hq
      cases v0 with
      | account a =>
        simp only [inBounds, leastIn, amountIn, withAmount] at hb hle ⊢
        have e1 : minBalance r { a with balance := a.balance + -d } = minBalance r a := rfl
        have e2 : maxBalance { a with balance := a.balance + -d } = maxBalance a := rfl
        rw [e1, e2]
        omega
      | trust t =>
        simp only [inBounds, leastIn, amountIn, withAmount] at hb hle ⊢
        cases hl : t.liab with
        | none => simp only [hl] at hb hle ⊢; omega
        | some q => simp only [hl] at hb hle ⊢; omega
      | balance b => simp only [inBounds, leastIn, amountIn, withAmount] at hb hle ⊢; omega
      | allowance a => trivial
      | inst a => trivial
  · intro k v h
    rcases key k v h with hq | ⟨v0, hq, rfl, hle⟩
    · exact hs.fits k v hq
    · have hf := hs.fits k v0 hq
      cases v0 with
      | account a =>
        simp only [Spec.fits, withAmount] at hf ⊢
        have e1 : minBalance r { a with balance := a.balance + -d } = minBalance r a := rfl
        rw [e1]
        exact ⟨by omega, hf.2⟩
      | trust t => simp only [Spec.fits, withAmount] at hf ⊢; exact ⟨by omega, hf.2⟩
      | balance b => trivial
      | allowance a => exact hf
      | inst a => trivial
  · intro i hi e
    rw [taken_value] at e
    split at e
    · cases hv : valueOf (L (.account i)) with
      | none => exact hs.issuer i hi hv
      | some v => rw [hv] at e; cases e
    · exact hs.issuer i hi e

/-- The balance of a contract that receives: what it has, or a new one. -/
theorem balanceToReceive_ends (hs : Sane E.asset E.baseReserve L) (h : At E P L s) {c : Nat}
    (hro : ∀ k ∈ holdingReads E.asset (.contract c), P k .readOnly = true) :
    Ends (balanceToReceive E c) s (fun b s' => b.amount = balanceOf E.asset L (.contract c) ∧ At E P L s') bad := by
  unfold balanceToReceive
  refine Ends.bind (tryGetData_ends h (read_holding hro)) ?_
  intro v s1 q
  obtain ⟨hv1, h1⟩ := q
  have hk : holdingKey E.asset (.contract c) = .balance c := rfl
  cases hv : valueOf (L (.balance c)) with
  | none =>
    rw [hv1, hv]
    refine Ends.bind (issuerFlag_ends hs h1 (read_issuer hro) _) ?_
    intro f s2 q2
    exact Ends.pure ⟨by simp only [balanceOf, hk, hv, amountIn], q2.2⟩
  | some v =>
    rw [hv1, hv]
    obtain ⟨b, rfl⟩ := hs.balance hv
    exact Ends.pure ⟨by simp only [balanceOf, hk, hv, amountIn], h1⟩

/-- An address is given an amount, unless there is a reason against it. -/
theorem receiveBalance_ends (hs : Sane E.asset E.baseReserve L) (hr : Running E.li) (h : At E P L s) {a : Addr} {d : Int}
    (hd : 0 ≤ d) (hro : ∀ k ∈ holdingReads E.asset a, P k .readOnly = true) (hw : P (holdingKey E.asset a) .readWrite = true)
    (hb : ∀ n, CannotReceive E.asset E.baseReserve L a d n → bad n) :
    Ends (receiveBalance E a d) s (fun _ _ => ∀ n, ¬ CannotReceive E.asset E.baseReserve L a d n) bad := by
  unfold receiveBalance
  refine Ends.bind (isAuthorized_ends hs h hro (fun e => hb _ (.noTrustline e))) ?_
  intro b s1 q
  obtain ⟨hb1, h1, hnt⟩ := q
  have hrh := read_holding hro
  split
  · rename_i hy
    rw [hb1] at hy
    cases a with
    | account id =>
      simp only
      by_cases hlt : d < 2 ^ 63
      · rw [checked64_is (by omega) hlt]
        refine Ends.liftBind ?_
        unfold transferClassicBalance
        cases ha : E.asset with
        | native =>
          rw [ha] at hro hw hb hs hrh
          have hni : ¬ Issues .native (.account id) := fun e => e
          refine (transferAccount_ends (ha ▸ hs) hr h1 hrh hw ?_ ?_ ?_).mono ?_ (fun _ e => e)
          · exact fun e hx => hb _ (.noAccount ⟨rfl, id, rfl, e⟩ (by omega))
          · exact fun e _ hx => hb _ (.lowStart ⟨rfl, id, rfl, e⟩ hx)
          · intro v hv hor
            have hbd := hs.bounds _ _ hv
            obtain ⟨a, rfl⟩ := hs.account hv
            simp only [inBounds] at hbd
            simp only [amountIn, leastIn, mostIn] at hor
            refine hb _ (.tooMuch ⟨id, rfl⟩ hni ?_)
            simp only [balanceOf, holding, holdingKey, hv, amountIn, mostIn]
            omega
          · rintro _ s2 ⟨q0, q⟩ n e
            rw [ha] at hy hnt
            have hk : holdingKey .native (.account id) = .account id := rfl
            cases e with
            | unauthorized e => rw [e] at hy; cases hy
            | noTrustline e => exact hnt e
            | noAccount e e2 => obtain ⟨-, j, e, e3⟩ := e; cases e; have := (q0 e3).1; omega
            | lowStart e e2 => obtain ⟨-, j, e, e3⟩ := e; cases e; have := (q0 e3).2; omega
            | tooLarge _ e => omega
            | tooMuch _ _ e =>
              simp only [balanceOf, holding, hk] at e
              cases hv : valueOf (L (.account id)) with
              | none => rw [hv] at e; simp only [amountIn, mostIn] at e; omega
              | some v => obtain ⟨-, -, q3⟩ := q v hv; rw [hv] at e; omega
            | overflow e _ => exact e ⟨id, rfl⟩
        | credit i =>
          rw [ha] at hro hw hb hs hrh
          simp only
          by_cases hi : i = id
          · rw [if_pos hi]
            have hiss : Issues (.credit i) (.account id) := by simp [Issues, hi]
            rw [ha] at hy hnt
            refine Ends.pure fun n e => ?_
            cases e with
            | unauthorized e => rw [e] at hy; cases hy
            | noTrustline e => exact hnt e
            | noAccount e e2 => cases e.1
            | lowStart e e2 => cases e.1
            | tooLarge _ e => omega
            | tooMuch _ e _ => exact e hiss
            | overflow e _ => exact e ⟨id, rfl⟩
          · rw [if_neg hi]
            have hni : ¬ Issues (.credit i) (.account id) := fun e => hi (by cases e; rfl)
            refine (transferTrustline_ends (ha ▸ hs) h1 hrh hw ?_ ?_).mono ?_ (fun _ e => e)
            · exact fun e => hb _ (.noTrustline ⟨hni, i, id, rfl, rfl, e⟩)
            · intro v hv hor
              have hbd := hs.bounds _ _ hv
              obtain ⟨t, rfl⟩ := hs.trust hv
              have := trust_between hbd
              have hai : amountIn (some (.trust t)) = t.balance := rfl
              rw [hai] at hor
              refine hb _ (.tooMuch ⟨id, rfl⟩ hni ?_)
              have hk : holdingKey (.credit i) (.account id) = .trust id := rfl
              simp only [balanceOf, holding, hk, hv, hai]
              omega
            · rintro _ s2 ⟨v, hv, -, -, q3⟩ n e
              rw [ha] at hy hnt
              have hk : holdingKey (.credit i) (.account id) = .trust id := rfl
              cases e with
              | unauthorized e => rw [e] at hy; cases hy
              | noTrustline e => exact hnt e
              | noAccount e e2 => cases e.1
              | lowStart e e2 => cases e.1
              | tooLarge _ e => omega
              | tooMuch _ _ e => simp only [balanceOf, holding, hk, hv] at e; omega
              | overflow e _ => exact e ⟨id, rfl⟩
      · rw [checked64_not (by omega)]
        refine Ends.bind (post := fun _ _ => False) (Ends.liftFail (hb _ (.tooLarge ⟨id, rfl⟩ (by omega)))) ?_
        intro _ _ e; exact e.elim
    | contract c =>
      simp only
      refine Ends.bind (balanceToReceive_ends hs h1 hro) ?_
      intro b2 s2 q2
      obtain ⟨hb2, h2⟩ := q2
      have hnn : 0 ≤ balanceOf E.asset L (.contract c) := by
        unfold balanceOf
        cases hv : valueOf (L (holdingKey E.asset (.contract c))) with
        | none => exact Int.le_refl _
        | some v =>
          have hb3 := hs.bounds _ _ hv
          obtain ⟨b3, rfl⟩ := hs.balance hv
          exact hb3.1
      by_cases hc : b2.amount + d < 2 ^ 127
      · rw [checked128_is (by omega) hc]
        refine Ends.liftBind ?_
        refine (writeContractBalance_ends hr h2 hrh hw _).mono (fun _ _ _ n e => ?_) (fun _ e => e)
        cases e with
        | unauthorized e => rw [e] at hy; cases hy
        | noTrustline e => exact hnt e
        | noAccount e e2 => obtain ⟨-, j, e, -⟩ := e; cases e
        | lowStart e e2 => obtain ⟨-, j, e, -⟩ := e; cases e
        | tooLarge e _ => obtain ⟨j, e⟩ := e; cases e
        | tooMuch e _ _ => obtain ⟨j, e⟩ := e; cases e
        | overflow _ e => omega
      · rw [checked128_not (by omega)]
        refine Ends.bind (post := fun _ _ => False) (Ends.liftFail (hb _ (.overflow ?_ (by omega)))) ?_
        · rintro ⟨id, e⟩; cases e
        · intro _ _ e; exact e.elim
  · rename_i hn
    exact Ends.fail (hb _ (.unauthorized (by rw [← hb1]; simpa using hn)))

end Soroban.Sac
