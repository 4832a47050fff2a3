import Verif.Lemmas.SacRefusal
/-!
How the parts of calls of the asset contract end (C89): payments, receipts, allowances and authorizations.
-/
namespace Soroban.Sac
open Soroban Soroban.Storage Soroban.Auth Soroban.Sac.Spec
open Soroban.Storage.Spec hiding step runProg

/-- What is asked of the entries of a ledger. -/
structure Sane (asset : Asset) (reserve : Nat) (L : Spec.Led) : Prop where
  kinds : ∀ k v, valueOf (L k) = some v → kindOk k v
  bounds : Bounded reserve L
  fits : ∀ k v, valueOf (L k) = some v → Spec.fits reserve v
  issuer : ∀ i, asset = .credit i → valueOf (L (.account i)) ≠ none

variable {E : SEnv} {P : SKey → Access → Bool} {L : Spec.Led} {s : Tok} {bad : Nat → Prop}

theorem emit_done (e : TokEvent) {Q : Prop} (hq : Q) : Ends (emit e) s (fun _ _ => Q) bad := .inl ⟨(), _, rfl, hq⟩

theorem Sane.account {asset : Asset} {r : Nat} (h : Sane asset r L) {id : Nat} {v : SVal} (hv : valueOf (L (.account id)) = some v) :
    ∃ a, v = .account a := by
  have := h.kinds _ _ hv
  cases v <;> first | exact ⟨_, rfl⟩ | exact this.elim

theorem Sane.trust {asset : Asset} {r : Nat} (h : Sane asset r L) {id : Nat} {v : SVal} (hv : valueOf (L (.trust id)) = some v) :
    ∃ t, v = .trust t := by
  have := h.kinds _ _ hv
  cases v <;> first | exact ⟨_, rfl⟩ | exact this.elim

theorem Sane.balance {asset : Asset} {r : Nat} (h : Sane asset r L) {c : Nat} {v : SVal} (hv : valueOf (L (.balance c)) = some v) :
    ∃ b, v = .balance b := by
  have := h.kinds _ _ hv
  cases v <;> first | exact ⟨_, rfl⟩ | exact this.elim

theorem Sane.allowance {asset : Asset} {r : Nat} (h : Sane asset r L) {f p : Addr} {v : SVal}
    (hv : valueOf (L (.allowance f p)) = some v) : ∃ b, v = .allowance b := by
  have := h.kinds _ _ hv
  cases v <;> first | exact ⟨_, rfl⟩ | exact this.elim

theorem Sane.inst {asset : Asset} {r : Nat} (h : Sane asset r L) {v : SVal}
    (hv : valueOf (L .inst) = some v) : ∃ b, v = .inst b := by
  have := h.kinds _ _ hv
  cases v <;> first | exact ⟨_, rfl⟩ | exact this.elim

theorem checked64_is {x : Int} {e : Err} (h1 : -(2 ^ 63) ≤ x) (h2 : x < 2 ^ 63) : checked64 x e = .ok x := by
  unfold checked64 inI64
  rw [if_pos]
  simp only [Bool.and_eq_true, decide_eq_true_eq]
  exact ⟨h1, h2⟩

theorem checked64_not {x : Int} {e : Err} (h : ¬ (-(2 ^ 63) ≤ x ∧ x < 2 ^ 63)) : checked64 x e = .error e := by
  unfold checked64 inI64
  rw [if_neg]
  simp only [Bool.and_eq_true, decide_eq_true_eq]
  exact h

theorem checked128_is {x : Int} {e : Err} (h1 : -(2 ^ 127) ≤ x) (h2 : x < 2 ^ 127) : checked128 x e = .ok x := by
  unfold checked128 inI128
  rw [if_pos]
  simp only [Bool.and_eq_true, decide_eq_true_eq]
  exact ⟨h1, h2⟩

theorem checked128_not {x : Int} {e : Err} (h : ¬ (-(2 ^ 127) ≤ x ∧ x < 2 ^ 127)) : checked128 x e = .error e := by
  unfold checked128 inI128
  rw [if_neg]
  simp only [Bool.and_eq_true, decide_eq_true_eq]
  exact h

theorem res_ok_bind {α β : Type} {a : α} {f : α → Res β} : ((Except.ok a : Res α) >>= f) = f a := rfl

theorem addSponsoring_eq {n : Int} {o : Option (Nat × Nat)} (h0 : 0 ≤ n) (h1 : n < 2 ^ 33)
    (sp : ∀ p q, o = some (p, q) → p < 2 ^ 32 ∧ q < 2 ^ 32) :
    addSponsoring n o = .ok (n + netSponsoring o) := by
  unfold addSponsoring netSponsoring
  cases o with
  | none => simp [pure, Except.pure]
  | some pq =>
    obtain ⟨p, q⟩ := pq
    obtain ⟨sp1, sp2⟩ := sp p q rfl
    have e1 : (p : Int) < 2 ^ 32 := by omega
    have e2 : (q : Int) < 2 ^ 32 := by omega
    simp only
    rw [checked64_is (by omega) (by omega), res_ok_bind]
    rw [checked64_is (by omega) (by omega)]
    congr 1
    omega

theorem i64Max_eq : i64Max = 2 ^ 63 - 1 := rfl

theorem minBalance_none {r : Nat} {a : AccountE} (hx : a.ext = none) : minBalance r a = (2 + a.numSub : Int) * r := by
  unfold minBalance; rw [hx]

theorem minBalance_some {r : Nat} {a : AccountE} {x : _} (hx : a.ext = some x) :
    minBalance r a = (2 + a.numSub + netSponsoring x.sponsor) * r + x.selling := by
  unfold minBalance; rw [hx]

theorem maxBalance_none {a : AccountE} (hx : a.ext = none) : maxBalance a = i64Max := by
  unfold maxBalance i64Max; rw [hx]

theorem maxBalance_some {a : AccountE} {x : _} (hx : a.ext = some x) : maxBalance a = i64Max - x.buying := by
  unfold maxBalance i64Max; rw [hx]

theorem checked64_max {x : Int} {e : Err} (h1 : 0 ≤ x) (h2 : x < 2 ^ 63) : checked64 (i64Max - x) e = .ok (i64Max - x) := by
  have hi := i64Max_eq
  exact checked64_is (by rw [hi]; omega) (by rw [hi]; omega)

theorem checked64_subs {n : Nat} {e : Err} (h : n < 2 ^ 32) : checked64 (2 + (n : Int)) e = .ok (2 + (n : Int)) :=
  checked64_is (by omega) (by omega)

theorem accountRange_eq {a : AccountE} (hb : inBounds E.baseReserve (.account a)) (hf : Spec.fits E.baseReserve (.account a)) :
    accountRange E a = .ok (minBalance E.baseReserve a, maxBalance a) := by
  simp only [inBounds] at hb
  simp only [Spec.fits] at hf
  obtain ⟨b1, b2, b3⟩ := hb
  obtain ⟨f1, f2, f3, f4⟩ := hf
  have h0 : ¬ a.balance < 0 := by omega
  have f2' : (a.numSub : Int) < 2 ^ 32 := by omega
  unfold accountRange
  rw [if_neg h0]
  cases hx : a.ext with
  | none =>
    have hmin := minBalance_none (r := E.baseReserve) hx
    rw [hmin] at b1 b2 f3
    rw [hmin, maxBalance_none hx]
    rw [checked64_subs f2, res_ok_bind]
    generalize (2 + (a.numSub : Int)) * (E.baseReserve : Int) = w at b1 b2 f3 ⊢
    clear hmin
    rw [checked64_is (x := w) (by omega) (by omega), res_ok_bind]
    rfl
  | some x =>
    simp only [hx] at f4
    obtain ⟨s1, s2, y1, y2, sp⟩ := f4
    have hmin := minBalance_some (r := E.baseReserve) hx
    rw [hmin] at b1 b2 f3
    rw [hmin, maxBalance_some hx]
    simp only
    rw [checked64_subs f2, res_ok_bind]
    rw [addSponsoring_eq (by omega) (by omega) (by intro p q e; rw [e] at sp; exact sp), res_ok_bind]
    clear hmin
    generalize (2 + (a.numSub : Int) + netSponsoring x.sponsor) * (E.baseReserve : Int) = w at b1 b2 f3 ⊢
    rw [checked64_is (x := w) (by omega) (by omega), res_ok_bind]
    rw [checked64_is (x := w + x.selling) (by omega) (by omega), res_ok_bind]
    rw [checked64_max y1 y2, res_ok_bind]
    rfl

theorem trustRange_eq {r : Nat} {t : TrustE} (hb : inBounds r (.trust t)) (hf : Spec.fits r (.trust t)) :
    trustRange t = .ok (leastIn r (some (.trust t)), mostIn (some (.trust t))) := by
  obtain ⟨f1, f2, f3⟩ := hf
  unfold trustRange
  cases hl : t.liab with
  | none =>
    simp only [inBounds, hl] at hb
    rw [if_neg (by omega)]
    simp only [leastIn, mostIn, hl]
    rfl
  | some bs =>
    obtain ⟨b, q⟩ := bs
    simp only [inBounds, hl] at hb
    rw [hl] at f3
    simp only at f3
    rw [if_neg (by omega)]
    simp only [leastIn, mostIn, hl]
    rw [if_neg (by omega)]
    rfl

theorem least_nonneg {r : Nat} {v : SVal} (hb : inBounds r v) : 0 ≤ leastIn r (some v) := by
  cases v with
  | account a => exact hb.1
  | trust t =>
    simp only [leastIn]
    cases hl : t.liab with
    | none => exact Int.le_refl _
    | some q => simp only [inBounds, hl] at hb; exact hb.1
  | balance b => exact Int.le_refl _
  | allowance a => exact Int.le_refl _
  | inst a => exact Int.le_refl _


theorem most_account {r : Nat} {a : AccountE} (hf : Spec.fits r (.account a)) : maxBalance a < 2 ^ 63 := by
  simp only [Spec.fits] at hf
  obtain ⟨-, -, -, f4⟩ := hf
  have hi := i64Max_eq
  cases hx : a.ext with
  | none => rw [maxBalance_none hx, hi]; omega
  | some x =>
    simp only [hx] at f4
    rw [maxBalance_some hx, hi]
    omega

theorem most_trust {r : Nat} {t : TrustE} (hf : Spec.fits r (.trust t)) : mostIn (some (.trust t)) < 2 ^ 63 := by
  simp only [Spec.fits] at hf
  obtain ⟨-, f2, f3⟩ := hf
  simp only [mostIn]
  cases hl : t.liab with
  | none => exact f2
  | some q => simp only [hl] at f3; simp only; omega

theorem trust_between {r : Nat} {t : TrustE} (hb : inBounds r (.trust t)) :
    leastIn r (some (.trust t)) ≤ t.balance ∧ t.balance ≤ mostIn (some (.trust t)) := by
  simp only [inBounds] at hb
  simp only [leastIn, mostIn]
  cases hl : t.liab with
  | none => simp only [hl] at hb; exact hb
  | some q => simp only [hl] at hb; exact hb.2

/-- A change of the native balance of an account. -/
theorem transferAccount_ends (hs : Sane E.asset E.baseReserve L) (hr : Running E.li) (h : At E P L s) {id : Nat}
    (hro : P (.account id) .readOnly = true) (hw : P (.account id) .readWrite = true) {x : Int}
    (b6 : valueOf (L (.account id)) = none → x ≤ 0 → bad 6)
    (b14 : valueOf (L (.account id)) = none → 0 < x → x < 2 * (E.baseReserve : Int) → bad 14)
    (b10 : ∀ v, valueOf (L (.account id)) = some v → amountIn (some v) + x < leastIn E.baseReserve (some v) ∨
      mostIn (some v) < amountIn (some v) + x → bad 10) :
    Ends (transferAccountBalance E id x) s (fun _ s' => (valueOf (L (.account id)) = none → 0 < x ∧ 2 * (E.baseReserve : Int) ≤ x) ∧
      ∀ v, valueOf (L (.account id)) = some v → At E P (L.set (.account id) (some (withAmount x v, none))) s' ∧
        leastIn E.baseReserve (some v) ≤ amountIn (some v) + x ∧ amountIn (some v) + x ≤ mostIn (some v)) bad := by
  unfold transferAccountBalance
  refine Ends.bind (tryGetClassic_ends h hro) ?_
  rintro v s1 ⟨rfl, h1⟩
  cases hv : valueOf (L (.account id)) with
  | none =>
    have hseq := hr.seq
    simp only
    split
    · rename_i hx; exact Ends.fail (b6 hv hx)
    · rename_i hx0
      split
      · rename_i hx; exact Ends.fail (b14 hv (by omega) hx)
      · rw [if_neg (by omega)]
        exact (putClassic_ends h1 rfl hw _).mono (fun _ _ _ => ⟨fun _ => ⟨by omega, by omega⟩, fun v e => (by cases e)⟩) (fun _ e => e)
  | some v =>
    obtain ⟨a, rfl⟩ := hs.account hv
    have hb := hs.bounds _ _ hv
    have hf := hs.fits _ _ hv
    have hmx := most_account hf
    have hb' := hb
    simp only [inBounds] at hb'
    simp only [asAccount]
    refine Ends.pureBind ?_
    rw [accountRange_eq hb hf]
    refine Ends.liftBind ?_
    have q10 := b10 _ hv
    simp only [amountIn, leastIn, mostIn] at q10
    by_cases hc : -(2 ^ 63) ≤ a.balance + x ∧ a.balance + x < 2 ^ 63
    · rw [checked64_is hc.1 hc.2]
      refine Ends.liftBind ?_
      by_cases hin : minBalance E.baseReserve a ≤ a.balance + x ∧ a.balance + x ≤ maxBalance a
      · rw [if_pos hin]
        refine (putClassic_ends h1 rfl hw _).mono (fun _ _ q => ⟨fun e => (by cases e), fun v e => ?_⟩) (fun _ e => e)
        cases e
        exact ⟨q, hin.1, hin.2⟩
      · rw [if_neg hin]
        exact Ends.fail (q10 (by omega))
    · rw [checked64_not hc]
      refine Ends.bind (post := fun _ _ => False) (Ends.liftFail (q10 (by omega))) ?_
      intro _ _ e; exact e.elim

theorem readTrustline_ends (hs : Sane E.asset E.baseReserve L) (h : At E P L s) {id : Nat}
    (hro : P (.trust id) .readOnly = true) (b13 : valueOf (L (.trust id)) = none → bad 13) :
    Ends (readTrustline E id) s (fun t s' => valueOf (L (.trust id)) = some (.trust t) ∧ At E P L s') bad := by
  unfold readTrustline
  refine Ends.bind (tryGetClassic_ends h hro) ?_
  rintro v s1 ⟨rfl, h1⟩
  cases hv : valueOf (L (.trust id)) with
  | none => exact Ends.fail (b13 hv)
  | some v =>
    obtain ⟨t, rfl⟩ := hs.trust hv
    exact Ends.pure ⟨rfl, h1⟩

/-- A change of the balance of a trustline. -/
theorem transferTrustline_ends (hs : Sane E.asset E.baseReserve L) (h : At E P L s) {id : Nat}
    (hro : P (.trust id) .readOnly = true) (hw : P (.trust id) .readWrite = true) {x : Int}
    (b13 : valueOf (L (.trust id)) = none → bad 13)
    (b10 : ∀ v, valueOf (L (.trust id)) = some v → amountIn (some v) + x < leastIn E.baseReserve (some v) ∨
      mostIn (some v) < amountIn (some v) + x → bad 10) :
    Ends (transferTrustlineBalance E id x) s (fun _ s' =>
      ∃ v, valueOf (L (.trust id)) = some v ∧ At E P (L.set (.trust id) (some (withAmount x v, none))) s' ∧
        leastIn E.baseReserve (some v) ≤ amountIn (some v) + x ∧ amountIn (some v) + x ≤ mostIn (some v)) bad := by
  unfold transferTrustlineBalance
  refine Ends.bind (readTrustline_ends hs h hro b13) ?_
  rintro t s1 ⟨hv, h1⟩
  have hb := hs.bounds _ _ hv
  have hf := hs.fits _ _ hv
  have hmx := most_trust hf
  have hbt := trust_between hb
  have hl0 := least_nonneg hb
  rw [trustRange_eq hb hf]
  refine Ends.liftBind ?_
  have q10 := b10 _ hv
  have hai : amountIn (some (.trust t)) = t.balance := rfl
  rw [hai] at q10
  by_cases hc : -(2 ^ 63) ≤ t.balance + x ∧ t.balance + x < 2 ^ 63
  · rw [checked64_is hc.1 hc.2]
    refine Ends.liftBind ?_
    by_cases hin : leastIn E.baseReserve (some (.trust t)) ≤ t.balance + x ∧ t.balance + x ≤ mostIn (some (.trust t))
    · rw [if_pos hin]
      exact (putClassic_ends h1 rfl hw _).mono (fun _ _ q => ⟨_, hv, q, hin.1, hin.2⟩) (fun _ e => e)
    · rw [if_neg hin]
      exact Ends.fail (q10 (by omega))
  · rw [checked64_not hc]
    refine Ends.bind (post := fun _ _ => False) (Ends.liftFail (q10 (by omega))) ?_
    intro _ _ e; exact e.elim

/-- A flag of the issuer. -/
def flagIn (asset : Asset) (L : Spec.Led) (f : AccountE → Bool) : Bool :=
  match asset with
  | .native => false
  | .credit i => match accountIn (valueOf (L (.account i))) with | some a => f a | none => false

theorem issuerFlag_ends (hs : Sane E.asset E.baseReserve L) (h : At E P L s)
    (hro : ∀ i, E.asset = .credit i → P (.account i) .readOnly = true) (f : AccountE → Bool) :
    Ends (issuerFlag E f) s (fun b s' => b = flagIn E.asset L f ∧ At E P L s') bad := by
  unfold issuerFlag flagIn
  cases ha : E.asset with
  | native => exact Ends.pure ⟨rfl, h⟩
  | credit i =>
    obtain ⟨v, hv⟩ := Option.ne_none_iff_exists'.mp (hs.issuer i ha)
    obtain ⟨a, rfl⟩ := hs.account hv
    unfold loadAccount
    refine Ends.bind (post := fun b s' => b = a ∧ At E P L s') ?_ ?_
    · refine Ends.bind (getEntry_ends h (hro i ha) hv) ?_
      rintro e s1 ⟨he, h1⟩
      rw [he]
      exact Ends.pure ⟨rfl, h1⟩
    · intro b s1 q
      rw [q.1]
      exact Ends.pure ⟨by simp only [hv, accountIn], q.2⟩

/-- Whether an address is authorized is found out, unless it lacks a trustline. -/
theorem isAuthorized_ends (hs : Sane E.asset E.baseReserve L) (h : At E P L s) {a : Addr}
    (hro : ∀ k ∈ holdingReads E.asset a, P k .readOnly = true) (b13 : NoTrustline E.asset L a → bad 13) :
    Ends (isAuthorized E a) s (fun b s' => b = authorizedToHold E.asset L a ∧ At E P L s' ∧ ¬ NoTrustline E.asset L a) bad := by
  unfold isAuthorized authorizedToHold
  cases a with
  | account id =>
    unfold isAccountAuthorized
    simp only
    cases ha : E.asset with
    | native => exact Ends.pure ⟨rfl, h, fun q => (by obtain ⟨-, i, -, e, -⟩ := q; cases e)⟩
    | credit i =>
      rw [ha] at hro b13
      simp only
      by_cases hi : i = id
      · rw [if_pos hi]; exact Ends.pure ⟨by simp [hi], h, fun q => q.1 (by simp [Issues, hi])⟩
      · rw [if_neg hi]
        refine Ends.bind (readTrustline_ends hs h (hro _ (by simp [holdingReads, holdingKey]))
          (fun e => b13 ⟨fun q => hi (by cases q; rfl), i, id, rfl, rfl, e⟩)) ?_
        rintro t s1 ⟨hv, h1⟩
        refine Ends.pure ⟨by simp [hv, hi], h1, ?_⟩
        rintro ⟨-, j, jd, -, e, e2⟩
        cases e
        rw [hv] at e2
        cases e2
  | contract c =>
    simp only
    have hnt : ¬ NoTrustline E.asset L (.contract c) := by
      rintro ⟨-, j, jd, -, e, -⟩
      cases e
    refine Ends.bind (tryGetData_ends h (hro _ (by simp [holdingReads, holdingKey]))) ?_
    rintro v s1 ⟨rfl, h1⟩
    cases hv : valueOf (L (.balance c)) with
    | none =>
      refine Ends.bind (issuerFlag_ends hs h1 (fun i hi => hro _ (by rw [hi]; simp [holdingReads])) _) ?_
      rintro b s2 ⟨rfl, h2⟩
      refine Ends.pure ⟨?_, h2, hnt⟩
      simp only
      congr 1
      unfold flagIn authRequired flagsOf accountIn
      cases E.asset with
      | native => rfl
      | credit i =>
        simp only
        cases valueOf (L (.account i)) with
        | none => rfl
        | some v => cases v <;> rfl
    | some v =>
      obtain ⟨b, rfl⟩ := hs.balance hv
      exact Ends.pureBind (Ends.pure ⟨rfl, h1, hnt⟩)

theorem writeContractBalance_ends (hr : Running E.li) (h : At E P L s) {c : Nat}
    (hro : P (.balance c) .readOnly = true) (hw : P (.balance c) .readWrite = true) (b : BalanceV) :
    Ends (writeContractBalance E c b) s (fun _ s' => At E P (L.set (.balance c) (some (.balance b, none))) s') bad := by
  unfold writeContractBalance
  refine Ends.bind (putData_ends hr h hro hw _) ?_
  intro _ s1 h1
  have := hr.seq
  have hu : u32Max = 2 ^ 32 - 1 := rfl
  exact extendData_ends hr h1 hro (d := .persistent) rfl (by simp [Ledger.set, valueOf]) (by omega) (by omega)
    (by intro e; cases e)

theorem taken_at {asset : Asset} {a : Addr} {d : Int} {v : SVal} (hv : valueOf (L (holdingKey asset a)) = some v)
    (hi : ¬ Issues asset a) (k : SKey) :
    valueOf (L.set (holdingKey asset a) (some (withAmount (-d) v, none)) k) = valueOf (taken asset L a d k) := by
  unfold Ledger.set taken
  by_cases hk : k = holdingKey asset a
  · subst hk
    rw [if_pos rfl, if_pos ⟨rfl, hi⟩]
    cases hl : L (holdingKey asset a) with
    | none => rw [hl] at hv; cases hv
    | some e => rw [hl] at hv; simp only [valueOf, Option.map_some, Option.some.injEq] at hv ⊢; rw [hv]
  · rw [if_neg hk, if_neg (fun q => hk q.1)]

theorem taken_issuer {asset : Asset} {a : Addr} {d : Int} (hi : Issues asset a) : taken asset L a d = L := by
  funext k
  unfold taken
  rw [if_neg (fun q => q.2 hi)]

theorem taken_none {asset : Asset} {a : Addr} {d : Int} (hv : valueOf (L (holdingKey asset a)) = none) (k : SKey) :
    valueOf (L k) = valueOf (taken asset L a d k) := by
  unfold taken
  split
  · rename_i q
    rw [q.1]
    cases hl : L (holdingKey asset a) with
    | none => rfl
    | some e => rw [hl] at hv; cases hv
  · rfl

/-- An amount is taken from an address, unless there is a reason against it. -/
theorem spendNoCheck_ends (hs : Sane E.asset E.baseReserve L) (hr : Running E.li) (h : At E P L s) {a : Addr} {d : Int}
    (hd : 0 ≤ d) (hro : P (holdingKey E.asset a) .readOnly = true) (hw : P (holdingKey E.asset a) .readWrite = true)
    (hb : ∀ n, CannotTake E.asset E.baseReserve L a d n → bad n) :
    Ends (spendNoCheck E a d) s (fun _ s' => At E P (taken E.asset L a d) s' ∧
      ∀ n, ¬ CannotTake E.asset E.baseReserve L a d n) bad := by
  unfold spendNoCheck
  cases a with
  | account id =>
    simp only
    by_cases hlt : d < 2 ^ 63
    · rw [checked64_is (by omega) hlt]
      refine Ends.liftBind ?_
      unfold transferClassicBalance
      cases ha : E.asset with
      | native =>
        rw [ha] at hro hw hb hs
        have hni : ¬ Issues .native (.account id) := fun e => e
        refine (transferAccount_ends (ha ▸ hs) hr h hro hw ?_ ?_ ?_).mono ?_ (fun _ e => e)
        · exact fun e _ => hb _ (.noAccount ⟨rfl, id, rfl, e⟩)
        · exact fun e hx _ => absurd hx (by omega)
        · intro v hv hor
          have hbd := hs.bounds _ _ hv
          obtain ⟨a, rfl⟩ := hs.account hv
          simp only [inBounds] at hbd
          simp only [amountIn, leastIn, mostIn] at hor
          refine hb _ (.notEnough hni ?_)
          simp only [balanceOf, holding, holdingKey, hv, amountIn, leastIn]
          omega
        · rintro _ s1 ⟨q0, q⟩
          cases hv : valueOf (L (.account id)) with
          | none => exact absurd (q0 hv).1 (by omega)
          | some v =>
            obtain ⟨q1, q2, -⟩ := q v hv
            refine ⟨q1.congr (taken_at (asset := .native) (a := .account id) hv hni), fun n q => ?_⟩
            have hk : holdingKey .native (.account id) = .account id := rfl
            cases q with
            | noAccount q => obtain ⟨-, j, e, e2⟩ := q; cases e; rw [hv] at e2; cases e2
            | noTrustline q => obtain ⟨-, j, -, e, -⟩ := q; cases e
            | tooLarge _ q => omega
            | notEnough _ q => simp only [balanceOf, holding, hk, hv] at q; omega
      | credit i =>
        rw [ha] at hro hw hb hs
        simp only
        by_cases hi : i = id
        · rw [if_pos hi]
          have hiss : Issues (.credit i) (.account id) := by simp [Issues, hi]
          refine Ends.pure ⟨by rw [taken_issuer hiss]; exact h, fun n q => ?_⟩
          cases q with
          | noAccount q => cases q.1
          | noTrustline q => exact q.1 hiss
          | tooLarge _ q => omega
          | notEnough q _ => exact q hiss
        · rw [if_neg hi]
          have hni : ¬ Issues (.credit i) (.account id) := fun e => hi (by cases e; rfl)
          refine (transferTrustline_ends (ha ▸ hs) h hro hw ?_ ?_).mono ?_ (fun _ e => e)
          · exact fun e => hb _ (.noTrustline ⟨hni, i, id, rfl, rfl, e⟩)
          · intro v hv hor
            have hbd := hs.bounds _ _ hv
            obtain ⟨t, rfl⟩ := hs.trust hv
            have := trust_between hbd
            have hai : amountIn (some (.trust t)) = t.balance := rfl
            rw [hai] at hor
            refine hb _ (.notEnough hni ?_)
            have hk : holdingKey (.credit i) (.account id) = .trust id := rfl
            simp only [balanceOf, holding, hk, hv, hai]
            omega
          · rintro _ s1 ⟨v, hv, q1, q2, -⟩
            refine ⟨q1.congr (taken_at (asset := .credit i) (a := .account id) hv hni), fun n q => ?_⟩
            have hk : holdingKey (.credit i) (.account id) = .trust id := rfl
            cases q with
            | noAccount q => cases q.1
            | noTrustline q => obtain ⟨-, j, jd, -, e, e2⟩ := q; cases e; rw [hv] at e2; cases e2
            | tooLarge _ q => omega
            | notEnough _ q => simp only [balanceOf, holding, hk, hv] at q; omega
    · rw [checked64_not (by omega)]
      refine Ends.bind (post := fun _ _ => False) (Ends.liftFail (hb _ (.tooLarge ⟨id, rfl⟩ (by omega)))) ?_
      intro _ _ e; exact e.elim
  | contract c =>
    have hni : ¬ Issues E.asset (.contract c) := by
      unfold Issues; cases E.asset <;> simp
    simp only
    refine Ends.bind (tryGetData_ends h hro) ?_
    rintro v s1 ⟨rfl, h1⟩
    have hk : holdingKey E.asset (.contract c) = .balance c := rfl
    rw [hk] at hro hw
    have hno : leastIn E.baseReserve (valueOf (L (.balance c))) ≤ amountIn (valueOf (L (.balance c))) - d →
        ∀ n, ¬ CannotTake E.asset E.baseReserve L (.contract c) d n := by
      intro hle n q
      cases q with
      | noAccount q => obtain ⟨-, j, e, -⟩ := q; cases e
      | noTrustline q => obtain ⟨-, j, jd, -, e, -⟩ := q; cases e
      | tooLarge q _ => obtain ⟨j, e⟩ := q; cases e
      | notEnough _ q => simp only [balanceOf, holding, hk] at q; omega
    cases hv : valueOf (L (.balance c)) with
    | none =>
      simp only
      split
      · exact Ends.fail (hb _ (.notEnough hni (by simp only [balanceOf, holding, hk, hv, amountIn, leastIn]; omega)))
      · exact Ends.pure ⟨h1.congr (taken_none (by rw [hk]; exact hv)),
          hno (by rw [hv]; simp only [leastIn, amountIn]; omega)⟩
    | some v =>
      obtain ⟨b, rfl⟩ := hs.balance hv
      have hbd := hs.bounds _ _ hv
      simp only [inBounds] at hbd
      simp only [asBalance]
      refine Ends.pureBind ?_
      split
      · exact Ends.fail (hb _ (.notEnough hni (by simp only [balanceOf, holding, hk, hv, amountIn, leastIn]; omega)))
      · rename_i hlt
        rw [checked128_is (by omega) (by omega)]
        refine Ends.liftBind ?_
        refine (writeContractBalance_ends hr h1 hro hw _).mono (fun _ s2 q => ⟨?_, ?_⟩) (fun _ e => e)
        · refine q.congr (fun k => ?_)
          have := taken_at (asset := E.asset) (a := .contract c) (d := d) (by rw [hk]; exact hv) hni k
          rw [hk] at this
          rw [← this]
          simp only [withAmount, Int.sub_eq_add_neg]
        · exact hno (by rw [hv]; simp only [leastIn, amountIn]; omega)

end Soroban.Sac
