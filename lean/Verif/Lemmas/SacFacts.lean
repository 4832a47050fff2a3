import Verif.Lemmas.SacSteps
/-!
What the steps of the asset contract do to holdings, authorizations, bounds and allowances.
-/
namespace Soroban.Sac
open Soroban Soroban.Storage Soroban.Storage.Spec Soroban.Auth Soroban.Sac.Spec

theorem holdingKey_inj {asset : Asset} {a b : Addr} : holdingKey asset a = holdingKey asset b ↔ a = b := by
  constructor
  · intro h
    cases asset <;> cases a <;> cases b <;> simp_all [holdingKey]
  · rintro rfl; rfl

theorem holdingKey_ne_allowance (asset : Asset) (a f sp : Addr) : holdingKey asset a ≠ .allowance f sp := by
  cases asset <;> cases a <;> simp [holdingKey]

theorem holdingKey_ne_inst (asset : Asset) (a : Addr) : holdingKey asset a ≠ .inst := by
  cases asset <;> cases a <;> simp [holdingKey]

theorem holdingKey_ne_account (i : Nat) (a : Addr) (id : Nat) : holdingKey (.credit i) a ≠ .account id := by
  cases a <;> simp [holdingKey]

/-- The entry a balance step writes. -/
theorem BalStep.entry {E : SEnv} {L L' : Led} {a : Addr} {d : Int} (h : BalStep E L L' a d) :
    L' = L ∧ (isIssuer E.asset a = true ∨ d = 0) ∨
    ∃ v l, L' = L.set (holdingKey E.asset a) (some (v, l)) ∧
      amountIn (some v) = amountIn (valueOf (L (holdingKey E.asset a))) + d := by
  cases h with
  | issuer ha h => exact .inl ⟨h, .inl (by simp [isIssuer, ha])⟩
  | account ha hv h0 lo hi h =>
    refine .inr ⟨_, _, by simpa [holdingKey, ha] using h, ?_⟩
    simp only [holdingKey, ha, hv, amountIn]
  | newAccount ha hv lo hi h =>
    refine .inr ⟨_, _, by simpa [holdingKey, ha] using h, ?_⟩
    simp only [holdingKey, ha, hv, amountIn, Int.zero_add]
  | trust ha hi hv h0 hb h =>
    refine .inr ⟨_, _, by simpa [holdingKey, ha] using h, ?_⟩
    simp only [holdingKey, ha, hv, amountIn]
  | contract hv hb hi h =>
    refine .inr ⟨_, _, by simpa [holdingKey] using h, ?_⟩
    simp only [holdingKey, hv, amountIn]
  | newContract hv hd hi h =>
    refine .inr ⟨_, _, by simpa [holdingKey] using h, ?_⟩
    simp only [holdingKey, hv, amountIn, Int.zero_add]
  | noContract hv h => exact .inl ⟨h, .inr rfl⟩

theorem BalStep.frame {E : SEnv} {L L' : Led} {a : Addr} {d : Int} (h : BalStep E L L' a d) {k : SKey}
    (hk : k ≠ holdingKey E.asset a) : L' k = L k := by
  rcases h.entry with ⟨rfl, -⟩ | ⟨v, l, rfl, -⟩
  · rfl
  · exact set_ne hk

theorem BalStep.balance {E : SEnv} {L L' : Led} {a : Addr} {d : Int} (h : BalStep E L L' a d) {x : Addr}
    (hx : isIssuer E.asset x = false) : balanceOf E.asset L' x = balanceOf E.asset L x + (if a = x then d else 0) := by
  unfold balanceOf
  by_cases hax : a = x
  · subst hax
    rw [if_pos rfl]
    rcases h.entry with ⟨rfl, hi | rfl⟩ | ⟨v, l, rfl, hv⟩
    · rw [hx] at hi; cases hi
    · omega
    · rw [set_get]; exact hv
  · rw [if_neg hax, h.frame (fun hk => hax (holdingKey_inj.mp hk).symm)]; omega

theorem BalStep.flags {E : SEnv} {L L' : Led} {a : Addr} {d : Int} (h : BalStep E L L' a d) {i : Nat}
    (ha : E.asset = .credit i) (id : Nat) : flagsOf L' id = flagsOf L id := by
  unfold flagsOf
  rw [h.frame (by rw [ha]; exact fun hk => holdingKey_ne_account i a id hk.symm)]

/-- Authorizations to hold depend only on trustlines, balances and issuer flags. -/
theorem authorized_congr {asset : Asset} {L L' : Led} {x : Addr}
    (hv : (∀ i, asset = .credit i → valueOf (L' (holdingKey asset x)) = valueOf (L (holdingKey asset x))) ∧
      (asset = .native → ∀ c, x = .contract c → valueOf (L' (.balance c)) = valueOf (L (.balance c))))
    (hf : ∀ i, asset = .credit i → flagsOf L' i = flagsOf L i) :
    authorizedToHold asset L' x = authorizedToHold asset L x := by
  cases asset with
  | native =>
    cases x with
    | account id => rfl
    | contract c =>
      unfold authorizedToHold authRequired
      simp only [hv.2 rfl c rfl]
  | credit i =>
    have h1 := hv.1 i rfl
    have h2 := hf i rfl
    cases x with
    | account id =>
      unfold holdingKey at h1
      unfold authorizedToHold
      simp only [h1]
    | contract c =>
      unfold holdingKey at h1
      unfold authorizedToHold authRequired
      simp only [h1, h2]

theorem BalStep.authorized {E : SEnv} {L L' : Led} {a : Addr} {d : Int} (h : BalStep E L L' a d)
    (ha : authorizedToHold E.asset L a = true ∨ valueOf (L (holdingKey E.asset a)) ≠ none) (x : Addr) :
    authorizedToHold E.asset L' x = authorizedToHold E.asset L x := by
  by_cases hax : x = a
  · subst hax
    cases h with
    | issuer ha h => rw [h]
    | account hn hv h0 lo hi h => unfold authorizedToHold; simp [hn]
    | newAccount hn hv lo hi h => unfold authorizedToHold; simp [hn]
    | trust hn hi hv h0 hb h =>
      unfold authorizedToHold
      simp only [hn, h, set_get, hv]
      rfl
    | contract hv hb hi h =>
      unfold authorizedToHold
      simp only [h, set_get, hv]
      rfl
    | newContract hv hd hi h =>
      rcases ha with ha | ha
      · rw [ha]
        unfold authorizedToHold
        simp only [h, set_get]
        rfl
      · exact absurd hv ha
    | noContract hv h => rw [h]
  · have hk : holdingKey E.asset x ≠ holdingKey E.asset a := fun hk => hax (holdingKey_inj.mp hk)
    refine authorized_congr ⟨fun _ _ => by rw [h.frame hk], fun hn c hc => ?_⟩ (fun i hi => h.flags hi i)
    subst hc
    rw [h.frame]
    unfold holdingKey at hk ⊢
    exact hk

theorem BalStep.allow {E : SEnv} {L L' : Led} {a : Addr} {d : Int} (h : BalStep E L L' a d) (f sp : Addr) :
    L' (.allowance f sp) = L (.allowance f sp) := h.frame (holdingKey_ne_allowance _ _ _ _).symm

theorem BalStep.inst {E : SEnv} {L L' : Led} {a : Addr} {d : Int} (h : BalStep E L L' a d) : L' .inst = L .inst :=
  h.frame (holdingKey_ne_inst _ _).symm

theorem bounded_set {r : Nat} {L : Led} {k : SKey} {v : SVal} {l : Option Nat} (h : Bounded r L) (hv : inBounds r v) :
    Bounded r (L.set k (some (v, l))) := by
  intro k' v' hk
  unfold Ledger.set at hk
  split at hk
  · cases hk; exact hv
  · exact h k' v' hk

theorem minBalance_balance {r : Nat} {a : AccountE} {x : Int} : minBalance r { a with balance := x } = minBalance r a := rfl
theorem maxBalance_balance {a : AccountE} {x : Int} : maxBalance { a with balance := x } = maxBalance a := rfl

theorem BalStep.bounded {E : SEnv} {L L' : Led} {a : Addr} {d : Int} (h : BalStep E L L' a d) (hb : Bounded E.baseReserve L) :
    Bounded E.baseReserve L' := by
  cases h with
  | issuer ha h => rw [h]; exact hb
  | account hn hv h0 lo hi h =>
    rw [h]
    have := hb _ _ hv
    exact bounded_set hb ⟨this.1, lo, hi⟩
  | newAccount hn hv lo hi h =>
    rw [h]
    refine bounded_set hb ⟨?_, ?_, ?_⟩
    · simp only [minBalance]; omega
    · simp only [minBalance]; omega
    · simp only [maxBalance]; omega
  | trust hn hi hv h0 hbb h =>
    rw [h]
    have := hb _ _ hv
    refine bounded_set hb ?_
    unfold inBounds at this ⊢
    dsimp only at this ⊢
    split at hbb
    · rename_i hl; rw [hl]; exact hbb
    · rename_i x y hl; rw [hl] at this ⊢; exact ⟨this.1, hbb⟩
  | contract hv hbb hi h =>
    rw [h]
    have := hb _ _ hv
    refine bounded_set hb ⟨?_, hi⟩
    have h1 := this.1
    dsimp only
    omega
  | newContract hv hd hi h => rw [h]; exact bounded_set hb ⟨hd, hi⟩
  | noContract hv h => rw [h]; exact hb

/-! ### other contracts -/

theorem Spec.Elsewhere.value {asset : Asset} {r : Nat} {L L' : Led} (h : Elsewhere asset r L L') {k : SKey}
    (hk : ∀ id, k ≠ .account id) : valueOf (L' k) = valueOf (L k) := by
  by_cases hi : k = .inst
  · subst hi; exact h.inst
  · rw [h.own k hk hi]

theorem Spec.Elsewhere.balance {asset : Asset} {r : Nat} {L L' : Led} (h : Elsewhere asset r L L') (x : Addr) :
    balanceOf asset L' x = balanceOf asset L x := by
  unfold balanceOf
  cases asset with
  | credit i => rw [h.value (holdingKey_ne_account i x)]
  | native =>
    cases x with
    | account id => exact h.native rfl id
    | contract c => unfold holdingKey; rw [h.value (fun _ => by simp)]

theorem Spec.Elsewhere.authorized {asset : Asset} {r : Nat} {L L' : Led} (h : Elsewhere asset r L L') (x : Addr) :
    authorizedToHold asset L' x = authorizedToHold asset L x :=
  authorized_congr ⟨fun i hi => by subst hi; rw [h.value (holdingKey_ne_account i x)],
    fun _ c _ => h.value (fun _ => by simp)⟩ (fun i _ => h.flags i)

theorem Spec.Elsewhere.allow {asset : Asset} {r : Nat} {L L' : Led} (h : Elsewhere asset r L L') (f sp : Addr) :
    L' (.allowance f sp) = L (.allowance f sp) := h.own _ (fun _ => by simp) (by simp)

theorem Spec.Elsewhere.admin {asset : Asset} {r : Nat} {L L' : Led} (h : Elsewhere asset r L L') : adminOf L' = adminOf L := by
  unfold adminOf; rw [h.inst]

/-! ### allowances do not touch holdings -/

/-- Only the allowance of one pair changes. -/
def OnlyAllowance (f sp : Addr) (L L' : Led) : Prop :=
  (∀ k, k ≠ .allowance f sp → L' k = L k) ∧ (∀ r, Bounded r L → Bounded r L')

theorem onlyAllowance_refl (f sp : Addr) (L : Led) : OnlyAllowance f sp L L := ⟨fun _ _ => rfl, fun _ h => h⟩

theorem onlyAllowance_set (f sp : Addr) (L : Led) (a : AllowanceV) (l : Option Nat) :
    OnlyAllowance f sp L (L.set (.allowance f sp) (some (.allowance a, l))) :=
  ⟨fun _ hk => set_ne hk, fun _ h => bounded_set h trivial⟩

theorem AllowStep.only {E : SEnv} {L L' : Led} {f sp : Addr} {d : Int} {lu : Nat} (h : AllowStep E L L' f sp d lu) :
    OnlyAllowance f sp L L' := by
  cases h with
  | update hv h => rw [h]; exact onlyAllowance_set ..
  | create hv hp hl h => rw [h]; exact onlyAllowance_set ..
  | skip hv hp h => rw [h]; exact onlyAllowance_refl ..

theorem SpendStep.only {E : SEnv} {L L' : Led} {f sp : Addr} {d : Int} (h : SpendStep E L L' f sp d) :
    OnlyAllowance f sp L L' := by
  cases h with
  | none hd h => rw [h]; exact onlyAllowance_refl ..
  | some hd hv hl h => rw [h]; exact onlyAllowance_set ..

theorem OnlyAllowance.balance {f sp : Addr} {L L' : Led} (h : OnlyAllowance f sp L L') (asset : Asset) (x : Addr) :
    balanceOf asset L' x = balanceOf asset L x := by
  unfold balanceOf; rw [h.1 _ (holdingKey_ne_allowance _ _ _ _)]

theorem OnlyAllowance.authorized {f sp : Addr} {L L' : Led} (h : OnlyAllowance f sp L L') (asset : Asset) (x : Addr) :
    authorizedToHold asset L' x = authorizedToHold asset L x :=
  authorized_congr ⟨fun _ _ => by rw [h.1 _ (holdingKey_ne_allowance _ _ _ _)], fun _ c _ => by rw [h.1 _ (by simp)]⟩
    (fun i _ => by unfold flagsOf; rw [h.1 _ (by simp)])

/-! ### authorizing and trusting -/

theorem AuthzStep.entry {E : SEnv} {L L' : Led} {a : Addr} {b : Bool} (h : AuthzStep E L L' b a) :
    L' = L ∨ ∃ v l, L' = L.set (holdingKey E.asset a) (some (v, l)) ∧
      amountIn (some v) = amountIn (valueOf (L (holdingKey E.asset a))) ∧ (Bounded E.baseReserve L → inBounds E.baseReserve v) ∧
      (∀ i, a = .account i → ∃ j, E.asset = .credit j) := by
  cases h with
  | same ha hi hv hb h => exact .inl h
  | @trust i id t ha hi hv h =>
    refine .inr ⟨.trust { t with authorized := b, maintain := !b }, none, (by rw [ha]; exact h), ?_, fun hb => ?_,
      fun _ _ => ⟨_, ha⟩⟩
    rotate_left
    · have := hb _ _ hv
      unfold inBounds at this ⊢
      exact this
    simp only [holdingKey, ha, hv, amountIn]
  | @balance c b0 l hv h =>
    refine .inr ⟨.balance { b0 with authorized := b }, l, h, ?_, fun hb => ?_, fun _ h => (by cases h)⟩
    rotate_left
    · have := hb _ _ hv
      unfold inBounds at this ⊢
      exact this
    simp only [holdingKey, hv, amountIn]
  | @newBalance c cl l hv h =>
    refine .inr ⟨.balance { amount := 0, authorized := b, clawback := cl }, l, h, ?_, fun hb => ?_, fun _ h => (by cases h)⟩
    rotate_left
    · exact ⟨Int.le_refl 0, (by show (0 : Int) < 2 ^ 127; decide)⟩
    simp only [holdingKey, hv, amountIn]

theorem AuthzStep.frame {E : SEnv} {L L' : Led} {a : Addr} {b : Bool} (h : AuthzStep E L L' b a) {k : SKey}
    (hk : k ≠ holdingKey E.asset a) : L' k = L k := by
  rcases h.entry with rfl | ⟨v, l, rfl, -⟩
  · rfl
  · exact set_ne hk

theorem AuthzStep.bal {E : SEnv} {L L' : Led} {a : Addr} {b : Bool} (h : AuthzStep E L L' b a) (x : Addr) :
    balanceOf E.asset L' x = balanceOf E.asset L x := by
  unfold balanceOf
  by_cases hax : a = x
  · subst hax
    rcases h.entry with rfl | ⟨v, l, rfl, hv, -⟩
    · rfl
    · rw [set_get]; exact hv
  · rw [h.frame (fun hk => hax (holdingKey_inj.mp hk).symm)]

theorem AuthzStep.bounded {E : SEnv} {L L' : Led} {a : Addr} {b : Bool} (h : AuthzStep E L L' b a)
    (hb : Bounded E.baseReserve L) : Bounded E.baseReserve L' := by
  rcases h.entry with rfl | ⟨v, l, rfl, -, hv, -⟩
  · exact hb
  · exact bounded_set hb (hv hb)

theorem AuthzStep.authorized_self {E : SEnv} {L L' : Led} {a : Addr} {b : Bool} (h : AuthzStep E L L' b a) :
    authorizedToHold E.asset L' a = b := by
  cases h with
  | same ha hi hv hb h =>
    subst h
    unfold authorizedToHold
    simp only [ha, hv, hb]
    simp [hi]
  | trust ha hi hv h =>
    unfold authorizedToHold
    simp only [ha, h, set_get]
    simp [hi, valueOf]
  | balance hv h => unfold authorizedToHold; simp only [h, set_get]; rfl
  | newBalance hv h => unfold authorizedToHold; simp only [h, set_get]; rfl

theorem AuthzStep.authorized_other {E : SEnv} {L L' : Led} {a x : Addr} {b : Bool} (h : AuthzStep E L L' b a) (hax : x ≠ a) :
    authorizedToHold E.asset L' x = authorizedToHold E.asset L x := by
  have hk : holdingKey E.asset x ≠ holdingKey E.asset a := fun hk => hax (holdingKey_inj.mp hk)
  refine authorized_congr ⟨fun _ _ => by rw [h.frame hk], fun hn c hc => ?_⟩ (fun i hi => ?_)
  · subst hc
    rw [h.frame]
    unfold holdingKey at hk ⊢
    exact hk
  · unfold flagsOf
    rw [h.frame (by rw [hi]; exact fun hk => holdingKey_ne_account i a i hk.symm)]

theorem TrustStep.balance {E : SEnv} {L L' : Led} {a : Addr} {as : List Addr} (h : TrustStep E L L' a as) (x : Addr) :
    balanceOf E.asset L' x = balanceOf E.asset L x := by
  cases h with
  | contract h => rw [h]
  | exists_ ha hv h => rw [h]
  | @create i id L1 iss a ha hi hv e hiss hacc hsub hbal h =>
    rw [← e.balance x]
    unfold balanceOf
    rw [h, ha, set_ne (holdingKey_ne_account i x id)]
    by_cases hx : holdingKey (.credit i) x = .trust id
    · rw [hx, set_get]
      have : valueOf (L1 (.trust id)) = none := by rw [e.value (fun _ => by simp)]; exact hv
      rw [this]; rfl
    · rw [set_ne hx]

theorem minBalance_succ {r : Nat} {a : AccountE} :
    minBalance r { a with numSub := a.numSub + 1 } = minBalance r a + r := by
  unfold minBalance
  cases a.ext with
  | none =>
    dsimp only
    have : ((2 : Int) + ((a.numSub + 1 : Nat) : Int)) = (2 + (a.numSub : Int)) + 1 := by omega
    rw [this, Int.add_mul]; omega
  | some x =>
    dsimp only
    have : ((2 : Int) + ((a.numSub + 1 : Nat) : Int) + netSponsoring x.sponsor) = (2 + (a.numSub : Int) + netSponsoring x.sponsor) + 1 := by omega
    rw [this, Int.add_mul]; omega

theorem TrustStep.bounded {E : SEnv} {L L' : Led} {a : Addr} {as : List Addr} (h : TrustStep E L L' a as)
    (hb : Bounded E.baseReserve L) : Bounded E.baseReserve L' := by
  cases h with
  | contract h => rw [h]; exact hb
  | exists_ ha hv h => rw [h]; exact hb
  | @create i id L1 iss a ha hi hv e hiss hacc hsub hbal h =>
    have h1 := e.bounds hb
    have ha' := h1 _ _ hacc
    rw [h]
    refine bounded_set (bounded_set h1 ⟨Int.le_refl 0, (by show (0 : Int) ≤ i64Max; decide)⟩) ⟨?_, ?_, ha'.2.2⟩
    · rw [minBalance_succ]; have := ha'.1; omega
    · rw [minBalance_succ]; exact hbal

theorem TrustStep.allow {E : SEnv} {L L' : Led} {a : Addr} {as : List Addr} (h : TrustStep E L L' a as) (f sp : Addr) :
    L' (.allowance f sp) = L (.allowance f sp) := by
  cases h with
  | contract h => rw [h]
  | exists_ ha hv h => rw [h]
  | create ha hi hv e hiss hacc hsub hbal h => rw [h, set_ne (by simp), set_ne (by simp), e.allow]

theorem TrustStep.authorized {E : SEnv} {L L' : Led} {a x : Addr} {as : List Addr} (h : TrustStep E L L' a as) (hx : x ≠ a) :
    authorizedToHold E.asset L' x = authorizedToHold E.asset L x := by
  cases h with
  | contract h => rw [h]
  | exists_ ha hv h => rw [h]
  | @create i id L1 iss a ha hi hv e hiss hacc hsub hbal h =>
    rw [← e.authorized x]
    rw [h]
    have hk : holdingKey (.credit i) x ≠ .trust id := by
      intro hk; cases x with
      | account j => simp [holdingKey] at hk; subst hk; exact hx rfl
      | contract c => simp [holdingKey] at hk
    refine authorized_congr ⟨fun j hj => ?_, fun hn => by rw [ha] at hn; cases hn⟩ (fun j hj => ?_)
    · rw [ha] at hj; cases hj
      rw [ha, set_ne (holdingKey_ne_account i x id), set_ne hk]
    · unfold flagsOf
      by_cases hj' : j = id
      · subst hj'; rw [set_get, hacc]; rfl
      · rw [set_ne (by simpa using hj'), set_ne (by simp)]

theorem Quiet.balance {L L' : Led} (h : Quiet L L') (asset : Asset) (x : Addr) : balanceOf asset L' x = balanceOf asset L x := by
  unfold balanceOf; rw [h.value]

theorem Quiet.authorized {L L' : Led} (h : Quiet L L') (asset : Asset) (x : Addr) :
    authorizedToHold asset L' x = authorizedToHold asset L x :=
  authorized_congr ⟨fun _ _ => h.value _, fun _ _ _ => h.value _⟩ (fun i _ => by unfold flagsOf; rw [h.value])

theorem Quiet.bounded {L L' : Led} {r : Nat} (h : Quiet L L') (hb : Bounded r L) : Bounded r L' := by
  intro k v hk; rw [h.value] at hk; exact hb k v hk

end Soroban.Sac
