import Verif.Lemmas.SacRefusalCalls
/-!
How calls of the asset contract end (C89): allowances, authorizations, trustlines, and the calls themselves.
-/
namespace Soroban.Sac
open Soroban Soroban.Storage Soroban.Auth Soroban.Sac.Spec
open Soroban.Storage.Spec hiding step runProg

variable {E : SEnv} {P : SKey → Access → Bool} {L : Spec.Led} {s : Tok} {bad : Nat → Prop}

/-- The address authorizes the call, and the check of that leaves the entries used here as they are. -/
def Consents (E : SEnv) (P : SKey → Access → Bool) (L : Spec.Led) (a : Addr) : Prop :=
  ∀ st, At E P L { st := st } → ∃ st', E.auth a st = .ok st' ∧ At E P L { st := st' }

theorem requireAuth_ends (h : At E P L s) {a : Addr} (hc : Consents E P L a) :
    Ends (requireAuth E a) s (fun _ s' => At E P L s') bad := by
  obtain ⟨st', h1, h2⟩ := hc s.st ⟨h.ok, h.seen, h.perm⟩
  refine .inl ⟨(), { s with st := st', auths := a :: s.auths }, by unfold requireAuth; rw [h1], ⟨h2.ok, h2.seen, h2.perm⟩⟩

theorem readAllowance_ends (hs : Sane E.asset E.baseReserve L) (h : At E P L s) {f p : Addr}
    (hro : P (.allowance f p) .readOnly = true) :
    Ends (readAllowance E f p) s (fun x s' => x = allowanceOf E.li.seq L f p ∧ At E P L s') bad := by
  unfold readAllowance allowanceOf
  refine Ends.bind (tryGetData_ends h hro) ?_
  intro v s1 q
  obtain ⟨hv1, h1⟩ := q
  cases hv : valueOf (L (.allowance f p)) with
  | none => rw [hv1, hv]; exact Ends.pure ⟨rfl, h1⟩
  | some v =>
    rw [hv1, hv]
    obtain ⟨b, rfl⟩ := hs.allowance hv
    refine Ends.pureBind ?_
    split
    · rename_i hx; exact Ends.pure ⟨by simp only; rw [if_pos hx], h1⟩
    · rename_i hx; exact Ends.pure ⟨by simp only; rw [if_neg hx], h1⟩

/-- Two ledgers that differ in one allowance at most, and what it then is. -/
structure OtherAllowance (L L' : Spec.Led) (f p : Addr) (v : SVal) : Prop where
  rest : ∀ k, k ≠ .allowance f p → valueOf (L' k) = valueOf (L k)
  here : ∀ w, valueOf (L' (.allowance f p)) = some w → valueOf (L (.allowance f p)) = some w ∨ w = v

theorem OtherAllowance.refl (L : Spec.Led) (f p : Addr) (v : SVal) : OtherAllowance L L f p v := ⟨fun _ _ => rfl, fun _ h => .inl h⟩

theorem OtherAllowance.set (L : Spec.Led) (f p : Addr) (v : SVal) :
    OtherAllowance L (L.set (.allowance f p) (some (v, none))) f p v := by
  refine ⟨fun k hk => by unfold Ledger.set; rw [if_neg hk], fun w h => .inr ?_⟩
  unfold Ledger.set at h
  rw [if_pos rfl] at h
  cases h; rfl

theorem writeAllowance_ends (hs : Sane E.asset E.baseReserve L) (hr : Running E.li) (h : At E P L s) {f p : Addr} {d : Int} {lu : Nat}
    (hro : P (.allowance f p) .readOnly = true) (hw : P (.allowance f p) .readWrite = true)
    (b1 : ∀ m, E.li.maxLiveUntil = some m → m < lu → bad 9) (b2 : 0 < d → lu < E.li.seq → bad 9) :
    Ends (writeAllowance E f p d lu) s
      (fun _ s' => (∃ L', At E P L' s' ∧ OtherAllowance L L' f p (.allowance { amount := d, liveUntil := lu })) ∧
        (∀ m, E.li.maxLiveUntil = some m → lu ≤ m) ∧ ¬ (0 < d ∧ lu < E.li.seq)) bad := by
  unfold writeAllowance
  have hm := maxLiveUntil_eq hr
  have hmt := hr.maxTtl
  have hu : u32Max = 2 ^ 32 - 1 := rfl
  generalize hml : E.li.maxLiveUntil = ml at hm
  have hm' : E.li.maxLiveUntil = some (E.li.seq + (E.li.maxTtl - 1)) := hml.trans hm
  subst hm
  simp only
  split
  · rename_i hx; exact Ends.fail (b1 _ hm' hx)
  · rename_i hx
    split
    · rename_i hy; exact Ends.fail (b2 hy.1 hy.2)
    · rename_i hy
      have hmx : ∀ m, E.li.maxLiveUntil = some m → lu ≤ m := by
        intro m e
        rw [hm'] at e
        cases e
        omega
      have hy' : ¬ (0 < d ∧ lu < E.li.seq) := hy
      refine Ends.bind (tryGetData_ends h hro) ?_
      intro v s1 q
      obtain ⟨hv1, h1⟩ := q
      refine Ends.bind (post := fun o s' => s' = s1 ∧ ∀ w, o = some w → w.1 = ⟨d, lu⟩) ?_ ?_
      · unfold nextAllowance
        cases hv : valueOf (L (.allowance f p)) with
        | none =>
          rw [hv1, hv]
          simp only
          split
          · exact Ends.pure ⟨rfl, fun w e => by cases e; rfl⟩
          · exact Ends.pure ⟨rfl, fun w e => by cases e⟩
        | some v =>
          rw [hv1, hv]
          obtain ⟨b, rfl⟩ := hs.allowance hv
          exact Ends.pureBind (Ends.pure ⟨rfl, fun w e => by cases e; rfl⟩)
      · intro o s2 q2
        obtain ⟨hs2, ho⟩ := q2
        rw [hs2]
        cases o with
        | none => exact Ends.pure ⟨⟨L, h1, OtherAllowance.refl _ _ _ _⟩, (fun m e => hmx m (hm'.trans e)), hy'⟩
        | some w =>
          obtain ⟨w1, w2⟩ := w
          have hw1 : w1 = ⟨d, lu⟩ := ho _ rfl
          simp only
          refine Ends.bind (putData_ends hr h1 hro hw _) ?_
          intro _ s3 h3
          rw [hw1] at h3
          have hoa := OtherAllowance.set L f p (.allowance { amount := d, liveUntil := lu })
          split
          · refine (extendData_ends hr h3 hro (d := .temporary) rfl (by simp [Ledger.set, valueOf]) (Nat.le_refl _)
              (by omega) (by intro _; omega)).mono (fun _ _ q => ⟨⟨_, q, hoa⟩, (fun m e => hmx m (hm'.trans e)), hy'⟩) (fun _ e => e)
          · exact Ends.pure ⟨⟨_, h3, hoa⟩, (fun m e => hmx m (hm'.trans e)), hy'⟩

theorem spendAllowance_ends (hs : Sane E.asset E.baseReserve L) (hr : Running E.li) (h : At E P L s) {f p : Addr} {d : Int}
    (hro : P (.allowance f p) .readOnly = true) (hw : P (.allowance f p) .readWrite = true)
    (hb : ∀ n, NotAllowed E.li L f p d n → bad n) :
    Ends (spendAllowance E f p d) s
      (fun _ s' => (∃ L' v, At E P L' s' ∧ OtherAllowance L L' f p (.allowance v) ∧ v.amount < 2 ^ 127) ∧
        ∀ n, ¬ NotAllowed E.li L f p d n) bad := by
  unfold spendAllowance
  refine Ends.bind (readAllowance_ends hs h hro) ?_
  intro al s1 q
  obtain ⟨hal, h1⟩ := q
  split
  · rename_i hlt
    exact Ends.fail (hb _ (.low (by rw [← hal]; exact hlt)))
  · rename_i hge
    split
    · rename_i hpos
      cases hv : valueOf (L (.allowance f p)) with
      | none => unfold allowanceOf at hal; rw [hv] at hal; simp only at hal; omega
      | some v =>
        obtain ⟨b, rfl⟩ := hs.allowance hv
        have hal0 := hal
        have hfit := hs.fits _ _ hv
        simp only [Spec.fits] at hfit
        unfold allowanceOf at hal
        rw [hv] at hal
        simp only at hal
        by_cases hexp : b.liveUntil < E.li.seq
        · rw [if_pos hexp] at hal; omega
        · rw [if_neg hexp] at hal
          rw [checked128_is (by omega) (by omega)]
          refine Ends.liftBind ?_
          unfold writeAllowanceAmount
          refine Ends.bind (getEntry_ends h1 hro hv) ?_
          intro e s2 q2
          obtain ⟨he, h2⟩ := q2
          rw [he]
          refine Ends.pureBind ?_
          refine (writeAllowance_ends hs hr h2 hro hw ?_ ?_).mono ?_ (fun _ e => e)
          · exact fun m hm hlt => hb _ (.tooLong hpos hm (by unfold allowanceEnd; rw [hv]) hlt)
          · exact fun _ hlt => absurd hlt hexp
          · rintro _ s3 ⟨⟨L', q1, q2⟩, q3, -⟩
            refine ⟨⟨L', _, q1, q2, by simp only; omega⟩, fun n e => ?_⟩
            cases e with
            | low e => omega
            | tooLong _ em ee el =>
              unfold allowanceEnd at ee
              rw [hv] at ee
              cases ee
              have := q3 _ em
              omega
    · refine Ends.pure ⟨⟨L, ⟨0, 0⟩, h1, OtherAllowance.refl _ _ _ _, by simp only; omega⟩, fun n e => ?_⟩
      cases e with
      | low e => omega
      | tooLong e _ _ _ => omega

theorem Sane.other {asset : Asset} {r : Nat} (hs : Sane asset r L) {L' : Spec.Led} {f p : Addr} {v : AllowanceV}
    (ho : OtherAllowance L L' f p (.allowance v)) (hv : v.amount < 2 ^ 127) : Sane asset r L' := by
  have key : ∀ k w, valueOf (L' k) = some w → valueOf (L k) = some w ∨ (k = .allowance f p ∧ w = .allowance v) := by
    intro k w hw
    by_cases hk : k = .allowance f p
    · subst hk
      rcases ho.here w hw with h | h
      · exact .inl h
      · exact .inr ⟨rfl, h⟩
    · rw [ho.rest k hk] at hw
      exact .inl hw
  refine ⟨?_, ?_, ?_, ?_⟩
  · intro k w hw
    rcases key k w hw with h | ⟨rfl, rfl⟩
    · exact hs.kinds k w h
    · trivial
  · intro k w hw
    rcases key k w hw with h | ⟨rfl, rfl⟩
    · exact hs.bounds k w h
    · trivial
  · intro k w hw
    rcases key k w hw with h | ⟨rfl, rfl⟩
    · exact hs.fits k w h
    · exact hv
  · intro i hi
    rw [ho.rest _ (by intro e; cases e)]
    exact hs.issuer i hi

/-- Ledgers that agree but for allowances. -/
def SameHoldings (L L' : Spec.Led) : Prop := ∀ k, (∀ f p, k ≠ .allowance f p) → valueOf (L' k) = valueOf (L k)

theorem OtherAllowance.same {L' : Spec.Led} {f p : Addr} {v : SVal} (h : OtherAllowance L L' f p v) : SameHoldings L L' :=
  fun k hk => h.rest k (hk f p)

theorem SameHoldings.symm {L' : Spec.Led} (h : SameHoldings L L') : SameHoldings L' L := fun k hk => (h k hk).symm

theorem holdingKey_ne (asset : Asset) (a f p : Addr) : holdingKey asset a ≠ .allowance f p := by
  unfold holdingKey
  cases a with
  | account id => cases asset <;> (intro e; cases e)
  | contract c => intro e; cases e

section congr
variable {L' : Spec.Led} (h : SameHoldings L L')
include h

theorem SameHoldings.holding (asset : Asset) (a : Addr) : Spec.holding asset L' a = Spec.holding asset L a :=
  h _ (holdingKey_ne asset a)

theorem SameHoldings.balance (asset : Asset) (a : Addr) : Spec.balanceOf asset L' a = Spec.balanceOf asset L a := by
  unfold Spec.balanceOf
  rw [h _ (holdingKey_ne asset a)]

theorem SameHoldings.noTrustline (asset : Asset) (a : Addr) : NoTrustline asset L' a ↔ NoTrustline asset L a := by
  unfold NoTrustline
  have : ∀ id, valueOf (L' (.trust id)) = valueOf (L (.trust id)) := fun id => h _ (fun _ _ e => by cases e)
  simp only [this]

theorem SameHoldings.noAccount (asset : Asset) (a : Addr) : NoAccount asset L' a ↔ NoAccount asset L a := by
  unfold NoAccount
  have : ∀ id, valueOf (L' (.account id)) = valueOf (L (.account id)) := fun id => h _ (fun _ _ e => by cases e)
  simp only [this]

theorem SameHoldings.authorized (asset : Asset) (a : Addr) : authorizedToHold asset L' a = authorizedToHold asset L a := by
  have h1 : ∀ id, valueOf (L' (.account id)) = valueOf (L (.account id)) := fun id => h _ (fun _ _ e => by cases e)
  have h2 : ∀ id, valueOf (L' (.trust id)) = valueOf (L (.trust id)) := fun id => h _ (fun _ _ e => by cases e)
  have h3 : ∀ id, valueOf (L' (.balance id)) = valueOf (L (.balance id)) := fun id => h _ (fun _ _ e => by cases e)
  unfold authorizedToHold authRequired flagsOf
  simp only [h1, h2, h3]

theorem SameHoldings.cannotTake {asset : Asset} {r : Nat} {a : Addr} {d : Int} {n : Nat}
    (q : CannotTake asset r L' a d n) : CannotTake asset r L a d n := by
  cases q with
  | noAccount q => exact .noAccount ((h.noAccount _ _).mp q)
  | noTrustline q => exact .noTrustline ((h.noTrustline _ _).mp q)
  | tooLarge q1 q2 => exact .tooLarge q1 q2
  | notEnough q1 q2 => rw [h.balance, h.holding] at q2; exact .notEnough q1 q2

theorem SameHoldings.cannotPay {asset : Asset} {r : Nat} {a : Addr} {d : Int} {n : Nat}
    (q : CannotPay asset r L' a d n) : CannotPay asset r L a d n := by
  cases q with
  | taking q => exact .taking (h.cannotTake q)
  | unauthorized q => rw [h.authorized] at q; exact .unauthorized q

theorem SameHoldings.cannotReceive {asset : Asset} {r : Nat} {a : Addr} {d : Int} {n : Nat}
    (q : CannotReceive asset r L' a d n) : CannotReceive asset r L a d n := by
  cases q with
  | unauthorized q => rw [h.authorized] at q; exact .unauthorized q
  | noTrustline q => exact .noTrustline ((h.noTrustline _ _).mp q)
  | noAccount q1 q2 => exact .noAccount ((h.noAccount _ _).mp q1) q2
  | lowStart q1 q2 => exact .lowStart ((h.noAccount _ _).mp q1) q2
  | tooLarge q1 q2 => exact .tooLarge q1 q2
  | tooMuch q0 q1 q2 => rw [h.balance, h.holding] at q2; exact .tooMuch q0 q1 q2
  | overflow q1 q2 => rw [h.balance] at q2; exact .overflow q1 q2

theorem SameHoldings.taken (asset : Asset) (a : Addr) (d : Int) :
    SameHoldings (Spec.taken asset L a d) (Spec.taken asset L' a d) := by
  intro k hk
  rw [taken_value, taken_value, h k hk]

end congr

theorem flagIn_revocable (asset : Asset) (L : Spec.Led) (h : flagIn asset L (·.revocable) = false) (i : Nat) (hi : asset = .credit i) :
    (flagsOf L i).2.1 = false := by
  subst hi
  unfold flagIn accountIn at h
  unfold flagsOf
  simp only at h
  cases hv : valueOf (L (.account i)) with
  | none => rfl
  | some v => rw [hv] at h; cases v <;> first | rfl | exact h

theorem flagIn_revocable' (asset : Asset) (L : Spec.Led) (h : ∀ i, asset = .credit i → (flagsOf L i).2.1 = false) :
    flagIn asset L (·.revocable) = false := by
  cases asset with
  | native => rfl
  | credit i =>
    have := h i rfl
    unfold flagsOf at this
    unfold flagIn accountIn
    simp only
    cases hv : valueOf (L (.account i)) with
    | none => rfl
    | some v => rw [hv] at this; cases v <;> first | rfl | exact this

theorem writeAuthorization_ends (hs : Sane E.asset E.baseReserve L) (hr : Running E.li) (h : At E P L s) {a : Addr} {b : Bool}
    (hro : ∀ k ∈ holdingReads E.asset a, P k .readOnly = true) (hw : P (holdingKey E.asset a) .readWrite = true)
    (hb : ∀ n, Refused E.asset E.baseReserve E.li L (.setAuthorized a b) n → bad n) :
    Ends (writeAuthorization E a b) s
      (fun _ _ => ∀ n, ¬ Refused E.asset E.baseReserve E.li L (.setAuthorized a b) n) bad := by
  unfold writeAuthorization
  refine Ends.bind (post := fun x s' => (x = true ∧ (b = true ∨ flagIn E.asset L (·.revocable) = true) ∨
    (x = false ∧ b = false ∧ flagIn E.asset L (·.revocable) = false)) ∧ At E P L s') ?_ ?_
  · unfold mayAuthorize
    cases b with
    | true => exact Ends.pure ⟨.inl ⟨rfl, .inl rfl⟩, h⟩
    | false =>
      refine (issuerFlag_ends hs h (read_issuer hro) _).mono (fun x s' q => ⟨?_, q.2⟩) (fun _ e => e)
      cases x with
      | true => exact .inl ⟨rfl, .inr q.1.symm⟩
      | false => exact .inr ⟨rfl, rfl, q.1.symm⟩
  · intro x s1 q
    obtain ⟨hx, h1⟩ := q
    have hrh := read_holding hro
    have hno : x = true → ¬ (E.asset = .native ∧ IsAccount a) → ¬ Issues E.asset a → ¬ NoTrustline E.asset L a →
        ∀ n, ¬ Refused E.asset E.baseReserve E.li L (.setAuthorized a b) n := by
      intro hx' n1 n2 n3 n q
      cases q with
      | negative q _ => cases q
      | burnNative q _ => cases q
      | burnIssuer q _ => cases q
      | notRevocable q =>
        rcases hx with ⟨-, hx | hx⟩ | ⟨hx, -⟩
        · cases hx
        · have := flagIn_revocable' _ _ q
          rw [this] at hx
          cases hx
        · rw [hx] at hx'; cases hx'
      | setNative q1 q2 => exact n1 ⟨q1, q2⟩
      | setIssuer q => exact n2 q
      | setTrustline q => exact n3 q
    split
    · rename_i hxt
      cases a with
      | account id =>
        simp only
        unfold setAuthorization
        cases ha : E.asset with
        | native => exact Ends.fail (hb _ (.setNative ha ⟨id, rfl⟩))
        | credit i =>
          simp only
          by_cases hi : i = id
          · rw [if_pos hi]
            exact Ends.fail (hb _ (.setIssuer (by rw [ha]; simp [Issues, hi])))
          · rw [if_neg hi]
            rw [ha] at hrh hw
            unfold setTrustlineAuthorization
            refine Ends.bind (readTrustline_ends hs h1 hrh (fun e => hb _ (.setTrustline ⟨?_, i, id, ha, rfl, e⟩))) ?_
            · rw [ha]; exact fun e => hi (by cases e; rfl)
            · rintro t s2 ⟨hv, h2⟩
              have hfin := hno hxt (by rw [ha]; exact fun e => by cases e.1) (by rw [ha]; exact fun e => hi (by cases e; rfl))
                (by rintro ⟨-, j, jd, -, e, e2⟩; cases e; rw [hv] at e2; cases e2)
              split
              · exact Ends.pure (ha ▸ hfin)
              · exact (putClassic_ends h2 rfl hw _).mono (fun _ _ _ => ha ▸ hfin) (fun _ e => e)
      | contract c =>
        have hfin := hno hxt (fun e => by obtain ⟨-, j, e⟩ := e; cases e)
          (by unfold Issues; cases E.asset <;> simp) (by rintro ⟨-, j, jd, -, e, -⟩; cases e)
        simp only
        refine Ends.bind (tryGetData_ends h1 hrh) ?_
        intro v s2 q2
        obtain ⟨hv2, h2⟩ := q2
        cases hv : valueOf (L (.balance c)) with
        | none =>
          rw [hv2, hv]
          refine Ends.bind (issuerFlag_ends hs h2 (read_issuer hro) _) ?_
          intro f s3 q3
          exact (writeContractBalance_ends hr q3.2 hrh hw _).mono (fun _ _ _ => hfin) (fun _ e => e)
        | some v =>
          rw [hv2, hv]
          obtain ⟨b, rfl⟩ := hs.balance hv
          refine Ends.pureBind ?_
          exact (writeContractBalance_ends hr h2 hrh hw _).mono (fun _ _ _ => hfin) (fun _ e => e)
    · rename_i hn
      rcases hx with ⟨hx, -⟩ | ⟨-, rfl, hx⟩
      · exact absurd hx hn
      · exact Ends.fail (hb _ (.notRevocable (fun i hi => flagIn_revocable _ _ hx i hi)))

theorem checkClawbackable_ends (hs : Sane E.asset E.baseReserve L) (h : At E P L s) {a : Addr} {d : Int}
    (hro : ∀ k ∈ holdingReads E.asset a, P k .readOnly = true)
    (hb : ∀ n, Refused E.asset E.baseReserve E.li L (.clawback a d) n → bad n) :
    Ends (checkClawbackable E a) s (fun _ s' => At E P L s' ∧ ¬ (E.asset = .native ∧ IsAccount a) ∧ ¬ Issues E.asset a ∧
      canClawBack (holding E.asset L a) = true) bad := by
  have hrh := read_holding hro
  have hcb := fun e => hb _ (.clawForbidden e)
  unfold holding at hcb
  unfold checkClawbackable
  cases a with
  | account id =>
    simp only
    cases ha : E.asset with
    | native => exact Ends.fail (hb _ (.clawNative ha ⟨id, rfl⟩))
    | credit i =>
      simp only
      by_cases hi : i = id
      · rw [if_pos hi]
        exact Ends.fail (hb _ (.clawIssuer (by rw [ha]; simp [Issues, hi])))
      · rw [if_neg hi]
        rw [ha] at hrh hcb
        refine Ends.bind (readTrustline_ends hs h hrh (fun e => hb _ (.clawTake (.noTrustline ⟨?_, i, id, ha, rfl, e⟩)))) ?_
        · rw [ha]; exact fun e => hi (by cases e; rfl)
        · rintro t s2 ⟨hv, h2⟩
          split
          · rename_i hy
            refine Ends.pure ⟨h2, (fun e => (by cases e.1)), (fun e => hi (by cases e; rfl)), ?_⟩
            unfold holding
            rw [show holdingKey (.credit i) (.account id) = SKey.trust id from rfl, hv]
            exact hy
          · rename_i hn
            refine Ends.fail (hcb ?_)
            rw [show holdingKey (.credit i) (.account id) = SKey.trust id from rfl, hv]
            simpa [canClawBack] using hn
  | contract c =>
    simp only
    refine Ends.bind (tryGetData_ends h hrh) ?_
    intro v s2 q2
    obtain ⟨hv2, h2⟩ := q2
    have hk : holdingKey E.asset (.contract c) = SKey.balance c := rfl
    rw [hk] at hcb
    cases hv : valueOf (L (.balance c)) with
    | none =>
      rw [hv2, hv]
      exact Ends.fail (hcb (by rw [hv]; rfl))
    | some v =>
      rw [hv2, hv]
      obtain ⟨b, rfl⟩ := hs.balance hv
      refine Ends.pureBind ?_
      split
      · rename_i hy
        refine Ends.pure ⟨h2, (by rintro ⟨-, j, e⟩; cases e), (by unfold Issues; cases E.asset <;> simp), ?_⟩
        unfold holding
        rw [hk, hv]
        exact hy
      · rename_i hn
        refine Ends.fail (hcb ?_)
        rw [hv]
        simpa [canClawBack] using hn

theorem createTrustline_ends (hs : Sane E.asset E.baseReserve L) (h : At E P L s) {a : Addr} (hc : Consents E P L a)
    (hro : ∀ k ∈ readKeys E.asset (.trust a), P k .readOnly = true)
    (hw : ∀ k ∈ writeKeys E.asset (.trust a), P k .readWrite = true)
    (hb : ∀ n, Refused E.asset E.baseReserve E.li L (.trust a) n → bad n) :
    Ends (createTrustlineIfNeeded E a) s (fun _ _ => ∀ n, ¬ Refused E.asset E.baseReserve E.li L (.trust a) n) bad := by
  unfold createTrustlineIfNeeded
  cases a with
  | contract c =>
    refine Ends.pure fun n q => ?_
    cases q with
    | negative q _ => cases q
    | burnNative q _ => cases q
    | burnIssuer q _ => cases q
    | trustNative _ q => obtain ⟨j, e⟩ := q; cases e
    | trustIssuer q => revert q; unfold Issues; cases E.asset <;> simp
  | account id =>
    simp only
    cases ha : E.asset with
    | native => exact Ends.fail (hb _ (.trustNative ha ⟨id, rfl⟩))
    | credit i =>
      simp only
      by_cases hi : id = i
      · rw [if_pos hi]
        exact Ends.fail (hb _ (.trustIssuer (by rw [ha]; simp [Issues, hi])))
      · rw [if_neg hi]
        rw [ha] at hro hw
        have r1 : P (.trust id) .readOnly = true := hro _ (by simp [readKeys, holdingReads, holdingKey])
        have r2 : P (.account i) .readOnly = true := hro _ (by simp [readKeys, holdingReads, holdingKey])
        have r3 : P (.account id) .readOnly = true := hro _ (by simp [readKeys, holdingReads, holdingKey])
        have w1 : P (.trust id) .readWrite = true := hw _ (by simp [writeKeys, holdingKey])
        have w2 : P (.account id) .readWrite = true := hw _ (by simp [writeKeys, holdingKey])
        refine Ends.bind (tryGetClassic_ends h r1) ?_
        intro v s1 q
        obtain ⟨hv1, h1⟩ := q
        have hno : (NoTrustline E.asset L (.account id) → ∃ a, accountIn (valueOf (L (.account id))) = some a ∧ a.numSub < 1000 ∧
            minBalance E.baseReserve a + E.baseReserve ≤ a.balance) →
            ∀ n, ¬ Refused E.asset E.baseReserve E.li L (.trust (.account id)) n := by
          intro hx n q
          cases q with
          | negative q _ => cases q
          | burnNative q _ => cases q
          | burnIssuer q _ => cases q
          | trustNative q _ => rw [ha] at q; cases q
          | trustIssuer q => rw [ha] at q; exact hi (by cases q; rfl)
          | trustAccount q q2 => obtain ⟨a, e, -⟩ := hx q; rw [q2] at e; cases e
          | trustFull q q2 q3 => obtain ⟨a, e, e2, -⟩ := hx q; rw [q2] at e; cases e; omega
          | trustReserve q q2 q3 => obtain ⟨a, e, -, e2⟩ := hx q; rw [q2] at e; cases e; omega
        cases hv : valueOf (L (.trust id)) with
        | some v =>
          rw [hv1, hv]
          exact Ends.pure (ha ▸ hno (by rintro ⟨-, j, jd, -, e, e2⟩; cases e; rw [hv] at e2; cases e2))
        | none =>
          rw [hv1, hv]
          have hnt : NoTrustline E.asset L (.account id) :=
            ⟨by rw [ha]; exact fun e => hi (by cases e; rfl), i, id, ha, rfl, hv⟩
          refine Ends.bind (requireAuth_ends h1 hc) ?_
          intro _ s2 h2
          obtain ⟨vi, hvi⟩ := Option.ne_none_iff_exists'.mp (hs.issuer i ha)
          obtain ⟨ai, rfl⟩ := hs.account hvi
          unfold loadAccount
          refine Ends.bind (post := fun b s' => b = ai ∧ At E P L s') ?_ ?_
          · refine Ends.bind (getEntry_ends h2 r2 hvi) ?_
            rintro e s3 ⟨he, h3⟩
            rw [he]
            exact Ends.pure ⟨rfl, h3⟩
          · intro ib s3 q3
            obtain ⟨hib, h3⟩ := q3
            refine Ends.bind (tryGetClassic_ends h3 r3) ?_
            intro va s4 q4
            obtain ⟨hva, h4⟩ := q4
            cases hac : valueOf (L (.account id)) with
            | none => rw [hva, hac]; exact Ends.fail (hb _ (.trustAccount hnt hac))
            | some va' =>
              obtain ⟨a, rfl⟩ := hs.account hac
              rw [hva, hac]
              have hin : accountIn (valueOf (L (.account id))) = some a := by rw [hac]; rfl
              refine Ends.pureBind ?_
              split
              · rename_i hx; exact Ends.fail (hb _ (.trustFull hnt hin hx))
              · rename_i hns
                have hbd := hs.bounds _ _ hac
                have hf := hs.fits _ _ hac
                rw [accountRange_eq hbd hf]
                refine Ends.liftBind ?_
                simp only [inBounds] at hbd
                simp only [Spec.fits] at hf
                rw [checked64_is (by omega) hf.2.2.1]
                refine Ends.liftBind ?_
                split
                · rename_i hx; exact Ends.fail (hb _ (.trustReserve hnt hin hx))
                · rename_i hbal
                  have hfin := hno (fun _ => ⟨a, hin, by omega, by omega⟩)
                  refine Ends.bind (putClassic_ends h4 rfl w1 _) ?_
                  intro _ s5 h5
                  exact (putClassic_ends h5 rfl w2 _).mono (fun _ _ _ => ha ▸ hfin) (fun _ e => e)

theorem readAdministrator_ends (h : At E P L s) (hro : P .inst .readOnly = true) (ha : adminOf L ≠ none) :
    Ends (readAdministrator E) s (fun a s' => adminOf L = some a ∧ At E P L s') bad := by
  unfold adminOf at ha
  cases hv : valueOf (L .inst) with
  | none => rw [hv] at ha; exact absurd rfl ha
  | some v =>
    rw [hv] at ha
    cases v with
    | inst o =>
      cases o with
      | none => exact absurd rfl ha
      | some a =>
        unfold readAdministrator
        refine Ends.bind (getEntry_ends h hro hv) ?_
        rintro e s1 ⟨he, h1⟩
        rw [he]
        exact Ends.pure ⟨by unfold adminOf; rw [hv], h1⟩
    | account _ => exact absurd rfl ha
    | trust _ => exact absurd rfl ha
    | balance _ => exact absurd rfl ha
    | allowance _ => exact absurd rfl ha

theorem readBalance_ends (hs : Sane E.asset E.baseReserve L) (hr : Running E.li) (h : At E P L s) {a : Addr}
    (hro : P (holdingKey E.asset a) .readOnly = true)
    (hb : ∀ n, Refused E.asset E.baseReserve E.li L (.balance a) n → bad n) :
    Ends (readBalance E a) s (fun _ _ => ¬ NoTrustline E.asset L a ∧ ¬ NoAccount E.asset L a) bad := by
  unfold readBalance
  cases a with
  | account id =>
    simp only
    unfold getClassicBalance
    cases ha : E.asset with
    | native =>
      rw [ha] at hro
      unfold getAccountBalance
      refine Ends.bind (tryGetClassic_ends h hro) ?_
      intro v s1 q
      obtain ⟨hv1, h1⟩ := q
      cases hv : valueOf (L (.account id)) with
      | none => rw [hv1, hv]
                exact Ends.fail (hb _ (.balanceAccount ⟨ha, id, rfl, hv⟩))
      | some v =>
        rw [hv1, hv]
        obtain ⟨a, rfl⟩ := hs.account hv
        have hbd := hs.bounds _ _ hv
        have hf := hs.fits _ _ hv
        refine Ends.pureBind ?_
        rw [accountRange_eq hbd hf]
        refine Ends.liftBind ?_
        simp only [inBounds] at hbd
        rw [if_neg (by simp only; omega), if_neg (by simp only; omega)]
        refine Ends.pure ⟨?_, ?_⟩
        · rintro ⟨-, j, jd, e, -⟩; cases e
        · rintro ⟨-, j, e, e2⟩; cases e; rw [hv] at e2; cases e2
    | credit i =>
      rw [ha] at hro
      simp only
      by_cases hi : i = id
      · rw [if_pos hi]
        exact Ends.pure ⟨(fun q => q.1 (by simp [Issues, hi])), (fun q => (by cases q.1))⟩
      · rw [if_neg hi]
        unfold getTrustlineBalance
        refine Ends.bind (readTrustline_ends hs h hro (fun e => hb _ (.balanceTrustline ⟨?_, i, id, ha, rfl, e⟩))) ?_
        · rw [ha]; exact fun e => hi (by cases e; rfl)
        · rintro t s2 ⟨hv, h2⟩
          have hbd := hs.bounds _ _ hv
          have hf := hs.fits _ _ hv
          have htb := trust_between hbd
          rw [trustRange_eq hbd hf]
          refine Ends.liftBind ?_
          rw [if_neg (by simp only; omega), if_neg (by simp only; omega)]
          refine Ends.pure ⟨?_, fun q => by cases q.1⟩
          rintro ⟨-, j, jd, -, e, e2⟩; cases e; rw [hv] at e2; cases e2
  | contract c =>
    have hfin : ¬ NoTrustline E.asset L (.contract c) ∧ ¬ NoAccount E.asset L (.contract c) :=
      ⟨(by rintro ⟨-, j, jd, -, e, -⟩; cases e), (by rintro ⟨-, j, e, -⟩; cases e)⟩
    simp only
    refine Ends.bind (tryGetData_ends h hro) ?_
    intro v s2 q2
    obtain ⟨hv2, h2⟩ := q2
    cases hv : valueOf (L (.balance c)) with
    | none => rw [hv2, hv]; exact Ends.pure hfin
    | some v =>
      rw [hv2, hv]
      obtain ⟨b, rfl⟩ := hs.balance hv
      have := hr.seq
      have hu : u32Max = 2 ^ 32 - 1 := rfl
      have hne : valueOf (L (holdingKey E.asset (.contract c))) ≠ none := by
        show valueOf (L (.balance c)) ≠ none
        rw [hv]; intro e; cases e
      refine Ends.bind (extendData_ends hr h2 hro (d := .persistent) rfl hne (by omega) (by omega)
        (by intro e; cases e)) ?_
      intro _ s3 h3
      exact Ends.pureBind (Ends.pure hfin)

theorem emitTransfer_done (f t : Addr) (d : Int) {Q : Prop} (hq : Q) : Ends (emitTransfer E f t d) s (fun _ _ => Q) bad := by
  unfold emitTransfer
  split
  · exact emit_done _ hq
  · split
    · exact emit_done _ hq
    · split
      · exact emit_done _ hq
      · exact emit_done _ hq

theorem checkNonnegative_ends (h : At E P L s) {d : Int} (b8 : d < 0 → bad 8) :
    Ends (checkNonnegative d) s (fun _ s' => 0 ≤ d ∧ At E P L s') bad := by
  unfold checkNonnegative
  split
  · rename_i hx; exact Ends.fail (b8 hx)
  · rename_i hx; exact Ends.pure ⟨by omega, h⟩

theorem isIssuer_iff (asset : Asset) (a : Addr) : isIssuer asset a = true ↔ Issues asset a := by
  unfold isIssuer Issues
  cases asset <;> simp

theorem checkNotIssuer_ends (h : At E P L s) {a : Addr} (b2 : Issues E.asset a → bad 2) :
    Ends (checkNotIssuer E a) s (fun _ s' => At E P L s' ∧ ¬ Issues E.asset a) bad := by
  unfold checkNotIssuer
  split
  · rename_i hx; exact Ends.fail (b2 ((isIssuer_iff _ _).mp hx))
  · rename_i hx; exact Ends.pure ⟨h, fun e => hx ((isIssuer_iff _ _).mpr e)⟩

theorem checkNonNative_ends (h : At E P L s) (b2 : E.asset = .native → bad 2) :
    Ends (checkNonNative E) s (fun _ s' => At E P L s' ∧ E.asset ≠ .native) bad := by
  unfold checkNonNative
  cases ha : E.asset with
  | native => exact Ends.fail (b2 ha)
  | credit i => exact Ends.pure ⟨h, by intro e; cases e⟩

theorem Ends.done {α β : Type} {x : M α} {g : α → β} {Q : Prop} (h : Ends x s (fun _ _ => Q) bad) :
    Ends (do let a ← x; Pure.pure (g a) : M β) s (fun _ _ => Q) bad :=
  Ends.bind h (fun _ _ q => Ends.pure q)

theorem sane_of_deployed {asset : Asset} {r : Nat} {op : Op} (h : Deployed asset r L op) : Sane asset r L :=
  ⟨h.kinds, h.bounds, h.fits, h.issuer⟩

/-- Every call of the contract returns, or fails with the error that stands for a reason to refuse it. -/
theorem exec_ends (hr : Running E.li) {op : Op} (hd : Deployed E.asset E.baseReserve L op) (h : At E P L s)
    (hro : ∀ k ∈ readKeys E.asset op, P k .readOnly = true) (hw : ∀ k ∈ writeKeys E.asset op, P k .readWrite = true)
    (hc : ∀ a, asked L op = some a → Consents E P L a) :
    Ends (exec E op) s (fun _ _ => ∀ n, ¬ Refused E.asset E.baseReserve E.li L op n) (Refused E.asset E.baseReserve E.li L op) := by
  have hs := sane_of_deployed hd
  have hi : P .inst .readOnly = true := hro _ (by simp [readKeys])
  have bump : ∀ {s : Tok} {bad}, At E P L s → Ends (bumpInstance E) s (fun _ s' => At E P L s') bad :=
    fun h => bumpInstance_ends hr h hi hd.inst
  unfold exec
  cases op with
  | allowance f p =>
    refine Ends.done ?_
    unfold allowance
    refine Ends.bind (bump h) (fun _ s1 h1 => ?_)
    refine (readAllowance_ends hs h1 (hro _ (by simp [readKeys]))).mono (fun _ _ _ n q => ?_) (fun _ e => e)
    cases q with
    | negative q _ => cases q
    | burnNative q _ => cases q
    | burnIssuer q _ => cases q
  | approve f p d lu =>
    refine Ends.done ?_
    unfold approve
    refine Ends.bind (checkNonnegative_ends h (fun e => .negative rfl e)) (fun _ s1 q => ?_)
    refine Ends.bind (requireAuth_ends q.2 (hc f rfl)) (fun _ s2 h2 => ?_)
    refine Ends.bind (bump h2) (fun _ s3 h3 => ?_)
    refine Ends.bind (writeAllowance_ends hs hr h3 (hro _ (by simp [readKeys])) (hw _ (by simp [writeKeys]))
      (fun m hm hl => .tooLong hm hl) (fun h0 hl => .expired h0 hl)) (fun _ s4 q4 => ?_)
    refine emit_done _ (fun n r => ?_)
    have h0 := q.1
    cases r with
    | negative e1 e2 => cases e1; omega
    | burnNative e _ => cases e
    | burnIssuer e _ => cases e
    | expired e1 e2 => exact q4.2.2 ⟨e1, e2⟩
    | tooLong e1 e2 => have := q4.2.1 _ e1; omega
  | balance a =>
    refine Ends.done ?_
    unfold balance
    refine Ends.bind (bump h) (fun _ s1 h1 => ?_)
    refine (readBalance_ends hs hr h1 (hro _ (by simp [readKeys, holdingReads])) (fun _ e => e)).mono (fun _ _ q n r => ?_) (fun _ e => e)
    cases r with
    | negative e _ => cases e
    | burnNative e _ => cases e
    | burnIssuer e _ => cases e
    | balanceTrustline e => exact q.1 e
    | balanceAccount e => exact q.2 e
  | authorized a =>
    refine Ends.done ?_
    unfold authorized
    refine Ends.bind (bump h) (fun _ s1 h1 => ?_)
    refine (isAuthorized_ends hs h1 (fun k hk => hro k (by simp only [readKeys, List.mem_cons]; exact .inr hk))
      (fun e => .authorizedTrustline e)).mono (fun _ _ q n r => ?_) (fun _ e => e)
    cases r with
    | negative e _ => cases e
    | burnNative e _ => cases e
    | burnIssuer e _ => cases e
    | authorizedTrustline e => exact q.2.2 e
  | transfer f t d =>
    refine Ends.done ?_
    unfold transfer
    have rf : ∀ k ∈ holdingReads E.asset f, P k .readOnly = true := fun k hk =>
      hro k (by simp only [readKeys, List.mem_cons, List.mem_append]; exact .inr (.inl hk))
    have rt : ∀ k ∈ holdingReads E.asset t, P k .readOnly = true := fun k hk =>
      hro k (by simp only [readKeys, List.mem_cons, List.mem_append]; exact .inr (.inr hk))
    refine Ends.bind (checkNonnegative_ends h (fun e => .negative rfl e)) (fun _ s1 q => ?_)
    refine Ends.bind (requireAuth_ends q.2 (hc f rfl)) (fun _ s2 h2 => ?_)
    refine Ends.bind (bump h2) (fun _ s3 h3 => ?_)
    refine Ends.bind (spendBalance_ends hs hr h3 q.1 rf (hw _ (by simp [writeKeys])) (fun n e => .pay e)) (fun _ s4 q4 => ?_)
    refine Ends.bind (receiveBalance_ends (hs.taken q.1 (fun n e => q4.2 n (.taking e))) hr q4.1 q.1 rt (hw _ (by simp [writeKeys]))
      (fun n e => .receive e)) (fun _ s5 q5 => ?_)
    refine emitTransfer_done _ _ _ (fun n r => ?_)
    have h0 := q.1
    cases r with
    | negative e1 e2 => cases e1; omega
    | burnNative e _ => cases e
    | burnIssuer e _ => cases e
    | pay e => exact q4.2 _ e
    | receive e => exact q5 _ e
  | transferFrom p f t d =>
    refine Ends.done ?_
    unfold transferFrom
    have rf : ∀ k ∈ holdingReads E.asset f, P k .readOnly = true := fun k hk =>
      hro k (by simp only [readKeys, List.mem_cons, List.mem_append]; exact .inr (.inr (.inl hk)))
    have rt : ∀ k ∈ holdingReads E.asset t, P k .readOnly = true := fun k hk =>
      hro k (by simp only [readKeys, List.mem_cons, List.mem_append]; exact .inr (.inr (.inr hk)))
    refine Ends.bind (checkNonnegative_ends h (fun e => .negative rfl e)) (fun _ s1 q => ?_)
    refine Ends.bind (requireAuth_ends q.2 (hc p rfl)) (fun _ s2 h2 => ?_)
    refine Ends.bind (bump h2) (fun _ s3 h3 => ?_)
    refine Ends.bind (spendAllowance_ends hs hr h3 (hro _ (by simp [readKeys])) (hw _ (by simp [writeKeys]))
      (fun n e => .fromAllowance e)) (fun _ s4 q4 => ?_)
    obtain ⟨⟨L', v, h4, ho, hv⟩, q4⟩ := q4
    have hs' := hs.other ho hv
    refine Ends.bind (spendBalance_ends hs' hr h4 q.1 rf (hw _ (by simp [writeKeys]))
      (fun n e => .fromPay (ho.same.cannotPay e))) (fun _ s5 q5 => ?_)
    refine Ends.bind (receiveBalance_ends (hs'.taken q.1 (fun n e => q5.2 n (.taking e))) hr q5.1 q.1 rt (hw _ (by simp [writeKeys]))
      (fun n e => .fromReceive ((ho.same.taken _ _ _).cannotReceive e))) (fun _ s6 q6 => ?_)
    refine emitTransfer_done _ _ _ (fun n r => ?_)
    have h0 := q.1
    cases r with
    | negative e1 e2 => cases e1; omega
    | burnNative e _ => cases e
    | burnIssuer e _ => cases e
    | fromAllowance e => exact q4 _ e
    | fromPay e => exact q5.2 _ (ho.same.symm.cannotPay e)
    | fromReceive e => exact q6 _ ((ho.same.taken _ _ _).symm.cannotReceive e)
  | burn f d =>
    refine Ends.done ?_
    unfold burn
    have rf : ∀ k ∈ holdingReads E.asset f, P k .readOnly = true := fun k hk =>
      hro k (by simp only [readKeys, List.mem_cons]; exact .inr hk)
    refine Ends.bind (checkNonnegative_ends h (fun e => .negative rfl e)) (fun _ s1 q => ?_)
    refine Ends.bind (checkNonNative_ends q.2 (fun e => .burnNative rfl e)) (fun _ s1 h1 => ?_)
    refine Ends.bind (checkNotIssuer_ends h1.1 (fun e => .burnIssuer rfl e)) (fun _ s1 h1' => ?_)
    refine Ends.bind (requireAuth_ends h1'.1 (hc f rfl)) (fun _ s2 h2 => ?_)
    refine Ends.bind (bump h2) (fun _ s3 h3 => ?_)
    refine Ends.bind (spendBalance_ends hs hr h3 q.1 rf (hw _ (by simp [writeKeys])) (fun n e => .burnPay e)) (fun _ s4 q4 => ?_)
    refine emit_done _ (fun n r => ?_)
    have h0 := q.1
    cases r with
    | negative e1 e2 => cases e1; omega
    | burnNative _ e => exact h1.2 e
    | burnIssuer e1 e2 => cases e1; exact h1'.2 e2
    | burnPay e => exact q4.2 _ e
  | burnFrom p f d =>
    refine Ends.done ?_
    unfold burnFrom
    have rf : ∀ k ∈ holdingReads E.asset f, P k .readOnly = true := fun k hk =>
      hro k (by simp only [readKeys, List.mem_cons]; exact .inr (.inr hk))
    refine Ends.bind (checkNonnegative_ends h (fun e => .negative rfl e)) (fun _ s1 q => ?_)
    refine Ends.bind (checkNonNative_ends q.2 (fun e => .burnNative rfl e)) (fun _ s1 h1 => ?_)
    refine Ends.bind (checkNotIssuer_ends h1.1 (fun e => .burnIssuer rfl e)) (fun _ s1 h1' => ?_)
    refine Ends.bind (requireAuth_ends h1'.1 (hc p rfl)) (fun _ s2 h2 => ?_)
    refine Ends.bind (bump h2) (fun _ s3 h3 => ?_)
    refine Ends.bind (spendAllowance_ends hs hr h3 (hro _ (by simp [readKeys])) (hw _ (by simp [writeKeys]))
      (fun n e => .burnAllowance e)) (fun _ s4 q4 => ?_)
    obtain ⟨⟨L', v, h4, ho, hv⟩, q4⟩ := q4
    refine Ends.bind (spendBalance_ends (hs.other ho hv) hr h4 q.1 rf (hw _ (by simp [writeKeys]))
      (fun n e => .burnFromPay (ho.same.cannotPay e))) (fun _ s5 q5 => ?_)
    refine emit_done _ (fun n r => ?_)
    have h0 := q.1
    cases r with
    | negative e1 e2 => cases e1; omega
    | burnNative _ e => exact h1.2 e
    | burnIssuer e1 e2 => cases e1; exact h1'.2 e2
    | burnAllowance e => exact q4 _ e
    | burnFromPay e => exact q5.2 _ (ho.same.symm.cannotPay e)
  | clawback f d =>
    refine Ends.done ?_
    unfold clawback
    have rf : ∀ k ∈ holdingReads E.asset f, P k .readOnly = true := fun k hk =>
      hro k (by simp only [readKeys, List.mem_cons]; exact .inr hk)
    refine Ends.bind (checkNonnegative_ends h (fun e => .negative rfl e)) (fun _ s1 q => ?_)
    refine Ends.bind (checkClawbackable_ends hs q.2 rf (fun _ e => e)) (fun _ s1 h1 => ?_)
    refine Ends.bind (checkNotIssuer_ends h1.1 (fun e => .clawIssuer e)) (fun _ s1 h1' => ?_)
    refine Ends.bind (readAdministrator_ends h1'.1 hi (hd.admin rfl)) (fun a s2 q2 => ?_)
    refine Ends.bind (requireAuth_ends q2.2 (hc a q2.1)) (fun _ s2 h2 => ?_)
    refine Ends.bind (bump h2) (fun _ s3 h3 => ?_)
    refine Ends.bind (spendNoCheck_ends hs hr h3 q.1 (read_holding rf) (hw _ (by simp [writeKeys]))
      (fun n e => .clawTake e)) (fun _ s4 q4 => ?_)
    refine emit_done _ (fun n r => ?_)
    have h0 := q.1
    cases r with
    | negative e1 e2 => cases e1; omega
    | burnNative e _ => cases e
    | burnIssuer e _ => cases e
    | clawNative e1 e2 => exact h1.2.1 ⟨e1, e2⟩
    | clawIssuer e => exact h1'.2 e
    | clawForbidden e => rw [h1.2.2.2] at e; cases e
    | clawTake e => exact q4.2 _ e
  | setAuthorized a b =>
    refine Ends.done ?_
    unfold setAuthorized
    refine Ends.bind (readAdministrator_ends h hi (hd.admin rfl)) (fun ad s2 q2 => ?_)
    refine Ends.bind (requireAuth_ends q2.2 (hc ad q2.1)) (fun _ s2 h2 => ?_)
    refine Ends.bind (bump h2) (fun _ s3 h3 => ?_)
    refine Ends.bind (writeAuthorization_ends hs hr h3 (fun k hk => hro k (by simp only [readKeys, List.mem_cons]; exact .inr hk))
      (hw _ (by simp [writeKeys])) (fun _ e => e)) (fun _ s4 q4 => ?_)
    exact emit_done _ q4
  | mint t d =>
    refine Ends.done ?_
    unfold mint
    refine Ends.bind (checkNonnegative_ends h (fun e => .negative rfl e)) (fun _ s1 q => ?_)
    refine Ends.bind (checkNotIssuer_ends q.2 (fun e => .mintIssuer e)) (fun _ s1 h1 => ?_)
    refine Ends.bind (readAdministrator_ends h1.1 hi (hd.admin rfl)) (fun a s2 q2 => ?_)
    refine Ends.bind (requireAuth_ends q2.2 (hc a q2.1)) (fun _ s2 h2 => ?_)
    refine Ends.bind (bump h2) (fun _ s3 h3 => ?_)
    refine Ends.bind (receiveBalance_ends hs hr h3 q.1 (fun k hk => hro k (by simp only [readKeys, List.mem_cons]; exact .inr hk))
      (hw _ (by simp [writeKeys])) (fun n e => .mintReceive e)) (fun _ s4 q4 => ?_)
    refine emit_done _ (fun n r => ?_)
    have h0 := q.1
    cases r with
    | negative e1 e2 => cases e1; omega
    | burnNative e _ => cases e
    | burnIssuer e _ => cases e
    | mintIssuer e => exact h1.2 e
    | mintReceive e => exact q4 _ e
  | setAdmin a =>
    refine Ends.done ?_
    unfold setAdmin
    refine Ends.bind (readAdministrator_ends h hi (hd.admin rfl)) (fun ad s2 q2 => ?_)
    refine Ends.bind (requireAuth_ends q2.2 (hc ad q2.1)) (fun _ s2 h2 => ?_)
    refine Ends.bind (bump h2) (fun _ s3 h3 => ?_)
    refine Ends.bind (putData_ends hr h3 hi (hw _ (by simp [writeKeys])) _) (fun _ s4 _ => ?_)
    refine emit_done _ (fun n r => ?_)
    cases r with
    | negative e _ => cases e
    | burnNative e _ => cases e
    | burnIssuer e _ => cases e
  | admin =>
    refine Ends.bind (readAdministrator_ends h hi (hd.admin rfl)) (fun _ _ _ => Ends.pure fun n r => ?_)
    cases r with
    | negative e _ => cases e
    | burnNative e _ => cases e
    | burnIssuer e _ => cases e
  | trust a =>
    refine Ends.done ?_
    unfold trust
    refine Ends.bind (bump h) (fun _ s1 h1 => ?_)
    exact createTrustline_ends hs h1 (hc a rfl) hro hw (fun _ e => e)

end Soroban.Sac
