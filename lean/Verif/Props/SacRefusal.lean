import Verif.Lemmas.SacRefusalExec
import Verif.Spec.SacRefusalCall
import Verif.Props.Sac
/-! C89: calls of the asset contract are refused for the documented reasons and for no other. -/
namespace Soroban.Props
open Soroban Soroban.Storage Soroban.Storage.Spec Soroban.Auth Soroban.Sac.Spec
open Soroban.Sac hiding Led SameHoldings

theorem permOf_accessible (st : Store SKey SVal) (k : SKey) (a : Access) :
    permOf st.mode st.footprint k a = true ↔ Accessible st k a := by
  unfold permOf Accessible
  cases st.mode <;> simp

theorem at_of_sameView {c : Call} {st : Store SKey SVal} (h : SameView c st) :
    At c.E (permOf c.st.mode c.st.footprint) c.before { st := st } :=
  ⟨h.store, h.values, fun k a => by
    rw [Bool.eq_iff_iff, permOf_accessible, permOf_accessible]; exact h.access k a⟩

theorem sameView_of_at {c : Call} {st : Store SKey SVal}
    (h : At c.E (permOf c.st.mode c.st.footprint) c.before { st := st }) : SameView c st :=
  ⟨h.ok, h.seen, fun k a => by
    have := h.perm k a
    rw [← permOf_accessible, ← permOf_accessible]
    exact iff_of_eq (congrArg (· = true) this)⟩

theorem able_ends {c : Call} (h : c.Able) :
    Ends (exec c.E c.op) { st := c.st } (fun _ _ => ∀ n, ¬ c.Refused n) c.Refused := by
  refine exec_ends (P := permOf c.st.mode c.st.footprint) h.running h.deployed ⟨h.valid.store, fun _ => rfl, fun _ _ => rfl⟩
    (fun k hk => (permOf_accessible _ _ _).mpr (h.reads k hk)) (fun k hk => (permOf_accessible _ _ _).mpr (h.writes k hk)) ?_
  intro a ha st hst
  obtain ⟨st', h1, h2⟩ := h.consent a ha st (sameView_of_at hst)
  exact ⟨st', h1, at_of_sameView h2⟩

/-- C89: a call that only the rules of the contract can stop succeeds, or fails with the contract error of a reason to refuse
it that holds in the ledger it starts from. -/
theorem C89_decides {c : Call} (h : c.Able) : c.ok ∨ ∃ n, c.ret = .error (.contract n) ∧ c.Refused n := by
  rcases able_ends h with ⟨r, s, hx, -⟩ | ⟨n, hx, hn⟩
  · exact .inl ⟨r, by unfold Call.ret call; rw [hx]⟩
  · exact .inr ⟨n, by unfold Call.ret call; rw [hx], hn⟩

/-- C89: it succeeds exactly when there is no reason to refuse it. -/
theorem C89_exactly {c : Call} (h : c.Able) : c.ok ↔ ∀ n, ¬ c.Refused n := by
  rcases able_ends h with ⟨r, s, hx, hn⟩ | ⟨n, hx, hn⟩
  · exact ⟨fun _ => hn, fun _ => ⟨r, by unfold Call.ret call; rw [hx]⟩⟩
  · refine ⟨fun ⟨r, hr⟩ => ?_, fun q => absurd hn (q n)⟩
    unfold Call.ret call at hr
    rw [hx] at hr
    cases hr

/-- C89: a payment between contracts goes through exactly when the amount is not negative, the payer has it, the sum fits
what the payee can have, and both are authorized. -/
theorem C89_contracts_pay {c : Call} (h : c.Able) {f t : Nat} {d : Int} (hop : c.op = .transfer (.contract f) (.contract t) d)
    (hne : f ≠ t) :
    c.ok ↔ 0 ≤ d ∧ d ≤ balanceOf c.E.asset c.before (.contract f) ∧
      balanceOf c.E.asset c.before (.contract t) + d < 2 ^ 127 ∧
      authorizedToHold c.E.asset c.before (.contract f) = true ∧ authorizedToHold c.E.asset c.before (.contract t) = true := by
  have hni : ∀ x, ¬ Issues c.E.asset (.contract x) := by
    intro x e; unfold Issues at e; split at e <;> cases e
  have hk : ∀ x, holdingKey c.E.asset (.contract x) = .balance x := fun x => rfl
  have hleast : leastIn c.E.baseReserve (holding c.E.asset c.before (.contract f)) = 0 := by
    unfold holding
    rw [hk]
    cases hv : valueOf (c.before (.balance f)) with
    | none => rfl
    | some v => have := h.deployed.kinds _ _ hv; cases v <;> first | rfl | (cases this; done)
  have hb : balanceOf c.E.asset (taken c.E.asset c.before (.contract f) d) (.contract t) =
      balanceOf c.E.asset c.before (.contract t) := by
    unfold balanceOf taken
    rw [hk, hk, if_neg]
    intro e
    exact hne (SKey.balance.inj e.1).symm
  have hau : authorizedToHold c.E.asset (taken c.E.asset c.before (.contract f) d) (.contract t) =
      authorizedToHold c.E.asset c.before (.contract t) := by
    have h1 : taken c.E.asset c.before (.contract f) d (.balance t) = c.before (.balance t) := by
      unfold taken; rw [hk, if_neg]; intro e; exact hne (SKey.balance.inj e.1).symm
    have h2 : ∀ i, taken c.E.asset c.before (.contract f) d (.account i) = c.before (.account i) := by
      intro i; unfold taken; rw [hk, if_neg]; intro e; cases e.1
    unfold authorizedToHold authRequired flagsOf
    simp only [h1, h2]
  rw [C89_exactly h]
  unfold Call.Refused
  rw [hop]
  constructor
  · intro hn
    refine ⟨?_, ?_, ?_, ?_, ?_⟩
    · by_contra hx; exact hn _ (.negative rfl (by omega))
    · by_contra hx; exact hn _ (.pay (.taking (.notEnough (hni _) (by rw [hleast]; omega))))
    · by_contra hx
      refine hn _ (.receive (.overflow (by rintro ⟨_, e⟩; cases e) (by rw [hb]; omega)))
    · by_contra hx; exact hn _ (.pay (.unauthorized (by simpa using hx)))
    · by_contra hx; exact hn _ (.receive (.unauthorized (by rw [hau]; simpa using hx)))
  · rintro ⟨h0, h1, h2, h3, h4⟩ n r
    cases r with
    | negative e1 e2 => cases e1; omega
    | burnNative e _ => cases e
    | burnIssuer e _ => cases e
    | pay e =>
      cases e with
      | unauthorized e => rw [h3] at e; cases e
      | taking e =>
        cases e with
        | noAccount e => obtain ⟨-, _, e, -⟩ := e; cases e
        | noTrustline e => obtain ⟨-, _, _, -, e, -⟩ := e; cases e
        | tooLarge e => obtain ⟨_, e⟩ := e; cases e
        | notEnough _ e => rw [hleast] at e; omega
    | receive e =>
      cases e with
      | unauthorized e => rw [hau, h4] at e; cases e
      | noTrustline e => obtain ⟨-, _, _, -, e, -⟩ := e; cases e
      | noAccount e => obtain ⟨-, _, e, -⟩ := e; cases e
      | lowStart e => obtain ⟨-, _, e, -⟩ := e; cases e
      | tooLarge e => obtain ⟨_, e⟩ := e; cases e
      | tooMuch e => obtain ⟨_, e⟩ := e; cases e
      | overflow _ e => rw [hb] at e; omega

/-! ### a concrete case -/

/-- The ledger of `caseMap`, with a second contract that holds 40. -/
def caseMap8 : FMap SKey (Option (Entry SVal)) := (.balance 8, some (.balance ⟨40, true, false⟩, some 500)) :: caseMap

theorem caseMap8_values {n : Nat} {op : Op} {k : SKey} {v : SVal} (h : valueOf ((caseCall n op caseMap8).before k) = some v) :
    ∃ l, (k, some (v, l)) ∈ caseMap8 := by
  unfold Call.before caseCall absMap at h
  simp only at h
  have hm : (caseSt caseMap8).map = caseMap8 := rfl
  rw [hm] at h
  cases hg : caseMap8.get k with
  | none => rw [hg] at h; cases h
  | some e =>
    rw [hg] at h
    cases e with
    | none => cases h
    | some e => obtain ⟨v', l⟩ := e; cases h; exact ⟨l, mem_of_get hg⟩

theorem caseMap8_fine {n : Nat} {op : Op} {k : SKey} {v : SVal} (h : valueOf ((caseCall n op caseMap8).before k) = some v) :
    kindOk k v ∧ inBounds 10 v ∧ fits 10 v := by
  obtain ⟨l, h⟩ := caseMap8_values h
  simp only [caseMap8, caseMap, List.mem_cons, Prod.mk.injEq, List.not_mem_nil, or_false, Option.some.injEq, reduceCtorEq, and_false] at h
  rcases h with ⟨rfl, rfl, -⟩ | ⟨rfl, rfl, -⟩ | ⟨rfl, rfl, -⟩ | ⟨rfl, rfl, -⟩ | ⟨rfl, rfl, -⟩ | ⟨rfl, rfl, -⟩ | ⟨rfl, rfl, -⟩ <;>
    simp [kindOk, inBounds, fits, minBalance, maxBalance]

/-- Calls on the concrete ledger that only the rules of the contract can stop. -/
theorem caseCall_able (op : Op) (hr : ∀ k ∈ readKeys (.credit 1) op, allows (caseSt caseMap8).footprint k .readOnly = true)
    (hw : ∀ k ∈ writeKeys (.credit 1) op, allows (caseSt caseMap8).footprint k .readWrite = true) : (caseCall 10 op caseMap8).Able where
  valid := caseCall_valid _ _ _ rfl rfl
  running := by exact (⟨by decide, by decide, by decide, by decide⟩ : Running ⟨10, 16, 100, 10000⟩)
  deployed := ⟨fun _ _ h => (caseMap8_fine h).1, fun _ _ h => (caseMap8_fine h).2.1, fun _ _ h => (caseMap8_fine h).2.2,
    (by intro e; cases e), (fun _ => by intro e; cases e), (by intro i e; cases e; intro e; cases e)⟩
  reads := hr
  writes := hw
  consent := fun _ _ st h => ⟨st, rfl, h⟩

example : (caseCall 10 (.transfer (.account 2) (.account 3) 30) caseMap8).Able := caseCall_able _ (by decide) (by decide)
example : (caseCall 10 (.transfer (.account 2) (.account 3) 30) caseMap8).ok := ⟨.unit, rfl⟩
-- Alice has 100, of which 3 are offered for sale.
example : (caseCall 10 (.transfer (.account 2) (.account 3) 98) caseMap8).Able := caseCall_able _ (by decide) (by decide)
example : (caseCall 10 (.transfer (.account 2) (.account 3) 98) caseMap8).ret = .error (.contract 10) := rfl
example : (caseCall 10 (.transfer (.account 2) (.account 3) 98) caseMap8).Refused 10 :=
  .pay (.taking (.notEnough (by decide) (by decide)))
-- Carol is not authorized.
example : (caseCall 10 (.transfer (.account 2) (.account 4) 1) caseMap8).Able := caseCall_able _ (by decide) (by decide)
example : (caseCall 10 (.transfer (.account 2) (.account 4) 1) caseMap8).ret = .error (.contract 11) := rfl
-- Bob has no allowance.
example : (caseCall 10 (.burnFrom (.account 3) (.account 2) 1) caseMap8).Able := caseCall_able _ (by decide) (by decide)
example : (caseCall 10 (.burnFrom (.account 3) (.account 2) 1) caseMap8).ret = .error (.contract 9) := rfl
example : (caseCall 10 (.mint (.contract 7) 5) caseMap8).Able := caseCall_able _ (by decide) (by decide)
example : (caseCall 10 (.mint (.contract 7) 5) caseMap8).ok := ⟨.unit, rfl⟩
example : (caseCall 10 (.transfer (.contract 8) (.contract 7) 40) caseMap8).Able := caseCall_able _ (by decide) (by decide)
example : (caseCall 10 (.transfer (.contract 8) (.contract 7) 40) caseMap8).ok := ⟨.unit, rfl⟩

end Soroban.Props
