import Verif.Props.HostCase
import Verif.Lemmas.HostAuthExact
/-! C92: when `require_auth` succeeds. -/
namespace Soroban.Props
open Soroban Soroban.Auth Soroban.Host Soroban.Host.Spec
open Soroban.Storage (Store Entry)
open Soroban.Storage.Spec (Ledger)

variable {E : HEnv} {st : Store LKey LVal} {orig : List Acct}

/-- While a contract runs, what it has authorized for the frame it is about to call is in its own name. -/
private theorem dead_is_current (h : TxStart E st orig) {s : Host} (hr : Reach E st orig s) {c : Addr} {fn : Name} {rest : List Frame}
    (hst : s.auth.stack = .contract c fn :: rest) : ∀ t ∈ s.auth.invokers, t.live = false → (Frame.contract c fn).contract? = some t.addr := by
  have hs := reach_hok h hr
  intro t ht hl
  have hsc := hs.scope t ht hl
  have hf := hs.frames
  rw [hst] at hf
  have htop : ∀ cs : List Ctx, ∀ l, Frame.contract c fn :: l = cs.filterMap Ctx.frame → (topContract cs).map Addr.contract = some c := by
    intro cs
    induction cs with
    | nil => intro l h; cases h
    | cons x xs ih =>
      intro l h
      cases hx : x.cid with
      | none =>
        have e1 : Ctx.frame x = none := by unfold Ctx.frame; rw [hx]; rfl
        rw [List.filterMap_cons_none e1] at h
        unfold topContract
        rw [List.filterMap_cons_none hx]
        exact ih l h
      | some id =>
        have e1 : Ctx.frame x = some (.contract (.contract id) x.fn) := by unfold Ctx.frame; rw [hx]; rfl
        rw [List.filterMap_cons_some e1] at h
        unfold topContract
        rw [List.filterMap_cons_some hx]
        simp only [List.cons.injEq, Frame.contract.injEq] at h
        simp [h.1.1]
  rw [htop s.ctx _ hf] at hsc
  simpa [Frame.contract?] using hsc

/-- C92: in a contract, `require_auth` succeeds exactly if the address is that of the contract that called it; or a contract below on the
stack is the address and has authorized this call in advance; or the first entry, among those of the address, that has a node which is
next for this call is authentic. -/
theorem C92_exactly (h : TxStart E st orig) {s : Host} (hr : Reach E st orig s) {c : Addr} {fn : Name} {rest : List Frame}
    (hst : s.auth.stack = .contract c fn :: rest) (a : Addr) (args : List Nat) (check : Nat → Prog) :
    (requireAuth E s a args (fun i => run E (check i))).2 = .ok () ↔
      CalledBy s a ∨ ContractGrant s a (.call c fn args) ∨ EntryGrant E orig s a (.call c fn args) (fun i => run E (check i)) := by
  have := requireInternal_iff (reach_hok h hr) hst (dead_is_current h hr hst) a (.call c fn args)
    (run := fun i => run E (check i)) (fun i s1 h1 => run_good (check i) s1 h1)
  rw [← this]
  unfold requireAuth
  rw [hst]
  rfl

/-- C92: the same holds of the authorization of a deployer for the creation of a contract; here the contract that creates it is the one
that called. -/
theorem C92_creation (h : TxStart E st orig) {s : Host} (hr : Reach E st orig s) (x : CreateArgs) (a : Addr) (check : Nat → Prog) :
    let s' : Host := { s with auth := s.auth.push (.create x) }
    (requireAuth E s' a [] (fun i => run E (check i))).2 = .ok () ↔
      CalledBy s' a ∨ ContractGrant s' a (.create x) ∨ EntryGrant E orig s' a (.create x) (fun i => run E (check i)) := by
  intro s'
  have hr' : Reach E st orig s' := .creating hr
  have := requireInternal_iff (reach_hok h hr') (top := .create x) (rest := s.auth.stack) rfl
    (fun t ht hl => by rw [push_live ht] at hl; cases hl) a (.create x)
    (run := fun i => run E (check i)) (fun i s1 h1 => run_good (check i) s1 h1)
  rw [← this]
  rfl

/-- C92: if nobody has authorized the call, it fails, and changes nothing. -/
theorem C92_missing (h : TxStart E st orig) {s : Host} (hr : Reach E st orig s) {c : Addr} {fn : Name} {rest : List Frame}
    (hst : s.auth.stack = .contract c fn :: rest) {a : Addr} {args : List Nat} (check : Nat → Prog) (h1 : ¬ CalledBy s a)
    (h2 : ¬ ContractGrant s a (.call c fn args)) (h3 : ∀ i p, ¬ Candidate orig s a (.call c fn args) i p) :
    requireAuth E s a args (fun i => run E (check i)) = (s, .error (.host .auth .invalidAction)) := by
  have hs := reach_hok h hr
  unfold requireAuth
  rw [hst]
  show requireInternal E s a (.call c fn args) _ = _
  unfold requireInternal
  rcases checkInvoker_exact hs.mwf hst (dead_is_current h hr hst) s rfl a (.call c fn args) with ⟨-, h4⟩ | ⟨h4, -⟩
  · exact absurd h4 (by simp [h1, h2])
  · rw [h4]
    obtain ⟨⟨r, hl⟩, hloop⟩ := acctLoop_chosen hs (by rw [hst]; simp) a (.call c fn args)
    show requireEnforcing E s a (.call c fn args) _ = _
    unfold requireEnforcing
    rw [hl] at hloop ⊢
    cases r with
    | none => rfl
    | some x => exact absurd ((hloop x.1 x.2.1 x.2.2).mp rfl).1.1 (h3 _ _)

/-- C92: the node that was found is recorded as used, by the current frame. -/
theorem C92_records (h : TxStart E st orig) {s s' : Host} (hr : Reach E st orig s) {c : Addr} {fn : Name} {rest : List Frame}
    (hst : s.auth.stack = .contract c fn :: rest) {a : Addr} {args : List Nat} {check : Nat → Prog} (h1 : ¬ CalledBy s a)
    (h2 : ¬ ContractGrant s a (.call c fn args)) (hq : requireAuth E s a args (fun i => run E (check i)) = (s', .ok ())) :
    ∃ i p extra, Chosen orig s a (.call c fn args) i p ∧
      s'.auth.uses = extra ++ { entry := i, path := p, addr := a, fn := .call c fn args, frames := s.auth.ids } :: s.auth.uses := by
  have hs := reach_hok h hr
  unfold requireAuth at hq
  rw [hst] at hq
  change requireInternal E s a (.call c fn args) _ = _ at hq
  unfold requireInternal at hq
  rcases checkInvoker_exact hs.mwf hst (dead_is_current h hr hst) s rfl a (.call c fn args) with ⟨-, h4⟩ | ⟨h4, -⟩
  · exact absurd h4 (by simp [h1, h2])
  · rw [h4] at hq
    change requireEnforcing E s a (.call c fn args) _ = _ at hq
    obtain ⟨⟨r, hl⟩, hloop⟩ := acctLoop_chosen hs (by rw [hst]; simp) a (.call c fn args)
    unfold requireEnforcing at hq
    rw [hl] at hloop hq
    cases r with
    | none => cases hq
    | some x =>
      obtain ⟨i, tr, p⟩ := x
      obtain ⟨hc, t, ht, htr⟩ := (hloop i tr p).mp rfl
      obtain ⟨j, t', e1, e2, hb, ha, hx⟩ := acctLoop_spec hl
      rw [Nat.zero_add] at e1
      subst e1
      rw [ht] at e2
      cases e2
      dsimp only at hq
      rw [ht] at hq
      dsimp only at hq
      have hm := match_hok hs ht hb hx
      rw [ha] at hm
      obtain ⟨extra, he⟩ := verifyEntry_uses hm i t (run := run E (check i)) (fun s1 h1 => run_good (check i) s1 h1)
      refine ⟨i, p, extra, hc, ?_⟩
      have hs' : s'.auth.uses = (verifyEntry E { s with auth := s.auth.recordMatch i tr p a (.call c fn args) } i t (run E (check i))).1.auth.uses :=
        (congrArg (fun r : Host × Res Unit => r.1.auth.uses) hq).symm
      rw [hs', ← he]
      rfl

/-! ### the concrete case -/
section Examples
open HostCase

/-- In contract 2, which contract 1 has called, the node below the root is next for a call with argument 4. -/
private theorem next3 : Candidate [entry] s3 (.account 9) (.call (.contract 2) fnB [4]) 0 [0] := by
  refine ⟨entry, ⟨rfl, rfl, ?_⟩, ?_, fun h => by cases h⟩
  · intro t ht
    have : s3.auth.accts.all (fun t => !t.borrowed) = true := by decide
    have := List.all_eq_true.mp this t (List.mem_of_getElem? ht)
    simpa using this
  · have hu : s3.auth.uses = [{ entry := 0, path := [], addr := .account 9, fn := .call (.contract 1) fnA [], frames := [0] }] := rfl
    have hi : s3.auth.ids = [1, 0] := rfl
    rw [hu, hi]
    refine Offers.below (u := { entry := 0, path := [], addr := .account 9, fn := .call (.contract 1) fnA [], frames := [0] }) (j := 0)
      (n := .mk (.call (.contract 2) fnB [4]) [] false) ⟨by simp, rfl, ⟨[1], rfl⟩, ?_⟩ ?_ rfl rfl ?_ (fun k hk => by omega)
    · intro v hv _ _
      rw [List.mem_singleton.mp hv]
      exact List.suffix_refl _
    · rintro ⟨v, hv, -, hf⟩
      rw [List.mem_singleton.mp hv] at hf
      cases hf
    · rintro ⟨v, hv, -, hf⟩
      rw [List.mem_singleton.mp hv] at hf
      cases hf

/-- C92: so `require_auth` of account 9 succeeds there, as does that of contract 1; that of contract 2 itself does not. -/
example : Reach env HostCase.st [entry] s3 ∧ s3.auth.stack = [.contract (.contract 2) fnB, .contract (.contract 1) fnA] ∧
    Chosen [entry] s3 (.account 9) (.call (.contract 2) fnB [4]) 0 [0] ∧
    EntryGrant env [entry] s3 (.account 9) (.call (.contract 2) fnB [4]) (fun _ => run env (.ret .void)) ∧ CalledBy s3 (.contract 1) ∧
    ¬ CalledBy s3 (.contract 2) := by
  have hc : Chosen [entry] s3 (.account 9) (.call (.contract 2) fnB [4]) 0 [0] := ⟨next3, fun j hj => by omega⟩
  refine ⟨reach3, rfl, hc, ?_, rfl, by intro h; cases h⟩
  exact ⟨0, [0], s3.auth.accts[0]'(by decide), hc, rfl, .before rfl⟩

/-- C92: in contract 1 the entry is not authenticated yet: its account is there, its nonce is not, and can be written. -/
example : Authentic env (matched s1 0 entry [] (.account 9) (.call (.contract 1) fnA [])) 0 entry (run env (.ret .void)) ∧
    entry.verified = false ∧ entry.source = false := by
  refine ⟨.account (id := 9) rfl (fun _ => rfl) rfl rfl rfl ⟨by decide, ⟨_, rfl, by decide⟩, rfl, rfl, fun _ => rfl⟩, rfl, rfl⟩

/-- Contract 1 has authorized a call of contract 2 in its own name, and called contract 2. -/
private def s4 : Host := (run env (.authAs [.mk (.call (.contract 2) fnB [4]) [] false] (.ret .void)) s1).1
private def s5 : Host := (pushContext s4 { cid := some 2, fn := fnB, inst := [], storage := none }).1

/-- C92: contract 1 then has authorized this call, and not the one with another argument. -/
example : Reach env HostCase.st [entry] s5 ∧ ContractGrant s5 (.contract 1) (.call (.contract 2) fnB [4]) ∧
    ¬ ContractGrant s5 (.contract 1) (.call (.contract 2) fnB [5]) := by
  refine ⟨.called (s := s4) (.ran (p := .authAs [.mk (.call (.contract 2) fnB [4]) [] false] (.ret .void)) (v := .void) reach1 rfl)
    (by decide) (by decide) (by decide) (.wasm (ex := .wasm 7) (h := 7) rfl rfl rfl),
    ⟨by decide, (by intro h; cases h), _, List.mem_singleton.mpr rfl, rfl, rfl, [], _, Or.inl ⟨rfl, rfl⟩, rfl, rfl, rfl⟩, ?_⟩
  rintro ⟨-, -, t, ht, -, -, p, n, hp, hn, -, hf⟩
  have ht' : t = s5.auth.invokers[0]'(by decide) := List.mem_singleton.mp ht
  subst ht'
  rcases hp with ⟨rfl, -⟩ | ⟨q, i, rfl, hq⟩
  · cases hn; cases hf
  · cases hq

end Examples

end Soroban.Props
