import Verif.Lemmas.HostRun
/-! The states of a transaction, and facts about calls used by the property theorems. -/
namespace Soroban.Host
open Soroban Soroban.Auth Soroban.Storage Soroban.Storage.Spec
open Soroban.Host.Spec (Fresh TxStart Reach Loads hostFrame NoReentry ReservedOk Fatal Matchable InvokerMatch)

theorem stOk_start {E : HEnv} {st : Store LKey LVal} {orig : List Acct} (h : TxStart E st orig) : StOk E st := by
  obtain ⟨m, hm, rfl⟩ := h.store
  cases hm with
  | enforcing hl =>
    refine ⟨h.keys, trivial, ⟨hl.live, fun _ k hk => hl.cover k ?_⟩⟩
    have hk : allows _ k .readOnly = true := hk
    exact hk
  | recording hs hf => exact ⟨h.keys, ⟨hs, hf⟩, ⟨fun k e he => (by cases he), fun h => (by cases h)⟩⟩

theorem loads_read {E : HEnv} {s s1 : Host} {id : Nat} {inst : FMap Nat Nat} (hs : StOk E s.st) (h : Loads E s id inst s1) :
    OnlyRead E s s1 := by
  cases h with
  | builtin h1 h2 =>
    have r1 := getInstance_read (E := E) hs id; rw [h1] at r1
    rename_i ex _
    have r2 := wasmHash_read (E := E) r1.ok ex; rw [h2] at r2
    exact r1.trans r2
  | wasm h1 h2 h3 =>
    rename_i ex _ _ h
    have r1 := getInstance_read (E := E) hs id; rw [h1] at r1
    have r2 := wasmHash_read (E := E) r1.ok ex; rw [h2] at r2
    have r3 := loadCode_read (E := E) r2.ok h; rw [h3] at r3
    exact (r1.trans r2).trans r3

theorem reach_hok {E : HEnv} {st : Store LKey LVal} {orig : List Acct} (h : TxStart E st orig) {s : Host} (hr : Reach E st orig s) :
    HOk E orig s := by
  induction hr with
  | start => exact entered_hok (stOk_start h) h.auth
  | @ran s s' p v _ hrun ih => have := (run_good p s ih).ok; rw [hrun] at this; exact this
  | @called s s1 id fn inst _ hd hn hfn hl ih =>
    have hrd := loads_read ih.st hl
    have hs1 : HOk E orig s1 := (hrd.only.good ih (.ok ())).ok
    have hc := callOk_new ih.stack hn (fun hr => Or.inr (hfn hr))
    refine push_hok (id := id) hs1 ?_ (by rw [hrd.only.ctx]; exact hd)
    rw [hrd.only.ctx]; exact ⟨rfl, hc.stack, hc.scope⟩
  | @matched s a f root i tr p _ hl ih =>
    obtain ⟨j, t, hij, hj, hb, haddr, hext⟩ := acctLoop_spec hl
    have hij' : i = j := by omega
    subst hij'
    subst haddr
    exact match_hok ih hj hb hext
  | @checking s s1 s2 id inst b _ hd hc hl ih =>
    obtain ⟨hs1, hctx, hok⟩ : HOk E orig s1 ∧ shape s1.ctx = shape s.ctx ∧ CallOk id checkAuthName s1.ctx := by
      rcases hc with ⟨hn, rfl⟩ | ⟨ht, hp⟩
      · exact ⟨ih, rfl, callOk_new ih.stack hn (fun _ => Or.inl rfl)⟩
      · have h1 := persist_only (E := E) ih.st; rw [hp] at h1
        have hctx : s1.ctx = s.ctx := h1.ctx
        have h2 := (persist_good (E := E) ih).ok; rw [hp] at h2
        refine ⟨h2, by rw [hctx], ?_⟩
        rw [hctx]
        exact callOk_top ih.stack ht
    have hrd := loads_read hs1.st hl
    have hs2 : HOk E orig s2 := (hrd.only.good hs1 (.ok ())).ok
    have hlen : s1.ctx.length = s.ctx.length := by have := congrArg List.length hctx; simpa [shape] using this
    refine push_hok (id := id) hs2 ?_ (by rw [hrd.only.ctx, hlen]; exact hd)
    rw [hrd.only.ctx]; exact ⟨rfl, hok.stack, hok.scope⟩
  | @creating s args _ ih => exact authPush_hok ih args
  | @created s s1 id ex _ hc ih => have := ((createWithId_only ih.st id ex).good ih (.ok ())).ok; rw [hc] at this; exact this
  | @examined s s1 id b _ hc ih => have := ((supportsCtor_only ih.st id).good ih (.ok ())).ok; rw [hc] at this; exact this

theorem loads_inst {E : HEnv} {s s1 : Host} {id : Nat} {inst : FMap Nat Nat} (hs : StOk E s.st) (h : Loads E s id inst s1) :
    ∃ ex l, ledger E s.st (.inst id) = some (.inst ex inst, l) := by
  cases h with
  | builtin h1 h2 => obtain ⟨l, hl, hL⟩ := getInstance_val hs h1; exact ⟨_, l, by rw [← hL]; exact hl⟩
  | wasm h1 h2 h3 => obtain ⟨l, hl, hL⟩ := getInstance_val hs h1; exact ⟨_, l, by rw [← hL]; exact hl⟩

/-- Nothing has gone wrong in the states in which code runs. -/
theorem reach_strong {E : HEnv} {st : Store LKey LVal} {orig : List Acct} (h : TxStart E st orig) {s : Host} (hr : Reach E st orig s) :
    HStrong E (ledger E st) s := by
  induction hr with
  | start => exact entered_strong h.auth
  | @ran s s' p v hs hrun ih => have := (run_good p s (reach_hok h hs)).strong ih ⟨v, by rw [hrun]⟩; rw [hrun] at this; exact this
  | @called s s1 id fn inst hs hd hn hfn hl ih =>
    have hok := reach_hok h hs
    have hrd := loads_read hok.st hl
    have hs1 := (hrd.only.good hok (.ok ())).strong ih ⟨(), rfl⟩
    refine push_strong hs1 _ ?_
    obtain ⟨ex, l, hL⟩ := loads_inst hok.st hl
    refine hs1.coh.push rfl (by rw [hrd.ledger]; exact hL) rfl rfl ?_
    rw [hrd.only.ctx, framesOf_nil hn]; trivial
  | @matched s a f root i tr p _ hl ih =>
    obtain ⟨j, t, hij, hj, hb, haddr, hext⟩ := acctLoop_spec hl
    have hij' : i = j := by omega
    subst hij'
    subst haddr
    exact match_strong ih hj
  | @checking s s1 s2 id inst b hs hd hc hl ih =>
    have hok := reach_hok h hs
    obtain ⟨hok1, hst1, hcl⟩ : HOk E orig s1 ∧ HStrong E (ledger E st) s1 ∧
        ∀ ex m l, ledger E s1.st (.inst id) = some (.inst ex m, l) → Clean m (framesOf id s1.ctx) := by
      rcases hc with ⟨hn, rfl⟩ | ⟨ht, hp⟩
      · exact ⟨hok, ih, clean_new hn ih.coh⟩
      · have h1 := persist_only (E := E) hok.st
        have hg := persist_good (E := E) hok
        rw [hp] at h1 hg
        have hst := hg.strong ih ⟨b, rfl⟩
        refine ⟨hg.ok, hst, fun ex m l hL => ?_⟩
        obtain ⟨d, cs, hcs, hid⟩ := hok.stack.top ht
        have := hst.coh
        rw [h1.ctx] at this ⊢
        exact persist_top hok.st hp hcs hid this hL
    have hrd := loads_read hok1.st hl
    have hs2 := (hrd.only.good hok1 (.ok ())).strong hst1 ⟨(), rfl⟩
    refine push_strong hs2 _ ?_
    obtain ⟨ex, l, hL⟩ := loads_inst hok1.st hl
    refine hs2.coh.push rfl (by rw [hrd.ledger]; exact hL) rfl rfl ?_
    rw [hrd.only.ctx]; exact hcl ex inst l hL
  | @creating s args _ ih => exact authPush_strong ih _
  | @created s s1 id ex hs hc ih =>
    have hok := reach_hok h hs
    have := ((createWithId_only hok.st id ex).good hok (.ok ())).strong ih ⟨(), rfl⟩; rw [hc] at this; exact this
  | @examined s s1 id b hs hc ih =>
    have hok := reach_hok h hs
    have := ((supportsCtor_only hok.st id).good hok (.ok ())).strong ih ⟨(), rfl⟩; rw [hc] at this; exact this

/-! ### results of calls -/

theorem escalate_not_err {r : Res RVal} {e : Err} : escalate r ≠ .ok (.err e) := by
  intro h
  unfold escalate at h
  split at h
  · cases h
  · cases h
  · rename_i h1 h2
    subst h
    cases e with
    | contract n => exact h1 n rfl
    | host t c => exact h2 t c rfl

theorem finish_not_err {E : HEnv} {s : Host} {r : Res RVal} {e : Err} (h : r ≠ .ok (.err e)) : (finish E s r).2 ≠ .ok (.err e) := by
  unfold finish
  cases r with
  | error e => exact fun h => by cases h
  | ok v =>
    simp only
    split
    · exact fun h => by cases h
    · exact h
    · split
      · exact fun h => by cases h
      · exact h

theorem withFrame_not_err {E : HEnv} {s : Host} {c : Ctx} {f : Host → Host × Res RVal} {e : Err} :
    (withFrame E s c f).2 ≠ .ok (.err e) := by
  unfold withFrame
  split
  · exact fun h => by cases h
  · simp only
    split
    · exact fun h => by cases h
    · split
      · exact fun h => by cases h
      · exact finish_not_err escalate_not_err

theorem callContractFn_not_err {E : HEnv} {s : Host} {id : Nat} {fn : Name} {f : Host → Host × Res RVal} {e : Err} :
    (callContractFn E s id fn f).2 ≠ .ok (.err e) := by
  unfold callContractFn
  split
  · exact fun h => by cases h
  · split
    · exact fun h => by cases h
    · exact withFrame_not_err
    · split
      · exact fun h => by cases h
      · exact withFrame_not_err

theorem call_not_err {E : HEnv} {s : Host} {id : Nat} {fn : Name} {f : Host → Host × Res RVal} {e : Err} :
    (call E s id fn f).2 ≠ .ok (.err e) := by
  unfold call callN
  split
  · exact fun h => by cases h
  · simp only
    split
    · exact callContractFn_not_err
    · exact fun h => by cases h

theorem fatal_iff (e : Err) : recoverable e = false ↔ Fatal e := by
  cases e with
  | contract n => simp [recoverable, Fatal]
  | host t c => cases t <;> cases c <;> simp [recoverable, Fatal]

theorem stackOk_noReentry {t : List (Option Nat × Name)} (h : StackOk t) : NoReentry t := by
  induction t with
  | nil =>
    intro above id fn below he
    cases above <;> cases he
  | cons f t ih =>
    intro above id fn below he hm
    cases above with
    | nil =>
      cases he
      obtain ⟨_, h2, _⟩ := h
      have := h2 id rfl hm
      exact ⟨this.2, this.1⟩
    | cons a above =>
      cases he
      exact ih h.1 above id fn below rfl hm

theorem stackOk_reserved {t : List (Option Nat × Name)} (h : StackOk t) : ReservedOk t := by
  induction t with
  | nil => intro f hf; cases hf
  | cons f t ih =>
    intro g hg hr
    rcases List.mem_cons.mp hg with rfl | hg
    · exact h.2.2.1 hr
    · exact ih h.1 g hg hr

theorem reentry_isSome {id : Nat} {cs : List Ctx} (h : ∃ c ∈ cs, c.cid = some id) : ∃ n, reentryDistance id cs = some n := by
  cases hd : reentryDistance id cs with
  | none =>
    obtain ⟨c, hc, hi⟩ := h
    exact absurd hi (reentry_none hd c hc)
  | some n => exact ⟨n, rfl⟩

theorem call_loaded {E : HEnv} {s s1 : Host} {id : Nat} {fn : Name} {f : Host → Host × Res RVal} {inst : FMap Nat Nat}
    (hn : ∀ c ∈ s.ctx, c.cid ≠ some id) (hfn : reserved fn = false) (hl : Loads E s id inst s1) :
    call E s id fn f = withFrame E s1 { cid := some id, fn := fn, inst := inst, storage := none } f := by
  have hdist : reentryDistance id s.ctx = none := by
    unfold reentryDistance
    rw [List.idxOf?_eq_none_iff]
    intro hm
    obtain ⟨c, hc, hi⟩ := List.mem_filterMap.mp hm
    exact hn c hc hi
  unfold call callN
  rw [if_neg (by rw [hfn]; simp)]
  simp only [hdist]
  unfold callContractFn
  cases hl with
  | builtin h1 h2 => rw [h1]; simp only [h2]
  | wasm h1 h2 h3 => rw [h1]; simp only [h2, h3]

/-! ### contract authorizations -/

theorem at?_append (q : List Nat) (i : Nat) : ∀ (t node : Inv), t.at? q = some node → t.at? (q ++ [i]) = node.subs[i]? := by
  induction q with
  | nil =>
    intro t node h
    cases h
    simp only [List.nil_append, Inv.at?]
    cases t.subs[i]? <;> rfl
  | cons j q ih =>
    intro t node h
    simp only [List.cons_append, Inv.at?] at h ⊢
    cases hs : t.subs[j]? with
    | none => rw [hs] at h; cases h
    | some s => rw [hs] at h; exact ih s node h

theorem at?_use (p : List Nat) : ∀ (t n : Inv), t.at? p = some n → ∃ n', (t.use p).at? p = some n' ∧ n'.used = true ∧ n'.fn = n.fn := by
  induction p with
  | nil => intro t n h; cases h; cases t with | mk f s u => exact ⟨_, rfl, rfl, rfl⟩
  | cons j q ih =>
    intro t n h
    cases t with
    | mk f subs u =>
      simp only [Inv.at?, Inv.subs, Inv.use] at h ⊢
      cases hs : subs[j]? with
      | none => rw [hs] at h; cases h
      | some s =>
        rw [hs] at h
        obtain ⟨n', h1, h2, h3⟩ := ih s n h
        refine ⟨n', ?_, h2, h3⟩
        simp only [List.getElem?_modify, hs, if_true, Option.map_eq_map, Option.map_some]
        exact h1

theorem extended_some {t tr : Tracker} {f : AuthFn} {ar : Bool} {p : List Nat} (h : Extended t f ar tr (.ok (some p))) :
    Matchable t p ∧ (∃ n, t.root.at? p = some n ∧ n.used = false ∧ n.fn = f) ∧ (∃ n, tr.root.at? p = some n ∧ n.used = true ∧ n.fn = f) ∧
      tr.root = t.root.use p := by
  cases h with
  | root below hs hw hu ha hf =>
    refine ⟨Or.inl ⟨rfl, hw⟩, ⟨t.root, rfl, hu, hf⟩, ?_, rfl⟩
    obtain ⟨n, h1, h2, h3⟩ := at?_use [] t.root t.root rfl
    exact ⟨n, h1, h2, h3.trans hf⟩
  | sub below hs q i node child hw hn hc hu hf =>
    have hat : t.root.at? (q ++ [i]) = some child := by rw [at?_append q i t.root node hn]; exact hc
    refine ⟨Or.inr ⟨q, i, rfl, hw⟩, ⟨child, hat, hu, hf⟩, ?_, rfl⟩
    obtain ⟨n, h1, h2, h3⟩ := at?_use _ t.root child hat
    exact ⟨n, h1, h2, h3.trans hf⟩

theorem invokerLoop_true {cur : Option Addr} {a : Addr} {f : AuthFn} : ∀ {l l' : List Invoker},
    invokerLoop cur a f l = (l', .ok true) → some a ≠ cur ∧ InvokerMatch a f l l'
  | [], l', h => by simp [invokerLoop] at h
  | t :: ts, l', h => by
    unfold invokerLoop at h
    have skip : ∀ {t2 : Invoker} {r : List Invoker × Res Bool}, t2 = t → r = invokerLoop cur a f ts → (t2 :: r.1, r.2) = (l', Except.ok true) →
        some a ≠ cur ∧ InvokerMatch a f (t :: ts) l' := by
      intro t2 r ht hr he
      subst ht
      obtain ⟨ls, rr⟩ := r
      simp only [Prod.mk.injEq] at he
      obtain ⟨rfl, rfl⟩ := he
      obtain ⟨h0, k, t0, t', p, h1, h2, h3, h4⟩ := invokerLoop_true hr.symm
      refine ⟨h0, k + 1, t0, t', p, h1, h2, ?_, h4⟩
      intro j hj
      cases j with
      | zero => rfl
      | succ j => exact h3 j (fun h => hj (by rw [h]))
    split at h
    · exact skip rfl rfl h
    · rename_i hcond
      have hcur : t.addr = a := by by_contra hx; exact hcond (Or.inr hx)
      have he := extend_spec t.tr f true
      split at h
      · cases h
      · rename_i tr p heq
        rw [heq] at he
        cases h
        obtain ⟨h1, h2, _, h4⟩ := extended_some he
        refine ⟨fun hx => hcond (Or.inl (by rw [hcur]; exact hx)), 0, t, _, p, rfl, rfl, ?_, hcur, hcur, h1, h2, h4⟩
        intro j hj
        cases j with
        | zero => exact absurd rfl hj
        | succ j => rfl
      · rename_i tr heq
        rw [heq] at he
        cases he
        exact skip rfl rfl h

end Soroban.Host

namespace Soroban.Host
open Soroban Soroban.Auth Soroban.Storage
theorem init_rollback (orig : List Acct) (st : Store LKey LVal) :
    ∃ m, (Host.init st orig).auth.rollback (Host.init st orig).auth.snapshot = .ok m := by
  have ha : ∀ l : List Acct, ∃ l', rollbackAccts l (l.map (fun a => if a.borrowed then none else
      some { root := a.tr.root.snapshot, verified := a.verified })) = .ok l' := by
    intro l
    induction l with
    | nil => exact ⟨[], rfl⟩
    | cons a l ih =>
      obtain ⟨l', hl⟩ := ih
      simp only [List.map_cons]
      cases hb : a.borrowed with
      | true => simp only [if_true, rollbackAccts, hl]; exact ⟨_, rfl⟩
      | false =>
        simp only [Bool.false_eq_true, if_false, rollbackAccts, hb, hl, Acct.rollback, Tracker.rollback, Inv.rollback_snapshot _ _ rfl]
        split
        · rename_i h; split at h
          · rename_i h2; split at h2 <;> cases h2
          · cases h
        · exact ⟨_, rfl⟩
  obtain ⟨l', hl⟩ := ha orig
  unfold Mgr.rollback
  simp only [Host.init, Mgr.snapshot, List.length_map, ne_eq, not_true_eq_false, if_false, hl]
  exact ⟨_, rfl⟩
end Soroban.Host
