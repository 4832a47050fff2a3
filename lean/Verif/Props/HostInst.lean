import Verif.Lemmas.HostView
import Verif.Props.HostEntries
/-!
C49: instance storage behaves as one map per contract, although every frame works on its own copy of it and re-entrant frames of
the same contract exist (`__check_auth`). `instView E s c` is what the code of contract `c` sees, or would see if it was called.
The theorems hold in every state `s` of every transaction (`Reach E st orig s`) and for every code.
-/
namespace Soroban.Props
open Soroban Soroban.Auth Soroban.Host Soroban.Host.Spec
open Soroban.Storage (Store Entry Access Out)
open Soroban.Storage.Spec (Ledger)

section
variable {E : HEnv} {st : Store LKey LVal} {orig : List Acct}

/-- C49: calls. When the code `p` of the called function starts (in state `sp`) every contract has the instance storage it had
when the call was made; and when the call returns every contract has the one it had when that code ended (in state `b`). This is
for `call`, `try_call` and for constructors. -/
theorem C49_call (h : TxStart E st orig) {s s' : Host} (hr : Reach E st orig s) {id : Nat} {fn : Name} {internal : Bool}
    (hfn : internal = true → fn = constructorName) (p : Prog) {v : RVal}
    (hc : callN E s id fn .prohibited internal (run E p) = (s', .ok v)) :
    ∃ sp b w, Reach E st orig sp ∧ topContract sp.ctx = some id ∧ run E p sp = (b, .ok w) ∧ Unchanged E s sp ∧ Unchanged E b s' := by
  unfold callN at hc
  by_cases hres : internal = false ∧ reserved fn = true
  · rw [if_pos hres] at hc; cases hc
  rw [if_neg hres] at hc
  simp only at hc
  cases hd : reentryDistance id s.ctx with
  | some n => rw [hd] at hc; cases hc
  | none =>
    rw [hd] at hc
    simp only at hc
    obtain ⟨s1, inst, hl, hw⟩ := callContractFn_loads hc
    have hok := reach_hok h hr
    have hrd := loads_read hok.st hl
    have hn := reentry_none hd
    have hlim : s.ctx.length < depthLimit := by
      by_contra hx
      unfold withFrame at hw
      rw [hrd.only.ctx, if_pos (by omega)] at hw; cases hw
    have hsp : Reach E st orig (pushContext s1 { cid := some id, fn := fn, inst := inst, storage := none }).1 :=
      .called hr hlim hn (fun hx => by
        cases hi : internal with
        | true => exact hfn hi
        | false => exact absurd ⟨hi, hx⟩ hres) hl
    have hg := run_good (E := E) p _ (reach_hok h hsp)
    have hne : (run E p (pushContext s1 { cid := some id, fn := fn, inst := inst, storage := none }).1).1.ctx ≠ [] := by
      intro hx
      have := hg.le.ctx.same.length_eq
      rw [hx] at this; cases this
    obtain ⟨_, ⟨w, hw2⟩, hun⟩ := withFrame_view hw hg.ok.st (fun hv => (hg.strong (reach_strong h hsp) hv).coh) hne
    refine ⟨_, _, w, hsp, rfl, Prod.ext rfl hw2, unchangedTrans hrd.only.unchanged ?_, hun⟩
    obtain ⟨ex, l, hL⟩ := loads_inst hok.st hl
    refine push_view rfl (by rw [hrd.ledger]; exact hL) rfl rfl ?_
    rw [hrd.only.ctx, framesOf_nil hn]; trivial

/-- C49: the same for the `__check_auth` of account contracts, which is run by the host and may be that of the running contract:
what the running contract has changed so far is what its `__check_auth` sees, and what `__check_auth` changes is what the
running contract sees afterwards. -/
theorem C49_check_auth (h : TxStart E st orig) {s s' : Host} (hr : Reach E st orig s) {id : Nat} (p : Prog) {v : RVal}
    (hc : callN E s id checkAuthName .selfAllowed true (run E p) = (s', .ok v)) :
    ∃ sp b w, Reach E st orig sp ∧ topContract sp.ctx = some id ∧ run E p sp = (b, .ok w) ∧ Unchanged E s sp ∧ Unchanged E b s' := by
  have hok := reach_hok h hr
  have hst := reach_strong h hr
  -- the state in which the contract is looked up
  obtain ⟨s1, hc1, hor, hok1, hun1, hctx1, hcl⟩ : ∃ s1, callContractFn E s1 id checkAuthName (run E p) = (s', .ok v) ∧
      (∃ b, (∀ c ∈ s.ctx, c.cid ≠ some id) ∧ s1 = s ∨ (s.ctx.filterMap Ctx.cid).head? = some id ∧ persist E s = (s1, .ok b)) ∧
      HOk E orig s1 ∧ Unchanged E s s1 ∧ s1.ctx = s.ctx ∧
      ∀ ex m l, ledger E s1.st (.inst id) = some (.inst ex m, l) → Clean m (framesOf id s1.ctx) := by
    unfold callN at hc
    rw [if_neg (by simp)] at hc
    simp only at hc
    cases hd : reentryDistance id s.ctx with
    | none =>
      rw [hd] at hc
      have hn := reentry_none hd
      exact ⟨s, hc, ⟨true, Or.inl ⟨hn, rfl⟩⟩, hok, unchangedRefl E s, rfl, clean_new hn hst.coh⟩
    | some n =>
      rw [hd] at hc
      cases n with
      | succ n => cases hc
      | zero =>
        simp only at hc
        rcases hp : persist E s with ⟨s1, r1⟩
        rw [hp] at hc
        cases r1 with
        | error e => cases hc
        | ok b =>
          have h1 := persist_only (E := E) hok.st
          have hg := persist_good (E := E) hok
          rw [hp] at h1 hg
          have ht := reentry_zero hd
          refine ⟨s1, hc, ⟨b, Or.inr ⟨ht, rfl⟩⟩, hg.ok, persist_view hok.st hp, h1.ctx, fun ex m l hL => ?_⟩
          obtain ⟨d, cs, hcs, hid⟩ := hok.stack.top ht
          have := (hg.strong hst ⟨b, rfl⟩).coh
          rw [h1.ctx] at this
          rw [show s1.ctx = s.ctx from h1.ctx]
          exact persist_top hok.st hp hcs hid this hL
  obtain ⟨s2, inst, hl, hw⟩ := callContractFn_loads hc1
  have hrd := loads_read hok1.st hl
  have hlim : s.ctx.length < depthLimit := by
    by_contra hx
    unfold withFrame at hw
    rw [hrd.only.ctx, hctx1, if_pos (by omega)] at hw; cases hw
  obtain ⟨b, hor⟩ := hor
  have hsp : Reach E st orig (pushContext s2 { cid := some id, fn := checkAuthName, inst := inst, storage := none }).1 :=
    .checking hr hlim hor hl
  have hg := run_good (E := E) p _ (reach_hok h hsp)
  have hne : (run E p (pushContext s2 { cid := some id, fn := checkAuthName, inst := inst, storage := none }).1).1.ctx ≠ [] := by
    intro hx
    have := hg.le.ctx.same.length_eq
    rw [hx] at this; cases this
  obtain ⟨_, ⟨w, hw2⟩, hun⟩ := withFrame_view hw hg.ok.st (fun hv => (hg.strong (reach_strong h hsp) hv).coh) hne
  refine ⟨_, _, w, hsp, rfl, Prod.ext rfl hw2, unchangedTrans hun1 (unchangedTrans hrd.only.unchanged ?_), hun⟩
  obtain ⟨ex, l, hL⟩ := loads_inst hok1.st hl
  refine push_view rfl (by rw [hrd.ledger]; exact hL) rfl rfl ?_
  rw [hrd.only.ctx]; exact hcl ex inst l hL

/-- C49: after a failed call every contract has the instance storage it had before. -/
theorem C49_failed_call (h : TxStart E st orig) {s s' : Host} (hr : Reach E st orig s) {id : Nat} {fn : Name} (p : Prog) {e : Err}
    (hc : call E s id fn (run E p) = (s', .error e)) (c : Nat) : instView E s' c = instView E s c := by
  have hok := reach_hok h hr
  have h1 := (callN_prohibited hok (id := id) (fn := fn) (internal := false) (fun h => by cases h) (run_good (E := E) p)).failed e (by
    show (call E s id fn (run E p)).2 = _; rw [hc])
  have h2 := callN_ctx hok (id := id) (fn := fn) (internal := false) (fun h => by cases h) (run_good (E := E) p)
  have hc' : callN E s id fn .prohibited false (run E p) = (s', .error e) := hc
  rw [hc'] at h1 h2
  rw [instView_eq, instView_eq, h1.ledger, h2]

theorem C49_failed_try_call (h : TxStart E st orig) {s s' : Host} (hr : Reach E st orig s) {id : Nat} {fn : Name} (p : Prog) {e : Err}
    (hc : tryCall E s id fn (run E p) = (s', .ok (.err e))) (c : Nat) : instView E s' c = instView E s c := by
  unfold tryCall at hc
  rcases hx : callN E s id fn .prohibited false (run E p) with ⟨s1, r⟩
  rw [hx] at hc
  simp only [Prod.mk.injEq] at hc
  obtain ⟨rfl, hres⟩ := hc
  cases r with
  | ok v =>
    have hv : v = .err e := by cases hres; rfl
    subst hv
    exact absurd (congrArg Prod.snd hx) call_not_err
  | error e' => exact C49_failed_call h hr p (show call E s id fn (run E p) = (s1, .error e') from hx) c

/-- What instance storage functions do to a map, and what they return. -/
def InstSpec (m : FMap Nat Nat) : InstOp → FMap Nat Nat → Res (Out LVal) → Prop
  | .get k, m', r => m' = m ∧ r = (match m.get k with | some v => .ok (.entry (.data v, none)) | none => .error (.host .storage .missingValue))
  | .has k, m', r => m' = m ∧ r = .ok (.bool (m.get k).isSome)
  | .put k v, m', r => (∀ k', m'.get k' = if k' = k then some v else m.get k') ∧ r = .ok .unit
  | .del k, m', r => (∀ k', m'.get k' = if k' = k then none else m.get k') ∧ r = .ok .unit

theorem get_removeKey (m : FMap Nat Nat) (k k' : Nat) : (removeKey m k).get k' = if k' = k then none else m.get k' := by
  unfold removeKey
  induction m with
  | nil => split <;> rfl
  | cons x m ih =>
    obtain ⟨a, v⟩ := x
    by_cases ha : a = k
    · rw [List.filter_cons_of_neg (by simpa using ha), ih]
      by_cases hk : k' = k
      · rw [if_pos hk, if_pos hk]
      · rw [if_neg hk, if_neg hk]
        rw [FMap.get, if_neg (by omega)]
    · rw [List.filter_cons_of_pos (by simpa using ha)]
      rw [FMap.get, FMap.get]
      by_cases hak : a = k'
      · rw [if_pos hak, if_pos hak, if_neg (by omega)]
      · rw [if_neg hak, if_neg hak]; exact ih

/-- C49: the instance storage functions work on the storage of the running contract, and leave those of the others as they are. -/
theorem C49_ops (h : TxStart E st orig) {s : Host} (hr : Reach E st orig s) {id : Nat} (ht : topContract s.ctx = some id) (o : InstOp) :
    ∃ m m', instView E s id = some m ∧ instView E (instOp s o).1 id = some m' ∧ InstSpec m o m' (instOp s o).2 ∧
      ∀ c, c ≠ id → instView E (instOp s o).1 c = instView E s c := by
  obtain ⟨d, cs, hcs, hid⟩ := (reach_hok h hr).stack.top ht
  have hload : ∃ b, d.load = .ok (Spec.Ctx.contents d, b) := by
    unfold Ctx.load Spec.Ctx.contents
    cases hs : d.storage with
    | some x => exact ⟨x.2, rfl⟩
    | none => rw [hid]; exact ⟨false, rfl⟩
  obtain ⟨b, hload⟩ := hload
  have hop : instOp s o = ({ s with ctx := { d with storage := some (instStep (Spec.Ctx.contents d, b) o).1 } :: cs }, (instStep (Spec.Ctx.contents d, b) o).2) := by
    unfold instOp; rw [hcs]; simp only [hload]
  refine ⟨Spec.Ctx.contents d, (instStep (Spec.Ctx.contents d, b) o).1.1, ?_, ?_, ?_, fun c hc => ?_⟩
  · rw [instView_eq, hcs]; exact viewOf_top hid
  · rw [hop, instView_eq]; exact viewOf_top (by exact hid)
  · rw [hop]
    cases o with
    | get k => exact ⟨rfl, rfl⟩
    | has k => exact ⟨rfl, rfl⟩
    | put k v => exact ⟨fun k' => FMap.get_insert _ k k' v, rfl⟩
    | del k => exact ⟨fun k' => get_removeKey _ k k', rfl⟩
  · rw [hop, instView_eq, instView_eq, hcs]
    have h1 : d.cid ≠ some c := by rw [hid]; intro h; cases h; exact hc rfl
    unfold viewOf
    rw [framesOf_cons_ne h1, framesOf_cons_ne (by exact h1)]

/-- C49: other storage functions, events, uploads and upgrades leave all instance storage as it is. -/
theorem C49_data (h : TxStart E st orig) {s : Host} (hr : Reach E st orig s) {id : Nat} (ht : topContract s.ctx = some id) (o : DataOp) :
    Unchanged E s (dataOp E s id o).1 :=
  (dataOp_only (reach_hok h hr).st id ht o).unchanged

theorem C49_upload (h : TxStart E st orig) {s : Host} (hr : Reach E st orig s) (c w : Nat) : Unchanged E s (uploadWasm E s c w).1 :=
  (uploadWasm_only (reach_hok h hr).st c w).unchanged

theorem C49_event (s : Host) (e : Ev) : Unchanged E s (recordEvent s e) := fun _ _ h => h

theorem C49_upgrade (h : TxStart E st orig) {s : Host} (hr : Reach E st orig s) (ex : Exec) :
    Unchanged E s (updateExec E s ex).1 := by
  have hok := reach_hok h hr
  have h1 := verifyExec_only (E := E) hok.st ex
  have hv := fun s' => verifyExec_ok (E := E) (s' := s') hok.st (ex := ex)
  unfold updateExec
  generalize verifyExec E s ex = c at h1 hv
  obtain ⟨s1, r⟩ := c
  cases r with
  | error e => exact h1.unchanged
  | ok u =>
    simp only
    split
    · exact h1.unchanged
    · rename_i id hid
      have h2 := getInstance_only (E := E) h1.ok id
      generalize getInstance E s1 id = c at h2
      obtain ⟨s2, r⟩ := c
      cases r with
      | error e => exact (h1.trans h2).unchanged
      | ok u =>
        simp only
        have h3 := storeInstance_exec (E := E) (s := recordEvent s2 ⟨id, .updated u.1 ex⟩) h2.ok (some ex) id (by
          show topContract s2.ctx = some id
          rw [show s2.ctx = s1.ctx from h2.ctx]; exact top_of_current hid)
          (fun x hx => by cases hx; exact (hv s1 rfl).mono h2.st.ledger.lasting)
        exact unchangedTrans (unchangedTrans (h1.trans h2).unchanged (C49_event s2 _)) (h3.1.unchanged h3.2)

/-- C49: whatever code runs, the instance storage of a contract that is not running and not entered stays as it is. -/
theorem C49_isolation (h : TxStart E st orig) {s s' : Host} (hr : Reach E st orig s) (p : Prog) {r : Res RVal}
    (hp : run E p s = (s', r)) {c : Nat} (hc : topContract s.ctx ≠ some c) (hn : NotEntered c s s') {m : FMap Nat Nat}
    (hm : instView E s c = some m) : instView E s' c = some m := by
  have hg := run_good (E := E) p s (reach_hok h hr)
  rw [hp] at hg
  have hk := hg.le.iso c hn hc
  refine viewOf_same ?_ (fun ex m l hl => ?_) hm
  · have hctx : CtxLe s.ctx s'.ctx := hg.le.ctx
    have hst := (reach_hok h hr).stack
    have hb := hctx.below
    have hs := hctx.same
    have aux : ∀ {l l' : List Ctx}, List.Forall₂ (CRel (topContract s.ctx)) l l' → framesOf c l' = framesOf c l := by
      intro l l' hf
      induction hf with
      | nil => rfl
      | @cons a b l l' hab _ ih =>
        by_cases ha : a.cid = some c
        · have : b = a := hab.2 (by rw [ha]; exact fun he => hc he.symm)
          rw [this, framesOf_cons_eq ha, framesOf_cons_eq ha, ih]
        · rw [framesOf_cons_ne ha, framesOf_cons_ne (by rw [hab.1.1]; exact ha), ih]
    generalize hx : s.ctx = cs at hs hb hc hst aux
    generalize s'.ctx = cs' at hs hb
    cases hs with
    | nil => rfl
    | @cons a b l l' hab hl =>
      have ha : a.cid ≠ some c := by
        intro ha; apply hc; unfold topContract; rw [List.filterMap_cons, ha]; rfl
      rw [framesOf_cons_ne ha, framesOf_cons_ne (by rw [hab.1]; exact ha)]
      exact aux hb
  · obtain ⟨l', hl', _⟩ := hk.inst ex m l hl
    exact ⟨ex, l', hl'⟩

/-- C49: the ledger after a successful transaction has the instance storage that contracts had when its host function ended. -/
theorem C49_transaction (h : TxStart E st orig) (hf : HostFn) {s' : Host} {v : RVal}
    (hi : invoke E (Host.init st orig) hf = (s', .ok v)) :
    ∃ b w, hostFnBody E hf (pushContext (Host.init st orig) hostFrame).1 = (b, .ok w) ∧
      ∀ c m, instView E b c = some m → ∃ ex l, visible E s' (.inst c) = some (.inst ex m, l) := by
  have hok := entered_hok (stOk_start h) h.auth
  have hg := hostFnBody_good (E := E) hf hok
  have hne : (hostFnBody E hf (pushContext (Host.init st orig) hostFrame).1).1.ctx ≠ [] := by
    intro hx
    have := hg.le.ctx.same.length_eq
    rw [show (hostFnBody E hf (entered st orig)).1.ctx = [] from hx] at this; cases this
  obtain ⟨_, ⟨w, hw⟩, hun⟩ := withFrame_view (f := hostFnBody E hf) (c := hostFrame) hi hg.ok.st
    (fun hv => (hg.strong (entered_strong h.auth) hv).coh) hne
  refine ⟨_, w, Prod.ext rfl hw, fun c m hm => ?_⟩
  have hv := hun c m hm
  have hctx : s'.ctx = [] := by
    have := (invoke_spec (E := E) (stOk_start h) h.auth hf).ctx
    rw [hi] at this; exact this
  unfold instView at hv
  rw [hctx] at hv
  simp only [framesOf, List.filter_nil] at hv
  cases hl : visible E s' (.inst c) with
  | none => rw [hl] at hv; cases hv
  | some e =>
    obtain ⟨x, l⟩ := e
    rw [hl] at hv
    cases x with
    | inst ex m0 => cases hv; exact ⟨ex, l, rfl⟩
    | _ => cases hv

end

/-! ### these cases occur -/

namespace InstCase
open HostCase EntriesCase

/-- Contract 1, which has 5 under key 4, replaces it by 6. -/
def s1' : Host := (instOp sU (.put 4 6)).1
theorem reach1' : Reach env stU [] s1' := .ran (p := .inst (.put 4 6) (fun _ => .ret .void)) (v := .void) reachU rfl

example : instView env sU 1 = some [(4, 5)] ∧ instView env s1' 1 = some [(4, 6)] := by decide
/-- This is not in the ledger yet. -/
example : visible env s1' (.inst 1) = some (.inst (.wasm 7) [(4, 5)], some 200) := by decide
example : instView env s1' 3 = none := by decide

/-- Its `__check_auth` is run: it sees 6, and replaces it by 7. -/
def check : Prog := .inst (.get 4) (fun o => match o with
  | .entry (.data 6, _) => .inst (.put 4 7) (fun _ => .ret .void)
  | _ => .fail (.contract 1))
def checked : Host × Res RVal := callN env s1' 1 checkAuthName .selfAllowed true (run env check)
example : checked.2 = .ok .void := rfl
/-- Contract 1 now sees 7. -/
example : instView env checked.1 1 = some [(4, 7)] ∧ checked.1.ctx.length = 2 := by decide

/-- A failing call to itself is no exception to the rules. -/
example : (call env s1' 1 fnA (run env (.ret .void))).2 = .error (.host .context .invalidAction) := rfl

/-- The whole transaction, with the final ledger. -/
def whole : Host × Res RVal := invoke env (Host.init stU []) (.invoke 1 fnA (.inst (.put 4 6) (fun _ => .inst (.del 9) (fun _ => .ret .void))))
example : whole.2 = .ok .void ∧ visible env whole.1 (.inst 1) = some (.inst (.wasm 7) [(4, 6)], some 200) := ⟨rfl, by decide⟩

end InstCase
end Soroban.Props
