import Verif.Props.HostCase
/-!
C22-C26: calls between contracts. The theorems hold in every state `s` of every transaction (`Reach E st orig s`, in enforcing
and in recording mode) for every code `p` of the called contract, which may itself call others.
-/
namespace Soroban.Props
open Soroban Soroban.Auth Soroban.Host Soroban.Host.Spec

private theorem calledBy {E : HEnv} {st : Storage.Store LKey LVal} {orig : List Acct} (h : TxStart E st orig) {s : Host}
    (hr : Reach E st orig s) (id : Nat) (fn : Name) (p : Prog) : Called E orig id fn s (call E s id fn (run E p)) :=
  callN_prohibited (reach_hok h hr) (fun h => by cases h) (run_good p)

private theorem ctxOf {E : HEnv} {orig : List Acct} {s : Host} {id : Nat} {fn : Name} {p : Prog} (hs : HOk E orig s)
    (h : Called E orig id fn s (call E s id fn (run E p))) : (call E s id fn (run E p)).1.ctx = s.ctx := by
  by_cases hn : ∀ d ∈ s.ctx, d.cid ≠ some id
  · exact h.ctx hn
  · have : ∃ c ∈ s.ctx, c.cid = some id := by
      by_contra hx; exact hn (fun d hd hdi => hx ⟨d, hd, hdi⟩)
    obtain ⟨n, hd⟩ := reentry_isSome this
    unfold call callN
    split
    · rfl
    · simp only [hd]

/-! ### C22 -/

/-- C22: a failed call leaves no trace: in enforcing mode the storage is exactly what it was, and in recording mode all the
entries that can be seen are (only the recorded footprint may have grown); no contract event of the failed call counts; the
authorizations and the context stack are what they were. -/
theorem C22_failed_call_leaves_no_trace {E : HEnv} {st : Storage.Store LKey LVal} {orig : List Acct} (h : TxStart E st orig)
    {s s' : Host} (hr : Reach E st orig s) (id : Nat) (fn : Name) (p : Prog) {e : Err}
    (hc : call E s id fn (run E p) = (s', .error e)) :
    (s.st.mode = .enforcing → s'.st = s.st) ∧ visible E s' = visible E s ∧
    successfulEvents s'.events = successfulEvents s.events ∧
    s'.auth.accts = s.auth.accts ∧ s'.auth.uses = s.auth.uses ∧ s'.auth.stack = s.auth.stack ∧ s'.ctx = s.ctx := by
  have hcl := calledBy h hr id fn p
  have hx := ctxOf (reach_hok h hr) hcl
  rw [hc] at hcl hx
  have hf := hcl.failed e rfl
  exact ⟨hf.store, hf.ledger, hf.events, hf.accts, hf.uses, hf.stack, hx⟩

/-- C22 for `try_call`: whenever it returns an error, or an error value, there is no trace of the call either. -/
theorem C22_failed_try_call_leaves_no_trace {E : HEnv} {st : Storage.Store LKey LVal} {orig : List Acct} (h : TxStart E st orig)
    {s s' : Host} (hr : Reach E st orig s) (id : Nat) (fn : Name) (p : Prog) {r : Res RVal}
    (hc : tryCall E s id fn (run E p) = (s', r)) (hf : (∃ e, r = .error e) ∨ ∃ e, r = .ok (.err e)) :
    (s.st.mode = .enforcing → s'.st = s.st) ∧ visible E s' = visible E s ∧
    successfulEvents s'.events = successfulEvents s.events ∧
    s'.auth.accts = s.auth.accts ∧ s'.auth.uses = s.auth.uses ∧ s'.auth.stack = s.auth.stack ∧ s'.ctx = s.ctx := by
  cases hres : (call E s id fn (run E p)).2 with
  | error e =>
    have hs : s' = (call E s id fn (run E p)).1 := (congrArg Prod.fst hc).symm
    refine C22_failed_call_leaves_no_trace h hr id fn p (e := e) ?_
    rw [hs, ← hres]
  | ok v =>
    have h2 : tryResult (call E s id fn (run E p)).2 = r := congrArg Prod.snd hc
    rw [hres] at h2
    subst h2
    rcases hf with ⟨e, he⟩ | ⟨e, he⟩
    · cases he
    · exact absurd (by rw [hres]; exact he) (call_not_err (e := e))

/-- C22 for a whole transaction: if it fails, the entries it was given are unchanged and no event counts. -/
theorem C22_failed_transaction {E : HEnv} {st : Storage.Store LKey LVal} {orig : List Acct} (h : TxStart E st orig) (hf : HostFn)
    {s' : Host} {e : Err} (hi : invoke E (Host.init st orig) hf = (s', .error e)) :
    s'.st.map = st.map ∧ s'.st.mode = st.mode ∧ successfulEvents s'.events = [] ∧ s'.ctx = [] := by
  have hs := invoke_spec (stOk_start h) h.auth hf
  rw [hi] at hs
  obtain ⟨h1, h2, h3⟩ := hs.failed e rfl
  exact ⟨h1, h2, h3, hs.ctx⟩

/-! ### C23 -/

/-- C23: what `try_call` returns, for every outcome of the call: the value; the contract error with its code; `InvalidAction` for
other errors; or, for errors that end the transaction, the error itself. The state is that after the call. -/
theorem C23_try_call_result (E : HEnv) (s : Host) (id : Nat) (fn : Name) (p : Prog) :
    (tryCall E s id fn (run E p)).1 = (call E s id fn (run E p)).1 ∧
    (∀ v, (call E s id fn (run E p)).2 = .ok v → (tryCall E s id fn (run E p)).2 = .ok v ∧ ∀ e, v ≠ .err e) ∧
    (∀ n, (call E s id fn (run E p)).2 = .error (.contract n) → (tryCall E s id fn (run E p)).2 = .ok (.err (.contract n))) ∧
    (∀ t c, (call E s id fn (run E p)).2 = .error (.host t c) → ¬ Fatal (.host t c) →
      (tryCall E s id fn (run E p)).2 = .ok (.err (.host .context .invalidAction))) ∧
    (∀ e, (call E s id fn (run E p)).2 = .error e → Fatal e → (tryCall E s id fn (run E p)).2 = .error e) := by
  have hr : (tryCall E s id fn (run E p)).2 = tryResult (call E s id fn (run E p)).2 := rfl
  refine ⟨rfl, fun v hv => ⟨?_, fun e he => ?_⟩, fun n hn => ?_, fun t c hc hnf => ?_, fun e he hf => ?_⟩
  · rw [hr, hv]; rfl
  · subst he; exact call_not_err hv
  · rw [hr, hn]; rfl
  · rw [hr, hc]
    have : recoverable (.host t c) = true := by
      cases hx : recoverable (.host t c) with
      | true => rfl
      | false => exact absurd ((fatal_iff _).mp hx) hnf
    simp only [tryResult, this, if_true]
  · rw [hr, he]
    have := (fatal_iff e).mpr hf
    cases e with
    | contract n => exact hf.elim
    | host t c => simp only [tryResult, this, Bool.false_eq_true, if_false]

/-- C23: no `try_call` anywhere in the transaction stops an internal error, an exhausted budget or an access out of the
footprint: if such an error has reached the code of any frame (`fatal`), the transaction fails with such an error. -/
theorem C23_fatal_errors_end_the_transaction {E : HEnv} {st : Storage.Store LKey LVal} {orig : List Acct} (h : TxStart E st orig)
    (hf : HostFn) (hfat : (invoke E (Host.init st orig) hf).1.fatal = true) :
    ∃ e, (invoke E (Host.init st orig) hf).2 = .error e ∧ Fatal e := by
  obtain ⟨e, h1, h2⟩ := (invoke_spec (stOk_start h) h.auth hf).fatal hfat
  exact ⟨e, h1, (fatal_iff e).mp h2⟩

/-- C23: the same for the code of each frame: unless the error had reached some code before. -/
theorem C23_fatal_errors_end_the_frame {E : HEnv} {st : Storage.Store LKey LVal} {orig : List Acct} (h : TxStart E st orig)
    {s : Host} (hr : Reach E st orig s) (p : Prog) (h0 : s.fatal = false) (hfat : (run E p s).1.fatal = true) :
    ∃ e, (run E p s).2 = .error e ∧ Fatal e := by
  rcases (run_good p s (reach_hok h hr)).fatal hfat with h1 | ⟨e, h1, h2⟩
  · rw [h0] at h1; cases h1
  · exact ⟨e, h1, (fatal_iff e).mp h2⟩

/-- C23: a contract cannot forge such an error: if it returns an error value, even one with the type and code of a fatal error,
the call fails with `InvalidAction`. -/
theorem C23_fatal_errors_cannot_be_forged {E : HEnv} {st : Storage.Store LKey LVal} {orig : List Acct} (h : TxStart E st orig)
    {s s1 : Host} (hr : Reach E st orig s) (id : Nat) (fn : Name) (t : ErrTy) (c : ErrCode) (inst : FMap Nat Nat)
    (hd : s.ctx.length < 100) (hn : ∀ c ∈ s.ctx, c.cid ≠ some id) (hfn : reserved fn = false) (hl : Loads E s id inst s1) :
    (call E s id fn (run E (.ret (.err (.host t c))))).2 = .error (.host .context .invalidAction) := by
  have hs := reach_hok h hr
  have hrd := loads_read hs.st hl
  have hs1 : HOk E orig s1 := (hrd.only.good hs (.ok ())).ok
  have hframe : ∀ m, (withFrame E s1 { cid := some id, fn := fn, inst := m, storage := none } (run E (.ret (.err (.host t c))))).2 =
      .error (.host .context .invalidAction) := by
    intro m
    have hroll := MLe.rolledBack hs1.mwf (hs1.mwf.push (.contract (.contract id) fn)) (MLe.refl _)
    unfold withFrame
    rw [if_neg (by rw [hrd.only.ctx]; show ¬ (s.ctx.length ≥ 100); omega)]
    simp only [run, escalate, finish, rollbackIf, popContext, pushContext, hroll, ne_eq, not_true_eq_false, if_false]
  rw [call_loaded hn hfn hl]
  exact hframe _

/-! ### C24 -/

/-- C24: at every push of a frame during a transaction, in calls that fail too, no contract is on the stack twice, except that
the host may run `__check_auth` of the contract that is running. -/
theorem C24_no_reentrancy {E : HEnv} {st : Storage.Store LKey LVal} {orig : List Acct} (h : TxStart E st orig) (hf : HostFn) :
    ∀ stack ∈ (invoke E (Host.init st orig) hf).1.trace, NoReentry stack :=
  fun t ht => stackOk_noReentry ((invoke_spec (stOk_start h) h.auth hf).trace t ht).1

/-- C24, at every moment of a transaction. -/
theorem C24_no_reentrancy_now {E : HEnv} {st : Storage.Store LKey LVal} {orig : List Acct} (h : TxStart E st orig) {s : Host}
    (hr : Reach E st orig s) : NoReentry (s.ctx.map (fun c => (c.cid, c.fn))) ∧ ∀ stack ∈ s.trace, NoReentry stack :=
  ⟨stackOk_noReentry (reach_hok h hr).stack, fun t ht => stackOk_noReentry ((reach_hok h hr).trace t ht).1⟩

/-- C24: calling a contract that is on the stack fails and does nothing. -/
theorem C24_reentrant_call_rejected (E : HEnv) (s : Host) (id : Nat) (fn : Name) (p : Prog) (hid : ∃ c ∈ s.ctx, c.cid = some id) :
    call E s id fn (run E p) = (s, .error (.host .context .invalidAction)) ∧
    tryCall E s id fn (run E p) = (s, .ok (.err (.host .context .invalidAction))) := by
  have hc : call E s id fn (run E p) = (s, .error (.host .context .invalidAction)) := by
    obtain ⟨n, hd⟩ := reentry_isSome hid
    unfold call callN
    split
    · rfl
    · simp only [hd]
  refine ⟨hc, ?_⟩
  have : tryCall E s id fn (run E p) = ((call E s id fn (run E p)).1, tryResult (call E s id fn (run E p)).2) := rfl
  rw [this, hc]; rfl

/-! ### C25 -/

/-- C25: a call to a function whose name starts with two underscores fails and does nothing, whatever the contract. -/
theorem C25_reserved_call_rejected (E : HEnv) (s : Host) (id : Nat) (rest : Name) (p : Prog) :
    call E s id (95 :: 95 :: rest) (run E p) = (s, .error (.host .context .invalidAction)) ∧
    tryCall E s id (95 :: 95 :: rest) (run E p) = (s, .ok (.err (.host .context .invalidAction))) := by
  have hres : reserved (95 :: 95 :: rest) = true := by simp [reserved, List.isPrefixOf]
  have hc : call E s id (95 :: 95 :: rest) (run E p) = (s, .error (.host .context .invalidAction)) := by
    unfold call callN
    rw [if_pos ⟨rfl, hres⟩]
  refine ⟨hc, ?_⟩
  have : tryCall E s id (95 :: 95 :: rest) (run E p) =
    ((call E s id (95 :: 95 :: rest) (run E p)).1, tryResult (call E s id (95 :: 95 :: rest) (run E p)).2) := rfl
  rw [this, hc]; rfl

/-- C25: nor can a transaction call such a function. -/
theorem C25_reserved_transaction_rejected {E : HEnv} {st : Storage.Store LKey LVal} {orig : List Acct} (h : TxStart E st orig)
    (id : Nat) (rest : Name) (p : Prog) :
    (invoke E (Host.init st orig) (.invoke id (95 :: 95 :: rest) p)).2 = .error (.host .context .invalidAction) ∧
    (invoke E (Host.init st orig) (.invoke id (95 :: 95 :: rest) p)).1.st.map = st.map := by
  have hb : hostFnBody E (.invoke id (95 :: 95 :: rest) p) = fun s => (s, .error (.host .context .invalidAction)) := by
    funext s; exact (C25_reserved_call_rejected E s id rest p).1
  have hs : (invoke E (Host.init st orig) (.invoke id (95 :: 95 :: rest) p)).2 = .error (.host .context .invalidAction) := by
    have hroll : ∃ m, (Host.init st orig).auth.rollback (Host.init st orig).auth.snapshot = .ok m := init_rollback orig st
    obtain ⟨m, hm⟩ := hroll
    unfold invoke withFrame
    rw [hb, if_neg (show ¬ ((Host.init st orig).ctx.length ≥ depthLimit) from (by decide : ¬ (0 ≥ depthLimit)))]
    simp only [escalate, finish, rollbackIf, popContext, pushContext, Mgr.pop, hm]
    rfl
  refine ⟨hs, ?_⟩
  exact ((invoke_spec (stOk_start h) h.auth (.invoke id (95 :: 95 :: rest) p)).failed _ hs).1

/-- C25: during a transaction the only functions with such names that run are `__check_auth` and `__constructor`. -/
theorem C25_only_host_calls_reserved {E : HEnv} {st : Storage.Store LKey LVal} {orig : List Acct} (h : TxStart E st orig) (hf : HostFn) :
    ∀ stack ∈ (invoke E (Host.init st orig) hf).1.trace, ReservedOk stack :=
  fun t ht => stackOk_reserved ((invoke_spec (stOk_start h) h.auth hf).trace t ht).1

/-! ### C26 -/

/-- C26: the stack never has more than 100 frames. -/
theorem C26_depth_bounded {E : HEnv} {st : Storage.Store LKey LVal} {orig : List Acct} (h : TxStart E st orig) (hf : HostFn) :
    ∀ stack ∈ (invoke E (Host.init st orig) hf).1.trace, stack.length ≤ 100 :=
  fun t ht => ((invoke_spec (stOk_start h) h.auth hf).trace t ht).2

/-- C26: with 100 frames on the stack a call to a contract that exists and is not on the stack fails with `ExceededLimit`. -/
theorem C26_depth_exceeded {E : HEnv} {st : Storage.Store LKey LVal} {orig : List Acct} (h : TxStart E st orig) {s s1 : Host}
    (hr : Reach E st orig s) (id : Nat) (fn : Name) (p : Prog) (inst : FMap Nat Nat)
    (hd : s.ctx.length = 100) (hn : ∀ c ∈ s.ctx, c.cid ≠ some id) (hfn : reserved fn = false) (hl : Loads E s id inst s1) :
    call E s id fn (run E p) = (s1, .error (.host .context .exceededLimit)) := by
  have hctx : s1.ctx = s.ctx := (loads_read (reach_hok h hr).st hl).only.ctx
  rw [call_loaded hn hfn hl]
  unfold withFrame
  rw [if_pos (show s1.ctx.length ≥ depthLimit by rw [hctx, hd]; decide)]

/-- C26: after a call, successful or not, the context stack is exactly what it was. -/
theorem C26_call_balanced {E : HEnv} {st : Storage.Store LKey LVal} {orig : List Acct} (h : TxStart E st orig) {s : Host}
    (hr : Reach E st orig s) (id : Nat) (fn : Name) (p : Prog) :
    (call E s id fn (run E p)).1.ctx = s.ctx ∧ (tryCall E s id fn (run E p)).1.ctx = s.ctx :=
  ⟨ctxOf (reach_hok h hr) (calledBy h hr id fn p), ctxOf (reach_hok h hr) (calledBy h hr id fn p)⟩

/-- C26: and whatever the code of a frame does, the frames on the stack are the same afterwards, for the same functions of the
same contracts; the authorization stack too; only instance storage may differ. -/
theorem C26_code_balanced {E : HEnv} {st : Storage.Store LKey LVal} {orig : List Acct} (h : TxStart E st orig) {s : Host}
    (hr : Reach E st orig s) (p : Prog) :
    (run E p s).1.ctx.map (fun c => (c.cid, c.fn, c.inst)) = s.ctx.map (fun c => (c.cid, c.fn, c.inst)) ∧
    (run E p s).1.auth.stack = s.auth.stack := by
  have hg := run_good p s (reach_hok h hr)
  refine ⟨?_, hg.le.auth.stack⟩
  have := hg.le.ctx.same
  generalize (run E p s).1.ctx = cs at this
  clear hg hr
  generalize s.ctx = cs0 at this
  induction this with
  | nil => rfl
  | cons hab _ ih => simp only [List.map_cons, hab.1, hab.2.1, hab.2.2, ih]

/-- C26: a transaction ends with an empty stack. -/
theorem C26_transaction_balanced {E : HEnv} {st : Storage.Store LKey LVal} {orig : List Acct} (h : TxStart E st orig) (hf : HostFn) :
    (invoke E (Host.init st orig) hf).1.ctx = [] := (invoke_spec (stOk_start h) h.auth hf).ctx

/-! ### the concrete case -/
section Examples
open HostCase

/-- C22, C23: the call to contract 2 that fails with error 13, from the state of contract 1 after its `require_auth`. -/
example : TxStart env st [entry] ∧ Reach env st [entry] s2 ∧
    (call env s2 2 fnB (run env (bodyB (.fail (.contract 13))))).2 = .error (.contract 13) ∧
    (tryCall env s2 2 fnB (run env (bodyB (.fail (.contract 13))))).2 = .ok (.err (.contract 13)) := ⟨start, reach2, rfl, rfl⟩

/-- C22: the call did use an authorization, write and emit an event: those that succeed do. -/
example : visible env (call env s2 2 fnB (run env (bodyB (.ret .void)))).1 (.data (.contract 2) (.val 3) .persistent) =
      some (.data 11, some 149) ∧ visible env s2 (.data (.contract 2) (.val 3) .persistent) = none ∧
    (call env s2 2 fnB (run env (bodyB (.ret .void)))).1.auth.uses.length = 2 ∧ s2.auth.uses.length = 1 := by decide

/-- C22: transactions that fail. -/
example : (invoke env (Host.init st [entry]) (.invoke 1 fnA (.call 2 fnB (bodyB (.ret .void)) (fun _ => .ret .void)))).2 =
    .error (.host .auth .invalidAction) := rfl

/-- C23: an access outside of the footprint in contract 2 ends the transaction although contract 1 uses `try_call`; the same with
a forged error value does not. -/
example : (invoke env (Host.init st [entry]) (.invoke 1 fnA
      (.tryCall 2 fnB (.data (.get (.val 77) .persistent) (fun _ => .ret .void)) (fun _ => .ret .void)))).2 =
    .error (.host .storage .exceededLimit) ∧
    (invoke env (Host.init st [entry]) (.invoke 1 fnA
      (.tryCall 2 fnB (.data (.get (.val 77) .persistent) (fun _ => .ret .void)) (fun _ => .ret .void)))).1.fatal = true ∧
    (invoke env (Host.init st [entry]) (.invoke 1 fnA
      (.tryCall 2 fnB (.ret (.err (.host .storage .exceededLimit))) (fun _ => .ret .void)))).2 = .ok .void := ⟨rfl, rfl, rfl⟩

/-- C23: the hypotheses of `C23_fatal_errors_cannot_be_forged`. -/
example : s2.ctx.length < 100 ∧ (∀ c ∈ s2.ctx, c.cid ≠ some 2) ∧ reserved fnB = false ∧ Loads env s2 2 [] s2 :=
  ⟨by decide, by decide, by decide, .wasm (ex := .wasm 7) (h := 7) rfl rfl rfl⟩

/-- C24: contract 2 calls contract 1, which is below it on the stack. -/
example : Reach env st [entry] s3 ∧ (∃ c ∈ s3.ctx, c.cid = some 1) ∧
    (call env s3 1 fnA (run env (.ret .void))).2 = .error (.host .context .invalidAction) := ⟨reach3, by decide, rfl⟩

/-- C24: the exception: contract 1 authorizes itself as an account while it is running. -/
example : ∃ s', Reach env st [entry] s' ∧ s'.ctx.map (fun c => (c.cid, c.fn)) = [(some 1, checkAuthName), (some 1, fnA), (none, [])] :=
  ⟨_, .checking (s := s1) (s1 := s1) (b := false) (id := 1) (inst := []) reach1 (by decide) (Or.inr ⟨by decide, rfl⟩)
    (.wasm (ex := .wasm 7) (h := 7) rfl rfl rfl), rfl⟩

/-- C25: `__check_auth` is reserved, `a` is not. -/
example : reserved checkAuthName = true ∧ reserved constructorName = true ∧ reserved fnA = false := by decide

/-- C26: contracts 0 to 100, which are asset contracts, and states with up to 100 frames, in which they call one another. -/
def deepStore : Storage.Store LKey LVal :=
  { footprint := (List.range 101).map (fun i => (.inst i, .readOnly)), mode := .enforcing
    map := (List.range 101).map (fun i => (.inst i, some (.inst .asset [], some 200))) }

theorem deep_get : ∀ n < 101, FMap.get deepStore.map (LKey.inst n) = some (some (LVal.inst .asset [], some 200)) ∧
    FMap.get deepStore.footprint (LKey.inst n) = some Storage.Access.readOnly := by
  intro n hn
  have h : ∀ (f : Nat → LKey × Option (Storage.Entry LVal)) (l : List Nat), (∀ i, f i = (.inst i, some (.inst .asset [], some 200))) → n ∈ l →
      FMap.get (l.map f) (LKey.inst n) = some (some (LVal.inst .asset [], some 200)) := by
    intro f l hf hm
    induction l with
    | nil => cases hm
    | cons a l ih =>
      rw [List.map_cons, hf a, FMap.get]
      split
      · rfl
      · rename_i hne
        exact ih ((List.mem_cons.mp hm).resolve_left (fun h => hne (by rw [h])))
  have h' : ∀ (f : Nat → LKey × Storage.Access) (l : List Nat), (∀ i, f i = (.inst i, .readOnly)) → n ∈ l →
      FMap.get (l.map f) (LKey.inst n) = some Storage.Access.readOnly := by
    intro f l hf hm
    induction l with
    | nil => cases hm
    | cons a l ih =>
      rw [List.map_cons, hf a, FMap.get]
      split
      · rfl
      · rename_i hne
        exact ih ((List.mem_cons.mp hm).resolve_left (fun h => hne (by rw [h])))
  exact ⟨h _ _ (fun _ => rfl) (List.mem_range.mpr hn), h' _ _ (fun _ => rfl) (List.mem_range.mpr hn)⟩

theorem deep_loads {s : Host} (hs : s.st = deepStore) {n : Nat} (hn : n < 101) : Loads env s n [] s := by
  obtain ⟨h1, h2⟩ := deep_get n hn
  refine .builtin (ex := .asset) (s1 := s) ?_ rfl
  have h3 : Storage.getEntry env.sto s.st (.inst n) = (s.st, .ok (.inst .asset [], some 200)) := by
    rw [hs]
    have hm : deepStore.mode = .enforcing := rfl
    unfold Storage.getEntry Storage.tryGet Storage.prepareReadOnly Storage.enforceAccess
    simp only [hm, h1, h2]
    rfl
  unfold getInstance liftSt
  simp only [h3]

theorem deep_start : TxStart env deepStore [] := by
  refine ⟨rfl, ⟨_, .enforcing (fp := deepStore.footprint) (map := deepStore.map) ⟨?_, ?_⟩, rfl⟩, ⟨?_, ?_, ?_⟩⟩
  · intro k hk
    obtain ⟨v, hv⟩ := Option.isSome_iff_exists.mp hk
    obtain ⟨i, hi, hki⟩ := List.mem_map.mp (get_mem hv)
    cases hki
    rw [(deep_get i (List.mem_range.mp hi)).1]; rfl
  · intro k e he v l d h hd
    obtain ⟨i, hi, hki⟩ := List.mem_map.mp (get_mem he)
    cases hki
    cases h
    exact ⟨200, rfl, by decide⟩
  all_goals (intro a ha; cases ha)

theorem deep (n : Nat) (hn : n < 100) : ∃ s, Reach env deepStore [] s ∧ s.st = deepStore ∧ s.ctx.length = n + 1 ∧
    ∀ c ∈ s.ctx, ∀ i, c.cid = some i → i < n := by
  induction n with
  | zero =>
    refine ⟨_, .start, rfl, rfl, ?_⟩
    intro c hc i hi
    rw [List.mem_singleton.mp hc] at hi
    cases hi
  | succ n ih =>
    obtain ⟨s, h1, h2, h3, h4⟩ := ih (by omega)
    refine ⟨_, .called (fn := fnA) (inst := []) (id := n) h1 (by rw [h3]; show n + 1 < 100; omega) ?_ (by decide) (deep_loads h2 (by omega)), h2, ?_, ?_⟩
    · intro c hc hi; exact absurd (h4 c hc n hi) (by omega)
    · show s.ctx.length + 1 = n + 1 + 1; omega
    · intro c hc i hi
      rcases List.mem_cons.mp hc with rfl | hc
      · cases hi; omega
      · have := h4 c hc i hi; omega

/-- The hypotheses of `C26_depth_exceeded` are met. -/
example : TxStart env deepStore [] ∧ ∃ s, Reach env deepStore [] s ∧ s.ctx.length = 100 ∧ (∀ c ∈ s.ctx, c.cid ≠ some 100) ∧
    reserved fnA = false ∧ Loads env s 100 [] s := by
  obtain ⟨s, h1, h2, h3, h4⟩ := deep 99 (by omega)
  refine ⟨deep_start, s, h1, h3, fun c hc hi => absurd (h4 c hc 100 hi) (by omega), by decide, deep_loads h2 (by omega)⟩

end Examples

end Soroban.Props
