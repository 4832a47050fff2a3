import Verif.Lemmas.HostAuth
import Verif.Spec.Host
/-! Contract creation, the code of contracts and whole invocations. -/
namespace Soroban.Host
open Soroban Soroban.Auth Soroban.Storage Soroban.Storage.Spec
open Soroban.Host.Spec (Fresh TxStart Reach Loads hostFrame Leads execAt updatesOf)

theorem authPush_strong {E : HEnv} {L0 : Ledger LKey LVal} {s : Host} (h : HStrong E L0 s) (fr : Frame) : HStrong E L0 { s with auth := s.auth.push fr } := by
  have hacct : ∀ (i : Nat) (a : Acct), ((s.auth.push fr).accts)[i]? = some a →
      ∃ b, s.auth.accts[i]? = some b ∧ a.addr = b.addr ∧ a.verified = b.verified ∧ a.source = b.source ∧ a.nonce = b.nonce := by
    intro i a ha
    simp only [Mgr.push, List.getElem?_map, Option.map_eq_some_iff] at ha
    obtain ⟨b, hb, rfl⟩ := ha
    refine ⟨b, hb, ?_⟩
    unfold Acct.push; split <;> exact ⟨rfl, rfl, rfl, rfl⟩
  refine ⟨h.start, ?_, ?_, ?_, h.coh, h.updates⟩
  · intro u hu
    obtain ⟨b, hb, h2⟩ := h.uses u hu
    refine ⟨b.push, ?_, ?_⟩
    · simp only [Mgr.push, List.getElem?_map, hb]; rfl
    · unfold Acct.push; split <;> exact h2
  · intro i a ha hv hs
    obtain ⟨b, hb, e1, e2, e3, e4⟩ := hacct i a ha
    have hp := h.proven i b hb (by rw [← e2]; exact hv) (by rw [← e3]; exact hs)
    refine ⟨?_, ?_, ?_⟩
    · rw [e4, e1]; exact hp.nonce
    · rw [e1]; exact hp.account
    · rw [e1]; exact hp.contract
  · intro i j a a' ha ha' hv hv' hs hs' had hn
    obtain ⟨b, hb, e1, e2, e3, e4⟩ := hacct i a ha
    obtain ⟨b', hb', f1, f2, f3, f4⟩ := hacct j a' ha'
    exact h.distinct i j b b' hb hb' (by rw [← e2]; exact hv) (by rw [← f2]; exact hv') (by rw [← e3]; exact hs)
      (by rw [← f3]; exact hs') (by rw [← e1, ← f1]; exact had) (by rw [← e4, ← f4]; exact hn)

theorem authPush_hok {E : HEnv} {orig : List Acct} {s : Host} (hs : HOk E orig s) (args : CreateArgs) :
    HOk E orig { s with auth := s.auth.push (.create args) } := by
  refine ⟨hs.st, hs.mwf.push _, hs.uok.push _, ?_, hs.stack, hs.depth, hs.trace,
    fun t ht hl => absurd (push_live ht) (by rw [hl]; decide)⟩
  simp only [Mgr.push, List.filter_cons, isContractFrame, Bool.false_eq_true, if_false]
  exact hs.frames

theorem callConstructor_good {E : HEnv} {orig : List Acct} {s : Host} (hs : HOk E orig s) (id : Nat) (args : List Nat)
    {f : Host → Host × Res RVal} (hf : ∀ s1, HOk E orig s1 → Good E orig s1 (f s1)) :
    Good E orig s (callConstructor E s id args f) := by
  have h1 := supportsCtor_only (E := E) hs.st id
  unfold callConstructor
  generalize supportsCtor E s id = c at h1
  obtain ⟨s1, r⟩ := c
  cases r with
  | error e => exact h1.good hs _
  | ok b =>
    cases b with
    | false => simp only; split <;> exact h1.good hs _
    | true =>
      simp only
      have hg : Good E orig s (s1, Except.ok true) := h1.good hs _
      have h2 := callN_prohibited hg.ok (id := id) (fn := constructorName) (internal := true) (fun _ => Or.inr rfl) hf
      refine Good.bind hg (Good.mapRes (r := (callN E s1 id constructorName .prohibited true f).2) h2.good ?_ ?_)
      · intro v hv
        cases hr : (callN E s1 id constructorName .prohibited true f).2 with
        | ok w => exact Or.inl ⟨w, rfl⟩
        | error e => rw [hr] at hv; simp only [ctorResult] at hv; split at hv <;> cases hv
      · intro e he hre
        refine ⟨e, ?_, hre⟩
        rw [he]; simp only [ctorResult, hre, Bool.false_eq_true, if_false]

theorem initAsset_good {E : HEnv} {orig : List Acct} {s : Host} (hs : HOk E orig s) (id : Nat)
    {f : Host → Host × Res RVal} (hf : ∀ s1, HOk E orig s1 → Good E orig s1 (f s1)) :
    Good E orig s (initAsset E s id f) := by
  have h2 := (callN_prohibited hs (id := id) (fn := initAssetName) (internal := false) (fun h => by cases h) hf).good
  unfold initAsset
  generalize callN E s id initAssetName .prohibited false f = c at h2
  obtain ⟨s1, r⟩ := c
  cases r with
  | error e => exact h2.err (fun h => h)
  | ok v => exact h2.mapRes (fun _ _ => Or.inl ⟨_, rfl⟩) (fun e he => by cases he)

theorem createInstance_good {E : HEnv} {orig : List Acct} {s : Host} (hs : HOk E orig s) (id : Nat) (args : CreateArgs)
    {f : Host → Host × Res RVal} (hf : ∀ s1, HOk E orig s1 → Good E orig s1 (f s1)) :
    Good E orig s (createInstance E s id args f) := by
  have h1 := createWithId_only (E := E) hs.st id args.exec
  unfold createInstance
  generalize createWithId E s id args.exec = c at h1
  obtain ⟨s1, r⟩ := c
  have hg : Good E orig s (s1, r) := h1.good hs _
  cases r with
  | error e => exact hg
  | ok u =>
    simp only
    split
    · exact Good.bind hg (initAsset_good hg.ok id hf)
    · exact Good.bind hg (callConstructor_good hg.ok id _ hf)

theorem requireDeployer_good {E : HEnv} {orig : List Acct} {s : Host} (hs : HOk E orig s) (d : Option Addr)
    {run : Nat → Host → Host × Res RVal} (hr : ∀ i s1, HOk E orig s1 → Good E orig s1 (run i s1)) :
    Good E orig s (requireDeployer E s d run) := by
  cases d with
  | none => exact Good.refl hs _
  | some d => exact requireAuth_good hs d [] hr

theorem createWithAuth_good {E : HEnv} {orig : List Acct} {s : Host} (hs : HOk E orig s) (d : Option Addr) (args : CreateArgs)
    {run : Nat → Host → Host × Res RVal} (hr : ∀ i s1, HOk E orig s1 → Good E orig s1 (run i s1))
    {f : Host → Host × Res RVal} (hf : ∀ s1, HOk E orig s1 → Good E orig s1 (f s1)) :
    Good E orig s (createWithAuth E s d args run f) := by
  have h1 := requireDeployer_good hs d hr
  unfold createWithAuth
  generalize requireDeployer E s d run = c at h1
  obtain ⟨s1, r⟩ := c
  cases r with
  | error e => exact h1.err (fun h => h)
  | ok u =>
    simp only
    split
    · have h2 := createInstance_good h1.ok (E.newId args.preimage args.fromAsset) args hf
      generalize createInstance E s1 (E.newId args.preimage args.fromAsset) args f = c at h2
      obtain ⟨s2, r⟩ := c
      cases r with
      | error e => exact Good.bind h1 (h2.err (fun h => h))
      | ok u => exact Good.bind h1 (h2.mapRes (fun _ _ => Or.inl ⟨_, rfl⟩) (fun e he => by cases he))
    · exact Good.bind h1 (Good.refl h1.ok _)

theorem createContract_good {E : HEnv} {orig : List Acct} {s : Host} (hs : HOk E orig s) (d : Option Addr) (args : CreateArgs)
    {run : Nat → Host → Host × Res RVal} (hr : ∀ i s1, HOk E orig s1 → Good E orig s1 (run i s1))
    {f : Host → Host × Res RVal} (hf : ∀ s1, HOk E orig s1 → Good E orig s1 (f s1)) :
    Good E orig s (createContract E s d args run f) := by
  unfold createContract
  cases d with
  | none => exact createWithAuth_good hs none args hr hf
  | some d =>
    simp only
    have h := createWithAuth_good (authPush_hok hs args) (some d) args hr hf
    generalize createWithAuth E { s with auth := s.auth.push (.create args) } (some d) args run f = c at h
    obtain ⟨s1, r⟩ := c
    have hm := MLe.popped hs.mwf h.ok.mwf h.le.auth
    have hh : HLe E s { s1 with auth := s1.auth.popOnly } := ⟨h.le.st, hm.1, h.le.ctx, h.le.trace, h.le.events, h.le.iso⟩
    refine ⟨hh, HLe.hok hs hh hm.2 (hs.uok.popped h.le.auth h.ok.uok) h.ok.trace
      (fun t ht hl => absurd (MLe.poppedLive hs.mwf h.ok.mwf h.le.auth t ht) (by rw [hl]; decide)), fun hst hv => ?_, h.fatal⟩
    exact popOnly_strong (h.strong (authPush_strong hst _) hv) s1.ctx (h.strong (authPush_strong hst _) hv).coh

theorem updatesOf_append (c : Nat) (es es' : List Ev) : updatesOf c (es ++ es') = updatesOf c es ++ updatesOf c es' := by
  induction es with
  | nil => rfl
  | cons e es ih =>
    simp only [List.cons_append, updatesOf]
    split
    · split
      · rw [ih]; rfl
      · exact ih
    · exact ih

theorem successful_snoc (es : List (Ev × Bool)) (e : Ev) : successfulEvents (es ++ [(e, false)]) = successfulEvents es ++ [e] := by
  simp [successfulEvents]

theorem recordEvent_hle {E : HEnv} {s : Host} (hs : StOk E s.st) (e : Ev) : HLe E s (recordEvent s e) :=
  ⟨SLe.refl hs, MLe.refl _, CtxLe.refl _, List.suffix_refl _, List.prefix_append _ _, fun c _ _ => keptRefl c _⟩

theorem recordEvent_hok {E : HEnv} {orig : List Acct} {s : Host} (hs : HOk E orig s) (e : Ev) : HOk E orig (recordEvent s e) :=
  ⟨hs.st, hs.mwf, hs.uok, hs.frames, hs.stack, hs.depth, hs.trace, hs.scope⟩

theorem recordEvent_good {α : Type} {E : HEnv} {orig : List Acct} {s : Host} (hs : HOk E orig s) (id p : Nat) (r : Res α) :
    Good E orig s (recordEvent s ⟨id, .contract p⟩, r) :=
  ⟨recordEvent_hle hs.st _, recordEvent_hok hs _,
    fun h _ => h.step rfl rfl (LLe.refl _) (List.suffix_refl _) (fun hc => hc) (fun c => by
      have : updatesOf c (successfulEvents (s.events ++ [(⟨id, .contract p⟩, false)])) = updatesOf c (successfulEvents s.events) := by
        rw [successful_snoc, updatesOf_append]; simp [updatesOf]
      show Leads _ (updatesOf c (successfulEvents (s.events ++ [(⟨id, .contract p⟩, false)]))) _
      rw [this]; exact h.updates c), fun h => Or.inl h⟩

/-- The announcement and the change of the executable of the running contract. -/
theorem announce_good {E : HEnv} {orig : List Acct} {s : Host} (hs : HOk E orig s) {id : Nat} {old : Exec} {m : FMap Nat Nat} {l : Option Nat}
    (hid : topContract s.ctx = some id) (hold : ledger E s.st (.inst id) = some (.inst old m, l)) {ex : Exec} (hex : Refers (ledger E s.st) ex) :
    Good E orig s (storeInstance E (recordEvent s ⟨id, .updated old ex⟩) (some ex) none id) := by
  have hok := recordEvent_hok hs ⟨id, .updated old ex⟩
  have hle := recordEvent_hle (E := E) hs.st ⟨id, .updated old ex⟩
  obtain ⟨h1, h2⟩ := storeInstance_exec hok.st (some ex) id hid (fun x hx => by cases hx; exact hex)
  have h3 := (storeInstance_only0 hok.st (some ex) none id (Or.inl hid) (fun x hx => by cases hx; exact hex)).2.1
  generalize storeInstance E (recordEvent s ⟨id, .updated old ex⟩) (some ex) none id = c at h1 h2 h3
  obtain ⟨s4, r⟩ := c
  refine ⟨hle.trans h1.hle, h1.hok hok, fun {L0} hst hv => ?_, fun hf => Or.inl (by rw [← show s4.fatal = s.fatal from h1.fatal]; exact hf)⟩
  obtain ⟨v, hv⟩ := hv
  have h4 := h3 hv
  have hev : s4.events = s.events ++ [(⟨id, .updated old ex⟩, false)] := h1.events
  refine hst.step (by rw [show s4.auth = s.auth from h1.auth]) (by rw [show s4.auth = s.auth from h1.auth]) h1.st.ledger
    (by rw [show s4.trace = s.trace from h1.trace]; exact List.suffix_refl _)
    (fun hc => by rw [show s4.ctx = s.ctx from h1.ctx]; exact hc.msame h2) (fun c => ?_)
  show Leads _ (updatesOf c (successfulEvents s4.events)) (execAt (ledger E s4.st) c)
  rw [hev, successful_snoc, updatesOf_append]
  have hu := hst.updates c
  by_cases hc : c = id
  · subst hc
    obtain ⟨l', h5⟩ := h4.2.1 old m l hold
    have e1 : execAt (ledger E s.st) c = some old := by unfold execAt; rw [hold]
    have e2 : execAt (ledger E s4.st) c = some ex := by
      unfold execAt; rw [show ledger E s4.st (.inst c) = _ from h5]; rfl
    rw [e1] at hu
    rw [e2]
    simp only [updatesOf, if_true]
    exact Leads.snoc hu
  · simp only [updatesOf, if_neg (fun h : id = c => hc h.symm), List.append_nil]
    refine Leads.keep hu (fun e he => ?_)
    unfold execAt at he ⊢
    split at he
    · rename_i ex0 m0 l0 hl0
      obtain ⟨l1, h6⟩ := h4.1 c ex0 m0 l0 hc hl0
      rw [show ledger E s4.st (.inst c) = _ from h6]; exact he
    · cases he

theorem updateExec_good {E : HEnv} {orig : List Acct} {s : Host} (hs : HOk E orig s) (ex : Exec) :
    Good E orig s (updateExec E s ex) := by
  have h1 := verifyExec_only (E := E) hs.st ex
  have hv := fun s' => verifyExec_ok (E := E) (s' := s') hs.st (ex := ex)
  unfold updateExec
  generalize verifyExec E s ex = c at h1 hv
  obtain ⟨s1, r⟩ := c
  have hg : Good E orig s (s1, r) := h1.good hs _
  cases r with
  | error e => exact hg
  | ok u =>
    simp only
    split
    · exact Good.bind hg (Good.refl hg.ok _)
    · rename_i id hid
      have h2 := getInstance_only (E := E) hg.ok.st id
      have hi2 := fun s' ex' m => getInstance_val (E := E) (s' := s') (ex := ex') (m := m) hg.ok.st (c := id)
      generalize getInstance E s1 id = c at h2 hi2
      obtain ⟨s2, r⟩ := c
      have hg2 : Good E orig s1 (s2, r) := h2.good hg.ok _
      cases r with
      | error e => exact Good.bind hg (hg2.err (fun h => h))
      | ok u =>
        simp only
        obtain ⟨l, hl, _⟩ := hi2 s2 u.1 u.2 rfl
        refine Good.bind hg (Good.bind hg2 (announce_good hg2.ok (m := u.2) (l := l) ?_ ?_ ((hv s1 rfl).mono h2.st.ledger.lasting)))
        · rw [show s2.ctx = s1.ctx from h2.ctx]; exact top_of_current hid
        · exact hl

theorem instRead_same {c : Ctx} {m : FMap Nat Nat × Bool} (h : c.load = .ok m) :
    Spec.Ctx.contents { c with storage := some m } = Spec.Ctx.contents c ∧ Spec.Ctx.changed { c with storage := some m } = Spec.Ctx.changed c := by
  unfold Ctx.load at h
  unfold Spec.Ctx.contents Spec.Ctx.changed
  cases hs : c.storage with
  | some x => rw [hs] at h; cases h; exact ⟨rfl, rfl⟩
  | none =>
    rw [hs] at h
    cases hc : c.cid with
    | none => rw [hc] at h; cases h
    | some i => rw [hc] at h; cases h; exact ⟨rfl, rfl⟩

theorem instOp_good {E : HEnv} {orig : List Acct} {s : Host} (hs : HOk E orig s) (o : InstOp) : Good E orig s (instOp s o) := by
  unfold instOp
  split
  · exact Good.refl hs _
  · rename_i c cs hcs
    split
    · exact Good.refl hs _
    · rename_i m hm
      refine Good.setCtx hs ?_ _ (fun hc => ?_)
      rotate_left
      · rw [hcs] at hc
        refine hc.top rfl ?_
        cases o with
        | get k => exact Or.inr (instRead_same hm)
        | has k => exact Or.inr (instRead_same hm)
        | put k v => exact Or.inl rfl
        | del k => exact Or.inl rfl
      rw [hcs]
      exact ⟨.cons ⟨rfl, rfl, rfl⟩ (forall₂_refl CSame.refl _), forall₂_refl (CRel.refl _) _⟩

theorem withContract_good {α : Type} {E : HEnv} {orig : List Acct} {s : Host} (hs : HOk E orig s) {f : Nat → Host × Res α}
    (hf : ∀ id, topContract s.ctx = some id → Good E orig s (f id)) : Good E orig s (withContract s f) := by
  unfold withContract
  split
  · exact Good.refl hs _
  · rename_i h; exact hf _ (top_of_current h)

theorem mark_good {E : HEnv} {orig : List Acct} {s s1 : Host} {α : Type} {e : Err} (h : Good E orig s (s1, (Except.error e : Res α))) :
    Good E orig s (mark s1 e, (Except.error e : Res RVal)) := by
  have h := h.err (β := RVal) (fun h => h)
  unfold mark
  split
  · exact h
  · rename_i hre
    refine ⟨⟨h.le.st, h.le.auth, h.le.ctx, h.le.trace, h.le.events, h.le.iso⟩,
      ⟨h.ok.st, h.ok.mwf, h.ok.uok, h.ok.frames, h.ok.stack, h.ok.depth, h.ok.trace, h.ok.scope⟩, fun _ h => ?_, fun _ => Or.inr ⟨e, rfl, by simpa using hre⟩⟩
    obtain ⟨v, hv⟩ := h; cases hv

theorem andThen_good {α : Type} {E : HEnv} {orig : List Acct} {s : Host} {r : Host × Res α} (h : Good E orig s r)
    {k : α → Host → Host × Res RVal} (hk : ∀ v s1, HOk E orig s1 → Good E orig s1 (k v s1)) : Good E orig s (andThen r k) := by
  obtain ⟨s1, r⟩ := r
  unfold andThen
  cases r with
  | error e => exact mark_good h
  | ok v => exact Good.bind h (hk v s1 h.ok)

/-- Whatever the code of a contract does, it is well-behaved. -/
theorem run_good {E : HEnv} {orig : List Acct} (p : Prog) : ∀ s, HOk E orig s → Good E orig s (run E p s) := by
  induction p with
  | ret v => intro s hs; exact Good.refl hs _
  | fail e => intro s hs; rw [run]; exact mark_good (Good.refl (α := Unit) hs (.error e))
  | data o next ih =>
    intro s hs; rw [run]
    exact andThen_good (withContract_good hs (fun id ht => (dataOp_only hs.st id ht o).good hs _)) (fun v => ih v)
  | inst o next ih => intro s hs; rw [run]; exact andThen_good (instOp_good hs o) (fun v => ih v)
  | event p next ih =>
    intro s hs; rw [run]
    exact andThen_good (withContract_good hs (fun id _ => recordEvent_good hs _ _ (.ok ()))) (fun _ => ih)
  | auth a args check next ihc ihn =>
    intro s hs; rw [run]
    exact andThen_good (requireAuth_good hs a args (fun i => ihc i)) (fun _ => ihn)
  | authAs es next ih =>
    intro s hs; rw [run]
    exact andThen_good (withContract_good hs (fun id hid => addInvoker_good hs _ (by rw [hid]; rfl) es (.ok ()))) (fun _ => ih)
  | call id fn body next ihb ihn =>
    intro s hs; rw [run]
    exact andThen_good (callN_prohibited hs (fun h => by cases h) ihb).good (fun v => ihn v)
  | tryCall id fn body next ihb ihn =>
    intro s hs; rw [run]
    exact andThen_good (tryCall_good hs ihb) (fun v => ihn v)
  | create d args check ctor next ihc ihb ihn =>
    intro s hs; rw [run]
    exact andThen_good (createContract_good hs d args (fun i => ihc i) ihb) (fun v => ihn v)
  | update ex next ih => intro s hs; rw [run]; exact andThen_good (updateExec_good hs ex) (fun _ => ih)
  | upload h w next ih =>
    intro s hs; rw [run]
    exact andThen_good ((uploadWasm_only hs.st h w).good hs _) (fun _ => ih)

theorem hostFnBody_good {E : HEnv} {orig : List Acct} (hf : HostFn) {s : Host} (hs : HOk E orig s) : Good E orig s (hostFnBody E hf s) := by
  cases hf with
  | invoke id fn body => exact (callN_prohibited hs (fun h => by cases h) (run_good body)).good
  | create d args check ctor => exact createContract_good hs d args (fun i => run_good (check i)) (run_good ctor)
  | upload h w =>
    have h1 := uploadWasm_only (E := E) hs.st h w
    simp only [hostFnBody]
    generalize uploadWasm E s h w = c at h1
    obtain ⟨s1, r⟩ := c
    cases r with
    | error e => exact h1.good hs _
    | ok u => exact h1.good hs _

/-! ### a failed rollback is an internal error -/

mutual
theorem Inv.rollback_internal : ∀ (t : Inv) (s : InvSnap) (e : Err), t.rollback s = .error e → e = .host .auth .internalError
  | .mk f subs u, .mk u' ss, e, h => by
    rw [Inv.rollback] at h
    split at h
    · cases h; rfl
    · split at h
      · rename_i e' he
        cases h
        exact rollbacks_internal subs ss _ he
      · cases h
theorem rollbacks_internal : ∀ (ts : List Inv) (ss : List InvSnap) (e : Err), rollbacks ts ss = .error e → e = .host .auth .internalError
  | [], _, e, h => by simp [rollbacks] at h
  | t :: ts, [], e, h => by simp [rollbacks] at h
  | t :: ts, s :: ss, e, h => by
    rw [rollbacks] at h
    split at h
    · rename_i e' he; cases h; exact Inv.rollback_internal t s _ he
    · split at h
      · rename_i e' he; cases h; exact rollbacks_internal ts ss _ he
      · cases h
end

theorem Tracker.rollback_internal {t : Tracker} {s : InvSnap} {e : Err} (h : t.rollback s = .error e) :
    e = .host .auth .internalError := by
  unfold Tracker.rollback at h
  split at h
  · rename_i e' he; cases h; exact Inv.rollback_internal _ _ _ he
  · split at h <;> cases h

theorem rollbackAccts_internal : ∀ (as : List Acct) (ss : List (Option AcctSnap)) (e : Err),
    rollbackAccts as ss = .error e → e = .host .auth .internalError
  | [], _, e, h => by simp [rollbackAccts] at h
  | a :: as, [], e, h => by simp [rollbackAccts] at h
  | a :: as, none :: ss, e, h => by
    rw [rollbackAccts] at h
    split at h
    · rename_i e' he; cases h; exact rollbackAccts_internal as ss _ he
    · cases h
  | a :: as, some s :: ss, e, h => by
    rw [rollbackAccts] at h
    split at h
    · cases h; rfl
    · split at h
      · rename_i e' he
        cases h
        unfold Acct.rollback at he
        split at he
        · rename_i he'; cases he; exact Tracker.rollback_internal he'
        · cases he
      · split at h
        · rename_i e' he; cases h; exact rollbackAccts_internal as ss _ he
        · cases h

theorem rollbackInvokers_internal : ∀ (as : List Invoker) (ss : List InvSnap) (e : Err),
    rollbackInvokers as ss = .error e → e = .host .auth .internalError
  | [], _, e, h => by simp [rollbackInvokers] at h
  | a :: as, [], e, h => by simp [rollbackInvokers] at h
  | a :: as, s :: ss, e, h => by
    rw [rollbackInvokers] at h
    split at h
    · rename_i e' he; cases h; exact Tracker.rollback_internal he
    · split at h
      · rename_i e' he; cases h; exact rollbackInvokers_internal as ss _ he
      · cases h

theorem rollback_fatal {m : Mgr} {s : Snap} {e : Err} (h : m.rollback s = .error e) : recoverable e = false := by
  have : e = .host .auth .internalError := by
    unfold Mgr.rollback at h
    split at h
    · cases h; rfl
    · split at h
      · rename_i he; cases h; exact rollbackAccts_internal _ _ _ he
      · split at h
        · cases h; rfl
        · split at h
          · rename_i he; cases h; exact rollbackInvokers_internal _ _ _ he
          · cases h
  rw [this]; rfl

/-! ### invocations -/

theorem init_hok {E : HEnv} {orig : List Acct} {st : Store LKey LVal} (hst : StOk E st) (ho : Fresh orig) :
    HOk E orig (Host.init st orig) := by
  refine ⟨hst, ⟨?_, ?_, ?_, rfl⟩, ⟨rfl, ?_, List.Pairwise.nil, ?_, ?_, fun x hx => (by cases hx),
    fun u hu => (by cases hu)⟩, rfl, trivial, Nat.zero_le _, ?_, fun t ht => (by cases ht)⟩
  · intro a ha
    obtain ⟨r, hr, _⟩ := ho.tr a ha
    rw [hr]; exact TWF.new r
  · intro t ht; cases ht
  · rfl
  · intro i a ha
    have hmem : a ∈ orig := List.mem_of_getElem? ha
    obtain ⟨r, hr, hrr⟩ := ho.tr a hmem
    refine ⟨a, ha, ⟨rfl, rfl, ?_, ?_, ?_, ?_, fun u hu => (by cases hu), fun _ => (by rw [hr]; exact ⟨rfl, rfl⟩), fun hu => ?_⟩⟩
    · rw [hr]; exact Nat.le_refl 0
    · intro _; rw [hr]; rfl
    · intro p n hn
      rw [hr] at hn
      have := hrr p n hn
      rw [this]
      simp [Host.init]
    · intro pre m post hs
      rw [hr] at hs
      simp [Tracker.new] at hs
    · rw [hr] at hu
      exact absurd (hu.symm.trans (hrr [] r (Inv.at?_nil r))) (by decide)
  · intro u hu; cases hu
  · intro pre u post hs; simp [Host.init] at hs
  · intro t ht; cases ht

theorem init_strong {E : HEnv} {orig : List Acct} {st : Store LKey LVal} (ho : Fresh orig) : HStrong E (ledger E st) (Host.init st orig) := by
  refine ⟨LLe.refl _, fun u hu => (by cases hu), fun i a ha hv => ?_, fun i j a b ha _ hv => ?_, fun c hc => absurd rfl hc, fun c => ?_⟩
  · rw [ho.unverified a (List.mem_of_getElem? ha)] at hv; cases hv
  · rw [ho.unverified a (List.mem_of_getElem? ha)] at hv; cases hv
  · show Leads (execAt (ledger E st) c) [] (execAt (ledger E st) c)
    cases execAt (ledger E st) c with
    | none => trivial
    | some x => rfl

/-- The host inside the host function frame. -/
def entered (st : Store LKey LVal) (orig : List Acct) : Host :=
  { Host.init st orig with ctx := [{ cid := none, fn := [], inst := [], storage := none }], trace := [[(none, [])]] }

theorem entered_hok {E : HEnv} {orig : List Acct} {st : Store LKey LVal} (hst : StOk E st) (ho : Fresh orig) :
    HOk E orig (entered st orig) := by
  have h := init_hok hst ho
  have hok : StackOk [((none : Option Nat), ([] : Name))] := ⟨trivial, fun id h => (by cases h), fun h => absurd h (by decide), fun _ => rfl⟩
  refine ⟨h.st, h.mwf, h.uok, rfl, hok, (by show 1 ≤ depthLimit; decide), ?_, fun t ht => (by cases ht)⟩
  intro t ht
  simp only [entered, List.mem_singleton] at ht
  subst ht
  exact ⟨hok, by decide⟩

theorem entered_strong {E : HEnv} {orig : List Acct} {st : Store LKey LVal} (ho : Fresh orig) : HStrong E (ledger E st) (entered st orig) :=
  (init_strong (E := E) (st := st) ho).mono rfl rfl (LLe.refl _) (by simp [Host.init]) (fun _ c hc => absurd rfl hc)
    (XSame.refl _) rfl

/-- What is left of an invocation. -/
structure Invoked (E : HEnv) (orig : List Acct) (st : Store LKey LVal) (r : Host × Res RVal) : Prop where
  trace : ∀ t ∈ r.1.trace, StackOk t ∧ t.length ≤ depthLimit
  fatal : r.1.fatal = true → ∃ e, r.2 = .error e ∧ recoverable e = false
  failed : ∀ e, r.2 = .error e → r.1.st.map = st.map ∧ r.1.st.mode = st.mode ∧ successfulEvents r.1.events = []
  strong : ∀ v, r.2 = .ok v → HStrong E (ledger E st) r.1 ∧ UOk orig r.1.auth ∧ SLe E st r.1.st ∧ List.Forall₂ ALe orig r.1.auth.accts ∧ (∀ a ∈ r.1.auth.accts, a.borrowed = false)
  iso : ∀ v c, r.2 = .ok v → (∀ t ∈ r.1.trace, ∀ fn, t.head? ≠ some (some c, fn)) → Kept c (ledger E st) (ledger E r.1.st)
  ctx : r.1.ctx = []
  fpE : st.mode = .enforcing → r.1.st.footprint = st.footprint

theorem invoke_spec {E : HEnv} {orig : List Acct} {st : Store LKey LVal} (hst : StOk E st) (ho : Fresh orig) (hf : HostFn) :
    Invoked E orig st (invoke E (Host.init st orig) hf) := by
  have hb := hostFnBody_good hf (entered_hok hst ho)
  have hbe : Good E orig (entered st orig) ((hostFnBody E hf (entered st orig)).1, escalate (hostFnBody E hf (entered st orig)).2) := by
    refine Good.mapRes (r := (hostFnBody E hf (entered st orig)).2) hb ?_ ?_
    · intro v hv
      cases hr : (hostFnBody E hf (entered st orig)).2 with
      | ok w => exact Or.inl ⟨w, rfl⟩
      | error e => rw [hr] at hv; cases hv
    · intro e he hre; exact ⟨e, escalate_fatal he, hre⟩
  have he : Good E orig (entered st orig) (finish E (hostFnBody E hf (entered st orig)).1 (escalate (hostFnBody E hf (entered st orig)).2)) := by
    cases hr : escalate (hostFnBody E hf (entered st orig)).2 with
    | error err => rw [hr] at hbe; exact hbe
    | ok w => rw [hr] at hbe; exact Good.bind hbe (finish_good hb.ok _ (Good.refl hb.ok _))
  have hinv : invoke E (Host.init st orig) hf =
      (let e := finish E (hostFnBody E hf (entered st orig)).1 (escalate (hostFnBody E hf (entered st orig)).2)
       let q := popContext e.1 (rollbackIf e.2 { map := st.map, events := 0, auth := (Host.init st orig).auth.snapshot })
       match q.2 with
       | .error err => (q.1, .error err)
       | .ok () => if q.1.ctx.length ≠ 0 then (q.1, .error (.host .context .internalError)) else (q.1, e.2)) := by
    unfold invoke withFrame
    rw [if_neg (show ¬ ((Host.init st orig).ctx.length ≥ depthLimit) from (by decide : ¬ (0 ≥ depthLimit)))]
    rfl
  rw [hinv]
  generalize finish E (hostFnBody E hf (entered st orig)).1 (escalate (hostFnBody E hf (entered st orig)).2) = fin at he
  clear hinv hbe hb
  obtain ⟨s2, r2⟩ := fin
  simp only
  obtain ⟨c2, hs2⟩ : ∃ c2, s2.ctx = [c2] := by
    have := he.le.ctx.same
    generalize hx : s2.ctx = x at this
    cases this with
    | cons _ h => cases h with | nil => exact ⟨_, rfl⟩
  have hstk : s2.auth.stack = [] := he.le.auth.stack
  have hpo : ∀ m : Mgr, m.stack = [] → m.popOnly = m := fun m h => by unfold Mgr.popOnly; rw [h]
  have hfat : s2.fatal = true → ∃ e, r2 = .error e ∧ recoverable e = false := by
    intro h
    rcases he.fatal h with h1 | h1
    · cases h1
    · exact h1
  cases r2 with
  | ok v =>
    simp only [rollbackIf, popContext, hs2, Mgr.pop, List.length_nil, ne_eq, not_true, if_false]
    rw [hpo _ hstk]
    refine ⟨he.ok.trace, hfat, fun e h => (by cases h), fun v' _ => ⟨?_, he.ok.uok, he.le.st, he.le.auth.accts, ?_⟩, fun _ c _ hq => ?_, rfl, he.le.st.fpE⟩
    rotate_right
    · obtain ⟨new, hn⟩ := he.le.trace
      refine he.le.iso c ⟨new, hn.symm, fun t ht => hq t ?_⟩ (by intro hx; cases hx)
      show t ∈ s2.trace
      rw [← hn]; exact List.mem_append_left _ ht
    · exact (he.strong (entered_strong ho) ⟨v, rfl⟩).mono rfl rfl (LLe.refl _) (List.suffix_refl _) (fun _ c hc => absurd rfl hc)
        (XSame.refl _) rfl
    · intro a ha
      obtain ⟨b, hb, hr⟩ := forall₂_mem_right he.le.auth.accts ha
      rw [hr.borrowed]; exact ho.unborrowed b hb
  | error err =>
    simp only [rollbackIf, popContext, hs2]
    have hev : successfulEvents (rollbackEvents s2.events 0) = [] := (rollbackEvents_eq (a := []) (b := s2.events) (List.nil_prefix)).2
    generalize hpop : s2.auth.pop (some (Host.init st orig).auth.snapshot) = q
    obtain ⟨m, rq⟩ := q
    cases rq with
    | error e2 =>
      simp only
      refine ⟨he.ok.trace, fun _ => ⟨e2, rfl, ?_⟩, fun e _ => ⟨rfl, he.le.st.mode, hev⟩, fun v h => (by cases h), fun v _ h => (by cases h), rfl, he.le.st.fpE⟩
      unfold Mgr.pop at hpop
      simp only at hpop
      cases hrb : s2.auth.rollback (Host.init st orig).auth.snapshot with
      | ok m' => rw [hrb] at hpop; cases hpop
      | error e3 =>
        rw [hrb] at hpop
        cases hpop
        exact rollback_fatal hrb
    | ok u =>
      simp only [List.length_nil, ne_eq, not_true, if_false]
      exact ⟨he.ok.trace, hfat, fun e _ => ⟨rfl, he.le.st.mode, hev⟩, fun v h => (by cases h), fun v _ h => (by cases h), rfl, he.le.st.fpE⟩

end Soroban.Host
