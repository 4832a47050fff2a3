import Verif.Lemmas.HostReach
/-! What creating a contract and uploading code do to the ledger. -/
namespace Soroban.Host
open Soroban Soroban.Auth Soroban.Storage Soroban.Storage.Spec

theorem liftHas {E : HEnv} {s s1 : Host} (h : StOk E s.st) {k : LKey} {b : Bool}
    (heq : liftSt s (fun st => has E.sto st k) = (s1, .ok b)) :
    OnlySt E s s1 ∧ ledger E s1.st = ledger E s.st ∧ (ledger E s.st k).isSome = b := by
  have h1 : OnlySt E s (liftSt s (fun st => has E.sto st k)).1 := liftSt_read (has_sle h _) (has_ledger h _)
  rw [heq] at h1
  exact ⟨h1, (congrArg (fun r => ledger E r.1.st) heq).symm.trans (has_ledger h _), has_val h (congrArg Prod.snd heq)⟩

theorem liftGet {E : HEnv} {s s1 : Host} (h : StOk E s.st) {k : LKey} {e : Entry LVal}
    (heq : liftSt s (fun st => getEntry E.sto st k) = (s1, .ok e)) :
    OnlySt E s s1 ∧ ledger E s1.st = ledger E s.st ∧ ledger E s.st k = some e := by
  have h1 : OnlySt E s (liftSt s (fun st => getEntry E.sto st k)).1 := liftSt_read (getEntry_sle h _) (getEntry_ledger h _)
  rw [heq] at h1
  exact ⟨h1, (congrArg (fun r => ledger E r.1.st) heq).symm.trans (getEntry_ledger h _), (getEntry_val h (congrArg Prod.snd heq)).1⟩

theorem liftPut {E : HEnv} {s s1 : Host} (h : StOk E s.st) {k : LKey} {e : Option (Entry LVal)} (he : LiveEntry E.sto k e)
    (heq : liftSt s (fun st => putOpt E.sto st k e) = (s1, .ok ())) : ledger E s1.st = (ledger E s.st).set k e := by
  have h1 := congrArg (fun r => ledger E r.1.st) heq
  have h2 : (putOpt E.sto s.st k e).2 = .ok () := congrArg Prod.snd heq
  rw [← show ledger E (putOpt E.sto s.st k e).1 = ledger E s1.st from h1]
  rcases putOpt_ledger h he with ⟨_, hL⟩ | ⟨⟨err, hx⟩, _⟩
  · exact hL
  · rw [hx] at h2; cases h2

theorem createWithId_ok {E : HEnv} {s s' : Host} (h : StOk E s.st) {id : Nat} {ex : Exec} (hc : createWithId E s id ex = (s', .ok ())) :
    ledger E s.st (.inst id) = none ∧
    ∃ l, newLiveUntil E.sto (.inst id) = .ok l ∧ ledger E s'.st = (ledger E s.st).set (.inst id) (some (.inst ex [], l)) := by
  unfold createWithId at hc
  split at hc
  · cases hc
  · cases hc
  · rename_i s1 heq
    obtain ⟨h1, hl1, hn⟩ := liftHas h heq
    have hnone : ledger E s.st (.inst id) = none := by simpa using hn
    have h2 := verifyExec_only h1.ok ex
    have hl2 := verifyExec_ledger h1.ok ex
    split at hc
    · cases hc
    · rename_i s2 heq2
      rw [heq2] at h2 hl2
      simp only at h2 hl2
      refine ⟨hnone, ?_⟩
      unfold storeInstance at hc
      split at hc
      · cases hc
      · rename_i s3 heq3
        obtain ⟨_, _, hx⟩ := liftHas h2.ok heq3
        rw [hl2, hl1, hnone] at hx; cases hx
      · rename_i s3 heq3
        obtain ⟨h3, hl3, _⟩ := liftHas h2.ok heq3
        simp only at hc
        split at hc
        · cases hc
        · rename_i l hl
          refine ⟨l, hl, ?_⟩
          rw [liftPut h3.ok (newLive_live hl _) hc, hl3, hl2, hl1]
          rfl

theorem createWithId_ctx {E : HEnv} {s s' : Host} (h : StOk E s.st) {id : Nat} {ex : Exec} {r : Res Unit}
    (hc : createWithId E s id ex = (s', r)) : OnlySt E s s' := by
  have := createWithId_only h id ex
  rw [hc] at this; exact this

/-- The state in which the authorization of the deployer is required. -/
def createState (s : Host) (d : Option Addr) (args : CreateArgs) : Host :=
  match d with
  | none => s
  | some _ => { s with auth := s.auth.push (.create args) }

theorem deployer_le {E : HEnv} {orig : List Acct} {s s1 : Host} (hs : HOk E orig s) {d : Option Addr} {args : CreateArgs}
    {run : Nat → Host → Host × Res RVal} (hr : ∀ i s1, HOk E orig s1 → Good E orig s1 (run i s1)) {r : Res Unit}
    (h : requireDeployer E (createState s d args) d run = (s1, r)) :
    HOk E orig s1 ∧ CtxLe s.ctx s1.ctx ∧ s.trace <:+ s1.trace ∧ LLe E (ledger E s.st) (ledger E s1.st) := by
  have aux : ∀ s0, HOk E orig s0 → s0.ctx = s.ctx → s0.trace = s.trace → s0.st = s.st → requireDeployer E s0 d run = (s1, r) →
      HOk E orig s1 ∧ CtxLe s.ctx s1.ctx ∧ s.trace <:+ s1.trace ∧ LLe E (ledger E s.st) (ledger E s1.st) := by
    intro s0 hs0 h1 h2 h3 h4
    have := requireDeployer_good hs0 d hr
    rw [h4] at this
    rw [← h1, ← h2, ← h3]
    exact ⟨this.ok, this.le.ctx, this.le.trace, this.le.st.ledger⟩
  cases d with
  | none => exact aux s hs rfl rfl rfl h
  | some d => exact aux _ (authPush_hok hs args) rfl rfl rfl h

/-- Creating a contract with an authorization frame. -/
theorem createContract_ok {E : HEnv} {orig : List Acct} {s s' : Host} (hs : HOk E orig s) {d : Option Addr} {args : CreateArgs}
    {run : Nat → Host → Host × Res RVal} (hr : ∀ i s1, HOk E orig s1 → Good E orig s1 (run i s1))
    {f : Host → Host × Res RVal} (hf : ∀ s1, HOk E orig s1 → Good E orig s1 (f s1)) {v : RVal}
    (hc : createContract E s d args run f = (s', .ok v)) :
    v = .other (E.newId args.preimage args.fromAsset) ∧ preimageMatches args = true ∧
    ∃ s1 s2 s3, requireDeployer E (createState s d args) d run = (s1, .ok ()) ∧
      createWithId E s1 (E.newId args.preimage args.fromAsset) args.exec = (s2, .ok ()) ∧
      HOk E orig s2 ∧ HLe E s2 s3 ∧ s'.st = s3.st ∧ s'.trace = s3.trace ∧ s'.auth.uses = s3.auth.uses := by
  have key : ∀ s0 s', HOk E orig s0 → createWithAuth E s0 d args run f = (s', .ok v) →
      v = .other (E.newId args.preimage args.fromAsset) ∧ preimageMatches args = true ∧
      ∃ s1 s2, requireDeployer E s0 d run = (s1, .ok ()) ∧
        createWithId E s1 (E.newId args.preimage args.fromAsset) args.exec = (s2, .ok ()) ∧ HOk E orig s2 ∧ HLe E s2 s' := by
    intro s0 s' hs0 hc
    have h1 := requireDeployer_good hs0 d hr
    unfold createWithAuth at hc
    generalize hq : requireDeployer E s0 d run = q at hc h1
    obtain ⟨s1, r1⟩ := q
    cases r1 with
    | error e => cases hc
    | ok u =>
      simp only at hc
      split at hc
      · rename_i hp
        unfold createInstance at hc
        generalize hw : createWithId E s1 (E.newId args.preimage args.fromAsset) args.exec = w at hc
        have hwo := createWithId_only (E := E) h1.ok.st (E.newId args.preimage args.fromAsset) args.exec
        rw [hw] at hwo
        obtain ⟨s2, r2⟩ := w
        cases r2 with
        | error e => cases hc
        | ok u2 =>
          have hok2 : HOk E orig s2 := (hwo.good (α := Unit) h1.ok (.ok ())).ok
          simp only at hc
          by_cases hfa : args.fromAsset = true
          · rw [if_pos hfa] at hc
            have hi := initAsset_good hok2 (E.newId args.preimage args.fromAsset) hf
            generalize initAsset E s2 (E.newId args.preimage args.fromAsset) f = x at hi hc
            obtain ⟨s3, r3⟩ := x
            cases r3 with
            | error e => cases hc
            | ok u3 => cases hc; exact ⟨rfl, hp, s1, s2, rfl, hw, hok2, hi.le⟩
          · rw [if_neg hfa] at hc
            have hi := callConstructor_good hok2 (E.newId args.preimage args.fromAsset) args.ctorArgs hf
            generalize callConstructor E s2 (E.newId args.preimage args.fromAsset) args.ctorArgs f = x at hi hc
            obtain ⟨s3, r3⟩ := x
            cases r3 with
            | error e => cases hc
            | ok u3 => cases hc; exact ⟨rfl, hp, s1, s2, rfl, hw, hok2, hi.le⟩
      · cases hc
  unfold createContract at hc
  cases d with
  | none =>
    obtain ⟨h1, h2, s1, s2, h3, h4, h5, h6⟩ := key s s' hs hc
    exact ⟨h1, h2, s1, s2, s', h3, h4, h5, h6, rfl, rfl, rfl⟩
  | some d =>
    simp only at hc
    generalize hx : createWithAuth E { s with auth := s.auth.push (.create args) } (some d) args run f = x at hc
    obtain ⟨s3, r3⟩ := x
    cases hc
    obtain ⟨h1, h2, s1, s2, h3, h4, h5, h6⟩ := key _ s3 (authPush_hok hs args) hx
    refine ⟨h1, h2, s1, s2, s3, h3, h4, h5, h6, rfl, rfl, ?_⟩
    show s3.auth.popOnly.uses = s3.auth.uses
    unfold Mgr.popOnly; split <;> rfl

theorem uploadWasm_ok {E : HEnv} {s s' : Host} (h : StOk E s.st) {c w : Nat} (hc : uploadWasm E s c w = (s', .ok ())) :
    (∃ l, ledger E s.st (.code c) = some (.code w, l) ∧ ledger E s'.st = ledger E s.st) ∨
    (∀ l, ledger E s.st (.code c) ≠ some (.code w, l)) ∧
    ∃ l, newLiveUntil E.sto (.code c) = .ok l ∧ ledger E s'.st = (ledger E s.st).set (.code c) (some (.code w, l)) := by
  unfold uploadWasm at hc
  split at hc
  · cases hc
  · rename_i s1 heq
    obtain ⟨h1, hl1, _⟩ := liftHas h heq
    split at hc
    · cases hc
    · rename_i s2 v l heq2
      obtain ⟨h2, hl2, hv⟩ := liftGet h1.ok heq2
      split at hc
      · rename_i hvw
        cases hc
        left; exact ⟨l, by rw [← hl1, hv, hvw], by rw [hl2, hl1]⟩
      · rename_i hvw
        split at hc
        · cases hc
        · rename_i l' hl
          right
          refine ⟨fun l2 hl2' => hvw ?_, l', hl, by rw [liftPut h2.ok (newLive_live hl _) hc, hl2, hl1]⟩
          rw [hl1, hl2'] at hv; cases hv; rfl
  · rename_i s1 heq
    obtain ⟨h1, hl1, hnone⟩ := liftHas h heq
    split at hc
    · cases hc
    · rename_i l' hl
      right; refine ⟨fun l2 hl2 => (by rw [hl2] at hnone; cases hnone), l', hl, by rw [liftPut h1.ok (newLive_live hl _) hc, hl1]⟩

end Soroban.Host
