import Verif.Lemmas.SacOps
/-!
Every successful call of the asset contract is one of the steps of `OpStep`.
-/
namespace Soroban.Sac
open Soroban Soroban.Storage Soroban.Storage.Spec Soroban.Auth Soroban.Sac.Spec

/-- How authorization to hold is set. -/
inductive AuthzStep (E : SEnv) (L L' : Led) (b : Bool) : Addr → Prop
  | same {i id : Nat} {t : TrustE} (ha : E.asset = .credit i) (hi : i ≠ id) (hv : valueOf (L (.trust id)) = some (.trust t))
      (hb : t.authorized = b) (h : L' = L) : AuthzStep E L L' b (.account id)
  | trust {i id : Nat} {t : TrustE} (ha : E.asset = .credit i) (hi : i ≠ id) (hv : valueOf (L (.trust id)) = some (.trust t))
      (h : L' = L.set (.trust id) (some (.trust { t with authorized := b, maintain := !b }, none))) :
      AuthzStep E L L' b (.account id)
  | balance {c : Nat} {b0 : BalanceV} {l : Option Nat} (hv : valueOf (L (.balance c)) = some (.balance b0))
      (h : L' = L.set (.balance c) (some (.balance { b0 with authorized := b }, l))) : AuthzStep E L L' b (.contract c)
  | newBalance {c : Nat} {cl : Bool} {l : Option Nat} (hv : valueOf (L (.balance c)) = none)
      (h : L' = L.set (.balance c) (some (.balance { amount := 0, authorized := b, clawback := cl }, l))) :
      AuthzStep E L L' b (.contract c)

theorem setAuthorization_ok {E : SEnv} {s s' : Tok} {id : Nat} {b : Bool} {u : Unit} (hs : StOk E s.st)
    (h : setAuthorization E id b s = .ok (u, s')) :
    ∃ L', AuthzStep E (led E s) L' b (.account id) ∧ To E s s' L' := by
  unfold setAuthorization at h
  cases ha : E.asset with
  | native => rw [ha] at h; exact (fail_ok.mp h).elim
  | credit i =>
    rw [ha] at h
    dsimp only at h
    split at h
    · exact (fail_ok.mp h).elim
    · rename_i hi
      unfold setTrustlineAuthorization at h
      mbind h with t s1 h1
      obtain ⟨q, hv⟩ := readTrustline_ok hs h1
      split at h
      · rename_i hb
        obtain ⟨-, rfl⟩ := M.pure_ok.mp h
        exact ⟨_, .same ha hi hv hb rfl, q⟩
      · have q2 := putClassic_ok rfl q.ok h
        rw [q.led] at q2
        exact ⟨_, .trust ha hi hv rfl, q.trans q2⟩

theorem writeAuthorization_ok {E : SEnv} {s s' : Tok} {a : Addr} {b : Bool} {u : Unit} (hs : StOk E s.st)
    (h : writeAuthorization E a b s = .ok (u, s')) :
    (b = false → ∃ i acc, E.asset = .credit i ∧ valueOf (led E s (.account i)) = some (.account acc) ∧ acc.revocable = true) ∧
    ∃ L', AuthzStep E (led E s) L' b a ∧ To E s s' L' := by
  unfold writeAuthorization at h
  mbind h with ok s1 h1
  have hm : To E s s1 (led E s) ∧ (b = false → ok = true → ∃ i acc, E.asset = .credit i ∧
      valueOf (led E s (.account i)) = some (.account acc) ∧ acc.revocable = true) := by
    unfold mayAuthorize at h1
    split at h1
    · rename_i hb
      obtain ⟨rfl, rfl⟩ := M.pure_ok.mp h1
      exact ⟨To.refl hs, fun h => by rw [hb] at h; cases h⟩
    · obtain ⟨q, hr⟩ := issuerFlag_ok hs h1
      refine ⟨q, fun _ hk => ?_⟩
      cases ha : E.asset with
      | native => rw [ha] at hr; dsimp only at hr; rw [hr] at hk; cases hk
      | credit i =>
        rw [ha] at hr
        obtain ⟨acc, e1, e2⟩ := hr
        exact ⟨i, acc, rfl, e1, by rw [← e2]; exact hk⟩
  obtain ⟨q1, hrev⟩ := hm
  split at h
  · rename_i hok
    refine ⟨fun hb => hrev hb hok, ?_⟩
    cases a with
    | account id =>
      obtain ⟨L', hst, q2⟩ := setAuthorization_ok q1.ok h
      rw [q1.led] at hst
      exact ⟨L', hst, q1.trans q2⟩
    | contract c =>
      dsimp only at h
      mbind h with v s2 h2
      obtain ⟨q2, hv⟩ := tryGetData_ok q1.ok h2
      rw [q1.led] at q2 hv
      cases v with
      | some v =>
        dsimp only at h
        mbind h with b0 s3 h3
        obtain ⟨rfl, rfl⟩ := asBalance_ok h3
        obtain ⟨l, q3⟩ := writeContractBalance_ok q2.ok h
        rw [q2.led] at q3
        exact ⟨_, .balance hv.symm rfl, (q1.trans q2).trans q3⟩
      | none =>
        dsimp only at h
        mbind h with cl s3 h3
        obtain ⟨q3, -⟩ := issuerFlag_ok q2.ok h3
        rw [q2.led] at q3
        obtain ⟨l, q4⟩ := writeContractBalance_ok q3.ok h
        rw [q3.led] at q4
        exact ⟨_, .newBalance hv.symm rfl, ((q1.trans q2).trans q3).trans q4⟩
  · exact (fail_ok.mp h).elim

/-- Who can be clawed back. -/
def Clawbackable (E : SEnv) (L : Led) : Addr → Prop
  | .account id => ∃ i t, E.asset = .credit i ∧ valueOf (L (.trust id)) = some (.trust t) ∧ t.clawback = true
  | .contract c => ∃ b, valueOf (L (.balance c)) = some (.balance b) ∧ b.clawback = true

theorem checkClawbackable_ok {E : SEnv} {s s' : Tok} {a : Addr} {u : Unit} (hs : StOk E s.st)
    (h : checkClawbackable E a s = .ok (u, s')) : Clawbackable E (led E s) a ∧ To E s s' (led E s) := by
  cases a with
  | account id =>
    unfold checkClawbackable at h
    dsimp only at h
    cases ha : E.asset with
    | native => rw [ha] at h; exact (fail_ok.mp h).elim
    | credit i =>
      rw [ha] at h
      dsimp only at h
      split at h
      · exact (fail_ok.mp h).elim
      · mbind h with t s1 h1
        obtain ⟨q, hv⟩ := readTrustline_ok hs h1
        split at h
        · rename_i hc
          obtain ⟨-, rfl⟩ := M.pure_ok.mp h
          exact ⟨⟨i, t, ha, hv, hc⟩, q⟩
        · exact (fail_ok.mp h).elim
  | contract c =>
    unfold checkClawbackable at h
    mbind h with v s1 h1
    obtain ⟨q, hv⟩ := tryGetData_ok hs h1
    cases v with
    | none => exact (fail_ok.mp h).elim
    | some v =>
      dsimp only at h
      mbind h with b s2 h2
      obtain ⟨rfl, rfl⟩ := asBalance_ok h2
      split at h
      · rename_i hc
        obtain ⟨-, rfl⟩ := M.pure_ok.mp h
        exact ⟨⟨b, hv.symm, hc⟩, q⟩
      · exact (fail_ok.mp h).elim

/-- How a trustline is created. -/
inductive TrustStep (E : SEnv) (L L' : Led) : Addr → List Addr → Prop
  | contract {c : Nat} (h : L' = L) : TrustStep E L L' (.contract c) []
  | exists_ {i id : Nat} {v : SVal} (ha : E.asset = .credit i) (hv : valueOf (L (.trust id)) = some v) (h : L' = L) :
      TrustStep E L L' (.account id) []
  | create {i id : Nat} {L1 : Led} {issuer a : AccountE} (ha : E.asset = .credit i) (hi : id ≠ i)
      (hv : valueOf (L (.trust id)) = none) (e : Elsewhere E.asset E.baseReserve L L1)
      (hiss : valueOf (L1 (.account i)) = some (.account issuer)) (hacc : valueOf (L1 (.account id)) = some (.account a))
      (hsub : a.numSub < 1000) (hbal : minBalance E.baseReserve a + E.baseReserve ≤ a.balance)
      (h : L' = (L1.set (.trust id) (some (.trust
          { balance := 0, limit := i64Max, authorized := !issuer.required, maintain := false,
            clawback := issuer.clawback, liab := none }, none))).set (.account id)
          (some (.account { a with numSub := a.numSub + 1 }, none))) :
      TrustStep E L L' (.account id) [.account id]

theorem createTrustline_ok {E : SEnv} {s s' : Tok} {a : Addr} {u : Unit} (hA : AuthOk E) (hs : StOk E s.st)
    (h : createTrustlineIfNeeded E a s = .ok (u, s')) :
    ∃ L' as, TrustStep E (led E s) L' a as ∧ Authed E s s' L' as := by
  unfold createTrustlineIfNeeded at h
  cases a with
  | contract c =>
    obtain ⟨-, rfl⟩ := M.pure_ok.mp h
    exact ⟨_, _, .contract rfl, hs, rfl, rfl, rfl, fun _ h => by cases h⟩
  | account id =>
    dsimp only at h
    cases ha : E.asset with
    | native => rw [ha] at h; exact (fail_ok.mp h).elim
    | credit i =>
      rw [ha] at h
      dsimp only at h
      split at h
      · exact (fail_ok.mp h).elim
      · rename_i hi
        mbind h with v s1 h1
        obtain ⟨q1, hv⟩ := tryGetClassic_ok hs h1
        cases v with
        | some v =>
          obtain ⟨-, rfl⟩ := M.pure_ok.mp h
          exact ⟨_, _, .exists_ ha hv.symm rfl, q1.ok, q1.led, q1.events, q1.auths, fun _ h => by cases h⟩
        | none =>
          dsimp only at h
          mbind h with u2 s2 h2
          obtain ⟨L1, e, q2⟩ := requireAuth_ok hA q1.ok h2
          rw [q1.led] at e
          mbind h with iss s3 h3
          obtain ⟨q3, hiss⟩ := loadAccount_ok q2.ok h3
          rw [q2.led] at q3 hiss
          mbind h with va s4 h4
          obtain ⟨q4, hacc⟩ := tryGetClassic_ok q3.ok h4
          rw [q3.led] at q4 hacc
          cases va with
          | none => exact (fail_ok.mp h).elim
          | some va =>
            dsimp only at h
            mbind h with acc s5 h5
            obtain ⟨rfl, rfl⟩ := asAccount_ok h5
            split at h
            · exact (fail_ok.mp h).elim
            · rename_i hsub
              mbind h with r s6 h6
              mlift h6
              obtain ⟨h0, rfl⟩ := accountRange_ok h6
              mbind h with need s7 h7
              mlift h7
              obtain rfl := checked64_eq h7
              split at h
              · exact (fail_ok.mp h).elim
              · rename_i hbal
                mbind h with u8 s8 h8
                have q8 := putClassic_ok rfl q4.ok h8
                rw [q4.led] at q8
                have q9 := putClassic_ok rfl q8.ok h
                rw [q8.led] at q9
                have q := (q3.trans q4).trans (q8.trans q9)
                exact ⟨_, _, .create ha hi hv.symm e hiss hacc.symm (Nat.not_le.mp hsub) (Int.not_lt.mp hbal) rfl,
                  q.ok, q.led, q.events.trans (q2.events.trans q1.events), by rw [q.auths, q2.auths, q1.auths], q2.real⟩

/-- Nothing changes but lifetimes of entries that are not allowances. -/
structure Quiet (L L' : Led) : Prop where
  value : ∀ k, valueOf (L' k) = valueOf (L k)
  allow : ∀ f sp, L' (.allowance f sp) = L (.allowance f sp)

theorem Quiet.refl (L : Led) : Quiet L L := ⟨fun _ => rfl, fun _ _ => rfl⟩

theorem Quiet.trans {A B C : Led} (h1 : Quiet A B) (h2 : Quiet B C) : Quiet A C :=
  ⟨fun k => (h2.value k).trans (h1.value k), fun f sp => (h2.allow f sp).trans (h1.allow f sp)⟩

theorem bump_quiet {E : SEnv} {s s' : Tok} {u : Unit} (hs : StOk E s.st) (h : bumpInstance E s = .ok (u, s')) :
    ∃ L', Quiet (led E s) L' ∧ To E s s' L' := by
  unfold bumpInstance at h
  obtain ⟨e, e', hk, hx, q⟩ := extendData_ok (by decide) hs h
  exact ⟨_, ⟨value_set_same hk (extended_ok_value hx), fun _ _ => set_ne (by simp)⟩, q⟩

/-- The balance `balance` reports: the holding, or the largest 64-bit amount for the issuer. -/
def reported (asset : Asset) (L : Led) (a : Addr) : Int := if isIssuer asset a then i64Max else balanceOf asset L a

theorem readBalance_ok {E : SEnv} {s s' : Tok} {a : Addr} {x : Int} (hs : StOk E s.st)
    (h : readBalance E a s = .ok (x, s')) : ∃ L', Quiet (led E s) L' ∧ To E s s' L' ∧ x = reported E.asset (led E s) a := by
  unfold readBalance at h
  unfold reported balanceOf
  cases a with
  | account id =>
    unfold getClassicBalance at h
    dsimp only at h
    cases ha : E.asset with
    | native =>
      rw [ha] at h
      unfold getAccountBalance at h
      dsimp only at h
      mbind h with v s1 h1
      obtain ⟨q, hv⟩ := tryGetClassic_ok hs h1
      cases v with
      | none => exact (fail_ok.mp h).elim
      | some v =>
        dsimp only at h
        mbind h with acc s2 h2
        obtain ⟨rfl, rfl⟩ := asAccount_ok h2
        mbind h with r s3 h3
        mlift h3
        split at h
        · exact (fail_ok.mp h).elim
        · split at h
          · exact (fail_ok.mp h).elim
          · obtain ⟨rfl, rfl⟩ := M.pure_ok.mp h
            refine ⟨_, Quiet.refl _, q, ?_⟩
            simp only [isIssuer, holdingKey, ← hv, amountIn, Bool.false_eq_true, if_false]
    | credit i =>
      rw [ha] at h
      dsimp only at h
      split at h
      · rename_i hi
        obtain ⟨rfl, rfl⟩ := M.pure_ok.mp h
        refine ⟨_, Quiet.refl _, To.refl hs, ?_⟩
        rw [if_pos]
        simp [isIssuer, hi]
      · rename_i hi
        unfold getTrustlineBalance at h
        mbind h with t s1 h1
        obtain ⟨q, hv⟩ := readTrustline_ok hs h1
        mbind h with r s3 h3
        mlift h3
        split at h
        · exact (fail_ok.mp h).elim
        · split at h
          · exact (fail_ok.mp h).elim
          · obtain ⟨rfl, rfl⟩ := M.pure_ok.mp h
            refine ⟨_, Quiet.refl _, q, ?_⟩
            rw [if_neg]
            · simp only [holdingKey, hv, amountIn]
            · simp only [isIssuer, Addr.account.injEq, decide_eq_true_eq]
              exact fun h => hi h.symm
  | contract c =>
    have hni : isIssuer E.asset (.contract c) = false := by
      unfold isIssuer; cases E.asset <;> simp
    rw [hni]
    dsimp only at h
    mbind h with v s1 h1
    obtain ⟨q, hv⟩ := tryGetData_ok hs h1
    cases v with
    | none =>
      obtain ⟨rfl, rfl⟩ := M.pure_ok.mp h
      refine ⟨_, Quiet.refl _, q, ?_⟩
      simp only [holdingKey, ← hv, amountIn, Bool.false_eq_true, if_false]
    | some v =>
      dsimp only at h
      mbind h with u2 s2 h2
      obtain ⟨e, e', hk, hx, q2⟩ := extendData_ok (by decide) q.ok h2
      rw [q.led] at hk q2
      mbind h with b s3 h3
      obtain ⟨rfl, rfl⟩ := asBalance_ok h3
      obtain ⟨rfl, rfl⟩ := M.pure_ok.mp h
      refine ⟨_, ⟨value_set_same hk (extended_ok_value hx), fun _ _ => set_ne (by simp)⟩, q.trans q2, ?_⟩
      simp only [holdingKey, ← hv, amountIn, Bool.false_eq_true, if_false]

/-- The event of a transfer. -/
def transferEvent (asset : Asset) (f t : Addr) (d : Int) : TokEvent :=
  if f = t then .transfer f t d
  else if isIssuer asset f then .mint t d
  else if isIssuer asset t then .burn f d
  else .transfer f t d

/-- What a successful call does: the new ledger, the addresses that authorized it and the events it emitted. -/
inductive OpStep (E : SEnv) (L : Led) : Op → Ret → Led → List Addr → List TokEvent → Prop
  | allowance {f sp : Addr} {L' : Led} (q : Quiet L L') :
      OpStep E L (.allowance f sp) (.amount (allowanceOf E.li.seq L f sp)) L' [] []
  | balance {a : Addr} {L' : Led} (q : Quiet L L') : OpStep E L (.balance a) (.amount (reported E.asset L a)) L' [] []
  | authorized {a : Addr} {L' : Led} (q : Quiet L L') : OpStep E L (.authorized a) (.bool (authorizedToHold E.asset L a)) L' [] []
  | admin {a : Addr} (ha : adminOf L = some a) : OpStep E L .admin (.addr a) L [] []
  | approve {f sp : Addr} {d : Int} {lu : Nat} {L1 L2 : Led} (h0 : 0 ≤ d) (e : Elsewhere E.asset E.baseReserve L L1)
      (hp : d > 0 → E.li.seq ≤ lu) (a : AllowStep E L1 L2 f sp d lu) :
      OpStep E L (.approve f sp d lu) .unit L2 [f] [.approve f sp d lu]
  | transfer {f t : Addr} {d : Int} {L1 L2 L3 : Led} (h0 : 0 ≤ d) (e : Elsewhere E.asset E.baseReserve L L1)
      (af : authorizedToHold E.asset L1 f = true) (b1 : BalStep E L1 L2 f (-d))
      (at_ : authorizedToHold E.asset L2 t = true) (b2 : BalStep E L2 L3 t d) :
      OpStep E L (.transfer f t d) .unit L3 [f] [transferEvent E.asset f t d]
  | transferFrom {sp f t : Addr} {d : Int} {L1 L2 L3 L4 : Led} (h0 : 0 ≤ d) (e : Elsewhere E.asset E.baseReserve L L1)
      (hal : d ≤ allowanceOf E.li.seq L1 f sp) (a : SpendStep E L1 L2 f sp d)
      (af : authorizedToHold E.asset L2 f = true) (b1 : BalStep E L2 L3 f (-d))
      (at_ : authorizedToHold E.asset L3 t = true) (b2 : BalStep E L3 L4 t d) :
      OpStep E L (.transferFrom sp f t d) .unit L4 [sp] [transferEvent E.asset f t d]
  | burn {f : Addr} {d : Int} {L1 L2 : Led} (h0 : 0 ≤ d) (hn : isIssuer E.asset f = false)
      (e : Elsewhere E.asset E.baseReserve L L1)
      (af : authorizedToHold E.asset L1 f = true) (b1 : BalStep E L1 L2 f (-d)) :
      OpStep E L (.burn f d) .unit L2 [f] [.burn f d]
  | burnFrom {sp f : Addr} {d : Int} {L1 L2 L3 : Led} (h0 : 0 ≤ d) (hn : isIssuer E.asset f = false)
      (e : Elsewhere E.asset E.baseReserve L L1)
      (hal : d ≤ allowanceOf E.li.seq L1 f sp) (a : SpendStep E L1 L2 f sp d)
      (af : authorizedToHold E.asset L2 f = true) (b1 : BalStep E L2 L3 f (-d)) :
      OpStep E L (.burnFrom sp f d) .unit L3 [sp] [.burn f d]
  | clawback {f adm : Addr} {d : Int} {L1 L2 : Led} (h0 : 0 ≤ d) (hn : isIssuer E.asset f = false)
      (hc : Clawbackable E L f) (ha : adminOf L = some adm) (e : Elsewhere E.asset E.baseReserve L L1)
      (b1 : BalStep E L1 L2 f (-d)) : OpStep E L (.clawback f d) .unit L2 [adm] [.clawback f d]
  | setAuthorized {a adm : Addr} {b : Bool} {L1 L2 : Led} (ha : adminOf L = some adm)
      (e : Elsewhere E.asset E.baseReserve L L1)
      (hr : b = false → ∃ i acc, E.asset = .credit i ∧ valueOf (L1 (.account i)) = some (.account acc) ∧ acc.revocable = true)
      (st : AuthzStep E L1 L2 b a) : OpStep E L (.setAuthorized a b) .unit L2 [adm] [.setAuthorized a b]
  | mint {t adm : Addr} {d : Int} {L1 L2 : Led} (h0 : 0 ≤ d) (hn : isIssuer E.asset t = false) (ha : adminOf L = some adm)
      (e : Elsewhere E.asset E.baseReserve L L1)
      (at_ : authorizedToHold E.asset L1 t = true) (b2 : BalStep E L1 L2 t d) :
      OpStep E L (.mint t d) .unit L2 [adm] [.mint t d]
  | setAdmin {adm new : Addr} {L1 : Led} {l : Option Nat} (ha : adminOf L = some adm)
      (e : Elsewhere E.asset E.baseReserve L L1) :
      OpStep E L (.setAdmin new) .unit (L1.set .inst (some (.inst (some new), l))) [adm] [.setAdmin adm new]
  | trust {a : Addr} {L1 L2 : Led} {as : List Addr} (q : Quiet L L1) (e : Elsewhere E.asset E.baseReserve L L1)
      (st : TrustStep E L1 L2 a as) : OpStep E L (.trust a) .unit L2 as []

theorem emitTransfer_ok {E : SEnv} {s s' : Tok} {f t : Addr} {d : Int} {u : Unit} (h : emitTransfer E f t d s = .ok (u, s')) :
    s' = { s with events := transferEvent E.asset f t d :: s.events } := by
  unfold emitTransfer at h
  unfold transferEvent
  split at h
  · rename_i hc; rw [if_pos hc]; cases h; rfl
  · rename_i hc; rw [if_neg hc]
    split at h
    · rename_i hc; rw [if_pos hc]; cases h; rfl
    · rename_i hc; rw [if_neg hc]
      split at h
      · rename_i hc; rw [if_pos hc]; cases h; rfl
      · rename_i hc; rw [if_neg hc]; cases h; rfl

/-- The state after a call. -/
structure Done (E : SEnv) (s s' : Tok) (L' : Led) (as : List Addr) (es : List TokEvent) : Prop where
  ok : StOk E s'.st
  led : led E s' = L'
  events : s'.events = es ++ s.events
  auths : s'.auths = as ++ s.auths
  real : ∀ a ∈ as, ∃ st st', E.auth a st = .ok st'

theorem To.done {E : SEnv} {s s' : Tok} {L : Led} (h : To E s s' L) : Done E s s' L [] [] :=
  ⟨h.ok, h.led, h.events, h.auths, fun _ h => by cases h⟩

theorem Authed.emit {E : SEnv} {s s1 s2 s' : Tok} {L1 L : Led} {as : List Addr} {e : TokEvent} (h : Authed E s s1 L1 as)
    (h2 : To E s1 s2 L) (he : s' = { s2 with events := e :: s2.events }) : Done E s s' L as [e] := by
  subst he
  refine ⟨h2.ok, h2.led, ?_, ?_, h.real⟩
  · show e :: s2.events = _
    rw [h2.events, h.events]; rfl
  · show s2.auths = _
    rw [h2.auths, h.auths]

theorem exec_step {E : SEnv} (hA : AuthOk E) {op : Op} {s s' : Tok} {r : Ret} (hs : StOk E s.st)
    (h : exec E op s = .ok (r, s')) :
    ∃ L' as es, OpStep E (led E s) op r L' as es ∧ Done E s s' L' as es := by
  cases op with
  | allowance f sp =>
    unfold exec allowance at h
    dsimp only at h
    mbind h with x s1 h1
    obtain ⟨rfl, rfl⟩ := M.pure_ok.mp h
    mbind h1 with u s2 h2
    obtain ⟨L1, q, t⟩ := bump_quiet hs h2
    obtain ⟨t2, hx⟩ := readAllowance_ok t.ok h1
    rw [t.led] at t2 hx
    have : allowanceOf E.li.seq L1 f sp = allowanceOf E.li.seq (led E s) f sp := by
      unfold allowanceOf; rw [q.value]
    rw [hx, this]
    exact ⟨_, _, _, .allowance q, (t.trans t2).done⟩
  | approve f sp d lu =>
    unfold exec approve at h
    dsimp only at h
    mbind h with u s9 hh
    obtain ⟨rfl, rfl⟩ := M.pure_ok.mp h
    mbind hh with u1 s1 h1
    obtain ⟨rfl, h0⟩ := checkNonnegative_ok h1
    mbind hh with u2 s2 h2
    mbind hh with u3 s3 h3
    obtain ⟨L1, e, q1⟩ := authBump_ok hA hs h2 h3
    mbind hh with u4 s4 h4
    obtain ⟨hp, L2, st, q2⟩ := writeAllowance_ok q1.ok h4
    rw [q1.led] at st
    cases hh
    exact ⟨_, _, _, .approve h0 e hp st, q1.emit q2 rfl⟩
  | balance a =>
    unfold exec balance at h
    dsimp only at h
    mbind h with x s1 h1
    obtain ⟨rfl, rfl⟩ := M.pure_ok.mp h
    mbind h1 with u s2 h2
    obtain ⟨L1, q, t⟩ := bump_quiet hs h2
    obtain ⟨L2, q2, t2, hx⟩ := readBalance_ok t.ok h1
    rw [t.led] at q2 hx
    have : reported E.asset L1 a = reported E.asset (led E s) a := by
      unfold reported balanceOf; rw [q.value]
    rw [hx, this]
    exact ⟨_, _, _, .balance (q.trans q2), (t.trans t2).done⟩
  | authorized a =>
    unfold exec authorized at h
    dsimp only at h
    mbind h with x s1 h1
    obtain ⟨rfl, rfl⟩ := M.pure_ok.mp h
    mbind h1 with u s2 h2
    obtain ⟨L1, q, t⟩ := bump_quiet hs h2
    obtain ⟨t2, hx⟩ := isAuthorized_ok t.ok h1
    rw [t.led] at t2 hx
    have : authorizedToHold E.asset L1 a = authorizedToHold E.asset (led E s) a := by
      unfold authorizedToHold authRequired flagsOf
      simp only [q.value]
    rw [hx, this]
    exact ⟨_, _, _, .authorized q, (t.trans t2).done⟩
  | transfer f t d =>
    unfold exec transfer at h
    dsimp only at h
    mbind h with u s9 hh
    obtain ⟨rfl, rfl⟩ := M.pure_ok.mp h
    mbind hh with u1 s1 h1
    obtain ⟨rfl, h0⟩ := checkNonnegative_ok h1
    mbind hh with u2 s2 h2
    mbind hh with u3 s3 h3
    obtain ⟨L1, e, q1⟩ := authBump_ok hA hs h2 h3
    mbind hh with u4 s4 h4
    obtain ⟨af, L2, b1, q2⟩ := spendBalance_ok h0 q1.ok h4
    rw [q1.led] at af b1
    mbind hh with u5 s5 h5
    obtain ⟨at_, L3, b2, q3⟩ := receiveBalance_ok h0 q2.ok h5
    rw [q2.led] at at_ b2
    exact ⟨_, _, _, .transfer h0 e af b1 at_ b2, q1.emit (q2.trans q3) (emitTransfer_ok hh)⟩
  | transferFrom sp f t d =>
    unfold exec transferFrom at h
    dsimp only at h
    mbind h with u s9 hh
    obtain ⟨rfl, rfl⟩ := M.pure_ok.mp h
    mbind hh with u1 s1 h1
    obtain ⟨rfl, h0⟩ := checkNonnegative_ok h1
    mbind hh with u2 s2 h2
    mbind hh with u3 s3 h3
    obtain ⟨L1, e, q1⟩ := authBump_ok hA hs h2 h3
    mbind hh with u6 s6 h6
    obtain ⟨hal, L0, sa, q0⟩ := spendAllowance_ok h0 q1.ok h6
    rw [q1.led] at hal sa
    mbind hh with u4 s4 h4
    obtain ⟨af, L2, b1, q2⟩ := spendBalance_ok h0 q0.ok h4
    rw [q0.led] at af b1
    mbind hh with u5 s5 h5
    obtain ⟨at_, L3, b2, q3⟩ := receiveBalance_ok h0 q2.ok h5
    rw [q2.led] at at_ b2
    exact ⟨_, _, _, .transferFrom h0 e hal sa af b1 at_ b2, q1.emit (q0.trans (q2.trans q3)) (emitTransfer_ok hh)⟩
  | burn f d =>
    unfold exec burn at h
    dsimp only at h
    mbind h with u s9 hh
    obtain ⟨rfl, rfl⟩ := M.pure_ok.mp h
    mbind hh with u1 s1 h1
    obtain ⟨rfl, h0⟩ := checkNonnegative_ok h1
    mbind hh with u7 s7 h7
    obtain ⟨rfl, -⟩ := checkNonNative_ok h7
    mbind hh with u8 s8 h8
    obtain ⟨rfl, hn⟩ := checkNotIssuer_ok h8
    mbind hh with u2 s2 h2
    mbind hh with u3 s3 h3
    obtain ⟨L1, e, q1⟩ := authBump_ok hA hs h2 h3
    mbind hh with u4 s4 h4
    obtain ⟨af, L2, b1, q2⟩ := spendBalance_ok h0 q1.ok h4
    rw [q1.led] at af b1
    cases hh
    exact ⟨_, _, _, .burn h0 hn e af b1, q1.emit q2 rfl⟩
  | burnFrom sp f d =>
    unfold exec burnFrom at h
    dsimp only at h
    mbind h with u s9 hh
    obtain ⟨rfl, rfl⟩ := M.pure_ok.mp h
    mbind hh with u1 s1 h1
    obtain ⟨rfl, h0⟩ := checkNonnegative_ok h1
    mbind hh with u7 s7 h7
    obtain ⟨rfl, -⟩ := checkNonNative_ok h7
    mbind hh with u8 s8 h8
    obtain ⟨rfl, hn⟩ := checkNotIssuer_ok h8
    mbind hh with u2 s2 h2
    mbind hh with u3 s3 h3
    obtain ⟨L1, e, q1⟩ := authBump_ok hA hs h2 h3
    mbind hh with u6 s6 h6
    obtain ⟨hal, L0, sa, q0⟩ := spendAllowance_ok h0 q1.ok h6
    rw [q1.led] at hal sa
    mbind hh with u4 s4 h4
    obtain ⟨af, L2, b1, q2⟩ := spendBalance_ok h0 q0.ok h4
    rw [q0.led] at af b1
    cases hh
    exact ⟨_, _, _, .burnFrom h0 hn e hal sa af b1, q1.emit (q0.trans q2) rfl⟩
  | clawback f d =>
    unfold exec clawback at h
    dsimp only at h
    mbind h with u s9 hh
    obtain ⟨rfl, rfl⟩ := M.pure_ok.mp h
    mbind hh with u1 s1 h1
    obtain ⟨rfl, h0⟩ := checkNonnegative_ok h1
    mbind hh with u7 s7 h7
    obtain ⟨hc, q7⟩ := checkClawbackable_ok hs h7
    mbind hh with u8 s8 h8
    obtain ⟨rfl, hn⟩ := checkNotIssuer_ok h8
    mbind hh with adm sa ha
    obtain ⟨qa, hadm⟩ := readAdministrator_ok q7.ok ha
    rw [q7.led] at qa hadm
    mbind hh with u2 s2 h2
    mbind hh with u3 s3 h3
    obtain ⟨L1, e, q1⟩ := authBump_ok hA qa.ok h2 h3
    rw [qa.led] at e
    mbind hh with u4 s4 h4
    obtain ⟨L2, b1, q2⟩ := spendNoCheck_ok h0 q1.ok h4
    rw [q1.led] at b1
    cases hh
    have q1' : Authed _ _ _ _ _ := ⟨q1.ok, q1.led, q1.events.trans (qa.events.trans q7.events), by rw [q1.auths, qa.auths, q7.auths], q1.real⟩
    exact ⟨_, _, _, .clawback h0 hn hc hadm e b1, q1'.emit q2 rfl⟩
  | setAuthorized a b =>
    unfold exec setAuthorized at h
    dsimp only at h
    mbind h with u s9 hh
    obtain ⟨rfl, rfl⟩ := M.pure_ok.mp h
    mbind hh with adm sa ha
    obtain ⟨qa, hadm⟩ := readAdministrator_ok hs ha
    mbind hh with u2 s2 h2
    mbind hh with u3 s3 h3
    obtain ⟨L1, e, q1⟩ := authBump_ok hA qa.ok h2 h3
    rw [qa.led] at e
    mbind hh with u4 s4 h4
    obtain ⟨hr, L2, st, q2⟩ := writeAuthorization_ok q1.ok h4
    rw [q1.led] at hr st
    cases hh
    have q1' : Authed _ _ _ _ _ := ⟨q1.ok, q1.led, q1.events.trans qa.events, by rw [q1.auths, qa.auths], q1.real⟩
    exact ⟨_, _, _, .setAuthorized hadm e hr st, q1'.emit q2 rfl⟩
  | mint t d =>
    unfold exec mint at h
    dsimp only at h
    mbind h with u s9 hh
    obtain ⟨rfl, rfl⟩ := M.pure_ok.mp h
    mbind hh with u1 s1 h1
    obtain ⟨rfl, h0⟩ := checkNonnegative_ok h1
    mbind hh with u8 s8 h8
    obtain ⟨rfl, hn⟩ := checkNotIssuer_ok h8
    mbind hh with adm sa ha
    obtain ⟨qa, hadm⟩ := readAdministrator_ok hs ha
    mbind hh with u2 s2 h2
    mbind hh with u3 s3 h3
    obtain ⟨L1, e, q1⟩ := authBump_ok hA qa.ok h2 h3
    rw [qa.led] at e
    mbind hh with u4 s4 h4
    obtain ⟨at_, L2, b2, q2⟩ := receiveBalance_ok h0 q1.ok h4
    rw [q1.led] at at_ b2
    cases hh
    have q1' : Authed _ _ _ _ _ := ⟨q1.ok, q1.led, q1.events.trans qa.events, by rw [q1.auths, qa.auths], q1.real⟩
    exact ⟨_, _, _, .mint h0 hn hadm e at_ b2, q1'.emit q2 rfl⟩
  | setAdmin new =>
    unfold exec setAdmin at h
    dsimp only at h
    mbind h with u s9 hh
    obtain ⟨rfl, rfl⟩ := M.pure_ok.mp h
    mbind hh with adm sa ha
    obtain ⟨qa, hadm⟩ := readAdministrator_ok hs ha
    mbind hh with u2 s2 h2
    mbind hh with u3 s3 h3
    obtain ⟨L1, e, q1⟩ := authBump_ok hA qa.ok h2 h3
    rw [qa.led] at e
    mbind hh with u4 s4 h4
    unfold writeAdministrator at h4
    obtain ⟨l, -, q2⟩ := putData_ok q1.ok h4
    rw [q1.led] at q2
    cases hh
    have q1' : Authed _ _ _ _ _ := ⟨q1.ok, q1.led, q1.events.trans qa.events, by rw [q1.auths, qa.auths], q1.real⟩
    exact ⟨_, _, _, .setAdmin hadm e, q1'.emit q2 rfl⟩
  | admin =>
    unfold exec at h
    dsimp only at h
    mbind h with x s1 h1
    obtain ⟨rfl, rfl⟩ := M.pure_ok.mp h
    obtain ⟨q, ha⟩ := readAdministrator_ok hs h1
    exact ⟨_, _, _, .admin ha, q.done⟩
  | trust a =>
    unfold exec trust at h
    dsimp only at h
    mbind h with u s9 hh
    obtain ⟨rfl, rfl⟩ := M.pure_ok.mp h
    mbind hh with u2 s2 h2
    unfold bumpInstance at h2
    obtain ⟨e, e', hk, hx, q⟩ := extendData_ok (by decide) hs h2
    obtain ⟨L2, as, st, q2⟩ := createTrustline_ok hA q.ok hh
    rw [q.led] at st
    refine ⟨_, _, _, .trust ⟨value_set_same hk (extended_ok_value hx), fun _ _ => set_ne (by simp)⟩
      (bump_elsewhere hk (extended_ok_value hx)) st, q2.ok, q2.led, q2.events.trans q.events, by rw [q2.auths, q.auths], q2.real⟩

end Soroban.Sac
