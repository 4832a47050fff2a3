import Verif.Lemmas.SacBase
import Verif.Spec.Sac
/-!
What the functions of the asset contract do to the ledger.
-/
namespace Soroban.Sac
open Soroban Soroban.Storage Soroban.Storage.Spec Soroban.Auth Soroban.Sac.Spec

theorem asAccount_ok {v : SVal} {a : AccountE} {s s' : Tok} (h : asAccount v s = .ok (a, s')) : v = .account a ∧ s' = s := by
  cases v <;> simp only [asAccount, fail_ok] at h
  obtain ⟨rfl, rfl⟩ := M.pure_ok.mp h
  exact ⟨rfl, rfl⟩

theorem asTrust_ok {v : SVal} {a : TrustE} {s s' : Tok} (h : asTrust v s = .ok (a, s')) : v = .trust a ∧ s' = s := by
  cases v <;> simp only [asTrust, fail_ok] at h
  obtain ⟨rfl, rfl⟩ := M.pure_ok.mp h
  exact ⟨rfl, rfl⟩

theorem asBalance_ok {v : SVal} {a : BalanceV} {s s' : Tok} (h : asBalance v s = .ok (a, s')) : v = .balance a ∧ s' = s := by
  cases v <;> simp only [asBalance, fail_ok] at h
  obtain ⟨rfl, rfl⟩ := M.pure_ok.mp h
  exact ⟨rfl, rfl⟩

theorem asAllowance_ok {v : SVal} {a : AllowanceV} {s s' : Tok} (h : asAllowance v s = .ok (a, s')) :
    v = .allowance a ∧ s' = s := by
  cases v <;> simp only [asAllowance, fail_ok] at h
  obtain ⟨rfl, rfl⟩ := M.pure_ok.mp h
  exact ⟨rfl, rfl⟩

theorem checked64_ok {x y : Int} {e : Err} (h : checked64 x e = .ok y) : y = x ∧ -(2 ^ 63) ≤ x ∧ x < 2 ^ 63 := by
  unfold checked64 at h
  split at h
  · rename_i hx
    simp only [inI64, Bool.and_eq_true, decide_eq_true_eq] at hx
    cases h
    exact ⟨rfl, hx.1, hx.2⟩
  · cases h

theorem checked64_eq {x y : Int} {e : Err} (h : checked64 x e = .ok y) : y = x := (checked64_ok h).1

theorem checked128_ok {x y : Int} {e : Err} (h : checked128 x e = .ok y) : y = x ∧ -(2 ^ 127) ≤ x ∧ x < 2 ^ 127 := by
  unfold checked128 at h
  split at h
  · rename_i hx
    simp only [inI128, Bool.and_eq_true, decide_eq_true_eq] at hx
    cases h
    exact ⟨rfl, hx.1, hx.2⟩
  · cases h

theorem addSponsoring_ok {n m : Int} {o : Option (Nat × Nat)} (h : addSponsoring n o = .ok m) :
    m = n + netSponsoring o := by
  unfold addSponsoring at h
  split at h
  · obtain ⟨x, h1, h2⟩ := bind_ok.mp h
    rw [checked64_eq h2, checked64_eq h1]
    simp only [netSponsoring]; omega
  · cases h; simp [netSponsoring]

theorem maxBalance_some {a : AccountE} {x : AccountExt} (h : a.ext = some x) : maxBalance a = i64Max - x.buying := by
  unfold maxBalance; rw [h]; rfl

theorem maxBalance_none {a : AccountE} (h : a.ext = none) : maxBalance a = i64Max := by
  unfold maxBalance; rw [h]; rfl

theorem accountRange_ok {E : SEnv} {a : AccountE} {r : Int × Int} (h : accountRange E a = .ok r) :
    0 ≤ a.balance ∧ r = (minBalance E.baseReserve a, maxBalance a) := by
  unfold accountRange at h
  split at h
  · cases h
  · rename_i h0
    refine ⟨Int.not_lt.mp h0, ?_⟩
    split at h
    · rename_i x hx
      obtain ⟨n, h1, h⟩ := bind_ok.mp h
      obtain ⟨net, h2, h⟩ := bind_ok.mp h
      obtain ⟨p, h3, h⟩ := bind_ok.mp h
      obtain ⟨lo, h4, h⟩ := bind_ok.mp h
      obtain ⟨hi, h5, h⟩ := bind_ok.mp h
      cases h
      rw [checked64_eq h5, checked64_eq h4, checked64_eq h3, addSponsoring_ok h2, checked64_eq h1, maxBalance_some hx]
      unfold minBalance
      rw [hx]
    · rename_i hx
      obtain ⟨n, h1, h⟩ := bind_ok.mp h
      obtain ⟨lo, h4, h⟩ := bind_ok.mp h
      cases h
      rw [checked64_eq h4, checked64_eq h1, maxBalance_none hx]
      unfold minBalance
      rw [hx]

theorem trustRange_ok {t : TrustE} {r : Int × Int} (h : trustRange t = .ok r) :
    0 ≤ t.balance ∧
      (match t.liab with
        | none => r = (0, t.limit)
        | some (buying, selling) => r = (selling, t.limit - buying)) := by
  unfold trustRange at h
  split at h
  · cases h
  · rename_i h0
    refine ⟨Int.not_lt.mp h0, ?_⟩
    split at h
    · rename_i b x hx
      split at h
      · cases h
      · cases h; rw [hx]
    · rename_i hx
      cases h; rw [hx]

/-- How a holding changes by `d`. -/
inductive BalStep (E : SEnv) (L L' : Led) : Addr → Int → Prop
  | issuer {i : Nat} {d : Int} (ha : E.asset = .credit i) (h : L' = L) : BalStep E L L' (.account i) d
  | account {id : Nat} {a : AccountE} {d : Int} (ha : E.asset = .native)
      (hv : valueOf (L (.account id)) = some (.account a)) (h0 : 0 ≤ a.balance)
      (lo : minBalance E.baseReserve a ≤ a.balance + d) (hi : a.balance + d ≤ maxBalance a)
      (h : L' = L.set (.account id) (some (.account { a with balance := a.balance + d }, none))) :
      BalStep E L L' (.account id) d
  | newAccount {id : Nat} {d : Int} (ha : E.asset = .native) (hv : valueOf (L (.account id)) = none)
      (lo : 2 * (E.baseReserve : Int) ≤ d) (hi : d < 2 ^ 63)
      (h : L' = L.set (.account id) (some (.account
        { balance := d, numSub := 0, required := false, revocable := false, clawback := false, ext := none }, none))) :
      BalStep E L L' (.account id) d
  | trust {i id : Nat} {t : TrustE} {d : Int} (ha : E.asset = .credit i) (hi : i ≠ id)
      (hv : valueOf (L (.trust id)) = some (.trust t)) (h0 : 0 ≤ t.balance)
      (hb : match t.liab with
        | none => 0 ≤ t.balance + d ∧ t.balance + d ≤ t.limit
        | some (buying, selling) => selling ≤ t.balance + d ∧ t.balance + d ≤ t.limit - buying)
      (h : L' = L.set (.trust id) (some (.trust { t with balance := t.balance + d }, none))) :
      BalStep E L L' (.account id) d
  | contract {c : Nat} {b : BalanceV} {d : Int} {l : Option Nat}
      (hv : valueOf (L (.balance c)) = some (.balance b)) (hb : 0 ≤ b.amount + d ∨ 0 ≤ d) (hi : b.amount + d < 2 ^ 127)
      (h : L' = L.set (.balance c) (some (.balance { b with amount := b.amount + d }, l))) :
      BalStep E L L' (.contract c) d
  | newContract {c : Nat} {cl : Bool} {d : Int} {l : Option Nat} (hv : valueOf (L (.balance c)) = none)
      (hd : 0 ≤ d) (hi : d < 2 ^ 127)
      (h : L' = L.set (.balance c) (some (.balance { amount := d, authorized := true, clawback := cl }, l))) :
      BalStep E L L' (.contract c) d
  | noContract {c : Nat} (hv : valueOf (L (.balance c)) = none) (h : L' = L) : BalStep E L L' (.contract c) 0

theorem extended_ok_value {E : SEnv} {k : SKey} {t x : Nat} {e e' : Entry SVal}
    (h : extended E.sto k t x e = .ok e') : e'.1 = e.1 := by
  unfold extended at h
  split at h
  · cases h
  · split at h
    · cases h
    · simp only at h
      split at h
      · cases h; rfl
      · cases h; rfl

theorem set_set (L : Led) (k : SKey) (a b : Option (Entry SVal)) : (L.set k a).set k b = L.set k b := by
  funext k'
  unfold Ledger.set
  split <;> rfl

theorem set_get (L : Led) (k : SKey) (a : Option (Entry SVal)) : L.set k a k = a := if_pos rfl

theorem set_ne {L : Led} {k k' : SKey} {a : Option (Entry SVal)} (h : k' ≠ k) : L.set k a k' = L k' := if_neg h

theorem writeContractBalance_ok {E : SEnv} {s s' : Tok} {c : Nat} {b : BalanceV} {u : Unit} (hs : StOk E s.st)
    (h : writeContractBalance E c b s = .ok (u, s')) :
    ∃ l, To E s s' ((led E s).set (.balance c) (some (.balance b, l))) := by
  unfold writeContractBalance at h
  obtain ⟨u1, s1, h1, h2⟩ := M.bind_ok.mp h
  obtain ⟨l, -, q1⟩ := putData_ok hs h1
  obtain ⟨e, e', hk, hx, q2⟩ := extendData_ok (by decide) q1.ok h2
  rw [q1.led] at hk q2
  rw [set_get] at hk
  cases hk
  have hv := extended_ok_value hx
  obtain ⟨v', l'⟩ := e'
  simp only at hv
  subst hv
  rw [set_set] at q2
  exact ⟨l', q1.trans q2⟩

theorem transferAccountBalance_ok {E : SEnv} {s s' : Tok} {id : Nat} {d : Int} {u : Unit} (ha : E.asset = .native)
    (hd : d < 2 ^ 63) (hs : StOk E s.st)
    (h : transferAccountBalance E id d s = .ok (u, s')) : ∃ L', BalStep E (led E s) L' (.account id) d ∧ To E s s' L' := by
  unfold transferAccountBalance at h
  mbind h with v s1 h1
  obtain ⟨q1, hv⟩ := tryGetClassic_ok hs h1
  cases v with
  | some v =>
    simp only at h
    mbind h with a s2 h2
    obtain ⟨rfl, rfl⟩ := asAccount_ok h2
    mbind h with r s3 h3
    mlift h3
    obtain ⟨h0, rfl⟩ := accountRange_ok h3
    mbind h with n s4 h4
    mlift h4
    obtain rfl := checked64_eq h4
    split at h
    · rename_i hr
      have q2 := putClassic_ok rfl q1.ok h
      rw [q1.led] at q2
      exact ⟨_, .account ha hv.symm h0 hr.1 hr.2 rfl, q1.trans q2⟩
    · exact (fail_ok.mp h).elim
  | none =>
    simp only at h
    split at h
    · exact (fail_ok.mp h).elim
    · split at h
      · exact (fail_ok.mp h).elim
      · split at h
        · exact (fail_ok.mp h).elim
        · have q2 := putClassic_ok rfl q1.ok h
          rw [q1.led] at q2
          exact ⟨_, .newAccount ha hv.symm (by omega) hd rfl, q1.trans q2⟩

theorem readTrustline_ok {E : SEnv} {s s' : Tok} {id : Nat} {t : TrustE} (hs : StOk E s.st)
    (h : readTrustline E id s = .ok (t, s')) : To E s s' (led E s) ∧ valueOf (led E s (.trust id)) = some (.trust t) := by
  unfold readTrustline at h
  mbind h with v s1 h1
  obtain ⟨q1, hv⟩ := tryGetClassic_ok hs h1
  cases v with
  | none => exact (fail_ok.mp h).elim
  | some v =>
    obtain ⟨rfl, rfl⟩ := asTrust_ok h
    exact ⟨q1, hv.symm⟩

theorem transferTrustlineBalance_ok {E : SEnv} {s s' : Tok} {i id : Nat} {d : Int} {u : Unit} (ha : E.asset = .credit i)
    (hi : i ≠ id) (hs : StOk E s.st)
    (h : transferTrustlineBalance E id d s = .ok (u, s')) : ∃ L', BalStep E (led E s) L' (.account id) d ∧ To E s s' L' := by
  unfold transferTrustlineBalance at h
  mbind h with t s1 h1
  obtain ⟨q1, hv⟩ := readTrustline_ok hs h1
  mbind h with r s3 h3
  mlift h3
  obtain ⟨h0, hr0⟩ := trustRange_ok h3
  mbind h with n s4 h4
  mlift h4
  obtain rfl := checked64_eq h4
  split at h
  · rename_i hr
    have q2 := putClassic_ok rfl q1.ok h
    rw [q1.led] at q2
    refine ⟨_, .trust ha hi hv h0 ?_ rfl, q1.trans q2⟩
    cases hl : t.liab with
    | none => rw [hl] at hr0; rw [hr0] at hr; exact hr
    | some p => obtain ⟨x, y⟩ := p; rw [hl] at hr0; simp only at hr0; rw [hr0] at hr; exact hr
  · exact (fail_ok.mp h).elim

theorem transferClassicBalance_ok {E : SEnv} {s s' : Tok} {id : Nat} {d : Int} {u : Unit} (hd : d < 2 ^ 63) (hs : StOk E s.st)
    (h : transferClassicBalance E id d s = .ok (u, s')) : ∃ L', BalStep E (led E s) L' (.account id) d ∧ To E s s' L' := by
  unfold transferClassicBalance at h
  cases ha : E.asset with
  | native => rw [ha] at h; exact transferAccountBalance_ok ha hd hs h
  | credit i =>
    rw [ha] at h
    simp only at h
    split at h
    · rename_i hi
      subst hi
      obtain ⟨-, rfl⟩ := M.pure_ok.mp h
      exact ⟨_, .issuer ha rfl, To.refl hs⟩
    · rename_i hi; exact transferTrustlineBalance_ok ha hi hs h

theorem loadAccount_ok {E : SEnv} {s s' : Tok} {id : Nat} {a : AccountE} (hs : StOk E s.st)
    (h : loadAccount E id s = .ok (a, s')) : To E s s' (led E s) ∧ valueOf (led E s (.account id)) = some (.account a) := by
  unfold loadAccount at h
  mbind h with e s1 h1
  obtain ⟨q1, hv⟩ := getEntry_ok hs h1
  obtain ⟨he, rfl⟩ := asAccount_ok h
  exact ⟨q1, by rw [hv]; simp [valueOf, he]⟩

theorem issuerFlag_ok {E : SEnv} {s s' : Tok} {f : AccountE → Bool} {b : Bool} (hs : StOk E s.st)
    (h : issuerFlag E f s = .ok (b, s')) : To E s s' (led E s) ∧
      (match E.asset with
        | .native => b = false
        | .credit i => ∃ a, valueOf (led E s (.account i)) = some (.account a) ∧ b = f a) := by
  unfold issuerFlag at h
  cases ha : E.asset with
  | native =>
    rw [ha] at h
    obtain ⟨rfl, rfl⟩ := M.pure_ok.mp h
    exact ⟨To.refl hs, rfl⟩
  | credit i =>
    rw [ha] at h
    mbind h with a s1 h1
    obtain ⟨q1, hv⟩ := loadAccount_ok hs h1
    obtain ⟨rfl, rfl⟩ := M.pure_ok.mp h
    exact ⟨q1, a, hv, rfl⟩

theorem isAuthorized_ok {E : SEnv} {s s' : Tok} {a : Addr} {b : Bool} (hs : StOk E s.st)
    (h : isAuthorized E a s = .ok (b, s')) : To E s s' (led E s) ∧ b = authorizedToHold E.asset (led E s) a := by
  cases a with
  | account id =>
    unfold isAuthorized isAccountAuthorized at h
    unfold authorizedToHold
    cases ha : E.asset with
    | native =>
      rw [ha] at h
      obtain ⟨rfl, rfl⟩ := M.pure_ok.mp h
      exact ⟨To.refl hs, rfl⟩
    | credit i =>
      rw [ha] at h
      dsimp only at h ⊢
      split at h
      · rename_i hi
        obtain ⟨rfl, rfl⟩ := M.pure_ok.mp h
        exact ⟨To.refl hs, by simp [hi]⟩
      · rename_i hi
        mbind h with t s1 h1
        obtain ⟨q, hv⟩ := readTrustline_ok hs h1
        obtain ⟨rfl, rfl⟩ := M.pure_ok.mp h
        exact ⟨q, by rw [hv]; simp [hi]⟩
  | contract c =>
    unfold isAuthorized at h
    unfold authorizedToHold
    mbind h with v s1 h1
    obtain ⟨q, hv⟩ := tryGetData_ok hs h1
    dsimp only
    cases v with
    | some v =>
      dsimp only at h
      mbind h with b' s2 h2
      obtain ⟨rfl, rfl⟩ := asBalance_ok h2
      obtain ⟨rfl, rfl⟩ := M.pure_ok.mp h
      rw [← hv]
      exact ⟨q, rfl⟩
    | none =>
      dsimp only at h
      mbind h with r s2 h2
      obtain ⟨q2, hr⟩ := issuerFlag_ok q.ok h2
      obtain ⟨rfl, rfl⟩ := M.pure_ok.mp h
      rw [q.led] at q2 hr
      rw [← hv]
      refine ⟨q.trans q2, ?_⟩
      dsimp only
      unfold authRequired
      cases ha : E.asset with
      | native => rw [ha] at hr; dsimp only at hr ⊢; rw [hr]
      | credit i =>
        rw [ha] at hr
        obtain ⟨a, h1, h2⟩ := hr
        dsimp only
        unfold flagsOf
        rw [h1, h2]

theorem balanceToReceive_ok {E : SEnv} {s s' : Tok} {c : Nat} {b : BalanceV} (hs : StOk E s.st)
    (h : balanceToReceive E c s = .ok (b, s')) : To E s s' (led E s) ∧
      (valueOf (led E s (.balance c)) = some (.balance b) ∨
        valueOf (led E s (.balance c)) = none ∧ ∃ cl, b = { amount := 0, authorized := true, clawback := cl }) := by
  unfold balanceToReceive at h
  mbind h with v s1 h1
  obtain ⟨q, hv⟩ := tryGetData_ok hs h1
  cases v with
  | some v =>
    obtain ⟨rfl, rfl⟩ := asBalance_ok h
    exact ⟨q, .inl hv.symm⟩
  | none =>
    dsimp only at h
    mbind h with r s2 h2
    obtain ⟨q2, -⟩ := issuerFlag_ok q.ok h2
    obtain ⟨rfl, rfl⟩ := M.pure_ok.mp h
    rw [q.led] at q2
    exact ⟨q.trans q2, .inr ⟨hv.symm, r, rfl⟩⟩

theorem receiveBalance_ok {E : SEnv} {s s' : Tok} {a : Addr} {d : Int} {u : Unit} (hd : 0 ≤ d) (hs : StOk E s.st)
    (h : receiveBalance E a d s = .ok (u, s')) :
    authorizedToHold E.asset (led E s) a = true ∧ ∃ L', BalStep E (led E s) L' a d ∧ To E s s' L' := by
  unfold receiveBalance at h
  mbind h with b s1 h1
  obtain ⟨q1, rfl⟩ := isAuthorized_ok hs h1
  split at h
  · rename_i hb
    refine ⟨hb, ?_⟩
    cases a with
    | account id =>
      dsimp only at h
      mbind h with x s2 h2
      mlift h2
      obtain ⟨rfl, -, hlt⟩ := checked64_ok h2
      obtain ⟨L', h3, h4⟩ := transferClassicBalance_ok hlt q1.ok h
      rw [q1.led] at h3
      exact ⟨L', h3, q1.trans h4⟩
    | contract c =>
      dsimp only at h
      mbind h with b s2 h2
      obtain ⟨q2, hb⟩ := balanceToReceive_ok q1.ok h2
      mbind h with n s3 h3
      mlift h3
      obtain ⟨rfl, -, hlt⟩ := checked128_ok h3
      obtain ⟨l, q3⟩ := writeContractBalance_ok q2.ok h
      rw [q1.led] at q2 hb
      rw [q2.led] at q3
      refine ⟨_, ?_, (q1.trans q2).trans q3⟩
      rcases hb with hb | ⟨hb, cl, rfl⟩
      · exact .contract hb (.inr hd) hlt rfl
      · dsimp only at hlt ⊢
        rw [Int.zero_add] at hlt ⊢
        exact .newContract hb hd hlt rfl
  · exact (fail_ok.mp h).elim

theorem spendNoCheck_ok {E : SEnv} {s s' : Tok} {a : Addr} {d : Int} {u : Unit} (hd : 0 ≤ d) (hs : StOk E s.st)
    (h : spendNoCheck E a d s = .ok (u, s')) : ∃ L', BalStep E (led E s) L' a (-d) ∧ To E s s' L' := by
  cases a with
  | account id =>
    unfold spendNoCheck at h
    mbind h with x s2 h2
    mlift h2
    obtain ⟨rfl, -, hlt⟩ := checked64_ok h2
    exact transferClassicBalance_ok (by omega) hs h
  | contract c =>
    unfold spendNoCheck at h
    mbind h with v s1 h1
    obtain ⟨q, hv⟩ := tryGetData_ok hs h1
    cases v with
    | some v =>
      dsimp only at h
      mbind h with b s2 h2
      obtain ⟨rfl, rfl⟩ := asBalance_ok h2
      split at h
      · exact (fail_ok.mp h).elim
      · rename_i hlt
        mbind h with n s3 h3
        mlift h3
        obtain ⟨rfl, -, hlt'⟩ := checked128_ok h3
        obtain ⟨l, q3⟩ := writeContractBalance_ok q.ok h
        rw [q.led] at q3
        rw [Int.sub_eq_add_neg] at q3 hlt'
        refine ⟨_, .contract hv.symm (.inl ?_) hlt' rfl, q.trans q3⟩
        omega
    | none =>
      dsimp only at h
      split at h
      · exact (fail_ok.mp h).elim
      · obtain ⟨-, rfl⟩ := M.pure_ok.mp h
        have : d = 0 := by omega
        subst this
        exact ⟨_, .noContract hv.symm rfl, q⟩

theorem spendBalance_ok {E : SEnv} {s s' : Tok} {a : Addr} {d : Int} {u : Unit} (hd : 0 ≤ d) (hs : StOk E s.st)
    (h : spendBalance E a d s = .ok (u, s')) :
    authorizedToHold E.asset (led E s) a = true ∧ ∃ L', BalStep E (led E s) L' a (-d) ∧ To E s s' L' := by
  unfold spendBalance at h
  mbind h with b s1 h1
  obtain ⟨q1, rfl⟩ := isAuthorized_ok hs h1
  split at h
  · rename_i hb
    refine ⟨hb, ?_⟩
    obtain ⟨L', h3, h4⟩ := spendNoCheck_ok hd q1.ok h
    rw [q1.led] at h3
    exact ⟨L', h3, q1.trans h4⟩
  · exact (fail_ok.mp h).elim

end Soroban.Sac
