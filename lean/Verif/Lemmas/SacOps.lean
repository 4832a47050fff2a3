import Verif.Lemmas.Sac
/-!
What each function of the asset contract does, as a relation between ledgers.
-/
namespace Soroban.Sac
open Soroban Soroban.Storage Soroban.Storage.Spec Soroban.Auth Soroban.Sac.Spec

/-- `require_auth` does to the ledger what other contracts can do, and keeps the storage in good order. -/
def AuthOk (E : SEnv) : Prop := ∀ a st st', StOk E st → E.auth a st = .ok st' →
  StOk E st' ∧ Elsewhere E.asset E.baseReserve (absMap E.sto st.mode st.map) (absMap E.sto st'.mode st'.map)

theorem Spec.Elsewhere.refl (asset : Asset) (r : Nat) (L : Led) : Elsewhere asset r L L :=
  ⟨fun _ _ _ => rfl, rfl, fun _ => rfl, fun _ _ => rfl, fun h => h⟩

theorem Spec.Elsewhere.trans {asset : Asset} {r : Nat} {A B C : Led} (h1 : Elsewhere asset r A B) (h2 : Elsewhere asset r B C) :
    Elsewhere asset r A C :=
  ⟨fun k hk hi => (h2.own k hk hi).trans (h1.own k hk hi), h2.inst.trans h1.inst, fun id => (h2.flags id).trans (h1.flags id),
    fun hn id => (h2.native hn id).trans (h1.native hn id), fun h => h2.bounds (h1.bounds h)⟩

theorem value_set_same {L : Led} {k : SKey} {e e' : Entry SVal} (hk : L k = some e) (he : e'.1 = e.1) (k' : SKey) :
    valueOf (L.set k (some e') k') = valueOf (L k') := by
  unfold Ledger.set
  split
  · rename_i h; subst h; rw [hk]; simp [valueOf, he]
  · rfl

theorem bump_elsewhere {asset : Asset} {r : Nat} {L : Led} {e e' : Entry SVal} (hk : L .inst = some e) (he : e'.1 = e.1) :
    Elsewhere asset r L (L.set .inst (some e')) := by
  have hv := value_set_same (e' := e') hk he
  refine ⟨fun k _ hi => set_ne hi, hv .inst, fun id => ?_, fun _ id => ?_, fun h k v hkv => ?_⟩
  · unfold flagsOf; rw [hv]
  · rw [hv]
  · rw [hv] at hkv; exact h k v hkv

/-- The state after an authorization. -/
structure Authed (E : SEnv) (s s' : Tok) (L' : Led) (as : List Addr) : Prop where
  ok : StOk E s'.st
  led : led E s' = L'
  events : s'.events = s.events
  auths : s'.auths = as ++ s.auths
  real : ∀ a ∈ as, ∃ st st', E.auth a st = .ok st'

theorem requireAuth_ok {E : SEnv} {s s' : Tok} {a : Addr} {u : Unit} (hA : AuthOk E) (hs : StOk E s.st)
    (h : requireAuth E a s = .ok (u, s')) :
    ∃ L', Elsewhere E.asset E.baseReserve (led E s) L' ∧ Authed E s s' L' [a] := by
  unfold requireAuth at h
  split at h
  · cases h
  · rename_i st hst
    cases h
    obtain ⟨h1, h2⟩ := hA a _ _ hs hst
    exact ⟨_, h2, h1, rfl, rfl, rfl, fun x hx => by rw [List.mem_singleton] at hx; subst hx; exact ⟨_, _, hst⟩⟩

theorem bumpInstance_ok {E : SEnv} {s s' : Tok} {u : Unit} (hs : StOk E s.st) (h : bumpInstance E s = .ok (u, s')) :
    ∃ L', Elsewhere E.asset E.baseReserve (led E s) L' ∧ To E s s' L' := by
  unfold bumpInstance at h
  obtain ⟨e, e', hk, hx, q⟩ := extendData_ok (by decide) hs h
  exact ⟨_, bump_elsewhere hk (extended_ok_value hx), q⟩

/-- Authorization followed by the extension of the instance. -/
theorem authBump_ok {E : SEnv} {s s1 s2 : Tok} {a : Addr} {u u' : Unit} (hA : AuthOk E) (hs : StOk E s.st)
    (h1 : requireAuth E a s = .ok (u, s1)) (h2 : bumpInstance E s1 = .ok (u', s2)) :
    ∃ L', Elsewhere E.asset E.baseReserve (led E s) L' ∧ Authed E s s2 L' [a] := by
  obtain ⟨L1, e1, q1⟩ := requireAuth_ok hA hs h1
  obtain ⟨L2, e2, q2⟩ := bumpInstance_ok q1.ok h2
  rw [q1.led] at e2
  exact ⟨L2, e1.trans e2, q2.ok, q2.led, q2.events.trans q1.events, q2.auths.trans q1.auths, q1.real⟩

theorem readAdministrator_ok {E : SEnv} {s s' : Tok} {a : Addr} (hs : StOk E s.st) (h : readAdministrator E s = .ok (a, s')) :
    To E s s' (led E s) ∧ adminOf (led E s) = some a := by
  unfold readAdministrator at h
  mbind h with e s1 h1
  obtain ⟨q, he⟩ := getEntry_ok hs h1
  obtain ⟨v, l⟩ := e
  cases v <;> try exact (fail_ok.mp h).elim
  rename_i o
  cases o with
  | none => exact (fail_ok.mp h).elim
  | some x =>
    obtain ⟨rfl, rfl⟩ := M.pure_ok.mp h
    refine ⟨q, ?_⟩
    unfold adminOf
    rw [he]; rfl

theorem checkNonnegative_ok {d : Int} {s s' : Tok} {u : Unit} (h : checkNonnegative d s = .ok (u, s')) : s' = s ∧ 0 ≤ d := by
  unfold checkNonnegative at h
  split at h
  · exact (fail_ok.mp h).elim
  · exact ⟨(M.pure_ok.mp h).2, by omega⟩

theorem checkNonNative_ok {E : SEnv} {s s' : Tok} {u : Unit} (h : checkNonNative E s = .ok (u, s')) :
    s' = s ∧ ∃ i, E.asset = .credit i := by
  unfold checkNonNative at h
  cases ha : E.asset with
  | native => rw [ha] at h; exact (fail_ok.mp h).elim
  | credit i => rw [ha] at h; exact ⟨(M.pure_ok.mp h).2, i, rfl⟩

theorem checkNotIssuer_ok {E : SEnv} {a : Addr} {s s' : Tok} {u : Unit} (h : checkNotIssuer E a s = .ok (u, s')) :
    s' = s ∧ isIssuer E.asset a = false := by
  unfold checkNotIssuer at h
  split at h
  · exact (fail_ok.mp h).elim
  · rename_i hi; exact ⟨(M.pure_ok.mp h).2, by simpa using hi⟩

/-! ### allowances -/

/-- The lifetime after a requested extension to a ledger. -/
def lifeUpTo (c : Bool) (lu : Nat) (l : Option Nat) : Option Nat := if c then l.map (max · lu) else l

/-- How an allowance is stored. -/
inductive AllowStep (E : SEnv) (L L' : Led) (f sp : Addr) (amount : Int) (lu : Nat) : Prop
  | update {a0 : AllowanceV} {l : Option Nat} (hv : L (.allowance f sp) = some (.allowance a0, l))
      (h : L' = L.set (.allowance f sp) (some (.allowance { amount := amount, liveUntil := lu },
        lifeUpTo (decide (amount > 0 ∧ a0.liveUntil < lu)) lu l)))
  | create {l : Option Nat} (hv : L (.allowance f sp) = none) (hp : amount > 0)
      (hl : newLiveUntil E.sto (.allowance f sp) = .ok l)
      (h : L' = L.set (.allowance f sp) (some (.allowance { amount := amount, liveUntil := lu },
        lifeUpTo (decide (0 < lu)) lu l)))
  | skip (hv : L (.allowance f sp) = none) (hp : amount ≤ 0) (h : L' = L)

theorem extended_upTo {E : SEnv} {k : SKey} {lu m : Nat} {v : SVal} {l : Option Nat} {e' : Entry SVal}
    (hseq : E.li.seq ≤ lu) (hm : E.li.maxLiveUntil = some m) (hle : lu ≤ m)
    (h : extended E.sto k (lu - E.li.seq) (lu - E.li.seq) (v, l) = .ok e') : e' = (v, lifeUpTo true lu l) := by
  unfold extended at h
  split at h
  · cases h
  · rename_i i hi
    have hold : l = some i.oldLiveUntil ∧ E.li.seq ≤ i.oldLiveUntil ∧ i.maxLiveUntil = m := by
      unfold extendInfo at hi
      dsimp only at hi
      split at hi
      · cases hi
      · rename_i old
        split at hi
        · cases hi
        · rename_i ho
          split at hi
          · cases hi
          · rename_i m' hm'
            have : m' = m := by
              have e : E.li.maxLiveUntil = some m' := hm'
              rw [hm] at e; cases e; rfl
            split at hi
            · cases hi
            · split at hi
              · cases hi
              · cases hi; exact ⟨rfl, Nat.not_lt.mp ho, this⟩
    obtain ⟨rfl, ho, rfl⟩ := hold
    have hli : E.sto.li = E.li := rfl
    split at h
    · cases h
    · dsimp only at h
      rw [hli] at h
      have htgt : min (E.li.seq + (lu - E.li.seq)) i.maxLiveUntil = lu := by omega
      rw [htgt] at h
      split at h
      · rename_i hc
        cases h
        simp only [lifeUpTo, if_true, Option.map_some]
        rw [Nat.max_eq_right (by omega)]
      · rename_i hc
        cases h
        simp only [lifeUpTo, if_true, Option.map_some]
        rw [Nat.max_eq_left (by omega)]

theorem value_some {e : Option (Entry SVal)} {v : SVal} (h : some v = valueOf e) : ∃ l, e = some (v, l) := by
  cases e with
  | none => cases h
  | some p => obtain ⟨a, l⟩ := p; cases h; exact ⟨l, rfl⟩

theorem value_none {e : Option (Entry SVal)} (h : none = valueOf e) : e = none := by
  cases e with
  | none => rfl
  | some p => cases h

theorem storeAllowance_ok {E : SEnv} {s s' : Tok} {f sp : Addr} {v : AllowanceV} {o lu m : Nat} {u : Unit}
    (hm : E.li.maxLiveUntil = some m) (hle : lu ≤ m) (hp : v.amount > 0 → E.li.seq ≤ lu) (hs : StOk E s.st)
    (h : (do
      putData E (.allowance f sp) (.allowance v)
      if v.amount > 0 ∧ o < lu then
        extendData E (.allowance f sp) (lu - E.li.seq) (lu - E.li.seq)
      else pure () : M Unit) s = .ok (u, s')) :
    ∃ l, lifeAfter E (.allowance f sp) (led E s (.allowance f sp)) = some l ∧
      To E s s' ((led E s).set (.allowance f sp) (some (.allowance v, lifeUpTo (decide (v.amount > 0 ∧ o < lu)) lu l))) := by
  mbind h with u1 s1 h1
  obtain ⟨l, hl, q1⟩ := putData_ok hs h1
  refine ⟨l, hl, ?_⟩
  split at h
  · rename_i hc
    obtain ⟨e, e', hk, hx, q2⟩ := extendData_ok (by omega) q1.ok h
    rw [q1.led] at hk q2
    rw [set_get] at hk
    cases hk
    have := extended_upTo (hp hc.1) hm hle hx
    subst this
    rw [set_set] at q2
    simp only [hc, and_self, decide_true]
    exact q1.trans q2
  · rename_i hc
    obtain ⟨-, rfl⟩ := M.pure_ok.mp h
    simp only [hc, decide_false, lifeUpTo]
    exact q1

theorem writeAllowance_ok {E : SEnv} {s s' : Tok} {f sp : Addr} {d : Int} {lu : Nat} {u : Unit} (hs : StOk E s.st)
    (h : writeAllowance E f sp d lu s = .ok (u, s')) :
    (d > 0 → E.li.seq ≤ lu) ∧ ∃ L', AllowStep E (led E s) L' f sp d lu ∧ To E s s' L' := by
  unfold writeAllowance at h
  cases hm : E.li.maxLiveUntil with
  | none => rw [hm] at h; exact (fail_ok.mp h).elim
  | some m =>
    rw [hm] at h
    dsimp only at h
    split at h
    · exact (fail_ok.mp h).elim
    · rename_i hle
      split at h
      · exact (fail_ok.mp h).elim
      · rename_i hseq
        have hp : d > 0 → E.li.seq ≤ lu := fun hd => by
          rw [not_and] at hseq; exact Nat.not_lt.mp (hseq hd)
        refine ⟨hp, ?_⟩
        mbind h with old s1 h1
        obtain ⟨q1, hv⟩ := tryGetData_ok hs h1
        mbind h with new s2 h2
        cases old with
        | some raw =>
          unfold nextAllowance at h2
          mbind h2 with a s3 h3
          obtain ⟨rfl, rfl⟩ := asAllowance_ok h3
          obtain ⟨rfl, rfl⟩ := M.pure_ok.mp h2
          obtain ⟨l, hl⟩ := value_some hv
          obtain ⟨l', hl', q2⟩ := storeAllowance_ok hm (Nat.not_lt.mp hle) (v := ⟨d, lu⟩) hp q1.ok h
          rw [q1.led] at hl' q2
          rw [hl] at hl'
          cases hl'
          exact ⟨_, .update hl rfl, q1.trans q2⟩
        | none =>
          unfold nextAllowance at h2
          have hl := value_none hv
          dsimp only at h2
          split at h2
          · rename_i hd
            obtain ⟨rfl, rfl⟩ := M.pure_ok.mp h2
            obtain ⟨l', hl', q2⟩ := storeAllowance_ok hm (Nat.not_lt.mp hle) (v := ⟨d, lu⟩) hp q1.ok h
            rw [q1.led] at hl' q2
            rw [hl] at hl'
            have hnew : newLiveUntil E.sto (.allowance f sp) = .ok l' := by
              unfold lifeAfter at hl'
              dsimp only at hl'
              split at hl'
              · rename_i hh; cases hl'; exact hh
              · cases hl'
            refine ⟨_, .create hl hd hnew ?_, q1.trans q2⟩
            simp only [hd, true_and, Option.getD_none]
          · rename_i hd
            obtain ⟨rfl, rfl⟩ := M.pure_ok.mp h2
            obtain ⟨-, rfl⟩ := M.pure_ok.mp h
            exact ⟨_, .skip hl (by omega) rfl, q1⟩

theorem readAllowance_ok {E : SEnv} {s s' : Tok} {f sp : Addr} {x : Int} (hs : StOk E s.st)
    (h : readAllowance E f sp s = .ok (x, s')) : To E s s' (led E s) ∧ x = allowanceOf E.li.seq (led E s) f sp := by
  unfold readAllowance at h
  mbind h with v s1 h1
  obtain ⟨q, hv⟩ := tryGetData_ok hs h1
  unfold allowanceOf
  cases v with
  | none =>
    obtain ⟨rfl, rfl⟩ := M.pure_ok.mp h
    rw [← hv]; exact ⟨q, rfl⟩
  | some v =>
    dsimp only at h
    mbind h with a s2 h2
    obtain ⟨rfl, rfl⟩ := asAllowance_ok h2
    rw [← hv]
    dsimp only
    split at h
    · rename_i hc
      obtain ⟨rfl, rfl⟩ := M.pure_ok.mp h
      rw [if_pos hc]; exact ⟨q, rfl⟩
    · rename_i hc
      obtain ⟨rfl, rfl⟩ := M.pure_ok.mp h
      rw [if_neg hc]; exact ⟨q, rfl⟩

/-- How an allowance is spent. -/
inductive SpendStep (E : SEnv) (L L' : Led) (f sp : Addr) (d : Int) : Prop
  | none (hd : d = 0) (h : L' = L)
  | some {a0 : AllowanceV} {l : Option Nat} (hd : 0 < d) (hv : L (.allowance f sp) = some (.allowance a0, l))
      (hlive : E.li.seq ≤ a0.liveUntil)
      (h : L' = L.set (.allowance f sp) (some (.allowance { amount := a0.amount - d, liveUntil := a0.liveUntil }, l)))

theorem spendAllowance_ok {E : SEnv} {s s' : Tok} {f sp : Addr} {d : Int} {u : Unit} (hd : 0 ≤ d) (hs : StOk E s.st)
    (h : spendAllowance E f sp d s = .ok (u, s')) :
    d ≤ allowanceOf E.li.seq (led E s) f sp ∧ ∃ L', SpendStep E (led E s) L' f sp d ∧ To E s s' L' := by
  unfold spendAllowance at h
  mbind h with al s1 h1
  obtain ⟨q1, rfl⟩ := readAllowance_ok hs h1
  split at h
  · exact (fail_ok.mp h).elim
  · rename_i hle
    refine ⟨Int.not_lt.mp hle, ?_⟩
    split at h
    · rename_i hpos
      mbind h with n s2 h2
      mlift h2
      obtain ⟨rfl, -, -⟩ := checked128_ok h2
      unfold writeAllowanceAmount at h
      mbind h with e s3 h3
      obtain ⟨q2, he⟩ := getEntry_ok q1.ok h3
      rw [q1.led] at q2 he
      mbind h with a s4 h4
      obtain ⟨v, l⟩ := e
      obtain ⟨rfl, rfl⟩ := asAllowance_ok h4
      have hlive : E.li.seq ≤ a.liveUntil := by
        by_contra hc
        have : allowanceOf E.li.seq (led E s) f sp = 0 := by
          unfold allowanceOf
          rw [he]
          simp only [valueOf, Option.map_some]
          exact if_pos (Nat.lt_of_not_le hc)
        omega
      have hval : allowanceOf E.li.seq (led E s) f sp = a.amount := by
        unfold allowanceOf
        rw [he]
        simp only [valueOf, Option.map_some]
        exact if_neg (Nat.not_lt.mpr hlive)
      obtain ⟨-, L', st, q3⟩ := writeAllowance_ok q2.ok h
      rw [q2.led, hval] at st
      refine ⟨L', ?_, (q1.trans q2).trans q3⟩
      cases st with
      | update hv hL =>
        rw [he] at hv
        cases hv
        refine .some hpos he hlive ?_
        rw [hL]
        simp [lifeUpTo]
      | create hv => rw [he] at hv; cases hv
      | skip hv => rw [he] at hv; cases hv
    · obtain ⟨-, rfl⟩ := M.pure_ok.mp h
      exact ⟨_, .none (by omega) rfl, q1⟩

end Soroban.Sac
