import Verif.Lemmas.SacFacts
import Verif.Spec.SacHistory
/-!
Consequences of `OpStep` for balances, bounds, authorizations and allowances, one call at a time.
-/
namespace Soroban.Sac
open Soroban Soroban.Storage Soroban.Storage.Spec Soroban.Auth Soroban.Sac.Spec

theorem Spec.Call.step {c : Call} (hv : c.Valid) {r : Ret} (hr : c.ret = .ok r) :
    ∃ as es, OpStep c.E c.before c.op r c.after as es ∧ c.events = es ∧ c.auths = as ∧
      (∀ a ∈ as, ∃ st st', c.E.auth a st = .ok st') ∧ StOk c.E (call c.E c.op c.st).1 := by
  unfold Call.ret call at hr
  unfold Call.before Call.after Call.events Call.auths call
  cases h : exec c.E c.op { st := c.st } with
  | error e => rw [h] at hr; cases hr
  | ok p =>
    obtain ⟨r', s'⟩ := p
    rw [h] at hr
    cases hr
    obtain ⟨L', as, es, h1, h2⟩ := exec_step hv.auth hv.store h
    refine ⟨as, es, ?_, ?_, ?_, h2.real, h2.ok⟩
    · have := h2.led
      unfold led at this
      dsimp only
      rw [this]
      exact h1
    · have := h2.events; dsimp only; rw [this]; simp
    · have := h2.auths; dsimp only; rw [this]; simp

theorem Spec.Call.failed {c : Call} {e : Err} (hr : c.ret = .error e) : c.after = c.before := by
  unfold Call.ret call at hr
  unfold Call.before Call.after call
  cases h : exec c.E c.op { st := c.st } with
  | error e => rfl
  | ok p => rw [h] at hr; cases hr

theorem Spec.Call.not_ok {c : Call} (h : ¬ c.ok) : c.after = c.before := by
  cases hr : c.ret with
  | ok r => exact absurd ⟨r, hr⟩ h
  | error e => exact c.failed hr

theorem amountFor_some (a : Addr) (d : Int) (x : Addr) : amountFor (some (a, d)) x = if a = x then d else 0 := rfl

theorem neg_if (p : Prop) [Decidable p] (d : Int) : (if p then -d else 0) = -(if p then d else 0) := by split <;> omega

/-- Balances after a call. -/
theorem OpStep.balance_of {E : SEnv} {L L' : Led} {op : Op} {r : Ret} {as : List Addr} {es : List TokEvent}
    (h : OpStep E L op r L' as es) {x : Addr} (hx : isIssuer E.asset x = false) :
    balanceOf E.asset L' x = balanceOf E.asset L x + amountFor (received op) x - amountFor (paid op) x := by
  cases h with
  | allowance q => rw [q.balance]; simp [amountFor, received, paid]
  | balance q => rw [q.balance]; simp [amountFor, received, paid]
  | authorized q => rw [q.balance]; simp [amountFor, received, paid]
  | admin ha => simp [amountFor, received, paid]
  | approve h0 e hp a => rw [a.only.balance, e.balance]; simp [amountFor, received, paid]
  | transfer h0 e af b1 at_ b2 =>
    rw [b2.balance hx, b1.balance hx, e.balance, neg_if]
    simp only [received, paid, amountFor_some]; omega
  | transferFrom h0 e hal a af b1 at_ b2 =>
    rw [b2.balance hx, b1.balance hx, a.only.balance, e.balance, neg_if]
    simp only [received, paid, amountFor_some]; omega
  | burn h0 hn e af b1 =>
    rw [b1.balance hx, e.balance, neg_if]
    simp only [received, paid, amountFor_some, amountFor]; omega
  | burnFrom h0 hn e hal a af b1 =>
    rw [b1.balance hx, a.only.balance, e.balance, neg_if]
    simp only [received, paid, amountFor_some, amountFor]; omega
  | clawback h0 hn hc ha e b1 =>
    rw [b1.balance hx, e.balance, neg_if]
    simp only [received, paid, amountFor_some, amountFor]; omega
  | setAuthorized ha e hr st => rw [st.bal, e.balance]; simp [amountFor, received, paid]
  | mint h0 hn ha e at_ b2 =>
    rw [b2.balance hx, e.balance]
    simp only [received, paid, amountFor_some, amountFor]; omega
  | setAdmin ha e =>
    rw [← e.balance x]
    unfold balanceOf
    rw [set_ne (holdingKey_ne_inst _ _)]; simp [amountFor, received, paid]
  | trust q e st => rw [st.balance, e.balance]; simp [amountFor, received, paid]

/-- Bounds after a call. -/
theorem OpStep.bounded {E : SEnv} {L L' : Led} {op : Op} {r : Ret} {as : List Addr} {es : List TokEvent}
    (h : OpStep E L op r L' as es) (hb : Bounded E.baseReserve L) : Bounded E.baseReserve L' := by
  cases h with
  | allowance q => exact q.bounded hb
  | balance q => exact q.bounded hb
  | authorized q => exact q.bounded hb
  | admin ha => exact hb
  | approve h0 e hp a => exact a.only.2 _ (e.bounds hb)
  | transfer h0 e af b1 at_ b2 => exact b2.bounded (b1.bounded (e.bounds hb))
  | transferFrom h0 e hal a af b1 at_ b2 => exact b2.bounded (b1.bounded (a.only.2 _ (e.bounds hb)))
  | burn h0 hn e af b1 => exact b1.bounded (e.bounds hb)
  | burnFrom h0 hn e hal a af b1 => exact b1.bounded (a.only.2 _ (e.bounds hb))
  | clawback h0 hn hc ha e b1 => exact b1.bounded (e.bounds hb)
  | setAuthorized ha e hr st => exact st.bounded (e.bounds hb)
  | mint h0 hn ha e at_ b2 => exact b2.bounded (e.bounds hb)
  | setAdmin ha e => exact bounded_set (e.bounds hb) trivial
  | trust q e st => exact st.bounded (e.bounds hb)

theorem clawbackable_value {E : SEnv} {L : Led} {a : Addr} (h : Clawbackable E L a) :
    valueOf (L (holdingKey E.asset a)) ≠ none ∧ clawbackEnabled E.asset L a = true := by
  cases a with
  | account id =>
    obtain ⟨i, t, ha, hv, hc⟩ := h
    unfold holdingKey clawbackEnabled
    simp only [ha, hv, hc]
    simp
  | contract c =>
    obtain ⟨b, hv, hc⟩ := h
    unfold holdingKey clawbackEnabled
    simp only [hv, hc]
    simp

/-- An address that is not authorized: its holding only changes by clawback. -/
theorem OpStep.frozen {E : SEnv} {L L' : Led} {op : Op} {r : Ret} {as : List Addr} {es : List TokEvent}
    (h : OpStep E L op r L' as es) {x : Addr} (hx : authorizedToHold E.asset L x = false) :
    x ∉ parties op ∨ ∃ d adm, op = .clawback x d ∧ adminOf L = some adm ∧ adm ∈ as ∧ clawbackEnabled E.asset L x = true := by
  cases h with
  | allowance q => left; simp [parties, paid, received]
  | balance q => left; simp [parties, paid, received]
  | authorized q => left; simp [parties, paid, received]
  | admin ha => left; simp [parties, paid, received]
  | approve h0 e hp a => left; simp [parties, paid, received]
  | transfer h0 e af b1 at_ b2 =>
    left
    have h1 := e.authorized x
    have h2 := b1.authorized (.inl af) x
    simp only [parties, paid, received, Option.map_some, Option.toList_some, List.cons_append, List.nil_append, List.mem_cons, List.not_mem_nil, or_false]
    rintro (rfl | rfl)
    · rw [h1, hx] at af; cases af
    · rw [h2, h1, hx] at at_; cases at_
  | transferFrom h0 e hal a af b1 at_ b2 =>
    left
    have h0 := a.only.authorized E.asset x
    have h1 := e.authorized x
    have h2 := b1.authorized (.inl af) x
    simp only [parties, paid, received, Option.map_some, Option.toList_some, List.cons_append, List.nil_append, List.mem_cons, List.not_mem_nil, or_false]
    rintro (rfl | rfl)
    · rw [h0, h1, hx] at af; cases af
    · rw [h2, h0, h1, hx] at at_; cases at_
  | burn h0 hn e af b1 =>
    left
    simp only [parties, paid, received, Option.map_some, Option.toList_some, Option.map_none, Option.toList_none, List.append_nil, List.mem_cons, List.not_mem_nil, or_false]
    rintro rfl
    rw [e.authorized, hx] at af; cases af
  | burnFrom h0 hn e hal a af b1 =>
    left
    simp only [parties, paid, received, Option.map_some, Option.toList_some, Option.map_none, Option.toList_none, List.append_nil, List.mem_cons, List.not_mem_nil, or_false]
    rintro rfl
    rw [a.only.authorized, e.authorized, hx] at af; cases af
  | @clawback f adm d L1 L2 h0 hn hc ha e b1 =>
    by_cases hfx : f = x
    · subst hfx; exact .inr ⟨d, adm, rfl, ha, by simp, (clawbackable_value hc).2⟩
    · left; simp [parties, paid, received]; exact fun h => hfx h.symm
  | setAuthorized ha e hr st => left; simp [parties, paid, received]
  | mint h0 hn ha e at_ b2 =>
    left
    simp only [parties, paid, received, Option.map_some, Option.toList_some, Option.map_none, Option.toList_none, List.nil_append, List.mem_cons, List.not_mem_nil, or_false]
    rintro rfl
    rw [e.authorized, hx] at at_; cases at_
  | setAdmin ha e => left; simp [parties, paid, received]
  | trust q e st => left; simp [parties, paid, received]

/-- Authorization to hold changes only by `set_authorized` and, for an account without trustline, by `trust`. -/
theorem OpStep.authorized_of {E : SEnv} {L L' : Led} {op : Op} {r : Ret} {as : List Addr} {es : List TokEvent}
    (h : OpStep E L op r L' as es) {x : Addr} (h1 : ∀ b, op ≠ .setAuthorized x b) (h2 : op ≠ .trust x) :
    authorizedToHold E.asset L' x = authorizedToHold E.asset L x := by
  cases h with
  | allowance q => exact q.authorized ..
  | balance q => exact q.authorized ..
  | authorized q => exact q.authorized ..
  | admin ha => rfl
  | approve h0 e hp a => rw [a.only.authorized, e.authorized]
  | transfer h0 e af b1 at_ b2 => rw [b2.authorized (.inl at_), b1.authorized (.inl af), e.authorized]
  | transferFrom h0 e hal a af b1 at_ b2 =>
    rw [b2.authorized (.inl at_), b1.authorized (.inl af), a.only.authorized, e.authorized]
  | burn h0 hn e af b1 => rw [b1.authorized (.inl af), e.authorized]
  | burnFrom h0 hn e hal a af b1 => rw [b1.authorized (.inl af), a.only.authorized, e.authorized]
  | @clawback f adm d L1 L2 h0 hn hc ha e b1 =>
    rw [b1.authorized (.inr ?_), e.authorized]
    have := (clawbackable_value hc).1
    cases f with
    | account id =>
      obtain ⟨i, t, hi, -⟩ := hc
      rw [hi] at this ⊢
      rw [e.value (fun _ => by simp [holdingKey])]; exact this
    | contract c => rw [e.value (fun _ => by simp [holdingKey])]; exact this
  | setAuthorized ha e hr st =>
    rw [st.authorized_other (fun hx => h1 _ (by rw [hx])), e.authorized]
  | mint h0 hn ha e at_ b2 => rw [b2.authorized (.inl at_), e.authorized]
  | setAdmin ha e =>
    rw [← e.authorized x]
    exact authorized_congr ⟨fun _ _ => by rw [set_ne (holdingKey_ne_inst _ _)], fun _ _ _ => by rw [set_ne (by simp)]⟩
      (fun _ _ => by unfold flagsOf; rw [set_ne (by simp)])
  | trust q e st => rw [st.authorized (fun hx => h2 (by rw [hx])), e.authorized]

/-- `set_authorized` sets it. -/
theorem OpStep.setAuthorized_sets {E : SEnv} {L L' : Led} {x : Addr} {b : Bool} {r : Ret} {as : List Addr} {es : List TokEvent}
    (h : OpStep E L (.setAuthorized x b) r L' as es) : authorizedToHold E.asset L' x = b := by
  cases h with
  | setAuthorized ha e hr st => exact st.authorized_self

/-- The one authorization a call obtains. -/
theorem OpStep.auth_of {E : SEnv} {L L' : Led} {op : Op} {r : Ret} {as : List Addr} {es : List TokEvent}
    (h : OpStep E L op r L' as es) : (∃ a, op = .trust a ∧ (as = [] ∨ as = [a])) ∨ as = (needsAuth L op).toList ∧
      ((needsAuth L op).isSome ∨ ∃ a b, op = .allowance a b ∨ op = .balance a ∨ op = .authorized a ∨ op = .admin) := by
  cases h with
  | trust q e st =>
    left
    cases st with
    | contract h => exact ⟨_, rfl, .inl rfl⟩
    | exists_ ha hv h => exact ⟨_, rfl, .inl rfl⟩
    | create ha hi hv e hiss hacc hsub hbal h => exact ⟨_, rfl, .inr rfl⟩
  | allowance q => exact .inr ⟨rfl, .inr ⟨_, _, .inl rfl⟩⟩
  | balance q => exact .inr ⟨rfl, .inr ⟨_, (.account 0), .inr (.inl rfl)⟩⟩
  | authorized q => exact .inr ⟨rfl, .inr ⟨_, (.account 0), .inr (.inr (.inl rfl))⟩⟩
  | admin ha => exact .inr ⟨rfl, .inr ⟨(.account 0), (.account 0), .inr (.inr (.inr rfl))⟩⟩
  | approve h0 e hp a => exact .inr ⟨rfl, .inl rfl⟩
  | transfer h0 e af b1 at_ b2 => exact .inr ⟨rfl, .inl rfl⟩
  | transferFrom h0 e hal a af b1 at_ b2 => exact .inr ⟨rfl, .inl rfl⟩
  | burn h0 hn e af b1 => exact .inr ⟨rfl, .inl rfl⟩
  | burnFrom h0 hn e hal a af b1 => exact .inr ⟨rfl, .inl rfl⟩
  | clawback h0 hn hc ha e b1 => right; simp [needsAuth, ha]
  | setAuthorized ha e hr st => right; simp [needsAuth, ha]
  | mint h0 hn ha e at_ b2 => right; simp [needsAuth, ha]
  | setAdmin ha e => right; simp [needsAuth, ha]

theorem OpStep.nonneg {E : SEnv} {L L' : Led} {op : Op} {r : Ret} {as : List Addr} {es : List TokEvent}
    (h : OpStep E L op r L' as es) {d : Int} (hd : amountOf op = some d) : 0 ≤ d := by
  cases h <;> simp_all [amountOf]

/-- Spending an allowance: it was enough. -/
theorem OpStep.enough {E : SEnv} {L L' : Led} {op : Op} {r : Ret} {as : List Addr} {es : List TokEvent}
    (h : OpStep E L op r L' as es) (f sp : Addr) :
    (∀ t d, op = .transferFrom sp f t d → d ≤ allowanceOf E.li.seq L f sp) ∧
    (∀ d, op = .burnFrom sp f d → d ≤ allowanceOf E.li.seq L f sp) := by
  constructor
  · intro t d ho; subst ho
    cases h with
    | transferFrom h0 e hal a af b1 at_ b2 => unfold allowanceOf at hal ⊢; rwa [e.allow] at hal
  · intro d ho; subst ho
    cases h with
    | burnFrom h0 hn e hal a af b1 => unfold allowanceOf at hal ⊢; rwa [e.allow] at hal

/-- What a call does to the entry of an allowance. -/
inductive AllowanceStep (E : SEnv) (f sp : Addr) (L L' : Led) (op : Op) : Prop
  | approve {d : Int} {lu : Nat} {L1 L2 : Led} (ho : op = .approve f sp d lu) (h0 : 0 ≤ d) (hp : d > 0 → E.li.seq ≤ lu)
      (e1 : L1 (.allowance f sp) = L (.allowance f sp)) (s : AllowStep E L1 L2 f sp d lu)
      (e2 : L' (.allowance f sp) = L2 (.allowance f sp))
  | spend {L1 L2 : Led} (h0 : 0 ≤ spends f sp op) (hl : spends f sp op ≤ allowanceOf E.li.seq L f sp)
      (hn : approves f sp op = none)
      (e1 : L1 (.allowance f sp) = L (.allowance f sp)) (s : SpendStep E L1 L2 f sp (spends f sp op))
      (e2 : L' (.allowance f sp) = L2 (.allowance f sp))
  | other (h0 : spends f sp op = 0) (hn : approves f sp op = none) (e : L' (.allowance f sp) = L (.allowance f sp))

theorem OpStep.allowance_of {E : SEnv} {L L' : Led} {op : Op} {r : Ret} {as : List Addr} {es : List TokEvent}
    (h : OpStep E L op r L' as es) (f sp : Addr) : AllowanceStep E f sp L L' op := by
  cases h with
  | allowance q => exact .other rfl rfl (q.allow f sp)
  | balance q => exact .other rfl rfl (q.allow f sp)
  | authorized q => exact .other rfl rfl (q.allow f sp)
  | admin ha => exact .other rfl rfl rfl
  | @approve f' sp' d lu L1 L2 h0 e hp a =>
    by_cases hh : f' = f ∧ sp' = sp
    · obtain ⟨rfl, rfl⟩ := hh
      exact .approve rfl h0 hp (e.allow f' sp') a rfl
    · refine .other rfl (by simp only [approves, if_neg hh]) ?_
      rw [a.only.1 _ (by simp only [ne_eq, SKey.allowance.injEq]; exact fun h => hh ⟨h.1.symm, h.2.symm⟩), e.allow]
  | transfer h0 e af b1 at_ b2 => exact .other rfl rfl (by rw [b2.allow, b1.allow, e.allow])
  | @transferFrom sp' f' t d L1 L2 L3 L4 h0 e hal a af b1 at_ b2 =>
    by_cases hh : f' = f ∧ sp' = sp
    · obtain ⟨rfl, rfl⟩ := hh
      have hs : spends f' sp' (.transferFrom sp' f' t d) = d := by simp [spends]
      refine .spend (by rw [hs]; exact h0) ?_ rfl (e.allow f' sp') (by rw [hs]; exact a) (by rw [b2.allow, b1.allow])
      rw [hs]; unfold allowanceOf at hal ⊢; rwa [e.allow] at hal
    · refine .other (by simp only [spends, if_neg hh]) rfl ?_
      rw [b2.allow, b1.allow, a.only.1 _ (by simp only [ne_eq, SKey.allowance.injEq]; exact fun h => hh ⟨h.1.symm, h.2.symm⟩), e.allow]
  | burn h0 hn e af b1 => exact .other rfl rfl (by rw [b1.allow, e.allow])
  | @burnFrom sp' f' d L1 L2 L3 h0 hn e hal a af b1 =>
    by_cases hh : f' = f ∧ sp' = sp
    · obtain ⟨rfl, rfl⟩ := hh
      have hs : spends f' sp' (.burnFrom sp' f' d) = d := by simp [spends]
      refine .spend (by rw [hs]; exact h0) ?_ rfl (e.allow f' sp') (by rw [hs]; exact a) (b1.allow _ _)
      rw [hs]; unfold allowanceOf at hal ⊢; rwa [e.allow] at hal
    · refine .other (by simp only [spends, if_neg hh]) rfl ?_
      rw [b1.allow, a.only.1 _ (by simp only [ne_eq, SKey.allowance.injEq]; exact fun h => hh ⟨h.1.symm, h.2.symm⟩), e.allow]
  | clawback h0 hn hc ha e b1 => exact .other rfl rfl (by rw [b1.allow, e.allow])
  | setAuthorized ha e hr st =>
    exact .other rfl rfl (by rw [st.frame (holdingKey_ne_allowance _ _ _ _).symm, e.allow])
  | mint h0 hn ha e at_ b2 => exact .other rfl rfl (by rw [b2.allow, e.allow])
  | setAdmin ha e => exact .other rfl rfl (by rw [set_ne (by simp), e.allow])
  | trust q e st => exact .other rfl rfl (by rw [st.allow, e.allow])

/-- The events of a call account for the balance changes. -/
theorem OpStep.events_of {E : SEnv} {L L' : Led} {op : Op} {r : Ret} {as : List Addr} {es : List TokEvent}
    (h : OpStep E L op r L' as es) {x : Addr} (hx : isIssuer E.asset x = false) :
    (es.map (eventAmount · x)).sum = amountFor (received op) x - amountFor (paid op) x := by
  have key : ∀ f t d, eventAmount (transferEvent E.asset f t d) x = (if t = x then d else 0) - (if f = x then d else 0) := by
    intro f t d
    unfold transferEvent
    split
    · rfl
    · split
      · rename_i hi
        have : f ≠ x := by rintro rfl; rw [hx] at hi; cases hi
        simp [eventAmount, this]
      · split
        · rename_i hi
          have : t ≠ x := by rintro rfl; rw [hx] at hi; cases hi
          simp [eventAmount, this]
        · rfl
  cases h <;> simp only [List.map_cons, List.map_nil, List.sum_cons, List.sum_nil, received, paid, amountFor] <;>
    first | (rw [key]; omega) | (simp only [eventAmount]; omega) | omega

end Soroban.Sac
