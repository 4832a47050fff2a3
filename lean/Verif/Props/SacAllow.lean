import Verif.Props.Sac
/-! C37, C38: allowances of the asset contract. -/
namespace Soroban.Props
open Soroban Soroban.Storage Soroban.Storage.Spec Soroban.Auth Soroban.Sac.Spec
open Soroban.Sac hiding Led

/-! ### one call -/

/-- C37: a successful `approve` replaces the allowance, whatever it was. -/
theorem C37_approve_overwrites {c : Call} (hv : c.Valid) (hr : c.ok) {f sp : Addr} {d : Int} {lu : Nat}
    (ho : c.op = .approve f sp d lu) : allowanceOf c.seq c.after f sp = if lu < c.seq then 0 else d := by
  obtain ⟨r, hr⟩ := hr
  obtain ⟨as, es, st, -⟩ := c.step hv hr
  rw [ho] at st
  unfold allowanceOf
  cases st with
  | approve h0 e hp a =>
    cases a with
    | update hv h => rw [h, set_get]; rfl
    | create hv hp hl h => rw [h, set_get]; rfl
    | skip hv hp h =>
      rw [h, hv]
      have : d = 0 := by omega
      simp [valueOf, this]

/-- C37: a successful `transfer_from` or `burn_from` lowers the allowance by exactly the amount, and the allowance was
enough. -/
theorem C37_spend_exact {c : Call} (hv : c.Valid) (hr : c.ok) {f sp : Addr} {d : Int}
    (ho : (∃ t, c.op = .transferFrom sp f t d) ∨ c.op = .burnFrom sp f d) :
    d ≤ allowanceOf c.seq c.before f sp ∧ allowanceOf c.seq c.after f sp = allowanceOf c.seq c.before f sp - d := by
  obtain ⟨r, hr⟩ := hr
  obtain ⟨as, es, st, -⟩ := c.step hv hr
  have hs : spends f sp c.op = d := by
    rcases ho with ⟨t, ho⟩ | ho <;> rw [ho] <;> simp [spends]
  have hna : approves f sp c.op = none := by
    rcases ho with ⟨t, ho⟩ | ho <;> rw [ho] <;> rfl
  constructor
  · rcases ho with ⟨t, ho⟩ | ho
    · exact (st.enough f sp).1 t d ho
    · exact (st.enough f sp).2 d ho
  · cases st.allowance_of f sp with
    | approve hop h0 hp e1 s e2 => rw [hop] at hna; simp [approves] at hna
    | spend h0 hl hn e1 s e2 =>
      rw [hs] at s
      unfold allowanceOf
      rw [e2, ← e1]
      cases s with
      | none hd h => rw [h, hd]; omega
      | some hd hv hl h =>
        rw [h, set_get, hv]
        unfold Call.seq
        simp only [valueOf, Option.map_some, if_neg (Nat.not_lt.mpr hl)]
    | other h0 hn e => unfold allowanceOf; rw [e]; omega

/-- C37: no other operation, and no operation on another pair of addresses, changes an allowance. -/
theorem C37_others_unchanged {c : Call} (hv : c.Valid) {f sp : Addr} (h1 : approves f sp c.op = none)
    (h2 : spends f sp c.op = 0) : c.after (.allowance f sp) = c.before (.allowance f sp) := by
  by_cases hok : c.ok
  · obtain ⟨r, hr⟩ := hok
    obtain ⟨as, es, st, -⟩ := c.step hv hr
    cases st.allowance_of f sp with
    | approve hop h0 hp e1 s e2 => rw [hop] at h1; simp [approves] at h1
    | spend h0 hl hn e1 s e2 =>
      rw [h2] at s
      cases s with
      | none hd h => rw [e2, h, e1]
      | some hd hv hl h => omega
    | other h0 hn e => exact e
  · rw [c.not_ok hok]

/-! ### histories -/

theorem carried_value {k : SKey} {c : Call} {L : Led} (h : Carried k c L) :
    c.before k = none ∨ valueOf (c.before k) = valueOf (L k) := by
  obtain ⟨e, h1, h2⟩ := h
  rw [h2]
  revert h1
  generalize L k = x
  intro h1
  have hx : valueOf e = valueOf x := by
    cases x with
    | none => cases e with
      | none => rfl
      | some e => obtain ⟨v, l⟩ := e; cases l <;> exact h1.elim
    | some x =>
      obtain ⟨v, l⟩ := x
      cases e with
      | none => cases l <;> exact h1.elim
      | some e =>
        obtain ⟨v', l'⟩ := e
        cases l <;> cases l' <;> simp_all [Extended, valueOf]
  unfold view
  split
  · left; rfl
  · right; rw [← hx]
  · split
    · right; rw [← hx]
    · split
      · left; rfl
      · right; rw [← hx]; rfl
  · right; rw [← hx]

/-- The allowance is at most `rem` and ends at `lu` at the latest. -/
def AtMost (f sp : Addr) (rem : Int) (lu : Nat) (L : Led) : Prop :=
  0 ≤ rem ∧ ∀ a, valueOf (L (.allowance f sp)) = some (.allowance a) → a.amount ≤ rem ∧ a.liveUntil ≤ lu

theorem AtMost.reads {f sp : Addr} {rem : Int} {lu : Nat} {L : Led} (h : AtMost f sp rem lu L) (n : Nat) :
    allowanceOf n L f sp ≤ rem ∧ (lu < n → allowanceOf n L f sp = 0) := by
  unfold allowanceOf
  split
  · rename_i a ha
    obtain ⟨h1, h2⟩ := h.2 a ha
    split
    · exact ⟨h.1, fun _ => rfl⟩
    · rename_i hn; exact ⟨h1, fun hl => absurd (Nat.lt_of_le_of_lt h2 hl) hn⟩
  · exact ⟨h.1, fun _ => rfl⟩

theorem AtMost.carried {f sp : Addr} {rem : Int} {lu : Nat} {L : Led} {c : Call} (h : AtMost f sp rem lu L)
    (hc : Carried (.allowance f sp) c L) : AtMost f sp rem lu c.before := by
  refine ⟨h.1, fun a ha => ?_⟩
  rcases carried_value hc with hn | hn
  · rw [hn] at ha; cases ha
  · rw [hn] at ha; exact h.2 a ha

theorem AtMost.call {f sp : Addr} {rem : Int} {lu : Nat} {c : Call} (hv : c.Valid) (h : AtMost f sp rem lu c.before)
    (hn : c.ok → approves f sp c.op = none) :
    AtMost f sp (rem - if c.ok then spends f sp c.op else 0) lu c.after := by
  by_cases hok : c.ok
  · have hn := hn hok
    rw [if_pos hok]
    obtain ⟨r, hr⟩ := hok
    obtain ⟨as, es, st, -⟩ := c.step hv hr
    cases st.allowance_of f sp with
    | approve hop h0 hp e1 s e2 => rw [hop] at hn; simp [approves] at hn
    | spend h0 hl hn e1 s e2 =>
      have hle : spends f sp c.op ≤ rem := Int.le_trans hl (h.reads _).1
      refine ⟨by omega, fun a ha => ?_⟩
      rw [e2] at ha
      cases s with
      | none hd hh => rw [hh, e1] at ha; rw [hd]; have := h.2 a ha; omega
      | some hd hv hl hh =>
        rw [hh, set_get] at ha
        rw [e1] at hv
        have := h.2 _ (by rw [hv]; rfl)
        cases ha
        dsimp only
        omega
    | other h0 hn e =>
      refine ⟨by rw [h0]; have := h.1; omega, fun a ha => ?_⟩
      rw [e] at ha; have := h.2 a ha; omega
  · rw [if_neg hok, c.not_ok hok]
    exact ⟨by have := h.1; omega, fun a ha => by have := h.2 a ha; omega⟩

theorem AtMost.hist {asset : Asset} {f sp : Addr} {lu n n' : Nat} {L L' : Led} {cs : List Call}
    (hist : Hist asset (Carried (.allowance f sp)) n L cs n' L') : ∀ {rem : Int}, AtMost f sp rem lu L →
    (∀ c ∈ cs, c.ok → approves f sp c.op = none) → AtMost f sp (rem - spent f sp cs) lu L' := by
  induction hist with
  | nil => intro rem h _; simpa [spent] using h
  | @cons n n' L L' c cs valid ha _ hb _ ih =>
    intro rem h hno
    have h1 := ih ((h.carried hb).call valid (hno c (by simp))) (fun c hc => hno c (List.mem_cons_of_mem _ hc))
    rw [spent]
    have e : rem - ((if c.ok then spends f sp c.op else 0) + spent f sp cs) =
        rem - (if c.ok then spends f sp c.op else 0) - spent f sp cs := by omega
    rw [e]; exact h1

theorem AtMost.approved {c : Call} (hv : c.Valid) (hr : c.ok) {f sp : Addr} {d : Int} {lu : Nat}
    (ho : c.op = .approve f sp d lu) : AtMost f sp d lu c.after := by
  obtain ⟨r, hr⟩ := hr
  obtain ⟨as, es, st, -⟩ := c.step hv hr
  rw [ho] at st
  cases st with
  | approve h0 e hp a =>
    refine ⟨h0, fun x hx => ?_⟩
    cases a with
    | update hv h => rw [h, set_get] at hx; cases hx; exact ⟨Int.le_refl _, Nat.le_refl _⟩
    | create hv hp hl h => rw [h, set_get] at hx; cases hx; exact ⟨Int.le_refl _, Nat.le_refl _⟩
    | skip hv hp h => rw [h, hv] at hx; cases hx

/-- C37: after `approve` of `d` until ledger `lu`, over any later history without another successful `approve` by the same
holder for the same spender, the spender spends at most `d` in total. -/
theorem C37_never_overspent {asset : Asset} {f sp : Addr} {d : Int} {lu n n' : Nat} {L L' : Led} {c : Call} {cs : List Call}
    (hist : Hist asset (Carried (.allowance f sp)) n L (c :: cs) n' L') (ho : c.op = .approve f sp d lu) (hr : c.ok)
    (hno : ∀ x ∈ cs, x.ok → approves f sp x.op = none) : spent f sp cs ≤ d := by
  cases hist with
  | cons valid ha hl hb rest =>
    have := (AtMost.hist rest (AtMost.approved valid hr ho) hno).1
    omega

/-- C37: ... and whatever a query of the allowance answers is at most what is left, and zero after ledger `lu`. -/
theorem C37_allowance_reads {asset : Asset} {f sp : Addr} {d x : Int} {lu n n' : Nat} {L L' : Led} {c q : Call} {cs : List Call}
    (hist : Hist asset (Carried (.allowance f sp)) n L (c :: (cs ++ [q])) n' L') (ho : c.op = .approve f sp d lu) (hr : c.ok)
    (hno : ∀ x ∈ cs, x.ok → approves f sp x.op = none) (hq : q.op = .allowance f sp) (hx : q.ret = .ok (.amount x)) :
    x ≤ d - spent f sp cs ∧ (lu < q.seq → x = 0) := by
  cases hist with
  | cons valid ha hl hb rest =>
    obtain ⟨m, M, h1, h2⟩ := hist_append rest
    have h3 := AtMost.hist h1 (AtMost.approved valid hr ho) hno
    cases h2 with
    | cons qv qa ql qb _ =>
      have h4 := (h3.carried qb).reads q.seq
      have h5 := (C43_queries qv (by rw [hq]; rfl)).1 _ hx
      rw [hq] at h5
      simp only [answer] at h5
      cases h5
      exact h4

/-- C37: ... and after ledger `lu` nothing can be spent. -/
theorem C37_expired_not_spendable {asset : Asset} {f sp : Addr} {d x : Int} {lu n n' : Nat} {L L' : Led} {c q : Call}
    {cs : List Call} (hist : Hist asset (Carried (.allowance f sp)) n L (c :: (cs ++ [q])) n' L')
    (ho : c.op = .approve f sp d lu) (hr : c.ok) (hno : ∀ x ∈ cs, x.ok → approves f sp x.op = none)
    (hq : (∃ t, q.op = .transferFrom sp f t x) ∨ q.op = .burnFrom sp f x) (hx : 0 < x) (hl : lu < q.seq) : ¬ q.ok := by
  intro hok
  cases hist with
  | cons valid ha hl' hb rest =>
    obtain ⟨m, M, h1, h2⟩ := hist_append rest
    have h3 := AtMost.hist h1 (AtMost.approved valid hr ho) hno
    cases h2 with
    | cons qv qa ql qb _ =>
      have h4 := ((h3.carried qb).reads q.seq).2 hl
      have h5 := (C37_spend_exact qv hok hq).1
      omega

/-! ### C38 -/

/-- The entry of the allowance lives at least as long as the allowance says. -/
def LivesLong (f sp : Addr) (L : Led) : Prop :=
  ∀ a l, L (.allowance f sp) = some (.allowance a, l) → ∃ l', l = some l' ∧ a.liveUntil ≤ l'

theorem extended_view {E : SEnv} {k : SKey} {x e : Option (Entry SVal)} {v : SVal} {l : Option Nat} (hk : ∃ p, sacKeys.durability k = some p)
    (h : Extended x e) (hv : view E.sto k e = some (v, l)) (ht : sacKeys.durability k = some .temporary) :
    ∃ l0, x = some (v, l0) ∧ (∀ m, l0 = some m → ∃ m', l = some m' ∧ m ≤ m') := by
  have hd : E.sto.keys.durability k = some .temporary := ht
  cases x with
  | none =>
    cases e with
    | none => simp [view] at hv
    | some e => obtain ⟨v', l'⟩ := e; cases l' <;> exact h.elim
  | some x =>
    obtain ⟨v0, l0⟩ := x
    cases e with
    | none => cases l0 <;> exact h.elim
    | some e =>
      obtain ⟨v', l'⟩ := e
      unfold view at hv
      rw [hd] at hv
      cases l0 with
      | none =>
        cases l' with
        | none => cases hv; simp only [Extended] at h; subst h; exact ⟨none, rfl, fun m hm => by cases hm⟩
        | some l' => exact h.elim
      | some l0 =>
        cases l' with
        | none => exact h.elim
        | some l' =>
          simp only [Extended] at h
          obtain ⟨rfl, hle⟩ := h
          dsimp only at hv
          split at hv
          · cases hv; exact ⟨some l0, rfl, fun m hm => by cases hm; exact ⟨l', rfl, hle⟩⟩
          · cases hv

theorem LivesLong.carried {f sp : Addr} {L : Led} {c : Call} (h : LivesLong f sp L) (hc : Carried (.allowance f sp) c L) :
    LivesLong f sp c.before := by
  intro a l hk
  obtain ⟨e, h1, h2⟩ := hc
  rw [h2] at hk
  obtain ⟨l0, h3, h4⟩ := extended_view ⟨_, rfl⟩ h1 hk rfl
  obtain ⟨m, hm, hle⟩ := h a l0 h3
  obtain ⟨m', hm', hle'⟩ := h4 m hm
  exact ⟨m', hm', Nat.le_trans hle hle'⟩

/-- What a positive approval leaves, when the entry lived long before. -/
theorem approve_lives {c : Call} (hv : c.Valid) (hr : c.ok) {f sp : Addr} {d : Int} {lu : Nat}
    (ho : c.op = .approve f sp d lu) (h : LivesLong f sp c.before) (h0 : d = 0 → lu ≤ c.seq) :
    LivesLong f sp c.after ∧ (0 < d → ∃ l, c.after (.allowance f sp) = some (.allowance ⟨d, lu⟩, some l) ∧ lu ≤ l) := by
  obtain ⟨r, hr⟩ := hr
  obtain ⟨as, es, st, -⟩ := c.step hv hr
  rw [ho] at st
  cases st with
  | @approve _ _ _ _ L1 L2 hd e hp a =>
    have hlive := absMap_live hv.store.1 hv.store.2 (.allowance f sp)
    have hk := e.allow f sp
    cases a with
    | @update a0 l hx hh =>
      have hx' : c.before (.allowance f sp) = some (.allowance a0, l) := by rw [← hk]; exact hx
      obtain ⟨m, hm, hle⟩ := h a0 l hx'
      obtain ⟨m2, hm2, hle2⟩ := hlive (.allowance a0) l .temporary hx' rfl
      subst hm
      cases hm2
      have key : ∃ l', lifeUpTo (decide (d > 0 ∧ a0.liveUntil < lu)) lu (some m) = some l' ∧ lu ≤ l' := by
        unfold lifeUpTo
        by_cases hc : d > 0 ∧ a0.liveUntil < lu
        · simp only [hc, decide_true, and_self, if_true, Option.map_some]; exact ⟨_, rfl, Nat.le_max_right _ _⟩
        · simp only [hc, decide_false, Bool.false_eq_true, if_false]
          refine ⟨m, rfl, ?_⟩
          by_cases hd0 : d = 0
          · exact Nat.le_trans (h0 hd0) hle2
          · have : ¬ a0.liveUntil < lu := fun hlt => hc ⟨by omega, hlt⟩
            omega
      obtain ⟨l', h1, h2⟩ := key
      rw [h1] at hh
      constructor
      · intro a l2 hk2
        rw [hh, set_get] at hk2
        cases hk2
        exact ⟨l', rfl, h2⟩
      · intro _
        exact ⟨l', by rw [hh, set_get], h2⟩
    | @create l hx hpos hl hh =>
      obtain ⟨m, hm, hle⟩ := newLive_live hl (.allowance ⟨d, lu⟩) (.allowance ⟨d, lu⟩) l .temporary rfl rfl
      subst hm
      have key : ∃ l', lifeUpTo (decide (0 < lu)) lu (some m) = some l' ∧ lu ≤ l' := by
        unfold lifeUpTo
        by_cases hc : 0 < lu
        · simp only [hc, decide_true, if_true, Option.map_some]; exact ⟨_, rfl, Nat.le_max_right _ _⟩
        · simp only [hc, decide_false, Bool.false_eq_true, if_false]
          exact ⟨m, rfl, by omega⟩
      obtain ⟨l', h1, h2⟩ := key
      rw [h1] at hh
      constructor
      · intro a l2 hk2
        rw [hh, set_get] at hk2
        cases hk2
        exact ⟨l', rfl, h2⟩
      · intro _
        exact ⟨l', by rw [hh, set_get], h2⟩
    | skip hx hp hh =>
      constructor
      · intro a l2 hk2
        rw [hh, hx] at hk2; cases hk2
      · intro hpos; omega

theorem LivesLong.call {f sp : Addr} {c : Call} (hv : c.Valid) (h : LivesLong f sp c.before)
    (h0 : c.ok → ∀ lu, approves f sp c.op = some (0, lu) → lu ≤ c.seq) : LivesLong f sp c.after := by
  by_cases hok : c.ok
  · have h0 := h0 hok
    have hok' := hok
    obtain ⟨r, hr⟩ := hok
    obtain ⟨as, es, st, -⟩ := c.step hv hr
    cases st.allowance_of f sp with
    | approve hop hd hp e1 s e2 =>
      refine (approve_lives hv hok' hop h fun hd => h0 _ ?_).1
      rw [hop, hd]; simp [approves]
    | spend hd hl hn e1 s e2 =>
      intro a l hk
      rw [e2] at hk
      cases s with
      | none hd hh => rw [hh, e1] at hk; exact h a l hk
      | some hd hv hl hh =>
        rw [hh, set_get] at hk
        rw [e1] at hv
        obtain ⟨m, hm, hle⟩ := h _ _ hv
        cases hk
        exact ⟨m, hm, hle⟩
    | other hd hn e => intro a l hk; rw [e] at hk; exact h a l hk
  · rw [c.not_ok hok]; exact h

theorem LivesLong.hist {asset : Asset} {f sp : Addr} {n n' : Nat} {L L' : Led} {cs : List Call}
    (hist : Hist asset (Carried (.allowance f sp)) n L cs n' L') (h : LivesLong f sp L)
    (h0 : ∀ c ∈ cs, c.ok → ∀ lu, approves f sp c.op = some (0, lu) → lu ≤ c.seq) : LivesLong f sp L' := by
  induction hist with
  | nil => exact h
  | cons valid ha _ hb _ ih =>
    exact ih ((h.carried hb).call valid (h0 _ (by simp))) (fun c hc => h0 c (List.mem_cons_of_mem _ hc))

/-- The allowance is there, and its entry lives long enough. -/
def Held (f sp : Addr) (d : Int) (lu : Nat) (L : Led) : Prop :=
  ∃ l, L (.allowance f sp) = some (.allowance ⟨d, lu⟩, some l) ∧ lu ≤ l

theorem Held.carried {f sp : Addr} {d : Int} {lu : Nat} {L : Led} {c : Call} (h : Held f sp d lu L)
    (hc : Carried (.allowance f sp) c L) (hl : c.seq ≤ lu) : Held f sp d lu c.before := by
  obtain ⟨l, h1, h2⟩ := h
  obtain ⟨e, h3, h4⟩ := hc
  rw [h1] at h3
  cases e with
  | none => exact h3.elim
  | some e =>
    obtain ⟨v', l'⟩ := e
    cases l' with
    | none => exact h3.elim
    | some l' =>
      simp only [Extended] at h3
      obtain ⟨rfl, hle⟩ := h3
      refine ⟨l', ?_, Nat.le_trans h2 hle⟩
      rw [h4]
      have hd : c.E.sto.keys.durability (.allowance f sp) = some .temporary := rfl
      have : c.E.sto.li.seq ≤ l' := Nat.le_trans (Nat.le_trans hl h2) hle
      unfold view
      rw [hd]
      simp only [if_pos this]

theorem Held.hist {asset : Asset} {f sp : Addr} {d : Int} {lu n n' : Nat} {L L' : Led} {cs : List Call}
    (hist : Hist asset (Carried (.allowance f sp)) n L cs n' L') (h : Held f sp d lu L) (hn : n' ≤ lu)
    (h0 : ∀ c ∈ cs, c.ok → approves f sp c.op = none ∧ spends f sp c.op = 0) : Held f sp d lu L' := by
  induction hist with
  | nil => exact h
  | @cons n n' L L' c cs valid ha _ hb hrest ih =>
    refine ih ?_ hn (fun c hc => h0 c (List.mem_cons_of_mem _ hc))
    have h1 := h.carried hb (Nat.le_trans (hist_le hrest) hn)
    unfold Held
    by_cases hok : c.ok
    · obtain ⟨h2, h3⟩ := h0 c (by simp) hok
      rw [C37_others_unchanged valid h2 h3]; exact h1
    · rw [c.not_ok hok]; exact h1

/-- What C38 says: starting without an allowance, after a successful `approve` of `d > 0` until ledger `lu` and as long as
nothing is spent and nothing else approved, a query at any ledger up to `lu` answers `d`. -/
def ApprovalLasts (cond : Addr → Addr → Call → Prop) : Prop :=
  ∀ (asset : Asset) (f sp : Addr) (d x : Int) (lu n n' : Nat) (L L' : Led) (pre post : List Call) (c q : Call),
    Hist asset (Carried (.allowance f sp)) n L (pre ++ c :: (post ++ [q])) n' L' → L (.allowance f sp) = none →
    (∀ y ∈ pre, cond f sp y) → c.op = .approve f sp d lu → c.ok → 0 < d →
    (∀ y ∈ post, y.ok → approves f sp y.op = none ∧ spends f sp y.op = 0) →
    q.op = .allowance f sp → q.ret = .ok (.amount x) → q.seq ≤ lu → x = d

/-- C38, in part: the approval lasts if earlier approvals of zero named an expiration ledger that had come. Missing: C38 also
claims this for earlier approvals of zero with an expiration ledger in the future, for which it is false
(`C38_counterexample`). -/
theorem C38_approval_lasts_partial :
    ApprovalLasts (fun f sp y => y.ok → ∀ lu', approves f sp y.op = some (0, lu') → lu' ≤ y.seq) := by
  intro asset f sp d x lu n n' L L' pre post c q hist hnone hpre ho hr hd hpost hq hx hlu
  obtain ⟨m, M, h1, h2⟩ := hist_append hist
  have h3 : LivesLong f sp M := LivesLong.hist h1 (fun a l hk => by rw [hnone] at hk; cases hk) hpre
  cases h2 with
  | cons valid ha hl hb rest =>
    obtain ⟨m', M', h4, h5⟩ := hist_append rest
    obtain ⟨l, h6, h7⟩ := (approve_lives valid hr ho (h3.carried hb) (by omega)).2 hd
    cases h5 with
    | cons qv qa ql qb _ =>
      have h8 : Held f sp d lu M' := Held.hist h4 ⟨l, h6, h7⟩ (Nat.le_trans ql hlu) hpost
      obtain ⟨l', h9, -⟩ := h8.carried qb hlu
      have h10 := (C43_queries qv (by rw [hq]; rfl)).1 _ hx
      rw [hq] at h10
      simp only [answer, allowanceOf, h9, valueOf, Option.map_some, if_neg (Nat.not_lt.mpr hlu)] at h10
      cases h10
      rfl

/-! #### the counterexample -/

/-- Storage after a call. -/
def afterMap (c : Call) : FMap SKey (Option (Entry SVal)) := (call c.E c.op c.st).1.map

/-- Alice lets Bob spend 5 until ledger 100. -/
def cx1 : Call := caseCall 10 (.approve (.account 2) (.account 3) 5 100)
/-- Alice withdraws the allowance, naming ledger 1000. -/
def cx2 : Call := caseCall 11 (.approve (.account 2) (.account 3) 0 1000) (afterMap cx1)
/-- Alice lets Bob spend 10 until ledger 1000. -/
def cx3 : Call := caseCall 12 (.approve (.account 2) (.account 3) 10 1000) (afterMap cx2)
/-- Bob asks at ledger 101, when the entry has ended. -/
def cx4 : Call := caseCall 101 (.allowance (.account 2) (.account 3))

/-- C38 is false of the code: withdrawing an allowance with an expiration ledger in the future makes the contract believe
that the entry already lives until then, so that the next approval does not extend it, and the approval ends early. -/
theorem C38_counterexample : ¬ ApprovalLasts (fun _ _ _ => True) := by
  intro h
  have hist : Hist (.credit 1) (Carried (.allowance (.account 2) (.account 3))) 10 cx1.before
      ([cx1, cx2] ++ cx3 :: ([] ++ [cx4])) 101 cx4.after :=
    .cons (caseCall_valid _ _ _ rfl rfl) rfl (by decide) ⟨none, trivial, rfl⟩
      (.cons (caseCall_valid _ _ _ rfl rfl) rfl (by decide)
        ⟨some (.allowance ⟨5, 100⟩, some 100), ⟨rfl, Nat.le_refl _⟩, rfl⟩
        (.cons (caseCall_valid _ _ _ rfl rfl) rfl (by decide)
          ⟨some (.allowance ⟨0, 1000⟩, some 100), ⟨rfl, Nat.le_refl _⟩, rfl⟩
          (.cons (caseCall_valid _ _ _ rfl rfl) rfl (by decide)
            ⟨some (.allowance ⟨10, 1000⟩, some 100), ⟨rfl, Nat.le_refl _⟩, rfl⟩ .nil)))
  have := h (.credit 1) (.account 2) (.account 3) 10 0 1000 10 101 _ _ [cx1, cx2] [] cx3 cx4 hist rfl (fun _ _ => trivial) rfl
    ⟨.unit, rfl⟩ (by decide) (by simp) rfl rfl (by decide)
  cases this

-- The same history with the withdrawal naming the current ledger meets the hypotheses of the partial theorem.
/-- Alice withdraws the allowance, naming the current ledger. -/
def cy2 : Call := caseCall 11 (.approve (.account 2) (.account 3) 0 11) (afterMap cx1)
/-- Alice lets Bob spend 10 until ledger 1000. -/
def cy3 : Call := caseCall 12 (.approve (.account 2) (.account 3) 10 1000) (afterMap cy2)
/-- Bob spends 4. -/
def cy4 : Call := caseCall 101 (.transferFrom (.account 3) (.account 2) (.contract 7) 4) (afterMap cy3)
/-- Bob asks. -/
def cy5 : Call := caseCall 102 (.allowance (.account 2) (.account 3)) (afterMap cy4)
example : cx1.ok ∧ cy2.ok ∧ cy3.ok ∧ cy4.ok := ⟨⟨.unit, rfl⟩, ⟨.unit, rfl⟩, ⟨.unit, rfl⟩, ⟨.unit, rfl⟩⟩
example : Hist (.credit 1) (Carried (.allowance (.account 2) (.account 3))) 12 cy3.before [cy3, cy4, cy5] 102 cy5.after :=
  .cons (caseCall_valid _ _ _ rfl rfl) rfl (by decide) ⟨some (.allowance ⟨0, 11⟩, some 100), ⟨rfl, Nat.le_refl _⟩, rfl⟩
    (.cons (caseCall_valid _ _ _ rfl rfl) rfl (by decide)
      ⟨some (.allowance ⟨10, 1000⟩, some 1000), ⟨rfl, Nat.le_refl _⟩, rfl⟩
      (.cons (caseCall_valid _ _ _ rfl rfl) rfl (by decide)
        ⟨some (.allowance ⟨6, 1000⟩, some 1000), ⟨rfl, Nat.le_refl _⟩, rfl⟩ .nil))
example : cy5.ret = .ok (.amount 6) := rfl
example : spent (.account 2) (.account 3) [cy4] = 4 := rfl

end Soroban.Props
