import Verif.Lemmas.SacCalls
/-! C33-C38, C42, C43: the asset contract. -/
namespace Soroban.Props
open Soroban Soroban.Storage Soroban.Storage.Spec Soroban.Auth Soroban.Sac.Spec
open Soroban.Sac hiding Led

/-! ### a concrete ledger -/

/-- Decides whether an entry is live. -/
def liveB (E : SEnv) (p : SKey × Option (Entry SVal)) : Bool :=
  match p.2, sacKeys.durability p.1 with
  | some (_, some l), some _ => decide (E.li.seq ≤ l)
  | some (_, none), some _ => false
  | _, _ => true

theorem mem_of_get {K V : Type} [DecidableEq K] {m : FMap K V} {k : K} {v : V} (h : m.get k = some v) : (k, v) ∈ m := by
  induction m with
  | nil => cases h
  | cons p m ih =>
    unfold FMap.get at h
    split at h
    · rename_i hk; cases h; rw [← hk]; exact List.mem_cons_self
    · exact List.mem_cons_of_mem _ (ih h)

theorem stOk_of_check {E : SEnv} {st : Store SKey SVal} (hm : st.mode = .enforcing) (hl : st.map.all (liveB E) = true)
    (hc : st.footprint.all (fun p => (st.map.get p.1).isSome) = true) : StOk E st := by
  refine ⟨by rw [hm]; trivial, ?_, ?_⟩
  · intro k e hk v l d he hd
    have h1 := List.all_eq_true.mp hl _ (mem_of_get hk)
    subst he
    unfold liveB at h1
    have hd' : sacKeys.durability k = some d := hd
    simp only [hd'] at h1
    cases l with
    | none => cases h1
    | some l' => exact ⟨l', rfl, of_decide_eq_true h1⟩
  · intro _ k hk
    unfold allows at hk
    obtain ⟨a, ha⟩ := Option.isSome_iff_exists.mp hk
    exact List.all_eq_true.mp hc _ (mem_of_get ha)

/-- A network where everybody authorizes everything: asset of account 1, at ledger `n`. -/
def caseE (n : Nat) : SEnv :=
  { li := ⟨n, 16, 100, 10000⟩, feature := true, baseReserve := 10, asset := .credit 1, auth := fun _ st => .ok st }

theorem caseE_auth (n : Nat) : AuthOk (caseE n) := fun _ st st' h he => by
  cases he; exact ⟨h, Elsewhere.refl _ _ _⟩

/-- Alice (account 2) and Bob (account 3) have trustlines, Carol's (account 4) is not authorized, contract 7 holds nothing,
and Alice has given Bob no allowance; the issuer is the administrator. -/
def caseMap : FMap SKey (Option (Entry SVal)) :=
  [(.account 1, some (.account ⟨1000, 0, true, true, true, none⟩, none)),
   (.trust 2, some (.trust ⟨100, 1000, true, false, true, some (5, 3)⟩, none)),
   (.trust 3, some (.trust ⟨50, 1000, true, false, true, none⟩, none)),
   (.trust 4, some (.trust ⟨50, 1000, false, true, true, none⟩, none)),
   (.balance 7, some (.balance ⟨0, true, false⟩, some 500)), (.inst, some (.inst (some (.account 1)), some 500)),
   (.allowance (.account 2) (.account 3), none)]

/-- The storage with everything in the footprint. -/
def caseSt (m : FMap SKey (Option (Entry SVal))) : Store SKey SVal :=
  { footprint := m.map (fun p => (p.1, .readWrite)), mode := .enforcing, map := m }

/-- A call on the concrete ledger. -/
def caseCall (n : Nat) (op : Op) (m : FMap SKey (Option (Entry SVal)) := caseMap) : Call := ⟨caseE n, op, caseSt m⟩

theorem caseCall_valid (n : Nat) (op : Op) (m : FMap SKey (Option (Entry SVal))) (hl : m.all (liveB (caseE n)) = true)
    (hc : (caseSt m).footprint.all (fun p => ((caseSt m).map.get p.1).isSome) = true) : (caseCall n op m).Valid :=
  ⟨caseE_auth n, stOk_of_check rfl hl hc⟩

/-- The errors have the numbers of `ContractError` (contract_error.rs:9-30). -/
example : [opNotSupported, accountMissing, negativeAmount, allowanceError, balanceError, balanceDeauthorized, overflowError,
    trustlineMissing, insufficientReserve, tooManySubentries] = [2, 6, 8, 9, 10, 11, 12, 13, 14, 15].map Err.contract := rfl

/-! ### histories -/

theorem hist_le {asset : Asset} {btw : Call → Led → Prop} {n n' : Nat} {L L' : Led} {cs : List Call}
    (h : Hist asset btw n L cs n' L') : n ≤ n' := by
  induction h with
  | nil => exact Nat.le_refl _
  | cons _ _ l _ _ ih => exact Nat.le_trans l ih

theorem hist_append {asset : Asset} {btw : Call → Led → Prop} {n n' : Nat} {L L' : Led} {cs ds : List Call}
    (h : Hist asset btw n L (cs ++ ds) n' L') : ∃ m M, Hist asset btw n L cs m M ∧ Hist asset btw m M ds n' L' := by
  induction cs generalizing n L with
  | nil => exact ⟨n, L, .nil, h⟩
  | cons c cs ih =>
    cases h with
    | cons v a l b r =>
      obtain ⟨m, M, h1, h2⟩ := ih r
      exact ⟨m, M, .cons v a l b h1, h2⟩

/-! ### C33 -/

/-- C33: a successful call changes the holding of an address other than the issuer by exactly what the operation gives it
less what the operation takes from it. In particular nobody else's holding changes. -/
theorem C33_balances {c : Call} (hv : c.Valid) (hr : c.ok) {h : Addr} (hh : isIssuer c.E.asset h = false) :
    balanceOf c.E.asset c.after h = balanceOf c.E.asset c.before h + amountFor (received c.op) h - amountFor (paid c.op) h := by
  obtain ⟨r, hr⟩ := hr
  obtain ⟨as, es, st, -⟩ := c.step hv hr
  exact st.balance_of hh

theorem amountFor_out {o : Option (Addr × Int)} {hs : List Addr} (h : ∀ a ∈ (o.map Prod.fst).toList, a ∉ hs) :
    (hs.map (amountFor o)).sum = 0 := by
  induction hs with
  | nil => rfl
  | cons x hs ih =>
    rw [List.map_cons, List.sum_cons, ih (fun a ha hm => h a ha (List.mem_cons_of_mem _ hm))]
    cases o with
    | none => simp [amountFor]
    | some p =>
      obtain ⟨a, d⟩ := p
      have : a ≠ x := fun e => h a (by simp) (by simp [e])
      simp [amountFor, this]

theorem amountFor_sum {asset : Asset} {o : Option (Addr × Int)} {hs : List Addr} (hn : hs.Nodup)
    (hi : ∀ h ∈ hs, isIssuer asset h = false)
    (hp : ∀ a ∈ (o.map Prod.fst).toList, isIssuer asset a = true ∨ a ∈ hs) :
    (hs.map (amountFor o)).sum = notForIssuer asset o := by
  unfold notForIssuer
  cases o with
  | none => exact amountFor_out (by simp)
  | some p =>
    obtain ⟨a, d⟩ := p
    dsimp only
    cases ha : isIssuer asset a with
    | true =>
      rw [if_pos rfl]
      refine amountFor_out ?_
      intro b hb hm
      simp at hb; subst hb
      rw [hi _ hm] at ha; cases ha
    | false =>
      have hm : a ∈ hs := by
        rcases hp a (by simp) with h | h
        · rw [ha] at h; cases h
        · exact h
      clear hp hi
      simp only [Bool.false_eq_true, if_false]
      induction hs with
      | nil => cases hm
      | cons x hs ih =>
        rw [List.map_cons, List.sum_cons]
        obtain ⟨hx, hn'⟩ := List.nodup_cons.mp hn
        by_cases hax : a = x
        · subst hax
          rw [amountFor_out (by simpa using hx)]; simp [amountFor]
        · rw [ih hn' (by simpa [hax] using hm)]; simp [amountFor, hax]

theorem holdings_step {asset : Asset} {L L' : Led} {p q : Option (Addr × Int)} {hs : List Addr}
    (h : ∀ x ∈ hs, balanceOf asset L' x = balanceOf asset L x + amountFor p x - amountFor q x) :
    holdings asset L' hs = holdings asset L hs + (hs.map (amountFor p)).sum - (hs.map (amountFor q)).sum := by
  induction hs with
  | nil => rfl
  | cons x hs ih =>
    unfold holdings
    rw [ih (fun y hy => h y (List.mem_cons_of_mem _ hy)), h x (by simp), List.map_cons, List.sum_cons, List.map_cons, List.sum_cons]
    omega

theorem supply_step {c : Call} (hv : c.Valid) (hr : c.ok) {hs : List Addr} (hn : hs.Nodup)
    (hi : ∀ h ∈ hs, isIssuer c.E.asset h = false) (hp : ∀ a ∈ parties c.op, isIssuer c.E.asset a = true ∨ a ∈ hs) :
    holdings c.E.asset c.after hs = holdings c.E.asset c.before hs + supplyChange c.E.asset c.op := by
  rw [holdings_step (fun x hx => C33_balances hv hr (hi x hx)),
    amountFor_sum hn hi (fun a ha => hp a (List.mem_append_right _ ha)),
    amountFor_sum hn hi (fun a ha => hp a (List.mem_append_left _ ha))]
  unfold supplyChange
  omega

/-- C33: over any history, what any set of addresses other than the issuer hold together changes by exactly what successful
calls minted and burned, as long as the addresses include all those that took part. Transfers between two of them do not
change it, a transfer from the issuer mints, a transfer to the issuer burns, and failed calls change nothing. -/
theorem C33_supply {asset : Asset} {hs : List Addr} {n n' : Nat} {L L' : Led} {cs : List Call} (hn : hs.Nodup)
    (hi : ∀ h ∈ hs, isIssuer asset h = false) (h : Hist asset (SameHoldings asset hs) n L cs n' L')
    (hp : ∀ c ∈ cs, c.ok → ∀ a ∈ parties c.op, isIssuer asset a = true ∨ a ∈ hs) :
    holdings asset L' hs = holdings asset L hs + totalChange asset cs := by
  induction h with
  | nil => simp [totalChange]
  | @cons n n' L L' c cs valid ha _ hb _ ih =>
    rw [ih (fun c hc => hp c (List.mem_cons_of_mem _ hc))]
    have h1 : holdings asset c.before hs = holdings asset L hs := by
      unfold SameHoldings at hb
      clear ih hp hn hi
      rename_i hrest
      clear hrest
      induction hs with
      | nil => rfl
      | cons x hs ih => unfold holdings; rw [hb x (by simp), ih (fun y hy => hb y (List.mem_cons_of_mem _ hy))]
    rw [totalChange]
    by_cases hok : c.ok
    · rw [if_pos hok]
      subst ha
      rw [supply_step valid hok hn hi (hp c (by simp) hok), h1]; omega
    · rw [if_neg hok, c.not_ok hok, h1]; omega

/-- A transfer between holders conserves supply. -/
theorem C33_transfer_conserves {asset : Asset} {f t : Addr} {d : Int} (hf : isIssuer asset f = false)
    (ht : isIssuer asset t = false) (sp : Addr) :
    supplyChange asset (.transfer f t d) = 0 ∧ supplyChange asset (.transferFrom sp f t d) = 0 := by
  simp [supplyChange, notForIssuer, received, paid, hf, ht]

/-- Minting, burning and clawing back. -/
theorem C33_mint_burn {asset : Asset} {a : Addr} {d : Int} (ha : isIssuer asset a = false) (sp : Addr) :
    supplyChange asset (.mint a d) = d ∧ supplyChange asset (.burn a d) = -d ∧ supplyChange asset (.burnFrom sp a d) = -d ∧
    supplyChange asset (.clawback a d) = -d := by
  simp [supplyChange, notForIssuer, received, paid, ha]

-- Alice sends 30 to Bob, then the issuer mints 7 for contract 7 on the resulting ledger.
example : (caseCall 10 (.transfer (.account 2) (.account 3) 30)).Valid := caseCall_valid _ _ _ rfl rfl
example : (caseCall 10 (.transfer (.account 2) (.account 3) 30)).ok := ⟨.unit, rfl⟩
example : balanceOf (.credit 1) (caseCall 10 (.transfer (.account 2) (.account 3) 30)).after (.account 2) = 70 := rfl
example : balanceOf (.credit 1) (caseCall 10 (.transfer (.account 2) (.account 3) 30)).after (.account 3) = 80 := rfl
/-- The storage after Alice sends 30 to Bob. -/
def caseMap1 : FMap SKey (Option (Entry SVal)) :=
  (call (caseE 10) (.transfer (.account 2) (.account 3) 30) (caseSt caseMap)).1.map
example : Hist (.credit 1) (SameHoldings (.credit 1) [.account 2, .account 3, .contract 7]) 10
    (caseCall 10 (.transfer (.account 2) (.account 3) 30)).before
    [caseCall 10 (.transfer (.account 2) (.account 3) 30), caseCall 12 (.mint (.contract 7) 7) caseMap1] 12
    (caseCall 12 (.mint (.contract 7) 7) caseMap1).after :=
  .cons (caseCall_valid _ _ _ rfl rfl) rfl (by decide) (fun _ _ => rfl)
    (.cons (caseCall_valid _ _ _ rfl rfl) rfl (by decide) (fun _ _ => rfl) .nil)
example : holdings (.credit 1) (caseCall 12 (.mint (.contract 7) 7) caseMap1).after [.account 2, .account 3, .contract 7] = 157 := rfl

/-! ### C34 -/

/-- C34: every call, successful or not, leaves all holdings within their bounds. -/
theorem C34_bounds {c : Call} (hv : c.Valid) (hb : Bounded c.E.baseReserve c.before) : Bounded c.E.baseReserve c.after := by
  by_cases hok : c.ok
  · obtain ⟨r, hr⟩ := hok
    obtain ⟨as, es, st, -⟩ := c.step hv hr
    exact st.bounded hb
  · rw [c.not_ok hok]; exact hb

/-- C34: over any history holdings stay within their bounds. -/
theorem C34_bounds_history {asset : Asset} {reserve n n' : Nat} {L L' : Led} {cs : List Call}
    (h : Hist asset (SameOrBounded reserve) n L cs n' L') (hb : Bounded reserve L) : Bounded reserve L' := by
  induction h with
  | nil => exact hb
  | @cons n n' L L' c cs valid _ _ hbt _ ih =>
    refine ih ?_
    obtain ⟨hres, hbt⟩ := hbt
    have := C34_bounds valid (by
      rw [hres]; intro k v hk
      rcases hbt k v hk with h | h
      · exact hb k v h
      · exact h)
    rwa [hres] at this

/-- C34: no holding is ever negative. -/
theorem C34_never_negative {reserve : Nat} {L : Led} (hb : Bounded reserve L) (asset : Asset) (a : Addr) :
    0 ≤ balanceOf asset L a := by
  unfold balanceOf
  cases hk : valueOf (L (holdingKey asset a)) with
  | none => exact Int.le_refl 0
  | some v =>
    have := hb _ _ hk
    unfold inBounds at this
    unfold amountIn
    cases v with
    | account a => dsimp only at this ⊢; omega
    | trust t =>
      dsimp only at this ⊢
      split at this
      · exact this.1
      · omega
    | balance b => exact this.1
    | allowance a => exact Int.le_refl 0
    | inst a => exact Int.le_refl 0

example : (caseCall 10 (.transfer (.account 2) (.account 3) 97)).ok := ⟨.unit, rfl⟩
-- Alice has sold 3 of her 100.
example : ¬ (caseCall 10 (.transfer (.account 2) (.account 3) 98)).ok := by decide

/-! ### C35 -/

/-- C35: every operation but queries and `trust` succeeds only with the authorization of the right party, and of nobody
else: the holder for `transfer`, `burn` and `approve`, the spender for `transfer_from` and `burn_from`, the administrator for
`mint`, `clawback`, `set_authorized` and `set_admin`. -/
theorem C35_authorized {c : Call} (hv : c.Valid) (hr : c.ok) (h1 : ∀ a, c.op ≠ .trust a) (h2 : ∀ a b, c.op ≠ .allowance a b)
    (h3 : ∀ a, c.op ≠ .balance a) (h4 : ∀ a, c.op ≠ .authorized a) (h5 : c.op ≠ .admin) :
    ∃ a, needsAuth c.before c.op = some a ∧ c.auths = [a] ∧ ∃ st st', c.E.auth a st = .ok st' := by
  obtain ⟨r, hr⟩ := hr
  obtain ⟨as, es, st, -, hau, hreal, -⟩ := c.step hv hr
  rcases st.auth_of with ⟨a, h, -⟩ | ⟨h, hs⟩
  · exact absurd h (h1 a)
  · rcases hs with hs | ⟨a, b, h | h | h | h⟩
    · obtain ⟨a, ha⟩ := Option.isSome_iff_exists.mp hs
      rw [ha] at h
      refine ⟨a, ha, hau.trans h, hreal a ?_⟩
      rw [h]; exact List.mem_singleton.mpr rfl
    · exact absurd h (h2 a b)
    · exact absurd h (h3 a)
    · exact absurd h (h4 a)
    · exact absurd h h5

/-- C35: if the party whose authorization is needed does not give it, the call fails and changes nothing. -/
theorem C35_unauthorized_fails {c : Call} (hv : c.Valid) {a : Addr} (ha : needsAuth c.before c.op = some a)
    (hno : ∀ st st', c.E.auth a st ≠ .ok st') : ¬ c.ok ∧ c.after = c.before := by
  have : ¬ c.ok := by
    intro hok
    obtain ⟨a', h1, -, st, st', h2⟩ := C35_authorized hv hok (by intro x h; rw [h] at ha; cases ha)
      (by intro x y h; rw [h] at ha; cases ha) (by intro x h; rw [h] at ha; cases ha)
      (by intro x h; rw [h] at ha; cases ha) (by intro h; rw [h] at ha; cases ha)
    rw [ha] at h1; cases h1
    exact hno _ _ h2
  exact ⟨this, c.not_ok this⟩

/-- C35: a holding becomes smaller only when its holder authorized the call, when a spender authorized a call for which the
holder's allowance was enough, or when the administrator claws back what can be clawed back. -/
theorem C35_debit_explained {c : Call} (hv : c.Valid) {h : Addr} (hh : isIssuer c.E.asset h = false)
    (hd : balanceOf c.E.asset c.after h < balanceOf c.E.asset c.before h) :
    c.auths = [h] ∧ ((∃ t d, c.op = .transfer h t d) ∨ ∃ d, c.op = .burn h d) ∨
    (∃ sp d, c.auths = [sp] ∧ ((∃ t, c.op = .transferFrom sp h t d) ∨ c.op = .burnFrom sp h d) ∧
      d ≤ allowanceOf c.seq c.before h sp) ∨
    (∃ adm d, c.auths = [adm] ∧ adminOf c.before = some adm ∧ c.op = .clawback h d ∧
      clawbackEnabled c.E.asset c.before h = true) := by
  have hok : c.ok := by
    apply Classical.byContradiction
    intro hno
    rw [c.not_ok hno] at hd; omega
  have hbal := C33_balances hv hok hh
  obtain ⟨r, hr⟩ := hok
  obtain ⟨as, es, st, -, hau, hreal, -⟩ := c.step hv hr
  have h0 : ∀ d, amountOf c.op = some d → 0 ≤ d := fun d => st.nonneg
  rw [hau]
  unfold Call.seq
  obtain ⟨E, op, st0⟩ := c
  dsimp only at *
  generalize Call.after _ = L' at *
  generalize Call.before _ = L at *
  cases st with
  | transfer g0 e af b1 at_ b2 =>
    have := h0 _ rfl
    simp only [received, paid, amountFor] at hbal
    split at hbal <;> split at hbal
    · omega
    · omega
    · rename_i hf; subst hf; exact .inl ⟨rfl, .inl ⟨_, _, rfl⟩⟩
    · omega
  | burn g0 hn e af b1 =>
    simp only [received, paid, amountFor] at hbal
    split at hbal
    · rename_i hf; subst hf; exact .inl ⟨rfl, .inr ⟨_, rfl⟩⟩
    · omega
  | transferFrom g0 e hal a af b1 at_ b2 =>
    have := h0 _ rfl
    simp only [received, paid, amountFor] at hbal
    split at hbal <;> split at hbal
    · omega
    · omega
    · rename_i hf; subst hf
      exact .inr (.inl ⟨_, _, rfl, .inl ⟨_, rfl⟩, by unfold allowanceOf at hal ⊢; rwa [e.allow] at hal⟩)
    · omega
  | burnFrom g0 hn e hal a af b1 =>
    simp only [received, paid, amountFor] at hbal
    split at hbal
    · rename_i hf; subst hf
      exact .inr (.inl ⟨_, _, rfl, .inr rfl, by unfold allowanceOf at hal ⊢; rwa [e.allow] at hal⟩)
    · omega
  | clawback g0 hn hc ha e b1 =>
    simp only [received, paid, amountFor] at hbal
    split at hbal
    · rename_i hf; subst hf; exact .inr (.inr ⟨_, _, rfl, ha, rfl, (clawbackable_value hc).2⟩)
    · omega
  | mint g0 hn ha e at_ b2 =>
    have := h0 _ rfl
    simp only [received, paid, amountFor] at hbal
    split at hbal <;> omega
  | allowance q => simp only [received, paid, amountFor] at hbal; omega
  | balance q => simp only [received, paid, amountFor] at hbal; omega
  | authorized q => simp only [received, paid, amountFor] at hbal; omega
  | admin ha => simp only [received, paid, amountFor] at hbal; omega
  | approve g0 e hp a => simp only [received, paid, amountFor] at hbal; omega
  | setAuthorized ha e hrr s => simp only [received, paid, amountFor] at hbal; omega
  | setAdmin ha e => simp only [received, paid, amountFor] at hbal; omega
  | trust q e s => simp only [received, paid, amountFor] at hbal; omega

/-- C35: negative amounts are rejected. -/
theorem C35_negative_rejected {c : Call} (hv : c.Valid) {d : Int} (hd : amountOf c.op = some d) (hneg : d < 0) :
    ¬ c.ok ∧ c.after = c.before := by
  have : ¬ c.ok := by
    rintro ⟨r, hr⟩
    obtain ⟨as, es, st, -⟩ := c.step hv hr
    have := st.nonneg hd
    omega
  exact ⟨this, c.not_ok this⟩

/-- C35: the administrator changes only by `set_admin`. -/
theorem C35_admin_changes {c : Call} (hv : c.Valid) (h : adminOf c.after ≠ adminOf c.before) :
    ∃ new, c.op = .setAdmin new ∧ adminOf c.after = some new := by
  have hok : c.ok := by
    apply Classical.byContradiction
    intro hno
    exact h (by rw [c.not_ok hno])
  obtain ⟨r, hr⟩ := hok
  obtain ⟨as, es, st, -⟩ := c.step hv hr
  revert h st
  generalize c.op = op
  generalize c.after = L'
  generalize c.before = L
  intro h st
  have key : ∀ A B : Led, A .inst = B .inst → adminOf A = adminOf B := fun A B h => by unfold adminOf; rw [h]
  have ins : ∀ a : Addr, SKey.inst ≠ holdingKey c.E.asset a := fun a => (holdingKey_ne_inst _ a).symm
  cases st with
  | allowance q => exact absurd (by unfold adminOf; rw [q.value]) h
  | balance q => exact absurd (by unfold adminOf; rw [q.value]) h
  | authorized q => exact absurd (by unfold adminOf; rw [q.value]) h
  | admin ha => exact absurd rfl h
  | approve h0 e hp a => exact absurd ((key _ _ (a.only.1 _ (by simp))).trans e.admin) h
  | transfer h0 e af b1 at_ b2 => exact absurd (((key _ _ b2.inst).trans (key _ _ b1.inst)).trans e.admin) h
  | transferFrom h0 e hal a af b1 at_ b2 =>
    exact absurd ((((key _ _ b2.inst).trans (key _ _ b1.inst)).trans (key _ _ (a.only.1 _ (by simp)))).trans e.admin) h
  | burn h0 hn e af b1 => exact absurd ((key _ _ b1.inst).trans e.admin) h
  | burnFrom h0 hn e hal a af b1 =>
    exact absurd (((key _ _ b1.inst).trans (key _ _ (a.only.1 _ (by simp)))).trans e.admin) h
  | clawback h0 hn hc ha e b1 => exact absurd ((key _ _ b1.inst).trans e.admin) h
  | setAuthorized ha e hrr s => exact absurd ((key _ _ (s.frame (ins _))).trans e.admin) h
  | mint h0 hn ha e at_ b2 => exact absurd ((key _ _ b2.inst).trans e.admin) h
  | setAdmin ha e => exact ⟨_, rfl, by unfold adminOf; rw [set_get]; rfl⟩
  | trust q e s =>
    refine absurd ?_ h
    rw [← e.admin]
    cases s with
    | contract h => rw [h]
    | exists_ ha hv h => rw [h]
    | create ha hi hv e hiss hacc hsub hbal h => exact (key _ _ (by rw [h, set_ne (by simp), set_ne (by simp)])).trans e.admin

example : (caseCall 10 (.clawback (.account 4) 20)).auths = [.account 1] := rfl
example : (caseCall 10 (.setAdmin (.account 2))).ok ∧ adminOf (caseCall 10 (.setAdmin (.account 2))).after = some (.account 2) :=
  ⟨⟨.unit, rfl⟩, rfl⟩
example : ¬ (caseCall 10 (.transfer (.account 2) (.account 3) (-1))).ok := by decide

/-! ### C36 -/

theorem issuer_authorized {asset : Asset} {L : Led} {h : Addr} (hh : authorizedToHold asset L h = false) :
    isIssuer asset h = false := by
  cases hi : isIssuer asset h with
  | false => rfl
  | true =>
    cases h with
    | contract c => cases asset <;> simp [isIssuer] at hi
    | account id =>
      cases asset with
      | native => simp [isIssuer] at hi
      | credit i => simp [isIssuer] at hi; simp [authorizedToHold, hi] at hh

/-- C36: an address that is not authorized to hold the asset neither sends nor receives: a successful call that has it as a
party is a clawback, authorized by the administrator, of a holding that can be clawed back. -/
theorem C36_frozen {c : Call} (hv : c.Valid) (hr : c.ok) {h : Addr} (hh : authorizedToHold c.E.asset c.before h = false) :
    h ∉ parties c.op ∧ balanceOf c.E.asset c.after h = balanceOf c.E.asset c.before h ∨
    ∃ d adm, c.op = .clawback h d ∧ adminOf c.before = some adm ∧ c.auths = [adm] ∧
      clawbackEnabled c.E.asset c.before h = true ∧
      balanceOf c.E.asset c.after h = balanceOf c.E.asset c.before h - d := by
  have hbal := C33_balances hv hr (issuer_authorized hh)
  have hau := C35_authorized hv hr
  obtain ⟨r, hr⟩ := hr
  obtain ⟨as, es, st, -⟩ := c.step hv hr
  rcases st.frozen hh with hp | ⟨d, adm, ho, ha, -, hc⟩
  · refine .inl ⟨hp, ?_⟩
    rw [hbal]
    have h1 : amountFor (received c.op) h = 0 := by
      unfold amountFor
      cases hq : received c.op with
      | none => rfl
      | some p =>
        obtain ⟨a, d⟩ := p
        have : a ≠ h := fun e => hp (by unfold parties; rw [hq, e]; simp)
        simp [this]
    have h2 : amountFor (paid c.op) h = 0 := by
      unfold amountFor
      cases hq : paid c.op with
      | none => rfl
      | some p =>
        obtain ⟨a, d⟩ := p
        have : a ≠ h := fun e => hp (by unfold parties; rw [hq, e]; simp)
        simp [this]
    omega
  · refine .inr ⟨d, adm, ho, ha, ?_, hc, ?_⟩
    · obtain ⟨a, h1, h2, -⟩ := hau (by simp [ho]) (by simp [ho]) (by simp [ho]) (by simp [ho]) (by simp [ho])
      rw [ho] at h1
      simp only [needsAuth, ha] at h1
      cases h1; exact h2
    · rw [hbal, ho]; simp [received, paid, amountFor]

/-- What successful calls have clawed back from an address. -/
def clawedBack (h : Addr) : List Call → Int
  | [] => 0
  | c :: cs => (if c.ok then (match c.op with | .clawback f d => if f = h then d else 0 | _ => 0) else 0) + clawedBack h cs

/-- C36: over any history in which an unauthorized address is not authorized again, what it holds changes only by what is
clawed back. -/
theorem C36_frozen_history {asset : Asset} {h : Addr} {n n' : Nat} {L L' : Led} {cs : List Call}
    (hist : Hist asset (SameHolder asset h) n L cs n' L') (hh : authorizedToHold asset L h = false)
    (hno : ∀ c ∈ cs, c.ok → c.op ≠ .setAuthorized h true ∧ c.op ≠ .trust h) :
    balanceOf asset L' h = balanceOf asset L h - clawedBack h cs ∧ authorizedToHold asset L' h = false := by
  induction hist with
  | nil => simp [clawedBack, hh]
  | @cons n n' L L' c cs valid ha _ hb _ ih =>
    obtain ⟨hb1, hb2⟩ := hb
    subst ha
    have hc : authorizedToHold c.E.asset c.before h = false := by rw [hb2, hh]
    have hn := hno c (by simp)
    have hstep : authorizedToHold c.E.asset c.after h = false ∧ balanceOf c.E.asset c.after h = balanceOf c.E.asset c.before h -
        (if c.ok then (match c.op with | .clawback f d => if f = h then d else 0 | _ => 0) else 0) := by
      by_cases hok : c.ok
      · rw [if_pos hok]
        constructor
        · by_cases hs : c.op = .setAuthorized h false
          · obtain ⟨r, hr⟩ := hok
            obtain ⟨as, es, st, -⟩ := c.step valid hr
            rw [hs] at st
            exact st.setAuthorized_sets
          · obtain ⟨hn1, hn2⟩ := hn hok
            obtain ⟨r, hr⟩ := hok
            obtain ⟨as, es, st, -⟩ := c.step valid hr
            rw [st.authorized_of (fun b => by cases b; exact hs; exact hn1) hn2, hc]
        · rcases C36_frozen valid hok hc with ⟨hp, hq⟩ | ⟨d, adm, ho, -, -, -, hq⟩
          · rw [hq]
            have : (match c.op with | .clawback f d => if f = h then d else 0 | _ => 0) = 0 := by
              split
              · rename_i f d ho
                have : f ≠ h := fun e => hp (by rw [ho, e]; simp [parties, paid, received])
                simp [this]
              · rfl
            rw [this]; omega
          · rw [hq, ho]; simp
      · rw [if_neg hok, c.not_ok hok]; exact ⟨hc, by omega⟩
    obtain ⟨h1, h2⟩ := ih hstep.1 (fun c hc => hno c (List.mem_cons_of_mem _ hc))
    refine ⟨?_, h2⟩
    rw [h1, hstep.2, hb1, clawedBack]
    omega

/-- C36: an address is deauthorized and authorized by `set_authorized`, and deauthorizing needs the issuer to have made
authorizations revocable. -/
theorem C36_set_authorized {c : Call} (hv : c.Valid) (hr : c.ok) {h : Addr} {b : Bool} (ho : c.op = .setAuthorized h b) :
    authorizedToHold c.E.asset c.after h = b ∧
    (b = false → ∃ i, c.E.asset = .credit i ∧ (flagsOf c.before i).2.1 = true) := by
  obtain ⟨r, hr⟩ := hr
  obtain ⟨as, es, st, -⟩ := c.step hv hr
  rw [ho] at st
  refine ⟨st.setAuthorized_sets, fun hb => ?_⟩
  cases st with
  | setAuthorized ha e hrr s =>
    obtain ⟨i, acc, h1, h2, h3⟩ := hrr hb
    refine ⟨i, h1, ?_⟩
    rw [← e.flags i]
    unfold flagsOf
    simp [h2, h3]

-- Carol is not authorized.
example : authorizedToHold (.credit 1) (caseCall 10 (.mint (.account 4) 5)).before (.account 4) = false := by decide
example : ¬ (caseCall 10 (.mint (.account 4) 5)).ok := by decide
example : (caseCall 10 (.clawback (.account 4) 20)).ok ∧
    balanceOf (.credit 1) (caseCall 10 (.clawback (.account 4) 20)).after (.account 4) = 30 := ⟨⟨.unit, rfl⟩, rfl⟩
example : (caseCall 10 (.setAuthorized (.account 2) false)).ok ∧
    authorizedToHold (.credit 1) (caseCall 10 (.setAuthorized (.account 2) false)).after (.account 2) = false :=
  ⟨⟨.unit, rfl⟩, by decide⟩

/-! ### C42 -/

/-- C42: the events of a call account exactly for the changes of every holding. -/
theorem C42_events {c : Call} (hv : c.Valid) {h : Addr} (hh : isIssuer c.E.asset h = false) :
    balanceOf c.E.asset c.after h = balanceOf c.E.asset c.before h + (c.events.map (eventAmount · h)).sum := by
  by_cases hok : c.ok
  · rw [C33_balances hv hok hh]
    obtain ⟨r, hr⟩ := hok
    obtain ⟨as, es, st, he, -⟩ := c.step hv hr
    rw [he, st.events_of hh]; omega
  · rw [c.not_ok hok]
    have : c.events = [] := by
      unfold Call.events
      unfold Call.ok Call.ret call at hok
      cases hx : exec c.E c.op { st := c.st } with
      | error e => rfl
      | ok p => rw [hx] at hok; exact absurd ⟨_, rfl⟩ hok
    rw [this]; simp

/-- The events of the calls of a history. -/
def allEvents (cs : List Call) : List TokEvent := (cs.map Call.events).flatten

/-- C42: whoever adds up the events of a history has the holdings. -/
theorem C42_events_history {asset : Asset} {h : Addr} {n n' : Nat} {L L' : Led} {cs : List Call}
    (hist : Hist asset (SameHoldings asset [h]) n L cs n' L') (hh : isIssuer asset h = false) :
    balanceOf asset L' h = balanceOf asset L h + ((allEvents cs).map (eventAmount · h)).sum := by
  induction hist with
  | nil => simp [allEvents]
  | @cons n n' L L' c cs valid ha _ hb _ ih =>
    subst ha
    rw [ih, C42_events valid hh, hb h (by simp)]
    unfold allEvents
    simp only [List.map_cons, List.flatten_cons, List.map_append, List.sum_append]
    omega

example : (caseCall 10 (.transfer (.account 2) (.account 3) 30)).events = [.transfer (.account 2) (.account 3) 30] := rfl
example : (caseCall 10 (.transfer (.account 1) (.account 3) 30)).events = [.mint (.account 3) 30] := rfl
example : (caseCall 10 (.transfer (.account 2) (.account 1) 30)).events = [.burn (.account 2) 30] := rfl

/-! ### C43 -/

/-- What a query should answer. -/
def answer (seq : Nat) (asset : Asset) (L : Led) : Op → Option Sac.Ret
  | .balance a => some (.amount (if isIssuer asset a then 2 ^ 63 - 1 else balanceOf asset L a))
  | .allowance f sp => some (.amount (allowanceOf seq L f sp))
  | .authorized a => some (.bool (authorizedToHold asset L a))
  | .admin => (adminOf L).map .addr
  | _ => none

/-- An operation that only asks. -/
def isQuery : Op → Bool
  | .balance _ => true
  | .allowance _ _ => true
  | .authorized _ => true
  | .admin => true
  | _ => false

/-- C43: a query that succeeds answers from the ledger; whatever it does, it changes no value, no allowance and no lifetime
of an allowance, emits nothing and needs nobody's authorization. -/
theorem C43_queries {c : Call} (hv : c.Valid) (hq : isQuery c.op = true) :
    (∀ r, c.ret = .ok r → answer c.seq c.E.asset c.before c.op = some r) ∧
    (∀ k, valueOf (c.after k) = valueOf (c.before k)) ∧
    (∀ f sp, c.after (.allowance f sp) = c.before (.allowance f sp)) ∧ (c.ok → c.events = [] ∧ c.auths = []) := by
  by_cases hok : c.ok
  · obtain ⟨r, hr⟩ := hok
    obtain ⟨as, es, st, he, ha, -⟩ := c.step hv hr
    have key : answer c.seq c.E.asset c.before c.op = some r ∧ Quiet c.before c.after ∧ es = [] ∧ as = [] := by
      clear he ha hr hv
      revert hq st
      unfold Call.seq
      generalize c.op = op
      generalize c.after = L'
      generalize c.before = L
      intro hq st
      cases st <;> try (cases hq)
      · rename_i q; exact ⟨rfl, q, rfl, rfl⟩
      · rename_i q; exact ⟨rfl, q, rfl, rfl⟩
      · rename_i q; exact ⟨rfl, q, rfl, rfl⟩
      · rename_i ha; exact ⟨by simp [answer, ha], Quiet.refl _, rfl, rfl⟩
    obtain ⟨h1, h2, rfl, rfl⟩ := key
    refine ⟨fun r' hr' => ?_, h2.value, h2.allow, fun _ => ⟨he, ha⟩⟩
    rw [hr] at hr'; cases hr'; exact h1
  · rw [c.not_ok hok]
    exact ⟨fun r hr => absurd ⟨r, hr⟩ hok, fun _ => rfl, fun _ _ => rfl, fun h => absurd h hok⟩

example : (caseCall 10 (.balance (.account 2))).ret = .ok (.amount 100) := rfl
example : (caseCall 10 (.authorized (.account 4))).ret = .ok (.bool false) := rfl

end Soroban.Props
