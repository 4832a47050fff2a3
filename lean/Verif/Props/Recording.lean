import Verif.Lemmas.RecordingRun
import Verif.Lemmas.RecordingFail
import Verif.Lemmas.HostAuth
/-!
C57: the authorizations recorded while a transaction is simulated are those it needs: with entries made from them the same calls
are authorized.
-/
namespace Soroban.Props
open Soroban Soroban.Auth Soroban.Auth.Spec

/-- **C57** (partial). If a simulated transaction, none of whose calls fails, asks for the authorization of an address at most once
in every call, then with entries that have been made from what was recorded, whatever their nonces and signatures, all its
requests are granted, in the same calls; in the end every node of every entry has been used, so that nothing has been recorded
that is not needed. (Missing, because false: calls that ask twice for an address through two objects, see
`C57_two_objects`. Calls that fail and are caught: see `C57_replay_failures_partial`.) -/
theorem C57_replay_partial (addrOf : Nat → Addr) (es : List Ev) (rootOnly : Bool) (r : Rec) (accts : List Acct)
    (hrun : Rec.run addrOf es rootOnly = .ok r) (honce : asksOnce addrOf [] es = true)
    (hsigned : List.Forall₂ Signed r.payloads accts) :
    ∃ m, Mgr.run addrOf es accts = .ok m ∧ m.stack = r.m.stack ∧
      m.accts.map (fun t => (t.addr, t.tr.root.unused)) = r.payloads ∧ ∀ t ∈ m.accts, AllUsed t.tr.root := by
  have hv := RInv.start addrOf rootOnly
  obtain ⟨m, h1, h2⟩ := Sim.run (P := Once addrOf) (fun _ _ h => h.1) (fun _ _ _ _ hv hp h => Once.step hv hp h) es
    (Sim.start (b := rootOnly) hsigned) hv
    ⟨fun i j t u hi => by simp [Rec.start] at hi, [], honce, rfl, fun i k t m hi => by simp [Rec.start] at hi⟩ hrun
  obtain ⟨h3, h4⟩ := h2.end_used (RInv.run es hv hrun).1
  refine ⟨m, h1, h2.stack, ?_, h4⟩
  have := congrArg (List.map (fun x : Addr × Inv => (x.1, x.2.unused))) h3
  rw [List.map_map, List.map_map] at this
  exact this

/-- **C57** (partial). The same, for transactions that use one object for each address: then recording itself fails if a call
asks for an address twice. -/
theorem C57_replay_one_object_partial (addrOf : Nat → Addr) (es : List Ev) (rootOnly : Bool) (r : Rec) (accts : List Acct)
    (hrun : Rec.run addrOf es rootOnly = .ok r) (hone : ∀ x ∈ handles es, ∀ y ∈ handles es, addrOf x = addrOf y → x = y)
    (hsigned : List.Forall₂ Signed r.payloads accts) :
    ∃ m, Mgr.run addrOf es accts = .ok m ∧ m.stack = r.m.stack ∧
      m.accts.map (fun t => (t.addr, t.tr.root.unused)) = r.payloads ∧ ∀ t ∈ m.accts, AllUsed t.tr.root := by
  have hv := RInv.start addrOf rootOnly
  obtain ⟨m, h1, h2⟩ := Sim.run (P := OneHandle addrOf (handles es)) (fun _ _ h => h.1)
    (fun _ _ _ _ hv hp h => OneHandle.step hone hv hp h) es
    (Sim.start (b := rootOnly) hsigned) hv
    ⟨fun i j t u hi => by simp [Rec.start] at hi, fun x hx => hx, fun i t hi => by simp [Rec.start] at hi⟩ hrun
  obtain ⟨h3, h4⟩ := h2.end_used (RInv.run es hv hrun).1
  refine ⟨m, h1, h2.stack, ?_, h4⟩
  have := congrArg (List.map (fun x : Addr × Inv => (x.1, x.2.unused))) h3
  rw [List.map_map, List.map_map] at this
  exact this

/-! ### calls that fail -/

/-- **C57** (partial). The same, for transactions in which calls fail and their callers go on, whatever was asked for in them
and wherever they fail (when the transaction is not simulated, they may fail sooner, because nothing was recorded for them). What
has been recorded is exactly what would be recorded if these calls did nothing. (Missing, because false: calls that ask twice for
an address through two objects, see `C57_two_objects`.) -/
theorem C57_replay_failures_partial (addrOf : Nat → Addr) (as : List Act) (rootOnly : Bool) (r : Rec) (accts : List Acct)
    (hrun : (recMode addrOf).acts as (Rec.start rootOnly) = (r, true))
    (honce : asksOnce addrOf [] (flats as) = true ∨
      ∀ x ∈ handles (flats as), ∀ y ∈ handles (flats as), addrOf x = addrOf y → x = y)
    (hsigned : List.Forall₂ Signed r.payloads accts) :
    ∃ m, (enfMode addrOf).acts as (Mgr.start accts) = (m, true) ∧ m.stack = r.m.stack ∧
      m.accts.map (fun t => (t.addr, t.tr.root.unused)) = r.payloads ∧ ∀ t ∈ m.accts, AllUsed t.tr.root := by
  obtain ⟨r', h1, h2⟩ := recorded_flat hrun
  obtain ⟨ha, hi, hs⟩ := core_eq h2.m
  have hp : r.payloads = r'.payloads := by unfold Rec.payloads; rw [ha]
  rw [hp] at hsigned ⊢
  have hw : ∀ t ∈ accts, TWF t.tr := by
    intro t ht
    obtain ⟨i, hi⟩ := List.mem_iff_getElem?.mp ht
    obtain ⟨p, _, h3⟩ := forall₂_get hsigned hi
    rw [h3.tree]
    exact TWF.new _
  have key : ∃ m, Mgr.run addrOf (flats as) accts = .ok m ∧ m.stack = r'.m.stack ∧
      m.accts.map (fun t => (t.addr, t.tr.root.unused)) = r'.payloads ∧ ∀ t ∈ m.accts, AllUsed t.tr.root := by
    rcases honce with honce | hone
    · exact C57_replay_partial addrOf (flats as) rootOnly r' accts h1 honce hsigned
    · exact C57_replay_one_object_partial addrOf (flats as) rootOnly r' accts h1 hone hsigned
  obtain ⟨m, h3, h4, h5, h6⟩ := key
  obtain ⟨m', h7, h8⟩ := enforced_flat hw h3
  obtain ⟨h9, h10, h11⟩ := core_eq h8
  exact ⟨m', h7, by rw [h11, h4, hs], by rw [h9]; exact h5, by rw [h9]; exact h6⟩

/-- **C57**. What is recorded is what would be recorded if the calls that fail did nothing. -/
theorem C57_recorded_failures (addrOf : Nat → Addr) (as : List Act) (rootOnly : Bool) (r : Rec)
    (hrun : (recMode addrOf).acts as (Rec.start rootOnly) = (r, true)) :
    ∃ r', Rec.run addrOf (flats as) rootOnly = .ok r' ∧ r.payloads = r'.payloads := by
  obtain ⟨r', h1, h2⟩ := recorded_flat hrun
  exact ⟨r', h1, by unfold Rec.payloads; rw [(core_eq h2.m).1]⟩

/-! ### recorded from the outermost call only -/

/-- Where the roots come from. -/
structure Rooted (all : List Frame) (es : List Ev) (r : Rec) : Prop where
  only : r.rootOnly = true
  roots : ∀ t ∈ r.m.accts, ∃ fr ∈ all, ∃ args, t.tr.root.fn = fr.toFn args
  bottom : ∀ fr, r.m.stack.getLast? = some fr → fr ∈ all
  rest : ∀ fr ∈ outermost r.m.stack.length es, fr ∈ all

theorem outermost_push (d : Nat) (f : Frame) (es : List Ev) : ∀ fr ∈ outermost (d + 1) es, fr ∈ outermost d (.push f :: es) := by
  intro fr h
  cases d with
  | zero => exact List.mem_cons_of_mem _ h
  | succ d => exact h

theorem Rooted.step {addrOf : Nat → Addr} {all : List Frame} {e : Ev} {es : List Ev} {r r' : Rec} (hv : RInv addrOf r)
    (hp : Rooted all (e :: es) r) (h : Stepped addrOf r e r') : Rooted all es r' := by
  cases h with
  | push f =>
    refine ⟨hp.only, fun t ht => ?_, fun fr hfr => ?_, fun fr hfr => ?_⟩
    · obtain ⟨t0, h0, rfl⟩ := List.mem_map.mp ht
      obtain ⟨i, hi⟩ := List.mem_iff_getElem?.mp h0
      rw [Acct.push_tr (hv.trackers i t0 hi).2]
      exact hp.roots t0 h0
    · cases hst : r.m.stack with
      | nil =>
        simp only [Mgr.push, hst, List.getLast?_singleton, Option.some.injEq] at hfr
        apply hp.rest
        rw [hst, ← hfr]
        exact List.mem_cons_self
      | cons g rest =>
        apply hp.bottom
        simp only [Mgr.push, hst, List.getLast?_cons_cons] at hfr
        rw [hst]; exact hfr
    · apply hp.rest
      exact outermost_push _ f es fr (by simpa [Mgr.push] using hfr)
  | pop hne =>
    rw [popOnly_cons hne]
    refine ⟨hp.only, fun t ht => ?_, fun fr hfr => ?_, fun fr hfr => ?_⟩
    · obtain ⟨t0, h0, rfl⟩ := List.mem_map.mp ht
      obtain ⟨i, hi⟩ := List.mem_iff_getElem?.mp h0
      rw [Acct.pop_tr (hv.trackers i t0 hi).2]
      exact hp.roots t0 h0
    · apply hp.bottom
      dsimp only at hfr
      obtain ⟨g, rest, hst⟩ := List.exists_cons_of_ne_nil hne
      rw [hst] at hfr ⊢
      cases rest with
      | nil => cases hfr
      | cons g' rest => rw [List.getLast?_cons_cons]; exact hfr
    · apply hp.rest
      dsimp only at hfr
      rw [List.length_tail] at hfr
      simp only [outermost]
      exact hfr
  | authAs entries self fn rest hs =>
    exact ⟨hp.only, hp.roots, hp.bottom, fun fr h => hp.rest fr (by simp only [outermost]; exact h)⟩
  | granted x args fr rest ts hs hc => exact ⟨hp.only, hp.roots, hp.bottom, fun fr h => hp.rest fr (by simpa [outermost] using h)⟩
  | asked x args fr rest ts r' hs hc hr =>
    have hro : r'.rootOnly = true := (rootOnly_require hr).trans hp.only
    cases require_asked (hv.invokers ts) hr with
    | old i t tr hi hta hin hrec hm hmap hkeep =>
      have hst : r'.m.stack = r.m.stack := by rw [hm]; rfl
      refine ⟨hro, fun u hu => ?_, by rw [hst]; exact hp.bottom, by rw [hst]; exact fun fr h => hp.rest fr (by simpa [outermost] using h)⟩
      obtain ⟨j, hj⟩ := List.mem_iff_getElem?.mp hu
      rw [hm, getElem?_setAcct] at hj
      split at hj
      · next hij =>
        subst hij
        rw [hi] at hj
        cases hj
        obtain ⟨fr', h1, args', h2⟩ := hp.roots t (List.mem_of_getElem? hi)
        refine ⟨fr', h1, args', ?_⟩
        rw [← h2]
        have hg := record_grows hrec [] t.tr.root.fn (by rw [fnAt_info, infoAt_nil]; rfl)
        rw [fnAt_info, infoAt_nil] at hg
        simpa using hg
      · exact hp.roots u (List.mem_of_getElem? hj)
    | new t hno hroot hne hm hta htr hb hmap hnew hkeep hold =>
      have hst : r'.m.stack = r.m.stack := by rw [hm]
      refine ⟨hro, fun u hu => ?_, by rw [hst]; exact hp.bottom, by rw [hst]; exact fun fr h => hp.rest fr (by simpa [outermost] using h)⟩
      rw [hm] at hu
      rcases List.mem_append.mp hu with hu | hu
      · exact hp.roots u hu
      · rw [List.mem_singleton] at hu
        subst hu
        have hl := hroot hp.only
        dsimp only at hl
        rw [hs] at hl
        have hnil : rest = [] := by cases rest with | nil => rfl | cons _ _ => simp at hl
        refine ⟨fr, hp.bottom fr (by rw [hs, hnil]; rfl), args, ?_⟩
        rw [htr]; rfl

/-- **C57**. When authorizations that are not part of the outermost call are not allowed, every recorded tree begins with the
outermost call (or contract creation) itself: a simulation in which a deeper call asks for an address that the outermost one
has not asked for fails. -/
theorem C57_root_only (addrOf : Nat → Addr) (es : List Ev) (r : Rec) (hrun : Rec.run addrOf es true = .ok r) (a : Addr) (t : Inv)
    (h : (a, t) ∈ r.payloads) : ∃ fr ∈ outermost 0 es, ∃ args, t.fn = fr.toFn args := by
  have key : ∀ (es : List Ev) (s : Rec), RInv addrOf s → ∀ (all : List Frame), Rooted all es s →
      runAll (Rec.step addrOf) es s = .ok r → Rooted all [] r := by
    intro es
    induction es with
    | nil => intro s _ all hp h; cases h; exact hp
    | cons e es ih =>
      intro s hv all hp h
      rw [runAll] at h
      cases hx : Rec.step addrOf s e with
      | error x => rw [hx] at h; cases h
      | ok s1 =>
        rw [hx] at h
        exact ih s1 (hv.step (step_ok hx)).1 all (hp.step hv (step_ok hx)) h
  have hr := key es (Rec.start true) (RInv.start addrOf true) (outermost 0 es)
    ⟨rfl, fun t h => by simp [Rec.start] at h, fun fr h => by simp [Rec.start] at h, fun fr h => h⟩ hrun
  obtain ⟨u, hu, he⟩ := List.mem_map.mp h
  simp only [Prod.mk.injEq] at he
  obtain ⟨fr, h1, args, h2⟩ := hr.roots u hu
  refine ⟨fr, h1, args, ?_⟩
  rw [← h2, ← he.2]
  cases u.tr.root; rfl

/-! ### calls that fail -/

/-- **C57**. A call that fails leaves nothing behind: what has been recorded is what had been recorded before the call. -/
theorem C57_failed_call (addrOf : Nat → Addr) (es inner : List Ev) (rootOnly : Bool) (r r1 r2 r3 : Rec) (f : Frame)
    (hrun : Rec.run addrOf es rootOnly = .ok r) (hcall : Rec.step addrOf r (.push f) = .ok r1)
    (hin : runAll (Rec.step addrOf) inner r1 = .ok r2) (hopen : r2.m.stack ≠ []) (hfail : r2.popFailed r1.snapshot = .ok r3) :
    r3.payloads = r.payloads ∧ r3.m.accts = r.m.accts ∧ r3.byHandle = r.byHandle := by
  have hv := (RInv.run es (RInv.start addrOf rootOnly) hrun).1
  cases step_ok hcall
  unfold Rec.popFailed at hfail
  split at hfail
  · cases hfail
  · split at hfail
    · cases hfail
    · cases hfail
      have hacc : ∀ l : List Acct, (∀ t ∈ l, TRec t.tr r.m.stack.length ∧ t.borrowed = false) → (l.map Acct.push).map Acct.pop = l := by
        intro l hl
        rw [List.map_map]
        conv => rhs; rw [← List.map_id l]
        apply List.map_congr_left
        intro t ht
        obtain ⟨h1, h2⟩ := hl t ht
        simp only [Function.comp, id]
        rw [Acct.push_tr h2, Acct.pop_tr (by exact h2)]
        obtain ⟨addr, ⟨root, stack, rootFrame, fully⟩, source, verified, nonce, borrowed⟩ := t
        have hfl : (Tracker.push ⟨root, stack, rootFrame, fully⟩).pop = ⟨root, stack, rootFrame, fully⟩ := by
          rcases h1.state with ⟨h3, _⟩ | ⟨h3, above, k, h4, h5⟩
          · dsimp only at h3
            subst h3
            simp only [Tracker.push, Tracker.pop, List.tail_cons]
            cases rootFrame <;> simp
          · dsimp only at h3 h4 h5
            subst h3 h4 h5
            simp [Tracker.push, Tracker.pop]
            omega
        rw [hfl]
      have hl : ∀ t ∈ r.m.accts, TRec t.tr r.m.stack.length ∧ t.borrowed = false := by
        intro t ht
        obtain ⟨i, hi⟩ := List.mem_iff_getElem?.mp ht
        exact hv.trackers i t hi
      have := hacc r.m.accts hl
      have h1 : ∀ ts, ({ r2.m with accts := r.m.accts.map Acct.push, invokers := ts } : Mgr).popOnly.accts = r.m.accts := by
        intro ts
        rw [popOnly_cons (by exact hopen)]
        exact this
      refine ⟨?_, h1 _, rfl⟩
      unfold Rec.payloads
      exact congrArg _ (h1 _)

/-! ### the requests of the host -/

theorem setAcct_setAcct (m : Mgr) (i : Nat) (g1 g2 : Acct → Acct) : (m.setAcct i g1).setAcct i g2 = m.setAcct i (fun t => g2 (g1 t)) := by
  unfold Mgr.setAcct
  simp only [List.modify_modify_eq]
  rfl

/-- **C57**. The requests in enforcing mode of the theorems above are those of the whole host (whose account contracts run, see
C15 and C24), when the address authenticates itself without making requests of its own. -/
theorem C57_same_request (E : Host.HEnv) (s : Host.Host) (addrOf : Nat → Addr) (h : Nat) (args : List Nat) (m : Mgr)
    (run : Nat → Host.Host → Host.Host × Res Host.RVal)
    (hauth : ∀ (ts : List Invoker) (i : Nat) (t : Acct) (tr : Tracker) (p : List Nat) (f : AuthFn), s.auth.accts[i]? = some t →
      let s1 : Host.Host := { s with auth := ({ s.auth with invokers := ts } : Mgr).recordMatch i tr p (addrOf h) f }
      (Host.verifyEntry E s1 i t (run i)).2 = .ok () ∧
      (Host.verifyEntry E s1 i t (run i)).1.auth = s1.auth.setAcct i (fun t => { t with verified := true }))
    (hstep : s.auth.enforceStep addrOf (.require h args) = .ok m) :
    (Host.requireAuth E s (addrOf h) args run).2 = .ok () ∧ (Host.requireAuth E s (addrOf h) args run).1.auth = m := by
  simp only [Mgr.enforceStep, Mgr.step, id_eq] at hstep
  unfold Host.requireAuth
  cases hst : s.auth.stack with
  | nil => rw [hst] at hstep; cases hstep
  | cons fr rest =>
    rw [hst] at hstep
    dsimp only at hstep ⊢
    unfold Host.requireInternal
    rw [checkInvoker_eq] at hstep ⊢
    cases hc : invokerCheck s.auth.stack s.auth.invokers (addrOf h) (fr.toFn args) with
    | mk ts res =>
      rw [hc] at hstep
      cases res with
      | error e => cases hstep
      | ok b =>
        cases b with
        | true => cases hstep; exact ⟨rfl, rfl⟩
        | false =>
          dsimp only at hstep ⊢
          unfold Mgr.enforce at hstep
          unfold Host.requireEnforcing
          dsimp only at hstep ⊢
          split at hstep
          · cases hstep
          · cases hstep
          · next i tr p hl =>
            cases hstep
            rw [hl]
            dsimp only
            obtain ⟨j, t, hij, ht, -⟩ := Host.acctLoop_spec hl
            have hij' : i = j := by omega
            subst hij'
            obtain ⟨h1, h2⟩ := hauth ts i t tr p (fr.toFn args) ht
            rw [ht]
            refine ⟨h1, ?_⟩
            dsimp only at h2 ⊢
            simp only [Host.setAcct, h2]
            exact setAcct_setAcct _ _ _ _

theorem setAcct_same (m : Mgr) (i : Nat) (g : Acct → Acct) (h : ∀ t, m.accts[i]? = some t → g t = t) : m = m.setAcct i g := by
  obtain ⟨accts, ts, stack, uses, ids, next⟩ := m
  unfold Mgr.setAcct
  congr 1
  apply List.ext_getElem?
  intro j
  rw [List.getElem?_modify]
  by_cases hij : i = j
  · subst hij
    cases hx : accts[i]? with
    | none => simp
    | some t => simp [h t hx]
  · simp [hij]

/-- The hypothesis of `C57_same_request` is met by the entries of the source account of the transaction, for example. -/
theorem C57_same_request_source (E : Host.HEnv) (s : Host.Host) (addrOf : Nat → Addr) (h : Nat) (args : List Nat) (m : Mgr)
    (run : Nat → Host.Host → Host.Host × Res Host.RVal) (hsource : ∀ t ∈ s.auth.accts, t.source = true)
    (hstep : s.auth.enforceStep addrOf (.require h args) = .ok m) :
    (Host.requireAuth E s (addrOf h) args run).2 = .ok () ∧ (Host.requireAuth E s (addrOf h) args run).1.auth = m := by
  refine C57_same_request E s addrOf h args m run (fun ts i t tr p f hi => ?_) hstep
  have hs := hsource t (List.mem_of_getElem? hi)
  unfold Host.verifyEntry
  cases hv : t.verified with
  | false =>
    simp only [Bool.false_eq_true, if_false, Host.authenticate, Host.verifyNonce, hs, if_true]
    exact ⟨trivial, rfl⟩
  | true =>
    simp only [if_true, true_and]
    refine setAcct_same _ _ _ (fun t' ht' => ?_)
    simp only [Mgr.recordMatch, Mgr.setAcct, List.getElem?_modify, if_true, hi] at ht'
    cases ht'
    simp only [hv]

/-! ### a transaction in which the recorded authorizations do not suffice -/

section Examples

private def user : Nat → Addr := fun _ => .account 7
private def call (n : Nat) : Ev := .push (.contract (.contract n) [n])
private def sign (p : Addr × Inv) : Acct :=
  { addr := p.1, tr := Tracker.new p.2, source := false, verified := false, nonce := some (0, 0), borrowed := false }

private theorem signed_sign (ps : List (Addr × Inv)) : List.Forall₂ Signed ps (ps.map sign) := by
  induction ps with
  | nil => exact .nil
  | cons p ps ih => exact .cons ⟨rfl, rfl, rfl⟩ ih

/-- A contract that asks its user twice, through two objects for the same address, and then calls another one twice: the second
time it does not call on. -/
private def twoObjects : List Ev :=
  [call 1, .require 10 [], .require 11 [],
    call 2, .require 11 [], call 3, .require 11 [], .pop, .pop,
    call 2, .require 10 [], .pop, .pop]

/-- **C57**. The full claim is false: there is a transaction that is recorded without an error, and whose recorded
authorizations are not enough to authorize it. It asks for an address through two objects in one call; recording tells the two
trees apart by the objects, but enforcing takes the first tree that matches. -/
theorem C57_two_objects : ∃ r, Rec.run user twoObjects false = .ok r ∧
    Mgr.run user twoObjects (r.payloads.map sign) = .error (.host .auth .invalidAction) := by
  exact ⟨_, rfl, rfl⟩

/-- A contract that calls another one twice, which calls on only the second time, with requests in every call. -/
private def nested : List Ev :=
  [call 1, .require 10 [5], call 2, .require 11 [], .pop, call 2, .require 10 [], call 3, .require 12 [], .pop, .pop, .pop]

example : asksOnce user [] nested = true := by decide

/-- The trees that are recorded. -/
example : (match Rec.run user nested true with
    | .ok r => r.payloads.length == 1 && r.payloads.all (fun p => p.2.subs.length == 2 && (p.2.at? [1, 0]).isSome &&
        !(p.2.at? [0, 0]).isSome)
    | .error _ => false) = true := by decide +kernel

/-- And they suffice. -/
example : ∃ r m, Rec.run user nested true = .ok r ∧ Mgr.run user nested (r.payloads.map sign) = .ok m := by
  obtain ⟨r, hr⟩ : ∃ r, Rec.run user nested true = .ok r := ⟨_, rfl⟩
  obtain ⟨m, hm, _⟩ := C57_replay_partial user nested true r _ hr (by decide) (signed_sign _)
  exact ⟨r, m, hr, hm⟩

/-- A contract that asks its user, and calls another one that asks too, and that fails, as a call of its own did before; then it
calls it again and it does not fail. The authorization given in advance for the call that fails is gone. -/
private def caught : List Act :=
  [.call (.contract (.contract 1) [1]) [.require 10 [5],
    .authAs [Auth.Inv.mk (.call (.contract 2) [2] []) [] false],
    .failed (.contract (.contract 2) [2]) [.require 10 [], .failed (.contract (.contract 3) [3]) [.require 10 []], .require 10 []],
    .call (.contract (.contract 2) [2]) [.require 11 []]]]

/-- Something is recorded, and it suffices. -/
example : ∃ r m, (recMode user).acts caught (Rec.start true) = (r, true) ∧ (r.payloads.map (fun p => p.2.subs.length)) = [1] ∧
    (enfMode user).acts caught (Mgr.start (r.payloads.map sign)) = (m, true) := by
  obtain ⟨r, hr, hl⟩ : ∃ r, (recMode user).acts caught (Rec.start true) = (r, true) ∧
      (r.payloads.map (fun p => p.2.subs.length)) = [1] := ⟨_, rfl, rfl⟩
  obtain ⟨m, hm, _⟩ := C57_replay_failures_partial user caught true r _ hr (.inl (by decide)) (signed_sign _)
  exact ⟨r, m, hr, hl, hm⟩

/-- A call that fails after a request: the snapshot brings back the empty list of entries. -/
example : (match Rec.step user (Rec.start false) (call 1) with
    | .ok r => match Rec.step user r (call 2) with
      | .ok r1 => match runAll (Rec.step user) [.require 10 []] r1 with
        | .ok r2 => r2.payloads.length == 1 && (match r2.popFailed r1.snapshot with
          | .ok r3 => r3.payloads.length == 0 && r3.m.stack.length == 1
          | .error _ => false)
        | .error _ => false
      | .error _ => false
    | .error _ => false) = true := by decide +kernel

/-- Without the requests in the outermost call, the same calls are recorded only if that is allowed. -/
example : (match Rec.run user (nested.eraseIdx 1) true, Rec.run user (nested.eraseIdx 1) false with
    | .error e, .ok r => decide (e = .host .auth .invalidAction) && r.payloads.length == 2
    | _, _ => false) = true := by decide +kernel

end Examples

end Soroban.Props
