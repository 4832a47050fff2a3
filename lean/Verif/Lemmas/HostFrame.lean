import Verif.Lemmas.HostCoh
import Verif.Lemmas.AuthUse
import Verif.Spec.HostUpdates
/-! Frames: what the code of a frame can do to the host, and what is left after a frame ends. -/
namespace Soroban.Host
open Soroban Soroban.Auth Soroban.Storage Soroban.Storage.Spec
open Soroban.Host.Spec (Leads execAt updatesOf)

/-! ### updates of executables -/

theorem Leads.keep : ∀ {us : List (Exec × Exec)} {x y y' : Option Exec}, Leads x us y → (∀ e, y = some e → y' = some e) → Leads x us y'
  | [], none, _, _, _, _ => trivial
  | [], some e, _, _, h, hy => hy e h
  | (_, _) :: _, none, _, _, h, hy => ⟨h.1, Leads.keep h.2 hy⟩
  | (_, _) :: _, some _, _, _, h, hy => ⟨h.1, Leads.keep h.2 hy⟩

theorem Leads.snoc : ∀ {us : List (Exec × Exec)} {x : Option Exec} {o n : Exec}, Leads x us (some o) → Leads x (us ++ [(o, n)]) (some n)
  | [], none, _, _, _ => ⟨Or.inl rfl, rfl⟩
  | [], some _, _, _, h => ⟨Or.inr h.symm, rfl⟩
  | (_, _) :: _, none, _, _, h => ⟨h.1, Leads.snoc h.2⟩
  | (_, _) :: _, some _, _, _, h => ⟨h.1, Leads.snoc h.2⟩

theorem XSame.execAt {L L' : Ledger LKey LVal} (h : XSame L L') {c : Nat} {e : Exec} (he : execAt L c = some e) : execAt L' c = some e := by
  unfold Spec.execAt at he
  split at he
  · rename_i ex m l hl
    obtain ⟨m', l', h'⟩ := h c ex m l hl
    unfold Spec.execAt; rw [h']; exact he
  · cases he

/-- The same frame: only the instance storage may differ. -/
def CSame (a b : Ctx) : Prop := b.cid = a.cid ∧ b.fn = a.fn ∧ b.inst = a.inst

theorem CSame.refl (a : Ctx) : CSame a a := ⟨rfl, rfl, rfl⟩
theorem CSame.trans {a b c : Ctx} (h : CSame a b) (h' : CSame b c) : CSame a c :=
  ⟨h'.1.trans h.1, h'.2.1.trans h.2.1, h'.2.2.trans h.2.2⟩

/-- The same frame, and the same contents unless it is a frame of contract `t`. -/
def CRel (t : Option Nat) (a b : Ctx) : Prop := CSame a b ∧ (a.cid ≠ t → b = a)

theorem CRel.refl (t : Option Nat) (a : Ctx) : CRel t a a := ⟨CSame.refl a, fun _ => rfl⟩
theorem CRel.trans {t : Option Nat} {a b c : Ctx} (h : CRel t a b) (h' : CRel t b c) : CRel t a c :=
  ⟨h.1.trans h'.1, fun ht => (h'.2 (by rw [h.1.1]; exact ht)).trans (h.2 ht)⟩

/-- What the code of the top frame can do to the context stack. -/
structure CtxLe (cs cs' : List Ctx) : Prop where
  same : List.Forall₂ CSame cs cs'
  below : List.Forall₂ (CRel (topContract cs)) cs.tail cs'.tail

theorem cids_same {cs cs' : List Ctx} (h : List.Forall₂ CSame cs cs') : cs'.filterMap Ctx.cid = cs.filterMap Ctx.cid := by
  induction h with
  | nil => rfl
  | cons h _ ih => simp only [List.filterMap_cons, h.1, ih]

theorem shape_same {cs cs' : List Ctx} (h : List.Forall₂ CSame cs cs') : shape cs' = shape cs := by
  induction h with
  | nil => rfl
  | cons h _ ih =>
    simp only [shape, List.map_cons, h.1, h.2.1] at ih ⊢
    rw [ih]

theorem topContract_same {cs cs' : List Ctx} (h : List.Forall₂ CSame cs cs') : topContract cs' = topContract cs := by
  unfold topContract; rw [cids_same h]

theorem CtxLe.refl (cs : List Ctx) : CtxLe cs cs := ⟨forall₂_refl CSame.refl _, forall₂_refl (CRel.refl _) _⟩

theorem CtxLe.trans {a b c : List Ctx} (h : CtxLe a b) (h' : CtxLe b c) : CtxLe a c := by
  refine ⟨forall₂_trans (R := CSame) (fun _ _ _ x y => x.trans y) h.same h'.same, ?_⟩
  have := h'.below
  rw [topContract_same h.same] at this
  exact forall₂_trans (R := CRel (topContract a)) (fun _ _ _ x y => x.trans y) h.below this

theorem CtxLe.ofRel {cs cs' : List Ctx} {t : Option Nat} (h : List.Forall₂ (CRel t) cs cs')
    (ht : t = topContract cs ∨ ∀ c ∈ cs, c.cid ≠ t) : CtxLe cs cs' := by
  refine ⟨h.imp (fun _ _ h => h.1), ?_⟩
  rcases ht with rfl | ht
  · cases h with
    | nil => exact .nil
    | cons _ h => exact h
  · have : cs' = cs := by
      induction h with
      | nil => rfl
      | cons h _ ih =>
        rw [h.2 (ht _ List.mem_cons_self), ih (fun c hc => ht c (List.mem_cons_of_mem _ hc))]
    rw [this]; exact forall₂_refl (CRel.refl _) _

/-- Which call stacks can occur: a contract is on the stack twice only if the upper frame is `__check_auth` directly above
frames of the same contract, and the host is the only one to call functions with reserved names. -/
def StackOk : List (Option Nat × Name) → Prop
  | [] => True
  | (c, fn) :: below => StackOk below ∧
      (∀ id, c = some id → some id ∈ below.map Prod.fst → (below.filterMap Prod.fst).head? = some id ∧ fn = checkAuthName) ∧
      (reserved fn = true → fn = checkAuthName ∨ fn = constructorName) ∧ (c = none → below = [])

theorem StackOk.top {id : Nat} : ∀ {cs : List Ctx}, StackOk (shape cs) → topContract cs = some id → ∃ d rest, cs = d :: rest ∧ d.cid = some id
  | [], _, h => by cases h
  | d :: rest, h, ht => by
    refine ⟨d, rest, rfl, ?_⟩
    cases hd : d.cid with
    | some i => unfold topContract at ht; rw [List.filterMap_cons, hd] at ht; exact ht
    | none =>
      have h2 : shape rest = [] := h.2.2.2 hd
      have h3 : rest = [] := by unfold shape at h2; simpa using h2
      subst h3
      unfold topContract at ht; rw [List.filterMap_cons, hd] at ht; cases ht

/-- The authorization frame of a context. -/
def Ctx.frame (c : Ctx) : Option Frame := c.cid.map (fun id => .contract (.contract id) c.fn)

/-- Whether an authorization frame is that of a contract. -/
def isContractFrame : Frame → Bool
  | .contract _ _ => true
  | .create _ => false

theorem frames_same {cs cs' : List Ctx} (h : List.Forall₂ CSame cs cs') : cs'.filterMap Ctx.frame = cs.filterMap Ctx.frame := by
  induction h with
  | nil => rfl
  | cons h _ ih => simp only [List.filterMap_cons, Ctx.frame, h.1, h.2.1] at ih ⊢; rw [ih]

/-- What holds of a host at all times. -/
structure HOk (E : HEnv) (orig : List Acct) (s : Host) : Prop where
  st : StOk E s.st
  mwf : MWF s.auth
  uok : UOk orig s.auth
  frames : s.auth.stack.filter isContractFrame = s.ctx.filterMap Ctx.frame
  stack : StackOk (shape s.ctx)
  depth : s.ctx.length ≤ depthLimit
  trace : ∀ t ∈ s.trace, StackOk t ∧ t.length ≤ depthLimit
  scope : ∀ t ∈ s.auth.invokers, t.live = false → (topContract s.ctx).map Addr.contract = some t.addr

/-- What the code of a frame can do to the host. -/
structure HLe (E : HEnv) (s s' : Host) : Prop where
  st : SLe E s.st s'.st
  auth : MLe s.auth s'.auth
  ctx : CtxLe s.ctx s'.ctx
  trace : s.trace <:+ s'.trace
  events : s.events <+: s'.events
  iso : ∀ c, NotEntered c s s' → topContract s.ctx ≠ some c → Kept c (ledger E s.st) (ledger E s'.st)

theorem notEntered_split {c : Nat} {a b d : Host} (h1 : a.trace <:+ b.trace) (h2 : b.trace <:+ d.trace) (h : NotEntered c a d) :
    NotEntered c a b ∧ NotEntered c b d := by
  obtain ⟨new, hn, hq⟩ := h
  obtain ⟨n1, hn1⟩ := h1
  obtain ⟨n2, hn2⟩ := h2
  have : new = n2 ++ n1 := by
    rw [← hn2, ← hn1, ← List.append_assoc] at hn
    exact (List.append_cancel_right hn).symm
  subst this
  exact ⟨⟨n1, hn1.symm, fun t ht => hq t (List.mem_append_right _ ht)⟩, ⟨n2, hn2.symm, fun t ht => hq t (List.mem_append_left _ ht)⟩⟩

theorem HLe.refl {E : HEnv} {s : Host} (h : StOk E s.st) : HLe E s s :=
  ⟨SLe.refl h, MLe.refl _, CtxLe.refl _, List.suffix_refl _, List.prefix_refl _, fun c _ _ => keptRefl c _⟩

theorem HLe.trans {E : HEnv} {a b c : Host} (h : HLe E a b) (h' : HLe E b c) : HLe E a c :=
  ⟨h.st.trans h'.st, h.auth.trans h'.auth, h.ctx.trans h'.ctx, h.trace.trans h'.trace, h.events.trans h'.events,
    fun d hq hd => keptTrans (h.iso d (notEntered_split h.trace h'.trace hq).1 hd)
      (h'.iso d (notEntered_split h.trace h'.trace hq).2 (by unfold topContract; rw [cids_same h.ctx.same]; exact hd))⟩

/-- A verified entry with address credentials: its signature has been checked and its nonce, which was not in the initial ledger
`L0`, used. -/
structure Proven (E : HEnv) (L0 : Ledger LKey LVal) (s : Host) (i : Nat) (a : Acct) : Prop where
  nonce : ∃ n l mx m, a.nonce = some (n, l) ∧ E.sto.li.seq ≤ l ∧ E.sto.li.maxLiveUntil = some mx ∧ l ≤ mx ∧ l ≤ m ∧
    ledger E s.st (.nonce a.addr n) = some (.void, some m) ∧ L0 (.nonce a.addr n) = none
  account : ∀ id, a.addr = .account id → ∃ v, E.accountCheck i v = .ok ()
  contract : ∀ id, a.addr = .contract id → ∃ t ∈ s.trace, t.head? = some (some id, checkAuthName)

/-- What holds of a host when nothing has gone wrong in the current frame. -/
structure HStrong (E : HEnv) (L0 : Ledger LKey LVal) (s : Host) : Prop where
  start : LLe E L0 (ledger E s.st)
  uses : ∀ u ∈ s.auth.uses, ∃ a, s.auth.accts[u.entry]? = some a ∧ (a.verified = true ∨ a.borrowed = true)
  proven : ∀ (i : Nat) (a : Acct), s.auth.accts[i]? = some a → a.verified = true → a.source = false → Proven E L0 s i a
  distinct : ∀ (i j : Nat) (a b : Acct), s.auth.accts[i]? = some a → s.auth.accts[j]? = some b → a.verified = true → b.verified = true →
    a.source = false → b.source = false → a.addr = b.addr → a.nonce.map Prod.fst = b.nonce.map Prod.fst → i = j
  coh : Coh (ledger E s.st) s.ctx
  updates : ∀ c, Leads (execAt L0 c) (updatesOf c (successfulEvents s.events)) (execAt (ledger E s.st) c)

/-- `r` is the outcome of some code run from `s`. -/
structure Good {α : Type} (E : HEnv) (orig : List Acct) (s : Host) (r : Host × Res α) : Prop where
  le : HLe E s r.1
  ok : HOk E orig r.1
  strong : ∀ {L0 : Ledger LKey LVal}, HStrong E L0 s → (∃ v, r.2 = .ok v) → HStrong E L0 r.1
  fatal : r.1.fatal = true → s.fatal = true ∨ ∃ e, r.2 = .error e ∧ recoverable e = false

theorem Good.refl {α : Type} {E : HEnv} {orig : List Acct} {s : Host} (h : HOk E orig s) (r : Res α) : Good E orig s (s, r) :=
  ⟨HLe.refl h.st, h, fun h _ => h, fun h => Or.inl h⟩

theorem Good.bind {α β : Type} {E : HEnv} {orig : List Acct} {s s1 : Host} {v : α} {r : Host × Res β}
    (h : Good E orig s (s1, Except.ok v)) (h' : Good E orig s1 r) : Good E orig s r := by
  refine ⟨h.le.trans h'.le, h'.ok, fun hs hr => h'.strong (h.strong hs ⟨v, rfl⟩) hr, fun hf => ?_⟩
  rcases h'.fatal hf with h1 | h1
  · rcases h.fatal h1 with h2 | ⟨e, h2, _⟩
    · exact Or.inl h2
    · cases h2
  · exact Or.inr h1

theorem Good.err {α β : Type} {E : HEnv} {orig : List Acct} {s s1 : Host} {e e' : Err} (h : Good E orig s (s1, (Except.error e : Res α)))
    (he : recoverable e' = true → recoverable e = true) : Good E orig s (s1, (Except.error e' : Res β)) := by
  refine ⟨h.le, h.ok, fun _ h => ?_, fun hf => ?_⟩
  · obtain ⟨v, hv⟩ := h; cases hv
  · rcases h.fatal hf with h1 | ⟨e0, h1, h2⟩
    · exact Or.inl h1
    · cases h1
      refine Or.inr ⟨e', rfl, ?_⟩
      cases h' : recoverable e' with
      | false => rfl
      | true => rw [he h'] at h2; cases h2

/-- Changing the result. -/
theorem Good.mapRes {α β : Type} {E : HEnv} {orig : List Acct} {s s1 : Host} {r : Res α} {r' : Res β} (h : Good E orig s (s1, r))
    (h1 : ∀ v, r' = .ok v → (∃ w, r = .ok w) ∨ ∃ e, r = .error e ∧ recoverable e = true ∧ (∀ {L0 : Ledger LKey LVal}, HStrong E L0 s → HStrong E L0 s1))
    (h2 : ∀ e, r = .error e → recoverable e = false → ∃ e', r' = .error e' ∧ recoverable e' = false) :
    Good E orig s (s1, r') := by
  refine ⟨h.le, h.ok, fun hs ⟨v, hv⟩ => ?_, fun hf => ?_⟩
  · rcases h1 v hv with h3 | ⟨e, _, _, h3⟩
    · exact h.strong hs h3
    · exact h3 hs
  · rcases h.fatal hf with h3 | ⟨e, h3, h4⟩
    · exact Or.inl h3
    · exact Or.inr (h2 e h3 h4)

theorem Proven.mono {E : HEnv} {L0 : Ledger LKey LVal} {s s' : Host} {i : Nat} {a : Acct} (h : Proven E L0 s i a) (hl : LLe E (ledger E s.st) (ledger E s'.st))
    (ht : s.trace <:+ s'.trace) : Proven E L0 s' i a := by
  obtain ⟨n, l, mx, m, h1, h2, h3, h4, h5, h6⟩ := h.nonce
  refine ⟨⟨n, l, mx, m, h1, h2, h3, h4, h5, hl.nonce _ _ _ h6.1, h6.2⟩, h.account, fun id hid => ?_⟩
  obtain ⟨t, ht', hh⟩ := h.contract id hid
  exact ⟨t, ht.subset ht', hh⟩

/-- The strong invariant only depends on the account trackers, the uses, the nonces, the executables, the events and the trace. -/
theorem HStrong.step {E : HEnv} {L0 : Ledger LKey LVal} {s s' : Host} (h : HStrong E L0 s) (ha : s'.auth.accts = s.auth.accts) (hu : s'.auth.uses = s.auth.uses)
    (hl : LLe E (ledger E s.st) (ledger E s'.st)) (ht : s.trace <:+ s'.trace)
    (hc : Coh (ledger E s.st) s.ctx → Coh (ledger E s'.st) s'.ctx)
    (hx : ∀ c, Leads (execAt L0 c) (updatesOf c (successfulEvents s'.events)) (execAt (ledger E s'.st) c)) : HStrong E L0 s' := by
  refine ⟨h.start.trans hl, ?_, ?_, ?_, hc h.coh, hx⟩
  · rw [ha, hu]; exact h.uses
  · rw [ha]; exact fun i a h1 h2 h3 => (h.proven i a h1 h2 h3).mono hl ht
  · rw [ha]; exact h.distinct

theorem HStrong.mono {E : HEnv} {L0 : Ledger LKey LVal} {s s' : Host} (h : HStrong E L0 s) (ha : s'.auth.accts = s.auth.accts) (hu : s'.auth.uses = s.auth.uses)
    (hl : LLe E (ledger E s.st) (ledger E s'.st)) (ht : s.trace <:+ s'.trace)
    (hc : Coh (ledger E s.st) s.ctx → Coh (ledger E s'.st) s'.ctx) (hx : XSame (ledger E s.st) (ledger E s'.st))
    (hev : successfulEvents s'.events = successfulEvents s.events) : HStrong E L0 s' :=
  h.step ha hu hl ht hc (fun c => by rw [hev]; exact Leads.keep (h.updates c) (fun e => hx.execAt))

theorem OnlySt0.hle {E : HEnv} {s s' : Host} (h : OnlySt0 E s s') : HLe E s s' := by
  refine ⟨h.st, ?_, ?_, ?_, ?_, fun c _ hc => h.iso c hc⟩
  · rw [h.auth]; exact MLe.refl _
  · rw [h.ctx]; exact CtxLe.refl _
  · rw [h.trace]; exact List.suffix_refl _
  · rw [h.events]; exact List.prefix_refl _

theorem OnlySt0.hok {E : HEnv} {orig : List Acct} {s s' : Host} (hs : HOk E orig s) (h : OnlySt0 E s s') : HOk E orig s' := by
  refine ⟨h.ok, ?_, ?_, ?_, ?_, ?_, ?_, ?_⟩
  · rw [h.auth]; exact hs.mwf
  · rw [h.auth]; exact hs.uok
  · rw [h.auth, h.ctx]; exact hs.frames
  · rw [h.ctx]; exact hs.stack
  · rw [h.ctx]; exact hs.depth
  · rw [h.trace]; exact hs.trace
  · rw [h.auth, h.ctx]; exact hs.scope

theorem OnlySt0.good {α : Type} {E : HEnv} {orig : List Acct} {s s' : Host} (hs : HOk E orig s) (h : OnlySt0 E s s') (r : Res α)
    (hc : (∃ v, r = .ok v) → Coh (ledger E s.st) s.ctx → Coh (ledger E s'.st) s.ctx)
    (hx : (∃ v, r = .ok v) → XSame (ledger E s.st) (ledger E s'.st)) :
    Good E orig s (s', r) := by
  refine ⟨h.hle, h.hok hs, fun hst hv => ?_, ?_⟩
  · exact hst.mono (by rw [h.auth]) (by rw [h.auth]) h.st.ledger (by rw [h.trace]; exact List.suffix_refl _)
      (by rw [h.ctx]; exact hc hv) (hx hv) (by rw [h.events])
  · intro hf; left; rw [← h.fatal]; exact hf

theorem OnlySt.good {α : Type} {E : HEnv} {orig : List Acct} {s s' : Host} (hs : HOk E orig s) (h : OnlySt E s s') (r : Res α) :
    Good E orig s (s', r) := h.toOnlySt0.good hs r (fun _ hc => hc.msame h.same.weak) (fun _ => h.same.execs)

/-- Storing the instance storage of the top frame. -/
theorem persist_good {E : HEnv} {orig : List Acct} {s : Host} (hs : HOk E orig s) : Good E orig s (persist E s) := by
  have h1 := persist_only (E := E) hs.st
  rcases hp : persist E s with ⟨s1, r⟩
  rw [hp] at h1
  refine h1.good hs _ ?_ ?_
  · rintro ⟨v, rfl⟩ hc
    exact (persist_clean hs.st hc hp).1
  · rintro ⟨v, rfl⟩
    rcases persist_inst hs.st hp with ⟨_, d, cs, m, id, _, _, _, h3⟩ | ⟨_, rfl, _⟩
    · exact h3.execs
    · exact XSame.refl _

/-- Building `HOk` after a step. -/
theorem HLe.hok {E : HEnv} {orig : List Acct} {s s' : Host} (hs : HOk E orig s) (h : HLe E s s') (hm : MWF s'.auth) (hu : UOk orig s'.auth)
    (ht : ∀ t ∈ s'.trace, StackOk t ∧ t.length ≤ depthLimit)
    (hsc : ∀ t ∈ s'.auth.invokers, t.live = false → (topContract s.ctx).map Addr.contract = some t.addr) : HOk E orig s' := by
  refine ⟨h.st.ok, hm, hu, ?_, ?_, ?_, ht, by rw [topContract_same h.ctx.same]; exact hsc⟩
  · rw [h.auth.stack, frames_same h.ctx.same]; exact hs.frames
  · rw [shape_same h.ctx.same]; exact hs.stack
  · rw [← h.ctx.same.length_eq]; exact hs.depth

/-! ### the end of a frame -/

theorem reloadBelow_spec {E : HEnv} {s : Host} (h : StOk E s.st) (id : Nat) (cs : List Ctx) :
    OnlySt E s (reloadBelow E s id cs).1 ∧
    (∀ cs', (reloadBelow E s id cs).2 = .ok cs' → List.Forall₂ (CRel (some id)) cs cs') := by
  induction cs with
  | nil => exact ⟨OnlySt.refl h, fun cs' h => by cases h; exact .nil⟩
  | cons c cs ih =>
    simp only [reloadBelow]
    split
    · rename_i heq; rw [heq] at ih; exact ⟨ih.1, fun _ h => by cases h⟩
    · rename_i s1 cs1 heq
      rw [heq] at ih
      have hrel := ih.2 cs1 rfl
      split
      · rename_i hc
        have h2 := getInstance_only ih.1.ok id
        split
        · rename_i heq2; rw [heq2] at h2; exact ⟨ih.1.trans h2, fun _ h => by cases h⟩
        · rename_i heq2
          rw [heq2] at h2
          refine ⟨ih.1.trans h2, fun cs' h => ?_⟩
          cases h
          exact .cons ⟨⟨rfl, rfl, rfl⟩, fun h => absurd hc h⟩ hrel
      · exact ⟨ih.1, fun cs' h => by cases h; exact .cons (CRel.refl _ _) hrel⟩

theorem HOk.setCtx {E : HEnv} {orig : List Acct} {s : Host} (h : HOk E orig s) {cs : List Ctx} (hc : CtxLe s.ctx cs) :
    HOk E orig { s with ctx := cs } :=
  ⟨h.st, h.mwf, h.uok, by simp only [frames_same hc.same]; exact h.frames, by simp only [shape_same hc.same]; exact h.stack,
    by simp only [← hc.same.length_eq]; exact h.depth, h.trace, by simp only [topContract_same hc.same]; exact h.scope⟩

theorem Good.setCtx {α : Type} {E : HEnv} {orig : List Acct} {s : Host} (h : HOk E orig s) {cs : List Ctx} (hc : CtxLe s.ctx cs)
    (r : Res α) (hi : Coh (ledger E s.st) s.ctx → Coh (ledger E s.st) cs) : Good E orig s ({ s with ctx := cs }, r) :=
  ⟨⟨SLe.refl h.st, MLe.refl _, hc, List.suffix_refl _, List.prefix_refl _, fun c _ _ => keptRefl c _⟩, h.setCtx hc,
    fun hs _ => hs.mono rfl rfl (LLe.refl _) (List.suffix_refl _) hi (XSame.refl _) rfl, fun hf => Or.inl hf⟩

theorem reload_good {E : HEnv} {orig : List Acct} {s : Host} (h : HOk E orig s) : Good E orig s (reload E s) := by
  have hcoh := fun s' hc hr => reload_coh (E := E) (s := s) (s' := s') h.st hc hr
  unfold reload at hcoh ⊢
  split
  · exact Good.refl h _
  · rename_i c cs hcs
    split
    · exact Good.refl h _
    · rename_i id hid
      have h1 := reloadBelow_spec h.st id cs
      split
      · rename_i heq; rw [heq] at h1; exact h1.1.good h _
      · rename_i s1 cs1 heq
        rw [heq] at h1
        have hg : Good E orig s (s1, Except.ok ()) := h1.1.good h _
        suffices hle : CtxLe s1.ctx (c :: cs1) by
          have hs2 : Good E orig s1 ({ s1 with ctx := c :: cs1 }, Except.ok ()) := by
            refine Good.setCtx hg.ok hle _ (fun hc1 => ?_)
            have hl : ledger E s1.st = ledger E s.st := by
              have := (reloadBelow_coh.reloadBelow_ledger (E := E) h.st id cs).2
              rw [heq] at this; exact this
            have := (hcoh { s1 with ctx := c :: cs1 } (by rw [hl, h1.1.ctx] at hc1; exact hc1) (by
              rw [hcs]; simp only; rw [hid]; simp only; rw [heq])).2.1
            exact this
          exact Good.bind hg hs2
        rw [h1.1.ctx, hcs]
        have hrel := h1.2 cs1 rfl
        have htop : topContract (c :: cs) = some id := by unfold topContract; rw [List.filterMap_cons, hid]; rfl
        refine ⟨.cons (CSame.refl c) (hrel.imp (fun _ _ h => h.1)), ?_⟩
        rw [htop]; exact hrel

theorem finish_good {E : HEnv} {orig : List Acct} {s : Host} (h : HOk E orig s) (r : Res RVal) (hr : Good E orig s (s, r)) :
    Good E orig s (finish E s r) := by
  unfold finish
  split
  · exact hr
  · have h1 := persist_good (E := E) h
    split
    · rename_i heq; rw [heq] at h1; exact h1.err (fun h => h)
    · rename_i heq; rw [heq] at h1; exact h1.mapRes (fun v _ => Or.inl ⟨_, rfl⟩) (fun e he => by cases he)
    · rename_i s1 heq
      rw [heq] at h1
      have hg : Good E orig s (s1, Except.ok true) := h1
      have h2 := reload_good hg.ok
      split
      · rename_i heq2; rw [heq2] at h2; exact (Good.bind hg h2).err (fun h => h)
      · rename_i heq2; rw [heq2] at h2
        exact (Good.bind hg h2).mapRes (fun v _ => Or.inl ⟨(), rfl⟩) (fun e he => by cases he)

/-! ### frames -/

/-- A contract frame that may be pushed. -/
structure FrameOk (c : Ctx) (id : Nat) (cs : List Ctx) : Prop where
  cid : c.cid = some id
  stack : StackOk (shape (c :: cs))
  scope : topContract cs = some id ∨ ∀ d ∈ cs, d.cid ≠ some id

/-- `s'` is `s` after a failed call. -/
structure RolledBack (E : HEnv) (s s' : Host) : Prop where
  ledger : ledger E s'.st = ledger E s.st
  store : s.st.mode = .enforcing → s'.st = s.st
  events : successfulEvents s'.events = successfulEvents s.events
  accts : s'.auth.accts = s.auth.accts
  uses : s'.auth.uses = s.auth.uses
  stack : s'.auth.stack = s.auth.stack
  invokers : s'.auth.invokers.filter Invoker.live = s.auth.invokers.filter Invoker.live

theorem RolledBack.refl (E : HEnv) (s : Host) : RolledBack E s s := ⟨rfl, fun _ => rfl, rfl, rfl, rfl, rfl, rfl⟩

theorem RolledBack.trans {E : HEnv} {a b c : Host} (hm : b.st.mode = a.st.mode) (h : RolledBack E a b) (h' : RolledBack E b c) :
    RolledBack E a c :=
  ⟨h'.ledger.trans h.ledger, fun he => (h'.store (by rw [hm]; exact he)).trans (h.store he), h'.events.trans h.events, h'.accts.trans h.accts,
    h'.uses.trans h.uses, h'.stack.trans h.stack, h'.invokers.trans h.invokers⟩

theorem RolledBack.strong {E : HEnv} {L0 : Ledger LKey LVal} {s s' : Host} (h : RolledBack E s s') (ht : s.trace <:+ s'.trace)
    (hc : s'.ctx = s.ctx) (hs : HStrong E L0 s) : HStrong E L0 s' :=
  hs.mono h.accts h.uses (by rw [h.ledger]; exact LLe.refl _) ht (by rw [h.ledger, hc]; exact id) (by rw [h.ledger]; exact XSame.refl _)
    h.events

theorem push_live {m : Mgr} {f : Frame} {t : Invoker} (ht : t ∈ (m.push f).invokers) : t.live = true := by
  obtain ⟨b, _, rfl⟩ := List.mem_map.mp ht
  rfl

theorem push_hok {E : HEnv} {orig : List Acct} {s : Host} (hs : HOk E orig s) {c : Ctx} {id : Nat} (hc : FrameOk c id s.ctx)
    (hd : s.ctx.length < depthLimit) : HOk E orig (pushContext s c).1 := by
  have hp : (pushContext s c).1 = { s with
    auth := s.auth.push (.contract (.contract id) c.fn), ctx := c :: s.ctx, trace := shape (c :: s.ctx) :: s.trace } := by
    unfold pushContext; rw [hc.cid]
  rw [hp]
  refine ⟨hs.st, hs.mwf.push _, hs.uok.push _, ?_, hc.stack, ?_, ?_, fun t ht hl => absurd (push_live ht) (by rw [hl]; decide)⟩
  · simp only [Mgr.push, List.filter_cons, isContractFrame, if_true, List.filterMap_cons, Ctx.frame, hc.cid, Option.map_some]
    rw [hs.frames]
  · simp only [List.length_cons]; omega
  · intro t ht
    simp only [List.mem_cons] at ht
    rcases ht with rfl | ht
    · exact ⟨hc.stack, by simp only [shape, List.length_map, List.length_cons]; omega⟩
    · exact hs.trace t ht

theorem push_strong {E : HEnv} {L0 : Ledger LKey LVal} {s : Host} (h : HStrong E L0 s) (c : Ctx) (hcoh : Coh (ledger E s.st) (c :: s.ctx)) : HStrong E L0 (pushContext s c).1 := by
  have base : HStrong E L0 { s with ctx := c :: s.ctx, trace := shape (c :: s.ctx) :: s.trace } :=
    h.mono rfl rfl (LLe.refl _) (List.suffix_cons _ _) (fun _ => hcoh) (XSame.refl _) rfl
  unfold pushContext
  cases hc : c.cid with
  | none => exact base
  | some id =>
    have hacct : ∀ (i : Nat) (a : Acct), ((s.auth.push (.contract (.contract id) c.fn)).accts)[i]? = some a →
        ∃ b, s.auth.accts[i]? = some b ∧ a.addr = b.addr ∧ a.verified = b.verified ∧ a.source = b.source ∧ a.nonce = b.nonce ∧
          a.borrowed = b.borrowed := by
      intro i a ha
      simp only [Mgr.push, List.getElem?_map, Option.map_eq_some_iff] at ha
      obtain ⟨b, hb, rfl⟩ := ha
      refine ⟨b, hb, ?_⟩
      unfold Acct.push; split <;> exact ⟨rfl, rfl, rfl, rfl, rfl⟩
    refine ⟨h.start, ?_, ?_, ?_, hcoh, h.updates⟩
    · intro u hu
      obtain ⟨b, hb, h2⟩ := base.uses u hu
      refine ⟨b.push, ?_, ?_⟩
      · simp only [Mgr.push, List.getElem?_map]; simp only at hb; rw [hb]; rfl
      · unfold Acct.push; split <;> exact h2
    · intro i a ha hv hs
      obtain ⟨b, hb, e1, e2, e3, e4, e5⟩ := hacct i a ha
      have hp := base.proven i b hb (by rw [← e2]; exact hv) (by rw [← e3]; exact hs)
      refine ⟨?_, ?_, ?_⟩
      · rw [e4, e1]; exact hp.nonce
      · rw [e1]; exact hp.account
      · rw [e1]; exact hp.contract
    · intro i j a a' ha ha' hv hv' hs hs' had hn
      obtain ⟨b, hb, e1, e2, e3, e4, e5⟩ := hacct i a ha
      obtain ⟨b', hb', f1, f2, f3, f4, f5⟩ := hacct j a' ha'
      exact base.distinct i j b b' hb hb' (by rw [← e2]; exact hv) (by rw [← f2]; exact hv') (by rw [← e3]; exact hs)
        (by rw [← f3]; exact hs') (by rw [← e1, ← f1]; exact had) (by rw [← e4, ← f4]; exact hn)

theorem popOnly_strong {E : HEnv} {L0 : Ledger LKey LVal} {s : Host} (h : HStrong E L0 s) (cs : List Ctx) (hcoh : Coh (ledger E s.st) cs) :
    HStrong E L0 { s with ctx := cs, auth := s.auth.popOnly } := by
  cases hst : s.auth.stack with
  | nil =>
    have : s.auth.popOnly = s.auth := by unfold Mgr.popOnly; rw [hst]
    rw [this]; exact h.mono rfl rfl (LLe.refl _) (List.suffix_refl _) (fun _ => hcoh) (XSame.refl _) rfl
  | cons f rest =>
    have ha : s.auth.popOnly.accts = s.auth.accts.map Acct.pop := by unfold Mgr.popOnly; rw [hst]
    have hu : s.auth.popOnly.uses = s.auth.uses := by unfold Mgr.popOnly; rw [hst]
    have hacct : ∀ (i : Nat) (a : Acct), (s.auth.popOnly.accts)[i]? = some a →
        ∃ b, s.auth.accts[i]? = some b ∧ a.addr = b.addr ∧ a.verified = b.verified ∧ a.source = b.source ∧ a.nonce = b.nonce ∧
          a.borrowed = b.borrowed := by
      intro i a ha'
      rw [ha] at ha'
      simp only [List.getElem?_map, Option.map_eq_some_iff] at ha'
      obtain ⟨b, hb, rfl⟩ := ha'
      refine ⟨b, hb, ?_⟩
      unfold Acct.pop; split <;> exact ⟨rfl, rfl, rfl, rfl, rfl⟩
    refine ⟨h.start, ?_, ?_, ?_, hcoh, h.updates⟩
    · intro u hu'
      simp only [hu] at hu'
      obtain ⟨b, hb, h2⟩ := h.uses u hu'
      refine ⟨b.pop, ?_, ?_⟩
      · simp only [ha, List.getElem?_map, hb]; rfl
      · unfold Acct.pop; split <;> exact h2
    · intro i a ha' hv hs
      obtain ⟨b, hb, e1, e2, e3, e4, e5⟩ := hacct i a ha'
      have hp := h.proven i b hb (by rw [← e2]; exact hv) (by rw [← e3]; exact hs)
      refine ⟨?_, ?_, ?_⟩
      · rw [e4, e1]; exact hp.nonce
      · rw [e1]; exact hp.account
      · rw [e1]; exact hp.contract
    · intro i j a a' ha1 ha' hv hv' hs hs' had hn
      obtain ⟨b, hb, e1, e2, e3, e4, e5⟩ := hacct i a ha1
      obtain ⟨b', hb', f1, f2, f3, f4, f5⟩ := hacct j a' ha'
      exact h.distinct i j b b' hb hb' (by rw [← e2]; exact hv) (by rw [← f2]; exact hv') (by rw [← e3]; exact hs)
        (by rw [← f3]; exact hs') (by rw [← e1, ← f1]; exact had) (by rw [← e4, ← f4]; exact hn)

theorem rollbackEvents_eq {a b : List (Ev × Bool)} (h : a <+: b) :
    a <+: rollbackEvents b a.length ∧ successfulEvents (rollbackEvents b a.length) = successfulEvents a := by
  obtain ⟨t, rfl⟩ := h
  have h1 : rollbackEvents (a ++ t) a.length = a ++ t.map (fun e => (e.1, true)) := by
    unfold rollbackEvents; rw [List.take_left', List.drop_left'] <;> rfl
  rw [h1]
  refine ⟨List.prefix_append _ _, ?_⟩
  unfold successfulEvents
  rw [List.filter_append, List.map_append]
  have : (t.map (fun e => (e.1, true))).filter (fun e : Ev × Bool => !e.2) = [] := by
    rw [List.filter_eq_nil_iff]; intro x hx; simp only [List.mem_map] at hx; obtain ⟨y, _, rfl⟩ := hx; simp
  rw [this]; simp

theorem escalate_fatal {r : Res RVal} {e : Err} (h : r = .error e) : escalate r = .error e := by rw [h]; rfl

/-- A contract frame, whatever its code does. -/
theorem withFrame_good {E : HEnv} {orig : List Acct} {s : Host} (hs : HOk E orig s) {c : Ctx} {id : Nat} (hc : FrameOk c id s.ctx)
    (hcoh : Coh (ledger E s.st) s.ctx → Coh (ledger E s.st) (c :: s.ctx)) {f : Host → Host × Res RVal} (hf : ∀ s1, HOk E orig s1 → Good E orig s1 (f s1)) :
    Good E orig s (withFrame E s c f) ∧
    (∀ e, (withFrame E s c f).2 = .error e → RolledBack E s (withFrame E s c f).1) ∧
    List.Forall₂ (CRel (some id)) s.ctx (withFrame E s c f).1.ctx ∧
    (∀ v, (withFrame E s c f).2 = .ok v → shape (c :: s.ctx) ∈ (withFrame E s c f).1.trace) := by
  unfold withFrame
  by_cases hd : s.ctx.length ≥ depthLimit
  · rw [if_pos hd]
    exact ⟨Good.refl hs _, fun e _ => RolledBack.refl E s, forall₂_refl (CRel.refl _) _, fun v h => by cases h⟩
  rw [if_neg hd]
  have hp := push_hok hs hc (by omega)
  have hps : ∀ {L0 : Ledger LKey LVal}, HStrong E L0 s → HStrong E L0 (pushContext s c).1 := fun h => push_strong h c (hcoh h.coh)
  have hpe : (pushContext s c) = ({ s with
    auth := s.auth.push (.contract (.contract id) c.fn), ctx := c :: s.ctx, trace := shape (c :: s.ctx) :: s.trace },
    { map := s.st.map, events := s.events.length, auth := (s.auth.push (.contract (.contract id) c.fn)).snapshot }) := by
    unfold pushContext; rw [hc.cid]
  have hb := hf _ hp
  have hbe : Good E orig (pushContext s c).1 ((f (pushContext s c).1).1, escalate (f (pushContext s c).1).2) := by
    refine Good.mapRes (r := (f (pushContext s c).1).2) hb ?_ ?_
    · intro v hv
      cases hr : (f (pushContext s c).1).2 with
      | ok w => exact Or.inl ⟨w, rfl⟩
      | error e => rw [hr] at hv; cases hv
    · intro e he hre; exact ⟨e, escalate_fatal he, hre⟩
  have he : Good E orig (pushContext s c).1 (finish E (f (pushContext s c).1).1 (escalate (f (pushContext s c).1).2)) := by
    cases hr : escalate (f (pushContext s c).1).2 with
    | error err => rw [hr] at hbe; exact hbe
    | ok w => rw [hr] at hbe; exact Good.bind hbe (finish_good hb.ok _ (Good.refl hb.ok _))
  simp only
  have hpop : ∀ {L0 : Ledger LKey LVal} {s' : Host} {v : RVal}, HStrong E L0 s → finish E (f (pushContext s c).1).1 (escalate (f (pushContext s c).1).2) = (s', .ok v) →
      Coh (ledger E s'.st) s'.ctx.tail := by
    intro L0 s' v hst hv
    cases hr : escalate (f (pushContext s c).1).2 with
    | error err => rw [hr] at hv; cases hv
    | ok w =>
      rw [hr] at hbe
      exact (finish_coh hb.ok.st (hbe.strong (hps hst) ⟨w, rfl⟩).coh hv).2
  generalize hfin : finish E (f (pushContext s c).1).1 (escalate (f (pushContext s c).1).2) = fin at he hpop
  obtain ⟨s2, r2⟩ := fin
  simp only
  clear hfin hbe hb hf
  rw [hpe] at he hp hps
  rw [hpe]
  simp only at he hp hps ⊢
  have hle := he.le
  -- the contexts
  have hctx := hle.ctx
  simp only at hctx
  have htop : topContract (c :: s.ctx) = some id := by unfold topContract; rw [List.filterMap_cons, hc.cid]; rfl
  obtain ⟨c2, cs2, hs2⟩ : ∃ c2 cs2, s2.ctx = c2 :: cs2 := by
    have := hctx.same
    generalize hx : s2.ctx = x at this
    cases this with | cons _ _ => exact ⟨_, _, rfl⟩
  have hrel : List.Forall₂ (CRel (some id)) s.ctx cs2 := by
    have := hctx.below
    rw [hs2, htop] at this
    exact this
  have hlen : cs2.length = s.ctx.length := hrel.length_eq.symm
  have hcle : CtxLe s.ctx cs2 := CtxLe.ofRel hrel (by
    rcases hc.scope with h | h
    · exact Or.inl h.symm
    · exact Or.inr h)
  have hauth : MLe (s.auth.push (.contract (.contract id) c.fn)) s2.auth := hle.auth
  have htr : shape (c :: s.ctx) ∈ s2.trace := hle.trace.subset List.mem_cons_self
  have htr' : s.trace <:+ s2.trace := (List.suffix_cons _ _).trans hle.trace
  have hnot : ∀ d s3, s3.trace = s2.trace → NotEntered d s s3 → d ≠ id ∧ NotEntered d { s with
      auth := s.auth.push (.contract (.contract id) c.fn), ctx := c :: s.ctx, trace := shape (c :: s.ctx) :: s.trace } s2 := by
    intro d s3 h3 hq
    have hq2 : NotEntered d s s2 := by obtain ⟨n, hn, hq⟩ := hq; exact ⟨n, by rw [← h3]; exact hn, hq⟩
    have hq3 := notEntered_split (b := { s with
      auth := s.auth.push (.contract (.contract id) c.fn), ctx := c :: s.ctx, trace := shape (c :: s.ctx) :: s.trace })
      (List.suffix_cons _ _) hle.trace hq2
    refine ⟨fun hd => ?_, hq3.2⟩
    obtain ⟨n, hn, hq⟩ := hq3.1
    have hn' : n = [shape (c :: s.ctx)] := List.append_cancel_right (bs := s.trace) (by rw [← hn]; rfl)
    refine hq (shape (c :: s.ctx)) (by rw [hn']; exact List.mem_cons_self) c.fn ?_
    unfold shape; rw [List.map_cons, hc.cid, hd]; rfl
  cases r2 with
  | ok v =>
    simp only [rollbackIf, popContext, hs2, Mgr.pop]
    rw [if_neg (by simp [hlen])]
    have hm := MLe.popped hs.mwf he.ok.mwf hauth
    have hiso : ∀ d, NotEntered d s { s2 with ctx := cs2, auth := s2.auth.popOnly } → topContract s.ctx ≠ some d →
        Kept d (ledger E s.st) (ledger E s2.st) := by
      intro d hq _
      obtain ⟨hd, hq⟩ := hnot d _ rfl hq
      exact hle.iso d hq (by rw [htop]; intro he; cases he; exact hd rfl)
    refine ⟨⟨⟨hle.st, hm.1, hcle, htr', hle.events, hiso⟩, ?_, ?_, ?_⟩, fun e h => (by cases h), hrel, fun _ _ => htr⟩
    · exact HLe.hok hs ⟨hle.st, hm.1, hcle, htr', hle.events, hiso⟩ hm.2 (hs.uok.popped hauth he.ok.uok) he.ok.trace
        (fun t ht hl => absurd (MLe.poppedLive hs.mwf he.ok.mwf hauth t ht) (by rw [hl]; decide))
    · intro L0 hst _
      exact popOnly_strong (he.strong (hps hst) ⟨v, rfl⟩) cs2 (by have := hpop hst rfl; rw [hs2] at this; exact this)
    · intro hfa
      rcases he.fatal hfa with h1 | ⟨e, h1, _⟩
      · exact Or.inl h1
      · cases h1
  | error err =>
    have hroll := MLe.rolledBack hs.mwf he.ok.mwf hauth
    simp only [rollbackIf, popContext, hs2]
    rw [hroll]
    simp only
    rw [if_neg (by simp [hlen])]
    have hmle : MLe s.auth (Mgr.mk s.auth.accts (s.auth.invokers.filter Invoker.live) s.auth.stack s.auth.uses s.auth.ids s2.auth.next) := by
      refine ⟨rfl, rfl, ?_, forall₂_refl ALe.refl _, ?_, List.suffix_refl _⟩
      · have := hauth.next; simp only [Mgr.push] at this ⊢; omega
      · simp only [List.filter_filter, Bool.and_self]; exact forall₂_refl ILe.refl _
    have hmode : s2.st.mode = s.st.mode := hle.st.mode
    have hstok : StOk E { s2.st with map := s.st.map } := by
      refine ⟨hs.st.keys, by simp only [hmode]; exact hs.st.mode, ?_⟩
      simp only [hmode]
      exact hs.st.map.mono (fun h => hle.st.fpE h)
    have hled : ledger E { s2.st with map := s.st.map } = ledger E s.st := by
      unfold ledger; simp only [hmode]
    have hsle : SLe E s.st { s2.st with map := s.st.map } :=
      ⟨hmode, hstok, hle.st.fp, hle.st.fpE, by rw [hled]; exact LLe.refl _, by rw [hled]; exact Allowed.refl _ _⟩
    have hev := rollbackEvents_eq (show s.events <+: s2.events from hle.events)
    have hrb : RolledBack E s (Host.mk { s2.st with map := s.st.map } (rollbackEvents s2.events s.events.length)
        (Mgr.mk s.auth.accts (s.auth.invokers.filter Invoker.live) s.auth.stack s.auth.uses s.auth.ids s2.auth.next) cs2 s2.trace s2.fatal) := by
      refine ⟨hled, fun hen => ?_, hev.2, rfl, rfl, rfl, ?_⟩
      · have hfp := hle.st.fpE hen
        have h1 : s2.st.mode = s.st.mode := hmode
        simp only at hfp ⊢
        rw [hfp, h1]
      · simp only [List.filter_filter, Bool.and_self]
    have hhle : HLe E s (Host.mk { s2.st with map := s.st.map } (rollbackEvents s2.events s.events.length)
        (Mgr.mk s.auth.accts (s.auth.invokers.filter Invoker.live) s.auth.stack s.auth.uses s.auth.ids s2.auth.next) cs2 s2.trace s2.fatal) :=
      ⟨hsle, hmle, hcle, htr', hev.1, fun d _ _ => by rw [hled]; exact keptRefl d _⟩
    refine ⟨⟨hhle, HLe.hok hs hhle ?_ (hs.uok.congr rfl rfl rfl hmle.next) he.ok.trace
      (fun t ht => hs.scope t (List.mem_of_mem_filter ht)), fun _ h => ?_, ?_⟩, fun e _ => hrb, hrel, fun v h => by cases h⟩
    · refine ⟨hs.mwf.accts, fun t ht => hs.mwf.invokers t (List.mem_of_mem_filter ht), ?_, hs.mwf.idlen⟩
      unfold Split
      simp only [List.filter_filter, Bool.and_self]
      have : (s.auth.invokers.filter (fun t => !t.live && t.live)) = [] := by
        rw [List.filter_eq_nil_iff]; intro x _; cases x.live <;> simp
      rw [this]; simp
    · obtain ⟨v, hv⟩ := h; cases hv
    · intro hfa; exact he.fatal hfa

end Soroban.Host
