import Verif.Spec.RecordingFail
import Verif.Lemmas.RecordingRun
import Verif.Lemmas.HostAuth
/-! Calls that fail in recording mode and in enforcing mode (C57). -/
namespace Soroban.Auth
open Soroban Soroban.Auth.Spec

/-- Without the ghosts. -/
def Mgr.core (m : Mgr) : Mgr := { m with uses := [], ids := [], next := 0 }

/-- The manager after a call that failed. -/
def Mgr.restored (m : Mgr) (n : Nat) : Mgr := Mgr.mk m.accts (m.invokers.filter Invoker.live) m.stack m.uses m.ids n

theorem MWF.restored {m : Mgr} (h : MWF m) {n : Nat} : MWF (m.restored n) := by
  refine ⟨h.accts, fun t ht => h.invokers t (List.mem_of_mem_filter ht), ?_, h.idlen⟩
  show Split (m.invokers.filter Invoker.live)
  unfold Split
  rw [List.filter_filter]
  have : (m.invokers.filter Invoker.live).filter (fun t => !t.live) = [] := by
    rw [List.filter_eq_nil_iff]
    intro t ht
    simp [List.of_mem_filter ht]
  simp [this]

theorem MLe.restored {m m2 : Mgr} {f : Frame} (h : MLe (m.push f) m2) : MLe m (m.restored m2.next) := by
  refine ⟨rfl, rfl, Nat.le_trans (Nat.le_succ _) h.next, forall₂_refl ALe.refl _, ?_, List.suffix_refl _⟩
  show List.Forall₂ ILe (m.invokers.filter Invoker.live) ((m.invokers.filter Invoker.live).filter Invoker.live)
  rw [List.filter_filter]
  simp only [Bool.and_self]
  exact forall₂_refl ILe.refl _

theorem Tracker.push_pop {t : Tracker} (h : TWF t) : t.push.pop = t := by
  obtain ⟨root, stack, rootFrame, fully⟩ := t
  simp only [Tracker.push, Tracker.pop, List.tail_cons]
  cases rootFrame with
  | none => rfl
  | some f =>
    have := h.frame f rfl
    cases fully with
    | true => simp
    | false =>
      have h1 : f < stack.length := this rfl
      simp [Nat.not_le.mpr h1]

theorem Acct.push_pop {t : Acct} (h : TWF t.tr) : t.push.pop = t := by
  obtain ⟨addr, tr, source, verified, nonce, borrowed⟩ := t
  unfold Acct.push Acct.pop
  cases borrowed with
  | true => simp
  | false => simp [Tracker.push_pop h]

theorem map_id_of {α : Type} {g : α → α} {l : List α} (h : ∀ t ∈ l, g t = t) : l.map g = l := by
  conv => rhs; rw [← List.map_id l]
  exact List.map_congr_left h

/-- A call that does nothing. -/
theorem push_popOnly {m : Mgr} (hw : MWF m) (f : Frame) : (m.push f).popOnly = m.restored (m.next + 1) := by
  obtain ⟨n, z, hnz, hn, hz⟩ := split_elim hw.split
  have h1 : (m.accts.map Acct.push).map Acct.pop = m.accts := by
    rw [List.map_map]
    exact map_id_of (fun t ht => Acct.push_pop (hw.accts t ht))
  have h2 : (m.invokers.map Invoker.push).map Invoker.pop = m.invokers := by
    rw [List.map_map]
    refine map_id_of (fun t ht => ?_)
    obtain ⟨a, tr⟩ := t
    show Invoker.mk a tr.push.pop = _
    rw [Tracker.push_pop (hw.invokers _ ht)]
  unfold Mgr.popOnly Mgr.push Mgr.restored
  dsimp only
  rw [h1, h2, hnz, dropOutOfScope_append hn hz, (split_of_append hn hz).1]
  rfl

/-- A mode whose states have a manager in them, with an invariant and an equivalence of states. -/
structure Lawful {σ : Type} (M : Mode σ) (pr : σ → Mgr) (Ok : σ → Prop) (E : σ → σ → Prop) : Prop where
  mwf : ∀ s, Ok s → MWF (pr s)
  push : ∀ s f, Ok s → ∃ s', M.step s (.push f) = .ok s' ∧ pr s' = (pr s).push f ∧ Ok s'
  pop : ∀ s s', M.step s .pop = .ok s' → Ok s → pr s' = (pr s).popOnly ∧ (MWF (pr s') → Ok s')
  popOk : ∀ s, (pr s).stack ≠ [] → ∃ s', M.step s .pop = .ok s'
  other : ∀ s s' e, (∀ f, e ≠ .push f) → e ≠ .pop → M.step s e = .ok s' → Ok s → MLe (pr s) (pr s') ∧ Ok s'
  undo : ∀ s s1 s2 f, M.step s (.push f) = .ok s1 → Ok s → Ok s2 → MLe (pr s1) (pr s2) →
    ∃ s3, M.undo s1 s2 = .ok s3 ∧ pr s3 = (pr s).restored (pr s2).next ∧ Ok s3 ∧
      ∃ s4, M.step s1 .pop = .ok s4 ∧ E s3 s4
  cong : ∀ s t e s', E s t → M.step s e = .ok s' → ∃ t', M.step t e = .ok t' ∧ E s' t'
  refl : ∀ s, E s s
  symm : ∀ s t, E s t → E t s
  trans : ∀ s t u, E s t → E t u → E s u

section
variable {σ : Type} {M : Mode σ} {pr : σ → Mgr} {Ok : σ → Prop} {E : σ → σ → Prop}

mutual
theorem Lawful.act (L : Lawful M pr Ok E) : ∀ (a : Act) (s : σ), Ok s → MLe (pr s) (pr (M.act a s).1) ∧ Ok (M.act a s).1
  | .require h args, s, hw => by
    rw [Mode.act]
    cases hs : M.step s (.require h args) with
    | error e => exact ⟨MLe.refl _, hw⟩
    | ok s' => exact L.other s s' _ (fun f => by simp) (by simp) hs hw
  | .authAs es, s, hw => by
    rw [Mode.act]
    cases hs : M.step s (.authAs es) with
    | error e => exact ⟨MLe.refl _, hw⟩
    | ok s' => exact L.other s s' _ (fun f => by simp) (by simp) hs hw
  | .call f body, s, hw => by
    obtain ⟨s1, hs1, hp, ho⟩ := L.push s f hw
    have hb := L.acts body s1 ho
    rw [Mode.act, hs1]
    dsimp only
    cases hr : M.acts body s1 with
    | mk s2 b =>
      rw [hr] at hb
      dsimp only at hb
      have hle : MLe ((pr s).push f) (pr s2) := by rw [← hp]; exact hb.1
      cases b with
      | true =>
        dsimp only
        cases hs3 : M.step s2 .pop with
        | ok s3 =>
          dsimp only
          have hpop := hle.popped (L.mwf s hw) (L.mwf s2 hb.2)
          obtain ⟨h1, h2⟩ := L.pop s2 s3 hs3 hb.2
          rw [← h1] at hpop
          exact ⟨hpop.1, h2 hpop.2⟩
        | error e =>
          obtain ⟨s3, h3⟩ := L.popOk s2 (by rw [hle.stack]; simp [Mgr.push])
          rw [h3] at hs3; cases hs3
      | false =>
        dsimp only
        obtain ⟨s3, h3, h4, h5, _⟩ := L.undo s s1 s2 f hs1 hw hb.2 hb.1
        rw [h3]
        dsimp only
        rw [h4]
        exact ⟨hle.restored, h5⟩
  | .failed f body, s, hw => by
    obtain ⟨s1, hs1, hp, ho⟩ := L.push s f hw
    have hb := L.acts body s1 ho
    rw [Mode.act, hs1]
    dsimp only
    have hle : MLe ((pr s).push f) (pr (M.acts body s1).1) := by rw [← hp]; exact hb.1
    obtain ⟨s3, h3, h4, h5, _⟩ := L.undo s s1 _ f hs1 hw hb.2 hb.1
    rw [h3]
    dsimp only
    rw [h4]
    exact ⟨hle.restored, h5⟩
theorem Lawful.acts (L : Lawful M pr Ok E) : ∀ (as : List Act) (s : σ), Ok s → MLe (pr s) (pr (M.acts as s).1) ∧ Ok (M.acts as s).1
  | [], s, hw => by rw [Mode.acts]; exact ⟨MLe.refl _, hw⟩
  | a :: as, s, hw => by
    have ha := L.act a s hw
    rw [Mode.acts]
    cases hr : M.act a s with
    | mk s1 b =>
      rw [hr] at ha
      cases b with
      | false => exact ha
      | true =>
        have := L.acts as s1 ha.2
        exact ⟨ha.1.trans this.1, this.2⟩
end

theorem runAll_append {ε : Type} {step : σ → ε → Res σ} : ∀ (l l' : List ε) (s : σ), runAll step (l ++ l') s =
    match runAll step l s with
    | .ok s' => runAll step l' s'
    | .error e => .error e
  | [], l', s => rfl
  | e :: l, l', s => by
    simp only [List.cons_append, runAll]
    cases step s e with
    | error e => rfl
    | ok s' => exact runAll_append l l' s'

theorem Lawful.congRun (L : Lawful M pr Ok E) : ∀ (es : List Ev) (s t s' : σ), E s t → runAll M.step es s = .ok s' →
    ∃ t', runAll M.step es t = .ok t' ∧ E s' t'
  | [], s, t, s', h, hr => by cases hr; exact ⟨t, rfl, h⟩
  | e :: es, s, t, s', h, hr => by
    rw [runAll] at hr ⊢
    cases hs : M.step s e with
    | error e => rw [hs] at hr; cases hr
    | ok s1 =>
      rw [hs] at hr
      obtain ⟨t1, h1, h2⟩ := L.cong s t e s1 h hs
      rw [h1]
      exact L.congRun es s1 t1 s' h2 hr

mutual
/-- Calls that fail have no effect: the steps are those without them. -/
theorem Lawful.flatAct (L : Lawful M pr Ok E) : ∀ (a : Act) (s s' : σ), Ok s → M.act a s = (s', true) →
    ∃ t, runAll M.step (flat a) s = .ok t ∧ E s' t
  | .require h args, s, s', hw, ha => by
    rw [Mode.act] at ha
    cases hs : M.step s (.require h args) with
    | error e => rw [hs] at ha; cases ha
    | ok s1 => rw [hs] at ha; cases ha; exact ⟨s', by simp [flat, runAll, hs], L.refl _⟩
  | .authAs es, s, s', hw, ha => by
    rw [Mode.act] at ha
    cases hs : M.step s (.authAs es) with
    | error e => rw [hs] at ha; cases ha
    | ok s1 => rw [hs] at ha; cases ha; exact ⟨s', by simp [flat, runAll, hs], L.refl _⟩
  | .call f body, s, s', hw, ha => by
    obtain ⟨s1, hs1, hp, ho⟩ := L.push s f hw
    rw [Mode.act, hs1] at ha
    dsimp only at ha
    cases hr : M.acts body s1 with
    | mk s2 b =>
      rw [hr] at ha
      cases b with
      | true =>
        dsimp only at ha
        cases hs3 : M.step s2 .pop with
        | error e => rw [hs3] at ha; cases ha
        | ok s3 =>
          rw [hs3] at ha
          cases ha
          obtain ⟨t2, h2, h3⟩ := L.flatActs body s1 s2 ho hr
          obtain ⟨t3, h4, h5⟩ := L.cong s2 t2 .pop s' h3 hs3
          refine ⟨t3, ?_, h5⟩
          simp only [flat, runAll, hs1]
          rw [runAll_append, h2]
          simp only [runAll, h4]
      | false =>
        dsimp only at ha
        cases hu : M.undo s1 s2 with
        | error e => rw [hu] at ha; cases ha
        | ok s3 => rw [hu] at ha; cases ha
  | .failed f body, s, s', hw, ha => by
    obtain ⟨s1, hs1, hp, ho⟩ := L.push s f hw
    have hb := L.acts body s1 ho
    obtain ⟨s3, h3, h4, h5, s4, h6, h7⟩ := L.undo s s1 _ f hs1 hw hb.2 hb.1
    rw [Mode.act, hs1] at ha
    dsimp only at ha
    rw [h3] at ha
    cases ha
    exact ⟨s4, by simp [flat, runAll, hs1, h6], h7⟩
theorem Lawful.flatActs (L : Lawful M pr Ok E) : ∀ (as : List Act) (s s' : σ), Ok s → M.acts as s = (s', true) →
    ∃ t, runAll M.step (flats as) s = .ok t ∧ E s' t
  | [], s, s', hw, ha => by
    rw [Mode.acts] at ha; cases ha
    exact ⟨s, rfl, L.refl s⟩
  | a :: as, s, s', hw, ha => by
    have hok := L.act a s hw
    rw [Mode.acts] at ha
    cases hr : M.act a s with
    | mk s1 b =>
      rw [hr] at ha hok
      cases b with
      | false => cases ha
      | true =>
        obtain ⟨t1, h1, h2⟩ := L.flatAct a s s1 hw hr
        obtain ⟨t2, h3, h4⟩ := L.flatActs as s1 s' hok.2 ha
        obtain ⟨t3, h5, h6⟩ := L.congRun (flats as) s1 t1 t2 h2 h3
        exact ⟨t3, by rw [flats, runAll_append, h1]; exact h5, L.trans _ _ _ h4 h6⟩
end

mutual
/-- If the steps without the calls that fail can be taken, then so can those with them. -/
theorem Lawful.actFlat (L : Lawful M pr Ok E) : ∀ (a : Act) (s t : σ), Ok s → runAll M.step (flat a) s = .ok t →
    ∃ s', M.act a s = (s', true) ∧ E s' t
  | .require h args, s, t, hw, ha => by
    simp only [flat, runAll] at ha
    rw [Mode.act]
    cases hs : M.step s (.require h args) with
    | error e => rw [hs] at ha; cases ha
    | ok s1 => rw [hs] at ha; cases ha; exact ⟨t, rfl, L.refl _⟩
  | .authAs es, s, t, hw, ha => by
    simp only [flat, runAll] at ha
    rw [Mode.act]
    cases hs : M.step s (.authAs es) with
    | error e => rw [hs] at ha; cases ha
    | ok s1 => rw [hs] at ha; cases ha; exact ⟨t, rfl, L.refl _⟩
  | .call f body, s, t, hw, ha => by
    obtain ⟨s1, hs1, hp, ho⟩ := L.push s f hw
    simp only [flat, runAll, hs1] at ha
    rw [runAll_append] at ha
    cases hr : runAll M.step (flats body) s1 with
    | error e => rw [hr] at ha; cases ha
    | ok t2 =>
      rw [hr] at ha
      simp only [runAll] at ha
      obtain ⟨s2, h2, h3⟩ := L.actsFlat body s1 t2 ho hr
      cases hs3 : M.step t2 .pop with
      | error e => rw [hs3] at ha; cases ha
      | ok t3 =>
        rw [hs3] at ha
        cases ha
        obtain ⟨s3, h4, h5⟩ := L.cong t2 s2 .pop t (L.symm _ _ h3) hs3
        refine ⟨s3, ?_, L.symm _ _ h5⟩
        rw [Mode.act, hs1]
        dsimp only
        rw [h2]
        dsimp only
        rw [h4]
  | .failed f body, s, t, hw, ha => by
    obtain ⟨s1, hs1, hp, ho⟩ := L.push s f hw
    have hb := L.acts body s1 ho
    obtain ⟨s3, h3, h4, h5, s4, h6, h7⟩ := L.undo s s1 _ f hs1 hw hb.2 hb.1
    simp only [flat, runAll, hs1, h6] at ha
    cases ha
    refine ⟨s3, ?_, h7⟩
    rw [Mode.act, hs1]
    dsimp only
    rw [h3]
theorem Lawful.actsFlat (L : Lawful M pr Ok E) : ∀ (as : List Act) (s t : σ), Ok s → runAll M.step (flats as) s = .ok t →
    ∃ s', M.acts as s = (s', true) ∧ E s' t
  | [], s, t, hw, ha => by
    cases ha
    exact ⟨s, by rw [Mode.acts], L.refl s⟩
  | a :: as, s, t, hw, ha => by
    rw [flats, runAll_append] at ha
    cases hr : runAll M.step (flat a) s with
    | error e => rw [hr] at ha; cases ha
    | ok t1 =>
      rw [hr] at ha
      obtain ⟨s1, h1, h2⟩ := L.actFlat a s t1 hw hr
      have hok := L.act a s hw
      rw [h1] at hok
      obtain ⟨t2, h3, h4⟩ := L.congRun (flats as) t1 s1 t (L.symm _ _ h2) ha
      obtain ⟨s', h5, h6⟩ := L.actsFlat as s1 t2 hok.2 h3
      exact ⟨s', by rw [Mode.acts, h1]; exact h5, L.trans _ _ _ h6 (L.symm _ _ h4)⟩
end
end

/-! ### the trackers of contract authorizations -/

theorem invokerCheck_spec {m : Mgr} (hw : MWF m) {a : Addr} {f : AuthFn} {ts : List Invoker} {r : Res Bool}
    (h : invokerCheck m.stack m.invokers a f = (ts, r)) : MLe m { m with invokers := ts } ∧ MWF { m with invokers := ts } := by
  have key : List.Forall₂ ILe m.invokers ts ∧ ∀ t ∈ ts, TWF t.tr := by
    unfold invokerCheck at h
    split at h
    · rename_i top below rest heq
      split at h
      · cases h; exact ⟨forall₂_refl ILe.refl _, hw.invokers⟩
      · have := Host.invokerLoop_spec top.contract? a f m.invokers hw.invokers
        rw [h] at this
        exact this
    · cases h; exact ⟨forall₂_refl ILe.refl _, hw.invokers⟩
  exact ⟨⟨rfl, rfl, Nat.le_refl _, forall₂_refl ALe.refl _, Host.forall₂_live key.1, List.suffix_refl _⟩,
    ⟨hw.accts, key.2, Host.split_of_ile key.1 hw.split, hw.idlen⟩⟩

theorem addInvoker_spec {m : Mgr} (hw : MWF m) (a : Addr) (es : List Inv) : MLe m (m.addInvoker a es) ∧ MWF (m.addInvoker a es) := by
  have hdead : ∀ t ∈ es.map (fun i => ({ addr := a, tr := Tracker.new i } : Invoker)), t.live = false := by
    intro t ht
    simp only [List.mem_map] at ht
    obtain ⟨i, _, rfl⟩ := ht
    rfl
  have hfil : (m.invokers ++ es.map (fun i => ({ addr := a, tr := Tracker.new i } : Invoker))).filter Invoker.live =
      m.invokers.filter Invoker.live := by
    rw [List.filter_append]
    have : (es.map (fun i => ({ addr := a, tr := Tracker.new i } : Invoker))).filter Invoker.live = [] := by
      rw [List.filter_eq_nil_iff]; intro x hx; rw [hdead x hx]; simp
    rw [this]; simp
  refine ⟨⟨rfl, rfl, Nat.le_refl _, forall₂_refl ALe.refl _, ?_, List.suffix_refl _⟩, ⟨hw.accts, ?_, ?_, hw.idlen⟩⟩
  · show List.Forall₂ ILe _ ((m.invokers ++ es.map (fun i => ({ addr := a, tr := Tracker.new i } : Invoker))).filter Invoker.live)
    rw [hfil]; exact forall₂_refl ILe.refl _
  · intro t ht
    rcases List.mem_append.mp ht with ht | ht
    · exact hw.invokers t ht
    · simp only [List.mem_map] at ht
      obtain ⟨i, _, rfl⟩ := ht
      exact TWF.new i
  · obtain ⟨n, z, hnz, hn, hz⟩ := split_elim hw.split
    show Split (m.invokers ++ es.map (fun i => ({ addr := a, tr := Tracker.new i } : Invoker)))
    rw [hnz, List.append_assoc]
    refine (split_of_append hn (fun t ht => ?_)).2.2
    rcases List.mem_append.mp ht with ht | ht
    · exact hz t ht
    · exact hdead t ht

theorem MLe.invokersBack {m m2 : Mgr} {f : Frame} (hw : MWF m) (hw2 : MWF m2) (h : MLe (m.push f) m2) :
    ¬ m2.invokers.length < m.invokers.length ∧ ∃ ts3, rollbackInvokers (m2.invokers.take m.invokers.length)
      ((m.invokers.map Invoker.push).map (fun t => t.tr.root.snapshot)) = .ok ts3 ∧ ts3.map Invoker.pop = m.invokers := by
  have hinv := h.invokers
  simp only [Mgr.push] at hinv
  rw [filter_live_push] at hinv
  have hpre : m2.invokers = m2.invokers.filter Invoker.live ++ m2.invokers.filter (fun t => !t.live) := hw2.split
  have hlen2 : m.invokers.length = (m2.invokers.filter Invoker.live).length := by
    rw [← hinv.length_eq, List.length_map]
  have htake : m2.invokers.take m.invokers.length = m2.invokers.filter Invoker.live := by
    rw [hlen2]
    conv_lhs => rw [hpre]
    simp
  obtain ⟨ts3, h5, h6⟩ := rollbackInvokers_spec hw.invokers (forall₂_map_left hinv)
  refine ⟨?_, ts3, by rw [htake]; exact h5, h6⟩
  rw [hlen2]
  exact Nat.not_lt.mpr (List.length_filter_le _ _)

theorem drop_live {m : Mgr} (hw : MWF m) : dropOutOfScope m.invokers = m.invokers.filter Invoker.live := by
  obtain ⟨n, z, hnz, hn, hz⟩ := split_elim hw.split
  rw [hnz, dropOutOfScope_append hn hz, (split_of_append hn hz).1]

/-! ### enforcing mode -/

theorem core_eq {m m' : Mgr} (h : m.core = m'.core) : m.accts = m'.accts ∧ m.invokers = m'.invokers ∧ m.stack = m'.stack := by
  unfold Mgr.core at h
  simp only [Mgr.mk.injEq] at h
  exact ⟨h.1, h.2.1, h.2.2.1⟩

theorem core_of {m m' : Mgr} (h1 : m.accts = m'.accts) (h2 : m.invokers = m'.invokers) (h3 : m.stack = m'.stack) : m.core = m'.core := by
  unfold Mgr.core
  rw [h1, h2, h3]

theorem restored_core (m : Mgr) (n k : Nat) : (m.restored n).core = (m.restored k).core := rfl

theorem enforce_cong {m m' : Mgr} (h : m.core = m'.core) {x : Nat} {a : Addr} {f : AuthFn} {m1 : Mgr}
    (he : m.enforce x a f = .ok m1) : ∃ m2, m'.enforce x a f = .ok m2 ∧ m1.core = m2.core := by
  obtain ⟨h1, h2, h3⟩ := core_eq h
  unfold Mgr.enforce at he ⊢
  have ha : m.hasActive a = m'.hasActive a := by unfold Mgr.hasActive; rw [h1]
  rw [← ha, ← h1]
  cases hl : acctLoop a f (!m.hasActive a) m.accts 0 with
  | error e => rw [hl] at he; cases he
  | ok o =>
    rw [hl] at he
    cases o with
    | none => cases he
    | some q =>
      obtain ⟨i, tr, p⟩ := q
      cases he
      exact ⟨_, rfl, core_of (by simp only [Mgr.recordMatch, Mgr.setAcct, h1]) h2 h3⟩

theorem enforce_spec {m m1 : Mgr} (hw : MWF m) {x : Nat} {a : Addr} {f : AuthFn} (he : m.enforce x a f = .ok m1) :
    MLe m m1 ∧ MWF m1 := by
  unfold Mgr.enforce at he
  cases hl : acctLoop a f (!m.hasActive a) m.accts 0 with
  | error e => rw [hl] at he; cases he
  | ok o =>
    rw [hl] at he
    cases o with
    | none => cases he
    | some q =>
      obtain ⟨i, tr, p⟩ := q
      cases he
      obtain ⟨j, t, hij, ht, hb, hta, hext⟩ := Host.acctLoop_spec hl
      rw [Nat.zero_add] at hij
      subst hij
      have htw := hext.tle (hw.accts t (List.mem_of_getElem? ht))
      simp only [Mgr.recordMatch, Mgr.setAcct, List.modify_modify_eq]
      refine ⟨⟨rfl, rfl, Nat.le_refl _, forall₂_modify ALe.refl _ _ _ ?_, forall₂_refl ILe.refl _, List.suffix_cons _ _⟩,
        ⟨?_, hw.invokers, hw.split, hw.idlen⟩⟩
      · intro b hb'
        rw [ht] at hb'
        cases hb'
        exact ⟨rfl, rfl, rfl, hb.symm, fun _ => rfl, htw.2, fun hbt => by rw [hb] at hbt; cases hbt⟩
      · intro b hb'
        obtain ⟨k, hk⟩ := List.getElem?_of_mem hb'
        dsimp only at hk
        rw [List.getElem?_modify] at hk
        cases hc : m.accts[k]? with
        | none => rw [hc] at hk; cases hk
        | some c =>
          rw [hc] at hk
          simp only [Option.map_eq_map, Option.map_some, Option.some.injEq] at hk
          by_cases hik : i = k
          · rw [if_pos hik] at hk
            rw [← hk]
            exact htw.1
          · rw [if_neg hik] at hk
            rw [← hk]
            exact hw.accts c (List.mem_of_getElem? hc)

theorem enf_lawful (addrOf : Nat → Addr) : Lawful (enfMode addrOf) id MWF (fun s t => s.core = t.core) where
  mwf := fun _ h => h
  push := fun s f h => ⟨s.push f, rfl, rfl, h.push f⟩
  pop := by
    intro s s' h _
    simp only [enfMode, Mgr.enforceStep, Mgr.step, id] at h
    cases hs : s.stack with
    | nil => rw [hs] at h; cases h
    | cons fr rest => rw [hs] at h; cases h; exact ⟨rfl, id⟩
  popOk := by
    intro s h
    obtain ⟨fr, rest, hs⟩ := List.exists_cons_of_ne_nil h
    simp only [id] at hs
    exact ⟨s.popOnly, by simp only [enfMode, Mgr.enforceStep, Mgr.step, id]; rw [hs]⟩
  other := by
    intro s s' e h1 h2 h hw
    simp only [enfMode, Mgr.enforceStep] at h
    cases e with
    | push f => exact absurd rfl (h1 f)
    | pop => exact absurd rfl h2
    | authAs es =>
      simp only [Mgr.step, id] at h
      cases hs : s.stack with
      | nil => rw [hs] at h; cases h
      | cons fr rest =>
        rw [hs] at h
        cases fr with
        | contract self fn => cases h; exact addInvoker_spec hw self es
        | create c => cases h
    | require x args =>
      simp only [Mgr.step, id] at h
      cases hs : s.stack with
      | nil => rw [hs] at h; cases h
      | cons fr rest =>
        rw [hs] at h
        dsimp only at h
        rw [checkInvoker_eq] at h
        cases hc : invokerCheck s.stack s.invokers (addrOf x) (fr.toFn args) with
        | mk ts res =>
          rw [hc] at h
          have hi := invokerCheck_spec hw hc
          cases res with
          | error e => cases h
          | ok b =>
            cases b with
            | true => cases h; exact hi
            | false =>
              dsimp only at h
              have := enforce_spec hi.2 h
              exact ⟨hi.1.trans this.1, this.2⟩
  undo := by
    intro s s1 s2 f h hw hw2 hle
    cases h
    have := MLe.rolledBack hw hw2 hle
    refine ⟨s.restored s2.next, ?_, rfl, hw.restored, (s.push f).popOnly, rfl, ?_⟩
    · show (match s2.pop (some (s.push f).snapshot) with
        | (m, .ok ()) => (.ok m : Res Mgr)
        | (_, .error e) => .error e) = _
      rw [this]
      rfl
    · rw [push_popOnly hw]; rfl
  cong := by
    intro s t e s' h hs
    obtain ⟨h1, h2, h3⟩ := core_eq h
    simp only [enfMode, Mgr.enforceStep] at hs ⊢
    cases e with
    | push f =>
      cases hs
      exact ⟨_, rfl, core_of (by simp only [Mgr.push, id, h1]) (by simp only [Mgr.push, id, h2]) (by simp only [Mgr.push, id, h3])⟩
    | pop =>
      simp only [Mgr.step, id] at hs ⊢
      rw [← h3]
      cases hst : s.stack with
      | nil => rw [hst] at hs; cases hs
      | cons fr rest =>
        rw [hst] at hs
        cases hs
        refine ⟨_, rfl, ?_⟩
        have hst' : t.stack = fr :: rest := by rw [← h3, hst]
        rw [popOnly_cons (by rw [hst]; simp), popOnly_cons (by rw [hst']; simp)]
        exact core_of (by dsimp only; rw [h1]) (by dsimp only; rw [h2]) (by dsimp only; rw [h3])
    | authAs es =>
      simp only [Mgr.step, id] at hs ⊢
      rw [← h3]
      cases hst : s.stack with
      | nil => rw [hst] at hs; cases hs
      | cons fr rest =>
        rw [hst] at hs
        cases fr with
        | contract self fn => cases hs; exact ⟨_, rfl, core_of h1 (by simp only [Mgr.addInvoker, h2]) h3⟩
        | create c => cases hs
    | require x args =>
      simp only [Mgr.step, id] at hs ⊢
      rw [← h3]
      cases hst : s.stack with
      | nil => rw [hst] at hs; cases hs
      | cons fr rest =>
        rw [hst] at hs
        dsimp only at hs ⊢
        rw [checkInvoker_eq] at hs ⊢
        rw [← h3, ← h2]
        cases hc : invokerCheck s.stack s.invokers (addrOf x) (fr.toFn args) with
        | mk ts res =>
          rw [hc] at hs
          cases res with
          | error e => cases hs
          | ok b =>
            cases b with
            | true => cases hs; exact ⟨_, rfl, core_of h1 rfl rfl⟩
            | false =>
              dsimp only at hs ⊢
              refine enforce_cong ?_ hs
              exact core_of h1 rfl rfl
  refl := fun _ => rfl
  symm := fun _ _ h => h.symm
  trans := fun _ _ _ h h' => h.trans h'

/-! ### recording mode -/

/-- The part of the manager that recording does not change. -/
def Rec.pr (r : Rec) : Mgr := { r.m with accts := [], uses := [] }

/-- What is always true in recording mode. -/
structure ROk (addrOf : Nat → Addr) (b : Bool) (r : Rec) : Prop where
  mwf : MWF r.pr
  inv : RInv addrOf r
  only : r.rootOnly = b

/-- The same but for the ghosts. -/
structure Rec.Same (r t : Rec) : Prop where
  m : r.m.core = t.m.core
  byHandle : r.byHandle = t.byHandle
  rootOnly : r.rootOnly = t.rootOnly

theorem accts_push_pop {addrOf : Nat → Addr} {r : Rec} (hv : RInv addrOf r) : (r.m.accts.map Acct.push).map Acct.pop = r.m.accts := by
  rw [List.map_map]
  refine map_id_of (fun t ht => ?_)
  obtain ⟨i, hi⟩ := List.mem_iff_getElem?.mp ht
  obtain ⟨h1, h2⟩ := hv.trackers i t hi
  simp only [Function.comp]
  rw [Acct.push_tr h2, Acct.pop_tr (by exact h2)]
  obtain ⟨addr, ⟨root, stack, rootFrame, fully⟩, source, verified, nonce, borrowed⟩ := t
  have hfl : (Tracker.push ⟨root, stack, rootFrame, fully⟩).pop = ⟨root, stack, rootFrame, fully⟩ := by
    rcases h1.state with ⟨h3, _⟩ | ⟨h3, above, k, h4, h5⟩
    · dsimp only at h3
      subst h3
      simp only [Tracker.push, Tracker.pop, List.tail_cons]
      cases rootFrame <;> simp
    · dsimp only at h3 h4 h5
      subst h3 h4 h5
      simp [Tracker.push, Tracker.pop]
      omega
  rw [hfl]

theorem recordIn_cong {r t : Rec} (h : r.Same t) {i : Nat} {u : Acct} {f : AuthFn} {r' : Rec} (hr : r.recordIn i u f = .ok r') :
    ∃ t', t.recordIn i u f = .ok t' ∧ r'.Same t' := by
  obtain ⟨h1, h2, h3⟩ := core_eq h.m
  unfold Rec.recordIn at hr ⊢
  cases hu : u.tr.record f with
  | error e => rw [hu] at hr; cases hr
  | ok tr =>
    rw [hu] at hr
    cases hr
    exact ⟨_, rfl, core_of (by simp only [Mgr.setAcct, h1]) h2 h3, h.byHandle, h.rootOnly⟩

theorem requireAny_cong {r t : Rec} (h : r.Same t) {x : Nat} {a : Addr} {f : AuthFn} {r' : Rec} (hr : r.requireAny x a f = .ok r') :
    ∃ t', t.requireAny x a f = .ok t' ∧ r'.Same t' := by
  obtain ⟨h1, h2, h3⟩ := core_eq h.m
  unfold Rec.requireAny at hr ⊢
  rw [← h1, ← h3, ← h.rootOnly, ← h.byHandle]
  cases hf : r.m.accts.findIdx? (Acct.takes a) with
  | some i =>
    rw [hf] at hr
    dsimp only at hr ⊢
    cases hi : r.m.accts[i]? with
    | none => rw [hi] at hr; cases hr
    | some u => rw [hi] at hr; exact recordIn_cong h hr
  | none =>
    rw [hf] at hr
    dsimp only at hr ⊢
    by_cases c1 : r.rootOnly = true ∧ r.m.stack.length ≠ 1
    · rw [if_pos c1] at hr; cases hr
    · rw [if_neg c1] at hr ⊢
      by_cases c2 : r.m.stack.length = 0
      · rw [if_pos c2] at hr; cases hr
      · rw [if_neg c2] at hr ⊢
        cases hr
        exact ⟨_, rfl, core_of rfl h2 h3, rfl, rfl⟩

theorem require_cong {r t : Rec} (h : r.Same t) {x : Nat} {a : Addr} {f : AuthFn} {r' : Rec} (hr : r.require x a f = .ok r') :
    ∃ t', t.require x a f = .ok t' ∧ r'.Same t' := by
  obtain ⟨h1, h2, h3⟩ := core_eq h.m
  unfold Rec.require at hr ⊢
  rw [← h1, ← h.byHandle]
  cases hb : r.byHandle x with
  | none => rw [hb] at hr; exact requireAny_cong h hr
  | some i =>
    rw [hb] at hr
    dsimp only at hr ⊢
    cases hi : r.m.accts[i]? with
    | none => rw [hi] at hr; cases hr
    | some u =>
      rw [hi] at hr
      dsimp only at hr ⊢
      by_cases c : u.tr.inStack = true
      · rw [if_pos c] at hr ⊢; exact recordIn_cong h hr
      · rw [if_neg c] at hr ⊢
        refine requireAny_cong ⟨?_, ?_, ?_⟩ hr
        · exact h.m
        · rfl
        · exact h.rootOnly

theorem recordIn_pr {r r' : Rec} {i : Nat} {t : Acct} {f : AuthFn} (h : r.recordIn i t f = .ok r') : r'.pr = r.pr := by
  unfold Rec.recordIn at h
  cases hu : t.tr.record f with
  | error e => rw [hu] at h; cases h
  | ok tr => rw [hu] at h; cases h; rfl

theorem requireAny_pr {r r' : Rec} {x : Nat} {a : Addr} {f : AuthFn} (hr : r.requireAny x a f = .ok r') : r'.pr = r.pr := by
  unfold Rec.requireAny at hr
  cases hf : r.m.accts.findIdx? (Acct.takes a) with
  | some i =>
    rw [hf] at hr
    dsimp only at hr
    cases hi : r.m.accts[i]? with
    | none => rw [hi] at hr; cases hr
    | some u => rw [hi] at hr; exact recordIn_pr hr
  | none =>
    rw [hf] at hr
    dsimp only at hr
    by_cases c1 : r.rootOnly = true ∧ r.m.stack.length ≠ 1
    · rw [if_pos c1] at hr; cases hr
    · rw [if_neg c1] at hr
      by_cases c2 : r.m.stack.length = 0
      · rw [if_pos c2] at hr; cases hr
      · rw [if_neg c2] at hr
        cases hr
        rfl

theorem require_pr {r r' : Rec} {x : Nat} {a : Addr} {f : AuthFn} (hr : r.require x a f = .ok r') : r'.pr = r.pr := by
  unfold Rec.require at hr
  cases hb : r.byHandle x with
  | none => rw [hb] at hr; exact requireAny_pr hr
  | some i =>
    rw [hb] at hr
    dsimp only at hr
    cases hi : r.m.accts[i]? with
    | none => rw [hi] at hr; cases hr
    | some u =>
      rw [hi] at hr
      dsimp only at hr
      by_cases c : u.tr.inStack = true
      · rw [if_pos c] at hr; exact recordIn_pr hr
      · rw [if_neg c] at hr; exact (requireAny_pr hr).trans rfl

theorem pr_popOnly {r : Rec} (h : r.m.stack ≠ []) : ({ r with m := r.m.popOnly } : Rec).pr = r.pr.popOnly := by
  rw [popOnly_cons h, popOnly_cons (by exact h)]
  rfl

theorem rec_undo {addrOf : Nat → Addr} {b : Bool} {s s2 : Rec} {f : Frame} (hw : ROk addrOf b s) (hw2 : ROk addrOf b s2)
    (hle : MLe (s.pr.push f) s2.pr) : ∃ s3 : Rec, s2.popFailed ({ s with m := s.m.push f } : Rec).snapshot = .ok s3 ∧
      s3.pr = s.pr.restored s2.pr.next ∧ ROk addrOf b s3 ∧ s3.Same { s with m := (s.m.push f).popOnly } := by
  obtain ⟨h1, ts3, h2, h3⟩ := hle.invokersBack hw.mwf hw2.mwf
  have hst : s2.m.stack = f :: s.m.stack := hle.stack
  have hids : s2.m.ids.tail = s.m.ids := by
    have : s2.m.ids = _ := hle.ids
    rw [this]; rfl
  have hlen : (({ s with m := s.m.push f } : Rec).snapshot).invokers.length = s.m.invokers.length := by
    simp [Rec.snapshot, Mgr.push]
  have hdrop : dropOutOfScope s.m.invokers = s.m.invokers.filter Invoker.live := by
    have := drop_live hw.mwf
    exact this
  have hm : ({ s2.m with accts := s.m.accts.map Acct.push, invokers := ts3 } : Mgr).popOnly =
      Mgr.mk s.m.accts (s.m.invokers.filter Invoker.live) s.m.stack s2.m.uses s.m.ids s2.m.next := by
    rw [popOnly_cons (by dsimp only; rw [hst]; simp)]
    dsimp only
    rw [accts_push_pop hw.inv, h3, hst, hids, ← hdrop]
    rfl
  refine ⟨{ s2 with m := Mgr.mk s.m.accts (s.m.invokers.filter Invoker.live) s.m.stack s2.m.uses s.m.ids s2.m.next,
                    byHandle := s.byHandle }, ?_, ?_, ?_, ?_⟩
  · unfold Rec.popFailed
    have h1' : ¬ s2.m.invokers.length < s.m.invokers.length := h1
    have h2' : rollbackInvokers (s2.m.invokers.take s.m.invokers.length)
      ({ s with m := s.m.push f } : Rec).snapshot.invokers = .ok ts3 := h2
    rw [hlen, if_neg h1', h2']
    dsimp only
    rw [← hm]
    rfl
  · rfl
  · exact ⟨hw.mwf.restored (n := s2.m.next), ⟨hw.inv.trackers, hw.inv.handles⟩, hw2.only⟩
  · have hpp : (s.m.push f).popOnly.accts = s.m.accts ∧ (s.m.push f).popOnly.invokers = s.m.invokers.filter Invoker.live ∧
        (s.m.push f).popOnly.stack = s.m.stack := by
      have h4 := push_popOnly hw.mwf f
      have h5 : s.pr.push f = ({ s with m := s.m.push f } : Rec).pr := rfl
      rw [h5, ← pr_popOnly (by simp [Mgr.push])] at h4
      have h6 := congrArg Mgr.invokers h4
      have h7 := congrArg Mgr.stack h4
      refine ⟨?_, h6, h7⟩
      rw [popOnly_cons (by simp [Mgr.push])]
      exact accts_push_pop hw.inv
    refine ⟨?_, rfl, hw2.only.trans hw.only.symm⟩
    exact core_of hpp.1.symm hpp.2.1.symm hpp.2.2.symm

theorem rec_lawful (addrOf : Nat → Addr) (b : Bool) : Lawful (recMode addrOf) Rec.pr (ROk addrOf b) Rec.Same where
  mwf := fun _ h => h.mwf
  push := fun s f h => ⟨{ s with m := s.m.push f }, rfl, rfl, h.mwf.push f, (h.inv.step (.push f)).1, h.only⟩
  pop := by
    intro s s' h hw
    have hst : Stepped addrOf s .pop s' := step_ok h
    cases hst with
    | pop hne => exact ⟨pr_popOnly hne, fun hm => ⟨hm, (hw.inv.step (.pop hne)).1, hw.only⟩⟩
  popOk := by
    intro s h
    obtain ⟨fr, rest, hs⟩ := List.exists_cons_of_ne_nil h
    have hs' : s.m.stack = fr :: rest := hs
    exact ⟨{ s with m := s.m.popOnly }, by simp only [recMode, Rec.step, Mgr.step]; rw [hs']⟩
  other := by
    intro s s' e h1 h2 h hw
    have hst : Stepped addrOf s e s' := step_ok h
    have hinv := (hw.inv.step hst).1
    cases hst with
    | push f => exact absurd rfl (h1 f)
    | pop hne => exact absurd rfl h2
    | authAs entries self fn rest hs =>
      have := addInvoker_spec hw.mwf self entries
      exact ⟨this.1, this.2, hinv, hw.only⟩
    | granted x args fr rest ts hs hc =>
      have := invokerCheck_spec hw.mwf hc
      exact ⟨this.1, this.2, hinv, hw.only⟩
    | asked x args fr rest ts r' hs hc hr =>
      have := invokerCheck_spec hw.mwf hc
      have hp := require_pr hr
      rw [hp]
      exact ⟨this.1, by rw [hp]; exact this.2, hinv, (rootOnly_require hr).trans hw.only⟩
  undo := by
    intro s s1 s2 f h hw hw2 hle
    cases h
    obtain ⟨s3, h1, h2, h3, h4⟩ := rec_undo (f := f) hw hw2 hle
    exact ⟨s3, h1, h2, h3, _, rfl, h4⟩
  cong := by
    intro s t e s' h hs
    obtain ⟨h1, h2, h3⟩ := core_eq h.m
    simp only [recMode, Rec.step] at hs ⊢
    cases e with
    | push f =>
      cases hs
      exact ⟨_, rfl, core_of (by simp only [Mgr.push, h1]) (by simp only [Mgr.push, h2]) (by simp only [Mgr.push, h3]), h.byHandle, h.rootOnly⟩
    | pop =>
      simp only [Mgr.step] at hs ⊢
      rw [← h3]
      cases hst : s.m.stack with
      | nil => rw [hst] at hs; cases hs
      | cons fr rest =>
        rw [hst] at hs
        cases hs
        refine ⟨_, rfl, ?_, h.byHandle, h.rootOnly⟩
        have hst' : t.m.stack = fr :: rest := by rw [← h3, hst]
        dsimp only
        rw [popOnly_cons (by rw [hst]; simp), popOnly_cons (by rw [hst']; simp)]
        exact core_of (by dsimp only; rw [h1]) (by dsimp only; rw [h2]) (by dsimp only; rw [h3])
    | authAs es =>
      simp only [Mgr.step] at hs ⊢
      rw [← h3]
      cases hst : s.m.stack with
      | nil => rw [hst] at hs; cases hs
      | cons fr rest =>
        rw [hst] at hs
        cases fr with
        | contract self fn => cases hs; exact ⟨_, rfl, core_of h1 (by simp only [Mgr.addInvoker, h2]) h3, h.byHandle, h.rootOnly⟩
        | create c => cases hs
    | require x args =>
      simp only [Mgr.step] at hs ⊢
      rw [← h3]
      cases hst : s.m.stack with
      | nil => rw [hst] at hs; cases hs
      | cons fr rest =>
        rw [hst] at hs
        dsimp only at hs ⊢
        rw [checkInvoker_eq] at hs ⊢
        rw [← h3, ← h2]
        cases hc : invokerCheck s.m.stack s.m.invokers (addrOf x) (fr.toFn args) with
        | mk ts res =>
          rw [hc] at hs
          cases res with
          | error e => cases hs
          | ok b =>
            cases b with
            | true => cases hs; exact ⟨_, rfl, core_of h1 rfl rfl, h.byHandle, h.rootOnly⟩
            | false =>
              dsimp only at hs ⊢
              refine require_cong ⟨?_, ?_, ?_⟩ hs
              · exact core_of h1 rfl rfl
              · exact h.byHandle
              · exact h.rootOnly
  refl := fun _ => ⟨rfl, rfl, rfl⟩
  symm := fun _ _ h => ⟨h.m.symm, h.byHandle.symm, h.rootOnly.symm⟩
  trans := fun _ _ _ h h' => ⟨h.m.trans h'.m, h.byHandle.trans h'.byHandle, h.rootOnly.trans h'.rootOnly⟩

/-- What is recorded is what would be recorded if calls that fail did nothing. -/
theorem recorded_flat {addrOf : Nat → Addr} {as : List Act} {b : Bool} {r : Rec} (h : (recMode addrOf).acts as (Rec.start b) = (r, true)) :
    ∃ r', Rec.run addrOf (flats as) b = .ok r' ∧ r.Same r' := by
  refine (rec_lawful addrOf b).flatActs as _ r ⟨⟨?_, ?_, rfl, rfl⟩, RInv.start addrOf b, rfl⟩ h
  · intro a ha; cases ha
  · intro a ha; cases ha

/-- What is authorized if calls that fail did nothing is authorized. -/
theorem enforced_flat {addrOf : Nat → Addr} {as : List Act} {accts : List Acct} (hw : ∀ t ∈ accts, TWF t.tr) {m : Mgr}
    (h : Mgr.run addrOf (flats as) accts = .ok m) : ∃ m', (enfMode addrOf).acts as (Mgr.start accts) = (m', true) ∧ m'.core = m.core :=
  (enf_lawful addrOf).actsFlat as _ m ⟨hw, (fun t ht => by cases ht), rfl, rfl⟩ h

end Soroban.Auth
