import Verif.Lemmas.RecordingMgr
import Mathlib.Data.List.Forall2
/-! Whole runs in recording mode and in enforcing mode. -/
namespace Soroban.Auth
open Soroban Soroban.Auth.Spec

/-- The part of `checkInvoker` that depends on the stack and the trackers of contract authorizations only. -/
def invokerCheck (stack : List Frame) (ts : List Invoker) (a : Addr) (f : AuthFn) : List Invoker × Res Bool :=
  match stack with
  | top :: below :: _ => if below.contract? = some a then (ts, .ok true) else invokerLoop top.contract? a f ts
  | _ => (ts, .ok false)

theorem checkInvoker_eq (m : Mgr) (a : Addr) (f : AuthFn) : m.checkInvoker a f =
    ({ m with invokers := (invokerCheck m.stack m.invokers a f).1 }, (invokerCheck m.stack m.invokers a f).2) := by
  obtain ⟨accts, ts, stack, uses, ids, next⟩ := m
  unfold Mgr.checkInvoker invokerCheck
  dsimp only
  cases stack with
  | nil => rfl
  | cons top rest =>
    cases rest with
    | nil => rfl
    | cons below rest =>
      dsimp only
      split <;> rfl

/-- What a step does in recording mode. -/
inductive Stepped (addrOf : Nat → Addr) (r : Rec) : Ev → Rec → Prop where
  | push (f : Frame) : Stepped addrOf r (.push f) { r with m := r.m.push f }
  | pop (h : r.m.stack ≠ []) : Stepped addrOf r .pop { r with m := r.m.popOnly }
  | authAs (entries : List Inv) (self : Addr) (fn : Name) (rest : List Frame) (h : r.m.stack = .contract self fn :: rest) :
      Stepped addrOf r (.authAs entries) { r with m := r.m.addInvoker self entries }
  | granted (h : Nat) (args : List Nat) (fr : Frame) (rest : List Frame) (ts : List Invoker) (hs : r.m.stack = fr :: rest)
      (hc : invokerCheck r.m.stack r.m.invokers (addrOf h) (fr.toFn args) = (ts, .ok true)) :
      Stepped addrOf r (.require h args) { r with m := { r.m with invokers := ts } }
  | asked (h : Nat) (args : List Nat) (fr : Frame) (rest : List Frame) (ts : List Invoker) (r' : Rec) (hs : r.m.stack = fr :: rest)
      (hc : invokerCheck r.m.stack r.m.invokers (addrOf h) (fr.toFn args) = (ts, .ok false))
      (hr : ({ r with m := { r.m with invokers := ts } } : Rec).require h (addrOf h) (fr.toFn args) = .ok r') :
      Stepped addrOf r (.require h args) r'

theorem step_ok {addrOf : Nat → Addr} {r r' : Rec} {ev : Ev} (h : Rec.step addrOf r ev = .ok r') : Stepped addrOf r ev r' := by
  unfold Rec.step at h
  cases ev with
  | push f => simp only [Mgr.step] at h; cases h; exact .push f
  | pop =>
    simp only [Mgr.step] at h
    cases hs : r.m.stack with
    | nil => rw [hs] at h; cases h
    | cons fr rest => rw [hs] at h; cases h; exact .pop (by rw [hs]; simp)
  | authAs entries =>
    simp only [Mgr.step] at h
    cases hs : r.m.stack with
    | nil => rw [hs] at h; cases h
    | cons fr rest =>
      rw [hs] at h
      cases fr with
      | contract self fn => cases h; exact .authAs entries self fn rest hs
      | create c => cases h
  | require x args =>
    simp only [Mgr.step] at h
    cases hs : r.m.stack with
    | nil => rw [hs] at h; cases h
    | cons fr rest =>
      rw [hs] at h
      dsimp only at h
      rw [checkInvoker_eq] at h
      cases hc : invokerCheck r.m.stack r.m.invokers (addrOf x) (fr.toFn args) with
      | mk ts res =>
        rw [hc] at h
        cases res with
        | error e => cases h
        | ok b =>
          cases b with
          | true => cases h; exact .granted x args fr rest ts hs hc
          | false => exact .asked x args fr rest ts r' hs hc h

theorem getElem?_map_some {α β : Type} {l : List α} {g : α → β} {i : Nat} {y : β} (h : (l.map g)[i]? = some y) :
    ∃ x, l[i]? = some x ∧ g x = y := by
  rw [List.getElem?_map] at h
  cases hx : l[i]? with
  | none => rw [hx] at h; cases h
  | some x => rw [hx] at h; cases h; exact ⟨x, rfl, rfl⟩

theorem getElem?_map_none {α β : Type} {l : List α} {g : α → β} {i : Nat} (h : (l.map g)[i]? = none) : l[i]? = none := by
  rw [List.getElem?_map] at h
  cases hx : l[i]? with
  | none => rfl
  | some x => rw [hx] at h; cases h

theorem Acct.push_tr {a : Acct} (h : a.borrowed = false) : a.push = { a with tr := a.tr.push } := by
  unfold Acct.push; rw [h]; rfl

theorem Acct.pop_tr {a : Acct} (h : a.borrowed = false) : a.pop = { a with tr := a.tr.pop } := by
  unfold Acct.pop; rw [h]; rfl

theorem popOnly_cons {m : Mgr} (h : m.stack ≠ []) : m.popOnly = { m with
    accts := m.accts.map Acct.pop, invokers := dropOutOfScope (m.invokers.map Invoker.pop), stack := m.stack.tail, ids := m.ids.tail } := by
  unfold Mgr.popOnly
  cases hs : m.stack with
  | nil => exact absurd hs h
  | cons f rest => rfl

theorem RInv.invokers {addrOf : Nat → Addr} {r : Rec} (h : RInv addrOf r) (ts : List Invoker) :
    RInv addrOf { r with m := { r.m with invokers := ts } } := ⟨h.trackers, h.handles⟩

theorem RInv.step {addrOf : Nat → Addr} {r r' : Rec} {ev : Ev} (hv : RInv addrOf r) (h : Stepped addrOf r ev r') :
    RInv addrOf r' ∧ RGrow r r' := by
  cases h with
  | push f =>
    refine ⟨⟨fun i t ht => ?_, fun x i hx => ?_⟩, fun i t ht => ?_⟩
    · obtain ⟨t0, h0, rfl⟩ := getElem?_map_some ht
      obtain ⟨h1, h2⟩ := hv.trackers i t0 h0
      rw [Acct.push_tr h2]
      exact ⟨by simpa [Mgr.push] using h1.push, h2⟩
    · obtain ⟨t0, h0, h1⟩ := hv.handles x i hx
      exact ⟨t0.push, by simp [Mgr.push, h0], by rw [Acct.push_tr (hv.trackers i t0 h0).2]; exact h1⟩
    · refine ⟨t.push, by simp [Mgr.push, ht], ?_, ?_⟩ <;> rw [Acct.push_tr (hv.trackers i t ht).2]
      exact Grows.refl _
  | pop hne =>
    rw [popOnly_cons hne]
    obtain ⟨f, rest, hst⟩ := List.exists_cons_of_ne_nil hne
    refine ⟨⟨fun i t ht => ?_, fun x i hx => ?_⟩, fun i t ht => ?_⟩
    · obtain ⟨t0, h0, rfl⟩ := getElem?_map_some ht
      obtain ⟨h1, h2⟩ := hv.trackers i t0 h0
      rw [Acct.pop_tr h2]
      rw [hst] at h1 ⊢
      exact ⟨TRec.pop h1, h2⟩
    · obtain ⟨t0, h0, h1⟩ := hv.handles x i hx
      exact ⟨t0.pop, by simp [h0], by rw [Acct.pop_tr (hv.trackers i t0 h0).2]; exact h1⟩
    · refine ⟨t.pop, by simp [ht], ?_, ?_⟩ <;> rw [Acct.pop_tr (hv.trackers i t ht).2]
      exact Grows.refl _
  | authAs entries self fn rest hs => exact ⟨⟨hv.trackers, hv.handles⟩, RGrow.refl r⟩
  | granted x args fr rest ts hs hc => exact ⟨hv.invokers ts, RGrow.refl r⟩
  | asked x args fr rest ts r' hs hc hr => exact (hv.invokers ts).asked (require_asked (hv.invokers ts) hr)

theorem RInv.run {addrOf : Nat → Addr} (es : List Ev) : ∀ {r r' : Rec}, RInv addrOf r → runAll (Rec.step addrOf) es r = .ok r' →
    RInv addrOf r' ∧ RGrow r r' := by
  induction es with
  | nil => intro r r' hv h; cases h; exact ⟨hv, RGrow.refl _⟩
  | cons e es ih =>
    intro r r' hv h
    rw [runAll] at h
    cases hs : Rec.step addrOf r e with
    | error x => rw [hs] at h; cases h
    | ok r1 =>
      rw [hs] at h
      obtain ⟨h1, h2⟩ := hv.step (step_ok hs)
      obtain ⟨h3, h4⟩ := ih h1 h
      exact ⟨h3, h2.trans h4⟩

theorem RInv.start (addrOf : Nat → Addr) (b : Bool) : RInv addrOf (Rec.start b) :=
  ⟨fun i t h => by simp [Rec.start] at h, fun x i h => by simp [Rec.start] at h⟩

theorem Sim.invokers' {r fin : Rec} {e : Mgr} (h : Sim r e fin) (ts : List Invoker) :
    Sim { r with m := { r.m with invokers := ts } } { e with invokers := ts } fin :=
  ⟨h.stack, rfl, h.len, h.done, h.todo, h.same⟩

theorem Sim.step {addrOf : Nat → Addr} {r r' fin : Rec} {e : Mgr} {ev : Ev} (hs : Sim r e fin) (hv : RInv addrOf r) (h1 : Single r)
    (h : Stepped addrOf r ev r') (hg : RGrow r' fin) : ∃ e', Mgr.enforceStep addrOf e ev = .ok e' ∧ Sim r' e' fin := by
  have hfin : ∀ (i : Nat) u, e.accts[i]? = some u → ∃ w, fin.m.accts[i]? = some w := fun i u hu =>
    getElem?_some_of_lt (by rw [← hs.len]; exact (List.getElem?_eq_some_iff.mp hu).1)
  cases h with
  | push f =>
    refine ⟨e.push f, rfl, by simp [Mgr.push, hs.stack], by simp [Mgr.push, hs.invokers], by simp [Mgr.push, hs.len],
      fun i t u w ht hu hw => ?_, fun i u w ht hu hw => ?_, fun i u w hu hw => ?_⟩
    · obtain ⟨t0, ht0, rfl⟩ := getElem?_map_some ht
      obtain ⟨u0, hu0, rfl⟩ := getElem?_map_some hu
      rw [Acct.push_tr (hv.trackers i t0 ht0).2, Acct.push_tr (hs.same i u0 w hu0 hw).2]
      exact (hs.done i t0 u0 w ht0 hu0 hw).push
    · obtain ⟨u0, hu0, rfl⟩ := getElem?_map_some hu
      rw [Acct.push_tr (hs.same i u0 w hu0 hw).2]
      exact (hs.todo i u0 w (getElem?_map_none ht) hu0 hw).push
    · obtain ⟨u0, hu0, rfl⟩ := getElem?_map_some hu
      rw [Acct.push_tr (hs.same i u0 w hu0 hw).2]
      exact hs.same i u0 w hu0 hw
  | pop hne =>
    have hne' : e.stack ≠ [] := by rw [hs.stack]; exact hne
    obtain ⟨f, rest, hst⟩ := List.exists_cons_of_ne_nil hne
    refine ⟨e.popOnly, ?_, ?_⟩
    · have : e.stack = f :: rest := by rw [hs.stack, hst]
      simp only [Mgr.enforceStep, Mgr.step, id_eq, this]
    rw [popOnly_cons hne, popOnly_cons hne']
    refine ⟨by simp [hs.stack], by simp [hs.invokers], by simp [hs.len],
      fun i t u w ht hu hw => ?_, fun i u w ht hu hw => ?_, fun i u w hu hw => ?_⟩
    · obtain ⟨t0, ht0, rfl⟩ := getElem?_map_some ht
      obtain ⟨u0, hu0, rfl⟩ := getElem?_map_some hu
      rw [Acct.pop_tr (hv.trackers i t0 ht0).2, Acct.pop_tr (hs.same i u0 w hu0 hw).2]
      exact (hs.done i t0 u0 w ht0 hu0 hw).pop
    · obtain ⟨u0, hu0, rfl⟩ := getElem?_map_some hu
      rw [Acct.pop_tr (hs.same i u0 w hu0 hw).2]
      have := hs.todo i u0 w (getElem?_map_none ht) hu0 hw
      rw [hst] at this ⊢
      exact TIdle.pop this
    · obtain ⟨u0, hu0, rfl⟩ := getElem?_map_some hu
      rw [Acct.pop_tr (hs.same i u0 w hu0 hw).2]
      exact hs.same i u0 w hu0 hw
  | authAs entries self fn rest hst =>
    refine ⟨e.addInvoker self entries, ?_, hs.stack, by simp [Mgr.addInvoker, hs.invokers], hs.len, hs.done, hs.todo, hs.same⟩
    have : e.stack = .contract self fn :: rest := by rw [hs.stack, hst]
    simp only [Mgr.enforceStep, Mgr.step, id_eq, this]
  | granted x args fr rest ts hst hc =>
    refine ⟨{ e with invokers := ts }, ?_, hs.invokers' ts⟩
    have h2 : e.stack = fr :: rest := by rw [hs.stack, hst]
    have h3 : e.checkInvoker (addrOf x) (fr.toFn args) = ({ e with invokers := ts }, .ok true) := by
      rw [checkInvoker_eq, hs.stack, hs.invokers, hc]
    simp only [Mgr.enforceStep, Mgr.step, id_eq, h2, h3]
  | asked x args fr rest ts r' hst hc hr =>
    obtain ⟨e', he, hs'⟩ := (hs.invokers' ts).require (hv.invokers ts) h1 (require_asked (hv.invokers ts) hr) hg
    refine ⟨e', ?_, hs'⟩
    have h2 : e.stack = fr :: rest := by rw [hs.stack, hst]
    have h3 : e.checkInvoker (addrOf x) (fr.toFn args) = ({ e with invokers := ts }, .ok false) := by
      rw [checkInvoker_eq, hs.stack, hs.invokers, hc]
    simp only [Mgr.enforceStep, Mgr.step, id_eq, h2, h3]
    rw [← h2]
    exact he

/-- Any property of the rest of the run that keeps one tracker per address is enough. -/
theorem Sim.run {addrOf : Nat → Addr} {P : List Ev → Rec → Prop} (hP : ∀ es r, P es r → Single r)
    (hstep : ∀ e es r r', RInv addrOf r → P (e :: es) r → Stepped addrOf r e r' → P es r') {fin : Rec} (es : List Ev) :
    ∀ {r : Rec} {e : Mgr}, Sim r e fin → RInv addrOf r → P es r → runAll (Rec.step addrOf) es r = .ok fin →
      ∃ e', runAll (Mgr.enforceStep addrOf) es e = .ok e' ∧ Sim fin e' fin := by
  induction es with
  | nil => intro r e hs _ _ h; cases h; exact ⟨e, rfl, hs⟩
  | cons ev es ih =>
    intro r e hs hv hp h
    rw [runAll] at h
    cases hx : Rec.step addrOf r ev with
    | error x => rw [hx] at h; cases h
    | ok r1 =>
      rw [hx] at h
      dsimp only at h
      have hst := step_ok hx
      have hv1 := (hv.step hst).1
      obtain ⟨e1, h1, h2⟩ := hs.step hv (hP _ _ hp) hst (RInv.run es hv1 h).2
      obtain ⟨e2, h3, h4⟩ := ih h2 hv1 (hstep _ _ _ _ hv hp hst) h
      exact ⟨e2, by rw [runAll, h1]; exact h3, h4⟩

theorem Sim.start {b : Bool} {fin : Rec} {accts : List Acct} (h : List.Forall₂ Signed fin.payloads accts) :
    Sim (Rec.start b) (Mgr.start accts) fin := by
  have hlen : accts.length = fin.m.accts.length := by
    rw [← h.length_eq]; simp [Rec.payloads]
  have hget : ∀ (i : Nat) u w, accts[i]? = some u → fin.m.accts[i]? = some w → Signed (w.addr, w.tr.root.unused) u := by
    intro i u w hu hw
    have h1 : fin.payloads[i]? = some (w.addr, w.tr.root.unused) := by simp [Rec.payloads, hw]
    rw [List.forall₂_iff_get] at h
    obtain ⟨hl, h⟩ := h
    obtain ⟨hi1, h1'⟩ := List.getElem?_eq_some_iff.mp h1
    obtain ⟨hi2, h2'⟩ := List.getElem?_eq_some_iff.mp hu
    have := h i hi1 hi2
    simp only [List.get_eq_getElem, h1', h2'] at this
    exact this
  refine ⟨rfl, rfl, hlen, fun i t u w ht => by simp [Rec.start] at ht, fun i u w _ hu hw => ?_, fun i u w hu hw => ?_⟩
  · have hs := hget i u w hu hw
    rw [hs.tree]
    refine ⟨rfl, rfl, rfl, fun q => ?_⟩
    simp only [Tracker.new]
    exact infoAt_unused q w.tr.root
  · have hs := hget i u w hu hw
    exact ⟨hs.addr, hs.idle⟩

/-- At the end every node has been used. -/
theorem Sim.end_used {addrOf : Nat → Addr} {fin : Rec} {e : Mgr} (h : Sim fin e fin) (hv : RInv addrOf fin) :
    e.accts.map (fun t => (t.addr, t.tr.root)) = fin.m.accts.map (fun t => (t.addr, t.tr.root)) ∧
    ∀ t ∈ e.accts, AllUsed t.tr.root := by
  have hroot : ∀ (i : Nat) u w, e.accts[i]? = some u → fin.m.accts[i]? = some w → u.addr = w.addr ∧ u.tr.root = w.tr.root := by
    intro i u w hu hw
    refine ⟨(h.same i u w hu hw).1, Inv.ext_info _ _ (fun q => ?_)⟩
    rw [(h.done i w u w hw hu hw).part q]
    unfold fnAt infoAt
    cases hq : w.tr.root.at? q with
    | none => rfl
    | some n => simp only [Option.map_some]; rw [(hv.trackers i w hw).1.used q n hq]; rfl
  refine ⟨?_, fun t ht => ?_⟩
  · apply List.ext_getElem?
    intro i
    simp only [List.getElem?_map]
    cases hu : e.accts[i]? with
    | none =>
      have : e.accts.length ≤ i := List.getElem?_eq_none_iff.mp hu
      rw [List.getElem?_eq_none (by rw [← h.len]; exact this)]
    | some u =>
      obtain ⟨w, hw⟩ : ∃ w, fin.m.accts[i]? = some w :=
        getElem?_some_of_lt (by rw [← h.len]; exact (List.getElem?_eq_some_iff.mp hu).1)
      obtain ⟨h1, h2⟩ := hroot i u w hu hw
      rw [hw]; simp only [Option.map_some, h1, h2]
  · obtain ⟨i, hi⟩ := List.mem_iff_getElem?.mp ht
    obtain ⟨w, hw⟩ : ∃ w, fin.m.accts[i]? = some w :=
      getElem?_some_of_lt (by rw [← h.len]; exact (List.getElem?_eq_some_iff.mp hi).1)
    rw [(hroot i t w hi hw).2]
    exact (hv.trackers i w hw).1.used

/-! ### at most one tracker per address -/

theorem Single.of {r r' : Rec} (h : Single r) (hb : ∀ (j : Nat) u, r'.m.accts[j]? = some u → u.tr.inStack = true →
    ∃ u0, r.m.accts[j]? = some u0 ∧ u0.addr = u.addr ∧ u0.tr.inStack = true) : Single r' := by
  intro i j t u hi hj ha h1 h2
  obtain ⟨t0, hi0, ha0, h10⟩ := hb i t hi h1
  obtain ⟨u0, hj0, hb0, h20⟩ := hb j u hj h2
  exact h i j t0 u0 hi0 hj0 (by rw [ha0, hb0, ha]) h10 h20

/-- The trackers in use before a step, those in use after it being given. -/
theorem back_step {addrOf : Nat → Addr} {r r' : Rec} {ev : Ev} (hv : RInv addrOf r) (h : Stepped addrOf r ev r') :
    (∀ (j : Nat) u, r'.m.accts[j]? = some u → u.tr.inStack = true →
      ∃ u0, r.m.accts[j]? = some u0 ∧ u0.addr = u.addr ∧ u0.tr.inStack = true) ∨
    ∃ x args f ts, ev = .require x args ∧ Asked addrOf { r with m := { r.m with invokers := ts } } x f r' ∧
      ∀ (j : Nat) u, r'.m.accts[j]? = some u → (j = r.m.accts.length ∧ u.addr = addrOf x) ∨ r.m.accts[j]? = some u := by
  cases h with
  | push f =>
    refine .inl (fun j u hu hin => ?_)
    obtain ⟨t0, h0, rfl⟩ := getElem?_map_some hu
    rw [Acct.push_tr (hv.trackers j t0 h0).2] at hin ⊢
    exact ⟨t0, h0, rfl, by rw [← inStack_push]; exact hin⟩
  | pop hne =>
    refine .inl (fun j u hu hin => ?_)
    rw [popOnly_cons hne] at hu
    obtain ⟨t0, h0, rfl⟩ := getElem?_map_some hu
    rw [Acct.pop_tr (hv.trackers j t0 h0).2] at hin ⊢
    exact ⟨t0, h0, rfl, inStack_pop hin⟩
  | authAs entries self fn rest hs => exact .inl (fun j u hu hin => ⟨u, hu, rfl, hin⟩)
  | granted x args fr rest ts hs hc => exact .inl (fun j u hu hin => ⟨u, hu, rfl, hin⟩)
  | asked x args fr rest ts r' hs hc hr =>
    have ha := require_asked (hv.invokers ts) hr
    have ha0 := ha
    cases ha with
    | old i t tr hi hta hin hrec hm hmap hkeep =>
      refine .inl (fun j u hu hinu => ?_)
      rw [hm, getElem?_setAcct] at hu
      split at hu
      · next hij =>
        subst hij
        rw [hi] at hu
        cases hu
        exact ⟨t, hi, rfl, hin⟩
      · exact ⟨u, hu, rfl, hinu⟩
    | new t hno hroot hne hm hta htr hb hmap hnew hkeep hold =>
      refine .inr ⟨x, args, _, ts, rfl, ha0, fun j u hu => ?_⟩
      rw [hm] at hu
      simp only [List.getElem?_append] at hu
      split at hu
      · exact .inr hu
      · next hlt =>
        have h0 : j - r.m.accts.length = 0 := by
          cases hd : j - r.m.accts.length with
          | zero => rfl
          | succ n => rw [hd] at hu; simp at hu
        rw [h0] at hu
        simp only [List.getElem?_cons_zero, Option.some.injEq] at hu
        subst hu
        exact .inl ⟨by omega, hta⟩

/-- One tracker per address stays one tracker per address when new ones are made only for addresses that have none in use. -/
theorem Single.step {addrOf : Nat → Addr} {r r' : Rec} {ev : Ev} (h1 : Single r) (hv : RInv addrOf r) (h : Stepped addrOf r ev r')
    (hnew : ∀ x args f ts, ev = .require x args → Asked addrOf { r with m := { r.m with invokers := ts } } x f r' →
      r'.m.accts.length ≠ r.m.accts.length → ∀ (j : Nat) u, r.m.accts[j]? = some u → u.addr = addrOf x → u.tr.inStack = false) :
    Single r' := by
  rcases back_step hv h with hb | ⟨x, args, f, ts, he, ha, hb⟩
  · exact h1.of hb
  · by_cases hl : r'.m.accts.length = r.m.accts.length
    · refine h1.of (fun j u hu hin => ?_)
      rcases hb j u hu with ⟨hj, _⟩ | hu'
      · have := (List.getElem?_eq_some_iff.mp hu).1; omega
      · exact ⟨u, hu', rfl, hin⟩
    · have hn := hnew x args f ts he ha hl
      intro i j t u hi hj hau h2 h3
      rcases hb i t hi with ⟨hi', hta⟩ | hi' <;> rcases hb j u hj with ⟨hj', hua⟩ | hj'
      · omega
      · rw [hn j u hj' (by rw [← hau, hta])] at h3; cases h3
      · rw [hn i t hi' (by rw [hau, hua])] at h2; cases h2
      · exact h1 i j t u hi' hj' hau h2 h3

/-! #### no call asks twice -/

/-- The rest of the run asks once in each call, and the matches on the stacks are among what has been asked. -/
def Once (addrOf : Nat → Addr) (es : List Ev) (r : Rec) : Prop :=
  Single r ∧ ∃ asked : List (List Addr), asksOnce addrOf asked es = true ∧ asked.length = r.m.stack.length ∧
    ∀ (i k : Nat) t m, r.m.accts[i]? = some t → t.tr.stack[k]? = some m → m.matched = true → ∃ l, asked[k]? = some l ∧ t.addr ∈ l

theorem Once.step {addrOf : Nat → Addr} {e : Ev} {es : List Ev} {r r' : Rec} (hv : RInv addrOf r) (hp : Once addrOf (e :: es) r)
    (h : Stepped addrOf r e r') : Once addrOf es r' := by
  obtain ⟨h1, asked, h2, h3, h4⟩ := hp
  have hstep := h
  cases h with
  | push f =>
    refine ⟨h1.step hv hstep (fun x args f ts he => by cases he), [] :: asked, h2, by simp [Mgr.push, h3], fun i k t m ht hk hm => ?_⟩
    obtain ⟨t0, h0, rfl⟩ := getElem?_map_some ht
    rw [Acct.push_tr (hv.trackers i t0 h0).2] at hk ⊢
    cases k with
    | zero =>
      simp only [Tracker.push, List.getElem?_cons_zero, Option.some.injEq] at hk
      subst hk; cases hm
    | succ k =>
      simp only [Tracker.push, List.getElem?_cons_succ] at hk ⊢
      exact h4 i k t0 m h0 hk hm
  | pop hne =>
    refine ⟨h1.step hv hstep (fun x args f ts he => by cases he), asked.tail, h2, ?_, fun i k t m ht hk hm => ?_⟩
    · rw [popOnly_cons hne]; simp [h3]
    · rw [popOnly_cons hne] at ht
      obtain ⟨t0, h0, rfl⟩ := getElem?_map_some ht
      rw [Acct.pop_tr (hv.trackers i t0 h0).2] at hk ⊢
      simp only [Tracker.pop, List.getElem?_tail] at hk ⊢
      exact h4 i (k + 1) t0 m h0 hk hm
  | authAs entries self fn rest hs =>
    exact ⟨h1.step hv hstep (fun x args f ts he => by cases he), asked, h2, h3, h4⟩
  | granted x args fr rest ts hs hc =>
    cases asked with
    | nil => rw [hs] at h3; cases h3
    | cons l asked =>
      simp only [asksOnce, Bool.and_eq_true] at h2
      refine ⟨h1, (addrOf x :: l) :: asked, h2.2, h3, fun i k t m ht hk hm => ?_⟩
      obtain ⟨l', hl', hm'⟩ := h4 i k t m ht hk hm
      cases k with
      | zero => simp only [List.getElem?_cons_zero, Option.some.injEq] at hl'; subst hl'; exact ⟨_, rfl, List.mem_cons_of_mem _ hm'⟩
      | succ k => exact ⟨l', by simpa using hl', hm'⟩
  | asked x args fr rest ts r' hs hc hr =>
    cases asked with
    | nil => rw [hs] at h3; cases h3
    | cons l asked =>
      simp only [asksOnce, Bool.and_eq_true, Bool.not_eq_true', List.contains_eq_mem, decide_eq_false_iff_not] at h2
      refine ⟨h1.step hv hstep (fun x' args' f' ts' he ha hl j u hu hua => ?_), (addrOf x :: l) :: asked, h2.2, ?_, fun i k t m ht hk hm => ?_⟩
      · cases he
        cases hin : u.tr.inStack with
        | false => rfl
        | true =>
          exfalso
          cases ha with
          | old i t tr hi hta hin hrec hm hmap hkeep =>
            apply hl; rw [hm]; simp [Mgr.setAcct]
          | new t hno hroot hne hm hta htr hb hmap hnew hkeep hold =>
            have := hno j u hu
            simp only [Acct.takes, hua, decide_true, hin, Bool.true_and, Bool.not_eq_false'] at this
            cases hst : u.tr.stack with
            | nil => simp [Tracker.topMatched, hst] at this
            | cons m below =>
              simp only [Tracker.topMatched, hst] at this
              obtain ⟨l', hl', hm'⟩ := h4 j 0 u m hu (by rw [hst]; rfl) this
              simp only [List.getElem?_cons_zero, Option.some.injEq] at hl'
              subst hl'
              rw [hua] at hm'
              exact h2.1 hm'
      · have : r'.m.stack = r.m.stack := by
          cases require_asked (hv.invokers ts) hr with
          | old i t tr hi hta hin hrec hm hmap hkeep => rw [hm]; rfl
          | new t hno hroot hne hm hta htr hb hmap hnew hkeep hold => rw [hm]
        rw [this]; exact h3
      · cases require_asked (hv.invokers ts) hr with
        | old i' t' tr hi hta hin hrec hm' hmap hkeep =>
          rw [hm', getElem?_setAcct] at ht
          have old : ∀ (k : Nat) t, r.m.accts[i]? = some t → t.tr.stack[k]? = some m → ∃ l_1, ((addrOf x :: l) :: asked)[k]? = some l_1 ∧ t.addr ∈ l_1 := by
            intro k t ht hk
            obtain ⟨l', hl', hml⟩ := h4 i k t m ht hk hm
            cases k with
            | zero => simp only [List.getElem?_cons_zero, Option.some.injEq] at hl'; subst hl'; exact ⟨_, rfl, List.mem_cons_of_mem _ hml⟩
            | succ k => exact ⟨l', by simpa using hl', hml⟩
          split at ht
          · next hij =>
            subst hij
            rw [hi] at ht
            cases ht
            cases k with
            | zero => exact ⟨_, rfl, by dsimp only; rw [hta]; exact List.mem_cons_self⟩
            | succ k =>
              obtain ⟨_, path, node, _, _, rfl⟩ := record_ok hrec
              simp only [List.getElem?_cons_succ, List.getElem?_tail] at hk
              exact old (k + 1) t' hi hk
          · exact old k t ht hk
        | new t' hno hroot hne hm' hta htr hb hmap hnew hkeep hold =>
          rw [hm'] at ht
          simp only [List.getElem?_append] at ht
          split at ht
          · obtain ⟨l', hl', hml⟩ := h4 i k t m ht hk hm
            cases k with
            | zero => simp only [List.getElem?_cons_zero, Option.some.injEq] at hl'; subst hl'; exact ⟨_, rfl, List.mem_cons_of_mem _ hml⟩
            | succ k => exact ⟨l', by simpa using hl', hml⟩
          · cases hd : i - r.m.accts.length with
            | succ n => rw [hd] at ht; simp at ht
            | zero =>
              rw [hd] at ht
              simp only [List.getElem?_cons_zero, Option.some.injEq] at ht
              subst ht
              rw [htr] at hk
              cases k with
              | zero => exact ⟨_, rfl, by rw [hta]; exact List.mem_cons_self⟩
              | succ k =>
                simp only [Tracker.newRecording, List.getElem?_cons_succ, List.getElem?_replicate] at hk
                split at hk
                · cases hk; cases hm
                · cases hk

/-! #### one handle for each address -/

/-- The rest of the run uses one handle for each address, and the trackers in use are found through it. -/
def OneHandle (addrOf : Nat → Addr) (hs : List Nat) (es : List Ev) (r : Rec) : Prop :=
  Single r ∧ (∀ x ∈ handles es, x ∈ hs) ∧
    ∀ (i : Nat) t, r.m.accts[i]? = some t → t.tr.inStack = true → ∃ x ∈ hs, r.byHandle x = some i ∧ addrOf x = t.addr

theorem OneHandle.step {addrOf : Nat → Addr} {hs : List Nat} (hinj : ∀ x ∈ hs, ∀ y ∈ hs, addrOf x = addrOf y → x = y) {e : Ev}
    {es : List Ev} {r r' : Rec} (hv : RInv addrOf r) (hp : OneHandle addrOf hs (e :: es) r) (h : Stepped addrOf r e r') :
    OneHandle addrOf hs es r' := by
  obtain ⟨h1, h2, h3⟩ := hp
  have hsub : ∀ x ∈ handles es, x ∈ hs := by
    intro x hx
    apply h2
    cases e <;> simp only [handles, List.mem_cons] <;> first | exact hx | exact .inr hx
  have hstep := h
  cases h with
  | push f =>
    refine ⟨h1.step hv hstep (fun x args f ts he => by cases he), hsub, fun i t ht hin => ?_⟩
    obtain ⟨t0, h0, rfl⟩ := getElem?_map_some ht
    rw [Acct.push_tr (hv.trackers i t0 h0).2] at hin ⊢
    rw [inStack_push] at hin
    exact h3 i t0 h0 hin
  | pop hne =>
    refine ⟨h1.step hv hstep (fun x args f ts he => by cases he), hsub, fun i t ht hin => ?_⟩
    rw [popOnly_cons hne] at ht
    obtain ⟨t0, h0, rfl⟩ := getElem?_map_some ht
    rw [Acct.pop_tr (hv.trackers i t0 h0).2] at hin ⊢
    exact h3 i t0 h0 (inStack_pop hin)
  | authAs entries self fn rest hst =>
    exact ⟨h1.step hv hstep (fun x args f ts he => by cases he), hsub, h3⟩
  | granted x args fr rest ts hst hc => exact ⟨h1, hsub, h3⟩
  | asked x args fr rest ts r' hst hc hr =>
    have hxs : x ∈ hs := h2 x (by simp [handles])
    refine ⟨h1.step hv hstep (fun x' args' f' ts' he ha hl j u hu hua => ?_), hsub, fun i t ht hin => ?_⟩
    · cases he
      cases hin : u.tr.inStack with
      | false => rfl
      | true =>
        exfalso
        cases ha with
        | old i t tr hi hta hin hrec hm hmap hkeep =>
          apply hl; rw [hm]; simp [Mgr.setAcct]
        | new t hno hroot hne hm hta htr hb hmap hnew hkeep hold =>
          obtain ⟨y, hy, hyi, hya⟩ := h3 j u hu hin
          have hxy := hinj y hy x hxs (by rw [hya, hua])
          subst hxy
          rw [hold j u hyi hu] at hin
          cases hin
    · cases require_asked (hv.invokers ts) hr with
      | old i' t' tr hi hta hin' hrec hm hmap hkeep =>
        rw [hm, getElem?_setAcct] at ht
        have key : ∀ u, r.m.accts[i]? = some u → u.tr.inStack = true → ∃ x ∈ hs, r'.byHandle x = some i ∧ addrOf x = u.addr := by
          intro u hu hinu
          obtain ⟨y, hy, hyi, hya⟩ := h3 i u hu hinu
          exact ⟨y, hy, hkeep y i u hyi hu hinu, hya⟩
        split at ht
        · next hij =>
          subst hij
          rw [hi] at ht
          cases ht
          exact key t' hi hin'
        · exact key t ht hin
      | new t' hno hroot hne hm hta htr hb hmap hnew hkeep hold =>
        rw [hm] at ht
        simp only [List.getElem?_append] at ht
        split at ht
        · obtain ⟨y, hy, hyi, hya⟩ := h3 i t ht hin
          refine ⟨y, hy, hkeep y i ?_ hyi, hya⟩
          rintro rfl
          rw [hold i t hyi ht] at hin
          cases hin
        · cases hd : i - r.m.accts.length with
          | succ n => rw [hd] at ht; simp at ht
          | zero =>
            rw [hd] at ht
            simp only [List.getElem?_cons_zero, Option.some.injEq] at ht
            subst ht
            refine ⟨x, hxs, ?_, hta.symm⟩
            rw [hnew]
            have : i = r.m.accts.length := by omega
            rw [this]

end Soroban.Auth
