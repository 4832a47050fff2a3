import Verif.Lemmas.Recording
/-! The same requests in recording mode and in enforcing mode, step by step. -/
namespace Soroban.Auth
open Soroban Soroban.Auth.Spec

/-- What is always true of the manager in recording mode. -/
structure RInv (addrOf : Nat → Addr) (r : Rec) : Prop where
  trackers : ∀ (i : Nat) t, r.m.accts[i]? = some t → TRec t.tr r.m.stack.length ∧ t.borrowed = false
  handles : ∀ h i, r.byHandle h = some i → ∃ t, r.m.accts[i]? = some t ∧ t.addr = addrOf h

/-- The entries recorded later, and what is added to those already there. -/
def RGrow (r r' : Rec) : Prop := ∀ (i : Nat) t, r.m.accts[i]? = some t → ∃ t', r'.m.accts[i]? = some t' ∧ t'.addr = t.addr ∧
  Grows t.tr.root t'.tr.root

theorem RGrow.refl (r : Rec) : RGrow r r := fun _ t h => ⟨t, h, rfl, Grows.refl _⟩

theorem RGrow.trans {a b c : Rec} (h : RGrow a b) (h' : RGrow b c) : RGrow a c := by
  intro i t hi
  obtain ⟨t1, h1, h2, h3⟩ := h i t hi
  obtain ⟨t2, h4, h5, h6⟩ := h' i t1 h1
  exact ⟨t2, h4, h5.trans h2, h3.trans h6⟩

/-- No two trackers for an address are in use at the same time. -/
def Single (r : Rec) : Prop := ∀ (i j : Nat) t u, r.m.accts[i]? = some t → r.m.accts[j]? = some u → t.addr = u.addr →
  t.tr.inStack = true → u.tr.inStack = true → i = j

/-- The enforcing manager has the entries of `fin`, of which what is recorded in `r` has been used. -/
structure Sim (r : Rec) (e : Mgr) (fin : Rec) : Prop where
  stack : e.stack = r.m.stack
  invokers : e.invokers = r.m.invokers
  len : e.accts.length = fin.m.accts.length
  done : ∀ (i : Nat) t u w, r.m.accts[i]? = some t → e.accts[i]? = some u → fin.m.accts[i]? = some w →
    TSim t.tr u.tr w.tr.root
  todo : ∀ (i : Nat) u w, r.m.accts[i]? = none → e.accts[i]? = some u → fin.m.accts[i]? = some w →
    TIdle u.tr w.tr.root r.m.stack.length
  same : ∀ (i : Nat) u w, e.accts[i]? = some u → fin.m.accts[i]? = some w → u.addr = w.addr ∧ u.borrowed = false

theorem acctLoop_first {a : Addr} {f : AuthFn} {b : Bool} : ∀ (l : List Acct) (j k : Nat) (t : Acct) (tr : Tracker) (p : List Nat),
    l[j]? = some t → t.borrowed = false → t.addr = a → t.tr.extend f b = (tr, .ok (some p)) →
    (∀ (i : Nat) s, i < j → l[i]? = some s → s.addr = a → (s.tr.extend f b).2 = .ok none) →
    acctLoop a f b l k = .ok (some (k + j, tr, p)) := by
  intro l
  induction l with
  | nil => intro j k t tr p h; simp at h
  | cons s l ih =>
    intro j k t tr p h hb ha he hlt
    cases j with
    | zero =>
      simp only [List.getElem?_cons_zero, Option.some.injEq] at h
      subst h
      rw [acctLoop, if_neg (by rw [hb]; simp [ha]), he]
      rfl
    | succ j =>
      have hrest : acctLoop a f b l (k + 1) = .ok (some (k + (j + 1), tr, p)) := by
        rw [ih j (k + 1) t tr p (by simpa using h) hb ha he (fun i s' hi hs' => hlt (i + 1) s' (by omega) (by simpa using hs'))]
        congr 3; omega
      rw [acctLoop]
      split
      · exact hrest
      · next hc =>
        have hsa : s.addr = a := by
          cases Decidable.em (s.addr = a) with
          | inl h => exact h
          | inr h => exact absurd (.inr h) hc
        have := hlt 0 s (by omega) (by simp) hsa
        cases hx : s.tr.extend f b with
        | mk t1 res =>
          rw [hx] at this
          dsimp only at this
          subst this
          exact hrest

/-! ### the outcome of a request in recording mode -/

/-- What a request does in recording mode. -/
inductive Asked (addrOf : Nat → Addr) (r : Rec) (h : Nat) (f : AuthFn) (r' : Rec) : Prop where
  | old (i : Nat) (t : Acct) (tr : Tracker) (hi : r.m.accts[i]? = some t) (ha : t.addr = addrOf h) (hin : t.tr.inStack = true)
      (hrec : t.tr.record f = .ok tr) (hm : r'.m = r.m.setAcct i (fun t => { t with tr := tr }))
      (hmap : ∀ x i, r'.byHandle x = some i → r.byHandle x = some i)
      (hkeep : ∀ x i t, r.byHandle x = some i → r.m.accts[i]? = some t → t.tr.inStack = true → r'.byHandle x = some i) :
      Asked addrOf r h f r'
  | new (t : Acct) (hno : ∀ (i : Nat) u, r.m.accts[i]? = some u → Acct.takes (addrOf h) u = false)
      (hroot : r.rootOnly = true → r.m.stack.length = 1) (hne : r.m.stack.length ≠ 0)
      (hm : r'.m = { r.m with accts := r.m.accts ++ [t] }) (ha : t.addr = addrOf h)
      (htr : t.tr = Tracker.newRecording f r.m.stack.length) (hb : t.borrowed = false)
      (hmap : ∀ x i, r'.byHandle x = some i → r.byHandle x = some i ∨ (x = h ∧ i = r.m.accts.length))
      (hnew : r'.byHandle h = some r.m.accts.length)
      (hkeep : ∀ x i, x ≠ h → r.byHandle x = some i → r'.byHandle x = some i)
      (hold : ∀ i t, r.byHandle h = some i → r.m.accts[i]? = some t → t.tr.inStack = false) : Asked addrOf r h f r'

theorem recordIn_ok {r r' : Rec} {i : Nat} {t : Acct} {f : AuthFn} (h : r.recordIn i t f = .ok r') :
    ∃ tr, t.tr.record f = .ok tr ∧ r' = { r with m := r.m.setAcct i (fun t => { t with tr := tr }) } := by
  unfold Rec.recordIn at h
  cases hr : t.tr.record f with
  | error e => rw [hr] at h; cases h
  | ok tr => rw [hr] at h; cases h; exact ⟨tr, rfl, rfl⟩

theorem requireAny_asked {addrOf : Nat → Addr} {r r0 r' : Rec} {h : Nat} {f : AuthFn} (hr : r.requireAny h (addrOf h) f = .ok r')
    (hm : r.m = r0.m) (hro : r.rootOnly = r0.rootOnly) (hmap : ∀ x i, r.byHandle x = some i → r0.byHandle x = some i)
    (hk : ∀ x i, x ≠ h → r0.byHandle x = some i → r.byHandle x = some i)
    (hold : ∀ i t, r0.byHandle h = some i → r0.m.accts[i]? = some t → t.tr.inStack = false) :
    Asked addrOf r0 h f r' := by
  unfold Rec.requireAny at hr
  cases hx : r.m.accts.findIdx? (Acct.takes (addrOf h)) with
  | some i =>
    rw [hx] at hr
    dsimp only at hr
    cases hi : r.m.accts[i]? with
    | none => rw [hi] at hr; cases hr
    | some t =>
      rw [hi] at hr
      dsimp only at hr
      obtain ⟨tr, h1, rfl⟩ := recordIn_ok hr
      have ht : Acct.takes (addrOf h) t = true := by
        obtain ⟨hlt, h2, _⟩ := List.findIdx?_eq_some_iff_getElem.mp hx
        rw [List.getElem?_eq_getElem hlt] at hi
        cases hi; exact h2
      simp only [Acct.takes, Bool.and_eq_true, decide_eq_true_eq] at ht
      refine .old i t tr (by rw [← hm]; exact hi) ht.1.1 ht.1.2 h1 (by rw [← hm]) hmap (fun x j u hxj hu hin => ?_)
      by_cases hxh : x = h
      · subst hxh
        rw [hold j u hxj hu] at hin; cases hin
      · exact hk x j hxh hxj
  | none =>
    rw [hx] at hr
    dsimp only at hr
    split at hr
    · cases hr
    · next hroot =>
      split at hr
      · cases hr
      · next hne =>
        cases hr
        rw [hm] at hroot hne hx
        rw [hro] at hroot
        refine .new { addr := addrOf h, tr := Tracker.newRecording f r0.m.stack.length, source := false, verified := true, nonce := none, borrowed := false }
          (fun i u hu => ?_) (fun hro => ?_) hne (by simp only [hm]) rfl rfl rfl (fun x i hxi => ?_)
          (by simp [hm]) (fun x i hxh hxi => ?_) hold
        · exact List.findIdx?_eq_none_iff.mp hx u (List.mem_of_getElem? hu)
        · cases Decidable.em (r0.m.stack.length = 1) with
          | inl h => exact h
          | inr h => exact absurd ⟨hro, h⟩ hroot
        · dsimp only at hxi
          split at hxi
          · next hxh => cases hxi; exact .inr ⟨hxh, by rw [hm]⟩
          · exact .inl (hmap x i hxi)
        · dsimp only; rw [if_neg hxh]; exact hk x i hxh hxi

theorem require_asked {addrOf : Nat → Addr} {r r' : Rec} {h : Nat} {f : AuthFn} (hv : RInv addrOf r)
    (hr : r.require h (addrOf h) f = .ok r') : Asked addrOf r h f r' := by
  unfold Rec.require at hr
  cases hh : r.byHandle h with
  | none =>
    rw [hh] at hr
    refine requireAny_asked hr rfl rfl (fun x i hx => hx) (fun x i _ hx => hx) (fun i t hx => ?_)
    rw [hh] at hx; cases hx
  | some i =>
    rw [hh] at hr
    dsimp only at hr
    cases hi : r.m.accts[i]? with
    | none => rw [hi] at hr; cases hr
    | some t =>
      rw [hi] at hr
      dsimp only at hr
      cases hin : t.tr.inStack with
      | true =>
        rw [hin] at hr
        simp only [if_true] at hr
        obtain ⟨tr, h1, rfl⟩ := recordIn_ok hr
        have hta : t.addr = addrOf h := by
          obtain ⟨u, hu, ha⟩ := hv.handles h i hh
          rw [hi] at hu; cases hu; exact ha
        exact .old i t tr hi hta hin h1 rfl (fun x i hx => hx) (fun x i _ hx _ _ => hx)
      | false =>
        rw [hin] at hr
        simp only [Bool.false_eq_true, if_false] at hr
        refine requireAny_asked hr rfl rfl (fun x j hx => ?_) (fun x j hxh hx => ?_) (fun j u hx hu => ?_)
        · dsimp only at hx
          split at hx
          · cases hx
          · exact hx
        · dsimp only; rw [if_neg hxh]; exact hx
        · rw [hh] at hx; cases hx; rw [hi] at hu; cases hu; exact hin

/-! ### steps -/

theorem getElem?_setAcct (m : Mgr) (i j : Nat) (g : Acct → Acct) :
    (m.setAcct i g).accts[j]? = if i = j then (m.accts[j]?).map g else m.accts[j]? := by
  unfold Mgr.setAcct
  simp only [List.getElem?_modify]
  by_cases h : i = j
  · simp only [h, if_true]; rfl
  · simp [h]

theorem rootOnly_require {r r' : Rec} {h : Nat} {a : Addr} {f : AuthFn} (hr : r.require h a f = .ok r') : r'.rootOnly = r.rootOnly := by
  have key : ∀ (r r' : Rec), r.requireAny h a f = .ok r' → r'.rootOnly = r.rootOnly := by
    intro r r' hr
    unfold Rec.requireAny at hr
    split at hr
    · split at hr
      · obtain ⟨tr, _, rfl⟩ := recordIn_ok hr; rfl
      · cases hr
    · split at hr
      · cases hr
      · split at hr
        · cases hr
        · cases hr; rfl
  unfold Rec.require at hr
  split at hr
  · exact key _ _ hr
  · split at hr
    · cases hr
    · split at hr
      · obtain ⟨tr, _, rfl⟩ := recordIn_ok hr; rfl
      · have := key _ _ hr; exact this

theorem RInv.asked {addrOf : Nat → Addr} {r r' : Rec} {h : Nat} {f : AuthFn} (hv : RInv addrOf r) (ha : Asked addrOf r h f r') :
    RInv addrOf r' ∧ RGrow r r' := by
  cases ha with
  | old i t tr hi ha hin hrec hm hmap hkeep =>
    have hget : ∀ j : Nat, r'.m.accts[j]? = if i = j then some { t with tr := tr } else r.m.accts[j]? := by
      intro j; rw [hm, getElem?_setAcct]
      by_cases hij : i = j
      · subst hij; rw [if_pos rfl, if_pos rfl, hi]; rfl
      · rw [if_neg hij, if_neg hij]
    have hst : r'.m.stack = r.m.stack := by rw [hm]; rfl
    refine ⟨⟨fun j u hu => ?_, fun x j hx => ?_⟩, fun j u hu => ?_⟩
    · rw [hget j] at hu
      rw [hst]
      split at hu
      · cases hu
        exact ⟨(hv.trackers i t hi).1.record hrec, (hv.trackers i t hi).2⟩
      · exact hv.trackers j u hu
    · obtain ⟨u, hu, hua⟩ := hv.handles x j (hmap x j hx)
      rw [hget j]
      split
      · next hij => subst hij; rw [hi] at hu; cases hu; exact ⟨_, rfl, hua⟩
      · exact ⟨u, hu, hua⟩
    · rw [hget j]
      split
      · next hij => subst hij; rw [hi] at hu; cases hu; exact ⟨_, rfl, rfl, record_grows hrec⟩
      · exact ⟨u, hu, rfl, Grows.refl _⟩
  | new t hno hroot hne hm ha htr hb hmap hnew hkeep hold =>
    have hget : ∀ (j : Nat) u, r'.m.accts[j]? = some u → r.m.accts[j]? = some u ∨ (j = r.m.accts.length ∧ u = t) := by
      intro j u hu
      rw [hm] at hu
      simp only [List.getElem?_append] at hu
      split at hu
      · exact .inl hu
      · next hlt =>
        have : j - r.m.accts.length = 0 := by
          cases hd : j - r.m.accts.length with
          | zero => rfl
          | succ n => rw [hd] at hu; simp at hu
        rw [this] at hu
        simp only [List.getElem?_cons_zero, Option.some.injEq] at hu
        exact .inr ⟨by omega, hu.symm⟩
    have hst : r'.m.stack = r.m.stack := by rw [hm]
    have hback : ∀ (j : Nat) u, r.m.accts[j]? = some u → r'.m.accts[j]? = some u := by
      intro j u hu
      rw [hm]
      have hlt : j < r.m.accts.length := (List.getElem?_eq_some_iff.mp hu).1
      simp only [List.getElem?_append, hlt, if_true]
      exact hu
    refine ⟨⟨fun j u hu => ?_, fun x j hx => ?_⟩, fun j u hu => ⟨u, hback j u hu, rfl, Grows.refl _⟩⟩
    · rw [hst]
      rcases hget j u hu with hu | ⟨_, rfl⟩
      · exact hv.trackers j u hu
      · rw [htr]
        obtain ⟨n, hn⟩ := Nat.exists_eq_succ_of_ne_zero hne
        rw [hn]
        exact ⟨TRec.new f n, hb⟩
    · rcases hmap x j hx with hx | ⟨rfl, hj⟩
      · obtain ⟨u, hu, hua⟩ := hv.handles x j hx
        exact ⟨u, hback j u hu, hua⟩
      · refine ⟨t, ?_, ha⟩
        rw [hm, hj]
        simp

theorem getElem?_matched (m : Mgr) (i j : Nat) (tr : Tracker) (p : List Nat) (a : Addr) (f : AuthFn) :
    ((m.recordMatch i tr p a f).setAcct i (fun t => { t with verified := true, borrowed := false })).accts[j]? =
      if i = j then (m.accts[j]?).map (fun t => { t with tr := tr, verified := true, borrowed := false }) else m.accts[j]? := by
  rw [getElem?_setAcct]
  have h1 : (m.recordMatch i tr p a f).accts[j]? = (m.setAcct i (fun t => { t with tr := tr, borrowed := true })).accts[j]? := rfl
  rw [h1, getElem?_setAcct]
  by_cases h : i = j
  · simp only [h, if_true, Option.map_map]; rfl
  · simp only [h, if_false]

theorem getElem?_some_of_lt {α : Type} {l : List α} {i : Nat} (h : i < l.length) : ∃ x, l[i]? = some x :=
  ⟨l[i], List.getElem?_eq_getElem h⟩

theorem Sim.require {addrOf : Nat → Addr} {r r' fin : Rec} {e : Mgr} {h : Nat} {f : AuthFn} (hs : Sim r e fin) (hv : RInv addrOf r)
    (h1 : Single r) (ha : Asked addrOf r h f r') (hg : RGrow r' fin) :
    ∃ e', e.enforce h (addrOf h) f = .ok e' ∧ Sim r' e' fin := by
  have hg0 : RGrow r fin := (hv.asked ha).2.trans hg
  have hskip : ∀ (j : Nat) s t, e.accts[j]? = some s → r.m.accts[j]? = some t → r.m.stack.length ≠ 0 →
      ¬ (t.tr.inStack = true ∧ t.tr.topMatched = false) → ∀ b, (s.tr.extend f b).2 = .ok none := by
    intro j s t hj ht hne hno b
    obtain ⟨w, hw, _, hgr⟩ := hg0 j t ht
    obtain ⟨n, hn⟩ := Nat.exists_eq_succ_of_ne_zero hne
    exact (hs.done j t s w ht hj hw).skip (d := n) (by rw [← Nat.succ_eq_add_one, ← hn]; exact (hv.trackers j t ht).1) hgr hno
  -- the matching tracker, whatever it is
  have fin_step : ∀ (i : Nat) u tr p, e.accts[i]? = some u → u.addr = addrOf h → u.tr.extend f (!e.hasActive (addrOf h)) = (tr, .ok (some p)) →
      (∀ (j : Nat) s, j < i → e.accts[j]? = some s → s.addr = addrOf h → (s.tr.extend f (!e.hasActive (addrOf h))).2 = .ok none) →
      u.borrowed = false →
      e.enforce h (addrOf h) f = .ok ((e.recordMatch i tr p (addrOf h) f).setAcct i (fun t => { t with verified := true, borrowed := false })) := by
    intro i u tr p hu hua hext hlt hb
    unfold Mgr.enforce
    rw [acctLoop_first e.accts i 0 u tr p hu hb hua hext hlt]
    simp only [Nat.zero_add]
  have haa := ha
  cases ha with
  | old i t tr hi ha hin hrec hm hmap hkeep =>
    have hget : ∀ j : Nat, r'.m.accts[j]? = if i = j then some { t with tr := tr } else r.m.accts[j]? := by
      intro j; rw [hm, getElem?_setAcct]
      by_cases hij : i = j
      · subst hij; rw [if_pos rfl, if_pos rfl, hi]; rfl
      · rw [if_neg hij, if_neg hij]
    have hst : r'.m.stack = r.m.stack := by rw [hm]; rfl
    obtain ⟨w, hw, hwa, hgr⟩ := hg i { t with tr := tr } (by rw [hget i, if_pos rfl])
    obtain ⟨u, hu⟩ : ∃ u, e.accts[i]? = some u :=
      getElem?_some_of_lt (by rw [hs.len]; exact (List.getElem?_eq_some_iff.mp hw).1)
    obtain ⟨hua, hub⟩ := hs.same i u w hu hw
    obtain ⟨e', p, hext, hsim⟩ := (hs.done i t u w hi hu hw).extend (b := !e.hasActive (addrOf h)) hrec hgr
    have hne : r.m.stack.length ≠ 0 := by
      rw [← (hv.trackers i t hi).1.len]
      intro h0
      rw [List.length_eq_zero_iff] at h0
      simp [Tracker.inStack, h0] at hin
    refine ⟨_, fin_step i u e' p hu (hua.trans (hwa.trans ha)) hext (fun j s hj hsj hsa => ?_) hub, ?_⟩
    · obtain ⟨t', ht'⟩ : ∃ t', r.m.accts[j]? = some t' :=
        getElem?_some_of_lt (Nat.lt_trans hj (List.getElem?_eq_some_iff.mp hi).1)
      obtain ⟨w', hw', hwa', _⟩ := hg0 j t' ht'
      refine hskip j s t' hsj ht' hne (fun hc => ?_) _
      have := h1 j i t' t ht' hi (by rw [ha, ← hwa', ← (hs.same j s w' hsj hw').1, hsa]) hc.1 hin
      omega
    · refine ⟨?_, ?_, ?_, fun j t2 u2 w2 ht2 hu2 hw2 => ?_, fun j u2 w2 ht2 hu2 hw2 => ?_, fun j u2 w2 hu2 hw2 => ?_⟩
      · rw [hst]; exact hs.stack
      · rw [hm]; exact hs.invokers
      · rw [← hs.len]; simp [Mgr.setAcct, Mgr.recordMatch]
      · rw [getElem?_matched] at hu2
        rw [hget j] at ht2
        by_cases hij : i = j
        · subst hij
          rw [if_pos rfl] at hu2 ht2
          rw [hu] at hu2
          rw [hw] at hw2
          cases ht2; cases hu2; cases hw2
          exact hsim
        · rw [if_neg hij] at hu2 ht2
          exact hs.done j t2 u2 w2 ht2 hu2 hw2
      · rw [getElem?_matched] at hu2
        rw [hget j] at ht2
        by_cases hij : i = j
        · rw [if_pos hij] at ht2; cases ht2
        · rw [if_neg hij] at hu2 ht2
          rw [hst]
          exact hs.todo j u2 w2 ht2 hu2 hw2
      · rw [getElem?_matched] at hu2
        by_cases hij : i = j
        · subst hij
          rw [if_pos rfl, hu] at hu2
          cases hu2
          rw [hw] at hw2; cases hw2
          exact ⟨hua, rfl⟩
        · rw [if_neg hij] at hu2
          exact hs.same j u2 w2 hu2 hw2
  | new t hno hroot hne hm ha htr hb hmap hnew hkeep hold =>
    have hst : r'.m.stack = r.m.stack := by rw [hm]
    have hnewt : r'.m.accts[r.m.accts.length]? = some t := by rw [hm]; simp
    obtain ⟨n, hn⟩ := Nat.exists_eq_succ_of_ne_zero hne
    obtain ⟨w, hw, hwa, hgr⟩ := hg r.m.accts.length t hnewt
    obtain ⟨u, hu⟩ : ∃ u, e.accts[r.m.accts.length]? = some u :=
      getElem?_some_of_lt (by rw [hs.len]; exact (List.getElem?_eq_some_iff.mp hw).1)
    obtain ⟨hua, hub⟩ := hs.same _ u w hu hw
    have hidle := hs.todo _ u w (List.getElem?_eq_none (Nat.le_refl _)) hu hw
    rw [htr, hn] at hgr
    rw [hn] at hidle
    have hact : e.hasActive (addrOf h) = false := by
      cases hx : e.hasActive (addrOf h) with
      | false => rfl
      | true =>
        exfalso
        unfold Mgr.hasActive at hx
        rw [List.any_eq_true] at hx
        obtain ⟨s, hsm, hsc⟩ := hx
        obtain ⟨j, hj⟩ := List.mem_iff_getElem?.mp hsm
        simp only [Bool.and_eq_true, decide_eq_true_eq, Bool.not_eq_true', Tracker.active] at hsc
        obtain ⟨⟨⟨_, hsa⟩, hsu, hsf⟩, hst⟩ := hsc
        obtain ⟨w2, hw2⟩ : ∃ w2, fin.m.accts[j]? = some w2 :=
          getElem?_some_of_lt (by rw [← hs.len]; exact (List.getElem?_eq_some_iff.mp hj).1)
        cases ht : r.m.accts[j]? with
        | none =>
          have h0 := (hs.todo j s w2 ht hj hw2).part []
          rw [infoAt_nil] at h0
          cases hx : fnAt w2.tr.root [] with
          | none => rw [hx] at h0; cases h0
          | some g =>
            rw [hx] at h0
            simp only [Option.map_some, Option.some.injEq, Prod.mk.injEq] at h0
            rw [h0.2] at hsu; cases hsu
        | some t2 =>
          have hd := hs.done j t2 s w2 ht hj hw2
          obtain ⟨w3, hw3, hwa3, _⟩ := hg0 j t2 ht
          rw [hw2] at hw3; cases hw3
          have hno2 := hno j t2 ht
          have hin : t2.tr.inStack = true := by
            have := (hv.trackers j t2 ht).1.fully_iff
            rw [← hd.fully, hsf] at this
            cases hxx : t2.tr.inStack with
            | true => rfl
            | false => rw [hxx] at this; cases this
          have hta : t2.addr = addrOf h := by rw [← hwa3, ← (hs.same j s w2 hj hw2).1, hsa]
          rw [hd.topMatched] at hst
          simp [Acct.takes, hta, hin, hst] at hno2
    obtain ⟨e', p, hext, hsim⟩ := hidle.extend (g := f) hgr
    refine ⟨_, fin_step _ u e' p hu (hua.trans (hwa.trans ha)) (by rw [hact]; exact hext) (fun j s hj hsj hsa => ?_) hub, ?_⟩
    · obtain ⟨t', ht'⟩ : ∃ t', r.m.accts[j]? = some t' := getElem?_some_of_lt hj
      obtain ⟨w', hw', hwa', _⟩ := hg0 j t' ht'
      refine hskip j s t' hsj ht' hne (fun hc => ?_) _
      have hno2 := hno j t' ht'
      have hta : t'.addr = addrOf h := by rw [← hwa', ← (hs.same j s w' hsj hw').1, hsa]
      simp [Acct.takes, hta, hc.1, hc.2] at hno2
    · have hget : ∀ (j : Nat), r'.m.accts[j]? = if r.m.accts.length = j then some t else r.m.accts[j]? := by
        intro j
        by_cases hj : r.m.accts.length = j
        · rw [if_pos hj, ← hj, hnewt]
        · rw [if_neg hj, hm]
          simp only [List.getElem?_append]
          split
          · rfl
          · rw [List.getElem?_eq_none (by simp; omega), List.getElem?_eq_none (by omega)]
      refine ⟨?_, ?_, ?_, fun j t2 u2 w2 ht2 hu2 hw2 => ?_, fun j u2 w2 ht2 hu2 hw2 => ?_, fun j u2 w2 hu2 hw2 => ?_⟩
      · rw [hst]; exact hs.stack
      · rw [hm]; exact hs.invokers
      · rw [← hs.len]; simp [Mgr.setAcct, Mgr.recordMatch]
      · rw [getElem?_matched] at hu2
        rw [hget j] at ht2
        by_cases hij : r.m.accts.length = j
        · rw [if_pos hij] at hu2 ht2
          subst hij
          rw [hu] at hu2
          rw [hw] at hw2
          cases ht2; cases hu2; cases hw2
          rw [htr, hn]
          exact hsim
        · rw [if_neg hij] at hu2 ht2
          exact hs.done j t2 u2 w2 ht2 hu2 hw2
      · rw [getElem?_matched] at hu2
        rw [hget j] at ht2
        by_cases hij : r.m.accts.length = j
        · rw [if_pos hij] at ht2; cases ht2
        · rw [if_neg hij] at hu2 ht2
          rw [hst]
          exact hs.todo j u2 w2 ht2 hu2 hw2
      · rw [getElem?_matched] at hu2
        by_cases hij : r.m.accts.length = j
        · rw [if_pos hij] at hu2
          subst hij
          rw [hu] at hu2
          cases hu2
          rw [hw] at hw2; cases hw2
          exact ⟨hua, rfl⟩
        · rw [if_neg hij] at hu2
          exact hs.same j u2 w2 hu2 hw2

end Soroban.Auth
