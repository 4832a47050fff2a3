import Verif.Lemmas.HostCall
/-! require_auth. -/
namespace Soroban.Host
open Soroban Soroban.Auth Soroban.Storage Soroban.Storage.Spec

/-! ### contract authorizations -/

theorem invokerLoop_spec (cur : Option Addr) (a : Addr) (f : AuthFn) (l : List Invoker) (hw : ∀ t ∈ l, TWF t.tr) :
    List.Forall₂ ILe l (invokerLoop cur a f l).1 ∧ (∀ t ∈ (invokerLoop cur a f l).1, TWF t.tr) := by
  induction l with
  | nil => exact ⟨.nil, fun t h => by cases h⟩
  | cons t ts ih =>
    have ih := ih (fun t ht => hw t (List.mem_cons_of_mem _ ht))
    have hwt := hw t List.mem_cons_self
    unfold invokerLoop
    split
    · refine ⟨.cons (ILe.refl t) ih.1, fun x hx => ?_⟩
      rcases List.mem_cons.mp hx with rfl | hx
      · exact hwt
      · exact ih.2 x hx
    · have he := extend_spec t.tr f true
      have ht := he.tle hwt
      have keep : ∀ tr, tr = (t.tr.extend f true).1 → List.Forall₂ ILe (t :: ts) ({ t with tr := tr } :: ts) ∧
          ∀ x ∈ ({ t with tr := tr } :: ts : List Invoker), TWF x.tr := by
        intro tr htr
        subst htr
        refine ⟨.cons ⟨rfl, ht.2⟩ (forall₂_refl ILe.refl ts), fun x hx => ?_⟩
        rcases List.mem_cons.mp hx with rfl | hx
        · exact ht.1
        · exact hw x (List.mem_cons_of_mem _ hx)
      split
      · rename_i tr e heq; exact keep tr (by rw [heq])
      · rename_i tr p heq; exact keep tr (by rw [heq])
      · rename_i tr heq
        have htr : tr = (t.tr.extend f true).1 := by rw [heq]
        subst htr
        refine ⟨.cons ⟨rfl, ht.2⟩ ih.1, fun x hx => ?_⟩
        rcases List.mem_cons.mp hx with rfl | hx
        · exact ht.1
        · exact ih.2 x hx

theorem forall₂_live {l l' : List Invoker} (h : List.Forall₂ ILe l l') :
    List.Forall₂ ILe (l.filter Invoker.live) (l'.filter Invoker.live) := by
  induction h with
  | nil => exact .nil
  | cons h _ ih =>
    rw [List.filter_cons, List.filter_cons, h.live]
    split
    · exact .cons h ih
    · exact ih

theorem split_of_ile {l l' : List Invoker} (h : List.Forall₂ ILe l l') (hs : Split l) : Split l' := by
  obtain ⟨n, z, rfl, hn, hz⟩ := split_elim hs
  obtain ⟨n', z', rfl, h1, h2⟩ := forall₂_append_left h
  refine (split_of_append (fun t ht => ?_) (fun t ht => ?_)).2.2
  · obtain ⟨a, ha, hr⟩ := forall₂_mem_right h1 ht; rw [hr.live]; exact hn a ha
  · obtain ⟨a, ha, hr⟩ := forall₂_mem_right h2 ht; rw [hr.live]; exact hz a ha

/-- Changing only the trackers of contract authorizations. -/
theorem Good.setInvokers {α : Type} {E : HEnv} {orig : List Acct} {s : Host} (hs : HOk E orig s) {ts : List Invoker}
    (hle : List.Forall₂ ILe (s.auth.invokers.filter Invoker.live) (ts.filter Invoker.live)) (hw : ∀ t ∈ ts, TWF t.tr) (hsp : Split ts)
    (hsc : ∀ t ∈ ts, t.live = false → (topContract s.ctx).map Addr.contract = some t.addr) (r : Res α) : Good E orig s ({ s with auth := { s.auth with invokers := ts } }, r) := by
  have hm : MLe s.auth { s.auth with invokers := ts } :=
    ⟨rfl, rfl, Nat.le_refl _, forall₂_refl ALe.refl _, hle, List.suffix_refl _⟩
  have hh : HLe E s { s with auth := { s.auth with invokers := ts } } :=
    ⟨SLe.refl hs.st, hm, CtxLe.refl _, List.suffix_refl _, List.prefix_refl _, fun c _ _ => keptRefl c _⟩
  exact ⟨hh, HLe.hok hs hh ⟨hs.mwf.accts, hw, hsp, hs.mwf.idlen⟩ (hs.uok.congr rfl rfl rfl (Nat.le_refl _)) hs.trace hsc,
    fun h _ => h.mono rfl rfl (LLe.refl _) (List.suffix_refl _) id (XSame.refl _) rfl, fun h => Or.inl h⟩

theorem checkInvoker_good {E : HEnv} {orig : List Acct} {s : Host} (hs : HOk E orig s) (a : Addr) (f : AuthFn) :
    Good E orig s ({ s with auth := (s.auth.checkInvoker a f).1 }, (s.auth.checkInvoker a f).2) := by
  unfold Mgr.checkInvoker
  split
  · rename_i top below rest hst
    split
    · exact Good.refl hs _
    · have h := invokerLoop_spec top.contract? a f s.auth.invokers hs.mwf.invokers
      refine Good.setInvokers hs (forall₂_live h.1) h.2 (split_of_ile h.1 hs.mwf.split) (fun t ht hl => ?_) _
      obtain ⟨t0, ht0, hle⟩ := forall₂_mem_right h.1 ht
      rw [hle.addr]
      exact hs.scope t0 ht0 (by rw [← hle.live]; exact hl)
  · exact Good.refl hs _

theorem addInvoker_good {α : Type} {E : HEnv} {orig : List Acct} {s : Host} (hs : HOk E orig s) (a : Addr)
    (ha : (topContract s.ctx).map Addr.contract = some a) (es : List Inv) (r : Res α) :
    Good E orig s ({ s with auth := s.auth.addInvoker a es }, r) := by
  have hdead : ∀ t ∈ es.map (fun i => ({ addr := a, tr := Tracker.new i } : Invoker)), t.live = false := by
    intro t ht
    simp only [List.mem_map] at ht
    obtain ⟨i, _, rfl⟩ := ht
    rfl
  have hfil : (s.auth.invokers ++ es.map (fun i => ({ addr := a, tr := Tracker.new i } : Invoker))).filter Invoker.live =
      s.auth.invokers.filter Invoker.live := by
    rw [List.filter_append]
    have : (es.map (fun i => ({ addr := a, tr := Tracker.new i } : Invoker))).filter Invoker.live = [] := by
      rw [List.filter_eq_nil_iff]; intro x hx; rw [hdead x hx]; simp
    rw [this]; simp
  refine Good.setInvokers hs ?_ ?_ ?_ ?_ r
  · rw [hfil]; exact forall₂_refl ILe.refl _
  · intro t ht
    rcases List.mem_append.mp ht with ht | ht
    · exact hs.mwf.invokers t ht
    · simp only [List.mem_map] at ht
      obtain ⟨i, _, rfl⟩ := ht
      exact TWF.new i
  · obtain ⟨n, z, hnz, hn, hz⟩ := split_elim hs.mwf.split
    rw [hnz, List.append_assoc]
    refine (split_of_append hn (fun t ht => ?_)).2.2
    rcases List.mem_append.mp ht with ht | ht
    · exact hz t ht
    · exact hdead t ht
  · intro t ht hl
    rcases List.mem_append.mp ht with ht | ht
    · exact hs.scope t ht hl
    · simp only [List.mem_map] at ht
      obtain ⟨i, _, rfl⟩ := ht
      exact ha

/-! ### account authorizations -/

theorem acctLoop_spec {a : Addr} {f : AuthFn} {ar : Bool} {l : List Acct} {k i : Nat} {tr : Tracker} {p : List Nat}
    (h : acctLoop a f ar l k = .ok (some (i, tr, p))) :
    ∃ j t, i = k + j ∧ l[j]? = some t ∧ t.borrowed = false ∧ t.addr = a ∧ Extended t.tr f ar tr (.ok (some p)) := by
  induction l generalizing k with
  | nil => cases h
  | cons t ts ih =>
    unfold acctLoop at h
    split at h
    · obtain ⟨j, t', h1, h2, h3⟩ := ih h
      exact ⟨j + 1, t', by omega, by simpa using h2, h3⟩
    · rename_i hc
      have hx := extend_spec t.tr f ar
      split at h
      · cases h
      · rename_i tr' p' heq
        cases h
        rw [heq] at hx
        refine ⟨0, t, rfl, rfl, ?_, ?_, hx⟩
        · cases hb : t.borrowed with
          | false => rfl
          | true => exact absurd (Or.inl hb) hc
        · by_cases ha : t.addr = a
          · exact ha
          · exact absurd (Or.inr ha) hc
      · obtain ⟨j, t', h1, h2, h3⟩ := ih h
        exact ⟨j + 1, t', by omega, by simpa using h2, h3⟩

theorem verifyNonce_spec {E : HEnv} {s : Host} (h : StOk E s.st) (t : Acct) :
    OnlySt E s (verifyNonce E s t).1 ∧
    ((verifyNonce E s t).2 = .ok () → t.source = false → ∃ n l mx m, t.nonce = some (n, l) ∧ E.sto.li.seq ≤ l ∧
      E.sto.li.maxLiveUntil = some mx ∧ l ≤ mx ∧ l ≤ m ∧ ledger E s.st (.nonce t.addr n) = none ∧
      ledger E (verifyNonce E s t).1.st (.nonce t.addr n) = some (.void, some m)) := by
  unfold verifyNonce
  split
  · rename_i hsrc; exact ⟨OnlySt.refl h, fun _ h' => by rw [hsrc] at h'; cases h'⟩
  · split
    · exact ⟨OnlySt.refl h, fun h' => by cases h'⟩
    · rename_i n l hn
      split
      · exact ⟨OnlySt.refl h, fun h' => by cases h'⟩
      · rename_i hseq
        split
        · exact ⟨OnlySt.refl h, fun h' => by cases h'⟩
        · rename_i mx hmx
          split
          · exact ⟨OnlySt.refl h, fun h' => by cases h'⟩
          · rename_i hlmx
            obtain ⟨h1, h2⟩ := consumeNonce_only h t.addr n l (by omega)
            refine ⟨h1, fun hok _ => ?_⟩
            obtain ⟨h3, m, h4, h5⟩ := h2 hok
            exact ⟨n, l, mx, m, hn, by omega, hmx, by omega, h4, h3, h5⟩

theorem expectVoid_error {r : Res RVal} {e : Err} (h : r = .error e) : expectVoid r = .error e := by rw [h]; rfl

theorem authenticate_spec {E : HEnv} {orig : List Acct} {s : Host} (hs : HOk E orig s) (i : Nat) (t : Acct)
    {f : Host → Host × Res RVal} (hf : ∀ s1, HOk E orig s1 → Good E orig s1 (f s1)) :
    Good E orig s (authenticate E s i t f) ∧
    ((authenticate E s i t f).2 = .ok () → t.source = false →
      (∀ id, t.addr = .account id → ∃ v, E.accountCheck i v = .ok ()) ∧
      (∀ id, t.addr = .contract id → ∃ x ∈ (authenticate E s i t f).1.trace, x.head? = some (some id, checkAuthName))) := by
  unfold authenticate
  split
  · rename_i hsrc; exact ⟨Good.refl hs _, fun _ h' => by rw [hsrc] at h'; cases h'⟩
  · split
    · rename_i id hid
      have h1 : OnlySt E s (liftSt s (fun st => getEntry E.sto st (.account id))).1 := liftSt_read (getEntry_sle hs.st _) (getEntry_ledger hs.st _)
      split
      · rename_i heq; rw [heq] at h1; exact ⟨h1.good hs _, fun h => by cases h⟩
      · rename_i heq; rw [heq] at h1
        exact ⟨h1.good hs _, fun h _ => ⟨fun _ _ => ⟨_, h⟩, fun id' hid' => by rw [hid] at hid'; cases hid'⟩⟩
    · rename_i id hid
      obtain ⟨h1, h2⟩ := callN_self hs (id := id) hf
      refine ⟨?_, ?_⟩
      · refine Good.mapRes (r := (callN E s id checkAuthName .selfAllowed true f).2) h1 ?_ ?_
        · intro v hv
          cases hr : (callN E s id checkAuthName .selfAllowed true f).2 with
          | ok w => exact Or.inl ⟨w, rfl⟩
          | error e => rw [hr] at hv; cases hv
        · intro e he hre; exact ⟨e, expectVoid_error he, hre⟩
      · intro hok _
        refine ⟨fun id' hid' => (by rw [hid] at hid'; cases hid'), fun id' hid' => ?_⟩
        rw [hid] at hid'; cases hid'
        simp only at hok
        cases hr : (callN E s id checkAuthName .selfAllowed true f).2 with
        | ok w => exact ⟨_, h2 w hr, rfl⟩
        | error e => rw [hr] at hok; cases hok

theorem accts_release {l l2 : List Acct} {i : Nat} {t : Acct} {tr : Tracker} (hi : l[i]? = some t) (hb : t.borrowed = false)
    (hT : TLe t.tr tr) (h : List.Forall₂ ALe (l.modify i (fun t => { t with tr := tr, borrowed := true })) l2) (g : Acct → Acct)
    (g1 : ∀ a, (g a).addr = a.addr) (g2 : ∀ a, (g a).tr = a.tr) (g3 : ∀ a, (g a).source = a.source) (g4 : ∀ a, (g a).nonce = a.nonce)
    (g5 : ∀ a, (g a).borrowed = false) (g6 : ∀ a, a.verified = true → (g a).verified = true) :
    List.Forall₂ ALe l (l2.modify i g) := by
  induction l generalizing i l2 with
  | nil => simp at hi
  | cons a l ih =>
    cases i with
    | zero =>
      simp at hi
      subst hi
      rw [List.modify_zero_cons] at h
      cases h with
      | cons h1 h2 =>
        rw [List.modify_zero_cons]
        refine .cons ?_ h2
        have := h1.same rfl
        subst this
        refine ⟨g1 _, g3 _, g4 _, ?_, fun h => g6 _ h, ?_, fun h => ?_⟩
        · rw [g5, hb]
        · rw [g2]; exact hT
        · rw [hb] at h; cases h
    | succ i =>
      rw [List.modify_succ_cons] at h
      cases h with
      | cons h1 h2 =>
        rw [List.modify_succ_cons]
        exact .cons h1 (ih (by simpa using hi) h2)

/-- The host while the address of entry `i` is being authenticated. -/
theorem match_hok {E : HEnv} {orig : List Acct} {s : Host} (hs : HOk E orig s) {i : Nat} {t : Acct} {f : AuthFn} {ar : Bool}
    {tr : Tracker} {p : List Nat} (hi : s.auth.accts[i]? = some t) (hb : t.borrowed = false) (he : Extended t.tr f ar tr (.ok (some p))) :
    HOk E orig { s with auth := s.auth.recordMatch i tr p t.addr f } := by
  refine ⟨hs.st, ⟨?_, hs.mwf.invokers, hs.mwf.split, hs.mwf.idlen⟩, hs.uok.recordMatch hi hb he, hs.frames, hs.stack, hs.depth, hs.trace,
    hs.scope⟩
  intro a ha
  simp only [Mgr.recordMatch, Mgr.setAcct] at ha
  obtain ⟨j, hj⟩ := List.getElem?_of_mem ha
  rw [List.getElem?_modify] at hj
  have hmem : t ∈ s.auth.accts := List.mem_of_getElem? hi
  cases hc : s.auth.accts[j]? with
  | none => rw [hc] at hj; cases hj
  | some c =>
    rw [hc] at hj
    simp only [Option.map_eq_map, Option.map_some, Option.some.injEq] at hj
    by_cases hij : i = j
    · rw [if_pos hij] at hj
      rw [← hj]
      exact (he.tle (hs.mwf.accts t hmem)).1
    · rw [if_neg hij] at hj
      rw [← hj]
      exact hs.mwf.accts c (List.mem_of_getElem? hc)

/-- The tracker while it is borrowed, after some code has run. -/
theorem borrowed_get {E : HEnv} {s s2 : Host} {i : Nat} {t : Acct} {f : AuthFn} {tr : Tracker} {p : List Nat}
    (hi : s.auth.accts[i]? = some t) (hle : HLe E { s with auth := s.auth.recordMatch i tr p t.addr f } s2) :
    s2.auth.accts[i]? = some { t with tr := tr, borrowed := true } := by
  have h1 : (s.auth.recordMatch i tr p t.addr f).accts[i]? = some { t with tr := tr, borrowed := true } := by
    simp only [Mgr.recordMatch, Mgr.setAcct, List.getElem?_modify, hi]; simp
  obtain ⟨b, hb, hr⟩ := forall₂_get' hle.auth.accts h1
  have := hr.same rfl
  rw [hb, this]

/-- After the tracker has been released. -/
theorem release {E : HEnv} {orig : List Acct} {s s2 : Host} (hs : HOk E orig s) {i : Nat} {t : Acct} {f : AuthFn} {ar : Bool}
    {tr : Tracker} {p : List Nat} (hi : s.auth.accts[i]? = some t) (hb : t.borrowed = false) (he : Extended t.tr f ar tr (.ok (some p)))
    (hle : HLe E { s with auth := s.auth.recordMatch i tr p t.addr f } s2) (hok : HOk E orig s2) (g : Acct → Acct)
    (g1 : ∀ a, (g a).addr = a.addr) (g2 : ∀ a, (g a).tr = a.tr) (g3 : ∀ a, (g a).source = a.source) (g4 : ∀ a, (g a).nonce = a.nonce)
    (g5 : ∀ a, (g a).borrowed = false) (g6 : ∀ a, a.verified = true → (g a).verified = true) :
    HLe E s (setAcct s2 i g) ∧ HOk E orig (setAcct s2 i g) := by
  have ht := he.tle (hs.mwf.accts t (List.mem_of_getElem? hi))
  have hA := hle.auth
  have hm : MLe s.auth (s2.auth.setAcct i g) := by
    refine ⟨hA.stack, hA.ids, hA.next, ?_, hA.invokers, ?_⟩
    · exact accts_release hi hb ht.2 hA.accts g g1 g2 g3 g4 g5 g6
    · exact (List.suffix_cons _ _).trans hA.uses
  have hh : HLe E s (setAcct s2 i g) := ⟨hle.st, hm, hle.ctx, hle.trace, hle.events, hle.iso⟩
  have hget := borrowed_get hi hle
  refine ⟨hh, HLe.hok hs hh ⟨?_, hok.mwf.invokers, hok.mwf.split, hok.mwf.idlen⟩ ?_ hok.trace
    (by have := hok.scope; rw [topContract_same hle.ctx.same] at this; exact this)⟩
  · intro a ha
    simp only [setAcct, Mgr.setAcct] at ha
    obtain ⟨j, hj⟩ := List.getElem?_of_mem ha
    rw [List.getElem?_modify] at hj
    cases hc : s2.auth.accts[j]? with
    | none => rw [hc] at hj; cases hj
    | some c =>
      rw [hc] at hj
      simp only [Option.map_eq_map, Option.map_some, Option.some.injEq] at hj
      have hcw := hok.mwf.accts c (List.mem_of_getElem? hc)
      rw [← hj]
      split
      · rw [g2]; exact hcw
      · exact hcw
  · refine hok.uok.setFlags i g g1 g2 ?_
    intro a ha _
    rw [hget] at ha
    cases ha
    simp only
    obtain ⟨o, _, hao⟩ := hs.uok.acct i t hi
    rw [ht.2.len, hao.len hb]
    exact congrArg List.length hA.ids.symm

theorem match_strong {E : HEnv} {L0 : Ledger LKey LVal} {s : Host} {i : Nat} {t : Acct} {f : AuthFn} {tr : Tracker} {p : List Nat}
    (h : HStrong E L0 s) (hi : s.auth.accts[i]? = some t) : HStrong E L0 { s with auth := s.auth.recordMatch i tr p t.addr f } := by
  have hget : ∀ (j : Nat) (a : Acct), (s.auth.recordMatch i tr p t.addr f).accts[j]? = some a →
      ∃ b, s.auth.accts[j]? = some b ∧ a.addr = b.addr ∧ a.verified = b.verified ∧ a.source = b.source ∧ a.nonce = b.nonce := by
    intro j a ha
    simp only [Mgr.recordMatch, Mgr.setAcct, List.getElem?_modify] at ha
    cases hc : s.auth.accts[j]? with
    | none => rw [hc] at ha; cases ha
    | some c =>
      rw [hc] at ha
      simp only [Option.map_eq_map, Option.map_some, Option.some.injEq] at ha
      refine ⟨c, rfl, ?_⟩
      rw [← ha]; split <;> exact ⟨rfl, rfl, rfl, rfl⟩
  refine ⟨h.start, ?_, ?_, ?_, h.coh, h.updates⟩
  · intro u hu
    simp only [Mgr.recordMatch, List.mem_cons] at hu
    rcases hu with rfl | hu
    · refine ⟨{ t with tr := tr, borrowed := true }, ?_, Or.inr rfl⟩
      simp only [Mgr.recordMatch, Mgr.setAcct, List.getElem?_modify, hi]; simp
    · obtain ⟨a, ha, h2⟩ := h.uses u hu
      simp only [Mgr.recordMatch, Mgr.setAcct, List.getElem?_modify, ha, Option.map_eq_map, Option.map_some]
      refine ⟨_, rfl, ?_⟩
      split
      · exact Or.inr rfl
      · exact h2
  · intro j a ha hv hsrc
    obtain ⟨b, hb, e1, e2, e3, e4⟩ := hget j a ha
    have hp := h.proven j b hb (by rw [← e2]; exact hv) (by rw [← e3]; exact hsrc)
    refine ⟨?_, ?_, ?_⟩
    · rw [e4, e1]; exact hp.nonce
    · rw [e1]; exact hp.account
    · rw [e1]; exact hp.contract
  · intro j k a a' ha ha' hv hv' hs hs' had hn
    obtain ⟨b, hb, e1, e2, e3, e4⟩ := hget j a ha
    obtain ⟨b', hb', f1, f2, f3, f4⟩ := hget k a' ha'
    exact h.distinct j k b b' hb hb' (by rw [← e2]; exact hv) (by rw [← f2]; exact hv') (by rw [← e3]; exact hs)
      (by rw [← f3]; exact hs') (by rw [← e1, ← f1]; exact had) (by rw [← e4, ← f4]; exact hn)

/-- The strong invariant after the tracker has been released, verified. -/
theorem release_strong {E : HEnv} {L0 : Ledger LKey LVal} {s2 : Host} {i : Nat} {a : Acct} (h : HStrong E L0 s2) (hi : s2.auth.accts[i]? = some a)
    (g : Acct → Acct) (g1 : ∀ a, (g a).addr = a.addr) (g3 : ∀ a, (g a).source = a.source) (g4 : ∀ a, (g a).nonce = a.nonce)
    (gv : (g a).verified = true) (hp : a.source = false → Proven E L0 s2 i a)
    (hd : ∀ (j : Nat) (b : Acct), j ≠ i → s2.auth.accts[j]? = some b → b.verified = true → b.source = false → a.source = false →
      a.addr = b.addr → a.nonce.map Prod.fst ≠ b.nonce.map Prod.fst) : HStrong E L0 (setAcct s2 i g) := by
  have hget : ∀ (j : Nat) (c : Acct), (s2.auth.setAcct i g).accts[j]? = some c →
      (j = i ∧ c = g a) ∨ (j ≠ i ∧ s2.auth.accts[j]? = some c) := by
    intro j c hc
    simp only [Mgr.setAcct, List.getElem?_modify] at hc
    by_cases hij : j = i
    · subst hij
      rw [hi] at hc
      simp at hc
      exact Or.inl ⟨rfl, hc.symm⟩
    · right
      refine ⟨hij, ?_⟩
      cases hx : s2.auth.accts[j]? with
      | none => rw [hx] at hc; cases hc
      | some x =>
        rw [hx] at hc
        simp only [Option.map_eq_map, Option.map_some, Option.some.injEq, if_neg (Ne.symm hij)] at hc
        rw [hc]
  refine ⟨h.start, ?_, ?_, ?_, h.coh, h.updates⟩
  · intro u hu
    obtain ⟨b, hb, h2⟩ := h.uses u hu
    simp only [setAcct, Mgr.setAcct, List.getElem?_modify, hb, Option.map_eq_map, Option.map_some]
    refine ⟨_, rfl, ?_⟩
    by_cases hij : i = u.entry
    · rw [if_pos hij]
      rw [← hij, hi] at hb
      cases hb
      exact Or.inl gv
    · rw [if_neg hij]; exact h2
  · intro j c hc hv hsrc
    rcases hget j c hc with ⟨rfl, rfl⟩ | ⟨_, hc⟩
    · have := hp (by rw [← g3]; exact hsrc)
      refine ⟨?_, ?_, ?_⟩
      · rw [g4, g1]; exact this.nonce
      · rw [g1]; exact this.account
      · rw [g1]; exact this.contract
    · exact (h.proven j c hc hv hsrc).mono (LLe.refl _) (List.suffix_refl _)
  · intro j k c c' hc hc' hv hv' hs hs' had hn
    rcases hget j c hc with ⟨rfl, rfl⟩ | ⟨hj, hc2⟩
    · rcases hget k c' hc' with ⟨rfl, rfl⟩ | ⟨hk, hc2'⟩
      · rfl
      · rw [g1] at had; rw [g4] at hn; rw [g3] at hs
        exact absurd hn (hd k c' hk hc2' hv' hs' hs had)
    · rcases hget k c' hc' with ⟨rfl, rfl⟩ | ⟨hk, hc2'⟩
      · rw [g1] at had; rw [g4] at hn; rw [g3] at hs'
        exact absurd hn.symm (hd j c hj hc2 hv hs hs' had.symm)
      · exact h.distinct j k c c' hc2 hc2' hv hv' hs hs' had hn

theorem setAcct_setAcct (s : Host) (i : Nat) (f g : Acct → Acct) : setAcct (setAcct s i f) i g = setAcct s i (g ∘ f) := by
  unfold setAcct Mgr.setAcct
  simp only [List.modify_modify_eq]

/-- What a successful `require_auth` for an account has used. -/
structure Granted (s s' : Host) (a : Addr) (f : AuthFn) : Prop where
  use : ∃ u extra, s'.auth.uses = extra ++ u :: s.auth.uses ∧ u.addr = a ∧ u.fn = f ∧ u.frames = s.auth.ids

theorem requireEnforcing_good {E : HEnv} {orig : List Acct} {s : Host} (hs : HOk E orig s) (a : Addr) (f : AuthFn)
    {run : Nat → Host → Host × Res RVal} (hf : ∀ i s1, HOk E orig s1 → Good E orig s1 (run i s1)) :
    Good E orig s (requireEnforcing E s a f run) ∧
    ((requireEnforcing E s a f run).2 = .ok () → Granted s (requireEnforcing E s a f run).1 a f) := by
  unfold requireEnforcing
  split
  · exact ⟨Good.refl hs _, fun h => by cases h⟩
  · exact ⟨Good.refl hs _, fun h => by cases h⟩
  · rename_i i tr p hloop
    obtain ⟨j, t, hij, hj, hb, haddr, hext⟩ := acctLoop_spec hloop
    have hij' : i = j := by omega
    subst hij'
    rw [hj]
    simp only
    subst haddr
    have hs1 := match_hok hs hj hb hext
    have granted : ∀ s2 g, HLe E { s with auth := s.auth.recordMatch i tr p t.addr f } s2 → Granted s (setAcct s2 i g) t.addr f := by
      intro s2 g hle
      obtain ⟨extra, hex⟩ := hle.auth.uses
      exact ⟨⟨⟨i, p, t.addr, f, s.auth.ids⟩, extra, hex.symm, rfl, rfl, rfl⟩⟩
    have released : ∀ s2, HLe E { s with auth := s.auth.recordMatch i tr p t.addr f } s2 → HOk E orig s2 → ∀ g : Acct → Acct,
        (g = (fun t => { t with borrowed := false }) ∨ g = (fun t => { t with verified := true, borrowed := false })) →
        HLe E s (setAcct s2 i g) ∧ HOk E orig (setAcct s2 i g) := by
      intro s2 hle hok g hg
      rcases hg with rfl | rfl
      · exact release hs hj hb hext hle hok _ (fun _ => rfl) (fun _ => rfl) (fun _ => rfl) (fun _ => rfl) (fun _ => rfl) (fun _ h => h)
      · exact release hs hj hb hext hle hok _ (fun _ => rfl) (fun _ => rfl) (fun _ => rfl) (fun _ => rfl) (fun _ => rfl) (fun _ _ => rfl)
    unfold verifyEntry
    split
    · rename_i hver
      simp only
      have hle := HLe.refl (E := E) hs1.st
      have hr := released _ hle hs1 _ (Or.inl rfl)
      refine ⟨⟨hr.1, hr.2, fun hst _ => ?_, fun h => Or.inl h⟩, fun _ => granted _ _ hle⟩
      have hst1 := match_strong (f := f) (tr := tr) (p := p) hst hj
      have hget := borrowed_get hj hle
      refine release_strong hst1 hget _ (fun _ => rfl) (fun _ => rfl) (fun _ => rfl) hver ?_ ?_
      · intro hsrc; exact hst1.proven i _ hget hver hsrc
      · intro j b hji hbj hvb hsb hsa had hn
        exact hji (hst1.distinct i j _ b hget hbj hver hvb hsa hsb had hn).symm
    · rename_i hver
      obtain ⟨ha1, ha2⟩ := authenticate_spec hs1 i t (hf i)
      generalize hauth : authenticate E { s with auth := s.auth.recordMatch i tr p t.addr f } i t (run i) = ar at ha1 ha2
      obtain ⟨s2, r2⟩ := ar
      cases r2 with
      | error e =>
        simp only
        have hr := released s2 ha1.le ha1.ok _ (Or.inl rfl)
        refine ⟨⟨hr.1, hr.2, fun _ h => ?_, fun hfa => ?_⟩, fun h => by cases h⟩
        · obtain ⟨v, hv⟩ := h; cases hv
        · rcases ha1.fatal hfa with h1 | ⟨e', h1, h2⟩
          · exact Or.inl h1
          · cases h1
            refine Or.inr ⟨_, rfl, ?_⟩
            unfold hideAuthError; rw [h2]; exact h2
      | ok u =>
        cases u
        simp only
        obtain ⟨hn1, hn2⟩ := verifyNonce_spec (E := E) ha1.ok.st t
        generalize hver : verifyNonce E s2 t = vr at hn1 hn2
        obtain ⟨s3, r3⟩ := vr
        have hg3 : Good E orig { s with auth := s.auth.recordMatch i tr p t.addr f } (s3, r3) := Good.bind ha1 (hn1.good ha1.ok r3)
        cases r3 with
        | error e =>
          simp only
          have hr := released s3 hg3.le hg3.ok _ (Or.inl rfl)
          refine ⟨⟨hr.1, hr.2, fun _ h => ?_, hg3.fatal⟩, fun h => by cases h⟩
          obtain ⟨v, hv⟩ := h; cases hv
        | ok u =>
          cases u
          simp only
          rw [setAcct_setAcct]
          have hr := released s3 hg3.le hg3.ok _ (Or.inr rfl)
          refine ⟨⟨hr.1, hr.2, fun {L0} hst _ => ?_, fun hfa => ?_⟩, fun _ => granted s3 _ hg3.le⟩
          · have hst1 := match_strong (f := f) (tr := tr) (p := p) hst hj
            have hst2 := ha1.strong hst1 ⟨(), rfl⟩
            have hst3 := hg3.strong hst1 ⟨(), rfl⟩
            have hget := borrowed_get hj hg3.le
            refine release_strong hst3 hget _ (fun _ => rfl) (fun _ => rfl) (fun _ => rfl) rfl ?_ ?_
            · intro hsrc
              obtain ⟨n, l, mx, m, h1, h2, h3, h4, h5, h6, h7⟩ := hn2 rfl hsrc
              obtain ⟨h8, h9⟩ := ha2 rfl hsrc
              have h0 : L0 (.nonce t.addr n) = none := by
                cases hl0 : L0 (.nonce t.addr n) with
                | none => rfl
                | some e => rw [hst2.start.nonce _ _ _ hl0] at h6; cases h6
              refine ⟨⟨n, l, mx, m, h1, h2, h3, h4, h5, h7, h0⟩, h8, fun id hid => ?_⟩
              obtain ⟨x, hx, hxh⟩ := h9 id hid
              refine ⟨x, ?_, hxh⟩
              rw [hn1.trace]; exact hx
            · intro j b hji hbj hvb hsb hsa had hn
              obtain ⟨n, l, mx, m, h1, h2, h3, h4, h5, h6, _⟩ := hn2 rfl hsa
              rw [hn1.auth] at hbj
              have hp := hst2.proven j b hbj hvb hsb
              obtain ⟨n', l', mx', m', k1, _, _, _, _, k6, _⟩ := hp.nonce
              simp only [h1, k1, Option.map_some, Option.some.injEq] at hn
              simp only at had
              rw [← had, ← hn, h6] at k6
              cases k6
          · rcases hg3.fatal hfa with h1 | ⟨e', h1, _⟩
            · exact Or.inl h1
            · cases h1

theorem requireInternal_good {E : HEnv} {orig : List Acct} {s : Host} (hs : HOk E orig s) (a : Addr) (f : AuthFn)
    {run : Nat → Host → Host × Res RVal} (hf : ∀ i s1, HOk E orig s1 → Good E orig s1 (run i s1)) :
    Good E orig s (requireInternal E s a f run) ∧
    ((requireInternal E s a f run).2 = .ok () → (s.auth.checkInvoker a f).2 = .ok true ∨
      Granted s (requireInternal E s a f run).1 a f) := by
  have h1 := checkInvoker_good hs a f
  unfold requireInternal
  generalize hc : s.auth.checkInvoker a f = c at h1
  obtain ⟨m, r⟩ := c
  cases r with
  | error e => exact ⟨h1.err (fun h => h), fun h => by cases h⟩
  | ok b =>
    cases b with
    | true => exact ⟨h1.mapRes (fun _ _ => Or.inl ⟨_, rfl⟩) (fun e he => by cases he), fun _ => Or.inl rfl⟩
    | false =>
      simp only
      obtain ⟨h2, h3⟩ := requireEnforcing_good h1.ok a f hf
      refine ⟨Good.bind h1 h2, fun hok => Or.inr ?_⟩
      obtain ⟨u, extra, hu, hu2, hu3, hu4⟩ := (h3 hok).use
      have hm : m.uses = s.auth.uses ∧ m.ids = s.auth.ids := by
        have hm' : m = (s.auth.checkInvoker a f).1 := by rw [hc]
        rw [hm']
        unfold Mgr.checkInvoker
        split
        · split <;> exact ⟨rfl, rfl⟩
        · exact ⟨rfl, rfl⟩
      simp only [hm.1, hm.2] at hu hu4
      exact ⟨⟨u, extra, hu, hu2, hu3, hu4⟩⟩

theorem requireAuth_good {E : HEnv} {orig : List Acct} {s : Host} (hs : HOk E orig s) (a : Addr) (args : List Nat)
    {run : Nat → Host → Host × Res RVal} (hf : ∀ i s1, HOk E orig s1 → Good E orig s1 (run i s1)) :
    Good E orig s (requireAuth E s a args run) := by
  unfold requireAuth
  split
  · exact Good.refl hs _
  · exact (requireInternal_good hs a _ hf).1

end Soroban.Host
