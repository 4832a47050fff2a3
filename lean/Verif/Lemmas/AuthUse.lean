import Verif.Lemmas.AuthMgr
/-! The invariant that ties the used nodes of the authorization trees to the list of uses. -/
namespace Soroban.Auth
open Soroban

/-- Every match in the stack of tracker `i` is recorded in the list of uses, with the frames up to that position. -/
def StackOk (i : Nat) (t : Tracker) (ids : List Nat) (uses : List Use) : Prop :=
  ∀ pre m post, t.stack = pre ++ m :: post → m.matched = true →
    ∃ p, walk (m :: post).reverse t.root = .ok (some p) ∧
      ∃ u ∈ uses, u.entry = i ∧ u.path = p ∧ u.frames = ids.drop (ids.length - (post.length + 1))

/-- Every use of entry `i` by a frame that is still running is a match in the stack of its tracker. -/
def LiveOk (i : Nat) (t : Tracker) (ids : List Nat) (uses : List Use) : Prop :=
  ∀ u ∈ uses, u.entry = i → u.frames <:+ ids → ∃ pre m post, t.stack = pre ++ m :: post ∧ m.matched = true ∧
    u.frames.length = post.length + 1 ∧ walk (m :: post).reverse t.root = .ok (some u.path)

/-- A tracker whose root was used is exhausted when the frame that used it has ended. -/
def RootOk (i : Nat) (t : Tracker) (ids : List Nat) (uses : List Use) : Prop :=
  t.root.used = true → ∃ f u, t.rootFrame = some f ∧ u ∈ uses ∧ u.entry = i ∧ u.path = [] ∧ u.frames.length = f + 1 ∧
    (t.fully = false ↔ u.frames <:+ ids)

/-- The account tracker `a` at index `i` agrees with the entry `o` it was made from and with the list of uses. -/
structure AOk (i : Nat) (o a : Acct) (ids : List Nat) (uses : List Use) : Prop where
  addr : a.addr = o.addr
  shape : a.tr.root.reset = o.tr.root.reset
  le : a.tr.stack.length ≤ ids.length
  len : a.borrowed = false → a.tr.stack.length = ids.length
  used : ∀ p n, a.tr.root.at? p = some n → (n.used = true ↔ ∃ u ∈ uses, u.entry = i ∧ u.path = p)
  stack : StackOk i a.tr ids uses
  live : LiveOk i a.tr ids uses
  fresh : a.tr.root.used = false → a.tr.rootFrame = none ∧ a.tr.fully = false
  rooted : RootOk i a.tr ids uses

/-- The invariant. `orig` are the trackers at the start of the transaction. -/
structure UOk (orig : List Acct) (m : Mgr) : Prop where
  len : m.accts.length = orig.length
  acct : ∀ i a, m.accts[i]? = some a → ∃ o, orig[i]? = some o ∧ AOk i o a m.ids m.uses
  nodup : m.uses.Pairwise (fun u v => ¬ (u.entry = v.entry ∧ u.path = v.path))
  uses : ∀ u ∈ m.uses, ∃ o n, orig[u.entry]? = some o ∧ o.addr = u.addr ∧ o.tr.root.at? u.path = some n ∧ n.fn = u.fn
  parents : ∀ pre u post, m.uses = pre ++ u :: post → ∀ q i, u.path = q ++ [i] →
    ∃ v ∈ post, v.entry = u.entry ∧ v.path = q ∧ v.frames <:+ u.frames ∧ v.frames.length < u.frames.length
  low : ∀ x ∈ m.ids, x < m.next
  past : ∀ u ∈ m.uses, ∀ x ∈ u.frames, x < m.next

theorem UOk.congr {orig : List Acct} {m m' : Mgr} (h : UOk orig m) (ha : m'.accts = m.accts) (hi : m'.ids = m.ids)
    (hu : m'.uses = m.uses) (hn : m.next ≤ m'.next) : UOk orig m' := by
  refine ⟨?_, ?_, ?_, ?_, ?_, ?_, ?_⟩
  · rw [ha]; exact h.len
  · rw [ha, hi, hu]; exact h.acct
  · rw [hu]; exact h.nodup
  · rw [hu]; exact h.uses
  · rw [hu]; exact h.parents
  · rw [hi]; exact fun x hx => Nat.lt_of_lt_of_le (h.low x hx) hn
  · rw [hu]; exact fun u hu x hx => Nat.lt_of_lt_of_le (h.past u hu x hx) hn

theorem drop_cons_sub {α : Type} (x : α) (l : List α) (k : Nat) (h : k ≤ l.length) :
    (x :: l).drop ((x :: l).length - k) = l.drop (l.length - k) := by
  have : (x :: l).length - k = (l.length - k) + 1 := by simp; omega
  rw [this, List.drop_succ_cons]

theorem AOk.push {i : Nat} {o a : Acct} {ids : List Nat} {uses : List Use} (h : AOk i o a ids uses) (x : Nat)
    (hx : ∀ u ∈ uses, x ∉ u.frames) : AOk i o a.push (x :: ids) uses := by
  have hsuf : ∀ u ∈ uses, (u.frames <:+ x :: ids ↔ u.frames <:+ ids) := fun u hu => by
    rw [List.suffix_cons_iff]
    exact ⟨fun h => h.resolve_left (fun e => hx u hu (e ▸ List.mem_cons_self)), Or.inr⟩
  have hroot : RootOk i a.tr (x :: ids) uses := fun hu => by
    obtain ⟨f, u, h1, h2, h3, h4, h5, h6⟩ := h.rooted hu
    exact ⟨f, u, h1, h2, h3, h4, h5, h6.trans (hsuf u h2).symm⟩
  by_cases hb : a.borrowed = true
  · have h1 : a.push = a := if_pos hb
    rw [h1]
    refine ⟨h.addr, h.shape, by have := h.le; simp; omega, fun h' => absurd (hb.symm.trans h') (by decide), h.used, ?_,
      fun u hu he hf => h.live u hu he ((hsuf u hu).mp hf), h.fresh, hroot⟩
    intro pre m post hs hm
    obtain ⟨p, hp, u, hu, h2, h3, h4⟩ := h.stack pre m post hs hm
    refine ⟨p, hp, u, hu, h2, h3, ?_⟩
    have hl := congrArg List.length hs
    simp only [List.length_append, List.length_cons] at hl
    have := h.le
    rw [drop_cons_sub _ _ _ (by omega)]
    exact h4
  · have h1 : a.push = { a with tr := a.tr.push } := if_neg hb
    rw [h1]
    refine ⟨h.addr, h.shape, ?_, fun h' => ?_, h.used, ?_, fun u hu he hf => ?_, h.fresh, hroot⟩
    · have := h.le; simp [Tracker.push]; omega
    · have := h.len h'; simp [Tracker.push]; omega
    · intro pre m post hs hm
      simp only [Tracker.push] at hs ⊢
      cases pre with
      | nil =>
        simp only [List.nil_append, List.cons.injEq] at hs
        rw [← hs.1] at hm
        cases hm
      | cons y pre =>
        simp only [List.cons_append, List.cons.injEq] at hs
        obtain ⟨p, hp, u, hu, h2, h3, h4⟩ := h.stack pre m post hs.2 hm
        refine ⟨p, hp, u, hu, h2, h3, ?_⟩
        have hl := congrArg List.length hs.2
        simp only [List.length_append, List.length_cons] at hl
        have := h.le
        rw [drop_cons_sub _ _ _ (by omega)]
        exact h4
    · obtain ⟨pre, m, post, h2, h3⟩ := h.live u hu he ((hsuf u hu).mp hf)
      exact ⟨.unmatched :: pre, m, post, by simp [Tracker.push, h2], h3⟩

theorem UOk.push {orig : List Acct} {m : Mgr} (h : UOk orig m) (f : Frame) : UOk orig (m.push f) := by
  refine ⟨by simp [Mgr.push, h.len], ?_, h.nodup, h.uses, h.parents, fun x hx => ?_,
    fun u hu x hx => Nat.lt_succ_of_lt (h.past u hu x hx)⟩
  case refine_2 =>
    rcases List.mem_cons.mp hx with rfl | hx
    · exact Nat.lt_succ_self _
    · exact Nat.lt_succ_of_lt (h.low x hx)
  intro i a ha
  simp only [Mgr.push, List.getElem?_map, Option.map_eq_some_iff] at ha
  obtain ⟨b, hb, rfl⟩ := ha
  obtain ⟨o, ho, hok⟩ := h.acct i b hb
  exact ⟨o, ho, hok.push m.next (fun u hu hx => Nat.lt_irrefl _ (h.past u hu _ hx))⟩

theorem AOk.pop {i : Nat} {o a : Acct} {x : Nat} {ids : List Nat} {uses : List Use} (h : AOk i o a (x :: ids) uses)
    (hb' : a.borrowed = true → a.tr.stack.length ≤ ids.length) : AOk i o a.pop ids uses := by
  have hsuf : ∀ u ∈ uses, u.frames.length ≤ ids.length → (u.frames <:+ ids ↔ u.frames <:+ x :: ids) := fun u hu hl => by
    rw [List.suffix_cons_iff]
    exact ⟨Or.inr, fun h => h.resolve_left (fun e => by rw [e] at hl; simp only [List.length_cons] at hl; omega)⟩
  by_cases hb : a.borrowed = true
  · have h1 : a.pop = a := if_pos hb
    rw [h1]
    refine ⟨h.addr, h.shape, hb' hb, fun h' => absurd (hb.symm.trans h') (by decide), h.used, ?_,
      fun u hu he hf => h.live u hu he (List.suffix_cons_iff.mpr (Or.inr hf)), h.fresh, fun hu => ?_⟩
    case refine_2 =>
      obtain ⟨f, u, h1, h2, h3, h4, h5, h6⟩ := h.rooted hu
      refine ⟨f, u, h1, h2, h3, h4, h5, fun hf => ?_, fun hf => h6.mpr (List.suffix_cons_iff.mpr (Or.inr hf))⟩
      obtain ⟨pre, m, post, h7, h8, h9, -⟩ := h.live u h2 h3 (h6.mp hf)
      have hl := congrArg List.length h7
      have := hb' hb
      simp only [List.length_append, List.length_cons] at hl
      exact (hsuf u h2 (by omega)).mpr (h6.mp hf)
    intro pre m post hs hm
    obtain ⟨p, hp, u, hu, h2, h3, h4⟩ := h.stack pre m post hs hm
    refine ⟨p, hp, u, hu, h2, h3, ?_⟩
    have hl := congrArg List.length hs
    simp only [List.length_append, List.length_cons] at hl
    have := hb' hb
    rw [drop_cons_sub _ _ _ (by omega)] at h4
    exact h4
  · have h1 : a.pop = { a with tr := a.tr.pop } := if_neg hb
    rw [h1]
    have hlen := h.len (by simpa using hb)
    refine ⟨h.addr, h.shape, ?_, fun h' => ?_, h.used, ?_, fun u hu he hf => ?_, fun hu => ?_, fun hu => ?_⟩
    · simp [Tracker.pop, hlen]
    · simp [Tracker.pop, hlen]
    · intro pre m post hs hm
      simp only [Tracker.pop] at hs ⊢
      cases hst : a.tr.stack with
      | nil => rw [hst] at hlen; simp at hlen
      | cons y st =>
        rw [hst] at hs
        simp only [List.tail_cons] at hs
        obtain ⟨p, hp, u, hu, h2, h3, h4⟩ := h.stack (y :: pre) m post (by rw [hst, hs]; rfl) hm
        refine ⟨p, hp, u, hu, h2, h3, ?_⟩
        rw [hst] at hlen
        have hl := congrArg List.length hs
        simp only [List.length_append, List.length_cons] at hl hlen
        rw [drop_cons_sub _ _ _ (by omega)] at h4
        exact h4
    · obtain ⟨pre, m, post, h2, h3, h4, h5⟩ := h.live u hu he (List.suffix_cons_iff.mpr (Or.inr hf))
      cases pre with
      | nil =>
        have := hf.length_le
        rw [h2] at hlen
        simp only [List.nil_append, List.length_cons] at hlen
        omega
      | cons y pre => exact ⟨pre, m, post, by simp [Tracker.pop, h2], h3, h4, h5⟩
    · obtain ⟨h2, h3⟩ := h.fresh hu
      simp only [Tracker.pop, h2, h3]
      exact ⟨trivial, trivial⟩
    · obtain ⟨f, u, h1, h2, h3, h4, h5, h6⟩ := h.rooted hu
      refine ⟨f, u, h1, h2, h3, h4, h5, ?_⟩
      simp only [Tracker.pop, h1, List.length_tail, hlen, List.length_cons, Nat.add_sub_cancel]
      by_cases hf : f ≥ ids.length
      · rw [if_pos hf]
        refine ⟨fun h => (by cases h), fun h => ?_⟩
        have := h.length_le
        omega
      · rw [if_neg hf, h6]
        exact (hsuf u h2 (by omega)).symm

theorem UOk.popped {orig : List Acct} {m m2 : Mgr} {f : Frame} (h : UOk orig m) (hle : MLe (m.push f) m2) (h2 : UOk orig m2) :
    UOk orig m2.popOnly := by
  have hst : m2.stack = f :: m.stack := hle.stack
  have hids : m2.ids = m.next :: m.ids := hle.ids
  have hpop : m2.popOnly = Mgr.mk (m2.accts.map Acct.pop) (dropOutOfScope (m2.invokers.map Invoker.pop)) m.stack m2.uses
      m2.ids.tail m2.next := by
    unfold Mgr.popOnly; rw [hst]
  rw [hpop, hids]
  refine ⟨by simp [h2.len], ?_, h2.nodup, h2.uses, h2.parents, fun x hx => h2.low x (by rw [hids]; exact List.mem_cons_of_mem _ hx), h2.past⟩
  intro i a ha
  simp only [List.getElem?_map, Option.map_eq_some_iff] at ha
  obtain ⟨b, hb, rfl⟩ := ha
  obtain ⟨o, ho, hok⟩ := h2.acct i b hb
  rw [hids] at hok
  refine ⟨o, ho, hok.pop ?_⟩
  intro hbb
  obtain ⟨c, hc, hcb⟩ := forall₂_get hle.accts hb
  simp only [Mgr.push, List.getElem?_map, Option.map_eq_some_iff] at hc
  obtain ⟨d, hd, rfl⟩ := hc
  have hbd : d.push.borrowed = true := by rw [← hcb.borrowed]; exact hbb
  have hdb : d.borrowed = true := by
    unfold Acct.push at hbd; split at hbd
    · assumption
    · exact hbd
  have hpush : d.push = d := if_pos hdb
  have := hcb.same hbd
  rw [this, hpush]
  obtain ⟨o', _, hok'⟩ := h.acct i d hd
  exact hok'.le

/-- Changing only the verified and borrowed flags of a tracker. -/
theorem UOk.setFlags {orig : List Acct} {m : Mgr} (h : UOk orig m) (i : Nat) (g : Acct → Acct)
    (ha : ∀ a, (g a).addr = a.addr) (ht : ∀ a, (g a).tr = a.tr)
    (hb : ∀ a, m.accts[i]? = some a → (g a).borrowed = false → a.tr.stack.length = m.ids.length) : UOk orig (m.setAcct i g) := by
  refine ⟨by simp [Mgr.setAcct, h.len], ?_, h.nodup, h.uses, h.parents, h.low, h.past⟩
  intro j a hj
  simp only [Mgr.setAcct, List.getElem?_modify] at hj ⊢
  cases hc : m.accts[j]? with
  | none => rw [hc] at hj; cases hj
  | some c =>
    rw [hc] at hj
    obtain ⟨o, ho, hok⟩ := h.acct j c hc
    simp only [Option.map_eq_map, Option.map_some, Option.some.injEq] at hj
    by_cases hij : i = j
    · subst hij
      rw [if_pos rfl] at hj
      subst hj
      refine ⟨o, ho, ⟨(ha c).trans hok.addr, by rw [ht]; exact hok.shape, by rw [ht]; exact hok.le, fun h' => ?_,
        by rw [ht]; exact hok.used, by rw [ht]; exact hok.stack, by rw [ht]; exact hok.live, by rw [ht]; exact hok.fresh,
        by rw [ht]; exact hok.rooted⟩⟩
      rw [ht]; exact hb c hc h'
    · rw [if_neg hij] at hj
      subst hj
      exact ⟨o, ho, hok⟩

/-- The tracker that matched, after the match. -/
theorem AOk.extend {i : Nat} {o a : Acct} {ids : List Nat} {uses : List Use} {f : AuthFn} {ar : Bool} {tr : Tracker}
    {p : List Nat} (h : AOk i o a ids uses) (hb : a.borrowed = false) (he : Extended a.tr f ar tr (.ok (some p))) (u : Use)
    (hu : u.entry = i) (hp : u.path = p) (hfr : u.frames = ids) (c : Acct) (hca : c.addr = a.addr) (hct : c.tr = tr) :
    AOk i o c ids (u :: uses) ∧ (∀ v ∈ uses, ¬ (v.entry = i ∧ v.path = p)) ∧
    (∃ n, o.tr.root.at? p = some n ∧ n.fn = f) ∧
    (∀ q j, p = q ++ [j] → ∃ v ∈ uses, v.entry = i ∧ v.path = q ∧ v.frames <:+ ids ∧ v.frames.length < ids.length) := by
  have hlen := h.len hb
  -- common: what holds of the new tracker
  have key : ∀ (below : List MatchState) (m : MatchState) (r : Inv), a.tr.stack = .unmatched :: below → m.matched = true → r.reset = a.tr.root.reset →
      tr.stack = m :: below → tr.root = r → (∃ n, a.tr.root.at? p = some n ∧ n.used = false ∧ n.fn = f) →
      (tr.root.used = false → tr.rootFrame = none ∧ tr.fully = false) → RootOk i tr ids (u :: uses) →
      r = a.tr.root.use p → walk (m :: below).reverse r = .ok (some p) →
      AOk i o c ids (u :: uses) ∧ (∀ v ∈ uses, ¬ (v.entry = i ∧ v.path = p)) ∧ (∃ n, o.tr.root.at? p = some n ∧ n.fn = f) := by
    intro below m r hs hmm hr hts htr hnode hfresh hrooted hruse hwalk
    obtain ⟨n, hn, hnu, hnf⟩ := hnode
    refine ⟨⟨hca.trans h.addr, ?_, ?_, ?_, ?_, ?_, ?_, by rw [hct]; exact hfresh, by rw [hct]; exact hrooted⟩, ?_, ?_⟩
    · rw [hct, htr, hr]; exact h.shape
    · rw [hct, hts]; have := h.le; rw [hs] at this; exact this
    · intro _; rw [hct, hts]; rw [hs] at hlen; exact hlen
    · intro q k hk
      rw [hct, htr, hruse] at hk
      have h1 := Inv.at?_use p q a.tr.root
      rw [hk] at h1
      cases h2 : a.tr.root.at? q with
      | none => rw [h2] at h1; cases h1
      | some k0 =>
        rw [h2] at h1
        simp only [Option.map_some, Option.some.injEq] at h1
        rw [h1, Bool.or_eq_true, decide_eq_true_iff, h.used q k0 h2]
        constructor
        · rintro (⟨v, hv, h3, h4⟩ | rfl)
          · exact ⟨v, List.mem_cons_of_mem _ hv, h3, h4⟩
          · exact ⟨u, List.mem_cons_self, hu, hp⟩
        · rintro ⟨v, hv, h3, h4⟩
          rcases List.mem_cons.mp hv with rfl | hv
          · right; rw [← hp, h4]
          · left; exact ⟨v, hv, h3, h4⟩
    · intro pre m' post hst hm'
      rw [hct, hts] at hst
      rw [hct, htr]
      cases pre with
      | nil =>
        simp only [List.nil_append, List.cons.injEq] at hst
        obtain ⟨rfl, rfl⟩ := hst
        refine ⟨p, hwalk, u, List.mem_cons_self, hu, hp, ?_⟩
        rw [hfr]
        rw [hs] at hlen
        simp only [List.length_cons] at hlen
        rw [hlen]
        simp
      | cons y pre =>
        simp only [List.cons_append, List.cons.injEq] at hst
        obtain ⟨q, hq, v, hv, h3, h4, h5⟩ := h.stack (.unmatched :: pre) m' post (by rw [hs, hst.2]; rfl) hm'
        exact ⟨q, by rw [walk_reset _ hr]; exact hq, v, List.mem_cons_of_mem _ hv, h3, h4, h5⟩
    · intro v hv he hf
      rw [hct, hts, htr]
      rcases List.mem_cons.mp hv with rfl | hv
      · refine ⟨[], m, below, rfl, hmm, ?_, by rw [hp]; exact hwalk⟩
        rw [hfr, ← hlen, hs, List.length_cons]
      · obtain ⟨pre, m', post, h2, h3, h4, h5⟩ := h.live v hv he hf
        cases pre with
        | nil =>
          rw [hs] at h2
          simp only [List.nil_append, List.cons.injEq] at h2
          rw [← h2.1] at h3
          cases h3
        | cons y pre =>
          rw [hs] at h2
          simp only [List.cons_append, List.cons.injEq] at h2
          exact ⟨m :: pre, m', post, by rw [h2.2]; rfl, h3, h4, by rw [walk_reset _ hr]; exact h5⟩
    · intro v hv hc
      have := (h.used p n hn).mpr ⟨v, hv, hc⟩
      rw [hnu] at this; cases this
    · obtain ⟨n', hn', hr'⟩ := Inv.at?_of_reset h.shape.symm hn
      refine ⟨n', hn', ?_⟩
      rw [((Inv.reset_eq_iff n n').mp hr').1, hnf]
  generalize hres : (Except.ok (some p) : Res (Option (List Nat))) = res at he
  cases he with
  | error e => cases hres
  | none => cases hres
  | root below hs hw hu' ha hf =>
    simp only [Except.ok.injEq, Option.some.injEq] at hres
    subst hres
    have hl0 : below.length + 1 = ids.length := by rw [← hlen, hs]; rfl
    have hk := key below .root (a.tr.root.use []) hs rfl (Inv.reset_use _ _) rfl rfl ⟨_, Inv.at?_nil _, hu', hf⟩
      (fun h => by rw [Inv.use_used_nil] at h; cases h)
      (fun _ => ⟨below.length, u, rfl, List.mem_cons_self, hu, hp, by rw [hfr]; exact hl0.symm,
        ⟨fun _ => by rw [hfr]; exact List.suffix_rfl, fun _ => (h.fresh hu').2⟩⟩) rfl (by
      rw [List.reverse_cons, walk_reset _ (Inv.reset_use [] a.tr.root)]
      rw [hs, List.reverse_cons, walk_append_unmatched] at hw
      exact walk_append_root hw)
    exact ⟨hk.1, hk.2.1, hk.2.2, fun q j h' => by simp at h'⟩
  | sub below hs q0 j0 node child hw hn hc hu' hf =>
    simp only [Except.ok.injEq, Option.some.injEq] at hres
    subst hres
    have hw' : walk below.reverse a.tr.root = .ok (some q0) := by
      rw [hs, List.reverse_cons, walk_append_unmatched] at hw; exact hw
    have hused : (a.tr.root.use (q0 ++ [j0])).used = a.tr.root.used := by cases q0 <;> simp [Inv.use_used_cons]
    have hk := key below (.sub j0) (a.tr.root.use (q0 ++ [j0])) hs rfl (Inv.reset_use _ _) rfl rfl
      ⟨child, by rw [Inv.at?_append, hn]; simp [Inv.at?_cons, hc, Inv.at?_nil], hu', hf⟩
      (fun h' => by rw [hused] at h'; exact h.fresh h')
      (fun h' => by
        dsimp only at h'
        rw [hused] at h'
        obtain ⟨f0, u0, h1, h2, h3⟩ := h.rooted h'
        exact ⟨f0, u0, h1, List.mem_cons_of_mem _ h2, h3⟩) rfl (by
        rw [List.reverse_cons, walk_reset _ (Inv.reset_use _ a.tr.root)]
        exact walk_append_sub hw' hn (by rw [hc]; rfl))
    refine ⟨hk.1, hk.2.1, hk.2.2, ?_⟩
    intro q j hqj
    have hq : q0 = q := by
      have := congrArg List.dropLast hqj
      simpa using this
    subst hq
    obtain ⟨pre, m, post, hl, hm, _, hwm⟩ := walk_last _ _ _ hw'
    have hbelow : below = post.reverse ++ m :: pre.reverse := by
      have := congrArg List.reverse hl
      simpa using this
    obtain ⟨p', hp', v, hv, h3, h4, h5⟩ := h.stack (.unmatched :: post.reverse) m pre.reverse (by rw [hs, hbelow]; rfl) hm
    rw [List.reverse_cons, List.reverse_reverse, hwm] at hp'
    simp only [Except.ok.injEq, Option.some.injEq] at hp'
    refine ⟨v, hv, h3, h4.trans hp'.symm, ?_, ?_⟩
    · rw [h5]; exact List.drop_suffix _ _
    · rw [h5]
      have hl1 := congrArg List.length hs
      have hl2 := congrArg List.length hbelow
      simp only [List.length_append, List.length_cons, List.length_reverse, List.length_drop] at hl1 hl2 ⊢
      omega

/-- Recording a match. -/
theorem UOk.recordMatch {orig : List Acct} {m : Mgr} (h : UOk orig m) {i : Nat} {a : Acct} {f : AuthFn} {ar : Bool} {tr : Tracker}
    {p : List Nat} (ha : m.accts[i]? = some a) (hb : a.borrowed = false) (he : Extended a.tr f ar tr (.ok (some p))) :
    UOk orig (m.recordMatch i tr p a.addr f) := by
  obtain ⟨o, ho, hok⟩ := h.acct i a ha
  obtain ⟨h1, h2, ⟨n, hn, hnf⟩, h3⟩ := hok.extend hb he ⟨i, p, a.addr, f, m.ids⟩ rfl rfl rfl
    { a with tr := tr, borrowed := true } rfl rfl
  refine ⟨by simp [Mgr.recordMatch, Mgr.setAcct, h.len], ?_, ?_, ?_, ?_, h.low, fun u hu => ?_⟩
  case refine_5 =>
    rcases List.mem_cons.mp hu with rfl | hu
    · exact h.low
    · exact h.past u hu
  · intro j c hj
    simp only [Mgr.recordMatch, Mgr.setAcct, List.getElem?_modify] at hj ⊢
    by_cases hij : i = j
    · subst hij
      rw [ha] at hj
      simp only [if_true, Option.map_eq_map, Option.map_some, Option.some.injEq] at hj
      subst hj
      exact ⟨o, ho, h1⟩
    · simp only [if_neg hij] at hj
      have hj' : m.accts[j]? = some c := by
        cases hc : m.accts[j]? with
        | none => rw [hc] at hj; cases hj
        | some d => rw [hc] at hj; simpa using hj
      obtain ⟨o', ho', hok'⟩ := h.acct j c hj'
      refine ⟨o', ho', ⟨hok'.addr, hok'.shape, hok'.le, hok'.len, ?_, ?_, fun v hv he => ?_, hok'.fresh, fun hu => ?_⟩⟩
      · intro q k hk
        rw [hok'.used q k hk]
        constructor
        · rintro ⟨v, hv, h4⟩; exact ⟨v, List.mem_cons_of_mem _ hv, h4⟩
        · rintro ⟨v, hv, h4, h5⟩
          rcases List.mem_cons.mp hv with rfl | hv
          · exact absurd h4 hij
          · exact ⟨v, hv, h4, h5⟩
      · intro pre mm post hs hm
        obtain ⟨q, hq, v, hv, h4⟩ := hok'.stack pre mm post hs hm
        exact ⟨q, hq, v, List.mem_cons_of_mem _ hv, h4⟩
      · rcases List.mem_cons.mp hv with rfl | hv
        · exact absurd he hij
        · exact hok'.live v hv he
      · obtain ⟨f0, u0, h1, h2, h3⟩ := hok'.rooted hu
        exact ⟨f0, u0, h1, List.mem_cons_of_mem _ h2, h3⟩
  · simp only [Mgr.recordMatch]
    refine List.Pairwise.cons ?_ h.nodup
    intro v hv hc
    exact h2 v hv ⟨hc.1.symm, hc.2.symm⟩
  · intro u hu
    simp only [Mgr.recordMatch] at hu
    rcases List.mem_cons.mp hu with rfl | hu
    · exact ⟨o, n, ho, hok.addr.symm, hn, hnf⟩
    · exact h.uses u hu
  · intro pre u post hs q j hq
    simp only [Mgr.recordMatch] at hs
    cases pre with
    | nil =>
      simp only [List.nil_append, List.cons.injEq] at hs
      obtain ⟨rfl, rfl⟩ := hs
      exact h3 q j hq
    | cons y pre =>
      simp only [List.cons_append, List.cons.injEq] at hs
      exact h.parents pre u post hs.2 q j hq

end Soroban.Auth
