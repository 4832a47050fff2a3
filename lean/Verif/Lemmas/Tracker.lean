import Verif.Lemmas.Auth
/-! Lemmas about trackers and the authorization manager: what the code of a frame can change, and exact rollback. -/
namespace Soroban.Auth
open Soroban

/-! ### one tracker -/

/-- The fields about the root agree with its flag and the stack. -/
structure TWF (t : Tracker) : Prop where
  fresh : t.root.used = false → t.rootFrame = none ∧ t.fully = false
  frame : ∀ f, t.rootFrame = some f → t.fully = false → f < t.stack.length
  walks : ∀ post, post <:+ t.stack → ∃ r, walk post.reverse t.root = .ok r ∧ ∀ p, r = some p → ∃ n, t.root.at? p = some n

/-- What code running in one frame can do to a tracker. -/
structure TLe (t t' : Tracker) : Prop where
  shape : t'.root.reset = t.root.reset
  len : t'.stack.length = t.stack.length
  below : t'.stack.tail = t.stack.tail
  keep : t.root.used = true → t'.rootFrame = t.rootFrame ∧ t'.fully = t.fully ∧ t'.root.used = true

theorem TLe.refl (t : Tracker) : TLe t t := ⟨rfl, rfl, rfl, fun h => ⟨rfl, rfl, h⟩⟩

theorem TLe.trans {t t' t'' : Tracker} (h : TLe t t') (h' : TLe t' t'') : TLe t t'' := by
  refine ⟨h'.shape.trans h.shape, h'.len.trans h.len, h'.below.trans h.below, fun hu => ?_⟩
  obtain ⟨a, b, c⟩ := h.keep hu
  obtain ⟨a', b', c'⟩ := h'.keep c
  exact ⟨a'.trans a, b'.trans b, c'⟩

theorem TWF.new (r : Inv) : TWF (Tracker.new r) :=
  ⟨fun _ => ⟨rfl, rfl⟩, fun f h => (by cases h), fun post h => by
    rw [List.suffix_nil.mp h]; exact ⟨none, rfl, fun p h => (by cases h)⟩⟩

theorem TWF.push {t : Tracker} (h : TWF t) : TWF t.push :=
  ⟨h.fresh, fun f hf hd => (by have := h.frame f hf hd; simp [Tracker.push]; omega), fun post hp => by
    rcases List.suffix_cons_iff.mp hp with rfl | hp
    · obtain ⟨r, h1, h2⟩ := h.walks t.stack List.suffix_rfl
      exact ⟨r, by rw [List.reverse_cons, walk_append_unmatched]; exact h1, h2⟩
    · exact h.walks post hp⟩

theorem TWF.pop {t : Tracker} (h : TWF t) : TWF t.pop := by
  refine ⟨fun hu => ?_, fun f hf hd => ?_, fun post hp => h.walks post (hp.trans (List.tail_suffix _))⟩
  · have := h.fresh hu
    simp only [Tracker.pop, this]
    exact ⟨trivial, trivial⟩
  · simp only [Tracker.pop] at hf hd ⊢
    rw [hf] at hd
    dsimp only at hd
    split at hd
    · cases hd
    · omega

/-- A frame pushed and popped leaves the tracker as the code of the frame left it, in the frame below. -/
theorem TLe.popped {t t2 : Tracker} (hw : TWF t) (h : TLe t.push t2) : TLe t t2.pop := by
  have hs : t2.stack.tail = t.stack := h.below
  refine ⟨h.shape, by simp only [Tracker.pop, hs], by simp only [Tracker.pop, hs], fun hu => ?_⟩
  obtain ⟨a, b, c⟩ := h.keep hu
  refine ⟨a, ?_, c⟩
  simp only [Tracker.pop, hs]
  rw [a, b]
  simp only [Tracker.push]
  cases hf : t.rootFrame with
  | none => rfl
  | some f =>
    dsimp only
    split
    · next hge =>
      cases hd : t.fully with
      | true => rfl
      | false => have := hw.frame f hf hd; omega
    · rfl

/-- A frame pushed, rolled back and popped leaves the tracker exactly as it was. -/
theorem TLe.rolledBack {t t2 : Tracker} (hw : TWF t) (h : TLe t.push t2) :
    ∃ t3, t2.rollback t.push.root.snapshot = .ok t3 ∧ t3.pop = t := by
  have hs : t2.stack.tail = t.stack := h.below
  have hr := Inv.rollback_snapshot t.push.root t2.root h.shape
  unfold Tracker.rollback
  rw [hr]
  dsimp only
  cases hu : t.root.used with
  | false =>
    refine ⟨_, if_pos hu, ?_⟩
    obtain ⟨h1, h2⟩ := hw.fresh hu
    obtain ⟨r, st, rf, fu⟩ := t
    simp only [Tracker.pop, hs] at *
    simp only [Tracker.push, h1, h2]
  | true =>
    have hne : ¬ t.push.root.used = false := by simp [Tracker.push, hu]
    refine ⟨_, if_neg hne, ?_⟩
    obtain ⟨a, b, c⟩ := h.keep hu
    have hp : (TLe.popped hw h).keep hu = ⟨a, ((TLe.popped hw h).keep hu).2.1, c⟩ := rfl
    have hfully := ((TLe.popped hw h).keep hu).2.1
    simp only [Tracker.pop, hs] at hfully ⊢
    rw [hfully, a]
    obtain ⟨r, st, rf, fu⟩ := t
    simp [Tracker.push]

/-- What `extend` does. -/
inductive Extended (t : Tracker) (f : AuthFn) (allowRoot : Bool) : Tracker → Res (Option (List Nat)) → Prop
  | error (e : Err) : Extended t f allowRoot t (.error e)
  | none : Extended t f allowRoot t (.ok none)
  | root (below : List MatchState) (hs : t.stack = .unmatched :: below) (hw : walk t.stack.reverse t.root = .ok none)
      (hu : t.root.used = false) (ha : allowRoot = true) (hf : t.root.fn = f) :
      Extended t f allowRoot { t with root := t.root.use [], stack := .root :: below, rootFrame := some below.length } (.ok (some []))
  | sub (below : List MatchState) (hs : t.stack = .unmatched :: below) (q : List Nat) (i : Nat) (node child : Inv)
      (hw : walk t.stack.reverse t.root = .ok (some q)) (hn : t.root.at? q = some node) (hc : node.subs[i]? = some child)
      (hu : child.used = false) (hf : child.fn = f) :
      Extended t f allowRoot { t with root := t.root.use (q ++ [i]), stack := .sub i :: below } (.ok (some (q ++ [i])))

theorem extend_spec (t : Tracker) (f : AuthFn) (ar : Bool) : Extended t f ar (t.extend f ar).1 (t.extend f ar).2 := by
  unfold Tracker.extend
  cases hs : t.stack with
  | nil => exact .error _
  | cons top below =>
    dsimp only
    cases top with
    | root => exact .none
    | sub i => exact .none
    | unmatched =>
      rw [if_neg (by simp [MatchState.matched])]
      rw [← hs]
      cases hw : walk t.stack.reverse t.root with
      | error e => exact .error _
      | ok o =>
        cases o with
        | none =>
          dsimp only
          split
          · next hc => exact .root below hs hw hc.1 hc.2.1 hc.2.2
          · exact .none
        | some q =>
          dsimp only
          cases hn : t.root.at? q with
          | none => exact .none
          | some node =>
            dsimp only
            cases hi : findFree f node.subs 0 with
            | none => exact .none
            | some i =>
              obtain ⟨_, child, h1, h2, h3⟩ := findFree_spec f node.subs 0 i hi
              exact .sub below hs q i node child hw hn h1 h2 h3

theorem Extended.unchanged {t t' : Tracker} {f : AuthFn} {ar : Bool} (h : Extended t f ar t' (.ok Option.none)) : t' = t := by
  cases h; rfl

/-- After a match, the walk succeeds in every part of the stack. -/
theorem walks_extended {t : Tracker} (hw : TWF t) {below : List MatchState} (hs : t.stack = .unmatched :: below) {m : MatchState}
    {p : List Nat} (hwalk : walk (m :: below).reverse t.root = .ok (some p)) (hn : ∃ n, t.root.at? p = some n) {p' : List Nat}
    (post : List MatchState) (hp : post <:+ m :: below) :
    ∃ r, walk post.reverse (t.root.use p') = .ok r ∧ ∀ p, r = some p → ∃ n, (t.root.use p').at? p = some n := by
  have hat : ∀ {q : List Nat}, (∃ n, t.root.at? q = some n) → ∃ n, (t.root.use p').at? q = some n := by
    rintro q ⟨n, hn⟩
    obtain ⟨n', h, -⟩ := Inv.at?_of_reset (Inv.reset_use p' t.root) hn
    exact ⟨n', h⟩
  rw [walk_reset _ (Inv.reset_use p' t.root)]
  rcases List.suffix_cons_iff.mp hp with rfl | hp
  · exact ⟨some p, hwalk, fun q h => by cases h; exact hat hn⟩
  · obtain ⟨r, h1, h2⟩ := hw.walks post (hp.trans (by rw [hs]; exact List.suffix_cons _ _))
    exact ⟨r, h1, fun q h => hat (h2 q h)⟩

theorem Extended.tle {t t' : Tracker} {f : AuthFn} {ar : Bool} {r : Res (Option (List Nat))} (hw : TWF t)
    (h : Extended t f ar t' r) : TWF t' ∧ TLe t t' := by
  cases h with
  | error e => exact ⟨hw, TLe.refl t⟩
  | none => exact ⟨hw, TLe.refl t⟩
  | root below hs hwk hu ha hf =>
    have hwalk : walk (MatchState.root :: below).reverse t.root = .ok (some []) := by
      rw [hs, List.reverse_cons, walk_append_unmatched] at hwk
      rw [List.reverse_cons]; exact walk_append_root hwk
    refine ⟨⟨fun h => ?_, fun g hg _ => ?_, walks_extended hw hs hwalk ⟨_, Inv.at?_nil _⟩⟩,
      ⟨Inv.reset_use _ _, by simp [hs], by simp [hs], fun h => ?_⟩⟩
    · simp [Inv.use_used_nil] at h
    · simp at hg; simp [← hg]
    · rw [hu] at h; cases h
  | sub below hs q i node child hwk hn hc hu hf =>
    have hused : (t.root.use (q ++ [i])).used = t.root.used := by cases q <;> simp [Inv.use_used_cons]
    have hwalk : walk (MatchState.sub i :: below).reverse t.root = .ok (some (q ++ [i])) := by
      rw [hs, List.reverse_cons, walk_append_unmatched] at hwk
      rw [List.reverse_cons]; exact walk_append_sub hwk hn (by rw [hc]; rfl)
    have hat : t.root.at? (q ++ [i]) = some child := by rw [Inv.at?_append, hn]; simp [Inv.at?_cons, hc, Inv.at?_nil]
    refine ⟨⟨fun h => ?_, fun g hg hd => ?_, walks_extended hw hs hwalk ⟨child, hat⟩⟩,
      ⟨Inv.reset_use _ _, by simp [hs], by simp [hs], fun h => ⟨rfl, rfl, ?_⟩⟩⟩
    · dsimp only at h ⊢; rw [hused] at h; exact hw.fresh h
    · have := hw.frame g hg hd; simpa [hs] using this
    · dsimp only; rw [hused]; exact h

/-! ### trackers of accounts and contracts -/

/-- What code running in one frame can do to an account tracker. -/
structure ALe (a a' : Acct) : Prop where
  addr : a'.addr = a.addr
  source : a'.source = a.source
  nonce : a'.nonce = a.nonce
  borrowed : a'.borrowed = a.borrowed
  verified : a.verified = true → a'.verified = true
  tr : TLe a.tr a'.tr
  same : a.borrowed = true → a' = a

theorem ALe.refl (a : Acct) : ALe a a := ⟨rfl, rfl, rfl, rfl, id, TLe.refl _, fun _ => rfl⟩

theorem ALe.trans {a a' a'' : Acct} (h : ALe a a') (h' : ALe a' a'') : ALe a a'' :=
  ⟨h'.addr.trans h.addr, h'.source.trans h.source, h'.nonce.trans h.nonce, h'.borrowed.trans h.borrowed,
    fun hv => h'.verified (h.verified hv), h.tr.trans h'.tr,
    fun hb => (h'.same (h.borrowed.trans hb)).trans (h.same hb)⟩

theorem ALe.popped {a a2 : Acct} (hw : TWF a.tr) (h : ALe a.push a2) : ALe a a2.pop := by
  by_cases hb : a.borrowed = true
  · have h1 : a.push = a := if_pos hb
    rw [h1] at h
    have h2 := h.same hb
    subst h2
    have h3 : a2.pop = a2 := if_pos hb
    rw [h3]; exact ALe.refl _
  · have h1 : a.push = { a with tr := a.tr.push } := if_neg hb
    have hb2 : ¬ a2.borrowed = true := by rw [h.borrowed, h1]; exact hb
    have h3 : a2.pop = { a2 with tr := a2.tr.pop } := if_neg hb2
    rw [h3]
    have hx := h
    rw [h1] at hx
    exact ⟨hx.addr, hx.source, hx.nonce, hx.borrowed, hx.verified, TLe.popped hw hx.tr, fun hb' => absurd hb' hb⟩

theorem Acct.twf {a : Acct} (hw : TWF a.tr) : TWF a.push.tr ∧ TWF a.pop.tr := by
  unfold Acct.push Acct.pop
  constructor
  · split
    · exact hw
    · exact hw.push
  · split
    · exact hw
    · exact hw.pop

/-- What code running in one frame can do to a tracker of a contract authorization. -/
structure ILe (t t' : Invoker) : Prop where
  addr : t'.addr = t.addr
  tr : TLe t.tr t'.tr

theorem ILe.refl (t : Invoker) : ILe t t := ⟨rfl, TLe.refl _⟩
theorem ILe.trans {t t' t'' : Invoker} (h : ILe t t') (h' : ILe t' t'') : ILe t t'' :=
  ⟨h'.addr.trans h.addr, h.tr.trans h'.tr⟩

/-- Whether the tracker is in scope: it has a frame. -/
def Invoker.live (t : Invoker) : Bool := !t.tr.stack.isEmpty

/-- The trackers in scope come first. -/
def Split (ts : List Invoker) : Prop := ts = ts.filter Invoker.live ++ ts.filter (fun t => !t.live)

theorem dropOutOfScope_append {n z : List Invoker} (hn : ∀ t ∈ n, t.live = true) (hz : ∀ t ∈ z, t.live = false) :
    dropOutOfScope (n ++ z) = n := by
  unfold dropOutOfScope
  have hz' : ∀ t ∈ z.reverse, t.tr.stack.isEmpty = true := by
    intro t ht
    have := hz t (List.mem_reverse.mp ht)
    simpa [Invoker.live] using this
  rw [List.reverse_append, List.dropWhile_append_of_pos hz']
  have : n.reverse.dropWhile (fun t => t.tr.stack.isEmpty) = n.reverse := by
    cases h : n.reverse with
    | nil => rfl
    | cons t ts =>
      have ht : t ∈ n := by rw [← List.mem_reverse, h]; exact List.mem_cons_self
      have := hn t ht
      rw [List.dropWhile_cons_of_neg]
      simpa [Invoker.live] using this
  rw [this, List.reverse_reverse]

theorem split_of_append {n z : List Invoker} (hn : ∀ t ∈ n, t.live = true) (hz : ∀ t ∈ z, t.live = false) :
    (n ++ z).filter Invoker.live = n ∧ (n ++ z).filter (fun t => !t.live) = z ∧ Split (n ++ z) := by
  have h1 : (n ++ z).filter Invoker.live = n := by
    rw [List.filter_append, List.filter_eq_self.mpr hn, List.filter_eq_nil_iff.mpr (fun t ht => by simp [hz t ht]), List.append_nil]
  have h2 : (n ++ z).filter (fun t => !t.live) = z := by
    rw [List.filter_append, List.filter_eq_nil_iff.mpr (fun t ht => by simp [hn t ht]),
      List.filter_eq_self.mpr (fun t ht => by simp [hz t ht]), List.nil_append]
  refine ⟨h1, h2, ?_⟩
  unfold Split
  rw [h1, h2]

theorem split_elim {ts : List Invoker} (h : Split ts) : ∃ n z, ts = n ++ z ∧ (∀ t ∈ n, t.live = true) ∧ (∀ t ∈ z, t.live = false) :=
  ⟨_, _, h, fun t ht => (List.mem_filter.mp ht).2, fun t ht => by simpa using (List.mem_filter.mp ht).2⟩

theorem ILe.live {t t' : Invoker} (h : ILe t t') : t'.live = t.live := by
  have := h.tr.len
  unfold Invoker.live
  cases h1 : t.tr.stack <;> cases h2 : t'.tr.stack <;> simp_all

end Soroban.Auth
