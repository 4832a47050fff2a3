import Verif.Spec.HostAuth
import Mathlib.Data.Nat.Find
import Verif.Lemmas.HostReach
/-! Lemmas for C92: when `require_auth` finds a match. -/
namespace Soroban.Auth
open Soroban

theorem walk_none : ∀ (l : List MatchState) (t : Inv), walk l t = .ok none → ∀ m ∈ l, m.matched = false
  | [], _, _, m, hm => by cases hm
  | .unmatched :: r, t, h, m, hm => by
    rcases List.mem_cons.mp hm with rfl | hm
    · rfl
    · exact walk_none r t h m hm
  | .root :: r, t, h, m, hm => by
    simp only [walk] at h
    cases h2 : walkSub r t with
    | error e => rw [h2] at h; cases h
    | ok q => rw [h2] at h; cases h
  | .sub i :: r, t, h, m, hm => by cases h

theorem findFree_exact (f : AuthFn) (ts : List Inv) : ∀ (k i : Nat), findFree f ts k = some i ↔
    k ≤ i ∧ (∃ n, ts[i - k]? = some n ∧ n.used = false ∧ n.fn = f) ∧ ∀ m < i - k, ∀ c, ts[m]? = some c → ¬ (c.used = false ∧ c.fn = f) := by
  induction ts with
  | nil => intro k i; simp [findFree]
  | cons t ts ih =>
    intro k i
    simp only [findFree]
    by_cases hc : t.used = false ∧ t.fn = f
    · rw [if_pos hc]
      constructor
      · intro h
        cases h
        exact ⟨Nat.le_refl _, ⟨t, by simp, hc⟩, fun m hm => by omega⟩
      · rintro ⟨h1, -, h3⟩
        by_cases he : i = k
        · rw [he]
        · exact absurd hc (h3 0 (by omega) t rfl)
    · rw [if_neg hc, ih]
      constructor
      · rintro ⟨h1, ⟨n, h2, h2'⟩, h3⟩
        have he : i - k = (i - (k + 1)) + 1 := by omega
        refine ⟨by omega, ⟨n, by rw [he]; simpa using h2, h2'⟩, fun m hm c hcm => ?_⟩
        cases m with
        | zero => simp only [List.getElem?_cons_zero, Option.some.injEq] at hcm; rw [← hcm]; exact hc
        | succ m => exact h3 m (by omega) c (by simpa using hcm)
      · rintro ⟨h1, ⟨n, h2, h2'⟩, h3⟩
        have hne : i ≠ k := by
          rintro rfl
          rw [Nat.sub_self, List.getElem?_cons_zero, Option.some.injEq] at h2
          rw [← h2] at h2'; exact hc h2'
        have he : i - k = (i - (k + 1)) + 1 := by omega
        rw [he] at h2
        exact ⟨by omega, ⟨n, by simpa using h2, h2'⟩, fun m hm c hcm => h3 (m + 1) (by omega) c (by simpa using hcm)⟩

/-- The node of a tracker that is next. -/
def Pick (t : Tracker) (f : AuthFn) (ar : Bool) (p : List Nat) : Prop :=
  (p = [] ∧ walk t.stack.reverse t.root = .ok none ∧ t.root.used = false ∧ ar = true ∧ t.root.fn = f) ∨
  ∃ q j node child, p = q ++ [j] ∧ walk t.stack.reverse t.root = .ok (some q) ∧ t.root.at? q = some node ∧ node.subs[j]? = some child ∧
    child.used = false ∧ child.fn = f ∧ ∀ k < j, ∀ c, node.subs[k]? = some c → ¬ (c.used = false ∧ c.fn = f)

theorem extend_exact {t : Tracker} (hw : TWF t) (hne : t.stack ≠ []) (f : AuthFn) (ar : Bool) :
    (∃ r, (t.extend f ar).2 = .ok r) ∧ ∀ p, (t.extend f ar).2 = .ok (some p) ↔ t.topMatched = false ∧ Pick t f ar p := by
  obtain ⟨r, hr, hnode⟩ := hw.walks t.stack List.suffix_rfl
  unfold Tracker.extend Tracker.topMatched
  cases hs : t.stack with
  | nil => exact absurd hs hne
  | cons top below =>
    dsimp only
    by_cases hm : top.matched = true
    · rw [if_pos hm, hm]
      exact ⟨⟨_, rfl⟩, fun p => ⟨fun h => (by cases h), fun h => (by cases h.1)⟩⟩
    · rw [if_neg hm]
      have hm' : top.matched = false := by simpa using hm
      rw [hm', ← hs, hr]
      cases r with
      | none =>
        dsimp only
        by_cases hc : t.root.used = false ∧ ar = true ∧ t.root.fn = f
        · rw [if_pos hc]
          refine ⟨⟨_, rfl⟩, fun p => ⟨fun h => ?_, fun h => ?_⟩⟩
          · cases h; exact ⟨rfl, Or.inl ⟨rfl, hr, hc⟩⟩
          · rcases h.2 with ⟨rfl, -⟩ | ⟨q, j, node, child, -, h2, -⟩
            · rfl
            · rw [hr] at h2; cases h2
        · rw [if_neg hc]
          refine ⟨⟨_, rfl⟩, fun p => ⟨fun h => (by cases h), fun h => ?_⟩⟩
          rcases h.2 with ⟨-, -, h2⟩ | ⟨q, j, node, child, -, h2, -⟩
          · exact absurd h2 hc
          · rw [hr] at h2; cases h2
      | some q =>
        obtain ⟨node, hn⟩ := hnode q rfl
        dsimp only
        rw [hn]
        dsimp only
        cases hf : findFree f node.subs 0 with
        | none =>
          refine ⟨⟨_, rfl⟩, fun p => ⟨fun h => (by cases h), fun h => ?_⟩⟩
          rcases h.2 with ⟨-, h2, -⟩ | ⟨q', j, node', child, -, h2, h3, h4, h5, h6, h7⟩
          · rw [hr] at h2; cases h2
          · rw [hr] at h2
            cases h2
            rw [hn] at h3
            cases h3
            have := (findFree_exact f node.subs 0 j).mpr ⟨Nat.zero_le _, ⟨child, h4, h5, h6⟩, h7⟩
            rw [hf] at this; cases this
        | some i =>
          obtain ⟨-, ⟨child, h1, h2⟩, h3⟩ := (findFree_exact f node.subs 0 i).mp hf
          refine ⟨⟨_, rfl⟩, fun p => ⟨fun h => ?_, fun h => ?_⟩⟩
          · cases h
            exact ⟨rfl, Or.inr ⟨q, i, node, child, rfl, hr, hn, h1, h2.1, h2.2, h3⟩⟩
          · rcases h.2 with ⟨-, h2, -⟩ | ⟨q', j, node', child', rfl, h2, h4, h5, h6, h7, h8⟩
            · rw [hr] at h2; cases h2
            · rw [hr] at h2
              cases h2
              rw [hn] at h4
              cases h4
              have := (findFree_exact f node.subs 0 j).mpr ⟨Nat.zero_le _, ⟨child', h5, h6, h7⟩, h8⟩
              rw [hf] at this; cases this; rfl

/-- A use of an entry needs its root. -/
theorem root_taken {orig : List Acct} {m : Mgr} (h : UOk orig m) : ∀ (n : Nat) (u : Use), u.path.length = n → u ∈ m.uses →
    ∃ v ∈ m.uses, v.entry = u.entry ∧ v.path = []
  | 0, u, hn, hu => ⟨u, hu, rfl, List.length_eq_zero_iff.mp hn⟩
  | n + 1, u, hn, hu => by
    have hne : u.path ≠ [] := fun e => by rw [e] at hn; cases hn
    obtain ⟨pre, post, hs⟩ := List.append_of_mem hu
    have hp : u.path = u.path.dropLast ++ [u.path.getLast hne] := (List.dropLast_append_getLast hne).symm
    obtain ⟨v, hv, h1, h2, -⟩ := h.parents pre u post hs _ _ hp
    obtain ⟨w, hw, h3, h4⟩ := root_taken h n v (by rw [h2, List.length_dropLast, hn]; rfl) (by rw [hs]; simp [hv])
    exact ⟨w, hw, h3.trans h1, h4⟩

end Soroban.Auth

namespace Soroban.Host
open Soroban Soroban.Auth
open Soroban.Host.Spec (Taken Done InUse Nearest Offers Stands RootsOpen Candidate Chosen CalledBy ContractGrant Matchable CanAccess NonceFree Authentic matched
  EntryGrant visible)

theorem topMatched_iff {i : Nat} {o a : Acct} {ids : List Nat} {uses : List Use} (h : AOk i o a ids uses) (hb : a.borrowed = false) :
    a.tr.topMatched = true ↔ Done uses ids i := by
  have hlen := h.len hb
  unfold Tracker.topMatched
  constructor
  · intro ht
    cases hs : a.tr.stack with
    | nil => rw [hs] at ht; cases ht
    | cons m post =>
      rw [hs] at ht
      obtain ⟨p, -, u, hu, h1, -, h2⟩ := h.stack [] m post hs ht
      refine ⟨u, hu, h1, ?_⟩
      rw [h2, ← hlen, hs]
      simp
  · rintro ⟨u, hu, he, hf⟩
    obtain ⟨pre, m, post, hs, hm, hl, -⟩ := h.live u hu he (by rw [hf]; exact List.suffix_rfl)
    have hl2 := congrArg List.length hs
    simp only [List.length_append, List.length_cons] at hl2
    rw [hf, ← hlen] at hl
    have : pre = [] := List.length_eq_zero_iff.mp (by omega)
    rw [hs, this]
    exact hm

/-- The node found by the walk is the one used by the innermost frame. -/
theorem walk_nearest {i : Nat} {o a : Acct} {ids : List Nat} {uses : List Use} (h : AOk i o a ids uses) {q : List Nat}
    (hwk : walk a.tr.stack.reverse a.tr.root = .ok (some q)) : ∃ u, Nearest uses ids i u ∧ u.path = q := by
  obtain ⟨pre, m, post, hl, hm, hun, hw⟩ := walk_last _ _ _ hwk
  have hs : a.tr.stack = post.reverse ++ m :: pre.reverse := by
    have := congrArg List.reverse hl
    simpa using this
  obtain ⟨p, hp, u, hu, h1, h2, h3⟩ := h.stack _ _ _ hs hm
  rw [List.reverse_cons, List.reverse_reverse, hw] at hp
  cases hp
  refine ⟨u, ⟨hu, h1, by rw [h3]; exact List.drop_suffix _ _, fun v hv he hf => ?_⟩, h2⟩
  obtain ⟨pre', m', post', hs', hm', hl', -⟩ := h.live v hv he hf
  refine List.suffix_of_suffix_length_le hf (by rw [h3]; exact List.drop_suffix _ _) ?_
  have hle := h.le
  have e1 := congrArg List.length hs
  simp only [List.length_append, List.length_cons, List.length_reverse] at e1
  rw [hl', h3, List.length_drop, List.length_reverse]
  by_contra hcon
  have hlt : pre'.length < post.reverse.length := by
    have e2 := congrArg List.length hs'
    simp only [List.length_append, List.length_cons, List.length_reverse] at e2 ⊢
    omega
  have hget : a.tr.stack[pre'.length]? = some m' := by rw [hs']; simp
  rw [hs, List.getElem?_append_left hlt] at hget
  have := hun m' (List.mem_reverse.mp (List.mem_of_getElem? hget))
  rw [this] at hm'; cases hm'

/-- And the other way round. -/
theorem nearest_walk {i : Nat} {o a : Acct} {ids : List Nat} {uses : List Use} (hw : TWF a.tr) (h : AOk i o a ids uses) {u : Use}
    (hn : Nearest uses ids i u) : walk a.tr.stack.reverse a.tr.root = .ok (some u.path) := by
  obtain ⟨pre, m, post, hs, hm, hl, hwk⟩ := h.live u hn.1 hn.2.1 hn.2.2.1
  obtain ⟨r, hr, -⟩ := hw.walks a.tr.stack List.suffix_rfl
  cases r with
  | none =>
    have := walk_none _ _ hr m (by rw [hs]; simp)
    rw [this] at hm; cases hm
  | some q =>
    obtain ⟨v, hv, hq⟩ := walk_nearest h hr
    have hfr : v.frames = u.frames := by
      have h1 := hn.2.2.2 v hv.1 hv.2.1 hv.2.2.1
      have h2 := hv.2.2.2 u hn.1 hn.2.1 hn.2.2.1
      exact h1.eq_of_length (Nat.le_antisymm h1.length_le h2.length_le)
    obtain ⟨pre', m', post', hs', hm', hl', hwk'⟩ := h.live v hv.1 hv.2.1 hv.2.2.1
    rw [hfr, hl] at hl'
    have hlen : post.length = post'.length := by omega
    have hss := hs.symm.trans hs'
    have := List.append_inj' hss (by simp [hlen])
    obtain ⟨-, h2⟩ := this
    rw [← h2] at hwk'
    rw [hwk] at hwk'
    simp only [Except.ok.injEq, Option.some.injEq] at hwk'
    rw [hr, hwk', hq]

theorem root_taken_iff {i : Nat} {o a : Acct} {orig : List Acct} {m : Mgr} (hu : UOk orig m) (h : AOk i o a m.ids m.uses) :
    a.tr.root.used = false ↔ ∀ u ∈ m.uses, u.entry ≠ i := by
  have h0 := h.used [] a.tr.root (Inv.at?_nil _)
  constructor
  · intro hf u hmem he
    obtain ⟨v, hv, h1, h2⟩ := root_taken hu _ u rfl hmem
    have := h0.mpr ⟨v, hv, h1.trans he, h2⟩
    rw [hf] at this; cases this
  · intro hall
    cases hr : a.tr.root.used with
    | false => rfl
    | true =>
      obtain ⟨u, hmem, he, -⟩ := h0.mp hr
      exact absurd he (hall u hmem)

/-- The children of a node of the tracker, in terms of the entry that was signed. -/
theorem child_iff {i : Nat} {o a : Acct} {ids : List Nat} {uses : List Use} (h : AOk i o a ids uses) {q : List Nat} {node : Inv}
    (hn : a.tr.root.at? q = some node) (j : Nat) (f : AuthFn) :
    (∃ c, node.subs[j]? = some c ∧ c.used = false ∧ c.fn = f) ↔
    (∃ n, o.tr.root.at? (q ++ [j]) = some n ∧ n.fn = f) ∧ ¬ Taken uses i (q ++ [j]) := by
  have hat : ∀ c, node.subs[j]? = some c ↔ a.tr.root.at? (q ++ [j]) = some c := by
    intro c
    rw [Inv.at?_append, hn]
    simp only [Option.bind_some, Inv.at?_cons, Inv.at?_nil, Option.bind_fun_some]
  constructor
  · rintro ⟨c, hc, hu, hf⟩
    have hc' := (hat c).mp hc
    obtain ⟨n, h1, h2⟩ := Inv.at?_of_reset h.shape.symm hc'
    refine ⟨⟨n, h1, by rw [((Inv.reset_eq_iff c n).mp h2).1, hf]⟩, fun ht => ?_⟩
    have := (h.used _ _ hc').mpr ht
    rw [hu] at this; cases this
  · rintro ⟨⟨n, hn', hf⟩, ht⟩
    obtain ⟨c, h1, h2⟩ := Inv.at?_of_reset h.shape hn'
    refine ⟨c, (hat c).mpr h1, ?_, by rw [((Inv.reset_eq_iff n c).mp h2).1, hf]⟩
    cases hu : c.used with
    | false => rfl
    | true => exact absurd ((h.used _ _ h1).mp hu) ht

theorem pick_iff {i : Nat} {o a : Acct} {orig : List Acct} {m : Mgr} (hu : UOk orig m) (hw : TWF a.tr) (h : AOk i o a m.ids m.uses)
    (hb : a.borrowed = false) (f : AuthFn) (ar : Bool) (p : List Nat) :
    a.tr.topMatched = false ∧ Pick a.tr f ar p ↔ Offers o m.uses m.ids i f p ∧ (p = [] → ar = true) := by
  have hroot : o.tr.root.fn = a.tr.root.fn := ((Inv.reset_eq_iff _ _).mp h.shape).1.symm
  have htop : a.tr.topMatched = false ↔ ¬ Done m.uses m.ids i := by
    rw [← topMatched_iff h hb]; simp
  constructor
  · rintro ⟨ht, ⟨rfl, -, h2, h3, h4⟩ | ⟨q, j, node, child, rfl, h2, h3, h4, h5, h6, h7⟩⟩
    · exact ⟨.root ((root_taken_iff hu h).mp h2) (hroot.trans h4), fun _ => h3⟩
    · obtain ⟨u, hnear, rfl⟩ := walk_nearest h h2
      obtain ⟨⟨n, hn, hf⟩, hnt⟩ := (child_iff h h3 j f).mp ⟨child, h4, h5, h6⟩
      refine ⟨.below hnear (htop.mp ht) hn hf hnt (fun k hk n' hn' hf' => ?_), fun e => by simp at e⟩
      by_contra hcon
      obtain ⟨c, hc1, hc2⟩ := (child_iff h h3 k f).mpr ⟨⟨n', hn', hf'⟩, hcon⟩
      exact h7 k hk c hc1 hc2
  · rintro ⟨ho, har⟩
    cases ho with
    | root hall hf =>
      have hunused := (root_taken_iff hu h).mpr hall
      refine ⟨htop.mpr (fun ⟨u, hmem, he, _⟩ => hall u hmem he), Or.inl ⟨rfl, ?_, hunused, har rfl, hroot.symm.trans hf⟩⟩
      obtain ⟨r, hr, -⟩ := hw.walks a.tr.stack List.suffix_rfl
      cases r with
      | none => exact hr
      | some q =>
        obtain ⟨u, hnear, -⟩ := walk_nearest h hr
        exact absurd hnear.2.1 (hall u hnear.1)
    | @below u j n hnear hd hn hf hnt hfirst =>
      have hwk := nearest_walk hw h hnear
      obtain ⟨r, hr, hnode⟩ := hw.walks a.tr.stack List.suffix_rfl
      rw [hwk] at hr
      cases hr
      obtain ⟨node, hnd⟩ := hnode u.path rfl
      obtain ⟨child, h4, h5, h6⟩ := (child_iff h hnd j f).mpr ⟨⟨n, hn, hf⟩, hnt⟩
      refine ⟨htop.mpr hd, Or.inr ⟨u.path, j, node, child, rfl, hwk, hnd, h4, h5, h6, fun k hk c hc hcf => ?_⟩⟩
      obtain ⟨⟨n', hn', hf'⟩, hnt'⟩ := (child_iff h hnd k f).mp ⟨c, hc, hcf⟩
      exact hnt' (hfirst k hk n' hn' hf')

theorem active_iff {i : Nat} {o a : Acct} {orig : List Acct} {m : Mgr} (hu : UOk orig m) (h : AOk i o a m.ids m.uses) :
    a.tr.active = true ↔ InUse m.uses m.ids i := by
  unfold Tracker.active
  rw [Bool.and_eq_true, Bool.not_eq_true']
  constructor
  · rintro ⟨h1, h2⟩
    obtain ⟨f, u, -, hmem, he, hp, -, hf⟩ := h.rooted h1
    exact ⟨u, hmem, he, hp, hf.mp h2⟩
  · rintro ⟨u, hmem, he, hp, hfr⟩
    have h1 : a.tr.root.used = true := (h.used [] _ (Inv.at?_nil _)).mpr ⟨u, hmem, he, hp⟩
    obtain ⟨f, v, -, hv, he', hp', -, hf⟩ := h.rooted h1
    have huv : u = v := by
      by_contra hne
      have := hu.nodup
      rw [List.pairwise_iff_forall_sublist] at this
      have hs : [u, v].Sublist m.uses ∨ [v, u].Sublist m.uses := by
        obtain ⟨pre, post, hs⟩ := List.append_of_mem hmem
        rw [hs] at hv
        rcases List.mem_append.mp hv with hv | hv
        · right
          rw [hs]
          exact (List.singleton_sublist.mpr hv).append (List.singleton_sublist.mpr List.mem_cons_self)
        · left
          rw [hs]
          rcases List.mem_cons.mp hv with rfl | hv
          · exact absurd rfl hne
          · exact ((List.singleton_sublist.mpr hv).cons_cons u).trans (List.sublist_append_right _ _)
      rcases hs with hs | hs
      · exact this hs ⟨he.trans he'.symm, hp.trans hp'.symm⟩
      · exact this hs ⟨he'.trans he.symm, hp'.trans hp.symm⟩
    exact ⟨h1, hf.mpr (huv ▸ hfr)⟩

/-- Whether new entries of the address may be begun. -/
theorem hasActive_iff {orig : List Acct} {s : Host} (hu : UOk orig s.auth) (a : Addr) :
    (!s.auth.hasActive a) = true ↔ RootsOpen orig s a := by
  unfold Mgr.hasActive
  rw [Bool.not_eq_true', List.any_eq_false]
  constructor
  · intro hall i o ⟨ho, ha, hbor⟩ hin
    have hlt : i < s.auth.accts.length := by rw [hu.len]; exact (List.getElem?_eq_some_iff.mp ho).1
    have hget := List.getElem?_eq_getElem hlt
    obtain ⟨o', ho', hok⟩ := hu.acct i _ hget
    rw [ho] at ho'
    cases ho'
    have hb := hbor _ hget
    have := hall _ (List.getElem_mem hlt)
    rw [hb, (active_iff hu hok).mpr hin, hok.addr, ha] at this
    rw [← topMatched_iff hok hb]
    simpa using this
  · intro hopen t ht hc
    obtain ⟨i, hi⟩ := List.getElem?_of_mem ht
    obtain ⟨o, ho, hok⟩ := hu.acct i t hi
    simp only [Bool.and_eq_true, Bool.not_eq_true', decide_eq_true_eq] at hc
    obtain ⟨⟨⟨h1, h2⟩, h3⟩, h4⟩ := hc
    have := hopen i o ⟨ho, hok.addr.symm.trans h2, fun t' ht' => by rw [hi] at ht'; cases ht'; exact h1⟩ ((active_iff hu hok).mp h3)
    rw [← topMatched_iff hok h1, h4] at this
    cases this

theorem acctLoop_exact (a : Addr) (f : AuthFn) (ar : Bool) (l : List Acct)
    (hok : ∀ t ∈ l, t.borrowed = false → t.addr = a → ∃ r, (t.tr.extend f ar).2 = .ok r) : ∀ (k : Nat),
    (∃ r, acctLoop a f ar l k = .ok r) ∧ ∀ i tr p, acctLoop a f ar l k = .ok (some (i, tr, p)) ↔
      k ≤ i ∧ (∃ t, l[i - k]? = some t ∧ t.borrowed = false ∧ t.addr = a ∧ t.tr.extend f ar = (tr, .ok (some p))) ∧
      ∀ j < i - k, ∀ t q, l[j]? = some t → t.borrowed = false → t.addr = a → (t.tr.extend f ar).2 ≠ .ok (some q) := by
  induction l with
  | nil => intro k; exact ⟨⟨_, rfl⟩, fun i tr p => by simp [acctLoop]⟩
  | cons t ts ih =>
    intro k
    have ih' := ih (fun x hx => hok x (List.mem_cons_of_mem _ hx)) (k + 1)
    have skip : (∀ q, t.borrowed = false → t.addr = a → (t.tr.extend f ar).2 ≠ .ok (some q)) →
        acctLoop a f ar (t :: ts) k = acctLoop a f ar ts (k + 1) →
        (∃ r, acctLoop a f ar (t :: ts) k = .ok r) ∧ ∀ i tr p, acctLoop a f ar (t :: ts) k = .ok (some (i, tr, p)) ↔
        k ≤ i ∧ (∃ t', (t :: ts)[i - k]? = some t' ∧ t'.borrowed = false ∧ t'.addr = a ∧ t'.tr.extend f ar = (tr, .ok (some p))) ∧
        ∀ j < i - k, ∀ t' q, (t :: ts)[j]? = some t' → t'.borrowed = false → t'.addr = a → (t'.tr.extend f ar).2 ≠ .ok (some q) := by
      intro hno he
      rw [he]
      refine ⟨ih'.1, fun i tr p => (ih'.2 i tr p).trans ⟨?_, ?_⟩⟩
      · rintro ⟨h1, ⟨t', h2, h2'⟩, h3⟩
        have e : i - k = (i - (k + 1)) + 1 := by omega
        refine ⟨by omega, ⟨t', by rw [e]; simpa using h2, h2'⟩, fun j hj t1 q hj1 hb ha => ?_⟩
        cases j with
        | zero => simp only [List.getElem?_cons_zero, Option.some.injEq] at hj1; subst hj1; exact hno q hb ha
        | succ j => exact h3 j (by omega) t1 q (by simpa using hj1) hb ha
      · rintro ⟨h1, ⟨t', h2, h2'⟩, h3⟩
        have hne : i ≠ k := by
          rintro rfl
          rw [Nat.sub_self, List.getElem?_cons_zero, Option.some.injEq] at h2
          subst h2
          exact hno p h2'.1 h2'.2.1 (by rw [h2'.2.2])
        have e : i - k = (i - (k + 1)) + 1 := by omega
        rw [e] at h2
        exact ⟨by omega, ⟨t', by simpa using h2, h2'⟩, fun j hj t1 q hj1 => h3 (j + 1) (by omega) t1 q (by simpa using hj1)⟩
    by_cases hc : t.borrowed = true ∨ t.addr ≠ a
    · refine skip (fun q hb ha => ?_) (by rw [acctLoop, if_pos hc])
      rcases hc with hc | hc
      · rw [hb] at hc; cases hc
      · exact absurd ha hc
    · have hc1 : t.borrowed = false := by
        cases hb : t.borrowed with
        | false => rfl
        | true => exact absurd (Or.inl hb) hc
      have hc2 : t.addr = a := by by_contra hx; exact hc (Or.inr hx)
      obtain ⟨r, hr⟩ := hok t List.mem_cons_self hc1 hc2
      rcases hx : t.tr.extend f ar with ⟨tr', r'⟩
      rw [hx] at hr
      simp only at hr
      subst hr
      cases r with
      | none => exact skip (fun q _ _ h => by rw [hx] at h; cases h) (by rw [acctLoop, if_neg hc, hx])
      | some p' =>
        have he : acctLoop a f ar (t :: ts) k = .ok (some (k, tr', p')) := by rw [acctLoop, if_neg hc, hx]
        rw [he]
        refine ⟨⟨_, rfl⟩, fun i tr p => ⟨fun h => ?_, ?_⟩⟩
        · simp only [Except.ok.injEq, Option.some.injEq, Prod.mk.injEq] at h
          obtain ⟨rfl, rfl, rfl⟩ := h
          exact ⟨Nat.le_refl _, ⟨t, by simp, hc1, hc2, hx⟩, fun j hj => by omega⟩
        · rintro ⟨h1, ⟨t', h2, h2'⟩, h3⟩
          by_cases e : i = k
          · subst e
            rw [Nat.sub_self, List.getElem?_cons_zero, Option.some.injEq] at h2
            subst h2
            rw [hx] at h2'
            simp only [Prod.mk.injEq, Except.ok.injEq, Option.some.injEq] at h2'
            obtain ⟨-, -, rfl, rfl⟩ := h2'
            rfl
          · exact absurd (by rw [hx]) (h3 0 (by omega) t p' rfl hc1 hc2)

theorem extend_true {t tr : Tracker} {f : AuthFn} {ar : Bool} {p : List Nat} (h : t.extend f ar = (tr, .ok (some p))) :
    t.extend f true = (tr, .ok (some p)) := by
  cases ar with
  | true => exact h
  | false =>
    unfold Tracker.extend at h ⊢
    cases hs : t.stack with
    | nil => rw [hs] at h; cases h
    | cons top below =>
      rw [hs] at h
      dsimp only at h ⊢
      by_cases hm : top.matched = true
      · rw [if_pos hm] at h; cases h
      · rw [if_neg hm] at h ⊢
        cases hw : walk (top :: below).reverse t.root with
        | error e => rw [hw] at h; cases h
        | ok r =>
          rw [hw] at h
          cases r with
          | some q => exact h
          | none =>
            exfalso
            dsimp only at h
            split at h
            · rename_i hc
              simp at hc
            · cases h

theorem extend_same {t tr : Tracker} {f : AuthFn} {ar : Bool} (h : t.extend f ar = (tr, .ok none)) : tr = t := by
  have := extend_spec t f ar
  rw [h] at this
  cases this
  rfl

theorem pick_matchable {t : Tracker} (f : AuthFn) :
    (∃ p, Pick t f true p) ↔ ∃ p n, Matchable t p ∧ t.root.at? p = some n ∧ n.used = false ∧ n.fn = f := by
  constructor
  · rintro ⟨p, ⟨rfl, h1, h2, -, h4⟩ | ⟨q, j, node, child, rfl, h2, h3, h4, h5, h6, -⟩⟩
    · exact ⟨[], t.root, Or.inl ⟨rfl, h1⟩, rfl, h2, h4⟩
    · exact ⟨q ++ [j], child, Or.inr ⟨q, j, rfl, h2⟩, by rw [at?_append q j t.root node h3]; exact h4, h5, h6⟩
  · rintro ⟨p, n, ⟨rfl, h1⟩ | ⟨q, j, rfl, h1⟩, h2, h3, h4⟩
    · cases h2
      exact ⟨[], Or.inl ⟨rfl, h1, h3, rfl, h4⟩⟩
    · have hq : ∃ node, t.root.at? q = some node ∧ node.subs[j]? = some n := by
        rw [Inv.at?_append] at h2
        cases hn : t.root.at? q with
        | none => rw [hn] at h2; cases h2
        | some node =>
          rw [hn] at h2
          simp only [Option.bind_some, Inv.at?_cons, Inv.at?_nil, Option.bind_fun_some] at h2
          exact ⟨node, rfl, h2⟩
      obtain ⟨node, hn, hj⟩ := hq
      let P : Nat → Prop := fun k => ∃ c, node.subs[k]? = some c ∧ c.used = false ∧ c.fn = f
      have hex : ∃ k, P k := ⟨j, n, hj, h3, h4⟩
      classical
      obtain ⟨c, hc1, hc2, hc3⟩ := Nat.find_spec hex
      exact ⟨q ++ [Nat.find hex], Or.inr ⟨q, _, node, c, rfl, h1, hn, hc1, hc2, hc3,
        fun k hk c' hc' hcf => Nat.find_min hex hk ⟨c', hc', hcf⟩⟩⟩

theorem invokerLoop_exact (cur : Option Addr) (a : Addr) (f : AuthFn) : ∀ l : List Invoker,
    (∀ t ∈ l, some t.addr ≠ cur → t.addr = a → ∃ r, (t.tr.extend f true).2 = .ok r) →
    ((∃ l', invokerLoop cur a f l = (l', .ok true)) ∧
      ∃ t ∈ l, some t.addr ≠ cur ∧ t.addr = a ∧ ∃ p, (t.tr.extend f true).2 = .ok (some p)) ∨
    (invokerLoop cur a f l = (l, .ok false) ∧
      ∀ t ∈ l, some t.addr ≠ cur → t.addr = a → ∀ p, (t.tr.extend f true).2 ≠ .ok (some p)) := by
  intro l
  induction l with
  | nil => intro _; exact Or.inr ⟨rfl, fun t ht => by cases ht⟩
  | cons t ts ih =>
    intro hok
    have ih' := ih (fun x hx => hok x (List.mem_cons_of_mem _ hx))
    have skip : invokerLoop cur a f (t :: ts) = (t :: (invokerLoop cur a f ts).1, (invokerLoop cur a f ts).2) →
        (some t.addr ≠ cur → t.addr = a → ∀ p, (t.tr.extend f true).2 ≠ .ok (some p)) →
        ((∃ l', invokerLoop cur a f (t :: ts) = (l', .ok true)) ∧
          ∃ x ∈ t :: ts, some x.addr ≠ cur ∧ x.addr = a ∧ ∃ p, (x.tr.extend f true).2 = .ok (some p)) ∨
        (invokerLoop cur a f (t :: ts) = (t :: ts, .ok false) ∧
          ∀ x ∈ t :: ts, some x.addr ≠ cur → x.addr = a → ∀ p, (x.tr.extend f true).2 ≠ .ok (some p)) := by
      intro he hno
      rw [he]
      rcases ih' with ⟨⟨l', h1⟩, x, hx, h2⟩ | ⟨h1, h2⟩
      · exact Or.inl ⟨⟨_, by rw [h1]⟩, x, List.mem_cons_of_mem _ hx, h2⟩
      · refine Or.inr ⟨by rw [h1], fun x hx => ?_⟩
        rcases List.mem_cons.mp hx with rfl | hx
        · exact hno
        · exact h2 x hx
    by_cases hc : some t.addr = cur ∨ t.addr ≠ a
    · refine skip (by rw [invokerLoop, if_pos hc]) (fun h1 h2 => ?_)
      rcases hc with hc | hc
      · exact absurd hc h1
      · exact absurd h2 hc
    · have hc1 : some t.addr ≠ cur := fun h => hc (Or.inl h)
      have hc2 : t.addr = a := by by_contra hx; exact hc (Or.inr hx)
      obtain ⟨r, hr⟩ := hok t List.mem_cons_self hc1 hc2
      rcases hx : t.tr.extend f true with ⟨tr', r'⟩
      rw [hx] at hr
      simp only at hr
      subst hr
      cases r with
      | some p =>
        exact Or.inl ⟨⟨{ t with tr := tr' } :: ts, by rw [invokerLoop, if_neg hc, hx]⟩, t, List.mem_cons_self, hc1, hc2, p, by rw [hx]⟩
      | none =>
        have : tr' = t.tr := extend_same hx
        refine skip ?_ (fun _ _ p h => by rw [hx] at h; cases h)
        rw [invokerLoop, if_neg hc, hx, this]

/-- What a contract has authorized in its own name. -/
theorem checkInvoker_exact {m : Mgr} (hw : MWF m) {top : Frame} {rest : List Frame} (hst : m.stack = top :: rest)
    (hdead : ∀ t ∈ m.invokers, t.live = false → top.contract? = some t.addr) (s : Host) (hs : s.auth = m) (a : Addr) (f : AuthFn) :
    ((∃ m', m.checkInvoker a f = (m', .ok true)) ∧ (CalledBy s a ∨ ContractGrant s a f)) ∨
    (m.checkInvoker a f = (m, .ok false) ∧ ¬ (CalledBy s a ∨ ContractGrant s a f)) := by
  subst hs
  unfold Mgr.checkInvoker CalledBy ContractGrant
  rw [hst]
  cases rest with
  | nil =>
    refine Or.inr ⟨rfl, ?_⟩
    rintro (h | ⟨h, -⟩)
    · cases h
    · simp at h
  | cons below more =>
    dsimp only
    by_cases hb : below.contract? = some a
    · rw [if_pos hb]
      exact Or.inl ⟨⟨_, rfl⟩, Or.inl (by simpa using hb)⟩
    · rw [if_neg hb]
      have hne : ∀ t ∈ s.auth.invokers, some t.addr ≠ top.contract? → t.tr.stack ≠ [] := by
        intro t ht hcur he
        exact hcur (hdead t ht (by simp [Invoker.live, he])).symm
      have hloop := invokerLoop_exact top.contract? a f s.auth.invokers
        (fun t ht hcur _ => (extend_exact (hw.invokers t ht) (hne t ht hcur) f true).1)
      rcases hloop with ⟨⟨l', h1⟩, t, ht, h2, h3, p, h4⟩ | ⟨h1, h2⟩
      · rw [h1]
        refine Or.inl ⟨⟨_, rfl⟩, Or.inr ⟨by simp, ?_, t, ht, h3, ?_⟩⟩
        · intro he
          exact h2 (by rw [h3]; exact he.symm)
        · obtain ⟨h5, h6⟩ := ((extend_exact (hw.invokers t ht) (hne t ht h2) f true).2 p).mp h4
          exact ⟨h5, (pick_matchable f).mp ⟨p, h6⟩⟩
      · rw [h1]
        refine Or.inr ⟨by rw [← hst], ?_⟩
        rintro (h | ⟨-, h3, t, ht, h4, h5, h6⟩)
        · exact hb (by simpa using h)
        · obtain ⟨p, hp⟩ := (pick_matchable f).mpr h6
          have hcur : some t.addr ≠ top.contract? := fun he => h3 (by simpa [h4] using he.symm)
          exact h2 t ht hcur h4 p (((extend_exact (hw.invokers t ht) (hne t ht hcur) f true).2 p).mpr ⟨h5, hp⟩)

/-- The entry that is found. -/
theorem acctLoop_chosen {E : HEnv} {orig : List Acct} {s : Host} (hs : HOk E orig s) (hne : s.auth.stack ≠ []) (a : Addr) (f : AuthFn) :
    (∃ r, acctLoop a f (!s.auth.hasActive a) s.auth.accts 0 = .ok r) ∧
    ∀ i tr p, acctLoop a f (!s.auth.hasActive a) s.auth.accts 0 = .ok (some (i, tr, p)) ↔
      Chosen orig s a f i p ∧ ∃ t, s.auth.accts[i]? = some t ∧ tr = (t.tr.extend f true).1 := by
  have hu := hs.uok
  have hids : s.auth.ids ≠ [] := by
    intro he
    have := hs.mwf.idlen
    rw [he] at this
    exact hne (List.length_eq_zero_iff.mp this.symm)
  have hstk : ∀ t ∈ s.auth.accts, t.borrowed = false → t.tr.stack ≠ [] := by
    intro t ht hb he
    obtain ⟨i, hi⟩ := List.getElem?_of_mem ht
    obtain ⟨o, -, hok⟩ := hu.acct i t hi
    have := hok.len hb
    rw [he] at this
    exact hids (List.length_eq_zero_iff.mp this.symm)
  have hcand : ∀ (i : Nat) (t : Acct), s.auth.accts[i]? = some t → ∀ p,
      (Candidate orig s a f i p ↔ t.borrowed = false ∧ t.addr = a ∧ (t.tr.extend f (!s.auth.hasActive a)).2 = .ok (some p)) := by
    intro i t hi p
    have hmem := List.mem_of_getElem? hi
    obtain ⟨o, ho, hok⟩ := hu.acct i t hi
    constructor
    · rintro ⟨o', ⟨h1, h2, h3⟩, h4, h5⟩
      rw [ho] at h1
      cases h1
      have hb := h3 t hi
      refine ⟨hb, hok.addr.trans h2, ((extend_exact (hs.mwf.accts t hmem) (hstk t hmem hb) f _).2 p).mpr ?_⟩
      exact (pick_iff hu (hs.mwf.accts t hmem) hok hb f _ p).mpr ⟨h4, fun e => (hasActive_iff hu a).mpr (h5 e)⟩
    · rintro ⟨hb, ha, hx⟩
      have := ((extend_exact (hs.mwf.accts t hmem) (hstk t hmem hb) f _).2 p).mp hx
      obtain ⟨h1, h2⟩ := (pick_iff hu (hs.mwf.accts t hmem) hok hb f _ p).mp this
      exact ⟨o, ⟨ho, hok.addr.symm.trans ha, fun t' ht' => by rw [hi] at ht'; cases ht'; exact hb⟩, h1,
        fun e => (hasActive_iff hu a).mp (h2 e)⟩
  have hin : ∀ i p, Candidate orig s a f i p → ∃ t, s.auth.accts[i]? = some t := by
    rintro i p ⟨o, ⟨ho, -⟩, -⟩
    have hlt : i < s.auth.accts.length := by rw [hu.len]; exact (List.getElem?_eq_some_iff.mp ho).1
    exact ⟨_, List.getElem?_eq_getElem hlt⟩
  obtain ⟨h1, h2⟩ := acctLoop_exact a f (!s.auth.hasActive a) s.auth.accts
    (fun t ht hb _ => (extend_exact (hs.mwf.accts t ht) (hstk t ht hb) f _).1) 0
  refine ⟨h1, fun i tr p => (h2 i tr p).trans ⟨?_, ?_⟩⟩
  · rintro ⟨-, ⟨t, h3, h4, h5, h6⟩, h7⟩
    rw [Nat.sub_zero] at h3 h7
    refine ⟨⟨(hcand i t h3 p).mpr ⟨h4, h5, by rw [h6]⟩, fun j hj q hc => ?_⟩, t, h3, by rw [extend_true h6]⟩
    obtain ⟨t', ht'⟩ := hin j q hc
    obtain ⟨h8, h9, h10⟩ := (hcand j t' ht' q).mp hc
    exact h7 j hj t' q ht' h8 h9 h10
  · rintro ⟨⟨hc, hfirst⟩, t, ht, rfl⟩
    obtain ⟨h3, h4, h5⟩ := (hcand i t ht p).mp hc
    have hx : t.tr.extend f (!s.auth.hasActive a) = ((t.tr.extend f (!s.auth.hasActive a)).1, .ok (some p)) := by rw [← h5]
    refine ⟨Nat.zero_le _, ⟨t, by rw [Nat.sub_zero]; exact ht, h3, h4, ?_⟩, fun j hj t' q hj' hb ha he => ?_⟩
    · rw [hx, extend_true hx]
    · rw [Nat.sub_zero] at hj
      exact hfirst j hj q ((hcand j t' hj' q).mpr ⟨hb, ha, he⟩)

open Soroban.Storage
open Soroban.Storage.Spec hiding step runProg

theorem canAccess_iff {s : Host} {k : LKey} {ty : Access} :
    CanAccess s k ty ↔ permOf s.st.mode s.st.footprint k ty = true := by
  unfold CanAccess
  cases hm : s.st.mode with
  | enforcing => simp [permOf]
  | recording src => simp [permOf]

theorem may_read {s : Host} {k : LKey} (h : CanAccess s k .readWrite) : CanAccess s k .readOnly := by
  intro hm
  have := h hm
  simp only [Storage.Spec.allows, beq_iff_eq] at this ⊢
  rw [this]; rfl

theorem same_access {E : HEnv} {s : Host} {st' : Store LKey LVal} (h : Storage.Same E.sto s.st st') {k : LKey} {ty : Access} :
    permOf st'.mode st'.footprint k ty = permOf s.st.mode s.st.footprint k ty := by
  rw [h.mode]
  cases hm : s.st.mode with
  | enforcing => rw [h.fpE hm]
  | recording src => rfl

/-- When an account can be read. -/
theorem getEntry_iff {E : HEnv} {s : Host} (h : StOk E s.st) {k : LKey} (e : Entry LVal) :
    (liftSt s (fun st => getEntry E.sto st k)).2 = .ok e ↔ CanAccess s k .readOnly ∧ visible E s k = some e := by
  obtain ⟨st', -, h5, -⟩ := getEntry_spec h.mode h.map k
  unfold liftSt
  dsimp only
  rw [h5, canAccess_iff]
  unfold getAt readAt visible
  rw [if_pos (by rw [h.keys]; rfl)]
  by_cases hp : permOf s.st.mode s.st.footprint k .readOnly = true
  · rw [if_pos hp]
    cases absMap E.sto s.st.mode s.st.map k with
    | none => simp
    | some e' => simp [hp]
  · rw [if_neg hp]
    simp [hp]

/-- When a nonce can be used. -/
theorem consumeNonce_iff {E : HEnv} {s : Host} (h : StOk E s.st) (a : Addr) (n : Int) (l : Nat) (hl : E.sto.li.seq ≤ l) :
    (consumeNonce E s a n l).2 = .ok () ↔ (E.sto.li.minLiveUntil .temporary).isSome = true ∧ visible E s (.nonce a n) = none ∧
      CanAccess s (.nonce a n) .readWrite := by
  unfold consumeNonce
  cases hm : E.sto.li.minLiveUntil .temporary with
  | none => simp
  | some m =>
    dsimp only
    obtain ⟨st', hsame, hhas, -⟩ := has_spec h.mode h.map (LKey.nonce a n)
    unfold liftSt
    dsimp only
    rw [hhas]
    unfold readAt visible
    rw [if_pos (by rw [h.keys]; rfl)]
    by_cases hp : permOf s.st.mode s.st.footprint (.nonce a n) .readOnly = true
    · rw [if_pos hp]
      dsimp only
      cases hv : absMap E.sto s.st.mode s.st.map (.nonce a n) with
      | some e => simp
      | none =>
        dsimp only [Option.isSome]
        have hst' : StOk E st' := ⟨h.keys, by rw [hsame.mode]; exact h.mode, hsame.ok⟩
        obtain ⟨st2, -, hput, -⟩ := putOpt_spec hst'.map (LKey.nonce a n) (e := some (LVal.void, some (max l m)))
          (by
            intro v lu d he hd
            simp only [Option.some.injEq, Prod.mk.injEq] at he
            obtain ⟨-, rfl⟩ := he
            exact ⟨_, rfl, by omega⟩)
        rw [hput]
        unfold writeAt
        rw [if_pos (by rw [h.keys]; rfl)]
        have hck : checkEntry E.sto (some (LVal.void, some (max l m))) = .ok () := by
          unfold checkEntry
          dsimp only
          rw [if_pos (by rw [h.keys]; rfl)]
        rw [hck]
        dsimp only
        rw [same_access hsame, canAccess_iff]
        by_cases hw : permOf s.st.mode s.st.footprint (.nonce a n) .readWrite = true
        · simp [hw, toUnit]
        · simp [hw, toUnit]
    · rw [if_neg hp]
      dsimp only
      constructor
      · intro h; cases h
      · rintro ⟨-, -, hc⟩
        exact absurd (canAccess_iff.mp (may_read hc)) hp

theorem verifyNonce_iff {E : HEnv} {s : Host} (h : StOk E s.st) (t : Acct) (hs : t.source = false) :
    (verifyNonce E s t).2 = .ok () ↔ ∃ n l, t.nonce = some (n, l) ∧ NonceFree E s t.addr n l := by
  unfold verifyNonce
  rw [hs, if_neg (by simp)]
  cases hn : t.nonce with
  | none => simp
  | some nl =>
    obtain ⟨n, l⟩ := nl
    dsimp only
    have key : (∃ n' l', (some (n, l) : Option (Int × Nat)) = some (n', l') ∧ NonceFree E s t.addr n' l') ↔ NonceFree E s t.addr n l := by
      constructor
      · rintro ⟨n', l', he, h⟩
        simp only [Option.some.injEq, Prod.mk.injEq] at he
        obtain ⟨rfl, rfl⟩ := he
        exact h
      · exact fun h => ⟨n, l, rfl, h⟩
    rw [key]
    by_cases h1 : E.sto.li.seq > l
    · rw [if_pos h1]
      exact ⟨fun h => (by cases h), fun h => absurd h.started (by omega)⟩
    · rw [if_neg h1]
      cases hmx : E.sto.li.maxLiveUntil with
      | none => exact ⟨fun h => (by cases h), fun h => (by obtain ⟨mx, h2, -⟩ := h.bounded; rw [hmx] at h2; cases h2)⟩
      | some mx =>
        dsimp only
        by_cases h2 : l > mx
        · rw [if_pos h2]
          refine ⟨fun h => (by cases h), fun h => ?_⟩
          obtain ⟨mx', h3, h4⟩ := h.bounded
          rw [hmx] at h3
          simp only [Option.some.injEq] at h3
          omega
        · rw [if_neg h2, consumeNonce_iff h _ _ _ (by omega)]
          exact ⟨fun ⟨a, b, c⟩ => ⟨by omega, ⟨mx, hmx, by omega⟩, a, b, c⟩, fun h => ⟨h.temporary, h.unused, h.declared⟩⟩

/-- When an entry is authentic. -/
theorem verifyEntry_iff {E : HEnv} {orig : List Acct} {s : Host} (hs : HOk E orig s) (i : Nat) (t : Acct)
    {run : Host → Host × Res RVal} (hrun : ∀ s1, HOk E orig s1 → Good E orig s1 (run s1)) :
    (verifyEntry E s i t run).2 = .ok () ↔ Authentic E s i t run := by
  unfold verifyEntry
  cases hv : t.verified with
  | true => rw [if_pos rfl]; exact ⟨fun _ => .before hv, fun _ => rfl⟩
  | false =>
    rw [if_neg (by simp)]
    cases hsrc : t.source with
    | true =>
      refine ⟨fun _ => .source hsrc, fun _ => ?_⟩
      unfold authenticate
      rw [if_pos hsrc]
      dsimp only
      unfold verifyNonce
      rw [if_pos hsrc]
    | false =>
      unfold authenticate
      rw [if_neg (by rw [hsrc]; simp)]
      have after : ∀ (s1 : Host), StOk E s1.st → ((match verifyNonce E s1 t with
          | (s, .error e) => (s, .error e)
          | (s, .ok ()) => (setAcct s i (fun t => { t with verified := true }), .ok ()) : Host × Res Unit).2 = .ok () ↔
          ∃ n l, t.nonce = some (n, l) ∧ NonceFree E s1 t.addr n l) := by
        intro s1 h1
        rw [← verifyNonce_iff h1 t hsrc]
        rcases verifyNonce E s1 t with ⟨s2, r⟩
        cases r with
        | error e => exact ⟨fun h => (by cases h), fun h => (by cases h)⟩
        | ok u => exact ⟨fun _ => rfl, fun _ => rfl⟩
      cases ha : t.addr with
      | account id =>
        dsimp only
        obtain ⟨st', hsame, hget, -⟩ := getEntry_spec hs.st.mode hs.st.map (LKey.account id)
        have hl : (liftSt s (fun st => getEntry E.sto st (.account id))).1 = { s with st := st' } := by
          unfold liftSt; dsimp only; rw [hget]
        have hst' : StOk E st' := ⟨hs.st.keys, by rw [hsame.mode]; exact hs.st.mode, hsame.ok⟩
        have hiff := fun e => getEntry_iff hs.st (k := LKey.account id) e
        rcases hr : liftSt s (fun st => getEntry E.sto st (.account id)) with ⟨s1, r⟩
        rw [hr] at hl hiff
        dsimp only at hl hiff
        subst hl
        have hfree : ∀ n l, NonceFree E { s with st := st' } t.addr n l ↔ NonceFree E s t.addr n l := by
          intro n l
          have hvis : visible E { s with st := st' } = visible E s := hsame.abs
          have hacc : CanAccess { s with st := st' } (.nonce t.addr n) .readWrite ↔ CanAccess s (.nonce t.addr n) .readWrite := by
            rw [canAccess_iff, canAccess_iff, same_access (s := s) hsame]
          exact ⟨fun h => ⟨h.started, h.bounded, h.temporary, by rw [← hvis]; exact h.unused, hacc.mp h.declared⟩,
            fun h => ⟨h.started, h.bounded, h.temporary, by rw [hvis]; exact h.unused, hacc.mpr h.declared⟩⟩
        cases r with
        | error e =>
          refine ⟨fun h => (by cases h), fun h => ?_⟩
          cases h with
          | before h => rw [hv] at h; cases h
          | source h => rw [hsrc] at h; cases h
          | account h1 h2 h3 h4 h5 h6 =>
            rw [ha] at h1
            cases h1
            cases (hiff _).mpr ⟨h2, h3⟩
          | contract h1 => rw [ha] at h1; cases h1
        | ok e =>
          obtain ⟨v, lu⟩ := e
          obtain ⟨h1, h2⟩ := (hiff _).mp rfl
          dsimp only
          cases hc : E.accountCheck i v with
          | error err =>
            refine ⟨fun h => (by cases h), fun h => ?_⟩
            cases h with
            | before h => rw [hv] at h; cases h
            | source h => rw [hsrc] at h; cases h
            | account h1' h2' h3 h4 h5 h6 =>
              rw [ha] at h1'
              cases h1'
              rw [h2] at h3
              simp only [Option.some.injEq, Prod.mk.injEq] at h3
              rw [← h3.1, hc] at h4
              cases h4
            | contract h1 => rw [ha] at h1; cases h1
          | ok u =>
            dsimp only
            refine (after _ hst').trans ⟨?_, fun h => ?_⟩
            · rintro ⟨n, l, h3, h4⟩
              exact .account ha h1 h2 hc h3 ((hfree n l).mp h4)
            · cases h with
              | before h => rw [hv] at h; cases h
              | source h => rw [hsrc] at h; cases h
              | account h1' h2' h3 h4 h5 h6 => exact ⟨_, _, h5, (hfree _ _).mpr h6⟩
              | contract h1 => rw [ha] at h1; cases h1
      | contract id =>
        dsimp only
        obtain ⟨hgood, -⟩ := callN_self hs (id := id) hrun
        rcases hr : callN E s id checkAuthName .selfAllowed true run with ⟨s1, r⟩
        rw [hr] at hgood
        have hno : (∀ s', (s1, r) ≠ (s', .ok .void)) → ¬ Authentic E s i t run := by
          intro hne h
          cases h with
          | before h => rw [hv] at h; cases h
          | source h => rw [hsrc] at h; cases h
          | account h1 => rw [ha] at h1; cases h1
          | contract h1 h2 h3 h4 =>
            rw [ha] at h1
            cases h1
            rw [hr] at h2
            exact hne _ h2
        cases r with
        | error e =>
          exact ⟨fun h => (by cases h), fun h => absurd h (hno (fun s' h => by simp at h))⟩
        | ok v =>
          by_cases hvv : v = .void
          · subst hvv
            dsimp only [expectVoid]
            refine (after s1 hgood.ok.st).trans ⟨?_, fun h => ?_⟩
            · rintro ⟨n, l, h3, h4⟩
              exact .contract ha hr h3 h4
            · cases h with
              | before h => rw [hv] at h; cases h
              | source h => rw [hsrc] at h; cases h
              | account h1 => rw [ha] at h1; cases h1
              | contract h1 h2 h3 h4 =>
                rw [ha] at h1
                cases h1
                rw [hr] at h2
                simp only [Prod.mk.injEq, and_true] at h2
                subst h2
                exact ⟨_, _, h3, h4⟩
          · have : expectVoid (.ok v) = .error (.host .value .unexpectedType) := by
              cases v with
              | void => exact absurd rfl hvv
              | _ => rfl
            rw [this]
            refine ⟨fun h => (by cases h), fun h => absurd h (hno (fun s' h => ?_))⟩
            simp only [Prod.mk.injEq, Except.ok.injEq] at h
            exact hvv h.2

/-- Authentication gives no use back. -/
theorem verifyEntry_uses {E : HEnv} {orig : List Acct} {s : Host} (hs : HOk E orig s) (i : Nat) (t : Acct)
    {run : Host → Host × Res RVal} (hrun : ∀ s1, HOk E orig s1 → Good E orig s1 (run s1)) :
    s.auth.uses <:+ (verifyEntry E s i t run).1.auth.uses := by
  unfold verifyEntry
  cases hv : t.verified with
  | true => rw [if_pos rfl]; exact List.suffix_refl _
  | false =>
    rw [if_neg (by simp)]
    obtain ⟨hg, -⟩ := authenticate_spec hs i t hrun
    rcases ha : authenticate E s i t run with ⟨s1, r⟩
    rw [ha] at hg
    have h1 : s.auth.uses <:+ s1.auth.uses := hg.le.auth.uses
    cases r with
    | error e => exact h1
    | ok u =>
      dsimp only
      obtain ⟨hn, -⟩ := verifyNonce_spec (s := s1) hg.ok.st t
      rcases hvn : verifyNonce E s1 t with ⟨s2, r2⟩
      rw [hvn] at hn
      have h2 : s2.auth = s1.auth := by have := congrArg Host.auth hn.rest; exact this
      cases r2 with
      | error e => show s.auth.uses <:+ s2.auth.uses; rw [h2]; exact h1
      | ok u => show s.auth.uses <:+ s2.auth.uses; rw [h2]; exact h1

/-- When `require_auth` succeeds. -/
theorem requireInternal_iff {E : HEnv} {orig : List Acct} {s : Host} (hs : HOk E orig s) {top : Frame} {rest : List Frame}
    (hst : s.auth.stack = top :: rest) (hdead : ∀ t ∈ s.auth.invokers, t.live = false → top.contract? = some t.addr) (a : Addr) (f : AuthFn)
    {run : Nat → Host → Host × Res RVal} (hrun : ∀ i s1, HOk E orig s1 → Good E orig s1 (run i s1)) :
    (requireInternal E s a f run).2 = .ok () ↔ CalledBy s a ∨ ContractGrant s a f ∨ EntryGrant E orig s a f run := by
  unfold requireInternal
  rcases checkInvoker_exact hs.mwf hst hdead s rfl a f with ⟨⟨m', h1⟩, h2⟩ | ⟨h1, h2⟩
  · rw [h1]
    exact ⟨fun _ => h2.imp_right Or.inl, fun _ => rfl⟩
  · rw [h1]
    dsimp only
    have hself : ({ s with auth := s.auth } : Host) = s := rfl
    rw [hself, ← or_assoc, or_iff_right h2]
    unfold requireEnforcing EntryGrant
    obtain ⟨⟨r, hr⟩, hloop⟩ := acctLoop_chosen hs (by rw [hst]; simp) a f
    rw [hr] at hloop ⊢
    cases r with
    | none =>
      refine ⟨fun h => (by cases h), ?_⟩
      rintro ⟨i, p, t, hc, ht, -⟩
      cases (hloop i _ p).mpr ⟨hc, t, ht, rfl⟩
    | some x =>
      obtain ⟨i, tr, p⟩ := x
      obtain ⟨hc, t, ht, htr⟩ := (hloop i tr p).mp rfl
      dsimp only
      rw [ht]
      dsimp only
      obtain ⟨o, hst', -, -⟩ := hc.1
      have hb := hst'.2.2 t ht
      obtain ⟨o', ho', hok⟩ := hs.uok.acct i t ht
      have haddr : t.addr = a := by
        rw [hst'.1] at ho'
        cases ho'
        exact hok.addr.trans hst'.2.1
      have hx : Extended t.tr f (!s.auth.hasActive a) tr (.ok (some p)) := by
        obtain ⟨j, t', h1, h2, -, -, h5⟩ := acctLoop_spec hr
        rw [Nat.zero_add] at h1
        subst h1
        rw [ht] at h2
        cases h2
        exact h5
      have hm : HOk E orig { s with auth := s.auth.recordMatch i tr p a f } := by
        have := match_hok hs ht hb hx
        rw [haddr] at this
        exact this
      refine (verifyEntry_iff hm i t (hrun i)).trans ⟨fun h => ⟨i, p, t, hc, ht, ?_⟩, ?_⟩
      · unfold matched; rw [← htr]; exact h
      · rintro ⟨i', p', t', hc', ht', h⟩
        have := (hloop i' _ p').mpr ⟨hc', t', ht', rfl⟩
        simp only [Except.ok.injEq, Option.some.injEq, Prod.mk.injEq] at this
        obtain ⟨rfl, -, rfl⟩ := this
        rw [ht] at ht'
        cases ht'
        unfold matched at h
        rw [← htr] at h
        exact h

end Soroban.Host
