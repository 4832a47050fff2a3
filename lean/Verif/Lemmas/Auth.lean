import Verif.Model.Auth
import Mathlib.Data.List.Forall2
import Mathlib.Data.List.Induction
/-! Lemmas about authorization trees, trackers and the authorization manager. -/
namespace Soroban.Auth
open Soroban

/-! ### trees -/

mutual
/-- The tree with all nodes unused. -/
def Inv.reset : Inv → Inv
  | .mk f subs _ => .mk f (resets subs) false
/-- The trees with all nodes unused. -/
def resets : List Inv → List Inv
  | [] => []
  | t :: ts => t.reset :: resets ts
end

theorem resets_eq_map (ts : List Inv) : resets ts = ts.map Inv.reset := by
  induction ts with
  | nil => rfl
  | cons t ts ih => simp [resets, ih]

theorem Inv.reset_fn (t : Inv) : t.reset.fn = t.fn := by cases t; rfl

theorem Inv.reset_subs (t : Inv) : t.reset.subs = t.subs.map Inv.reset := by
  cases t; simp [Inv.reset, Inv.subs, resets_eq_map]

theorem Inv.reset_mk (f : AuthFn) (ts : List Inv) (u : Bool) : (Inv.mk f ts u).reset = .mk f (ts.map Inv.reset) false := by
  simp [Inv.reset, resets_eq_map]

theorem Inv.eq_of (t : Inv) : t = .mk t.fn t.subs t.used := by cases t; rfl

theorem Inv.reset_eq_iff (t t' : Inv) : t'.reset = t.reset ↔ t'.fn = t.fn ∧ t'.subs.map Inv.reset = t.subs.map Inv.reset := by
  obtain ⟨f, ts, u⟩ := t
  obtain ⟨f', ts', u'⟩ := t'
  simp [Inv.reset_mk, Inv.fn, Inv.subs]

mutual
theorem Inv.rollback_snapshot : ∀ (t t' : Inv), t'.reset = t.reset → t'.rollback t.snapshot = .ok t
  | .mk f ts u, .mk f' ts' u', h => by
    simp only [Inv.reset, Inv.mk.injEq, and_true] at h
    obtain ⟨hf, hs⟩ := h
    have hlen : ts'.length = (snapshots ts).length := by
      have := congrArg List.length hs
      have e : ∀ l : List Inv, (resets l).length = l.length := by simp [resets_eq_map]
      have e2 : ∀ l : List Inv, (snapshots l).length = l.length := by
        intro l; induction l with
        | nil => rfl
        | cons a l ih => simp [snapshots, ih]
      rw [e, e] at this
      rw [e2, this]
    simp only [Inv.snapshot, Inv.rollback, hlen, ne_eq, not_true_eq_false, if_false, rollbacks_snapshots ts ts' hs, hf]
theorem rollbacks_snapshots : ∀ (ts ts' : List Inv), resets ts' = resets ts → rollbacks ts' (snapshots ts) = .ok ts
  | [], [], _ => by simp [snapshots, rollbacks]
  | [], t' :: ts', h => by simp [resets] at h
  | t :: ts, [], h => by simp [resets] at h
  | t :: ts, t' :: ts', h => by
    simp only [resets, List.cons.injEq] at h
    simp only [snapshots, rollbacks, Inv.rollback_snapshot t t' h.1, rollbacks_snapshots ts ts' h.2]
end

theorem Inv.reset_use (p : List Nat) : ∀ t : Inv, (t.use p).reset = t.reset := by
  induction p with
  | nil => intro t; cases t; simp [Inv.use, Inv.reset]
  | cons i p ih =>
    intro t
    obtain ⟨f, ts, u⟩ := t
    simp only [Inv.use, Inv.reset_mk]
    congr 1
    apply List.ext_getElem?
    intro j
    simp only [List.getElem?_map, List.getElem?_modify]
    cases ts[j]? with
    | none => rfl
    | some s => by_cases h : i = j <;> simp [h, ih]

theorem Inv.at?_nil (t : Inv) : t.at? [] = some t := by cases t; rfl

theorem Inv.at?_cons (t : Inv) (i : Nat) (p : List Nat) : t.at? (i :: p) = (t.subs[i]?).bind (fun s => s.at? p) := by
  cases t; simp only [Inv.at?]; cases (Inv.subs _)[i]? <;> rfl

theorem Inv.at?_append (p q : List Nat) : ∀ t : Inv, t.at? (p ++ q) = (t.at? p).bind (fun s => s.at? q) := by
  induction p with
  | nil => intro t; simp [Inv.at?_nil]
  | cons i p ih =>
    intro t
    rw [List.cons_append, Inv.at?_cons, Inv.at?_cons]
    cases t.subs[i]? with
    | none => rfl
    | some s => simpa using ih s

theorem Inv.at?_reset (p : List Nat) : ∀ t : Inv, t.reset.at? p = (t.at? p).map Inv.reset := by
  induction p with
  | nil => intro t; simp [Inv.at?_nil]
  | cons i p ih =>
    intro t
    rw [Inv.at?_cons, Inv.at?_cons, Inv.reset_subs, List.getElem?_map]
    cases t.subs[i]? with
    | none => rfl
    | some s => simpa using ih s

/-- Same shape: what is at a path has the same function and children of the same shape. -/
theorem Inv.at?_of_reset {t t' : Inv} (h : t'.reset = t.reset) {p : List Nat} {n : Inv} (hn : t.at? p = some n) :
    ∃ n', t'.at? p = some n' ∧ n'.reset = n.reset := by
  have h1 := Inv.at?_reset p t'
  rw [h, Inv.at?_reset, hn] at h1
  cases h2 : t'.at? p with
  | none => rw [h2] at h1; cases h1
  | some n' => rw [h2] at h1; simp at h1; exact ⟨n', rfl, h1.symm⟩

theorem Inv.use_subs_cons (t : Inv) (i : Nat) (p : List Nat) : (t.use (i :: p)).subs = t.subs.modify i (fun s => s.use p) := by
  cases t; rfl

theorem Inv.use_used_cons (t : Inv) (i : Nat) (p : List Nat) : (t.use (i :: p)).used = t.used := by cases t; rfl
theorem Inv.use_used_nil (t : Inv) : (t.use []).used = true := by cases t; rfl
theorem Inv.use_subs_nil (t : Inv) : (t.use []).subs = t.subs := by cases t; rfl
theorem Inv.use_fn (t : Inv) (p : List Nat) : (t.use p).fn = t.fn := by cases t; cases p <;> rfl

/-- The nodes after a use: the one at the path is used, the others keep their flag. -/
theorem Inv.at?_use (p q : List Nat) : ∀ t : Inv,
    ((t.use p).at? q).map Inv.used = (t.at? q).map (fun n => n.used || decide (p = q)) := by
  induction p generalizing q with
  | nil =>
    intro t
    cases q with
    | nil => simp [Inv.at?_nil, Inv.use_used_nil]
    | cons j q => simp only [Inv.at?_cons, Inv.use_subs_nil]; simp
  | cons i p ih =>
    intro t
    cases q with
    | nil => simp [Inv.at?_nil, Inv.use_used_cons]
    | cons j q =>
      rw [Inv.at?_cons, Inv.at?_cons, Inv.use_subs_cons, List.getElem?_modify]
      cases t.subs[j]? with
      | none => rfl
      | some s =>
        by_cases h : i = j
        · subst h
          simp only [if_true, Option.map_some, Option.bind_some]
          have := ih q s
          simpa using this
        · simp only [h, if_false, Option.map_some, Option.bind_some]
          simp [h]

/-! ### walking down the match stack -/

theorem walkSub_reset (l : List MatchState) : ∀ {t t' : Inv}, t'.reset = t.reset → walkSub l t' = walkSub l t := by
  induction l with
  | nil => intros; rfl
  | cons m l ih =>
    intro t t' h
    cases m with
    | unmatched => simpa [walkSub] using ih h
    | root => rfl
    | sub i =>
      simp only [walkSub]
      have hs := ((Inv.reset_eq_iff t t').mp h).2
      have hi : (t'.subs[i]?).map Inv.reset = (t.subs[i]?).map Inv.reset := by
        rw [← List.getElem?_map, ← List.getElem?_map, hs]
      cases h1 : t.subs[i]? with
      | none => rw [h1] at hi; cases h2 : t'.subs[i]? with
        | none => rfl
        | some s => rw [h2] at hi; cases hi
      | some s =>
        rw [h1] at hi
        cases h2 : t'.subs[i]? with
        | none => rw [h2] at hi; cases hi
        | some s' =>
          rw [h2] at hi
          simp at hi
          simp only [ih hi]

theorem walk_reset (l : List MatchState) {t t' : Inv} (h : t'.reset = t.reset) : walk l t' = walk l t := by
  induction l with
  | nil => rfl
  | cons m l ih =>
    cases m with
    | unmatched => simpa [walk] using ih
    | root => simp only [walk, walkSub_reset l h]
    | sub i => rfl

theorem walkSub_append_unmatched (l : List MatchState) : ∀ t : Inv, walkSub (l ++ [.unmatched]) t = walkSub l t := by
  induction l with
  | nil => intro t; rfl
  | cons m l ih =>
    intro t
    cases m with
    | unmatched => simpa [walkSub] using ih t
    | root => rfl
    | sub i =>
      simp only [List.cons_append, walkSub]
      cases t.subs[i]? with
      | none => rfl
      | some s => simp only [ih]

theorem walk_append_unmatched (l : List MatchState) (t : Inv) : walk (l ++ [.unmatched]) t = walk l t := by
  induction l with
  | nil => rfl
  | cons m l ih =>
    cases m with
    | unmatched => simpa [walk] using ih
    | root => simp only [List.cons_append, walk, walkSub_append_unmatched]
    | sub i => rfl

theorem walkSub_append_sub (l : List MatchState) (i : Nat) : ∀ (t : Inv) (p : List Nat) (n : Inv), walkSub l t = .ok p →
    t.at? p = some n → (n.subs[i]?).isSome → walkSub (l ++ [.sub i]) t = .ok (p ++ [i]) := by
  induction l with
  | nil =>
    intro t p n h hn hi
    simp only [walkSub, Except.ok.injEq] at h
    subst h
    rw [Inv.at?_nil] at hn
    cases hn
    simp only [List.nil_append, walkSub]
    cases h1 : t.subs[i]? with
    | none => rw [h1] at hi; cases hi
    | some s => rfl
  | cons m l ih =>
    intro t p n h hn hi
    cases m with
    | unmatched => simp only [walkSub, List.cons_append] at h ⊢; exact ih t p n h hn hi
    | root => simp [walkSub] at h
    | sub j =>
      simp only [walkSub, List.cons_append] at h ⊢
      cases h1 : t.subs[j]? with
      | none => rw [h1] at h; cases h
      | some s =>
        rw [h1] at h
        dsimp only at h ⊢
        cases h2 : walkSub l s with
        | error e => rw [h2] at h; cases h
        | ok q =>
          rw [h2] at h
          simp only [Except.ok.injEq] at h
          subst h
          rw [Inv.at?_cons, h1] at hn
          rw [ih s q n h2 hn hi]
          rfl

theorem walk_append_sub {l : List MatchState} {i : Nat} {t : Inv} {p : List Nat} {n : Inv} (h : walk l t = .ok (some p))
    (hn : t.at? p = some n) (hi : (n.subs[i]?).isSome) : walk (l ++ [.sub i]) t = .ok (some (p ++ [i])) := by
  induction l with
  | nil => cases h
  | cons m l ih =>
    cases m with
    | unmatched => simp only [walk, List.cons_append] at h ⊢; exact ih h
    | root =>
      simp only [walk, List.cons_append] at h ⊢
      cases h2 : walkSub l t with
      | error e => rw [h2] at h; cases h
      | ok q =>
        rw [h2] at h
        simp only [Except.ok.injEq, Option.some.injEq] at h
        subst h
        rw [walkSub_append_sub l i t q n h2 hn hi]
    | sub j => cases h

theorem walk_append_root {l : List MatchState} {t : Inv} (h : walk l t = .ok none) : walk (l ++ [.root]) t = .ok (some []) := by
  induction l with
  | nil => rfl
  | cons m l ih =>
    cases m with
    | unmatched => simp only [walk, List.cons_append] at h ⊢; exact ih h
    | root =>
      simp only [walk] at h
      cases h2 : walkSub l t with
      | error e => rw [h2] at h; cases h
      | ok q => rw [h2] at h; cases h
    | sub j => cases h

/-- If the walk finds a node, then the latest match in the stack is that node, and it was found from the stack up to there. -/
theorem walk_last (l : List MatchState) (t : Inv) (p : List Nat) (h : walk l t = .ok (some p)) :
    ∃ pre m post, l = pre ++ m :: post ∧ m.matched = true ∧ (∀ x ∈ post, x = .unmatched) ∧ walk (pre ++ [m]) t = .ok (some p) := by
  induction l using List.reverseRecOn with
  | nil => cases h
  | append_singleton l m ih =>
    by_cases hm : m = .unmatched
    · subst hm
      rw [walk_append_unmatched] at h
      obtain ⟨pre, m, post, rfl, h1, h2, h3⟩ := ih h
      refine ⟨pre, m, post ++ [.unmatched], by simp, h1, ?_, h3⟩
      intro x hx
      rcases List.mem_append.mp hx with hx | hx
      · exact h2 x hx
      · simpa using hx
    · refine ⟨l, m, [], rfl, ?_, by simp, h⟩
      cases m <;> simp_all [MatchState.matched]

theorem findFree_spec (f : AuthFn) (ts : List Inv) : ∀ (k i : Nat), findFree f ts k = some i →
    k ≤ i ∧ ∃ n, ts[i - k]? = some n ∧ n.used = false ∧ n.fn = f := by
  induction ts with
  | nil => intro k i h; cases h
  | cons t ts ih =>
    intro k i h
    simp only [findFree] at h
    split at h
    · next hc =>
      simp only [Option.some.injEq] at h
      subst h
      exact ⟨Nat.le_refl _, t, by simp, hc.1, hc.2⟩
    · obtain ⟨hk, n, hn, h1, h2⟩ := ih (k + 1) i h
      refine ⟨by omega, n, ?_, h1, h2⟩
      have : i - k = (i - (k + 1)) + 1 := by omega
      rw [this]; simpa using hn

end Soroban.Auth
