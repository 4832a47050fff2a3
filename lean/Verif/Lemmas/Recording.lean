import Verif.Spec.Recording
import Verif.Lemmas.Auth
/-! Lemmas about recorded trees: recording a request and using it later do the same thing. -/
namespace Soroban.Auth
open Soroban Soroban.Auth.Spec

theorem unusedAll_eq (ts : List Inv) : unusedAll ts = ts.map Inv.unused := by
  induction ts with
  | nil => rfl
  | cons t ts ih => rw [unusedAll, ih]; rfl

/-- What can be seen at a place in a tree. -/
def infoAt (t : Inv) (p : List Nat) : Option (AuthFn × Bool) := (t.at? p).map (fun n => (n.fn, n.used))

theorem fnAt_info (t : Inv) (p : List Nat) : fnAt t p = (infoAt t p).map Prod.fst := by
  unfold fnAt infoAt
  cases t.at? p <;> rfl

theorem infoAt_nil (t : Inv) : infoAt t [] = some (t.fn, t.used) := by unfold infoAt; rw [Inv.at?_nil]; rfl

theorem infoAt_cons (t : Inv) (i : Nat) (p : List Nat) : infoAt t (i :: p) = (t.subs[i]?).bind (fun s => infoAt s p) := by
  unfold infoAt
  rw [Inv.at?_cons]
  cases t.subs[i]? <;> rfl

theorem infoAt_unused (p : List Nat) : ∀ t : Inv, infoAt t.unused p = (fnAt t p).map (fun f => (f, false)) := by
  induction p with
  | nil => intro t; cases t; rfl
  | cons i p ih =>
    intro t
    rw [infoAt_cons, fnAt_info, infoAt_cons]
    cases t with
    | mk f subs u =>
      simp only [Inv.unused, Inv.subs, unusedAll_eq, List.getElem?_map]
      cases subs[i]? with
      | none => rfl
      | some s =>
        simp only [Option.map_some, Option.bind_some]
        rw [ih s, fnAt_info]

mutual
theorem Inv.ext_info : ∀ (t t' : Inv), (∀ q, infoAt t q = infoAt t' q) → t = t'
  | .mk f subs u, .mk f' subs' u', h => by
    have h0 := h []
    simp only [infoAt_nil, Inv.fn, Inv.used, Option.some.injEq, Prod.mk.injEq] at h0
    obtain ⟨rfl, rfl⟩ := h0
    congr 1
    exact subs_ext_info subs subs' (fun i q => by have := h (i :: q); simpa only [infoAt_cons, Inv.subs] using this)
theorem subs_ext_info : ∀ (ts ts' : List Inv), (∀ (i : Nat) (q : List Nat), (ts[i]?).bind (fun s => infoAt s q) = (ts'[i]?).bind (fun s => infoAt s q)) →
    ts = ts'
  | [], [], _ => rfl
  | [], t' :: ts', h => by
    have := h 0 []
    simp [infoAt_nil] at this
  | t :: ts, [], h => by
    have := h 0 []
    simp [infoAt_nil] at this
  | t :: ts, t' :: ts', h => by
    have h1 := Inv.ext_info t t' (fun q => by simpa using h 0 q)
    have h2 := subs_ext_info ts ts' (fun i q => by simpa using h (i + 1) q)
    rw [h1, h2]
end

theorem infoAt_use (p : List Nat) : ∀ (t : Inv) (q : List Nat),
    infoAt (t.use p) q = if q = p then (infoAt t q).map (fun x => (x.1, true)) else infoAt t q := by
  induction p with
  | nil =>
    intro t q
    cases q with
    | nil => rw [if_pos rfl, infoAt_nil, infoAt_nil, Inv.use_used_nil, Inv.use_fn]; rfl
    | cons i q => rw [if_neg (by simp), infoAt_cons, infoAt_cons, Inv.use_subs_nil]
  | cons j p ih =>
    intro t q
    cases q with
    | nil => rw [if_neg (by simp), infoAt_nil, infoAt_nil, Inv.use_used_cons, Inv.use_fn]
    | cons i q =>
      rw [infoAt_cons, infoAt_cons, Inv.use_subs_cons, List.getElem?_modify]
      cases hs : t.subs[i]? with
      | none => split <;> split <;> rfl
      | some s =>
        by_cases hij : j = i
        · subst hij
          simp only [hs, List.cons.injEq, true_and, if_true]
          simp only [Functor.map, Option.map, Option.bind]
          exact ih s q
        · have hij' : ¬ (i = j) := fun h => hij h.symm
          simp [hij, hij']

theorem infoAt_addSub (x : Inv) (hx : x.subs = []) (p : List Nat) : ∀ (t : Inv) (node : Inv) (q : List Nat), t.at? p = some node →
    infoAt (t.addSub p x) q = if q = p ++ [node.subs.length] then some (x.fn, x.used) else infoAt t q := by
  induction p with
  | nil =>
    intro t node q hn
    rw [Inv.at?_nil] at hn
    cases hn
    cases t with
    | mk f subs u =>
      cases q with
      | nil => rw [if_neg (by simp), infoAt_nil, infoAt_nil]; rfl
      | cons i q =>
        rw [infoAt_cons, infoAt_cons]
        simp only [Inv.addSub, Inv.subs, List.nil_append, List.cons.injEq, List.getElem?_append]
        by_cases hi : i < subs.length
        · rw [if_pos hi, if_neg (by rintro ⟨h, _⟩; omega)]
        · rw [if_neg hi, List.getElem?_eq_none (by omega : subs.length ≤ i)]
          by_cases hj : i = subs.length
          · subst hj
            simp only [Nat.sub_self, List.getElem?_cons_zero, Option.bind_some, true_and]
            cases q with
            | nil => rw [if_pos rfl, infoAt_nil]
            | cons j q => rw [if_neg (by simp), infoAt_cons, hx]; rfl
          · rw [if_neg (by rintro ⟨h, _⟩; exact hj h), List.getElem?_eq_none (by simp; omega)]
  | cons j p ih =>
    intro t node q hn
    rw [Inv.at?_cons] at hn
    cases t with
    | mk f subs u =>
      cases q with
      | nil => rw [if_neg (by simp), infoAt_nil, infoAt_nil]; rfl
      | cons i q =>
        rw [infoAt_cons, infoAt_cons]
        simp only [Inv.addSub, Inv.subs, List.getElem?_modify, List.cons_append, List.cons.injEq] at hn ⊢
        by_cases hij : j = i
        · subst hij
          cases hs : subs[j]? with
          | none => rw [hs] at hn; cases hn
          | some s =>
            rw [hs] at hn
            simp only [true_and, if_true]
            simp only [Functor.map, Option.map, Option.bind]
            exact ih s node q hn
        · have hij' : ¬ (i = j) := fun h => hij h.symm
          simp [hij, hij']

theorem fnAt_addSub (x : Inv) (hx : x.subs = []) (p : List Nat) (t node : Inv) (q : List Nat) (hn : t.at? p = some node) :
    fnAt (t.addSub p x) q = if q = p ++ [node.subs.length] then some x.fn else fnAt t q := by
  rw [fnAt_info, infoAt_addSub x hx p t node q hn, fnAt_info]
  split <;> rfl

theorem fnAt_isSome (t : Inv) (p : List Nat) : (fnAt t p).isSome = (t.at? p).isSome := by
  unfold fnAt; cases t.at? p <;> rfl

theorem fnAt_append (t node : Inv) (p q : List Nat) (h : t.at? p = some node) : fnAt t (p ++ q) = fnAt node q := by
  unfold fnAt; rw [Inv.at?_append, h]; rfl

theorem infoAt_append (t node : Inv) (p q : List Nat) (h : t.at? p = some node) : infoAt t (p ++ q) = infoAt node q := by
  unfold infoAt; rw [Inv.at?_append, h]; rfl

theorem fnAt_child (t : Inv) (i : Nat) : fnAt t [i] = (t.subs[i]?).map Inv.fn := by
  rw [fnAt_info, infoAt_cons]
  cases t.subs[i]? with
  | none => rfl
  | some s => simp only [Option.bind_some]; rw [infoAt_nil]; rfl

/-! ### walking -/

theorem walkSub_same (l : List MatchState) : ∀ (t t' : Inv) (p : List Nat), walkSub l t = .ok p → (t'.at? p).isSome = true →
    walkSub l t' = .ok p := by
  induction l with
  | nil => intro t t' p h _; exact h
  | cons m l ih =>
    intro t t' p h hp
    cases m with
    | unmatched => exact ih t t' p h hp
    | root => cases h
    | sub i =>
      simp only [walkSub] at h ⊢
      cases hs : t.subs[i]? with
      | none => rw [hs] at h; cases h
      | some s =>
        rw [hs] at h; dsimp only at h
        cases hw : walkSub l s with
        | error e => rw [hw] at h; cases h
        | ok p' =>
          rw [hw] at h; cases h
          rw [Inv.at?_cons] at hp
          cases hs' : t'.subs[i]? with
          | none => rw [hs'] at hp; cases hp
          | some s' =>
            rw [hs'] at hp
            dsimp only
            rw [ih s s' p' hw hp]

theorem walk_same (l : List MatchState) : ∀ (t t' : Inv) (p : List Nat), walk l t = .ok (some p) → (t'.at? p).isSome = true →
    walk l t' = .ok (some p) := by
  induction l with
  | nil => intro t t' p h _; cases h
  | cons m l ih =>
    intro t t' p h hp
    cases m with
    | unmatched => exact ih t t' p h hp
    | sub i => cases h
    | root =>
      simp only [walk] at h ⊢
      cases hw : walkSub l t with
      | error e => rw [hw] at h; cases h
      | ok p' =>
        rw [hw] at h; cases h
        rw [walkSub_same l t t' _ hw hp]

theorem walk_unmatched (l : List MatchState) (t : Inv) (h : l.any MatchState.matched = false) : walk l t = .ok none := by
  induction l with
  | nil => rfl
  | cons m l ih =>
    simp only [List.any_cons, Bool.or_eq_false_iff] at h
    cases m with
    | unmatched => exact ih h.2
    | root => cases h.1
    | sub i => cases h.1

theorem findFree_first (f : AuthFn) : ∀ (ts : List Inv) (n k : Nat) (s : Inv),
    (∀ i, i < n → ∃ t, ts[i]? = some t ∧ t.used = true) → ts[n]? = some s → s.used = false → s.fn = f →
    findFree f ts k = some (k + n) := by
  intro ts
  induction ts with
  | nil => intro n k s _ hs; simp at hs
  | cons t ts ih =>
    intro n k s hlt hs hu hf
    cases n with
    | zero =>
      simp only [List.getElem?_cons_zero, Option.some.injEq] at hs
      subst hs
      rw [findFree, if_pos ⟨hu, hf⟩]
      rfl
    | succ n =>
      obtain ⟨t0, h0, hu0⟩ := hlt 0 (by omega)
      simp only [List.getElem?_cons_zero, Option.some.injEq] at h0
      subst h0
      rw [findFree, if_neg (by rw [hu0]; simp)]
      rw [ih n (k + 1) s (fun i hi => by have := hlt (i + 1) (by omega); simpa using this) (by simpa using hs) hu hf]
      congr 1; omega

/-! ### one tracker -/

/-- A recorded tree is part of a larger one. -/
def Grows (t t' : Inv) : Prop := ∀ q f, fnAt t q = some f → fnAt t' q = some f

theorem Grows.refl (t : Inv) : Grows t t := fun _ _ h => h
theorem Grows.trans {a b c : Inv} (h : Grows a b) (h' : Grows b c) : Grows a c := fun q f hq => h' q f (h q f hq)

/-- The tracker `e` has the tree `f`, of which the part that is in `r` has been used. -/
structure TSim (r e : Tracker) (f : Inv) : Prop where
  stack : e.stack = r.stack
  rootFrame : e.rootFrame = r.rootFrame
  fully : e.fully = r.fully
  part : ∀ q, infoAt e.root q = (fnAt f q).map (fun g => (g, (fnAt r.root q).isSome))

/-- The tracker `e` has the tree `f` and has not been used. -/
structure TIdle (e : Tracker) (f : Inv) (depth : Nat) : Prop where
  stack : e.stack = List.replicate depth .unmatched
  rootFrame : e.rootFrame = none
  fully : e.fully = false
  part : ∀ q, infoAt e.root q = (fnAt f q).map (fun g => (g, false))

/-- What is always true of a tracker in recording mode. -/
structure TRec (t : Tracker) (depth : Nat) : Prop where
  len : t.stack.length = depth
  used : AllUsed t.root
  state : (t.fully = true ∧ t.inStack = false) ∨
    (t.fully = false ∧ ∃ above r, t.stack = above ++ .root :: List.replicate r .unmatched ∧ t.rootFrame = some r)

theorem TRec.rootUsed {t : Tracker} {d : Nat} (h : TRec t d) : t.root.used = true := h.used [] t.root (Inv.at?_nil _)

theorem TRec.fully_iff {t : Tracker} {d : Nat} (h : TRec t d) : t.fully = !t.inStack := by
  rcases h.state with ⟨h1, h2⟩ | ⟨h1, above, r, h2, _⟩
  · rw [h1, h2]; rfl
  · have : t.inStack = true := by
      unfold Tracker.inStack; rw [h2]; simp [MatchState.matched]
    rw [h1, this]; rfl

theorem inStack_push (t : Tracker) : t.push.inStack = t.inStack := by
  simp [Tracker.push, Tracker.inStack, MatchState.matched]

theorem TRec.push {t : Tracker} {d : Nat} (h : TRec t d) : TRec t.push (d + 1) := by
  refine ⟨by simp [Tracker.push, h.len], h.used, ?_⟩
  rcases h.state with ⟨h1, h2⟩ | ⟨h1, above, r, h2, h3⟩
  · exact .inl ⟨h1, by rw [inStack_push, h2]⟩
  · exact .inr ⟨h1, .unmatched :: above, r, by simp [Tracker.push, h2], h3⟩

theorem inStack_pop {t : Tracker} (h : t.pop.inStack = true) : t.inStack = true := by
  unfold Tracker.inStack Tracker.pop at *
  simp only [List.any_eq_true] at h ⊢
  obtain ⟨m, hm, hx⟩ := h
  exact ⟨m, List.mem_of_mem_tail hm, hx⟩

theorem TRec.pop {t : Tracker} {d : Nat} (h : TRec t (d + 1)) : TRec t.pop d := by
  refine ⟨by simp [Tracker.pop, h.len], h.used, ?_⟩
  rcases h.state with ⟨h1, h2⟩ | ⟨h1, above, r, h2, h3⟩
  · refine .inl ⟨?_, ?_⟩
    · simp only [Tracker.pop, h1]; split <;> simp
    · cases hi : t.pop.inStack with
      | false => rfl
      | true => rw [inStack_pop hi] at h2; cases h2
  · cases above with
    | nil =>
      simp only [List.nil_append] at h2
      refine .inl ⟨?_, ?_⟩
      · simp [Tracker.pop, h2, h3]
      · simp [Tracker.pop, Tracker.inStack, h2, MatchState.matched]
    | cons m above =>
      refine .inr ⟨?_, above, r, by simp [Tracker.pop, h2], by simp [Tracker.pop, h3]⟩
      simp only [Tracker.pop, h2, h3, h1, List.cons_append, List.tail_cons, List.length_append, List.length_cons,
        List.length_replicate]
      rw [if_neg (by omega)]

theorem TRec.new (f : AuthFn) (d : Nat) : TRec (Tracker.newRecording f (d + 1)) (d + 1) := by
  refine ⟨by simp [Tracker.newRecording], ?_, .inr ⟨rfl, [], d, by simp [Tracker.newRecording], by simp [Tracker.newRecording]⟩⟩
  intro p n h
  cases p with
  | nil => rw [Inv.at?_nil] at h; cases h; rfl
  | cons i p => rw [Inv.at?_cons] at h; simp [Tracker.newRecording, Inv.newRecording, Inv.subs] at h

/-- What recording a request does. -/
theorem record_ok {t t' : Tracker} {f : AuthFn} (h : t.record f = .ok t') : t.topMatched = false ∧ ∃ path node,
    walk t.stack.reverse t.root = .ok (some path) ∧ t.root.at? path = some node ∧
    t' = { t with root := t.root.addSub path (Inv.newRecording f), stack := .sub node.subs.length :: t.stack.tail } := by
  unfold Tracker.record at h
  cases ht : t.topMatched with
  | true => rw [ht] at h; cases h
  | false =>
    rw [ht] at h
    simp only [Bool.false_eq_true, if_false] at h
    refine ⟨rfl, ?_⟩
    cases hw : walk t.stack.reverse t.root with
    | error e => rw [hw] at h; cases h
    | ok o =>
      rw [hw] at h
      cases o with
      | none => cases h
      | some path =>
        dsimp only at h
        cases hn : t.root.at? path with
        | none => rw [hn] at h; cases h
        | some node => rw [hn] at h; cases h; exact ⟨path, node, rfl, hn, rfl⟩

theorem record_grows {t t' : Tracker} {f : AuthFn} (h : t.record f = .ok t') : Grows t.root t'.root := by
  obtain ⟨_, path, node, _, hn, rfl⟩ := record_ok h
  intro q g hq
  dsimp only
  rw [fnAt_addSub _ rfl path t.root node q hn]
  split
  · next he =>
    subst he
    rw [fnAt_append t.root node path _ hn, fnAt_child] at hq
    simp at hq
  · exact hq

theorem walk_ne_nil {t : Inv} {l : List MatchState} {p : List Nat} (h : walk l t = .ok (some p)) : l ≠ [] := by
  rintro rfl; cases h

theorem inStack_of_walk {l : List MatchState} {t : Inv} {p : List Nat} (h : walk l t = .ok (some p)) :
    l.any MatchState.matched = true := by
  cases hm : l.any MatchState.matched with
  | true => rfl
  | false => rw [walk_unmatched l t hm] at h; cases h

theorem TRec.record {t t' : Tracker} {d : Nat} {f : AuthFn} (h : TRec t d) (hr : t.record f = .ok t') : TRec t' d := by
  obtain ⟨htop, path, node, hw, hn, rfl⟩ := record_ok hr
  have hne : t.stack ≠ [] := by
    intro he; rw [he] at hw; cases hw
  obtain ⟨m, below, hs⟩ := List.exists_cons_of_ne_nil hne
  refine ⟨?_, ?_, ?_⟩
  · have := h.len; rw [hs] at this; simp only [hs, List.tail_cons, List.length_cons] at this ⊢; exact this
  · intro p n hp
    have h1 : infoAt (t.root.addSub path (Inv.newRecording f)) p = some (n.fn, n.used) := by
      unfold infoAt; dsimp only at hp; rw [hp]; rfl
    rw [infoAt_addSub _ rfl path t.root node p hn] at h1
    split at h1
    · simp only [Option.some.injEq, Prod.mk.injEq] at h1
      rw [← h1.2]; rfl
    · unfold infoAt at h1
      cases hx : t.root.at? p with
      | none => rw [hx] at h1; cases h1
      | some n' =>
        rw [hx] at h1
        simp only [Option.map_some, Option.some.injEq, Prod.mk.injEq] at h1
        rw [← h1.2]; exact h.used p n' hx
  · rcases h.state with ⟨h1, h2⟩ | ⟨h1, above, r, h2, h3⟩
    · exfalso
      have := inStack_of_walk hw
      rw [List.any_reverse] at this
      unfold Tracker.inStack at h2
      rw [h2] at this; cases this
    · cases above with
      | nil =>
        exfalso
        simp only [Tracker.topMatched, h2, List.nil_append, MatchState.matched] at htop
        cases htop
      | cons m above =>
        exact .inr ⟨h1, .sub node.subs.length :: above, r, by simp [h2], h3⟩

theorem TSim.push {r e : Tracker} {f : Inv} (h : TSim r e f) : TSim r.push e.push f :=
  ⟨by simp [Tracker.push, h.stack], h.rootFrame, h.fully, h.part⟩

theorem TSim.pop {r e : Tracker} {f : Inv} (h : TSim r e f) : TSim r.pop e.pop f :=
  ⟨by simp [Tracker.pop, h.stack], h.rootFrame, by simp [Tracker.pop, h.stack, h.rootFrame, h.fully], h.part⟩

theorem TIdle.push {e : Tracker} {f : Inv} {d : Nat} (h : TIdle e f d) : TIdle e.push f (d + 1) :=
  ⟨by simp [Tracker.push, h.stack, List.replicate_succ], h.rootFrame, h.fully, h.part⟩

theorem TIdle.pop {e : Tracker} {f : Inv} {d : Nat} (h : TIdle e f (d + 1)) : TIdle e.pop f d :=
  ⟨by simp [Tracker.pop, h.stack, List.replicate_succ], h.rootFrame, by simp [Tracker.pop, h.rootFrame, h.fully], h.part⟩

theorem TSim.topMatched {r e : Tracker} {f : Inv} (h : TSim r e f) : e.topMatched = r.topMatched := by
  unfold Tracker.topMatched; rw [h.stack]

theorem TSim.rootUsed {r e : Tracker} {f : Inv} (h : TSim r e f) (hg : Grows r.root f) : e.root.used = true ∧ e.root.fn = r.root.fn := by
  have := h.part []
  have h1 : fnAt r.root [] = some r.root.fn := by rw [fnAt_info, infoAt_nil]; rfl
  rw [hg [] _ h1, h1, infoAt_nil] at this
  simp only [Option.map_some, Option.some.injEq, Prod.mk.injEq, Option.isSome_some] at this
  exact ⟨this.2, this.1⟩

/-- A request that was recorded in a tracker is found there. -/
theorem TSim.extend {r r' e : Tracker} {f : Inv} {g : AuthFn} {b : Bool} (h : TSim r e f) (hr : r.record g = .ok r')
    (hg : Grows r'.root f) : ∃ e' p, e.extend g b = (e', .ok (some p)) ∧ TSim r' e' f := by
  have hg0 := (record_grows hr).trans hg
  obtain ⟨htop, path, node, hw, hn, rfl⟩ := record_ok hr
  have hne : r.stack ≠ [] := by intro he; rw [he] at hw; cases hw
  obtain ⟨m, below, hs⟩ := List.exists_cons_of_ne_nil hne
  have hm : m.matched = false := by simpa [Tracker.topMatched, hs] using htop
  -- the node in the larger tree
  have hfp : fnAt r.root path = some node.fn := by unfold fnAt; rw [hn]; rfl
  have hep : infoAt e.root path = some (node.fn, true) := by rw [h.part path, hg0 _ _ hfp, hfp]; rfl
  obtain ⟨en, hen⟩ : ∃ en, e.root.at? path = some en := by
    unfold infoAt at hep
    cases hx : e.root.at? path with
    | none => rw [hx] at hep; cases hep
    | some en => exact ⟨en, rfl⟩
  have hw' : walk e.stack.reverse e.root = .ok (some path) := by
    rw [h.stack]; exact walk_same _ _ _ _ hw (by rw [hen]; rfl)
  have hchild : ∀ i, infoAt en [i] = (fnAt f (path ++ [i])).map (fun g => (g, (fnAt r.root (path ++ [i])).isSome)) := by
    intro i; rw [← infoAt_append e.root en path [i] hen]; exact h.part _
  have hrc : ∀ i, fnAt r.root (path ++ [i]) = (node.subs[i]?).map Inv.fn := by
    intro i; rw [fnAt_append r.root node path [i] hn, fnAt_child]
  have hnew : fnAt f (path ++ [node.subs.length]) = some g := by
    apply hg
    rw [fnAt_addSub _ rfl path r.root node _ hn, if_pos rfl]; rfl
  have hi : ∀ i x, infoAt en [i] = some x → ∃ s, en.subs[i]? = some s ∧ s.fn = x.1 ∧ s.used = x.2 := by
    intro i x hx
    rw [infoAt_cons] at hx
    cases hs : en.subs[i]? with
    | none => rw [hs] at hx; cases hx
    | some s => rw [hs] at hx; simp only [Option.bind_some] at hx; rw [infoAt_nil] at hx; cases hx; exact ⟨s, rfl, rfl, rfl⟩
  have hfree : findFree g en.subs 0 = some node.subs.length := by
    have h1 := hchild node.subs.length
    rw [hnew, hrc, List.getElem?_eq_none (Nat.le_refl _)] at h1
    obtain ⟨s, hs1, hs2, hs3⟩ := hi _ _ h1
    have := findFree_first g en.subs node.subs.length 0 s (fun i hlt => ?_) hs1 hs3 hs2
    · rw [this]; congr 1; omega
    · have h2 := hchild i
      have h3 : fnAt r.root (path ++ [i]) = some (node.subs[i].fn) := by rw [hrc, List.getElem?_eq_getElem hlt]; rfl
      rw [hg0 _ _ h3, h3] at h2
      obtain ⟨s, hs1, _, hs3⟩ := hi _ _ h2
      exact ⟨s, hs1, hs3⟩
  refine ⟨{ e with root := e.root.use (path ++ [node.subs.length]), stack := .sub node.subs.length :: below },
    path ++ [node.subs.length], ?_, ?_, h.rootFrame, h.fully, ?_⟩
  · have hse : e.stack = m :: below := by rw [h.stack, hs]
    unfold Tracker.extend
    rw [hw']
    simp only [hse, hm, Bool.false_eq_true, if_false, hen, hfree]
  · simp [hs]
  · intro q
    dsimp only
    rw [infoAt_use, fnAt_addSub _ rfl path r.root node q hn]
    by_cases hq : q = path ++ [node.subs.length]
    · rw [if_pos hq, if_pos hq, h.part q, hq, hnew]; rfl
    · rw [if_neg hq, if_neg hq]; exact h.part q

/-- The first request of a tree is found there. -/
theorem TIdle.extend {e : Tracker} {f : Inv} {g : AuthFn} {d : Nat} (h : TIdle e f (d + 1))
    (hg : Grows (Tracker.newRecording g (d + 1)).root f) : ∃ e' p, e.extend g true = (e', .ok (some p)) ∧
      TSim (Tracker.newRecording g (d + 1)) e' f := by
  have hr : fnAt (Inv.newRecording g) [] = some g := rfl
  have h0 := h.part []
  rw [hg [] g hr, infoAt_nil] at h0
  simp only [Option.map_some, Option.some.injEq, Prod.mk.injEq] at h0
  have hw : walk e.stack.reverse e.root = .ok none := by
    apply walk_unmatched; rw [h.stack]; simp [MatchState.matched]
  refine ⟨{ e with root := e.root.use [], stack := .root :: List.replicate d .unmatched, rootFrame := some d }, [], ?_,
    ⟨by simp [Tracker.newRecording], by simp [Tracker.newRecording], h.fully, ?_⟩⟩
  · have hse : e.stack = .unmatched :: List.replicate d .unmatched := by rw [h.stack, List.replicate_succ]
    unfold Tracker.extend
    rw [hw]
    simp only [hse, MatchState.matched, Bool.false_eq_true, if_false]
    rw [if_pos ⟨h0.2, trivial, h0.1⟩]
    simp
  · intro q
    dsimp only
    rw [infoAt_use]
    cases q with
    | nil =>
      have h2 : fnAt (Tracker.newRecording g (d + 1)).root [] = some g := rfl
      rw [if_pos rfl, h.part [], hg [] g hr, h2]; rfl
    | cons i q =>
      have h2 : fnAt (Tracker.newRecording g (d + 1)).root (i :: q) = none := by
        rw [fnAt_info, infoAt_cons]; simp [Tracker.newRecording, Inv.newRecording, Inv.subs]
      rw [if_neg (by simp), h.part, h2]; rfl

/-- A tracker that has been popped past its root, or that is matched in the current frame, is passed over. -/
theorem TSim.skip {r e : Tracker} {f : Inv} {g : AuthFn} {b : Bool} {d : Nat} (h : TSim r e f) (hr : TRec r (d + 1))
    (hg : Grows r.root f) (hs : ¬ (r.inStack = true ∧ r.topMatched = false)) : (e.extend g b).2 = .ok none := by
  have hu := (h.rootUsed hg).1
  have hne : r.stack ≠ [] := by intro he; have := hr.len; rw [he] at this; cases this
  obtain ⟨m, below, hst⟩ := List.exists_cons_of_ne_nil hne
  have hse : e.stack = m :: below := by rw [h.stack, hst]
  cases hm : m.matched with
  | true =>
    unfold Tracker.extend
    rw [hse]
    simp only [hm, if_true]
  | false =>
    have ht : r.topMatched = false := by simp [Tracker.topMatched, hst, hm]
    have hi : r.inStack = false := by
      cases hx : r.inStack with
      | false => rfl
      | true => exact absurd ⟨hx, ht⟩ hs
    have hw : walk e.stack.reverse e.root = .ok none := by
      apply walk_unmatched; rw [List.any_reverse, h.stack]; exact hi
    unfold Tracker.extend
    rw [hw]
    simp only [hse, hm, Bool.false_eq_true, if_false, hu]
    simp

end Soroban.Auth
