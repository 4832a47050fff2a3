import Verif.Spec.Delegates
/-! Lemmas about delegated signers. -/
namespace Soroban.Delegates
open Soroban Soroban.Auth Soroban.Delegates.Spec

/-! ### trees -/

mutual
/-- A node without its flags. -/
def DNode.strip : DNode → XDelegate
  | .mk a s _ ks => .mk a s (strips ks)
/-- Nodes without their flags. -/
def strips : List DNode → List XDelegate
  | [] => []
  | n :: ns => n.strip :: strips ns
end

theorem strips_eq (ks : List DNode) : strips ks = ks.map DNode.strip := by
  induction ks with
  | nil => rfl
  | cons n ns ih => simp [strips, ih]

theorem DNode.strip_eq (n : DNode) : n.strip = .mk n.addr n.sig (strips n.kids) := by
  cases n; simp [DNode.strip, DNode.addr, DNode.sig, DNode.kids]

mutual
theorem rollback_snapshot : ∀ n n' : DNode, n'.strip = n.strip → n'.rollback n.snapshot = .ok n
  | .mk a s u ks, .mk a' s' u' ks', h => by
    simp only [DNode.strip, XDelegate.mk.injEq] at h
    obtain ⟨rfl, rfl, h⟩ := h
    simp only [DNode.snapshot, DNode.rollback, rollbacks_snapshots ks ks' h]
theorem rollbacks_snapshots : ∀ ns ns' : List DNode, strips ns' = strips ns → nodeRollbacks ns' (nodeSnapshots ns) = .ok ns
  | [], [], _ => rfl
  | [], _ :: _, h => by simp [strips] at h
  | _ :: _, [], h => by simp [strips] at h
  | n :: ns, n' :: ns', h => by
    simp only [strips, List.cons.injEq] at h
    simp only [nodeSnapshots, nodeRollbacks, rollback_snapshot n n' h.1, rollbacks_snapshots ns ns' h.2]
end

theorem strips_markUsed (p : List Nat) : ∀ ks, strips (markUsed ks p) = strips ks := by
  induction p with
  | nil => intro ks; rfl
  | cons i p ih =>
    intro ks
    rw [markUsed, strips_eq, strips_eq]
    apply List.ext_getElem?
    intro j
    simp only [List.getElem?_map, List.getElem?_modify]
    cases ks[j]? with
    | none => rfl
    | some n =>
      by_cases h : i = j
      · simp only [h, if_true, Option.map_eq_map, Option.map_some]
        rw [DNode.strip_eq n, DNode.strip, ih]
      · simp [h]

/-- The node at a path. -/
def nodeAt : List DNode → List Nat → Option DNode
  | _, [] => none
  | ks, i :: p =>
    match ks[i]? with
    | none => none
    | some n => if p = [] then some n else nodeAt n.kids p

theorem nodeAt_append (p : List Nat) (i : Nat) : ∀ ks, nodeAt ks (p ++ [i]) = (kidsAt ks p).bind (fun l => l[i]?) := by
  induction p with
  | nil =>
    intro ks
    simp only [List.nil_append, nodeAt, kidsAt, if_true, Option.bind_some]
    cases ks[i]? <;> rfl
  | cons j p ih =>
    intro ks
    simp only [List.cons_append, nodeAt, kidsAt]
    cases ks[j]? with
    | none => rfl
    | some n =>
      dsimp only
      rw [if_neg (by simp), ih]

theorem kidsAt_append (p q : List Nat) : ∀ ks, kidsAt ks (p ++ q) = (kidsAt ks p).bind (fun l => kidsAt l q) := by
  induction p with
  | nil => intro ks; rfl
  | cons j p ih =>
    intro ks
    simp only [List.cons_append, kidsAt]
    cases ks[j]? with
    | none => rfl
    | some n => exact ih _

theorem nodeAt_strips (p : List Nat) : ∀ ks, signerAt (strips ks) p = (nodeAt ks p).map (fun n => (n.addr, n.sig)) := by
  induction p with
  | nil => intro ks; rfl
  | cons i p ih =>
    intro ks
    simp only [signerAt, nodeAt, strips_eq, List.getElem?_map]
    cases ks[i]? with
    | none => rfl
    | some n =>
      rw [Option.map_some, DNode.strip_eq]
      dsimp only
      by_cases h : p = []
      · rw [if_pos h, if_pos h]; rfl
      · rw [if_neg h, if_neg h, ih]

theorem kidsAt_strips (p : List Nat) : ∀ ks, nestedAt (strips ks) p = (kidsAt ks p).map strips := by
  induction p with
  | nil => intro ks; rfl
  | cons i p ih =>
    intro ks
    simp only [nestedAt, kidsAt, strips_eq ks, List.getElem?_map]
    cases ks[i]? with
    | none => rfl
    | some n =>
      rw [Option.map_some, DNode.strip_eq]
      exact ih _

/-- Setting the flag at a path changes it there and nowhere else. -/
theorem used_markUsed (q : List Nat) : ∀ (p : List Nat) (ks : List DNode),
    (nodeAt (markUsed ks q) p).map DNode.used = (nodeAt ks p).map (fun n => n.used || decide (p = q)) := by
  induction q with
  | nil =>
    intro p ks
    cases p with
    | nil => rfl
    | cons i p => simp [markUsed]
  | cons j q ih =>
    intro p ks
    cases p with
    | nil => rfl
    | cons i p =>
      simp only [markUsed, nodeAt, List.getElem?_modify]
      cases ks[i]? with
      | none => rfl
      | some n =>
        by_cases h : j = i
        · subst h
          simp only [if_true, Option.map_eq_map, Option.map_some]
          by_cases hp : p = []
          · subst hp
            cases q <;> simp [DNode.used]
          · rw [if_neg hp, if_neg hp]
            have := ih p n.kids
            simp only [DNode.kids] at this ⊢
            rw [this]
            congr 1
            funext m
            simp
        · have h' : ¬ i = j := fun e => h e.symm
          simp only [if_neg h, Option.map_eq_map, Option.map_some]
          by_cases hp : p = []
          · rw [if_pos hp]; simp [h']
          · rw [if_neg hp]; simp [h']

theorem findAddr_spec {a : Addr} {n : DNode} (ks : List DNode) : ∀ {i k : Nat}, findAddr a ks i = some (k, n) →
    i ≤ k ∧ ks[k - i]? = some n ∧ n.addr = a := by
  induction ks with
  | nil => intro i k h; cases h
  | cons x xs ih =>
    intro i k h
    rw [findAddr] at h
    by_cases hx : x.addr = a
    · rw [if_pos hx] at h; cases h; exact ⟨Nat.le_refl _, by simp, hx⟩
    · rw [if_neg hx] at h
      obtain ⟨h1, h2, h3⟩ := ih h
      refine ⟨by omega, ?_, h3⟩
      have : k - i = (k - (i + 1)) + 1 := by omega
      rw [this, List.getElem?_cons_succ]
      exact h2

theorem tryPush_spec {t t' : DTracker} {a : Addr} {sig : Nat} (h : t.tryPush a = .ok (t', sig)) :
    ∃ ks i n, kidsAt t.kids t.stack = some ks ∧ ks[i]? = some n ∧ n.addr = a ∧ n.sig = sig ∧ n.used = false ∧
      t'.stack = t.stack ++ [i] ∧ t'.kids = markUsed t.kids (t.stack ++ [i]) := by
  unfold DTracker.tryPush at h
  cases hk : kidsAt t.kids t.stack with
  | none => rw [hk] at h; cases h
  | some ks =>
    rw [hk] at h
    dsimp only at h
    cases hf : findAddr a ks 0 with
    | none => rw [hf] at h; cases h
    | some x =>
      obtain ⟨i, n⟩ := x
      rw [hf] at h
      dsimp only at h
      by_cases hu : n.used = true
      · rw [if_pos hu] at h; cases h
      · rw [if_neg hu] at h
        cases h
        obtain ⟨-, h2, h3⟩ := findAddr_spec ks hf
        exact ⟨ks, i, n, rfl, h2, h3, rfl, by simpa using hu, rfl, rfl⟩

mutual
theorem nodeFromXdr_strip (lt : Addr → Addr → Bool) : ∀ (x : XDelegate) (n : DNode), nodeFromXdr lt x = .ok n →
    n.strip = x ∧ n.used = false ∧ ∀ p m, nodeAt n.kids p = some m → m.used = false
  | .mk a s l, n, h => by
    rw [nodeFromXdr] at h
    by_cases hs : sorted lt l = true
    · rw [if_pos hs] at h
      cases hk : nodesFromXdr lt l with
      | error e => rw [hk] at h; cases h
      | ok ks =>
        rw [hk] at h
        cases h
        obtain ⟨h1, h2⟩ := nodesFromXdr_strip lt l ks hk
        exact ⟨by rw [DNode.strip, h1], rfl, h2⟩
    · rw [if_neg hs] at h; cases h
theorem nodesFromXdr_strip (lt : Addr → Addr → Bool) : ∀ (xs : List XDelegate) (ns : List DNode), nodesFromXdr lt xs = .ok ns →
    strips ns = xs ∧ ∀ p m, nodeAt ns p = some m → m.used = false
  | [], ns, h => by
    rw [nodesFromXdr] at h
    cases h
    refine ⟨rfl, fun p m hm => ?_⟩
    cases p with
    | nil => cases hm
    | cons i p => simp [nodeAt] at hm
  | x :: xs, ns, h => by
    rw [nodesFromXdr] at h
    cases hx : nodeFromXdr lt x with
    | error e => rw [hx] at h; cases h
    | ok n =>
      rw [hx] at h
      dsimp only at h
      cases hxs : nodesFromXdr lt xs with
      | error e => rw [hxs] at h; cases h
      | ok ks =>
        rw [hxs] at h
        cases h
        obtain ⟨h1, h2, h3⟩ := nodeFromXdr_strip lt x n hx
        obtain ⟨h4, h5⟩ := nodesFromXdr_strip lt xs ks hxs
        refine ⟨by rw [strips, h1, h4], fun p m hm => ?_⟩
        cases p with
        | nil => cases hm
        | cons i p =>
          cases i with
          | zero =>
            simp only [nodeAt, List.getElem?_cons_zero] at hm
            by_cases hp : p = []
            · rw [if_pos hp] at hm; cases hm; exact h2
            · rw [if_neg hp] at hm; exact h3 p m hm
          | succ i =>
            exact h5 (i :: p) m (by simpa [nodeAt] using hm)
end

/-! ### frames -/

/-- The tree of an entry without flags. -/
def shapeOf (t : Option DTracker) : Option (List XDelegate) := t.map (fun d => strips d.kids)

theorem entryRollback_snapshot {t t' : Option DTracker} (h : shapeOf t' = shapeOf t) (v : Bool) :
    entryRollback t' (v, t.map DTracker.snapshot) = .ok (t, v) := by
  cases t with
  | none =>
    cases t' with
    | none => rfl
    | some d => simp [shapeOf] at h
  | some d =>
    cases t' with
    | none => simp [shapeOf] at h
    | some d' =>
      simp only [shapeOf, Option.map_some, Option.some.injEq] at h
      simp only [entryRollback, Option.map_some, DTracker.rollback, DTracker.snapshot, rollbacks_snapshots _ _ h]

/-- What a rollback restores. -/
theorem rollbackAll_spec (frames : List Nat) : ∀ (k : Nat) (ts0 : List (Option DTracker)) (vs0 : List Bool) (ts : List (Option DTracker))
    (vs : List Bool), ts0.length = vs0.length → ts.map shapeOf = ts0.map shapeOf → vs.length = vs0.length →
    ∃ ts2 vs2, rollbackAll ts vs (snapshotFrom frames k ts0 vs0) = .ok (ts2, vs2) ∧ ts2.map shapeOf = ts0.map shapeOf ∧
      vs2.length = vs0.length ∧
      ∀ j, ts2[j]? = (if k + j ∈ frames then ts[j]? else ts0[j]?) ∧ vs2[j]? = (if k + j ∈ frames then vs[j]? else vs0[j]?)
  | k, [], [], [], [], _, _, _ => by
    refine ⟨[], [], rfl, rfl, rfl, fun j => ?_⟩
    simp
  | k, [], [], [], _ :: _, _, _, h => by simp at h
  | k, [], [], _ :: _, _, _, h, _ => by simp at h
  | k, [], _ :: _, _, _, h, _, _ => by simp at h
  | k, _ :: _, [], _, _, h, _, _ => by simp at h
  | k, _ :: _, _ :: _, [], _, _, h, _ => by simp at h
  | k, _ :: _, _ :: _, _ :: _, [], _, _, h => by simp at h
  | k, t0 :: ts0, v0 :: vs0, t :: ts, v :: vs, h1, h2, h3 => by
    simp only [List.length_cons, List.map_cons, List.cons.injEq] at h1 h2 h3
    obtain ⟨ts2, vs2, q1, q2, q3, q4⟩ := rollbackAll_spec frames (k + 1) ts0 vs0 ts vs (by omega) h2.2 (by omega)
    rw [snapshotFrom, rollbackAll, q1]
    dsimp only
    by_cases hk : k ∈ frames
    · rw [if_pos hk]
      refine ⟨t :: ts2, v :: vs2, rfl, by simp [h2.1, q2], by simp [q3], fun j => ?_⟩
      cases j with
      | zero => simp [hk]
      | succ j =>
        have := q4 j
        rw [show k + 1 + j = k + (j + 1) by omega] at this
        simpa using this
    · rw [if_neg hk]
      dsimp only
      rw [entryRollback_snapshot h2.1]
      refine ⟨t0 :: ts2, v0 :: vs2, rfl, by simp [q2], by simp [q3], fun j => ?_⟩
      cases j with
      | zero => simp [hk]
      | succ j =>
        have := q4 j
        rw [show k + 1 + j = k + (j + 1) by omega] at this
        simpa using this

/-- The trackers and the flags go together. -/
def Wf (s : DSt) : Prop := s.trackers.length = s.verified.length

/-- What code can do to the state, whether it fails or not: `c` says that it is the code of a `__check_auth` function. The
trackers of the entries that are being authenticated are not changed, except by `__check_auth` the one on top. -/
structure Step (c : Bool) (s s' : DSt) : Prop where
  frames : s'.frames = s.frames
  shape : s'.trackers.map shapeOf = s.trackers.map shapeOf
  vlen : s'.verified.length = s.verified.length
  keep : ∀ i ∈ s.frames, (c = false ∨ s.frames.head? ≠ some i) → s'.trackers[i]? = s.trackers[i]?
  vkeep : ∀ i ∈ s.frames, s'.verified[i]? = s.verified[i]?

theorem Step.refl (c : Bool) (s : DSt) : Step c s s := ⟨rfl, rfl, rfl, fun _ _ _ => rfl, fun _ _ => rfl⟩

theorem Step.trans {c : Bool} {s1 s2 s3 : DSt} (h : Step c s1 s2) (h' : Step c s2 s3) : Step c s1 s3 := by
  refine ⟨h'.frames.trans h.frames, h'.shape.trans h.shape, h'.vlen.trans h.vlen, fun i hi hc => ?_, fun i hi => ?_⟩
  · rw [h'.keep i (by rw [h.frames]; exact hi) (by rw [h.frames]; exact hc), h.keep i hi hc]
  · rw [h'.vkeep i (by rw [h.frames]; exact hi), h.vkeep i hi]

theorem Step.len {c : Bool} {s s' : DSt} (h : Step c s s') : s'.trackers.length = s.trackers.length := by
  have := congrArg List.length h.shape
  simpa using this

theorem Step.wf {c : Bool} {s s' : DSt} (h : Step c s s') (hw : Wf s) : Wf s' := by
  unfold Wf at *
  rw [h.len, h.vlen, hw]

theorem Step.toCheck {s s' : DSt} (h : Step false s s') (c : Bool) : Step c s s' :=
  ⟨h.frames, h.shape, h.vlen, fun i hi _ => h.keep i hi (.inl rfl), h.vkeep⟩

/-- A frame whose code fails: everything is as before, except for the tracker on top if this is a frame of `__check_auth`. -/
theorem framed_error {c : Bool} {s s1 : DSt} {f : DSt → DSt × Res Unit} {e : Err} (hw : Wf s) (hs : Step c s (f s).1)
    (h : framed s f = (s1, .error e)) : (f s).2 = .error e ∧ s1.frames = s.frames ∧ s1.log = s.log ∧ s1.verified = s.verified ∧
      s1.trackers.map shapeOf = s.trackers.map shapeOf ∧
      (∀ i, (c = false ∨ s.frames.head? ≠ some i) → s1.trackers[i]? = s.trackers[i]?) := by
  unfold framed at h
  rcases hf : f s with ⟨s', r⟩
  rw [hf] at h hs
  cases r with
  | ok v => cases h
  | error e' =>
    dsimp only at h
    obtain ⟨ts2, vs2, q1, q2, q3, q4⟩ := rollbackAll_spec s.frames 0 s.trackers s.verified s'.trackers s'.verified hw hs.shape hs.vlen
    rw [q1] at h
    cases h
    refine ⟨rfl, hs.frames, rfl, ?_, q2, ?_⟩
    · apply List.ext_getElem?
      intro j
      have := (q4 j).2
      rw [Nat.zero_add] at this
      rw [this]
      by_cases hj : j ∈ s.frames
      · rw [if_pos hj, hs.vkeep j hj]
      · rw [if_neg hj]
    · intro i hi
      have := (q4 i).1
      rw [Nat.zero_add] at this
      dsimp only
      rw [this]
      by_cases hj : i ∈ s.frames
      · rw [if_pos hj, hs.keep i hj hi]
      · rw [if_neg hj]

theorem framed_ok {s s1 : DSt} {f : DSt → DSt × Res Unit} {v : Unit} (h : framed s f = (s1, .ok v)) : f s = (s1, .ok v) := by
  unfold framed at h
  rcases hf : f s with ⟨s', r⟩
  rw [hf] at h
  cases r with
  | ok v => exact h
  | error e' =>
    dsimp only at h
    cases hr : rollbackAll s'.trackers s'.verified (snapshotFrom s.frames 0 s.trackers s.verified) with
    | error e => rw [hr] at h; cases h
    | ok x => rw [hr] at h; cases h

theorem framed_step {c : Bool} {s : DSt} {f : DSt → DSt × Res Unit} (hw : Wf s) (hs : Step c s (f s).1) : Step c s (framed s f).1 := by
  rcases h : framed s f with ⟨s1, r⟩
  cases r with
  | ok v => rw [framed_ok h] at hs; exact hs
  | error e =>
    obtain ⟨-, h1, -, h3, h4, h5⟩ := framed_error hw hs h
    exact ⟨h1, h4, by rw [h3], fun i _ hc => h5 i hc, fun i _ => by rw [h3]⟩

/-- A call of a contract that fails leaves no trace. -/
theorem framed_call_error {s s1 : DSt} {f : DSt → DSt × Res Unit} {e : Err} (hw : Wf s) (hs : Step false s (f s).1)
    (h : framed s f = (s1, .error e)) : s1 = s := by
  obtain ⟨-, h1, h2, h3, -, h5⟩ := framed_error hw hs h
  have h6 : s1.trackers = s.trackers := by
    apply List.ext_getElem?
    intro i
    exact h5 i (.inl rfl)
  cases s1; cases s
  simp_all

theorem map_shape_set {ts : List (Option DTracker)} {i : Nat} {t t' : DTracker} (h : ts[i]? = some (some t))
    (hs : strips t'.kids = strips t.kids) : (ts.set i (some t')).map shapeOf = ts.map shapeOf := by
  apply List.ext_getElem?
  intro j
  simp only [List.getElem?_map, List.getElem?_set]
  by_cases hj : i = j
  · subst hj
    have hlt : i < ts.length := by
      by_contra hx
      rw [List.getElem?_eq_none (by omega)] at h; cases h
    rw [h]
    simp [hlt, shapeOf, hs]
  · simp [hj]

theorem beginDelegate_spec {c : Bool} {s s1 : DSt} {a : Addr} {i sig : Nat} (h : beginDelegate c s a = .ok (s1, i, sig)) :
    c = true ∧ ∃ fr t t', s.frames = i :: fr ∧ s.trackers[i]? = some (some t) ∧ t.tryPush a = .ok (t', sig) ∧
      s1 = { s with trackers := s.trackers.set i (some t'), log := ⟨i, t'.stack, a, sig⟩ :: s.log } := by
  unfold beginDelegate at h
  cases c with
  | false => cases h
  | true =>
    refine ⟨rfl, ?_⟩
    rw [if_neg (by simp)] at h
    cases hf : s.frames with
    | nil => rw [hf] at h; cases h
    | cons j fr =>
      rw [hf] at h
      dsimp only at h
      cases ht : s.trackers[j]? with
      | none => rw [ht] at h; cases h
      | some o =>
        cases o with
        | none => rw [ht] at h; cases h
        | some t =>
          rw [ht] at h
          dsimp only at h
          cases hp : t.tryPush a with
          | error e => rw [hp] at h; cases h
          | ok x =>
            obtain ⟨t', sg⟩ := x
            rw [hp] at h
            cases h
            exact ⟨fr, t, t', rfl, ht, hp, rfl⟩

theorem beginDelegate_step {c : Bool} {s s1 : DSt} {a : Addr} {i sig : Nat} (h : beginDelegate c s a = .ok (s1, i, sig)) :
    Step c s s1 := by
  obtain ⟨rfl, fr, t, t', hf, ht, hp, rfl⟩ := beginDelegate_spec h
  obtain ⟨ks, j, n, -, -, -, -, -, -, hk⟩ := tryPush_spec hp
  refine ⟨rfl, map_shape_set ht (by rw [hk, strips_markUsed]), rfl, fun l hl hc => ?_, fun _ _ => rfl⟩
  rcases hc with hc | hc
  · cases hc
  · have hne : i ≠ l := fun e => hc (by rw [hf, e]; rfl)
    simp only [List.getElem?_set, if_neg hne]

theorem endDelegate_step {s : DSt} : Step true s (endDelegate s).1 := by
  unfold endDelegate
  cases hf : s.frames with
  | nil => exact Step.refl _ _
  | cons i fr =>
    dsimp only
    cases ht : s.trackers[i]? with
    | none => exact Step.refl _ _
    | some o =>
      cases o with
      | none => exact Step.refl _ _
      | some t =>
        dsimp only
        refine ⟨hf.symm, map_shape_set ht rfl, rfl, fun l hl hc => ?_, fun _ _ => rfl⟩
        rcases hc with hc | hc
        · cases hc
        · have hne : i ≠ l := fun e => hc (by rw [hf, e]; rfl)
          simp only [List.getElem?_set, if_neg hne]

theorem checkAddr_step {E : DEnv} {s : DSt} {a : Addr} {p sig : Nat} {f : DSt → DSt × Res Unit} (hw : Wf s) (hs : Step true s (f s).1) :
    Step true s (checkAddr E s a p sig f).1 := by
  unfold checkAddr
  cases a with
  | account id => exact Step.refl _ _
  | contract id => exact framed_step hw hs

theorem verify_step {E : DEnv} {s : DSt} {i : Nat} {f : DSt → DSt × Res Unit} (hw : Wf s) (hi : i ∉ s.frames)
    (hs : Step true { s with frames := i :: s.frames } (f { s with frames := i :: s.frames }).1) : Step false s (verify E s i f).1 := by
  unfold verify
  cases hv : s.verified[i]? with
  | none => exact Step.refl _ _
  | some b =>
    cases b with
    | true => exact Step.refl _ _
    | false =>
      dsimp only
      have h1 := checkAddr_step (E := E) (a := (E.entry i).addr) (p := (E.entry i).payload) (sig := (E.entry i).sig) (s := { s with frames := i :: s.frames }) hw hs
      revert h1
      generalize checkAddr E { s with frames := i :: s.frames } (E.entry i).addr (E.entry i).payload (E.entry i).sig f = q
      obtain ⟨q, r⟩ := q
      intro h1
      dsimp only at h1 ⊢
      have hne : ∀ j ∈ s.frames, i ≠ j := fun j hj e => hi (e ▸ hj)
      have h2 : Step false s { q with frames := q.frames.tail } := by
        refine ⟨by rw [h1.frames]; rfl, h1.shape, h1.vlen, fun j hj _ => ?_, fun j hj => ?_⟩
        · exact h1.keep j (List.mem_cons_of_mem _ hj) (.inr (by simpa using hne j hj))
        · exact h1.vkeep j (List.mem_cons_of_mem _ hj)
      cases r with
      | error e => exact h2
      | ok _ =>
        dsimp only
        cases E.nonce i with
        | error e => exact h2
        | ok _ =>
          refine h2.trans ⟨rfl, rfl, by simp, fun _ _ _ => rfl, fun j hj => ?_⟩
          dsimp only
          have : j ∈ s.frames := by rw [← h2.frames]; exact hj
          rw [List.getElem?_set, if_neg (hne j this)]

theorem run_step (E : DEnv) : ∀ (p : CProg) (c : Bool) (s : DSt), Wf s → Step c s (run E p c s).1 := by
  intro p
  induction p with
  | ret => intro c s _; exact Step.refl _ _
  | fail e => intro c s _; exact Step.refl _ _
  | signers k ih =>
    intro c s hw
    rw [run]
    cases currentSigners c s with
    | error e => exact Step.refl _ _
    | ok l => exact ih l c s hw
  | delegate a body k ihb ihk =>
    intro c s hw
    rw [run]
    cases hb : beginDelegate c s a with
    | error e => exact Step.refl _ _
    | ok x =>
      obtain ⟨s1, i, sig⟩ := x
      dsimp only
      have h1 := beginDelegate_step hb
      obtain ⟨rfl, -⟩ := beginDelegate_spec hb
      have h2 := checkAddr_step (E := E) (a := a) (p := (E.entry i).payload) (sig := sig) (h1.wf hw)
        (ihb (E.entry i).payload sig (E.entry i).context true s1 (h1.wf hw))
      revert h2
      generalize checkAddr E s1 a (E.entry i).payload sig (run E (body (E.entry i).payload sig (E.entry i).context) true) = q
      obtain ⟨s2, r⟩ := q
      intro h2
      cases r with
      | error e => exact h1.trans h2
      | ok _ =>
        dsimp only
        have h3 := endDelegate_step (s := s2)
        revert h3
        generalize endDelegate s2 = q
        obtain ⟨s3, r⟩ := q
        intro h3
        have h4 := (h1.trans h2).trans h3
        cases r with
        | error e => exact h4
        | ok _ => exact h4.trans (ihk true s3 (h4.wf hw))
  | auth i body k ihb ihk =>
    intro c s hw
    rw [run]
    by_cases hi : i ∈ s.frames
    · rw [if_pos hi]; exact Step.refl _ _
    · rw [if_neg hi]
      have h1 := verify_step (E := E) hw hi (ihb (E.entry i).payload (E.entry i).sig (E.entry i).context true { s with frames := i :: s.frames } hw)
      revert h1
      generalize verify E s i _ = q
      obtain ⟨s1, r⟩ := q
      intro h1
      cases r with
      | error e => exact h1.toCheck c
      | ok _ => exact (h1.toCheck c).trans (ihk c s1 (h1.wf hw))
  | call body k ihb ihk =>
    intro c s hw
    rw [run]
    have h1 := framed_step hw (ihb false s hw)
    revert h1
    generalize framed s _ = q
    obtain ⟨s1, r⟩ := q
    intro h1
    cases r with
    | error e => exact h1.toCheck c
    | ok _ => exact (h1.toCheck c).trans (ihk c s1 (h1.wf hw))
  | tryCall body k ihb ihk =>
    intro c s hw
    rw [run]
    have h1 := framed_step hw (ihb false s hw)
    revert h1
    generalize framed s _ = q
    obtain ⟨s1, r⟩ := q
    intro h1
    cases r with
    | error e =>
      dsimp only
      by_cases hr : recoverable e = true
      · rw [if_pos hr]; exact (h1.toCheck c).trans (ihk false c s1 (h1.wf hw))
      · rw [if_neg hr]; exact h1.toCheck c
    | ok _ => exact (h1.toCheck c).trans (ihk true c s1 (h1.wf hw))

end Soroban.Delegates
