import Verif.Spec.Metering
/-! The tree of the meter (C78). -/
namespace Soroban.Metering
open Soroban Soroban.Metering.Spec

theorem satI64_id {x : Int} (h1 : -i64Max ≤ x) (h2 : x ≤ i64Max) : satI64 x = x := by
  unfold satI64 i64Min
  unfold i64Max at *
  rw [if_neg (by omega), if_neg (by omega)]

theorem satI32_id {x : Int} (h1 : -2147483647 ≤ x) (h2 : x ≤ 2147483647) : satI32 x = x := by
  unfold satI32
  rw [if_neg (by omega), if_neg (by omega)]

theorem subtract_used {a b : Resources} (ha : Sane a) (hb : Sane b) : a.subtract b = used a b := by
  obtain ⟨a1, a2, a3, a4, a5, a6, a7, a8, a9, a10, a11, a12⟩ := ha
  obtain ⟨b1, b2, b3, b4, b5, b6, b7, b8, b9, b10, b11, b12⟩ := hb
  have k64 : ∀ x y : Int, 0 ≤ x ∧ x ≤ i64Max → 0 ≤ y ∧ y ≤ i64Max → satI64 (x - y) = x - y := by
    intro x y hx hy
    exact satI64_id (by omega) (by omega)
  have k32 : ∀ x y : Int, 0 ≤ x ∧ x ≤ 2147483647 → 0 ≤ y ∧ y ≤ 2147483647 → satI32 (x - y) = x - y := by
    intro x y hx hy
    exact satI32_id (by omega) (by omega)
  unfold Resources.subtract used
  rw [k64 _ _ a1 b1, k64 _ _ a2 b2, k32 _ _ a3 b3, k32 _ _ a4 b4, k32 _ _ a5 b5, k32 _ _ a6 b6, k32 _ _ a7 b7, k32 _ _ a8 b8,
    k64 _ _ a9 b9, k32 _ _ a10 b10, k64 _ _ a11 b11, k32 _ _ a12 b12]

/-! ### the path of last sub-calls -/

theorem set_of_get {f : Node → Node} : ∀ (n : Nat) {t p : Node}, t.get n = some p → ∃ t', t.set n f = some t' ∧ t'.get n = some (f p)
  | 0, t, p, h => by cases h; exact ⟨f t, rfl, rfl⟩
  | n + 1, .mk i r subs, p, h => by
    rw [Node.get] at h
    cases hl : subs.getLast? with
    | none => rw [hl] at h; cases h
    | some c =>
      rw [hl] at h
      obtain ⟨c', h1, h2⟩ := set_of_get n h
      refine ⟨.mk i r (subs.dropLast ++ [c']), ?_, ?_⟩
      · rw [Node.set, hl]; dsimp only; rw [h1]
      · rw [Node.get]; simp [h2]

theorem set_set {f g : Node → Node} : ∀ (n : Nat) {t t' : Node}, t.set n f = some t' → t'.set n g = t.set n (fun p => g (f p))
  | 0, t, t', h => by cases h; rfl
  | n + 1, .mk i r subs, t', h => by
    rw [Node.set] at h ⊢
    cases hl : subs.getLast? with
    | none => rw [hl] at h; cases h
    | some c =>
      rw [hl] at h
      dsimp only at h ⊢
      cases hc : c.set n f with
      | none => rw [hc] at h; cases h
      | some c' =>
        rw [hc] at h
        cases h
        rw [Node.set]
        simp only [List.getLast?_append, List.getLast?_singleton, Option.some_or, List.dropLast_concat]
        rw [set_set n hc]

theorem set_congr {f g : Node → Node} : ∀ (n : Nat) {t p : Node}, t.get n = some p → f p = g p → t.set n f = t.set n g
  | 0, t, p, h, hfg => by cases h; rw [Node.set, Node.set, hfg]
  | n + 1, .mk i r subs, p, h, hfg => by
    rw [Node.get] at h
    rw [Node.set, Node.set]
    cases hl : subs.getLast? with
    | none => rfl
    | some c =>
      rw [hl] at h
      dsimp only
      rw [set_congr n h hfg]

/-- One level further down: the last sub-call of the node at the end of the path. -/
theorem get_succ : ∀ (n : Nat) {t : Node} {i : Invocation} {r : Resources} {subs : List Node} {c : Node},
    t.get n = some (.mk i r (subs ++ [c])) → t.get (n + 1) = some c
  | 0, t, i, r, subs, c, h => by cases h; rw [Node.get]; simp [Node.get]
  | n + 1, .mk i' r' subs', i, r, subs, c, h => by
    rw [Node.get] at h ⊢
    cases hl : subs'.getLast? with
    | none => rw [hl] at h; cases h
    | some d => rw [hl] at h; exact get_succ n h

theorem set_succ {f : Node → Node} : ∀ (n : Nat) {t : Node} {i : Invocation} {r : Resources} {subs : List Node} {c : Node},
    t.get n = some (.mk i r (subs ++ [c])) → t.set (n + 1) f = t.set n (fun _ => .mk i r (subs ++ [f c]))
  | 0, t, i, r, subs, c, h => by cases h; rw [Node.set]; simp [Node.set]
  | n + 1, .mk i' r' subs', i, r, subs, c, h => by
    rw [Node.get] at h
    rw [Node.set, Node.set]
    cases hl : subs'.getLast? with
    | none => rfl
    | some d =>
      rw [hl] at h
      dsimp only
      rw [set_succ n h]

/-! ### inside an invocation -/

/-- The meter while an invocation is measured. -/
structure Inside {H : Type} (m : Meter H) (base : H) (n : Nat) (t : Node) : Prop where
  on : m.enabled = true
  depth : m.depth = n + 1
  base : m.base = base
  root : m.root = some t

def addSubs (ns : List Node) (p : Node) : Node := .mk p.inv p.res (p.subs ++ ns)

theorem addSubs_nil (p : Node) : addSubs [] p = p := by cases p; simp [addSubs, Node.inv, Node.res, Node.subs]

theorem addSubs_addSubs (ns ms : List Node) (p : Node) : addSubs ms (addSubs ns p) = addSubs (ns ++ ms) p := by
  cases p; simp [addSubs, Node.inv, Node.res, Node.subs]

theorem set_id : ∀ (n : Nat) {t p : Node}, t.get n = some p → t.set n (fun p => p) = some t
  | 0, t, p, h => rfl
  | n + 1, .mk i r subs, p, h => by
    rw [Node.get] at h
    rw [Node.set]
    cases hl : subs.getLast? with
    | none => rw [hl] at h; cases h
    | some c =>
      rw [hl] at h
      dsimp only
      rw [set_id n h]
      dsimp only
      obtain ⟨ys, rfl⟩ := List.getLast?_eq_some_iff.mp hl
      simp

section
variable {H : Type} {V : View H} (hV : ∀ b h, Sane (V.read b h))
include hV

mutual
theorem run_inside (tr : Tr H) : ∀ {m : Meter H} {base h : H} {n : Nat} {t p : Node}, Inside m base n t → t.get n = some p →
    ∃ m' t', tr.run V m h = some (m', (calls V base p.inv tr h).2) ∧ Inside m' base n t' ∧
      t.set n (addSubs (calls V base p.inv tr h).1) = some t' := by
  intro m base h n t p hm hp
  cases tr with
  | work f =>
    rw [Tr.run, calls]
    refine ⟨m, t, rfl, hm, ?_⟩
    have : addSubs [] = fun p => p := funext addSubs_nil
    rw [this]
    exact set_id n hp
  | scope inv body =>
    have hd : ¬ m.depth = 0 := by rw [hm.depth]; omega
    have hd1 : m.depth - 1 = n := by rw [hm.depth]; rfl
    have hpush : m.push V h inv = if p.inv = inv then some (m, h, false)
        else if inv.isCall = false then some (m, h, false)
        else match t.set n (addSubs [.mk inv (V.read base h) []]) with
          | none => none
          | some t' => some ({ m with root := some t', depth := m.depth + 1 }, h, true) := by
      unfold Meter.push
      rw [if_neg (by rw [hm.on]; simp), if_neg hd, hm.root]
      dsimp only
      rw [hd1, hp]
      dsimp only
      rw [hm.base]
      rfl
    rw [Tr.run, calls]
    have hcall : (∃ c f, inv = Invocation.call c f) ↔ inv.isCall = true := by
      cases inv <;> simp [Invocation.isCall]
    by_cases hc : inv ≠ p.inv ∧ (∃ c f, inv = Invocation.call c f)
    · rw [if_pos hc]
      rw [hpush, if_neg (Ne.symm hc.1), if_neg (by rw [hcall.mp hc.2]; simp)]
      obtain ⟨t1, h1, h2⟩ := set_of_get (f := addSubs [.mk inv (V.read base h) []]) n hp
      rw [h1]
      dsimp only
      obtain ⟨pi, pr, ps⟩ := p
      have h2' : t1.get n = some (.mk pi pr (ps ++ [.mk inv (V.read base h) []])) := h2
      have hget := get_succ n h2'
      have hin : Inside { m with root := some t1, depth := m.depth + 1 } base (n + 1) t1 :=
        ⟨hm.on, by dsimp only; rw [hm.depth], hm.base, rfl⟩
      obtain ⟨m2, t2, h3, h4, h5⟩ := runs_inside body (h := h) hin hget
      change runTrs V body _ h = some (m2, (callsAll V base inv body h).2) at h3
      change t1.set (n + 1) (addSubs (callsAll V base inv body h).1) = some t2 at h5
      rw [h3]
      dsimp only
      rw [if_pos rfl]
      -- the end of the scope
      have hset : ∀ f, t2.set (n + 1) f = t.set n (fun _ => .mk pi pr (ps ++ [f (.mk inv (V.read base h) (callsAll V base inv body h).1)])) := by
        intro f
        rw [set_set (n + 1) h5, set_succ n h2', set_set n h1]
        rfl
      obtain ⟨t3, h6, _⟩ := set_of_get (f := fun _ => Node.mk pi pr (ps ++ [.mk inv
        (used (V.read base (callsAll V base inv body h).2) (V.read base h)) (callsAll V base inv body h).1])) n hp
      have hpop : m2.pop V (callsAll V base inv body h).2 = some { m2 with root := some t3, depth := n + 1 } := by
        unfold Meter.pop
        rw [if_neg (by rw [h4.depth]; omega), h4.root]
        dsimp only
        have : m2.depth - 1 = n + 1 := by rw [h4.depth]; rfl
        rw [this, hset, h4.base]
        simp only [Node.inv, Node.res, Node.subs]
        rw [subtract_used (hV _ _) (hV _ _), h6]
      rw [hpop]
      refine ⟨_, t3, rfl, ⟨h4.on, rfl, h4.base, rfl⟩, ?_⟩
      rw [← h6]
      exact set_congr n hp rfl
    · rw [if_neg hc]
      have hskip : m.push V h inv = some (m, h, false) := by
        rw [hpush]
        by_cases h1 : p.inv = inv
        · rw [if_pos h1]
        · rw [if_neg h1, if_pos]
          cases hi : inv.isCall with
          | false => rfl
          | true => exact absurd ⟨Ne.symm h1, hcall.mpr hi⟩ hc
      rw [hskip]
      obtain ⟨m2, t2, h3, h4, h5⟩ := runs_inside body (h := h) hm hp
      dsimp only
      rw [h3]
      exact ⟨m2, t2, rfl, h4, h5⟩
termination_by sizeOf tr
theorem runs_inside (trs : List (Tr H)) : ∀ {m : Meter H} {base h : H} {n : Nat} {t p : Node}, Inside m base n t → t.get n = some p →
    ∃ m' t', runTrs V trs m h = some (m', (callsAll V base p.inv trs h).2) ∧ Inside m' base n t' ∧
      t.set n (addSubs (callsAll V base p.inv trs h).1) = some t' := by
  intro m base h n t p hm hp
  cases trs with
  | nil =>
    rw [runTrs, callsAll]
    refine ⟨m, t, rfl, hm, ?_⟩
    have : addSubs [] = fun p => p := funext addSubs_nil
    rw [this]
    exact set_id n hp
  | cons tr trs =>
    rw [runTrs, callsAll]
    obtain ⟨m1, t1, h1, h2, h3⟩ := run_inside tr (h := h) hm hp
    rw [h1]
    dsimp only
    obtain ⟨t1', h4, h5⟩ := set_of_get (f := addSubs (calls V base p.inv tr h).1) n hp
    rw [h3] at h4
    cases h4
    obtain ⟨m2, t2, h6, h7, h8⟩ := runs_inside trs (h := (calls V base p.inv tr h).2) h2 h5
    change runTrs V trs m1 _ = some (m2, (callsAll V base p.inv trs (calls V base p.inv tr h).2).2) at h6
    change t1.set n (addSubs (callsAll V base p.inv trs (calls V base p.inv tr h).2).1) = some t2 at h8
    refine ⟨m2, t2, h6, h7, ?_⟩
    rw [set_set n h3] at h8
    rw [← h8]
    exact set_congr n hp (addSubs_addSubs _ _ _).symm
termination_by sizeOf trs
end

/-- An outermost invocation. -/
theorem run_outermost (inv : Invocation) (body : List (Tr H)) {m : Meter H} (hon : m.enabled = true) (hd : m.depth = 0) (h : H) :
    ∃ m', (Tr.scope inv body).run V m h = some (m', (outermost V inv body h).2) ∧ m'.enabled = true ∧ m'.depth = 0 ∧
      m'.root = some (outermost V inv body h).1 := by
  rw [Tr.run]
  unfold Meter.push
  rw [if_neg (by rw [hon]; simp), if_pos hd]
  dsimp only
  have hin : Inside { m with base := V.reset h, depth := 1, root := some (.mk inv (V.read (V.reset h) (V.reset h)) []) } (V.reset h) 0
      (.mk inv (V.read (V.reset h) (V.reset h)) []) := ⟨hon, rfl, rfl, rfl⟩
  obtain ⟨m2, t2, h1, h2, h3⟩ := runs_inside hV body (h := V.reset h) hin (p := .mk inv (V.read (V.reset h) (V.reset h)) []) rfl
  change runTrs V body _ _ = some (m2, (callsAll V (V.reset h) inv body (V.reset h)).2) at h1
  change Node.set 0 (addSubs (callsAll V (V.reset h) inv body (V.reset h)).1) _ = some t2 at h3
  rw [h1]
  dsimp only
  rw [if_pos rfl]
  rw [Node.set] at h3
  cases h3
  unfold Meter.pop
  rw [if_neg (by rw [h2.depth]; omega), h2.root]
  dsimp only
  have : m2.depth - 1 = 0 := by rw [h2.depth]
  rw [this, Node.set]
  dsimp only [Option.map_some]
  refine ⟨_, rfl, h2.on, rfl, ?_⟩
  dsimp only
  rw [h2.base]
  simp only [addSubs, Node.inv, Node.res, Node.subs, List.nil_append]
  rw [subtract_used (hV _ _) (hV _ _)]
  rfl
end

end Soroban.Metering
