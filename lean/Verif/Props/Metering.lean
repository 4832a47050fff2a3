import Verif.Lemmas.Metering
import Verif.Lemmas.Arith
/-!
C78: the resources shown for an invocation and the calls in it.
C79: the resources at one moment.
-/
namespace Soroban.Props
open Soroban Soroban.Fees Soroban.Metering Soroban.Metering.Spec

/-! ### C78 -/

/-- A meter that has been enabled and has not measured anything. -/
private def fresh {H : Type} (h : H) : Meter H := { enabled := true, depth := 0, base := h, root := none }

theorem metering_top {H : Type} {V : View H} (hV : ∀ b h, Sane (V.read b h)) : ∀ (ts : List (Tr H)) (m : Meter H) (h : H),
    m.enabled = true → m.depth = 0 → ∃ m', runTrs V ts m h = some (m', (topLevel V ts m.root h).2) ∧ m'.enabled = true ∧
      m'.depth = 0 ∧ m'.root = (topLevel V ts m.root h).1
  | [], m, h, h1, h2 => ⟨m, rfl, h1, h2, rfl⟩
  | .work f :: ts, m, h, h1, h2 => by
    rw [runTrs, Tr.run, topLevel]
    exact metering_top hV ts m (f h) h1 h2
  | .scope inv body :: ts, m, h, h1, h2 => by
    obtain ⟨m1, h3, h4, h5, h6⟩ := run_outermost hV inv body h1 h2 h
    rw [runTrs, h3, topLevel]
    dsimp only
    rw [← h6]
    exact metering_top hV ts m1 _ h4 h5

/-- **C78**. Whatever is executed, with whatever calls nested in whatever way, measuring succeeds, and the meter shows the last
outermost invocation as a tree: what was used from its beginning to its end, and the same for each contract call made in it, in
the order and nesting of the calls. -/
theorem C78_tree {H : Type} (V : View H) (hV : ∀ b h, Sane (V.read b h)) (ts : List (Tr H)) (h : H) :
    ∃ m, runTrs V ts { enabled := true, depth := 0, base := h, root := none } h = some (m, (topLevel V ts none h).2) ∧
      m.root = (topLevel V ts none h).1 := by
  obtain ⟨m, h1, _, _, h2⟩ := metering_top hV ts (fresh h) h rfl rfl
  exact ⟨m, h1, h2⟩

mutual
theorem disabled_run {H : Type} (V : View H) (m : Meter H) (hm : m.enabled = false) : ∀ (t : Tr H) (h : H),
    t.run V m h = some (m, after t h)
  | .work f, h => rfl
  | .scope inv body, h => by
    rw [Tr.run]
    unfold Meter.push
    rw [if_pos hm]
    dsimp only
    rw [disabled_runs V m hm body h]
    rfl
theorem disabled_runs {H : Type} (V : View H) (m : Meter H) (hm : m.enabled = false) : ∀ (ts : List (Tr H)) (h : H),
    runTrs V ts m h = some (m, afterAll ts h)
  | [], h => rfl
  | t :: ts, h => by
    rw [runTrs, disabled_run V m hm t h]
    exact disabled_runs V m hm ts _
end

/-- **C78**. While the meter is not enabled it does nothing: in particular the budget is not reset. -/
theorem C78_disabled {H : Type} (V : View H) (ts : List (Tr H)) (m : Meter H) (hm : m.enabled = false) (h : H) :
    runTrs V ts m h = some (m, afterAll ts h) := disabled_runs V m hm ts h

/-! What the calls made in a call have used together. -/

theorem sum_nonneg_of {α : Type} (f : α → Int) : ∀ l : List α, (∀ x ∈ l, 0 ≤ f x) → 0 ≤ (l.map f).sum
  | [], _ => Int.le_refl 0
  | x :: l, h => by
    rw [List.map_cons, List.sum_cons]
    have h1 := h x List.mem_cons_self
    have h2 := sum_nonneg_of f l (fun y hy => h y (List.mem_cons_of_mem _ hy))
    omega

section Within
variable {H : Type} {V : View H} {c : Resources → Int} (hc : ∀ a b, c (used a b) = c a - c b) (base : H)
include hc

mutual
theorem within_calls (t : Tr H) : ∀ (i : Invocation) (h : H), Grows (fun h => c (V.read base h)) t →
    c (V.read base h) + ((calls V base i t h).1.map (fun n => c n.res)).sum ≤ c (V.read base (calls V base i t h).2) ∧
    (∀ n ∈ (calls V base i t h).1, 0 ≤ c n.res ∧
      Everywhere (fun n => (n.subs.map (fun s => c s.res)).sum ≤ c n.res ∧ ∀ s ∈ n.subs, 0 ≤ c s.res) n) := by
  intro i h hg
  cases t with
  | work f =>
    rw [calls]
    exact ⟨by simpa using hg h, fun n hn => by cases hn⟩
  | scope inv body =>
    rw [calls]
    by_cases hi : inv ≠ i ∧ (∃ c f, inv = Invocation.call c f)
    · rw [if_pos hi]
      obtain ⟨h1, h2⟩ := within_callsAll body inv h (by simpa only [Grows] using hg)
      have hpos : 0 ≤ ((callsAll V base inv body h).1.map (fun n => c n.res)).sum := by
        exact sum_nonneg_of _ _ (fun n hn => (h2 n hn).1)
      refine ⟨?_, ?_⟩
      · simp only [List.map_cons, List.map_nil, List.sum_cons, List.sum_nil, Node.res, hc]
        omega
      · intro n hn
        simp only [List.mem_singleton] at hn
        subst hn
        refine ⟨?_, .mk ⟨?_, ?_⟩ ?_⟩
        · simp only [Node.res, hc]; omega
        · show ((callsAll V base inv body h).1.map (fun n => c n.res)).sum ≤ c (used _ _)
          rw [hc]; omega
        · exact fun s hs => (h2 s hs).1
        · exact fun s hs => (h2 s hs).2
    · rw [if_neg hi]
      exact within_callsAll body i h (by simpa only [Grows] using hg)
termination_by sizeOf t
theorem within_callsAll (ts : List (Tr H)) : ∀ (i : Invocation) (h : H), GrowsAll (fun h => c (V.read base h)) ts →
    c (V.read base h) + ((callsAll V base i ts h).1.map (fun n => c n.res)).sum ≤ c (V.read base (callsAll V base i ts h).2) ∧
    (∀ n ∈ (callsAll V base i ts h).1, 0 ≤ c n.res ∧
      Everywhere (fun n => (n.subs.map (fun s => c s.res)).sum ≤ c n.res ∧ ∀ s ∈ n.subs, 0 ≤ c s.res) n) := by
  intro i h hg
  cases ts with
  | nil =>
    rw [callsAll]
    exact ⟨by simp, fun n hn => by cases hn⟩
  | cons t ts =>
    rw [GrowsAll] at hg
    rw [callsAll]
    obtain ⟨h1, h2⟩ := within_calls t i h hg.1
    obtain ⟨h3, h4⟩ := within_callsAll ts i (calls V base i t h).2 hg.2
    refine ⟨?_, ?_⟩
    · dsimp only
      rw [List.map_append, List.sum_append]
      omega
    · intro n hn
      rcases List.mem_append.mp hn with hn | hn
      · exact h2 n hn
      · exact h4 n hn
termination_by sizeOf ts
end

theorem within_outermost (inv : Invocation) (body : List (Tr H)) (h : H)
    (hg : GrowsAll (fun h' => c (V.read (V.reset h) h')) body) :
    Everywhere (fun n => (n.subs.map (fun s => c s.res)).sum ≤ c n.res ∧ ∀ s ∈ n.subs, 0 ≤ c s.res) (outermost V inv body h).1 := by
  obtain ⟨h1, h2⟩ := within_callsAll hc (V.reset h) body inv (V.reset h) hg
  refine .mk ⟨?_, fun s hs => (h2 s hs).1⟩ (fun s hs => (h2 s hs).2)
  show ((callsAll V (V.reset h) inv body (V.reset h)).1.map (fun n => c n.res)).sum ≤ c (used _ _)
  rw [hc]
  omega
end Within

/-- **C78**. The instructions of a call include those of the calls it makes, at every level: those of the calls it makes are not
negative, and together not more than its own. The same holds of the memory. -/
theorem C78_within {H : Type} (V : View H) (inv : Invocation) (body : List (Tr H)) (h : H)
    (hi : GrowsAll (fun h' => (V.read (V.reset h) h').instructions) body)
    (hm : GrowsAll (fun h' => (V.read (V.reset h) h').memBytes) body) :
    Everywhere (fun n => (n.subs.map (fun s => s.res.instructions)).sum ≤ n.res.instructions ∧ ∀ s ∈ n.subs, 0 ≤ s.res.instructions)
      (outermost V inv body h).1 ∧
    Everywhere (fun n => (n.subs.map (fun s => s.res.memBytes)).sum ≤ n.res.memBytes ∧ ∀ s ∈ n.subs, 0 ≤ s.res.memBytes)
      (outermost V inv body h).1 :=
  ⟨within_outermost (c := Resources.instructions) (fun _ _ => rfl) inv body h hi,
    within_outermost (c := Resources.memBytes) (fun _ _ => rfl) inv body h hm⟩

theorem satU32_le {x l : Int} (hl : l < 4294967295) : satU32 x ≤ l ↔ x ≤ l := by
  unfold satU32
  split <;> omega

/-- **C78**. If limits have been set that are less than the greatest number, the outermost invocation panics unless everything it
has used is within them; the entries read and written are counted together. -/
theorem C78_limits (r : Resources) (l : Limits) (hn : 0 ≤ r.writeEntries) (hl : l.ledgerEntries < 4294967295) :
    exceeds r l = false ↔ r.instructions ≤ l.instructions ∧ r.memBytes ≤ l.memBytes ∧
      r.diskReadEntries + r.memoryReadEntries + r.writeEntries ≤ l.ledgerEntries ∧ r.diskReadEntries ≤ l.diskReadEntries ∧
      r.diskReadBytes ≤ l.diskReadBytes ∧ r.writeEntries ≤ l.writeEntries ∧ r.writeBytes ≤ l.writeBytes ∧
      r.contractEventsSizeBytes ≤ l.contractEventsSizeBytes := by
  have hsum : satU32 (satU32 (r.diskReadEntries + r.memoryReadEntries) + r.writeEntries) ≤ l.ledgerEntries ↔
      r.diskReadEntries + r.memoryReadEntries + r.writeEntries ≤ l.ledgerEntries := by
    rw [satU32_le hl]
    unfold satU32
    split <;> omega
  unfold exceeds
  simp only [Bool.or_eq_false_iff, decide_eq_false_iff_not, gt_iff_lt, Int.not_lt, hsum]
  simp only [and_assoc]

/-- **C78**. With limits of single entries as well, and a budget that allows to encode the footprint's keys and entries, the outermost
invocation passes exactly if it is within the limits as a whole, no key of contract data is longer than the limit of keys, and no entry of
contract data or code is longer than the limit of its type. This includes keys and entries that it has only read. -/
theorem C78_entry_limits (r : Resources) (l : Limits) (le : EntryLimits) (es : List FootprintEntry)
    (hk : ∀ e ∈ es, ∃ n, e.keySize = some n ∧ n < 2^32)
    (he : ∀ e ∈ es, ∀ k s, e.entry = some (k, s) → ∃ n, s = some n ∧ n < 2^32) :
    verifyFails r l le (some es) = false ↔ exceeds r l = false ∧ ∀ e ∈ es,
      (e.keyKind = .data → ∀ n, e.keySize = some n → n ≤ le.dataKey) ∧
      (∀ n, e.entry = some (.data, some n) → n ≤ le.dataEntry) ∧ (∀ n, e.entry = some (.code, some n) → n ≤ le.codeEntry) := by
  unfold verifyFails
  simp only [Bool.or_eq_false_iff, List.any_eq_false, Bool.not_eq_true]
  refine and_congr_right fun _ => forall₂_congr fun e hmem => ?_
  obtain ⟨n, hn, hlt⟩ := hk e hmem
  unfold FootprintEntry.exceeds
  rw [hn]
  simp only [Bool.or_eq_false_iff, Bool.and_eq_false_iff, decide_eq_false_iff_not, Nat.mod_eq_of_lt hlt, Option.some.injEq, forall_eq']
  refine and_congr ?_ ?_
  · constructor
    · rintro (h | h) hd
      · exact absurd hd h
      · omega
    · intro h
      by_cases hd : e.keyKind = .data
      · exact Or.inr (by have := h hd; omega)
      · exact Or.inl hd
  · cases hx : e.entry with
    | none => simp
    | some p =>
      obtain ⟨k, s⟩ := p
      obtain ⟨m, rfl, hm⟩ := he e hmem k s hx
      cases k <;> simp only [decide_eq_false_iff_not, Nat.mod_eq_of_lt hm] <;> simp

/-- **C78**. What the budget does not allow to encode is not checked: an invocation that has used almost all of its budget passes with keys and
entries of any size. -/
theorem C78_unencoded_not_checked (r : Resources) (l : Limits) (le : EntryLimits) (es : Option (List FootprintEntry))
    (h : ∀ es', es = some es' → ∀ e ∈ es', e.keySize = none ∧ ∀ k s, e.entry = some (k, s) → s = none) :
    verifyFails r l le es = exceeds r l := by
  unfold verifyFails
  cases es with
  | none => simp
  | some es =>
    have : es.any (·.exceeds le) = false := by
      rw [List.any_eq_false]
      intro e he
      obtain ⟨h1, h2⟩ := h es rfl e he
      unfold FootprintEntry.exceeds
      rw [h1]
      cases hx : e.entry with
      | none => simp
      | some p =>
        obtain ⟨k, s⟩ := p
        rw [h2 k s hx]
        cases k <;> simp
    simp [this]

/-- A data entry of 101 bytes fails a limit of 100, also next to a short one, and code has its own limit. -/
example : verifyFails .zero ⟨0, 0, 0, 0, 0, 0, 0, 0⟩ ⟨50, 100, 200⟩ (some [⟨.data, some 50, some (.data, some 100)⟩]) = false ∧
    verifyFails .zero ⟨0, 0, 0, 0, 0, 0, 0, 0⟩ ⟨50, 100, 200⟩
      (some [⟨.data, some 50, some (.data, some 100)⟩, ⟨.data, some 50, some (.data, some 101)⟩]) = true ∧
    verifyFails .zero ⟨0, 0, 0, 0, 0, 0, 0, 0⟩ ⟨50, 100, 200⟩ (some [⟨.code, some 60, some (.code, some 200)⟩]) = false ∧
    verifyFails .zero ⟨0, 0, 0, 0, 0, 0, 0, 0⟩ ⟨50, 100, 200⟩ (some [⟨.data, some 51, none⟩]) = true := by decide

section Examples

/-- A host that counts instructions and writes. -/
private def host : View (Nat × Nat) :=
  { reset := fun _ => (0, 0)
    read := fun _ h => { Resources.zero with instructions := (h.1 % 1000 : Nat), writeBytes := (h.2 % 1000 : Nat) } }

private theorem host_sane (b h : Nat × Nat) : Sane (host.read b h) := by
  have h1 := Nat.mod_lt h.1 (y := 1000) (by omega)
  have h2 := Nat.mod_lt h.2 (y := 1000) (by omega)
  constructor <;> simp only [host, Resources.zero, i64Max] <;> omega

private def f (n : Nat) : Invocation := .call (.contract n) [n]

private def ticks (n k : Nat) : Tr (Nat × Nat) := .work (fun h => (h.1 + n, h.2 + k))

/-- A call of contract 1, entered twice, that uploads code and makes two calls, the second of which makes one more. -/
private def prog : List (Tr (Nat × Nat)) :=
  [ticks 5 5, .scope (f 1) [.scope (f 1) [ticks 10 1, .scope .upload [ticks 7 0], .scope (f 2) [ticks 3 2],
    .scope (f 3) [ticks 1 0, .scope (f 2) [ticks 20 30]], ticks 100 4]], ticks 50 50]

private def instr : Node → Nat → Int × List (Int × List Int) := fun n _ =>
  (n.res.instructions, n.subs.map (fun s => (s.res.instructions, s.subs.map (fun s => s.res.instructions))))

/-- The tree it shows. -/
example : ((topLevel host prog none (0, 0)).1.map (fun n => instr n 0)) = some (141, [(3, []), (21, [20])]) := by decide +kernel

example : ((runTrs host prog (fresh (0, 0)) (0, 0)).bind (fun r => r.1.root.map (fun n => instr n 0))) =
    some (141, [(3, []), (21, [20])]) := by decide +kernel

end Examples

/-! ### C79 -/

theorem isDiskRead_iff (seq : Nat) (a : Access) (hc : a.key = .classic → a.init.bind Sized.liveUntil = none) :
    a.isDiskRead seq = decide (onDisk seq a) := by
  unfold Access.isDiskRead onDisk
  obtain ⟨k, rw, init, cur⟩ := a
  dsimp only at hc ⊢
  cases init with
  | none => cases k <;> simp
  | some e =>
    obtain ⟨s, r, l⟩ := e
    cases l with
    | none => cases k <;> simp
    | some l =>
      dsimp only
      by_cases hl : l ≥ seq
      · rw [if_pos hl]
        have : ¬ l < seq := by omega
        cases k <;> simp [this]
      · rw [if_neg hl]
        have : l < seq := by omega
        cases k with
        | classic => simp at hc
        | _ => simp [KeyKind.isPersistent, this]

theorem initLiveUntil_eq (seq : Nat) (a : Access) : a.initLiveUntil seq = paidUntil seq a := by
  unfold Access.initLiveUntil paidUntil
  obtain ⟨k, rw, init, cur⟩ := a
  cases init with
  | none => simp
  | some e =>
    obtain ⟨s, r, l⟩ := e
    cases l with
    | none => simp
    | some l =>
      simp only [Option.bind_some, Option.getD_some]
      split <;> omega

theorem rent_eq (seq : Nat) (a : Access) : (Longer seq a → a.rent seq = some (rentOf seq a)) ∧ (¬ Longer seq a → a.rent seq = none) := by
  unfold Access.rent rentOf Longer
  rw [initLiveUntil_eq]
  obtain ⟨k, rw, init, cur⟩ := a
  dsimp only
  cases cur with
  | none => exact ⟨fun _ => rfl, fun h => absurd (fun e l h1 => by cases h1) h⟩
  | some e =>
    obtain ⟨s, r, l⟩ := e
    cases l with
    | none => exact ⟨fun _ => rfl, fun h => absurd (fun e l h1 h2 => by cases h1; cases h2) h⟩
    | some l =>
      dsimp only
      refine ⟨fun h => ?_, fun h => ?_⟩
      · have h1 := h _ l rfl rfl
        rw [if_neg (by omega)]
        cases init with
        | none =>
          have hd : (if r > 0 then (r : Int) - ((0 : Nat) : Int) else 0) = max ((r : Int) - 0) 0 := by split <;> omega
          simp only [Option.map_none, Option.getD_none, hd]
        | some e =>
          have hd : (if r > e.rentSize then (r : Int) - (e.rentSize : Int) else 0) = max ((r : Int) - e.rentSize) 0 := by
            split <;> omega
          simp only [Option.map_some, Option.getD_some, hd]
      · rw [if_pos]
        apply Classical.byContradiction
        intro hlt
        apply h
        intro e l' h1 h2
        cases h1
        cases h2
        omega

/-- What the first accesses add up to, on top of what there was. -/
private def plus (seq : Nat) (r : Resources) (as : List Access) : Resources :=
  { instructions := r.instructions
    memBytes := r.memBytes
    diskReadEntries := r.diskReadEntries + sumOf (onDisk seq) (fun _ => 1) as
    memoryReadEntries := r.memoryReadEntries + sumOf (fun a => ¬ onDisk seq a) (fun _ => 1) as
    writeEntries := r.writeEntries + sumOf (fun a => a.readWrite = true) (fun _ => 1) as
    diskReadBytes := r.diskReadBytes + sumOf (onDisk seq) oldBytes as
    writeBytes := r.writeBytes + sumOf (fun a => a.readWrite = true) newBytes as
    contractEventsSizeBytes := r.contractEventsSizeBytes
    persistentRentLedgerBytes := r.persistentRentLedgerBytes +
      sumOf (fun a => (a.key = .persistent ∨ a.key = .code) ∧ 0 < rentOf seq a) (rentOf seq) as
    persistentEntryRentBumps := r.persistentEntryRentBumps +
      sumOf (fun a => (a.key = .persistent ∨ a.key = .code) ∧ 0 < rentOf seq a) (fun _ => 1) as
    temporaryRentLedgerBytes := r.temporaryRentLedgerBytes +
      sumOf (fun a => a.key = .temporary ∧ 0 < rentOf seq a) (rentOf seq) as
    temporaryEntryRentBumps := r.temporaryEntryRentBumps +
      sumOf (fun a => a.key = .temporary ∧ 0 < rentOf seq a) (fun _ => 1) as }

theorem sumOf_cons (p : Access → Prop) [DecidablePred p] (f : Access → Int) (a : Access) (as : List Access) :
    sumOf p f (a :: as) = (if p a then f a else 0) + sumOf p f as := by
  unfold sumOf
  by_cases h : p a
  · simp [h]
  · simp [h]

theorem addAccess_eq (seq : Nat) (r : Resources) (a : Access) : addAccess seq r a =
    let r := if a.isDiskRead seq then
        { r with diskReadBytes := r.diskReadBytes + oldBytes a, diskReadEntries := r.diskReadEntries + 1 }
      else { r with memoryReadEntries := r.memoryReadEntries + 1 }
    let r := if a.readWrite then { r with writeEntries := r.writeEntries + 1, writeBytes := r.writeBytes + newBytes a } else r
    match a.rent seq with
    | none => none
    | some rent =>
      if rent > 0 then
        match a.key with
        | .temporary => some { r with temporaryRentLedgerBytes := r.temporaryRentLedgerBytes + rent,
                                      temporaryEntryRentBumps := r.temporaryEntryRentBumps + 1 }
        | .persistent | .code => some { r with persistentRentLedgerBytes := r.persistentRentLedgerBytes + rent,
                                               persistentEntryRentBumps := r.persistentEntryRentBumps + 1 }
        | .classic => some r
      else some r := by
  have h1 : oldBytes a = match a.init with | some e => (e.size : Int) | none => 0 := by unfold oldBytes; cases a.init <;> rfl
  have h2 : newBytes a = match a.cur with | some e => (e.size : Int) | none => 0 := by unfold newBytes; cases a.cur <;> rfl
  rw [h1, h2]
  unfold addAccess
  obtain ⟨k, w, i, c⟩ := a
  cases i <;> cases c <;> cases k <;> rfl

theorem addAccess_plus (seq : Nat) (r : Resources) (a : Access) (hc : a.key = .classic → a.init.bind Sized.liveUntil = none)
    (as : List Access) :
    (Longer seq a → ∃ r', addAccess seq r a = some r' ∧ plus seq r' as = plus seq r (a :: as)) ∧
    (¬ Longer seq a → addAccess seq r a = none) := by
  rw [addAccess_eq]
  refine ⟨fun h => ?_, fun h => ?_⟩
  · rw [(rent_eq seq a).1 h, isDiskRead_iff seq a hc]
    dsimp only
    unfold plus
    simp only [sumOf_cons]
    by_cases hd : onDisk seq a <;> by_cases hw : a.readWrite = true <;> by_cases hr : 0 < rentOf seq a <;>
      cases hk : a.key <;>
      simp [hd, hw, hr, Int.add_assoc]
  · rw [(rent_eq seq a).2 h]

theorem addAccesses_plus (seq : Nat) : ∀ (as : List Access) (r : Resources)
    (_ : ∀ a ∈ as, a.key = .classic → a.init.bind Sized.liveUntil = none),
    ((∀ a ∈ as, Longer seq a) → addAccesses seq as r = some (plus seq r as)) ∧
    ((¬ ∀ a ∈ as, Longer seq a) → addAccesses seq as r = none)
  | [], r, _ => ⟨fun _ => by
      rw [addAccesses]
      simp [plus, sumOf], fun h => absurd (fun a ha => by cases ha) h⟩
  | a :: as, r, hc => by
    rw [addAccesses]
    obtain ⟨h1, h2⟩ := addAccess_plus seq r a (hc a List.mem_cons_self) as
    have ih := fun r => addAccesses_plus seq as r (fun b hb => hc b (List.mem_cons_of_mem _ hb))
    refine ⟨fun h => ?_, fun h => ?_⟩
    · obtain ⟨r', h3, h4⟩ := h1 (h a List.mem_cons_self)
      rw [h3, ← h4]
      exact (ih r').1 (fun b hb => h b (List.mem_cons_of_mem _ hb))
    · by_cases ha : Longer seq a
      · obtain ⟨r', h3, _⟩ := h1 ha
        rw [h3]
        apply (ih r').2
        intro hall
        apply h
        intro b hb
        rcases List.mem_cons.mp hb with rfl | hb
        · exact ha
        · exact hall b hb
      · rw [h2 ha]

theorem foldl_events : ∀ (ns : List Nat) (s : Int), ns.foldl (fun (s : Int) (n : Nat) => s + (n : Int)) s = s + (ns.map Int.ofNat).sum
  | [], s => by simp
  | n :: ns, s => by
    rw [List.foldl_cons, foldl_events ns, List.map_cons, List.sum_cons, Int.add_assoc]
    rfl

/-- **C79**. What the resources are at one moment. Every entry of the footprint is read once: from disk if it is not a contract's or
is an archived contract entry, and otherwise from memory. Every entry that may be written is written once, with the bytes it has
now. The rent is for the bytes and ledgers that are new, and counted where there is any. It fails if and only if some entry has fewer
ledgers to live than at the beginning. -/
theorem C79_measure (seq cpu mem : Nat) (footprint : List Access) (events : List Nat)
    (hc : ∀ a ∈ footprint, a.key = .classic → a.init.bind Sized.liveUntil = none) (r : Resources) :
    Metering.measure seq cpu mem footprint events = some r ↔ (∀ a ∈ footprint, Longer seq a) ∧
      r.instructions = cpu ∧ r.memBytes = mem ∧
      r.diskReadEntries = sumOf (onDisk seq) (fun _ => 1) footprint ∧
      r.memoryReadEntries = sumOf (fun a => ¬ onDisk seq a) (fun _ => 1) footprint ∧
      r.writeEntries = sumOf (fun a => a.readWrite = true) (fun _ => 1) footprint ∧
      r.diskReadBytes = sumOf (onDisk seq) oldBytes footprint ∧
      r.writeBytes = sumOf (fun a => a.readWrite = true) newBytes footprint ∧
      r.contractEventsSizeBytes = (events.map Int.ofNat).sum ∧
      r.persistentRentLedgerBytes =
        sumOf (fun a => (a.key = .persistent ∨ a.key = .code) ∧ 0 < rentOf seq a) (rentOf seq) footprint ∧
      r.persistentEntryRentBumps =
        sumOf (fun a => (a.key = .persistent ∨ a.key = .code) ∧ 0 < rentOf seq a) (fun _ => 1) footprint ∧
      r.temporaryRentLedgerBytes = sumOf (fun a => a.key = .temporary ∧ 0 < rentOf seq a) (rentOf seq) footprint ∧
      r.temporaryEntryRentBumps = sumOf (fun a => a.key = .temporary ∧ 0 < rentOf seq a) (fun _ => 1) footprint := by
  unfold Metering.measure
  obtain ⟨h1, h2⟩ := addAccesses_plus seq footprint { Resources.zero with instructions := cpu, memBytes := mem } hc
  by_cases hl : ∀ a ∈ footprint, Longer seq a
  · rw [h1 hl]
    dsimp only
    rw [foldl_events]
    simp only [plus, Resources.zero, Int.zero_add, Option.some.injEq]
    obtain ⟨a1, a2, a3, a4, a5, a6, a7, a8, a9, a10, a11, a12⟩ := r
    constructor
    · intro h
      simp only [Resources.mk.injEq] at h
      obtain ⟨b1, b2, b3, b4, b5, b6, b7, b8, b9, b10, b11, b12⟩ := h
      refine ⟨hl, ?_⟩
      refine ⟨?_, ?_, ?_, ?_, ?_, ?_, ?_, ?_, ?_, ?_, ?_, ?_⟩ <;> (symm; assumption)
    · rintro ⟨_, b1, b2, b3, b4, b5, b6, b7, b8, b9, b10, b11, b12⟩
      simp only [Resources.mk.injEq]
      dsimp only at b1 b2 b3 b4 b5 b6 b7 b8 b9 b10 b11 b12
      refine ⟨?_, ?_, ?_, ?_, ?_, ?_, ?_, ?_, ?_, ?_, ?_, ?_⟩ <;> (symm; assumption)
  · rw [h2 hl]
    constructor
    · intro h; cases h
    · rintro ⟨h, _⟩; exact absurd h hl

section Examples

/-- A new entry of data, one that grows and lives longer, one restored, one only read, and an account. -/
private def touched : List Access :=
  [{ key := .persistent, readWrite := true, init := none, cur := some ⟨100, 100, some 1100⟩ },
   { key := .persistent, readWrite := true, init := some ⟨100, 100, some 1050⟩, cur := some ⟨150, 150, some 1060⟩ },
   { key := .persistent, readWrite := true, init := some ⟨80, 80, some 900⟩, cur := some ⟨80, 80, some 1100⟩ },
   { key := .code, readWrite := false, init := some ⟨5000, 9000, some 2000⟩, cur := some ⟨5000, 9000, some 2000⟩ },
   { key := .classic, readWrite := true, init := some ⟨92, 0, none⟩, cur := some ⟨92, 0, none⟩ },
   { key := .temporary, readWrite := true, init := some ⟨40, 40, some 1010⟩, cur := none }]

example : (∀ a ∈ touched, a.key = .classic → a.init.bind Sized.liveUntil = none) := by decide

/-- What is measured: two reads from disk, five writes, the rent of three entries. -/
example : (Metering.measure 1000 5 6 touched [10, 20]).map (fun r => [r.diskReadEntries, r.memoryReadEntries, r.writeEntries,
    r.diskReadBytes, r.writeBytes, r.contractEventsSizeBytes, r.persistentRentLedgerBytes, r.persistentEntryRentBumps,
    r.temporaryRentLedgerBytes, r.temporaryEntryRentBumps]) = some [2, 4, 5, 172, 422, 30, 22000, 3, 0, 0] := by decide +kernel

/-- **C79**, a failure. An entry that is deleted and created again, with fewer ledgers to live than it had, cannot be measured. -/
theorem C79_recreated (seq old new size : Nat) (h1 : seq ≤ new) (h2 : new < old) (cpu mem : Nat) :
    Metering.measure seq cpu mem [{ key := .temporary, readWrite := true, init := some ⟨size, size, some old⟩,
                                    cur := some ⟨size, size, some new⟩ }] [] = none := by
  have h := addAccesses_plus seq [{ key := .temporary, readWrite := true, init := some ⟨size, size, some old⟩,
                                    cur := some ⟨size, size, some new⟩ }]
    { Resources.zero with instructions := cpu, memBytes := mem } (by simp)
  unfold Metering.measure
  rw [h.2]
  intro hl
  have := hl _ List.mem_cons_self _ new rfl rfl
  simp only [paidUntil, Option.bind_some, Option.getD_some] at this
  omega

end Examples

end Soroban.Props
