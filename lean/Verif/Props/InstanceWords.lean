import Verif.Spec.InstanceWords
import Verif.Lemmas.Diagnostics
import Verif.Props.Vectors
/-!
C49: the functions on instance storage as contracts call them, with words.
-/
namespace Soroban.Props
open Soroban Soroban.Spec Soroban.Diagnostics

variable {σ : Type}

private theorem callInst_cur {d : Nat} {objs objs' : List HostObj} {tbl tbl' : List Nat} {i i' : Inst σ} {op : InstOp}
    {ws : List Nat} {r : Nat} (h : callInst d objs tbl i op ws = .ok (objs', tbl', i', r)) :
    i'.save = i.save ∧ ∃ m, i'.cur = some (m, op.writes || i.modified) := by
  unfold callInst at h
  obtain ⟨vs, _, h⟩ := bind_ok.mp h
  obtain ⟨_, _, h⟩ := bind_ok.mp h
  obtain ⟨p, _, h⟩ := bind_ok.mp h
  obtain ⟨q, _, h⟩ := bind_ok.mp h
  obtain ⟨_, _, h⟩ := bind_ok.mp h
  obtain ⟨x, _, h⟩ := bind_ok.mp h
  cases h
  exact ⟨rfl, q.1, rfl⟩

private theorem run_modified {d : Nat} {objs objs' : List HostObj} {tbl tbl' : List Nat} {i i' : Inst σ} {ops : List InstOp}
    (h : InstRun d objs tbl i ops objs' tbl' i') :
    i'.save = i.save ∧ (i'.modified = true ↔ i.modified = true ∨ InstOp.put ∈ ops ∨ InstOp.del ∈ ops) := by
  induction h with
  | done => simp
  | other _ ih => exact ih
  | @call _ _ _ _ _ _ i i' _ op _ _ _ h _ ih =>
    obtain ⟨h1, m, h2⟩ := callInst_cur h
    refine ⟨ih.1.trans h1, ih.2.trans ?_⟩
    have : i'.modified = (op.writes || i.modified) := by unfold Inst.modified; rw [h2]; rfl
    rw [this]
    cases op <;> simp [InstOp.writes]

/-- **C49**: a frame that only reads instance storage leaves the state of the ledger as it is. -/
theorem C49_only_reads {d : Nat} {objs objs' : List HostObj} {tbl tbl' : List Nat} {home : Home σ} {st st' : σ} {i' : Inst σ}
    {ops : List InstOp} (h : InstRun d objs tbl (home.open st) ops objs' tbl' i') (hr : ∀ op ∈ ops, op = .get ∨ op = .has) :
    persist d objs' i' st' = .ok st' := by
  have h1 := (run_modified h).2
  have h2 : i'.modified ≠ true := by
    intro hm
    rcases h1.1 hm with h | h | h
    · cases h
    · rcases hr _ h with h | h <;> cases h
    · rcases hr _ h with h | h <;> cases h
  unfold Inst.modified at h2
  unfold persist
  split
  · rename_i m hm; rw [hm] at h2; exact absurd rfl h2
  · rfl

/-- **C49**: a frame that puts or deletes a value saves the whole map at its end, in the form of the ledger, or it fails. -/
theorem C49_writes_saved {d : Nat} {objs objs' : List HostObj} {tbl tbl' : List Nat} {home : Home σ} {st st' : σ} {i' : Inst σ}
    {ops : List InstOp} (h : InstRun d objs tbl (home.open st) ops objs' tbl' i') (hw : InstOp.put ∈ ops ∨ InstOp.del ∈ ops) :
    ∃ m, i'.cur = some (m, true) ∧
      (∀ es, toScMap d objs' m = .ok es → persist d objs' i' st' = home.save st' es) ∧
      (∀ e, toScMap d objs' m = .error e → persist d objs' i' st' = .error e) := by
  obtain ⟨h1, h2⟩ := run_modified h
  have h3 := h2.2 (.inr hw)
  obtain ⟨base, save, cur⟩ := i'
  have h1 : save = home.save := h1
  subst h1
  match cur, h3 with
  | some (m, true), _ =>
    refine ⟨m, rfl, fun es he => ?_, fun e he => ?_⟩ <;> simp [persist, bind, Except.bind, he]

/-- **C49**: an executable tag is no key for instance storage: it can be neither put nor deleted there. -/
theorem C49_tags_refused {d : Nat} {objs : List HostObj} {tbl : List Nat} {i : Inst σ} {ws vs : List Nat} {k : Nat}
    (hk : Val.tag k = .ExecutableTagObject) :
    (marshalArgs objs tbl [.val, .val] ws = .ok (k :: vs) → callInst d objs tbl i .put ws = .error (.host .storage .invalidInput)) ∧
    (marshalArgs objs tbl [.val] ws = .ok (k :: vs) → callInst d objs tbl i .del ws = .error (.host .storage .invalidAction)) := by
  constructor <;> intro h <;> simp [callInst, InstOp.args, bind, Except.bind, h, instCheck, hk]

/-- **C49**: what a function on instance storage does to its map `m`: `put` sets the value of the key, `get` gives it, `has` says
whether there is one (the words 1 and 0 are true and false), `del` removes it, and does nothing if there is none (the word 2 is void). -/
theorem C49_map_step {cmp : Nat → Nat → Res Ordering} {ord : Nat → Nat → Ordering} [Std.TransCmp ord] (hc : Computes cmp ord)
    {m : List (Nat × Nat)} (hm : Ascending ord m) (hl : m.length + 1 < 2^32) (k v : Nat) :
    (∃ m', instStep cmp m .put [k, v] = .ok (m', 2) ∧ Ascending ord m' ∧
      ∀ p, p ∈ m' ↔ p = (k, v) ∨ (p ∈ m ∧ ord p.1 k ≠ .eq)) ∧
    (∀ x, MapsTo ord m k x → instStep cmp m .get [k] = .ok (m, x)) ∧
    (¬ HasKey ord m k → instStep cmp m .get [k] = .error (.host .storage .missingValue)) ∧
    (HasKey ord m k → instStep cmp m .has [k] = .ok (m, 1)) ∧
    (¬ HasKey ord m k → instStep cmp m .has [k] = .ok (m, 0)) ∧
    (HasKey ord m k → ∃ m', instStep cmp m .del [k] = .ok (m', 2) ∧ Ascending ord m' ∧
      ∀ p, p ∈ m' ↔ p ∈ m ∧ ord p.1 k ≠ .eq) ∧
    (¬ HasKey ord m k → instStep cmp m .del [k] = .ok (m, 2)) := by
  have hu : u32Max = 2^32 - 1 := by decide
  have hvoid : valVoid = 2 := by decide
  obtain ⟨b, g3, g4⟩ := C06_has hc m hm k
  have hno : ¬ HasKey ord m k → b = false := fun h => by cases b <;> simp_all
  refine ⟨?_, fun x h => ?_, fun h => ?_, fun h => ?_, fun h => ?_, fun h => ?_, fun h => ?_⟩
  · obtain ⟨m', h1, h2, h3, _⟩ := (C06_put hc m hm (by omega) k v).1 (.inr (by omega))
    exact ⟨m', by simp [instStep, bind, Except.bind, h1, hvoid], h2, h3⟩
  · obtain ⟨p, hp, he, _⟩ := id h
    simp [instStep, bind, Except.bind, g3, g4.2 ⟨p, hp, he⟩, ((C06_get hc m hm k).1 x).2 h]
  · simp [instStep, bind, Except.bind, g3, hno h]
  · simp [instStep, bind, Except.bind, g3, g4.2 h]; rfl
  · simp [instStep, bind, Except.bind, g3, hno h]; rfl
  · obtain ⟨m', h1, h2, h3, _⟩ := (C06_del hc m hm (by omega) k).1 h
    exact ⟨m', by simp [instStep, bind, Except.bind, g3, g4.2 h, h1, hvoid], h2, h3⟩
  · simp [instStep, bind, Except.bind, g3, hno h, hvoid]

private theorem find_empty (cmp : Nat → Nat → Res Ordering) (k : Nat) : find cmp ([] : List (Nat × Nat)) k = .ok (.notFound 0) := by
  unfold find bsearch
  rw [bsearchLoop]
  rfl

/-- A frame that asks for a key in empty instance storage, and one that puts a value. -/
example : ∃ objs' tbl' i', InstRun 4 [] [] ((⟨fun _ => [], fun st _ => .ok (st + 1)⟩ : Home Nat).open 0) [.has] objs' tbl' i' ∧
    persist 4 objs' i' 7 = .ok 7 := by
  refine ⟨_, _, _, .call (ws := [valU32 5]) (r := 0) (objs' := []) (tbl' := [])
    (i' := ⟨[], fun st _ => .ok (st + 1), some ([], false)⟩) ?_ (.done _ _ _), ?_⟩
  · refine bind_ok.mpr ⟨[valU32 5], rfl, bind_ok.mpr ⟨(), rfl, bind_ok.mpr ⟨([], []), rfl, bind_ok.mpr ⟨([], 0), ?_, rfl⟩⟩⟩⟩
    simp [instStep, mapHas, containsKey, find_empty, bind, Except.bind]
    rfl
  · rfl

example : ∃ objs' tbl' i', InstRun 4 [] [] ((⟨fun _ => [], fun st _ => .ok (st + 1)⟩ : Home Nat).open 0) [.put] objs' tbl' i' ∧
    persist 4 objs' i' 7 = .ok 8 := by
  refine ⟨_, _, _, .call (ws := [valU32 5, valU32 6]) (r := 2) (objs' := []) (tbl' := [])
    (i' := ⟨[], fun st _ => .ok (st + 1), some ([(valU32 5, valU32 6)], true)⟩) ?_ (.done _ _ _), ?_⟩
  · refine bind_ok.mpr ⟨[valU32 5, valU32 6], rfl, bind_ok.mpr ⟨(), rfl, bind_ok.mpr ⟨([], []), rfl,
      bind_ok.mpr ⟨([(valU32 5, valU32 6)], 2), ?_, rfl⟩⟩⟩⟩
    simp [instStep, mapPut, insert, find_empty, bind, Except.bind, u32Max]
    rfl
  · rfl

end Soroban.Props
