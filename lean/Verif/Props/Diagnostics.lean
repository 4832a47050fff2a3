import Verif.Lemmas.Diagnostics
/-!
C106: what contracts see, and what a call returns, does not depend on the objects that debug mode makes.
-/
namespace Soroban.Diagnostics
open Soroban.Spec Soroban.Diagnostics.Spec List

/-- A valid handle is made of its number and its type. -/
theorem valid_handle {v : Nat} (hv : v < 2^64) (hg : Val.isGood v = true) (ho : Val.isObject v = true) :
    v = valObject (objHandle v) (Val.tag v) := by
  have h' := (isObject_iff v).mp ho
  have ht := u8IsObject_tag ho
  have hc : (Val.tag v).code = v % 256 := by
    unfold Val.tag
    rw [tagU8_eq]
    exact (code_fromU8 ⟨v % 256, by omega⟩).1 (Or.inr ⟨by simp; omega, by simp; omega⟩)
  have hm : Val.minor v = 0 := by
    unfold Val.isGood at hg
    cases hT : Val.tag v <;> rw [hT] at hg ht <;>
      first | (exact absurd ht (by decide)) | (exact beq_iff_eq.mp hg)
  rw [minor_eq] at hm
  have hj : objHandle v = v / 2^32 % 2^32 := major_eq v
  have hlt : objHandle v < 2^32 := by rw [hj]; exact Nat.mod_lt _ (by decide)
  rw [valObject_eq _ hlt, hj, hc]
  omega

theorem self_word {objs : List HostObj} {v : Nat} (h : v < 2^64 ∧ Val.isGood v = true ∧ Names objs v) :
    W (fun i j => i = j ∧ i < objs.length) v v := by
  by_cases ho : Val.isObject v = true
  · obtain ⟨h1, o, h2, _⟩ := h.2.2 ho
    have e : 2 * (objHandle v / 2) + 1 = objHandle v := by omega
    have hv := valid_handle h.1 h.2.1 ho
    refine .inr ⟨objHandle v / 2, objHandle v / 2, Val.tag v, ⟨rfl, (List.getElem?_eq_some_iff.mp h2).1⟩, u8IsObject_tag ho, ?_, ?_⟩
    · rw [e]; exact hv
    · rw [e]; exact hv
  · exact .inl ⟨Bool.not_eq_true _ |>.mp ho, rfl⟩

theorem self_inv {objs : List HostObj} {args : List Nat} (h : Valid objs args) :
    Inv (fun i j => i = j ∧ i < objs.length) objs objs where
  obj := by
    rintro i j ⟨rfl, hi⟩
    refine ⟨objs[i], objs[i], List.getElem?_eq_getElem hi, List.getElem?_eq_getElem hi, ?_⟩
    have he := h.2 objs[i] (List.getElem_mem hi)
    generalize objs[i] = o at he
    cases o with
    | vec l => exact .vec (forall₂_same.mpr fun v hv => self_word (he v hv))
    | map m =>
      refine .map (forall₂_same.mpr fun p hp => ?_)
      exact ⟨self_word (he _ (List.mem_append_left _ (List.mem_map_of_mem hp))),
        self_word (he _ (List.mem_append_right _ (List.mem_map_of_mem hp)))⟩
    | _ => exact .same (by intro l h; cases h) (by intro l h; cases h)
  fn h h' := h.1.symm.trans h'.1
  inj h h' := h.1.trans h'.1.symm

end Soroban.Diagnostics

namespace Soroban.Props
open Soroban.Spec Soroban.Diagnostics Soroban.Diagnostics.Spec

/-- C106: two hosts run the same contracts on the same arguments. Each makes diagnostics of its own: any objects, with any
contents, before any call and after any failure. As long as neither table is ever full, every contract gets the same words and the
same linear memory from every call in both, compares its objects alike and fails alike, whatever functions on ledger values and on
a state outside the objects it calls, and whatever it puts into instance storage. That state, with all instance storage, ends up
the same, the events of the contracts are the same, and the caller outside gets the same ledger value or the same error. -/
theorem C106_unseen {σ : Type} (d : Nat) (home : Home σ) (code : List Nat → Code σ) (st : σ) (objs : List HostObj)
    (args : List Nat) (junk junk' : List (List HostObj)) (hv : Valid objs args) (h : (invoke d home code st objs args junk).peak ≤ 2^31)
    (h' : (invoke d home code st objs args junk').peak ≤ 2^31) :
    (invoke d home code st objs args junk).log = (invoke d home code st objs args junk').log ∧
      (invoke d home code st objs args junk).state = (invoke d home code st objs args junk').state ∧
      (∀ depth : Nat, events (invoke d home code st objs args junk) depth = events (invoke d home code st objs args junk') depth) ∧
      ∀ (forStorage : Bool) (depth : Nat),
        outcome (invoke d home code st objs args junk) forStorage depth = outcome (invoke d home code st objs args junk') forStorage depth := by
  unfold invoke at h h' ⊢
  have I := self_inv hv
  have hw : List.Forall₂ (W (fun i j => i = j ∧ i < objs.length)) args args :=
    List.forall₂_same.mpr fun v hm => self_word (hv.1 v hm)
  have hl : objs.length ≤ 2^31 := by
    cases he : enterFrame [] args with
    | error e => rw [he] at h; exact h
    | ok x => rw [he] at h; exact Nat.le_trans (run_start d _ _ _ _ _ _ _) h
  have hf := rr_enterFrame I hl hl hw .nil
  cases he : enterFrame [] args with
  | error e => exact ⟨rfl, rfl, fun _ => rfl, fun _ _ => rfl⟩
  | ok x =>
    obtain ⟨tbl, rs⟩ := x
    rw [he] at h h' hf
    obtain ⟨hlog, hst, Q, _, J, hr, hev⟩ := run_agree d (code rs) st I junk junk' hf.1 (InstRel.opened home st) .nil h h'
    have p := Nat.le_trans (run_peak d (code rs) (home.open st) st [] objs junk tbl) h
    have p' := Nat.le_trans (run_peak d (code rs) (home.open st) st [] objs junk' tbl) h'
    refine ⟨congrArg (Seen.args rs :: ·) hlog, keep_same st hst hr,
      fun depth => eventsXdr_same J p p' depth (keepEvents_same 0 hev hr), fun fs depth => ?_⟩
    simp only [outcome]
    generalize run d (code rs) (home.open st) st [] objs junk tbl = r at *
    generalize run d (code rs) (home.open st) st [] objs junk' tbl = r' at *
    cases hx : r.res with
    | error e =>
      cases hy : r'.res with
      | error e' => rw [hx, hy] at hr; cases hr; rfl
      | ok b => rw [hx, hy] at hr; exact hr.elim
    | ok a =>
      cases hy : r'.res with
      | error e' => rw [hx, hy] at hr; exact hr.elim
      | ok b =>
        rw [hx, hy] at hr
        exact fromVal_same J p p' fs depth hr

/-- A function that puts its argument into the state as a key and returns all keys, the newest first. -/
private def record106 (st : List ScVal) (args : List (Res ScVal × Res ScVal)) : Res (List ScVal × ScVal) :=
  match args with
  | [(.ok k, _)] => .ok (k :: st, .vec (some (k :: st)))
  | _ => .error (.host .storage .invalidInput)

/-- Instance storage starts with one entry; it is written as a new record. -/
private def home106 : Home (List ScVal) where
  load _ := [(.u32 1, .vec (some []))]
  save st m := .ok (.map (some m) :: st)

/-- A contract with a vector as its argument. It pushes the argument into a new vector, compares the two, calls a contract with the
new vector, adds the result, reads the vector back from its memory, records it, emits an event with the records as topics,
puts the vector into instance storage, reads it back, writes to the log and returns the records. -/
private def demo106 (callee : List Nat → Code (List ScVal)) (rs : List Nat) : Code (List ScVal) :=
  .call (.obj .vecNew) [] [] fun v _ => .call (.obj .vecPushBack) [v.toNat, rs.headD 0] [] fun v _ =>
    .call (.obj .objCmp) [v.toNat, rs.headD 0] [] fun _ _ => .tryCall v.toNat home106 callee fun r =>
      .call (.obj .vecPushBack) [v.toNat, r.toNat] [] fun v _ =>
        .call (.mem .vecUnpackTo) [v.toNat, valU32 8, valU32 2] (List.replicate 32 9) fun _ mem =>
          .call (.mem .vecNewFrom) [valU32 8, valU32 2] mem fun v _ => .ledger [v.toNat] record106 fun r =>
            .event [7, 7] [r.toNat, v.toNat] fun _ => .inst .put [valU32 2, v.toNat] fun _ =>
              .inst .get [valU32 2] fun _ => .log [valU32 0, valU32 4, valU32 8, valU32 1] fun _ => .ret r.toNat

/-- A contract that makes an object, records it, emits an event and fails with its own error. -/
private def fails106 (rs : List Nat) : Code (List ScVal) :=
  .call (.obj .vecPushBack) [rs.headD 0, rs.headD 0] [] fun v _ => .ledger [v.toNat] record106 fun _ =>
    .event [8] [rs.headD 0, valU32 1] fun _ => .inst .put [valU32 2, v.toNat] fun _ => .trap (.contract 7)

private def start106 : List HostObj := [.vec [valU32 5], .vec []]

/-- The hypotheses are met: the argument is a vector of the host. -/
example : Valid start106 [valObject 1 .VecObject] := by
  refine ⟨fun v hv => ?_, fun o ho v hv => ?_⟩
  · cases List.mem_singleton.mp hv
    exact ⟨by decide, by decide, fun _ => ⟨by decide, _, rfl, by decide⟩⟩
  · rcases List.mem_cons.mp ho with rfl | ho
    · cases List.mem_singleton.mp hv
      exact ⟨by decide, by decide, fun h => absurd h (by decide)⟩
    · cases List.mem_singleton.mp ho
      cases hv

/-- Diagnostics move the objects of the contracts to other places, and the contracts see the same. The record and the instance
storage of the failed call are gone, and its event is marked. -/
example :
    let r := invoke 10 home106 (demo106 fails106) [] start106 [valObject 1 .VecObject] []
    let q := invoke 10 home106 (demo106 fails106) [] start106 [valObject 1 .VecObject]
      [[.vec []], [], [.vec [valU32 1], .bytes [1]], [.vec []]]
    r.objs.length = 17 ∧ q.objs.length = 21 ∧ r.peak = 19 ∧ q.peak = 23 ∧ r.log = q.log ∧ r.log.length = 18 ∧
      r.res.toOption ≠ q.res.toOption ∧
      (match q.state with
        | [.map (some [(.u32 1, .vec (some [])), (.u32 2, .vec (some [.vec _, .error 0 7]))]),
            .vec (some [.vec (some [.u32 5]), .error 0 7])] => true
        | _ => false) = true ∧
      (match events q 10 with
        | .ok [(([8], [.u32 5], .u32 1), true), (([7, 7], [.vec _], .vec (some [.vec (some [.u32 5]), .error 0 7])), false)] => true
        | _ => false) = true ∧
      (match outcome q false 10 with
        | .ok (.vec (some [.vec (some [.vec (some [.u32 5]), .error 0 7])])) => true
        | _ => false) = true := by
  decide +kernel

end Soroban.Props
