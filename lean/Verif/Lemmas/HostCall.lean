import Verif.Lemmas.HostFrame
/-! Calls of contracts. -/
namespace Soroban.Host
open Soroban Soroban.Auth Soroban.Storage Soroban.Storage.Spec

/-- Only the storage differs, and it shows the same ledger. -/
structure OnlyRead (E : HEnv) (s s' : Host) : Prop where
  only : OnlySt E s s'
  ledger : ledger E s'.st = ledger E s.st
  store : s.st.mode = .enforcing → s'.st = s.st

theorem OnlyRead.refl {E : HEnv} {s : Host} (h : StOk E s.st) : OnlyRead E s s := ⟨OnlySt.refl h, rfl, fun _ => rfl⟩
theorem OnlyRead.trans {E : HEnv} {a b c : Host} (h1 : OnlyRead E a b) (h2 : OnlyRead E b c) : OnlyRead E a c :=
  ⟨h1.only.trans h2.only, h2.ledger.trans h1.ledger,
    fun h => (h2.store (by rw [h1.only.st.mode]; exact h)).trans (h1.store h)⟩

theorem OnlyRead.ok {E : HEnv} {s s' : Host} (h : OnlyRead E s s') : StOk E s'.st := h.only.ok

theorem OnlyRead.rolledBack {E : HEnv} {s s' : Host} (h : OnlyRead E s s') : RolledBack E s s' :=
  ⟨h.ledger, h.store, by rw [h.only.events], by rw [h.only.auth], by rw [h.only.auth], by rw [h.only.auth], by rw [h.only.auth]⟩

theorem tryGet_enf (E : HEnv) {st : Store LKey LVal} (h : st.mode = .enforcing) (k : LKey) : (tryGet E.sto st k).1 = st := by
  unfold tryGet prepareReadOnly
  rw [h]
  simp only
  split
  · cases enforceAccess st.footprint k .readOnly with
    | error e => rfl
    | ok u =>
      cases u
      simp only
      cases st.map.get k <;> rfl
  · rfl

theorem getEntry_enf (E : HEnv) {st : Store LKey LVal} (h : st.mode = .enforcing) (k : LKey) : (getEntry E.sto st k).1 = st := by
  have := tryGet_enf E h k
  unfold getEntry
  split
  all_goals (rename_i heq; rw [heq] at this; exact this)

theorem has_enf (E : HEnv) {st : Store LKey LVal} (h : st.mode = .enforcing) (k : LKey) : (has E.sto st k).1 = st := by
  have := tryGet_enf E h k
  unfold has
  split
  all_goals (rename_i heq; rw [heq] at this; exact this)

theorem getEntry_read {E : HEnv} {s : Host} (h : StOk E s.st) (k : LKey) :
    OnlyRead E s (liftSt s (fun st => getEntry E.sto st k)).1 :=
  ⟨liftSt_read (getEntry_sle h k) (getEntry_ledger h k), getEntry_ledger h k, fun hm => getEntry_enf E hm k⟩

theorem has_read {E : HEnv} {s : Host} (h : StOk E s.st) (k : LKey) :
    OnlyRead E s (liftSt s (fun st => has E.sto st k)).1 :=
  ⟨liftSt_read (has_sle h k) (has_ledger h k), has_ledger h k, fun hm => has_enf E hm k⟩

theorem getInstance_read {E : HEnv} {s : Host} (h : StOk E s.st) (c : Nat) : OnlyRead E s (getInstance E s c).1 := by
  have h1 := getEntry_read h (.inst c)
  unfold getInstance
  split
  all_goals (rename_i heq; rw [heq] at h1; exact h1)

theorem resolveRef_read {E : HEnv} {s : Host} (h : StOk E s.st) (o : Addr) (t : Nat) : OnlyRead E s (resolveRef E s o t).1 := by
  have h1 := getEntry_read h (.data o (.tag t) .persistent)
  unfold resolveRef
  split
  · rename_i heq; rw [heq] at h1; exact h1
  · rename_i heq; rw [heq] at h1; split <;> exact h1
  · rename_i heq; rw [heq] at h1; exact h1

theorem wasmHash_read {E : HEnv} {s : Host} (h : StOk E s.st) (ex : Exec) : OnlyRead E s (wasmHash E s ex).1 := by
  cases ex with
  | wasm h' => exact OnlyRead.refl h
  | asset => exact OnlyRead.refl h
  | ref o t =>
    have h1 := resolveRef_read h o t
    simp only [wasmHash]
    split
    all_goals (rename_i heq; rw [heq] at h1; exact h1)

theorem loadCode_read {E : HEnv} {s : Host} (h : StOk E s.st) (c : Nat) : OnlyRead E s (loadCode E s c).1 := by
  have h1 := getEntry_read h (.code c)
  unfold loadCode
  split
  all_goals (rename_i heq; rw [heq] at h1; exact h1)

/-- The outcome of calling function `fn` of contract `id`. -/
structure Called (E : HEnv) (orig : List Acct) (id : Nat) (fn : Name) (s : Host) (r : Host × Res RVal) : Prop where
  good : Good E orig s r
  failed : ∀ e, r.2 = .error e → RolledBack E s r.1
  rel : List.Forall₂ (CRel (some id)) s.ctx r.1.ctx
  ran : ∀ v, r.2 = .ok v → ((some id, fn) :: shape s.ctx) ∈ r.1.trace

theorem Called.after {E : HEnv} {orig : List Acct} {id : Nat} {fn : Name} {s s1 : Host} {r : Host × Res RVal} (hs : HOk E orig s)
    (h : OnlyRead E s s1) (hc : Called E orig id fn s1 r) : Called E orig id fn s r := by
  refine ⟨Good.bind (h.only.good hs (.ok ())) hc.good, fun e he => h.rolledBack.trans h.only.st.mode (hc.failed e he), by rw [← h.only.ctx]; exact hc.rel,
    fun v hv => ?_⟩
  have := hc.ran v hv
  rw [h.only.ctx] at this; exact this

theorem Called.failedRead {E : HEnv} {orig : List Acct} {id : Nat} {fn : Name} {s s1 : Host} (hs : HOk E orig s)
    (h : OnlyRead E s s1) (e : Err) : Called E orig id fn s (s1, .error e) :=
  ⟨h.only.good hs _, fun _ _ => h.rolledBack, by simp only [h.only.ctx]; exact forall₂_refl (CRel.refl _) _,
    fun v hv => by cases hv⟩

/-- A call that is allowed with the given context stack. -/
structure CallOk (id : Nat) (fn : Name) (cs : List Ctx) : Prop where
  stack : StackOk ((some id, fn) :: shape cs)
  scope : topContract cs = some id ∨ ∀ d ∈ cs, d.cid ≠ some id

theorem callContractFn_called {E : HEnv} {orig : List Acct} {s : Host} (hs : HOk E orig s) {id : Nat} {fn : Name}
    (hc : CallOk id fn s.ctx) (hcl : Coh (ledger E s.st) s.ctx → ∀ ex m l, ledger E s.st (.inst id) = some (.inst ex m, l) → Clean m (framesOf id s.ctx))
    {f : Host → Host × Res RVal} (hf : ∀ s1, HOk E orig s1 → Good E orig s1 (f s1)) :
    Called E orig id fn s (callContractFn E s id fn f) := by
  have h1 := getInstance_read (E := E) hs.st id
  have frame : ∀ s1 m, OnlyRead E s s1 → (∃ ex l, ledger E s.st (.inst id) = some (.inst ex m, l)) → Called E orig id fn s (withFrame E s1 { cid := some id, fn := fn, inst := m, storage := none } f) := by
    intro s1 m h hex
    have hs1 : HOk E orig s1 := (h.only.good hs (.ok ())).ok
    have hfr : FrameOk { cid := some id, fn := fn, inst := m, storage := none } id s1.ctx := by
      rw [h.only.ctx]; exact ⟨rfl, hc.stack, hc.scope⟩
    obtain ⟨g1, g2, g3, g4⟩ := withFrame_good hs1 hfr (fun hcoh => by
      obtain ⟨ex, l, hl⟩ := hex
      rw [h.ledger, h.only.ctx] at hcoh ⊢
      exact hcoh.push rfl hl rfl rfl (hcl hcoh ex m l hl)) hf
    exact Called.after hs h ⟨g1, g2, g3, g4⟩
  unfold callContractFn
  split
  · rename_i heq; rw [heq] at h1; exact Called.failedRead hs h1 _
  · rename_i s1 ex m heq
    have hex : ∃ ex l, ledger E s.st (.inst id) = some (.inst ex m, l) := by
      obtain ⟨l, hl, hL⟩ := getInstance_val hs.st heq
      exact ⟨ex, l, by rw [← hL]; exact hl⟩
    rw [heq] at h1
    have h2 := wasmHash_read (E := E) h1.ok ex
    split
    · rename_i heq2; rw [heq2] at h2; exact Called.failedRead hs (h1.trans h2) _
    · rename_i s2 heq2; rw [heq2] at h2; exact frame s2 m (h1.trans h2) hex
    · rename_i s2 hh heq2
      rw [heq2] at h2
      have h3 := loadCode_read (E := E) h2.ok hh
      split
      · rename_i heq3; rw [heq3] at h3; exact Called.failedRead hs ((h1.trans h2).trans h3) _
      · rename_i s3 heq3; rw [heq3] at h3; exact frame s3 m ((h1.trans h2).trans h3) hex

theorem reentry_none {id : Nat} {cs : List Ctx} (h : reentryDistance id cs = none) : ∀ d ∈ cs, d.cid ≠ some id := by
  intro d hd hid
  unfold reentryDistance at h
  rw [List.idxOf?_eq_none_iff] at h
  exact h (List.mem_filterMap.mpr ⟨d, hd, hid⟩)

theorem reentry_zero {id : Nat} {cs : List Ctx} (h : reentryDistance id cs = some 0) : topContract cs = some id := by
  unfold reentryDistance at h
  unfold topContract
  cases hl : cs.filterMap Ctx.cid with
  | nil => rw [hl] at h; simp at h
  | cons x xs =>
    rw [hl] at h
    simp only [List.head?_cons]
    rw [List.idxOf?_cons] at h
    by_cases hx : x = id
    · rw [hx]
    · have : (x == id) = false := by simpa using hx
      rw [this] at h
      simp only [Bool.false_eq_true, if_false] at h
      cases h' : List.idxOf? id xs <;> rw [h'] at h <;> simp at h

theorem shape_fst (cs : List Ctx) : (shape cs).map Prod.fst = cs.map Ctx.cid := by
  unfold shape; rw [List.map_map]; rfl

theorem shape_filterMap (cs : List Ctx) : (shape cs).filterMap Prod.fst = cs.filterMap Ctx.cid := by
  unfold shape; rw [List.filterMap_map]; rfl

theorem callOk_new {id : Nat} {fn : Name} {cs : List Ctx} (hs : StackOk (shape cs)) (h : ∀ d ∈ cs, d.cid ≠ some id)
    (hfn : reserved fn = true → fn = checkAuthName ∨ fn = constructorName) : CallOk id fn cs := by
  refine ⟨⟨hs, ?_, hfn, fun h => (by cases h)⟩, Or.inr h⟩
  intro id' hid hm
  cases hid
  rw [shape_fst, List.mem_map] at hm
  obtain ⟨d, hd, hdi⟩ := hm
  exact absurd hdi (h d hd)

theorem callOk_top {id : Nat} {cs : List Ctx} (hs : StackOk (shape cs)) (h : topContract cs = some id) :
    CallOk id checkAuthName cs := by
  refine ⟨⟨hs, ?_, fun _ => Or.inl rfl, fun h => (by cases h)⟩, Or.inl h⟩
  intro id' hid _
  cases hid
  rw [shape_filterMap]
  exact ⟨h, rfl⟩

theorem clean_new {L : Ledger LKey LVal} {id : Nat} {cs : List Ctx} (h : ∀ d ∈ cs, d.cid ≠ some id) :
    Coh L cs → ∀ ex m l, L (.inst id) = some (.inst ex m, l) → Clean m (framesOf id cs) := fun _ _ _ _ _ => by
  rw [framesOf_nil h]; trivial

/-- Calls from contracts, constructors and account checks when the contract is not on the stack. -/
theorem callN_prohibited {E : HEnv} {orig : List Acct} {s : Host} (hs : HOk E orig s) {id : Nat} {fn : Name} {internal : Bool}
    (hfn : internal = true → fn = checkAuthName ∨ fn = constructorName) {f : Host → Host × Res RVal}
    (hf : ∀ s1, HOk E orig s1 → Good E orig s1 (f s1)) : Called E orig id fn s (callN E s id fn .prohibited internal f) := by
  unfold callN
  split
  · exact Called.failedRead hs (OnlyRead.refl hs.st) _
  · rename_i hr
    simp only
    split
    · rename_i hd
      refine callContractFn_called hs (callOk_new hs.stack (reentry_none hd) ?_) (clean_new (reentry_none hd)) hf
      intro hres
      cases hi : internal with
      | true => exact hfn hi
      | false => exact absurd ⟨hi, hres⟩ hr
    · exact Called.failedRead hs (OnlyRead.refl hs.st) _

/-- Account checks: the contract may be that of the top frame. -/
theorem callN_self {E : HEnv} {orig : List Acct} {s : Host} (hs : HOk E orig s) {id : Nat} {f : Host → Host × Res RVal}
    (hf : ∀ s1, HOk E orig s1 → Good E orig s1 (f s1)) :
    Good E orig s (callN E s id checkAuthName .selfAllowed true f) ∧
    (∀ v, (callN E s id checkAuthName .selfAllowed true f).2 = .ok v →
      ((some id, checkAuthName) :: shape s.ctx) ∈ (callN E s id checkAuthName .selfAllowed true f).1.trace) := by
  unfold callN
  rw [if_neg (by simp)]
  simp only
  split
  · rename_i hd
    have := callContractFn_called hs (callOk_new hs.stack (reentry_none hd) (fun _ => Or.inl rfl)) (fn := checkAuthName) (clean_new (reentry_none hd)) hf
    exact ⟨this.good, this.ran⟩
  · rename_i hd
    have h1 := persist_only (E := E) hs.st
    have hg := persist_good (E := E) hs
    split
    · rename_i heq; rw [heq] at hg; exact ⟨hg.err (fun h => h), fun v h => by cases h⟩
    · rename_i s1 b heq
      rw [heq] at h1 hg
      have := callContractFn_called hg.ok (callOk_top hg.ok.stack (by rw [h1.ctx]; exact reentry_zero hd)) (fun hc ex m l hl => by
        obtain ⟨d, cs, hcs, hid⟩ := hs.stack.top (reentry_zero hd)
        rw [h1.ctx] at hc ⊢
        exact persist_top hs.st heq hcs hid hc hl) hf
      refine ⟨Good.bind hg this.good, fun v hv => ?_⟩
      have h3 := this.ran v hv
      rw [h1.ctx] at h3; exact h3
  · exact ⟨Good.refl hs _, fun v h => by cases h⟩

/-- In a call to a contract that is not on the stack the contexts are unchanged. -/
theorem Called.ctx {E : HEnv} {orig : List Acct} {id : Nat} {fn : Name} {s : Host} {r : Host × Res RVal} (h : Called E orig id fn s r)
    (hn : ∀ d ∈ s.ctx, d.cid ≠ some id) : r.1.ctx = s.ctx := by
  have h2 := h.rel
  clear h
  generalize r.1.ctx = cs at h2
  generalize hx : s.ctx = cs0 at h2 hn
  clear hx
  induction h2 with
  | nil => rfl
  | cons h _ ih => rw [h.2 (hn _ List.mem_cons_self), ih (fun d hd => hn d (List.mem_cons_of_mem _ hd))]

/-- A call that does not allow re-entry leaves the contexts as they were. -/
theorem callN_ctx {E : HEnv} {orig : List Acct} {s : Host} (hs : HOk E orig s) {id : Nat} {fn : Name} {internal : Bool}
    (hfn : internal = true → fn = checkAuthName ∨ fn = constructorName) {f : Host → Host × Res RVal}
    (hf : ∀ s1, HOk E orig s1 → Good E orig s1 (f s1)) : (callN E s id fn .prohibited internal f).1.ctx = s.ctx := by
  cases hd : reentryDistance id s.ctx with
  | none => exact (callN_prohibited hs hfn hf).ctx (reentry_none hd)
  | some n =>
    unfold callN
    split
    · rfl
    · simp only [hd]

theorem tryCall_good {E : HEnv} {orig : List Acct} {s : Host} (hs : HOk E orig s) {id : Nat} {fn : Name} {f : Host → Host × Res RVal}
    (hf : ∀ s1, HOk E orig s1 → Good E orig s1 (f s1)) : Good E orig s (tryCall E s id fn f) := by
  have h := callN_prohibited hs (id := id) (fn := fn) (internal := false) (fun h => by cases h) hf
  unfold tryCall
  simp only
  have hctx := callN_ctx hs (id := id) (fn := fn) (internal := false) (fun h => by cases h) hf
  refine Good.mapRes (r := (callN E s id fn .prohibited false f).2) h.good ?_ ?_
  · intro v hv
    cases hr : (callN E s id fn .prohibited false f).2 with
    | ok w => exact Or.inl ⟨w, rfl⟩
    | error e =>
      right
      refine ⟨e, rfl, ?_, fun hst => (h.failed e hr).strong h.good.le.trace hctx hst⟩
      rw [hr] at hv
      cases e with
      | contract n => rfl
      | host t c =>
        simp only [tryResult] at hv
        split at hv
        · assumption
        · cases hv
  · intro e he hre
    rw [he]
    cases e with
    | contract n => cases hre
    | host t c => exact ⟨.host t c, by simp only [tryResult, hre, if_false, Bool.false_eq_true], hre⟩

end Soroban.Host
