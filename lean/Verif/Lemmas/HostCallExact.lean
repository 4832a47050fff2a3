import Verif.Lemmas.HostAuthExact
import Verif.Lemmas.HostExtend
import Verif.Spec.HostCallable
/-! Exactly when calls succeed. -/
namespace Soroban.Host
open Soroban Soroban.Auth Soroban.Storage Soroban.Storage.Spec
open Soroban.Host.Spec (TxStart Reach Loads CanAccess Callable Enterable CanEnter inside Returns Outcome codeKeys code tagged visible)

theorem may_iff {s : Host} {k : LKey} : CanAccess s k .readOnly ↔ May s k := canAccess_iff

theorem getEntry_does {E : HEnv} {s s' : Host} (h : StOk E s.st) {k : LKey} {e : Entry LVal}
    (hg : liftSt s (fun st => getEntry E.sto st k) = (s', .ok e)) : May s k ∧ ledger E s.st k = some e := by
  have := (getEntry_iff h e).mp (by rw [hg])
  exact ⟨may_iff.mp this.1, this.2⟩

theorem read_enf {E : HEnv} {s s' : Host} (h : OnlyRead E s s') (hm : s.st.mode = .enforcing) : s' = s := by
  have h1 := h.only.rest
  have h2 := h.store hm
  rw [h1, h2]

/-- A contract is found and loaded exactly if it is callable; the state stays the same. -/
theorem loads_iff {E : HEnv} {s : Host} (h : StOk E s.st) (hm : s.st.mode = .enforcing) {c : Nat} {m : FMap Nat Nat} :
    (∃ s1, Loads E s c m s1) ↔ Callable E s c m := by
  constructor
  · rintro ⟨s1, hl⟩
    cases hl with
    | @builtin ex s1 s2 h1 h2 =>
      obtain ⟨a1, l, a2⟩ := getInstance_does h h1
      have e1 : s1 = s := by have := getInstance_read h c; rw [h1] at this; exact read_enf this hm
      subst e1
      refine ⟨may_iff.mpr a1, ex, l, a2, ?_⟩
      cases ex with
      | wasm y => simp only [wasmHash, Prod.mk.injEq, Except.ok.injEq] at h2; cases h2.2
      | asset => exact ⟨rfl, fun k hk => by cases hk⟩
      | ref o t =>
        simp only [wasmHash] at h2
        split at h2
        · cases h2
        · simp only [Prod.mk.injEq, Except.ok.injEq] at h2; cases h2.2
    | @wasm ex s1 s2 y s3 h1 h2 h3 =>
      obtain ⟨a1, l, a2⟩ := getInstance_does h h1
      have e1 : s1 = s := by have := getInstance_read h c; rw [h1] at this; exact read_enf this hm
      subst e1
      have e2 : s2 = s1 := by have := wasmHash_read h ex; rw [h2] at this; exact read_enf this hm
      subst e2
      have hcode : May s2 (.code y) ∧ ∃ e, ledger E s2.st (.code y) = some e := by
        unfold loadCode at h3
        split at h3
        · cases h3
        · rename_i e heq
          have := getEntry_does h heq
          exact ⟨this.1, _, this.2⟩
      refine ⟨may_iff.mpr a1, ex, l, a2, ?_⟩
      cases ex with
      | wasm y' =>
        simp only [wasmHash, Prod.mk.injEq, Except.ok.injEq, Option.some.injEq, true_and] at h2
        subst h2
        refine ⟨rfl, fun k hk => ?_⟩
        simp only [codeKeys, List.mem_singleton] at hk
        subst hk
        obtain ⟨b1, e, b2⟩ := hcode
        exact ⟨may_iff.mpr b1, by rw [show visible E s2 (.code y') = some e from b2]; rfl⟩
      | asset => simp only [wasmHash, Prod.mk.injEq, Except.ok.injEq] at h2; cases h2.2
      | ref o t =>
        simp only [wasmHash] at h2
        split at h2
        · cases h2
        · rename_i s5 y' heq
          simp only [Prod.mk.injEq, Except.ok.injEq, Option.some.injEq] at h2
          obtain ⟨hs5, hy⟩ := h2
          subst hs5; subst hy
          have ht := (resolveRef_does h heq).2
          have ht' : tagged E (visible E s5) o t = some y' := ht
          have hmay : May s5 (.data o (.tag t) .persistent) ∧ ∃ e, ledger E s5.st (.data o (.tag t) .persistent) = some e := by
            unfold resolveRef at heq
            split at heq
            · cases heq
            · rename_i heq'
              have := getEntry_does h heq'
              exact ⟨this.1, _, this.2⟩
            · cases heq
          refine ⟨?_, fun k hk => ?_⟩
          · simp only [code, ht', Option.map_some]; rfl
          · simp only [codeKeys, ht', Option.toList_some, List.map_cons, List.map_nil, List.mem_cons, List.not_mem_nil, or_false] at hk
            rcases hk with rfl | rfl
            · obtain ⟨b1, e, b2⟩ := hmay
              exact ⟨may_iff.mpr b1, by rw [show visible E s5 _ = some e from b2]; rfl⟩
            · obtain ⟨b1, e, b2⟩ := hcode
              exact ⟨may_iff.mpr b1, by rw [show visible E s5 _ = some e from b2]; rfl⟩
  · rintro ⟨a1, ex, l, a2, a3, a4⟩
    obtain ⟨s1, h1⟩ := getInstance_gets h (may_iff.mp a1) a2
    have e1 : s1 = s := by have := getInstance_read h c; rw [h1] at this; exact read_enf this hm
    subst e1
    have load : ∀ {y : Nat}, LKey.code y ∈ codeKeys E (visible E s1) ex → ∃ s2, loadCode E s1 y = (s2, .ok ()) := by
      intro y hy
      obtain ⟨b1, b2⟩ := a4 _ hy
      obtain ⟨e, he⟩ := Option.isSome_iff_exists.mp b2
      obtain ⟨s2, h2⟩ := getEntry_gets h (may_iff.mp b1) he
      exact ⟨s2, by unfold loadCode; rw [h2]⟩
    cases ex with
    | wasm y =>
      obtain ⟨s2, h2⟩ := load (y := y) (by simp [codeKeys])
      exact ⟨s2, .wasm h1 rfl h2⟩
    | asset => exact ⟨s1, .builtin h1 rfl⟩
    | ref o t =>
      have ht : ∃ y, tagged E (visible E s1) o t = some y := by
        simp only [code] at a3
        cases hq : tagged E (visible E s1) o t with
        | none => rw [hq] at a3; cases a3
        | some y => exact ⟨y, rfl⟩
      obtain ⟨y, hy⟩ := ht
      obtain ⟨s2, h2⟩ := resolveRef_gets h (may_iff.mp (a4 (.data o (.tag t) .persistent) (by simp [codeKeys])).1) hy
      have e2 : s2 = s1 := by have := resolveRef_read h o t; rw [h2] at this; exact read_enf this hm
      subst e2
      obtain ⟨s3, h3⟩ := load (y := y) (by simp [codeKeys, hy])
      exact ⟨s3, .wasm h1 (by simp only [wasmHash, h2]) h3⟩

theorem loads_enf {E : HEnv} {s s1 : Host} (h : StOk E s.st) (hm : s.st.mode = .enforcing) {c : Nat} {m : FMap Nat Nat}
    (hl : Loads E s c m s1) : s1 = s := read_enf (loads_read h hl) hm

/-! ### the end of a frame -/

/-- Writing the instance storage back: only the footprint can be in the way. -/
theorem storeInstance_enf {E : HEnv} {s : Host} (h : StOk E s.st) {c : Nat} {ex : Exec} {m0 m : FMap Nat Nat}
    {l : Option Nat} (hr : CanAccess s (.inst c) .readOnly) (hL : visible E s (.inst c) = some (.inst ex m0, l)) :
    (CanAccess s (.inst c) .readWrite ∧ (storeInstance E s none (some m) c).2 = .ok ()) ∨
    (¬ CanAccess s (.inst c) .readWrite ∧ (storeInstance E s none (some m) c).2 = .error (.host .storage .exceededLimit)) := by
  have hp : permOf s.st.mode s.st.footprint (.inst c) .readOnly = true := canAccess_iff.mp hr
  obtain ⟨st1, hsame1, hhas, -⟩ := has_spec h.mode h.map (LKey.inst c)
  have hL' : absMap E.sto s.st.mode s.st.map (.inst c) = some (.inst ex m0, l) := hL
  have hhas' : has E.sto s.st (.inst c) = (st1, .ok true) := by
    rw [hhas]; unfold readAt
    rw [if_pos (by rw [h.keys]; rfl), if_pos hp]
    dsimp only
    rw [hL']; rfl
  have h1 : StOk E st1 := ⟨h.keys, by rw [hsame1.mode]; exact h.mode, hsame1.ok⟩
  obtain ⟨st2, hsame2, hget, -⟩ := getEntry_spec h1.mode h1.map (LKey.inst c)
  have hL1 : absMap E.sto st1.mode st1.map (.inst c) = some (.inst ex m0, l) := by
    have := hsame1.abs; rw [this]; exact hL'
  have hget' : getEntry E.sto st1 (.inst c) = (st2, .ok (.inst ex m0, l)) := by
    rw [hget]; unfold getAt readAt
    rw [if_pos (by rw [h.keys]; rfl), if_pos (by rw [same_access hsame1]; exact hp), hL1]
  have h2 : StOk E st2 := ⟨h.keys, by rw [hsame2.mode]; exact h1.mode, hsame2.ok⟩
  have hlive : LiveEntry E.sto (.inst c) (some (LVal.inst ex m, l)) := by
    have := getEntry_live h1 (k := .inst c) (e := (.inst ex m0, l)) (by rw [hget'])
    intro v' l' d hv hd
    simp only [Option.some.injEq, Prod.mk.injEq] at hv
    exact this (.inst ex m0) l' d (by rw [hv.2]) hd
  obtain ⟨st3, -, hput, -⟩ := putOpt_spec h2.map (LKey.inst c) hlive
  have hperm : permOf st2.mode st2.footprint (.inst c) .readWrite = permOf s.st.mode s.st.footprint (.inst c) .readWrite := by
    have e1 := same_access (s := { s with st := st1 }) hsame2 (k := .inst c) (ty := .readWrite)
    rw [e1]; exact same_access hsame1
  have hres : (storeInstance E s none (some m) c).2 = toUnit (writeAt E.sto (permOf st2.mode st2.footprint) (absMap E.sto st2.mode st2.map)
      (.inst c) (some (.inst ex m, l))) := by
    have l1 : liftSt s (fun st => has E.sto st (.inst c)) = ({ s with st := st1 }, .ok true) := by
      unfold liftSt; simp only [hhas']
    have l2 : liftSt { s with st := st1 } (fun st => getEntry E.sto st (.inst c)) = ({ s with st := st2 }, .ok (.inst ex m0, l)) := by
      unfold liftSt; simp only [hget']
    unfold storeInstance
    rw [l1]
    dsimp only
    rw [l2]
    dsimp only [updInstance, Option.getD]
    unfold liftSt
    simp only [hput]
  rw [hres, canAccess_iff]
  unfold writeAt
  rw [if_pos (by rw [h.keys]; rfl)]
  have hck : checkEntry E.sto (some (LVal.inst ex m, l)) = .ok () := by
    unfold checkEntry
    dsimp only
    rw [if_pos (by rw [h.keys]; rfl)]
  rw [hck]
  dsimp only
  rw [hperm]
  by_cases hw : permOf s.st.mode s.st.footprint (.inst c) .readWrite = true
  · left; simp [hw, toUnit]
  · right; simp [hw, toUnit]

/-- No frame below has the contract: nothing is reloaded. -/
theorem reloadBelow_none {E : HEnv} {id : Nat} : ∀ {cs : List Ctx} (s : Host), (∀ d ∈ cs, d.cid ≠ some id) →
    reloadBelow E s id cs = (s, .ok cs) := by
  intro cs
  induction cs with
  | nil => intro s _; rfl
  | cons d ds ih =>
    intro s h
    rw [reloadBelow, ih s (fun x hx => h x (List.mem_cons_of_mem _ hx))]
    dsimp only
    rw [if_neg (h d List.mem_cons_self)]

/-- The end of a frame for `c`, if no frame below has that contract. -/
theorem finish_enf {E : HEnv} {s : Host} (h : StOk E s.st) {c : Nat} {d : Ctx} {ds : List Ctx} (hctx : s.ctx = d :: ds)
    (hd : d.cid = some c) (hds : ∀ x ∈ ds, x.cid ≠ some c) {ex : Exec} {m0 : FMap Nat Nat} {l : Option Nat}
    (hr : CanAccess s (.inst c) .readOnly) (hL : visible E s (.inst c) = some (.inst ex m0, l)) (v : RVal) :
    ((Ctx.changed d = true → CanAccess s (.inst c) .readWrite) ∧ (finish E s (.ok v)).2 = .ok v) ∨
    (Ctx.changed d = true ∧ ¬ CanAccess s (.inst c) .readWrite ∧ (finish E s (.ok v)).2 = .error (.host .storage .exceededLimit)) := by
  by_cases hch : Ctx.changed d = true
  · obtain ⟨m, hm⟩ : ∃ m, d.storage = some (m, true) := by
      unfold Ctx.changed at hch
      split at hch
      · rename_i m b heq; subst hch; exact ⟨m, heq⟩
      · cases hch
    have hp : persist E s = match storeInstance E s none (some m) c with
        | (s, .error e) => (s, .error e)
        | (s, .ok ()) => (s, .ok true) := by
      unfold persist currentContract
      rw [hctx]; dsimp only; rw [hm]; dsimp only; rw [hd]; rfl
    have honly := (storeInstance_only0 h none (some m) c (Or.inl (by unfold topContract; rw [hctx, List.filterMap_cons, hd]; rfl))
      (fun x hx => by cases hx)).1
    rcases storeInstance_enf h (m := m) hr hL with ⟨h1, h2⟩ | ⟨h1, h2⟩
    · left
      refine ⟨fun _ => h1, ?_⟩
      rcases hs : storeInstance E s none (some m) c with ⟨s1, r⟩
      rw [hs] at h2 hp honly
      simp only at h2
      subst h2
      unfold finish
      dsimp only at hp ⊢
      rw [hp]
      have hc1 : s1.ctx = d :: ds := by
        have := honly.rest
        simp only at this
        rw [this]; exact hctx
      have : reload E s1 = ({ s1 with ctx := d :: ds }, .ok ()) := by
        unfold reload
        rw [hc1]; dsimp only; rw [hd]; dsimp only
        rw [reloadBelow_none s1 hds]
      dsimp only
      rw [this]
    · right
      refine ⟨hch, h1, ?_⟩
      rcases hs : storeInstance E s none (some m) c with ⟨s1, r⟩
      rw [hs] at h2 hp
      simp only at h2
      subst h2
      unfold finish
      dsimp only at hp ⊢
      rw [hp]
  · left
    refine ⟨fun hx => absurd hx hch, ?_⟩
    have : persist E s = (s, .ok false) := by
      unfold persist
      rw [hctx]; dsimp only
      unfold Ctx.changed at hch
      cases hst : d.storage with
      | none => rfl
      | some q =>
        obtain ⟨m, b⟩ := q
        rw [hst] at hch
        simp only at hch
        cases b with
        | true => exact absurd rfl hch
        | false => rfl
    unfold finish
    rw [this]

/-- Popping the frame never fails: the result is what the end of the frame gives. -/
theorem withFrame_result {E : HEnv} {orig : List Acct} {s : Host} (hs : HOk E orig s) {c : Ctx} {id : Nat} (hc : FrameOk c id s.ctx)
    {f : Host → Host × Res RVal} (hf : ∀ s1, HOk E orig s1 → Good E orig s1 (f s1)) (hd : s.ctx.length < depthLimit) :
    (withFrame E s c f).2 = (finish E (f (pushContext s c).1).1 (escalate (f (pushContext s c).1).2)).2 := by
  unfold withFrame
  rw [if_neg (by omega)]
  have hp := push_hok hs hc hd
  have hpe : (pushContext s c) = ({ s with
    auth := s.auth.push (.contract (.contract id) c.fn), ctx := c :: s.ctx, trace := shape (c :: s.ctx) :: s.trace },
    { map := s.st.map, events := s.events.length, auth := (s.auth.push (.contract (.contract id) c.fn)).snapshot }) := by
    unfold pushContext; rw [hc.cid]
  have hb := hf _ hp
  have hbe : Good E orig (pushContext s c).1 ((f (pushContext s c).1).1, escalate (f (pushContext s c).1).2) := by
    refine Good.mapRes (r := (f (pushContext s c).1).2) hb ?_ ?_
    · intro v hv
      cases hr : (f (pushContext s c).1).2 with
      | ok w => exact Or.inl ⟨w, rfl⟩
      | error e => rw [hr] at hv; cases hv
    · intro e he hre; exact ⟨e, escalate_fatal he, hre⟩
  have he : Good E orig (pushContext s c).1 (finish E (f (pushContext s c).1).1 (escalate (f (pushContext s c).1).2)) := by
    cases hr : escalate (f (pushContext s c).1).2 with
    | error err => rw [hr] at hbe; exact hbe
    | ok w => rw [hr] at hbe; exact Good.bind hbe (finish_good hb.ok _ (Good.refl hb.ok _))
  simp only
  generalize finish E (f (pushContext s c).1).1 (escalate (f (pushContext s c).1).2) = fin at he
  obtain ⟨s2, r2⟩ := fin
  simp only
  clear hbe hb hf
  rw [hpe] at he
  rw [hpe]
  simp only at he ⊢
  have hle := he.le
  have hctx := hle.ctx
  simp only at hctx
  obtain ⟨c2, cs2, hs2⟩ : ∃ c2 cs2, s2.ctx = c2 :: cs2 := by
    have := hctx.same
    generalize hx : s2.ctx = x at this
    cases this with | cons _ _ => exact ⟨_, _, rfl⟩
  have hlen : cs2.length = s.ctx.length := by
    have := hctx.below.length_eq
    rw [hs2] at this
    exact this.symm
  have hauth : MLe (s.auth.push (.contract (.contract id) c.fn)) s2.auth := hle.auth
  cases r2 with
  | ok v =>
    simp only [rollbackIf, popContext, hs2, Mgr.pop]
    rw [if_neg (by simp [hlen])]
  | error err =>
    have hroll := MLe.rolledBack hs.mwf he.ok.mwf hauth
    simp only [rollbackIf, popContext, hs2]
    rw [hroll]
    simp only
    rw [if_neg (by simp [hlen])]

/-! ### calls -/

theorem reentry_some {id : Nat} {cs : List Ctx} (h : ∃ d ∈ cs, d.cid = some id) : ∃ i, reentryDistance id cs = some i := by
  cases hr : reentryDistance id cs with
  | some i => exact ⟨i, rfl⟩
  | none => obtain ⟨d, hd, hc⟩ := h; exact absurd hc (reentry_none hr d hd)

theorem getEntry_denied {E : HEnv} {s : Host} (h : StOk E s.st) {k : LKey} (hn : ¬ CanAccess s k .readOnly) :
    (liftSt s (fun st => getEntry E.sto st k)).2 = .error (.host .storage .exceededLimit) := by
  obtain ⟨st', -, h5, -⟩ := getEntry_spec h.mode h.map k
  rw [canAccess_iff] at hn
  unfold liftSt
  dsimp only
  rw [h5]
  unfold getAt readAt
  rw [if_pos (by rw [h.keys]; rfl), if_neg hn]

theorem getEntry_missing {E : HEnv} {s : Host} (h : StOk E s.st) {k : LKey} (hr : CanAccess s k .readOnly) (hn : visible E s k = none) :
    (liftSt s (fun st => getEntry E.sto st k)).2 = .error (.host .storage .missingValue) := by
  obtain ⟨st', -, h5, -⟩ := getEntry_spec h.mode h.map k
  rw [canAccess_iff] at hr
  unfold liftSt
  dsimp only
  rw [h5]
  unfold getAt readAt
  rw [if_pos (by rw [h.keys]; rfl), if_pos hr, show absMap E.sto s.st.mode s.st.map k = none from hn]

theorem getInstance_error {E : HEnv} {s : Host} {c : Nat} {e : Err}
    (he : (liftSt s (fun st => getEntry E.sto st (.inst c))).2 = .error e) : (getInstance E s c).2 = .error e := by
  unfold getInstance
  rcases hr : liftSt s (fun st => getEntry E.sto st (.inst c)) with ⟨s1, r⟩
  rw [hr] at he
  simp only at he
  subst he
  rfl

/-- If the contract or its code is not found, nothing has happened. -/
theorem callContractFn_noload {E : HEnv} {s : Host} (h : StOk E s.st) (hm : s.st.mode = .enforcing) {c : Nat} {fn : Name}
    {f : Host → Host × Res RVal} (hn : ∀ m s1, ¬ Loads E s c m s1) : ∃ e, callContractFn E s c fn f = (s, .error e) := by
  unfold callContractFn
  have r1 := getInstance_read h c
  rcases h1 : getInstance E s c with ⟨s1, r⟩
  rw [h1] at r1
  have e1 : s1 = s := read_enf r1 hm
  subst e1
  cases r with
  | error e => exact ⟨e, rfl⟩
  | ok q =>
    obtain ⟨ex, m⟩ := q
    dsimp only
    have r2 := wasmHash_read h ex
    rcases h2 : wasmHash E s1 ex with ⟨s2, r⟩
    rw [h2] at r2
    have e2 : s2 = s1 := read_enf r2 hm
    subst e2
    cases r with
    | error e => exact ⟨e, rfl⟩
    | ok q =>
      cases q with
      | none => exact absurd (.builtin h1 h2) (hn m s2)
      | some y =>
        dsimp only
        have r3 := loadCode_read h y
        rcases h3 : loadCode E s2 y with ⟨s3, r⟩
        rw [h3] at r3
        have e3 : s3 = s2 := read_enf r3 hm
        subst e3
        cases r with
        | error e => exact ⟨e, rfl⟩
        | ok _ => exact absurd (.wasm h1 h2 h3) (hn m s3)

theorem callN_fresh {E : HEnv} {s : Host} {c : Nat} {fn : Name} {internal : Bool} {f : Host → Host × Res RVal}
    (hn : ∀ d ∈ s.ctx, d.cid ≠ some c) (hfn : internal = true ∨ reserved fn = false) :
    callN E s c fn .prohibited internal f = callContractFn E s c fn f := by
  have hdist : reentryDistance c s.ctx = none := by
    unfold reentryDistance
    rw [List.idxOf?_eq_none_iff]
    intro hm
    obtain ⟨d, hd, hi⟩ := List.mem_filterMap.mp hm
    exact hn d hd hi
  unfold callN
  rw [if_neg (by rintro ⟨h1, h2⟩; rcases hfn with h | h; · rw [h1] at h; cases h
                 · rw [h2] at h; cases h)]
  simp only [hdist]

theorem call_fresh {E : HEnv} {s : Host} {c : Nat} {fn : Name} {f : Host → Host × Res RVal} (hn : ∀ d ∈ s.ctx, d.cid ≠ some c)
    (hfn : reserved fn = false) : call E s c fn f = callContractFn E s c fn f := callN_fresh hn (Or.inr hfn)

theorem callContractFn_loaded {E : HEnv} {s s1 : Host} {c : Nat} {fn : Name} {f : Host → Host × Res RVal} {m : FMap Nat Nat}
    (hl : Loads E s c m s1) : callContractFn E s c fn f = withFrame E s1 { cid := some c, fn := fn, inst := m, storage := none } f := by
  unfold callContractFn
  cases hl with
  | builtin h1 h2 => rw [h1]; simp only [h2]
  | wasm h1 h2 h3 => rw [h1]; simp only [h2, h3]

/-- The result of a call that is entered. -/
theorem callN_entered {E : HEnv} {orig : List Acct} {s : Host} (hs : HOk E orig s) (hm : s.st.mode = .enforcing) {c : Nat} {fn : Name}
    {m : FMap Nat Nat} (hc : Enterable E s c m) {internal : Bool} (hi : internal = true ∨ reserved fn = false)
    (hfn : reserved fn = true → fn = checkAuthName ∨ fn = constructorName)
    {f : Host → Host × Res RVal} (hf : ∀ s1, HOk E orig s1 → Good E orig s1 (f s1)) :
    Outcome c (f (inside s c fn m)).1 (f (inside s c fn m)).2 (callN E s c fn .prohibited internal f).2 := by
  obtain ⟨s1, hl⟩ := (loads_iff hs.st hm).mpr hc.callable
  have e1 := loads_enf hs.st hm hl
  subst e1
  rw [callN_fresh hc.notRunning hi, callContractFn_loaded hl]
  have hfo : FrameOk { cid := some c, fn := fn, inst := m, storage := none } c s1.ctx :=
    ⟨rfl, (callOk_new hs.stack hc.notRunning hfn).stack, Or.inr hc.notRunning⟩
  rw [withFrame_result hs hfo hf hc.depth]
  have hp := push_hok hs hfo hc.depth
  have hb := hf _ hp
  obtain ⟨ex, l, hL, -⟩ := hc.callable.code
  have hrd := hc.callable.instance_
  change Outcome c (f (inside s1 c fn m)).1 (f (inside s1 c fn m)).2
    (finish E (f (inside s1 c fn m)).1 (escalate (f (inside s1 c fn m)).2)).2
  change Good E orig (inside s1 c fn m) (f (inside s1 c fn m)) at hb
  have hin : (inside s1 c fn m).st = s1.st := rfl
  have hctx0 : (inside s1 c fn m).ctx = { cid := some c, fn := fn, inst := m, storage := none } :: s1.ctx := rfl
  have hle := hb.le
  obtain ⟨d, ds, hctx, hd, hds⟩ : ∃ d ds, (f (inside s1 c fn m)).1.ctx = d :: ds ∧ d.cid = some c ∧ ∀ x ∈ ds, x.cid ≠ some c := by
    have hsm := hle.ctx.same
    rw [hctx0] at hsm
    generalize (f (inside s1 c fn m)).1.ctx = x at hsm
    cases hsm with
    | @cons _ d _ ds h1 h2 =>
      refine ⟨d, ds, rfl, by rw [h1.1], fun x hx hxc => ?_⟩
      have hh := cids_same h2
      have : c ∈ s1.ctx.filterMap Ctx.cid := by rw [← hh]; exact List.mem_filterMap.mpr ⟨x, hx, hxc⟩
      obtain ⟨y, hy, hyc⟩ := List.mem_filterMap.mp this
      exact hc.notRunning y hy hyc
  have hrd' : CanAccess (f (inside s1 c fn m)).1 (.inst c) .readOnly := by
    intro hm'
    rw [hle.st.fpE (by rw [hin]; exact hm), hin]
    exact hrd hm
  obtain ⟨ex', m', l', hL', -⟩ := hle.st.ledger.inst c ex m l (by rw [hin]; exact hL)
  generalize f (inside s1 c fn m) = b at hb hle hctx hrd' hL'
  obtain ⟨s2, r⟩ := b
  dsimp only at hctx hrd' hL' ⊢
  cases r with
  | error e => exact .failed
  | ok v =>
    have plain : (∀ e, v ≠ .err e) → escalate (.ok v) = .ok v := by
      intro h
      cases v with
      | err e => exact absurd rfl (h e)
      | void => rfl
      | other n => rfl
    by_cases hv : ∃ e, v = .err e
    · obtain ⟨e, rfl⟩ := hv
      cases e with
      | contract n => exact .contractError
      | host t k => exact .hostError
    · have hv' : ∀ e, v ≠ .err e := fun e he => hv ⟨e, he⟩
      rw [plain hv']
      rcases finish_enf hb.ok.st hctx hd hds hrd' hL' v with ⟨h1, h2⟩ | ⟨h1, h2, h3⟩
      · rw [h2]
        refine .returned ⟨rfl, hv', fun d' ds' hq hch => h1 ?_⟩
        rw [hctx] at hq; cases hq; exact hch
      · rw [h3]
        exact .notKept hv' hctx h1 h2

theorem call_entered {E : HEnv} {orig : List Acct} {s : Host} (hs : HOk E orig s) (hm : s.st.mode = .enforcing) {c : Nat} {fn : Name}
    {m : FMap Nat Nat} (hc : CanEnter E s c fn m) {f : Host → Host × Res RVal} (hf : ∀ s1, HOk E orig s1 → Good E orig s1 (f s1)) :
    Outcome c (f (inside s c fn m)).1 (f (inside s c fn m)).2 (call E s c fn f).2 :=
  callN_entered hs hm hc.contract (Or.inr hc.name) (fun h => by rw [hc.name] at h; cases h) hf

/-- A call that succeeds has been entered. -/
theorem callN_ok_iff {E : HEnv} {orig : List Acct} {s : Host} (hs : HOk E orig s) (hm : s.st.mode = .enforcing) {c : Nat} {fn : Name}
    {internal : Bool} (hi : internal = true ∨ reserved fn = false) (hfn : reserved fn = true → fn = checkAuthName ∨ fn = constructorName)
    {f : Host → Host × Res RVal} (hf : ∀ s1, HOk E orig s1 → Good E orig s1 (f s1)) (v : RVal) :
    (callN E s c fn .prohibited internal f).2 = .ok v ↔
      ∃ m, Enterable E s c m ∧ Returns c (f (inside s c fn m)).1 (f (inside s c fn m)).2 v := by
  constructor
  · intro hv
    have hn : ∀ d ∈ s.ctx, d.cid ≠ some c := by
      intro d hd hc
      obtain ⟨i, hi'⟩ := reentry_some ⟨d, hd, hc⟩
      unfold callN at hv
      split at hv
      · cases hv
      · simp only [hi'] at hv; cases hv
    have hv' := hv
    rw [callN_fresh hn hi] at hv'
    have hl : ∃ m s1, Loads E s c m s1 := by
      by_contra hx
      obtain ⟨e, he⟩ := callContractFn_noload (fn := fn) (f := f) hs.st hm (fun m s1 hl => hx ⟨m, s1, hl⟩)
      rw [he] at hv'; cases hv'
    obtain ⟨m, s1, hl⟩ := hl
    have e1 := loads_enf hs.st hm hl
    have hd : s.ctx.length < depthLimit := by
      by_contra hx
      rw [callContractFn_loaded hl, e1] at hv'
      unfold withFrame at hv'
      rw [if_pos (Nat.le_of_not_lt hx)] at hv'
      cases hv'
    have hce : Enterable E s c m := ⟨hn, hd, (loads_iff hs.st hm).mp ⟨s1, hl⟩⟩
    have hout := callN_entered hs hm hce hi hfn hf
    rw [hv] at hout
    refine ⟨m, hce, ?_⟩
    generalize (f (inside s c fn m)).2 = r at hout ⊢
    cases hout with
    | returned hret => exact hret
  · rintro ⟨m, hce, hret⟩
    have hout := callN_entered hs hm hce hi hfn hf
    obtain ⟨h1, h2, h3⟩ := hret
    rw [h1] at hout
    generalize (callN E s c fn .prohibited internal f).2 = q at hout ⊢
    cases hout with
    | returned hret => rw [Except.ok.inj hret.result]
    | contractError => exact absurd rfl (h2 _)
    | hostError => exact absurd rfl (h2 _)
    | notKept _ e1 e2 e3 => exact absurd (h3 _ _ e1 e2) e3

/-! ### transactions -/

theorem withFrame_ok {E : HEnv} {s : Host} {c : Ctx} {f : Host → Host × Res RVal} {v : RVal} (h : (withFrame E s c f).2 = .ok v) :
    (f (pushContext s c).1).2 = .ok v := by
  have h1 : (finish E (f (pushContext s c).1).1 (escalate (f (pushContext s c).1).2)).2 = .ok v := by
    unfold withFrame at h
    split at h
    · cases h
    · dsimp only at h
      split at h
      · cases h
      · split at h
        · cases h
        · exact h
  generalize f (pushContext s c).1 = b at h1
  obtain ⟨s1, r⟩ := b
  have fin : ∀ w, (finish E s1 (.ok w)).2 = .ok v → w = v := by
    intro w hw
    unfold finish at hw
    dsimp only at hw
    split at hw
    · cases hw
    · exact Except.ok.inj hw
    · split at hw
      · cases hw
      · exact Except.ok.inj hw
  dsimp only at h1 ⊢
  cases r with
  | error e => cases h1
  | ok w =>
    cases w with
    | void => rw [fin .void h1]
    | other n => rw [fin (.other n) h1]
    | err e => cases e <;> cases h1

theorem invoke_call {E : HEnv} {orig : List Acct} {st : Store LKey LVal} (hst : StOk E st) (ho : Spec.Fresh orig) {c : Nat} {fn : Name}
    {p : Prog} {v : RVal} (hv : (call E (entered st orig) c fn (run E p)).2 = .ok v) (hne : ∀ e, v ≠ .err e) :
    (invoke E (Host.init st orig) (.invoke c fn p)).2 = .ok v := by
  have hrel := (callN_prohibited (internal := false) (id := c) (fn := fn) (entered_hok hst ho) (fun h => by cases h) (run_good p)).rel
  change List.Forall₂ _ _ (call E (entered st orig) c fn (run E p)).1.ctx at hrel
  unfold invoke withFrame
  rw [if_neg (show ¬ ((Host.init st orig).ctx.length ≥ depthLimit) from (by decide : ¬ (0 ≥ depthLimit)))]
  have hb : hostFnBody E (.invoke c fn p) (pushContext (Host.init st orig) { cid := none, fn := [], inst := [], storage := none }).1 =
      call E (entered st orig) c fn (run E p) := rfl
  dsimp only
  rw [hb]
  generalize call E (entered st orig) c fn (run E p) = b at hv hrel
  obtain ⟨s1, r⟩ := b
  dsimp only at hv hrel ⊢
  subst hv
  have hctx : s1.ctx = [{ cid := none, fn := [], inst := [], storage := none }] := by
    generalize s1.ctx = x at hrel
    cases hrel with
    | cons h1 h2 =>
      cases h2
      rw [h1.2 (by intro hx; cases hx)]
  have hesc : escalate (.ok v) = .ok v := by
    cases v with
    | err e => exact absurd rfl (hne e)
    | void => rfl
    | other n => rfl
  have hfin : finish E s1 (.ok v) = (s1, .ok v) := by
    unfold finish persist
    rw [hctx]
  rw [hesc, hfin]
  simp only [rollbackIf, popContext, hctx, Mgr.pop]
  rfl

end Soroban.Host
