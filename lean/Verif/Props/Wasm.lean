import Verif.Lemmas.Wasm
import Verif.Lemmas.WasmCosts
import Verif.Lemmas.Budget
/-!
C61: a host runs exactly the code built for it. C62: the module cache does not change what runs. C63: the cost inputs stored
with code count what the code contains.
-/
namespace Soroban.Props
open Soroban.Wasm Soroban.Wasm.Spec

variable {W : Type} {X : Ext W} {H : HostVer}

/-! ### C61 -/

/-- C61: the names in this host's table of functions are short and no two functions share them. -/
theorem C61_table : TableOk thisHost.fns := by
  refine ⟨?_, ?_⟩
  · show List.Pairwise _ hostFunctions
    decide +kernel
  · show ∀ f ∈ hostFunctions, _
    decide +kernel

/-- C61: a VM is started from code exactly when the host accepts the code, and it runs the decoded module. -/
theorem C61_accepts (hT : TableOk H.fns) (ledger contract : Nat) (w : W) (vm : Vm) :
    (newVm X H ledger contract w).res = .ok vm ↔
      ∃ m v, Admitted X H ledger w m v ∧ vm = ⟨contract, ⟨m, v.protocol, .v0 (X.len w)⟩⟩ := newWithCosts_ok hT

/-- C61: this host runs ledgers of protocol 28 only, and code that declares version 28 or an earlier one, not a prerelease. -/
theorem C61_this_host {ledger contract : Nat} {w : W} {vm : Vm} (h : (newVm X thisHost ledger contract w).res = .ok vm) :
    ledger = 28 ∧ ∃ m v, X.parse w = .ok m ∧ Declares m v ∧ v.protocol ≤ 28 ∧ v.pre = 0 := by
  obtain ⟨m, v, ha, -⟩ := (C61_accepts C61_table ledger contract w vm).mp h
  have h1 : ledger = 28 := ha.supported
  refine ⟨h1, m, v, ha.parses, ha.declares, ?_⟩
  have hr := ha.runs
  unfold Runs at hr
  subst h1
  exact ⟨hr.1, by rw [hr.2]; exact ite_self 0⟩

/-- C61: code can be uploaded exactly when the host accepts it, it is not too long and its contents can be counted; the counts
are stored with it. -/
theorem C61_upload (hT : TableOk H.fns) (ledger : Nat) (w : W) (ci : CostInputs) :
    (uploadCheck X H ledger w).res = .ok ci ↔
      X.len w ≤ u32Max ∧ (∃ m v, Admitted X H ledger w m v) ∧ extractCosts X w = .ok ci := by
  unfold uploadCheck
  by_cases hl : X.len w > u32Max
  · rw [if_pos hl]
    exact ⟨(fun h => nomatch h), fun h => absurd h.1 (Nat.not_le.mpr hl)⟩
  · rw [if_neg hl, bind_res]
    constructor
    · intro h
      obtain ⟨vm, h1, h⟩ := bind_ok.mp h
      rw [bind_res] at h
      obtain ⟨m, v, ha, _⟩ := (C61_accepts hT ledger _ w vm).mp h1
      exact ⟨Nat.not_lt.mp hl, ⟨m, v, ha⟩, h⟩
    · rintro ⟨_, ⟨m, v, ha⟩, h⟩
      refine bind_ok.mpr ⟨_, (C61_accepts hT ledger _ w _).mpr ⟨m, v, ha, rfl⟩, ?_⟩
      rw [bind_res]
      exact h

/-- C61: a function that accepted code imports is never called outside the protocols it exists in: the guard at the start of
the function passes. -/
theorem C61_guard {ledger : Nat} {w : W} {m : Module} {v : Version} (hT : TableOk H.fns) (h : Admitted X H ledger w m v)
    {i : Import} (hi : i ∈ m.imports) {f : HostFn} (hf : f ∈ H.fns) (hn : f.modName = i.modName ∧ f.name = i.name) :
    dispatchGuard ledger f = .ok () := by
  obtain ⟨g, hg, h1, _, h2⟩ := h.imports i hi
  have e : f = g := by
    by_contra hne
    exact pairwise_ne hT.1 hf hg hne ⟨hn.1.trans h1.1.symm, hn.2.trans h1.2.1.symm⟩
  subst e
  obtain ⟨a, b, n, lo, hi⟩ := f
  obtain ⟨h3, h4⟩ := h2
  dsimp only at h3 h4
  unfold dispatchGuard
  cases lo with
  | none =>
    cases hi with
    | none => rfl
    | some hi => exact if_neg (Nat.not_lt.mpr (h4 hi rfl))
  | some lo =>
    dsimp only
    rw [if_neg (Nat.not_lt.mpr (h3 lo rfl))]
    cases hi with
    | none => rfl
    | some hi => exact if_neg (Nat.not_lt.mpr (h4 hi rfl))

/-- C61: code accepted by a released host is accepted by every later released host that still has the functions it imports,
with their types, in its protocol. -/
theorem C61_keeps_working {H' : HostVer} {w : W} {m : Module} {v : Version} (h : Admitted X H H.env.protocol w m v)
    (hp : H.env.pre = 0) (hp' : H'.env.pre = 0) (hle : H.env.protocol ≤ H'.env.protocol)
    (hk : ∀ i ∈ m.imports, ∀ f ∈ H.fns, ImportOf f i →
      ∃ f' ∈ H'.fns, ImportOf f' i ∧ AvailableIn f' v.protocol ∧ AvailableIn f' H'.env.protocol) :
    Admitted X H' H'.env.protocol w m v := by
  refine ⟨h.valid, h.parses, h.fewArgs, h.declares, rfl, ?_, ?_, h.noStart, h.allocates⟩
  · obtain ⟨h1, h2⟩ := h.runs
    refine ⟨Nat.le_trans h1 hle, ?_⟩
    rw [hp', ite_self]
    rw [hp, ite_self] at h2
    exact h2
  · intro i hi
    obtain ⟨f, hf, h1, _⟩ := h.imports i hi
    exact hk i hi f hf h1

/-! ### C62 -/

/-- What a cached module is. -/
theorem reach_cache (hT : TableOk H.fns) {s : Cache × List (Job W × CostInputs)} (h : Reach X H s) :
    s.1.linker = H.fns.reverse ∧
    (∀ j ∈ s.2, extractCosts X j.1.code = .ok j.2) ∧
    ∀ k p, s.1.modules k = some p → ∃ w ledger m v ci, X.sha w = k ∧ Parses X H.env ledger w m v ∧
      extractCosts X w = .ok ci ∧ p = ⟨m, v.protocol, .v1 ci⟩ := by
  induction h with
  | new hn =>
    unfold Cache.new at hn
    rw [maximalLinker_ok hT] at hn
    injection hn with hn
    subst hn
    exact ⟨rfl, (fun j hj => nomatch hj), fun k p hk => nomatch hk⟩
  | step _ hs ih =>
    cases hs with
    | look j ci h1 _ =>
      refine ⟨ih.1, fun j' hj => ?_, ih.2.2⟩
      rcases List.mem_cons.mp hj with rfl | hj
      · exact h1
      · exact ih.2.1 j' hj
    | @store c l r j ci =>
      have hx := ih.2.1 (j, ci) (List.mem_append_right _ (List.mem_cons_self ..))
      have hr : ∀ j' ∈ l ++ r, extractCosts X j'.1.code = .ok j'.2 := fun j' hj =>
        ih.2.1 j' (by
          rcases List.mem_append.mp hj with hj | hj
          · exact List.mem_append_left _ hj
          · exact List.mem_append_right _ (List.mem_cons_of_mem _ hj))
      unfold Cache.finishAdd
      cases hp : (parsedNew X H.env j.ledger j.code (.v1 ci)).res with
      | error e => exact ⟨ih.1, hr, ih.2.2⟩
      | ok p =>
        refine ⟨ih.1, hr, fun k q hq => ?_⟩
        dsimp only at hq
        by_cases hk : k = X.sha j.code
        · rw [if_pos hk] at hq
          injection hq with hq
          subst hq
          obtain ⟨m, v, h1, h2⟩ := parsedNew_ok.mp hp
          exact ⟨j.code, j.ledger, m, v, ci, hk.symm, h1, hx, h2⟩
        · rw [if_neg hk] at hq
          exact ih.2.2 k q hq
    | remove hash =>
      refine ⟨ih.1, ih.2.1, fun k q hq => ?_⟩
      unfold Cache.remove at hq
      dsimp only at hq
      by_cases hk : k = hash
      · rw [if_pos hk] at hq; cases hq
      · rw [if_neg hk] at hq; exact ih.2.2 k q hq
    | clear => exact ⟨ih.1, ih.2.1, fun k q hq => nomatch hq⟩

/-- Code that parses for one protocol of a released host parses for the host's own. -/
theorem parses_later {env : Version} {ledger : Nat} {w : W} {m : Module} {v : Version} (h : Parses X env ledger w m v)
    (hp : env.pre = 0) : Parses X env env.protocol w m v := by
  obtain ⟨h1, h2, h3, h4, h5, h6, h7⟩ := h
  rw [hp, ite_self] at h7
  refine ⟨h1, h2, h3, h4, Nat.le_refl _, Nat.le_trans h6 h5, ?_⟩
  rw [hp, ite_self]
  exact h7

theorem fromParsed_same {ledger contract : Nat} {m : Module} {p : Nat} {c c' : Costs} {l : Linker} :
    SameOutcome (fromParsed X H ledger contract ⟨m, p, c⟩ l).res (fromParsed X H ledger contract ⟨m, p, c'⟩ l).res := by
  rw [fromParsed_res, fromParsed_res, instantiateWasmi_res, instantiateWasmi_res]
  cases checkLedger H ledger with
  | error e => exact rfl
  | ok _ =>
    show SameOutcome (_ >>= _) (_ >>= _)
    dsimp only
    generalize (do
      checkFns p ledger (importSymbols m) H.fns
      resolve l m.imports
      X.alloc m
      if m.start then .error (.host .wasmVm .invalidAction) else .ok () : Res Unit) = r
    cases r with
    | error e => exact rfl
    | ok _ => exact ⟨rfl, rfl, rfl⟩

theorem same_refl (r : Res Vm) : SameOutcome r r := by
  cases r with
  | ok v => exact ⟨rfl, rfl, rfl⟩
  | error e => exact rfl

/-- The path without a cache, outside recording mode. -/
theorem direct_res {ledger contract hash : Nat} {code : Nat → Res (Option (W × Option CostInputs))} (hT : TableOk H.fns)
    {w : W} {ci : Option CostInputs} (hc : code hash = .ok (some (w, ci))) :
    ∃ c, retrieve X code hash = .ok (w, c) ∧
    (instantiateVm X H ledger none none code contract hash).res =
      (parsedNew X H.env ledger w c).res >>= fun p => (fromParsed X H ledger contract p H.fns.reverse).res := by
  have hr : ∃ c, retrieve X code hash = .ok (w, c) := by
    unfold retrieve
    rw [hc]
    cases ci with
    | none => exact ⟨_, rfl⟩
    | some ci => exact ⟨_, rfl⟩
  obtain ⟨c, hr⟩ := hr
  refine ⟨c, hr, ?_⟩
  unfold instantiateVm
  dsimp only
  rw [bind_res]
  simp only [M.lift, hr]
  exact newWithCosts_res hT

/-- C62: a contract call with a shared module cache, in whatever state the threads using the cache have brought it to, starts
the same code as without a cache, or fails in the same way. -/
theorem C62_same_code (hT : TableOk H.fns) (hpre : H.env.pre = 0) {c : Cache} {js : List (Job W × CostInputs)}
    (hc : Reach X H (c, js)) {code : Nat → Res (Option (W × Option CostInputs))} (ha : ContentAddressed X code)
    (contract hash : Nat) :
    SameOutcome (instantiateVm X H H.env.protocol (some c) none code contract hash).res
      (instantiateVm X H H.env.protocol none none code contract hash).res := by
  obtain ⟨hl, _, hm⟩ := reach_cache hT hc
  cases hcode : code hash with
  | error e =>
    unfold instantiateVm retrieve
    simp only [bind_res, M.lift, hcode]
    exact rfl
  | ok o =>
    cases o with
    | none =>
      unfold instantiateVm
      simp only [bind_res, M.lift, hcode, Bind.bind, Except.bind]
      exact same_refl _
    | some wc =>
      obtain ⟨w, ci⟩ := wc
      cases hk : c.modules hash with
      | none =>
        unfold instantiateVm
        simp only [bind_res, M.lift, hcode, Bind.bind, Except.bind, hk]
        exact same_refl _
      | some p =>
        obtain ⟨w', ledger, m, v, ci', h1, h2, h3, rfl⟩ := hm hash p hk
        obtain rfl : w' = w := ha.2 _ _ (h1.trans (ha.1 hash w ci hcode).symm)
        obtain ⟨cc, _, hd⟩ := direct_res (X := X) (H := H) (ledger := H.env.protocol) (contract := contract) hT hcode
        rw [hd, (parsedNew_ok (c := cc)).mpr ⟨m, v, parses_later h2 hpre, rfl⟩]
        have he : (instantiateVm X H H.env.protocol (some c) none code contract hash).res =
            (fromParsed X H H.env.protocol contract ⟨m, v.protocol, .v1 ci'⟩ H.fns.reverse).res := by
          unfold instantiateVm
          simp only [bind_res, M.lift, hcode]
          simp only [Bind.bind, Except.bind, hk]
          rw [← hl]
        rw [he]
        exact fromParsed_same

/-- The charges of starting a parsed module do not depend on the linker. -/
theorem fromParsed_charges_eq {ledger contract : Nat} {p : Parsed} {l : Linker} (hl : checkLedger H ledger = .ok ()) :
    (fromParsed X H ledger contract p l).charges = chargeInst p.costs ++ [.symbols (importSymbols p.module).length] := by
  unfold fromParsed
  rw [hl, bind_charges_ok (show (M.lift (.ok ()) : M Unit).res = .ok () from rfl)]
  unfold instantiateWasmi checkImports
  simp only [M.bind, M.charge, M.lift, M.ok]
  cases checkFns p.proto ledger (importSymbols p.module) H.fns with
  | error e => rfl
  | ok _ =>
    dsimp only
    cases resolve l p.module.imports with
    | error e => simp
    | ok _ =>
      dsimp only
      cases X.alloc p.module with
      | error e => simp
      | ok _ =>
        dsimp only
        cases p.module.start <;> simp

/-- The charges of starting a parsed module do not depend on the linker. -/
theorem fromParsed_charges {ledger contract : Nat} {p : Parsed} {l l' : Linker} :
    (fromParsed X H ledger contract p l).charges = (fromParsed X H ledger contract p l').charges := by
  cases hl : checkLedger H ledger with
  | error e =>
    unfold fromParsed
    rw [hl]
    rfl
  | ok u => rw [fromParsed_charges_eq hl, fromParsed_charges_eq hl]

/-- C62: a call that finds its code in the cache is charged what it would be charged without the cache, except for parsing the
module and listing its imports. -/
theorem C62_hit_charges (hT : TableOk H.fns) (hpre : H.env.pre = 0) {c : Cache} {js : List (Job W × CostInputs)}
    (hc : Reach X H (c, js)) {code : Nat → Res (Option (W × Option CostInputs))} (ha : ContentAddressed X code)
    (contract hash : Nat) {w : W} {ci : CostInputs} (hcode : code hash = .ok (some (w, some ci)))
    (hx : extractCosts X w = .ok ci) {p : Parsed} (hp : c.modules hash = some p) :
    (instantiateVm X H H.env.protocol none none code contract hash).charges =
      Wasm.Spec.parsing ci ++ [.symbols (importSymbols p.module).length] ++
        (instantiateVm X H H.env.protocol (some c) none code contract hash).charges := by
  obtain ⟨hl, _, hm⟩ := reach_cache hT hc
  obtain ⟨w', ledger, m, v, ci', h1, h2, h3, rfl⟩ := hm hash p hp
  obtain rfl : w' = w := ha.2 _ _ (h1.trans (ha.1 hash w _ hcode).symm)
  rw [hx] at h3
  injection h3 with h3
  subst h3
  have hr : retrieve X code hash = .ok (w', .v1 ci) := by
    unfold retrieve
    rw [hcode]
    rfl
  have hpn := (parsedNew_ok (c := .v1 ci)).mpr ⟨m, v, parses_later h2 hpre, rfl⟩
  have e1 : (instantiateVm X H H.env.protocol none none code contract hash).charges =
      (newWithCosts X H H.env.protocol contract w' (.v1 ci)).charges := by
    unfold instantiateVm
    simp only [M.bind, M.lift, hr]
    exact List.nil_append _
  have e2 : (instantiateVm X H H.env.protocol (some c) none code contract hash).charges =
      (fromParsed X H H.env.protocol contract ⟨m, v.protocol, .v1 ci⟩ c.linker).charges := by
    unfold instantiateVm
    simp only [M.bind, M.lift, hcode, hp]
    exact List.nil_append _
  have e3 : (parsedNew X H.env H.env.protocol w' (.v1 ci)).charges = Wasm.Spec.parsing ci := by
    show _ = chargeParsing (.v1 ci)
    unfold parsedNew
    simp only [M.bind, M.charge, M.lift]
    cases parseWasm X H.env H.env.protocol w' with
    | error e => simp
    | ok q => simp [M.ok]
  have e4 : (minimalLinker H m).charges = [.symbols (importSymbols m).length] := by
    unfold minimalLinker
    simp only [M.bind, M.charge, M.lift]
    exact List.append_nil _
  rw [e1, e2]
  unfold newWithCosts
  rw [bind_charges_ok hpn, bind_charges_ok (minimalLinker_ok hT m), e3, e4, fromParsed_charges (l' := c.linker),
    List.append_assoc]

/-- C62: a call that finds its code in the cache is charged for starting each part of it and for listing its imports. -/
theorem C62_start_charges (hT : TableOk H.fns) {c : Cache} {js : List (Job W × CostInputs)}
    (hc : Reach X H (c, js)) {code : Nat → Res (Option (W × Option CostInputs))} (ha : ContentAddressed X code)
    (contract hash : Nat) {w : W} {ci : CostInputs} (hcode : code hash = .ok (some (w, some ci)))
    (hx : extractCosts X w = .ok ci) {p : Parsed} (hp : c.modules hash = some p) :
    (instantiateVm X H H.env.protocol (some c) none code contract hash).charges =
      Wasm.Spec.starting ci ++ [.symbols (importSymbols p.module).length] := by
  obtain ⟨_, _, hm⟩ := reach_cache hT hc
  obtain ⟨w', ledger, m, v, ci', h1, h2, h3, rfl⟩ := hm hash p hp
  obtain rfl : w' = w := ha.2 _ _ (h1.trans (ha.1 hash w _ hcode).symm)
  rw [hx] at h3
  injection h3 with h3
  subst h3
  have e2 : (instantiateVm X H H.env.protocol (some c) none code contract hash).charges =
      (fromParsed X H H.env.protocol contract ⟨m, v.protocol, .v1 ci⟩ c.linker).charges := by
    unfold instantiateVm
    simp only [M.bind, M.lift, hcode, hp]
    exact List.nil_append _
  rw [e2, fromParsed_charges_eq (by unfold checkLedger; rw [if_neg (by omega), if_neg (by omega)])]
  rfl

/-- C62: simulating a call of code that is live, without a cache, starts the same code and makes the same charges as the call
will when it finds the code in the cache. -/
theorem C62_simulated_hit (hT : TableOk H.fns) (hpre : H.env.pre = 0) {c : Cache} {js : List (Job W × CostInputs)}
    (hc : Reach X H (c, js)) {code : Nat → Res (Option (W × Option CostInputs))} (ha : ContentAddressed X code)
    (contract hash : Nat) {p : Parsed} (hp : c.modules hash = some p) {live : Nat → Bool} (hlive : live hash = true)
    {w : W} {ci : Option CostInputs} (hcode : code hash = .ok (some (w, ci))) :
    instantiateVm X H H.env.protocol none (some live) code contract hash =
      instantiateVm X H H.env.protocol (some c) none code contract hash := by
  obtain ⟨hl, _, hm⟩ := reach_cache hT hc
  obtain ⟨w', ledger, m, v, ci', h1, h2, h3, rfl⟩ := hm hash p hp
  obtain rfl : w' = w := ha.2 _ _ (h1.trans (ha.1 hash w ci hcode).symm)
  have hr : ∃ cc, retrieve X code hash = .ok (w', cc) := by
    unfold retrieve
    rw [hcode]
    cases ci with
    | none => exact ⟨_, rfl⟩
    | some ci => exact ⟨_, rfl⟩
  obtain ⟨cc, hr⟩ := hr
  have hpn := (parsedNew_ok (c := .v1 ci')).mpr ⟨m, v, parses_later h2 hpre, rfl⟩
  have hml := minimalLinker_ok hT m
  have e2 : instantiateVm X H H.env.protocol (some c) none code contract hash =
      fromParsed X H H.env.protocol contract ⟨m, v.protocol, .v1 ci'⟩ H.fns.reverse := by
    unfold instantiateVm
    simp only [M.bind, M.lift, hcode, hp]
    rw [← hl]
    exact congrArg (M.mk · _) (List.nil_append _)
  have e1 : instantiateVm X H H.env.protocol none (some live) code contract hash =
      fromParsed X H H.env.protocol contract ⟨m, v.protocol, .v1 ci'⟩ (wanted H m) := by
    unfold instantiateVm
    simp only [hlive, if_true, M.bind, M.lift, M.shadow, hr, h3, hpn, hml, M.ok]
    exact congrArg (M.mk · _) (List.nil_append _)
  rw [e1, e2]
  have a := fromParsed_charges (X := X) (H := H) (ledger := H.env.protocol) (contract := contract)
    (p := ⟨m, v.protocol, .v1 ci'⟩) (l := wanted H m) (l' := H.fns.reverse)
  have b := fromParsed_linkers (X := X) hT (ledger := H.env.protocol) (contract := contract) (p := ⟨m, v.protocol, .v1 ci'⟩)
  revert a b
  dsimp only
  generalize fromParsed X H H.env.protocol contract ⟨m, v.protocol, .v1 ci'⟩ (wanted H m) = x
  generalize fromParsed X H H.env.protocol contract ⟨m, v.protocol, .v1 ci'⟩ H.fns.reverse = y
  obtain ⟨x1, x2⟩ := x
  obtain ⟨y1, y2⟩ := y
  rintro a b
  dsimp only at a b
  rw [a, b]

/-- C62: adding code in one go is one of the things threads do to the cache. -/
theorem C62_add {c : Cache} {js : List (Job W × CostInputs)} (hc : Reach X H (c, js)) (ledger : Nat) (w : W) :
    Reach X H ((c.addSimple X H ledger w).1, js) := by
  unfold Cache.addSimple
  cases hx : extractCosts X w with
  | error e => exact hc
  | ok ci =>
    dsimp only
    unfold Cache.add
    cases hs : c.startAdd (X.sha w) with
    | false => exact hc
    | true => exact .step (.step hc (.look ⟨ledger, w⟩ ci hx (Option.isNone_iff_eq_none.mp hs))) (.store (l := []) ⟨ledger, w⟩ ci)

/-- C61: once code is uploaded, contracts with this code can be run: without a cache, with one in any state, and in a
simulation, and the code can be added to a cache. -/
theorem C61_upload_then_run (hT : TableOk H.fns) (hpre : H.env.pre = 0) {w : W} {ci : CostInputs}
    (hu : (uploadCheck X H H.env.protocol w).res = .ok ci) {code : Nat → Res (Option (W × Option CostInputs))}
    (ha : ContentAddressed X code) (hcode : code (X.sha w) = .ok (some (w, some ci))) (contract : Nat) {m : Module}
    (hm : X.parse w = .ok m) :
    (∃ vm, (instantiateVm X H H.env.protocol none none code contract (X.sha w)).res = .ok vm ∧ vm.module.module = m) ∧
    (∀ c js, Reach X H (c, js) →
      (∃ vm, (instantiateVm X H H.env.protocol (some c) none code contract (X.sha w)).res = .ok vm ∧ vm.module.module = m) ∧
      (c.addSimple X H H.env.protocol w).2 = .ok ()) ∧
    ∀ live, ∃ vm, (instantiateVm X H H.env.protocol none (some live) code contract (X.sha w)).res = .ok vm ∧
      vm.module.module = m := by
  obtain ⟨_, ⟨m', v, had⟩, hx⟩ := (C61_upload hT _ w ci).mp hu
  obtain rfl : m' = m := by
    have h := had.parses
    rw [hm] at h
    injection h with h
    exact h.symm
  have hn := (newWithCosts_ok (contract := contract) (c := .v1 ci) hT).mpr ⟨m', v, had, rfl⟩
  have hr : retrieve X code (X.sha w) = .ok (w, .v1 ci) := by
    unfold retrieve
    rw [hcode]
    rfl
  have hd : (instantiateVm X H H.env.protocol none none code contract (X.sha w)).res =
      .ok ⟨contract, ⟨m', v.protocol, .v1 ci⟩⟩ := by
    unfold instantiateVm
    simp only [bind_res, M.lift, hr]
    exact hn
  have hn' := hn
  rw [newWithCosts_res hT] at hn'
  obtain ⟨p, hp, hf⟩ := bind_ok.mp hn'
  refine ⟨⟨_, hd, rfl⟩, fun c js hc => ⟨?_, ?_⟩, fun live => ?_⟩
  · have h := C62_same_code hT hpre hc ha contract (X.sha w)
    rw [hd] at h
    cases hi : (instantiateVm X H H.env.protocol (some c) none code contract (X.sha w)).res with
    | error e => rw [hi] at h; exact h.elim
    | ok vm => rw [hi] at h; exact ⟨vm, rfl, h.2.1⟩
  · unfold Cache.addSimple
    rw [hx]
    dsimp only
    unfold Cache.add Cache.finishAdd
    rw [hp]
    cases c.startAdd (X.sha w) <;> rfl
  · cases hl : live (X.sha w) with
    | false =>
      refine ⟨⟨contract, ⟨m', v.protocol, .v1 ci⟩⟩, ?_, rfl⟩
      rw [← hd]
      unfold instantiateVm
      simp only [hl, Bool.false_eq_true, if_false]
    | true =>
      refine ⟨⟨contract, ⟨m', v.protocol, .v1 ci⟩⟩, ?_, rfl⟩
      obtain ⟨m2, v2, _, rfl⟩ := parsedNew_ok.mp hp
      rw [← fromParsed_linkers hT] at hf
      unfold instantiateVm
      simp only [hl, if_true, bind_res, M.lift, M.shadow, hr, hx, hp, minimalLinker_ok hT, Bind.bind, Except.bind, M.ok]
      exact hf

/-! ### C63 -/

theorem sections_ok (ps : List (Option Payload)) : ∀ (t a : Acc),
    forItems addSection ps (capped t) = .ok a ↔
      ∃ qs : List Payload, ps = qs.map some ∧ (∀ q ∈ qs, Allowed q) ∧ a = capped (plus t (sumOf contents qs)) := by
  induction ps with
  | nil =>
    intro t a
    constructor
    · intro h
      injection h with h
      exact ⟨[], rfl, (fun q hq => nomatch hq), by rw [← h]; show _ = capped (plus t nothing); rw [plus_nothing]⟩
    · rintro ⟨qs, hq, _, rfl⟩
      cases qs with
      | nil => show _ = Except.ok (capped (plus t nothing)); rw [plus_nothing]; rfl
      | cons q qs => cases hq
  | cons p ps ih =>
    intro t a
    rw [forItems]
    constructor
    · intro h
      obtain ⟨x, h1, h⟩ := bind_ok.mp h
      cases p with
      | none => cases h1
      | some q =>
        injection h1 with h1
        subst h1
        obtain ⟨a1, h2, h⟩ := bind_ok.mp h
        obtain ⟨h3, rfl⟩ := (addSection_ok t q a1).mp h2
        obtain ⟨qs, rfl, h4, rfl⟩ := (ih _ _).mp h
        refine ⟨q :: qs, rfl, fun r hr => ?_, ?_⟩
        · rcases List.mem_cons.mp hr with rfl | hr
          · exact h3
          · exact h4 r hr
        · rw [plus_assoc]; rfl
    · rintro ⟨qs, hq, h1, rfl⟩
      cases qs with
      | nil => cases hq
      | cons q qs =>
        simp only [List.map_cons, List.cons.injEq] at hq
        obtain ⟨rfl, rfl⟩ := hq
        refine bind_ok.mpr ⟨q, rfl, bind_ok.mpr ⟨_, (addSection_ok t q _).mpr ⟨h1 q (List.mem_cons_self ..), rfl⟩, ?_⟩⟩
        refine (ih _ _).mpr ⟨qs, rfl, fun r hr => h1 r (List.mem_cons_of_mem _ hr), ?_⟩
        rw [plus_assoc]; rfl

/-- C63: the cost inputs of code can be determined exactly when it is a core module whose sections all decode and are allowed,
with no more data than initial memory and no more elements than table entries; they are then what the sections contain, in
counters that stop at their maximum. -/
theorem C63_costs (w : W) (ci : CostInputs) : extractCosts X w = .ok ci ↔
    X.isCore w = true ∧ ∃ ps : List Payload, X.payloads w = ps.map some ∧ (∀ p ∈ ps, Allowed p) ∧
      (capped (sumOf contents ps)).costs.nDataSegmentBytes ≤ (capped (sumOf contents ps)).memory ∧
      (capped (sumOf contents ps)).elements ≤ (capped (sumOf contents ps)).costs.nTableEntries ∧
      ci = (capped (sumOf contents ps)).costs := by
  unfold extractCosts
  have hz : Acc.zero = capped nothing := rfl
  cases X.isCore w with
  | false => exact ⟨(fun h => nomatch h), fun h => nomatch h.1⟩
  | true =>
    rw [if_pos rfl, hz]
    constructor
    · intro h
      obtain ⟨a, h1, h⟩ := bind_ok.mp h
      obtain ⟨ps, h2, h3, rfl⟩ := (sections_ok _ _ _).mp h1
      rw [nothing_plus] at h
      split at h
      · cases h
      · rename_i h4
        split at h
        · cases h
        · rename_i h5
          injection h with h
          exact ⟨rfl, ps, h2, h3, Nat.not_lt.mp h4, Nat.not_lt.mp h5, h.symm⟩
    · rintro ⟨_, ps, h2, h3, h4, h5, rfl⟩
      refine bind_ok.mpr ⟨_, (sections_ok _ _ _).mpr ⟨ps, h2, h3, rfl⟩, ?_⟩
      rw [nothing_plus, if_neg (Nat.not_lt.mpr h4), if_neg (Nat.not_lt.mpr h5)]

theorem charges_memory {ix : CostTy → Nat} (l : List (CostTy × Nat)) : ∀ (b : Budget.B), b.inShadow = false →
    b.mem.limit < u64Max → (chargeAll ix b (l.map fun x => .cost x.1 (some x.2))).2 = .ok () →
    b.mem.net ≤ b.mem.limit →
    ∃ s, (chargeAll ix b (l.map fun x => .cost x.1 (some x.2))).1.mem.net = b.mem.net + s ∧ b.mem.net + s ≤ b.mem.limit ∧
      ∀ (d : Budget.Dim) (r : Nat), d.models = b.mem.models → r ≤ b.mem.net → addMemoryCosts ix d r l = .ok (r + s) := by
  induction l with
  | nil => exact fun b _ _ _ hle => ⟨0, rfl, hle, fun d r _ _ => rfl⟩
  | cons x l ih =>
    obtain ⟨ty, n⟩ := x
    intro b hs hlim h hle
    rw [List.map_cons, chargeAll] at h
    rw [List.map_cons, chargeAll]
    rcases hc : b.charge (ix ty) 1 (some n) with ⟨b1, e | u⟩
    · rw [hc] at h; cases h
    · rw [hc] at h
      dsimp only at h ⊢
      obtain ⟨b', hb, hs', _, _, _, _, h6⟩ := Budget.charge_real_cases b (ix ty) 1 (some n) hs
      rw [hc] at hb h6
      dsimp only at hb
      subst b'
      obtain ⟨_, mm, _, hmm, _, hbm, _, hml⟩ := h6 rfl
      have h1 : b1.mem.net = min u64Max (b.mem.net + mm.evaluate 1 (some n)) := by rw [hbm]; rfl
      have h2 : b1.mem.limit = b.mem.limit := by rw [hbm]; rfl
      have h3 : b1.mem.models = b.mem.models := by rw [hbm]; rfl
      have h4 : b1.mem.net = b.mem.net + mm.evaluate 1 (some n) := by
        revert hlim h1
        generalize u64Max = U
        intro hlim h1
        omega
      obtain ⟨s, e1, e2, e3⟩ := ih b1 hs' (by rw [h2]; exact hlim) h (by rw [h2]; exact hml)
      refine ⟨mm.evaluate 1 (some n) + s, by rw [e1, h4]; omega, by rw [h2] at e2; omega, fun d r hd hr => ?_⟩
      have hg : getMemoryCost d (ix ty) (some n) = .ok (mm.evaluate 1 (some n)) := by
        unfold getMemoryCost Budget.Dim.costModel
        rw [hd, hmm]
        rfl
      rw [addMemoryCosts, hg]
      have ha : satAddU64 r (mm.evaluate 1 (some n)) = r + mm.evaluate 1 (some n) := by
        unfold satAddU64
        refine if_neg ?_
        revert hlim
        generalize u64Max = U
        intro hlim
        rw [h2] at e2
        omega
      show addMemoryCosts ix d (satAddU64 _ _) l = _
      rw [ha, e3 d _ (hd.trans h3.symm) (by omega)]
      congr 1
      omega

/-- C63: the memory size of code that its rent is computed from is the memory that parsing the code takes from the budget, and
the size of the code entry for rent is the sum of this and the size of its XDR (in 32 bits, stopping at the maximum). -/
theorem C63_rent_size {ix : CostTy → Nat} {b b' : Budget.B} (hs : b.inShadow = false) (hlim : b.mem.limit < u64Max)
    (hle : b.mem.net ≤ b.mem.limit) (c : Costs) (h : chargeAll ix b (chargeParsing c) = (b', .ok ())) (xdrSize : Nat) :
    moduleMemoryCost ix b.mem c = .ok (b'.mem.net - b.mem.net) ∧
    entrySizeForRent ix b.mem (some c) xdrSize = .ok (min (xdrSize + (b'.mem.net - b.mem.net)) u32Max) ∧
    entrySizeForRent ix b.mem none xdrSize = .ok (min xdrSize u32Max) := by
  have h1 : moduleMemoryCost ix b.mem c = .ok (b'.mem.net - b.mem.net) := by
    cases c with
    | v0 n =>
      obtain ⟨s, e1, _, e3⟩ := charges_memory [(.vmInstantiation, n)] b hs hlim
        (show (chargeAll ix b (chargeParsing (.v0 n))).2 = .ok () by rw [h]) hle
      have e1' : b'.mem.net = b.mem.net + s := by rw [← e1]; exact congrArg (fun x => x.1.mem.net) h.symm
      have e3 := e3 b.mem 0 rfl (Nat.zero_le _)
      rw [addMemoryCosts] at e3
      obtain ⟨m, e4, e5⟩ := bind_ok.mp e3
      have e5 : satAddU64 0 m = 0 + s := by rw [addMemoryCosts] at e5; injection e5
      have hle' : 0 + s < u64Max := by omega
      have : m = s := by
        revert e5 hle'
        unfold satAddU64
        generalize u64Max = U
        intro e5 hlt
        split at e5 <;> omega
      show getMemoryCost _ _ _ = _
      rw [e4, this, e1', Nat.add_sub_cancel_left]
    | v1 ci =>
      have hch : chargeParsing (.v1 ci) = List.map (fun x : CostTy × Nat => Charge.cost x.1 (some x.2))
          [(.parseInstructions, ci.nInstructions), (.parseFunctions, ci.nFunctions), (.parseGlobals, ci.nGlobals),
           (.parseTableEntries, ci.nTableEntries), (.parseTypes, ci.nTypes), (.parseDataSegments, ci.nDataSegments),
           (.parseElemSegments, ci.nElemSegments), (.parseImports, ci.nImports), (.parseExports, ci.nExports),
           (.parseDataSegmentBytes, ci.nDataSegmentBytes)] := rfl
      rw [hch] at h
      obtain ⟨s, e1, _, e3⟩ := charges_memory _ b hs hlim (by rw [h]) hle
      rw [h] at e1
      rw [moduleMemoryCost, e3 b.mem 0 rfl (Nat.zero_le _)]
      dsimp only at e1
      rw [e1]
      congr 1
      omega
  refine ⟨h1, ?_, ?_⟩
  · unfold entrySizeForRent
    simp only [h1, Bind.bind, Except.bind]
    unfold satAdd
    congr 1
    generalize u32Max = M
    omega
  · unfold entrySizeForRent
    refine bind_ok.mpr ⟨_, rfl, ?_⟩
    unfold satAdd
    rfl

/-! ### A concrete case -/

/-- A module built for protocol 27 that imports `obj_cmp` and exports a function of two arguments. -/
def exampleModule : Module where
  imports := [⟨[120], [48], .func [.i64, .i64] [.i64]⟩]
  exports := [([102], .func [.i64, .i64] [.i64])]
  customs := [(metaSection, [0, 0, 0, 0, 0, 0, 0, 27, 0, 0, 0, 0])]
  start := false
  body := 7

/-- Codes are numbers; code 5 is the module above, with two functions, a page of memory and two data segments, and nothing
else is Wasm. -/
def exampleExt : Ext Nat where
  len := fun _ => 300
  sha := fun w => w + 1000
  valid := fun w => w == 5
  parse := fun w => if w = 5 then .ok exampleModule else .error (.host .wasmVm .invalidInput)
  isCore := fun w => w == 5
  payloads := fun _ => [some .ignored, some (.types 3), some (.imports 1), some (.functions 2), some (.memories [some ⟨false, false, 1⟩]),
    some (.exports 1), some (.code (some 12)), some (.code (some 30)),
    some (.datas [some ⟨40, some [some .simple]⟩, some ⟨2, none⟩])]
  alloc := fun _ => .ok ()

/-- Cost inputs of code 5. -/
def exampleCosts : CostInputs := ⟨42, 2, 0, 0, 3, 2, 0, 1, 1, 42⟩

/-- Storage with code 5 in it. -/
def exampleCode : Nat → Res (Option (Nat × Option CostInputs)) := fun h => .ok (if h = 1005 then some (5, some exampleCosts) else none)

theorem res_eq {r : Res CostInputs} {c : CostInputs}
    (h : (match r with | .ok x => decide (x = c) | .error _ => false) = true) : r = .ok c := by
  cases r with
  | error e => cases h
  | ok x => exact congrArg _ (of_decide_eq_true h)

example : (uploadCheck exampleExt thisHost 28 5).res = .ok exampleCosts :=
  (C61_upload C61_table 28 5 exampleCosts).mpr (by
    refine ⟨by decide, ⟨exampleModule, ⟨27, 0⟩, rfl, rfl, ?_, ?_, rfl, ⟨by decide, by decide⟩, ?_, rfl, rfl⟩, res_eq (by decide +kernel)⟩
    · intro n ps rs h
      simp only [exampleModule, List.mem_singleton, Prod.mk.injEq, ExternTy.func.injEq] at h
      obtain ⟨_, rfl, rfl⟩ := h
      decide
    · exact ⟨[], [], 0, 0, 0, 27, 0, 0, 0, 0, [], rfl, (fun s hs => nomatch hs), rfl, rfl⟩
    · intro i hi
      simp only [exampleModule, List.mem_singleton] at hi
      subst hi
      refine ⟨⟨[120], [48], 2, none, none⟩, ?_, ⟨rfl, rfl, rfl⟩, ⟨(fun _ h => nomatch h), (fun _ h => nomatch h)⟩,
        ⟨(fun _ h => nomatch h), (fun _ h => nomatch h)⟩⟩
      show _ ∈ hostFunctions
      decide +kernel)

/-- Code that is not Wasm, a ledger this host does not support, and a declared version from the future are refused. -/
example : (uploadCheck exampleExt thisHost 28 6).res ≠ .ok exampleCosts ∧
    (uploadCheck exampleExt thisHost 27 5).res ≠ .ok exampleCosts ∧
    (uploadCheck exampleExt ⟨⟨26, 0⟩, hostFunctions⟩ 26 5).res ≠ .ok exampleCosts := by
  refine ⟨?_, ?_, ?_⟩
  · intro h
    obtain ⟨_, ⟨_, _, ha⟩, _⟩ := (C61_upload C61_table 28 6 exampleCosts).mp h
    cases ha.valid
  · intro h
    obtain ⟨_, ⟨_, _, ha⟩, _⟩ := (C61_upload C61_table 27 5 exampleCosts).mp h
    exact absurd ha.supported (by decide)
  · intro h
    obtain ⟨_, ⟨_, _, ha⟩, _⟩ := (C61_upload (H := ⟨⟨26, 0⟩, hostFunctions⟩) C61_table 26 5 exampleCosts).mp h
    have hp := ha.parses
    injection hp with hp
    subst hp
    have hd : Declares exampleModule ⟨27, 0⟩ :=
      ⟨[], [], 0, 0, 0, 27, 0, 0, 0, 0, [], rfl, (fun s hs => nomatch hs), rfl, rfl⟩
    obtain rfl := declares_unique ha.declares hd
    exact absurd ha.runs.1 (by decide)

/-- The storage is content-addressed, and a new cache to which the code was added is a state threads can reach that has the
code in it. -/
example : ContentAddressed exampleExt exampleCode ∧ ∃ c c', Cache.new thisHost = .ok c ∧
    c' = (c.addSimple exampleExt thisHost 28 5).1 ∧ Reach exampleExt thisHost (c', []) ∧
    c'.modules 1005 = some ⟨exampleModule, 27, .v1 exampleCosts⟩ := by
  refine ⟨⟨?_, fun w w' h => Nat.add_right_cancel h⟩, ⟨thisHost.fns.reverse, fun _ => none⟩, _, ?_, rfl, ?_, ?_⟩
  · intro h w ci hc
    simp only [exampleCode, Except.ok.injEq] at hc
    split at hc
    · rename_i hh
      injection hc with hc
      injection hc with hw _
      subst hw
      exact hh.symm
    · cases hc
  · unfold Cache.new
    rw [maximalLinker_ok C61_table]
    rfl
  · refine C62_add (.new ?_) 28 5
    unfold Cache.new
    rw [maximalLinker_ok C61_table]
    rfl
  · rfl

/-- Parsing a module on a budget that charges memory for instructions and functions. -/
example : ∃ b b' : Budget.B, b.inShadow = false ∧ b.mem.limit < u64Max ∧ b.mem.net ≤ b.mem.limit ∧
    chargeAll (fun ty => if ty = .parseInstructions then 1 else 0) b (chargeParsing (.v1 exampleCosts)) = (b', .ok ()) ∧
    b'.mem.net - b.mem.net > 0 :=
  ⟨{ cpu := ⟨[⟨4, 0⟩, ⟨434, 16⟩], 10000, 0, 0, 500, 0⟩, mem := ⟨[⟨3, 0⟩, ⟨16, 128⟩], 1000, 5, 5, 500, 0⟩,
     trackers := [⟨0, some 0, 0, 0⟩, ⟨0, some 0, 0, 0⟩], meterCount := 0, inShadow := false,
     depth := 0 }, _, rfl, by decide, by decide, rfl, by decide +kernel⟩

end Soroban.Props
