import Verif.Lemmas.HostCallExact
import Verif.Lemmas.HostCreate
import Verif.Spec.HostDeploy
/-! Exactly when code is uploaded, contracts are created and executables updated. -/
namespace Soroban.Host
open Soroban Soroban.Auth Soroban.Storage Soroban.Storage.Spec
open Soroban.Host.Spec (Loads CanAccess Callable Enterable inside Returns codeKeys code tagged visible Found execKey Lasts CanUpload CanUpdate
  CanCreate created Constructed)

/-! ### the storage, with an enforced footprint -/

theorem enf_has {E : HEnv} {s : Host} (h : StOk E s.st) (hm : s.st.mode = .enforcing) (k : LKey) :
    (CanAccess s k .readOnly ∧ liftSt s (fun st => has E.sto st k) = (s, .ok (visible E s k).isSome)) ∨
    (¬ CanAccess s k .readOnly ∧ liftSt s (fun st => has E.sto st k) = (s, .error (.host .storage .exceededLimit))) := by
  have hrd := has_read h k
  obtain ⟨st', hsame, hhas, -⟩ := has_spec h.mode h.map k
  have hs : (liftSt s (fun st => has E.sto st k)).1 = s := read_enf hrd hm
  by_cases hp : permOf s.st.mode s.st.footprint k .readOnly = true
  · left
    refine ⟨canAccess_iff.mpr hp, Prod.ext hs ?_⟩
    unfold liftSt
    dsimp only
    rw [hhas]
    unfold readAt
    rw [if_pos (by rw [h.keys]; rfl), if_pos hp]
    rfl
  · right
    refine ⟨fun hx => hp (canAccess_iff.mp hx), Prod.ext hs ?_⟩
    unfold liftSt
    dsimp only
    rw [hhas]
    unfold readAt
    rw [if_pos (by rw [h.keys]; rfl), if_neg hp]

theorem enf_get {E : HEnv} {s : Host} (h : StOk E s.st) (hm : s.st.mode = .enforcing) {k : LKey} {e : Entry LVal}
    (hr : CanAccess s k .readOnly) (hv : visible E s k = some e) : liftSt s (fun st => getEntry E.sto st k) = (s, .ok e) :=
  Prod.ext (read_enf (getEntry_read h k) hm) ((getEntry_iff h e).mpr ⟨hr, hv⟩)

/-- The host with an entry written. -/
def written (s : Host) (k : LKey) (e : Option (Entry LVal)) : Host := { s with st := { s.st with map := s.st.map.insert k e } }

theorem enf_put {E : HEnv} {s : Host} (h : StOk E s.st) (hm : s.st.mode = .enforcing) (k : LKey) (e : Option (Entry LVal)) :
    (CanAccess s k .readWrite ∧ liftSt s (fun st => putOpt E.sto st k e) = (written s k e, .ok ())) ∨
    (¬ CanAccess s k .readWrite ∧ liftSt s (fun st => putOpt E.sto st k e) = (s, .error (.host .storage .exceededLimit))) := by
  have hck : checkEntry E.sto e = .ok () := by
    unfold checkEntry
    cases e with
    | none => rfl
    | some q => obtain ⟨v, l⟩ := q; dsimp only; rw [if_pos (by rw [h.keys]; rfl)]
  have hh : (if E.sto.feature = true then handleMaybeExpired E.sto s.st k else (s.st, .ok ())) = (s.st, .ok ()) := by
    split
    · exact handle_live (h.map.live k)
    · rfl
  have hput : putOpt E.sto s.st k e = match enforceAccess s.st.footprint k .readWrite with
      | .error err => (s.st, .error err)
      | .ok () => ({ s.st with map := s.st.map.insert k e }, .ok ()) := by
    unfold putOpt
    rw [if_pos (by rw [h.keys]; rfl), hck]
    dsimp only
    rw [hh]
    dsimp only
    unfold accessForWrite
    rw [hm]
    dsimp only
    cases enforceAccess s.st.footprint k .readWrite with
    | error err => rfl
    | ok u => dsimp only; rw [hm]
  rw [enforceAccess_eq] at hput
  by_cases hp : allows s.st.footprint k .readWrite = true
  · left
    refine ⟨fun _ => hp, ?_⟩
    unfold liftSt written
    rw [if_pos hp] at hput
    simp only [hput]
  · right
    refine ⟨fun hx => hp (hx hm), ?_⟩
    unfold liftSt
    rw [if_neg hp] at hput
    simp only [hput]

theorem newLive_persistent {E : HEnv} {k : LKey} (hk : E.sto.keys = keysOf) (hd : keysOf.durability k = some .persistent) :
    (Lasts E ∧ newLiveUntil E.sto k = .ok (E.sto.li.minLiveUntil .persistent)) ∨
    (¬ Lasts E ∧ ∃ e, newLiveUntil E.sto k = .error e) := by
  unfold newLiveUntil Lasts
  rw [hk, hd]
  dsimp only
  cases E.sto.li.minLiveUntil .persistent with
  | none => right; exact ⟨by simp, _, rfl⟩
  | some m => left; exact ⟨rfl, rfl⟩

/-! ### upload -/

theorem upload_iff {E : HEnv} {s : Host} (h : StOk E s.st) (hm : s.st.mode = .enforcing) (c w : Nat) :
    (uploadWasm E s c w).2 = .ok () ↔ CanUpload E s c w := by
  have put : ∀ (hne : ∀ l, visible E s (.code c) ≠ some (.code w, l)), ((match newLiveUntil E.sto (.code c) with
      | .error e => ((s, .error e) : Host × Res Unit)
      | .ok l => liftSt s (fun st => putOpt E.sto st (.code c) (some (.code w, l)))).2 = .ok ()) ↔ CanUpload E s c w := by
    intro hne
    have hcu : CanUpload E s c w ↔ CanAccess s (.code c) .readWrite ∧ Lasts E := by
      unfold CanUpload
      constructor
      · rintro (⟨l, h1, -⟩ | ⟨-, h2⟩)
        · exact absurd h1 (hne l)
        · exact h2
      · exact fun h2 => Or.inr ⟨hne, h2⟩
    rw [hcu]
    rcases newLive_persistent (k := .code c) h.keys rfl with ⟨h1, h2⟩ | ⟨h1, e, h2⟩
    · rw [h2]
      dsimp only
      rcases enf_put h hm (.code c) (some (.code w, E.sto.li.minLiveUntil .persistent)) with ⟨h3, h4⟩ | ⟨h3, h4⟩
      · rw [h4]; exact ⟨fun _ => ⟨h3, h1⟩, fun _ => rfl⟩
      · rw [h4]; exact ⟨fun hx => (by cases hx), fun hx => absurd hx.1 h3⟩
    · rw [h2]
      exact ⟨fun hx => (by cases hx), fun hx => absurd hx.2 h1⟩
  unfold uploadWasm
  rcases enf_has h hm (.code c) with ⟨h1, h2⟩ | ⟨h1, h2⟩
  · rw [h2]
    cases hv : visible E s (.code c) with
    | none =>
      dsimp only [Option.isSome]
      exact put (fun l hx => by rw [hv] at hx; cases hx)
    | some e =>
      obtain ⟨v, l⟩ := e
      dsimp only [Option.isSome]
      rw [enf_get h hm h1 hv]
      dsimp only
      by_cases hw : v = .code w
      · subst hw
        rw [if_pos rfl]
        exact ⟨fun _ => Or.inl ⟨l, hv, h1⟩, fun _ => rfl⟩
      · rw [if_neg hw]
        exact put (fun l' hx => by rw [hv] at hx; cases hx; exact hw rfl)
  · rw [h2]
    refine ⟨fun hx => (by cases hx), ?_⟩
    rintro (⟨l, -, h3⟩ | ⟨-, h3, -⟩)
    · exact absurd h3 h1
    · exact absurd (may_read h3) h1

/-! ### updates -/

theorem verifyExists_enf {E : HEnv} {s : Host} (h : StOk E s.st) (hm : s.st.mode = .enforcing) (k : LKey) :
    (Found E s k ∧ verifyExists E s k = (s, .ok ())) ∨ (¬ Found E s k ∧ ∃ e, verifyExists E s k = (s, .error e)) := by
  unfold verifyExists Found
  rcases enf_has h hm k with ⟨h1, h2⟩ | ⟨h1, h2⟩
  · rw [h2]
    cases (visible E s k).isSome with
    | true => left; exact ⟨⟨h1, rfl⟩, rfl⟩
    | false => right; exact ⟨by simp, _, rfl⟩
  · rw [h2]
    right; exact ⟨fun hx => h1 hx.1, _, rfl⟩

theorem verifyExec_enf {E : HEnv} {s : Host} (h : StOk E s.st) (hm : s.st.mode = .enforcing) (ex : Exec) :
    ((∀ k ∈ execKey ex, Found E s k) ∧ verifyExec E s ex = (s, .ok ())) ∨
    (¬ (∀ k ∈ execKey ex, Found E s k) ∧ ∃ e, verifyExec E s ex = (s, .error e)) := by
  cases ex with
  | wasm y =>
    rcases verifyExists_enf h hm (.code y) with ⟨h1, h2⟩ | ⟨h1, h2⟩
    · left; exact ⟨fun k hk => by simp only [execKey, List.mem_singleton] at hk; subst hk; exact h1, h2⟩
    · right; exact ⟨fun hx => h1 (hx _ (by simp [execKey])), h2⟩
  | asset => left; exact ⟨fun k hk => (by cases hk), rfl⟩
  | ref o t =>
    rcases verifyExists_enf h hm (.data o (.tag t) .persistent) with ⟨h1, h2⟩ | ⟨h1, h2⟩
    · left; exact ⟨fun k hk => by simp only [execKey, List.mem_singleton] at hk; subst hk; exact h1, h2⟩
    · right; exact ⟨fun hx => h1 (hx _ (by simp [execKey])), h2⟩

/-- Storing an instance that exists. -/
theorem storeInstance_old {E : HEnv} {s : Host} (h : StOk E s.st) (hm : s.st.mode = .enforcing) {c : Nat} {ex0 : Exec} {m0 : FMap Nat Nat}
    {l : Option Nat} (hr : CanAccess s (.inst c) .readOnly) (hL : visible E s (.inst c) = some (.inst ex0 m0, l))
    (ex : Option Exec) (m : Option (FMap Nat Nat)) :
    (CanAccess s (.inst c) .readWrite ∧
      storeInstance E s ex m c = (written s (.inst c) (some (.inst (ex.getD ex0) (m.getD m0), l)), .ok ())) ∨
    (¬ CanAccess s (.inst c) .readWrite ∧ storeInstance E s ex m c = (s, .error (.host .storage .exceededLimit))) := by
  have hhas : liftSt s (fun st => has E.sto st (.inst c)) = (s, .ok true) := by
    rcases enf_has h hm (.inst c) with ⟨-, h2⟩ | ⟨h1, -⟩
    · rw [h2, hL]; rfl
    · exact absurd hr h1
  have key : storeInstance E s ex m c = liftSt s (fun st => putOpt E.sto st (.inst c) (some (.inst (ex.getD ex0) (m.getD m0), l))) := by
    unfold storeInstance
    rw [hhas]
    dsimp only
    rw [enf_get h hm hr hL]
    rfl
  rw [key]
  exact enf_put h hm _ _

/-- Storing one that does not. -/
theorem storeInstance_new {E : HEnv} {s : Host} (h : StOk E s.st) (hm : s.st.mode = .enforcing) {c : Nat}
    (hr : CanAccess s (.inst c) .readOnly) (hL : visible E s (.inst c) = none) (ex : Exec) :
    ((CanAccess s (.inst c) .readWrite ∧ Lasts E) ∧ storeInstance E s (some ex) none c = (created E s c ex, .ok ())) ∨
    (¬ (CanAccess s (.inst c) .readWrite ∧ Lasts E) ∧ ∃ e, storeInstance E s (some ex) none c = (s, .error e)) := by
  have hhas : liftSt s (fun st => has E.sto st (.inst c)) = (s, .ok false) := by
    rcases enf_has h hm (.inst c) with ⟨-, h2⟩ | ⟨h1, -⟩
    · rw [h2, hL]; rfl
    · exact absurd hr h1
  unfold storeInstance
  rw [hhas]
  dsimp only
  rcases newLive_persistent (k := .inst c) h.keys rfl with ⟨h1, h2⟩ | ⟨h1, e, h2⟩
  · rw [h2]
    dsimp only
    rcases enf_put h hm (.inst c) (some (.inst ex (Option.getD none []), E.sto.li.minLiveUntil .persistent)) with ⟨h3, h4⟩ | ⟨h3, h4⟩
    · left; exact ⟨⟨h3, h1⟩, h4⟩
    · right; exact ⟨fun hx => h3 hx.1, _, h4⟩
  · rw [h2]
    right; exact ⟨fun hx => h1 hx.2, e, rfl⟩

theorem updateExec_iff {E : HEnv} {s : Host} (h : StOk E s.st) (hm : s.st.mode = .enforcing) {c : Nat} (hc : currentContract s = .ok c)
    {ex0 : Exec} {m0 : FMap Nat Nat} {l : Option Nat} (hL : visible E s (.inst c) = some (.inst ex0 m0, l)) (ex : Exec) :
    (updateExec E s ex).2 = .ok () ↔ CanUpdate E s c ex := by
  unfold updateExec
  rcases verifyExec_enf h hm ex with ⟨h1, h2⟩ | ⟨h1, e, h2⟩
  · rw [h2]
    dsimp only
    rw [hc]
    dsimp only
    by_cases hr : CanAccess s (.inst c) .readOnly
    · have hg : getInstance E s c = (s, .ok (ex0, m0)) := by
        unfold getInstance
        rw [enf_get h hm hr hL]
      rw [hg]
      dsimp only
      rcases storeInstance_old (s := recordEvent s ⟨c, .updated ex0 ex⟩) h hm hr hL (some ex) none with ⟨h3, h4⟩ | ⟨h3, h4⟩
      · rw [h4]; exact ⟨fun _ => ⟨h1, h3⟩, fun _ => rfl⟩
      · rw [h4]; exact ⟨fun hx => (by cases hx), fun hx => absurd hx.declared h3⟩
    · rcases hg : getInstance E s c with ⟨s1, r⟩
      have : r = .error (.host .storage .exceededLimit) := by
        have := getInstance_error (getEntry_denied h hr)
        rw [hg] at this; exact this
      subst this
      exact ⟨fun hx => (by cases hx), fun hx => absurd (may_read hx.declared) hr⟩
  · rw [h2]
    exact ⟨fun hx => (by cases hx), fun hx => absurd hx.code h1⟩

/-! ### creation -/

theorem createWithId_enf {E : HEnv} {s : Host} (h : StOk E s.st) (hm : s.st.mode = .enforcing) (id : Nat) (ex : Exec) :
    (CanCreate E s id ex ∧ createWithId E s id ex = (created E s id ex, .ok ())) ∨
    (¬ CanCreate E s id ex ∧ ∃ e, createWithId E s id ex = (s, .error e)) := by
  unfold createWithId
  rcases enf_has h hm (.inst id) with ⟨h1, h2⟩ | ⟨h1, h2⟩
  · rw [h2]
    cases hv : visible E s (.inst id) with
    | some e => right; exact ⟨fun hx => (by have := hx.new; rw [hv] at this; cases this), _, rfl⟩
    | none =>
      dsimp only [Option.isSome]
      rcases verifyExec_enf h hm ex with ⟨h3, h4⟩ | ⟨h3, e, h4⟩
      · rw [h4]
        dsimp only
        rcases storeInstance_new h hm h1 hv ex with ⟨⟨h5, h6⟩, h7⟩ | ⟨h5, h7⟩
        · left; exact ⟨⟨hv, h3, h5, h6⟩, h7⟩
        · right; exact ⟨fun hx => h5 ⟨hx.declared, hx.lasts⟩, h7⟩
      · rw [h4]
        right; exact ⟨fun hx => h3 hx.code, e, rfl⟩
  · rw [h2]
    right; exact ⟨fun hx => h1 (may_read hx.declared), _, rfl⟩

/-- Which code a contract that has been loaded has. -/
theorem supports_iff {E : HEnv} {s : Host} (h : StOk E s.st) (hm : s.st.mode = .enforcing) {id : Nat} {ex : Exec} {m : FMap Nat Nat}
    {l : Option Nat} (hL : visible E s (.inst id) = some (.inst ex m, l)) :
    (Callable E s id m ∧ supportsCtor E s id = (s, .ok (match code E (visible E s) ex with | some (.wasm h) => E.hasCtor h | _ => true))) ∨
    ((∀ m', ¬ Callable E s id m') ∧ ∃ e, supportsCtor E s id = (s, .error e)) := by
  have hone : ∀ m', (∃ s1, Loads E s id m' s1) → m' = m := by
    rintro m' ⟨s1, hl⟩
    obtain ⟨-, ex', l', h1, -⟩ := (loads_iff h hm).mp ⟨s1, hl⟩
    rw [hL] at h1; cases h1; rfl
  have r1 := getInstance_read h id
  unfold supportsCtor
  rcases h1 : getInstance E s id with ⟨s1, r⟩
  rw [h1] at r1
  have e1 : s1 = s := read_enf r1 hm
  subst e1
  cases r with
  | error e =>
    right
    refine ⟨fun m' hc => ?_, e, rfl⟩
    obtain ⟨s1, hl⟩ := (loads_iff h hm).mpr hc
    cases hl with
    | builtin g1 _ => rw [h1] at g1; cases g1
    | wasm g1 _ _ => rw [h1] at g1; cases g1
  | ok q =>
    obtain ⟨ex', m'⟩ := q
    obtain ⟨-, l', hL'⟩ := getInstance_does h h1
    have hL2 : visible E s1 (.inst id) = some (.inst ex' m', l') := hL'
    rw [hL] at hL2
    cases hL2
    dsimp only
    have r2 := wasmHash_read h ex
    rcases h2 : wasmHash E s1 ex with ⟨s2, r⟩
    rw [h2] at r2
    have e2 : s2 = s1 := read_enf r2 hm
    subst e2
    have hcode : ∀ y, wasmHash E s2 ex = (s2, .ok (some y)) → code E (visible E s2) ex = some (.wasm y) := by
      intro y hy
      cases ex with
      | wasm y' => simp only [wasmHash, Prod.mk.injEq, Except.ok.injEq, Option.some.injEq, true_and] at hy; subst hy; rfl
      | asset => simp only [wasmHash, Prod.mk.injEq, Except.ok.injEq] at hy; cases hy.2
      | ref o t =>
        simp only [wasmHash] at hy
        split at hy
        · cases hy
        · rename_i s5 y' heq
          simp only [Prod.mk.injEq, Except.ok.injEq, Option.some.injEq] at hy
          obtain ⟨-, rfl⟩ := hy
          have ht := (resolveRef_does h heq).2
          show (tagged E (visible E s2) o t).map _ = _
          rw [show tagged E (visible E s2) o t = _ from ht]; rfl
    have hcode0 : wasmHash E s2 ex = (s2, .ok none) → code E (visible E s2) ex = some .asset := by
      intro hy
      cases ex with
      | wasm y' => simp only [wasmHash, Prod.mk.injEq, Except.ok.injEq] at hy; cases hy.2
      | asset => rfl
      | ref o t =>
        simp only [wasmHash] at hy
        split at hy
        · cases hy
        · simp only [Prod.mk.injEq, Except.ok.injEq] at hy; cases hy.2
    cases r with
    | error e =>
      right
      refine ⟨fun m' hc => ?_, e, rfl⟩
      obtain ⟨s1, hl⟩ := (loads_iff h hm).mpr hc
      cases hl with
      | builtin g1 g2 => rw [h1] at g1; cases g1; rw [h2] at g2; cases g2
      | wasm g1 g2 _ => rw [h1] at g1; cases g1; rw [h2] at g2; cases g2
    | ok q =>
      cases q with
      | none =>
        left
        refine ⟨(loads_iff h hm).mp ⟨s2, .builtin h1 h2⟩, ?_⟩
        rw [hcode0 h2]
      | some y =>
        dsimp only
        have r3 := loadCode_read h y
        rcases h3 : loadCode E s2 y with ⟨s3, r⟩
        rw [h3] at r3
        have e3 : s3 = s2 := read_enf r3 hm
        subst e3
        cases r with
        | error e =>
          right
          refine ⟨fun m' hc => ?_, e, rfl⟩
          obtain ⟨s1, hl⟩ := (loads_iff h hm).mpr hc
          cases hl with
          | builtin g1 g2 => rw [h1] at g1; cases g1; rw [h2] at g2; cases g2
          | wasm g1 g2 g3 => rw [h1] at g1; cases g1; rw [h2] at g2; cases g2; rw [h3] at g3; cases g3
        | ok _ =>
          left
          refine ⟨(loads_iff h hm).mp ⟨s3, .wasm h1 h2 h3⟩, ?_⟩
          rw [hcode y h2]

theorem constructed_iff {E : HEnv} {orig : List Acct} {s : Host} (hs : HOk E orig s) (hm : s.st.mode = .enforcing) {id : Nat}
    {args : CreateArgs} {l : Option Nat} (hL : visible E s (.inst id) = some (.inst args.exec [], l)) (ctor : Prog) :
    (if args.fromAsset then initAsset E s id (run E ctor) else callConstructor E s id args.ctorArgs (run E ctor)).2 = .ok () ↔
      Constructed E s id args ctor := by
  unfold Constructed
  rw [show Spec.ctorName = constructorName from by decide, show Spec.assetCtorName = initAssetName from by decide]
  cases args.fromAsset with
  | true =>
    rw [if_pos rfl, if_pos rfl]
    have key := fun v => callN_ok_iff hs hm (c := id) (fn := initAssetName) (internal := false) (Or.inr (by decide)) (fun h => absurd h (by decide))
      (run_good ctor) v
    unfold initAsset
    constructor
    · intro hx
      rcases hc : callN E s id initAssetName .prohibited false (run E ctor) with ⟨s1, r⟩
      rw [hc] at hx
      cases r with
      | error e => cases hx
      | ok v =>
        obtain ⟨m, h1, h2⟩ := (key v).mp (by rw [hc])
        exact ⟨m, v, h1, h2⟩
    · rintro ⟨m, v, h1, h2⟩
      have := (key v).mpr ⟨m, h1, h2⟩
      rcases hc : callN E s id initAssetName .prohibited false (run E ctor) with ⟨s1, r⟩
      rw [hc] at this
      simp only at this
      subst this
      rfl
  | false =>
    rw [if_neg (by decide), if_neg (by decide)]
    have key := callN_ok_iff hs hm (c := id) (fn := constructorName) (internal := true) (Or.inl rfl) (fun _ => Or.inr rfl)
      (run_good ctor) .void
    have hone : ∀ m, Callable E s id m → m = [] := by
      rintro m ⟨-, ex', l', h1, -⟩
      rw [hL] at h1; cases h1; rfl
    have hctor : ∀ q : Res RVal, ctorResult q = .ok () ↔ q = .ok .void := by
      intro q
      unfold ctorResult
      constructor
      · intro hx
        split at hx
        · rfl
        · cases hx
        · split at hx <;> cases hx
      · rintro rfl; rfl
    unfold callConstructor
    rcases supports_iff hs.st hm hL with ⟨h1, h2⟩ | ⟨h1, e, h2⟩
    · rw [h2]
      generalize hcd : code E (visible E s) args.exec = cd
      have body : ctorResult (callN E s id constructorName .prohibited true (run E ctor)).2 = .ok () ↔
          ∃ m, Enterable E s id m ∧ Returns id (run E ctor (inside s id constructorName m)).1 (run E ctor (inside s id constructorName m)).2 .void := by
        rw [hctor]; exact key
      have yes : (∀ y, cd = some (.wasm y) → E.hasCtor y = true) →
          ((∃ m, Enterable E s id m ∧ Returns id (run E ctor (inside s id constructorName m)).1 (run E ctor (inside s id constructorName m)).2 .void) ↔
          ∃ m, Callable E s id m ∧ ((∃ y, cd = some (.wasm y) ∧ E.hasCtor y = false ∧ args.ctorArgs = []) ∨
            ((∀ y, cd = some (.wasm y) → E.hasCtor y = true) ∧ Enterable E s id m ∧
             Returns id (run E ctor (inside s id constructorName m)).1 (run E ctor (inside s id constructorName m)).2 .void))) := by
        intro hy
        constructor
        · rintro ⟨m, g1, g2⟩
          exact ⟨m, g1.callable, Or.inr ⟨hy, g1, g2⟩⟩
        · rintro ⟨m, -, ⟨y, g1, g2, -⟩ | ⟨-, g1, g2⟩⟩
          · rw [hy y g1] at g2; cases g2
          · exact ⟨m, g1, g2⟩
      cases cd with
      | none => exact body.trans (yes (fun y hy => by cases hy))
      | some x =>
        cases x with
        | asset => exact body.trans (yes (fun y hy => by cases hy))
        | wasm y =>
          cases hy : E.hasCtor y with
          | true =>
            simp only [hy]
            exact body.trans (yes (fun y' hy' => by cases hy'; exact hy))
          | false =>
            simp only [hy]
            constructor
            · intro hx
              split at hx
              · rename_i ha; exact ⟨[], h1, Or.inl ⟨y, rfl, hy, ha⟩⟩
              · cases hx
            · rintro ⟨m, -, ⟨-, -, -, g1⟩ | ⟨g1, -⟩⟩
              · rw [if_pos g1]
              · have := g1 y rfl; rw [hy] at this; cases this
    · rw [h2]
      refine ⟨fun hx => (by cases hx), ?_⟩
      rintro ⟨m, hc, -⟩
      exact absurd hc (h1 m)

theorem visible_created {E : HEnv} {s : Host} (id : Nat) (ex : Exec) :
    visible E (created E s id ex) (.inst id) = some (.inst ex [], E.sto.li.minLiveUntil .persistent) := by
  unfold visible created
  dsimp only
  rw [absMap_insert]
  simp [Ledger.set]

theorem preimageMatches_iff (args : CreateArgs) : preimageMatches args = true ↔ (args.fromAsset = true ↔ args.exec = .asset) := by
  unfold preimageMatches
  cases args.fromAsset <;> cases args.exec <;> simp

end Soroban.Host
