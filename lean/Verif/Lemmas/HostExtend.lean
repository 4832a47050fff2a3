import Verif.Lemmas.HostCoh
import Verif.Spec.HostExtend
/-!
Extensions of the lifetimes of the entries of a contract.
-/
namespace Soroban.Host
open Soroban Soroban.Auth Soroban.Host.Spec
open Soroban.Storage (Store Entry Access getEntry tryGet permOf extendTtl extendTtlV2 extendInfo ModeOk MapOk absMap_live
  extendTtl_spec extendTtlV2_spec getAt_ok getEntry_spec)
open Soroban.Storage.Spec (Ledger readAt getAt extendAt extended extendedV2)

/-! ### Ledgers -/

theorem extendedLedger_nil (L : Ledger LKey LVal) (f : Nat → Nat) : extendedLedger L [] f = L := by
  funext k; simp [extendedLedger]

theorem extendedLedger_set {L : Ledger LKey LVal} {k : LKey} {v : LVal} {l : Nat} (h : L k = some (v, some l)) (f : Nat → Nat) :
    L.set k (some (v, some (f l))) = extendedLedger L [k] f := by
  funext k'
  by_cases hk : k' = k
  · subst hk; simp [extendedLedger, Ledger.set, h]
  · simp [extendedLedger, Ledger.set, hk]

theorem extendedLedger_append {L : Ledger LKey LVal} {a b : List LKey} (f : Nat → Nat) (h : ∀ k ∈ a, k ∉ b) :
    extendedLedger (extendedLedger L a f) b f = extendedLedger L (a ++ b) f := by
  funext k
  simp only [extendedLedger, List.mem_append]
  by_cases h1 : k ∈ b
  · have h2 : k ∉ a := fun h2 => h k h2 h1
    simp [h1, h2]
  · simp [h1]

theorem extendedLedger_other {L : Ledger LKey LVal} {a : List LKey} {f : Nat → Nat} {k : LKey} (h : k ∉ a) :
    extendedLedger L a f k = L k := by
  simp [extendedLedger, h]

theorem extendedLedger_swap {L : Ledger LKey LVal} {a b : List LKey} (f : Nat → Nat) :
    extendedLedger L (a ++ b) f = extendedLedger L (b ++ a) f := by
  funext k
  simp only [extendedLedger, List.mem_append, or_comm]

/-! ### One entry -/

theorem key_info {E : HEnv} (hk : E.sto.keys = keysOf) {k : LKey} (hd : keysOf.durability k = some .persistent) {M : Nat}
    (hM : E.sto.li.maxLiveUntil = some M) {x : Nat} {v : LVal} {old : Nat} (hl : E.sto.li.seq ≤ old) :
    extendInfo E.sto k x v (some old) = .ok { entry := v, oldLiveUntil := old, currentTtl := old - E.sto.li.seq, maxLiveUntil := M } := by
  unfold extendInfo
  simp only [hM, hk, hd]
  rw [if_neg (by omega), if_neg (fun h => by cases h.1)]

theorem maxLive_u32 {E : HEnv} {M : Nat} (hM : E.sto.li.maxLiveUntil = some M) : M ≤ u32Max := by
  unfold Storage.LedgerInfo.maxLiveUntil checkedAddU32 at hM
  split at hM
  · cases hM; assumption
  · cases hM

theorem upTo_eq {E : HEnv} (hk : E.sto.keys = keysOf) {k : LKey} (hd : keysOf.durability k = some .persistent) {M : Nat}
    (hM : E.sto.li.maxLiveUntil = some M) {t x : Nat} {v : LVal} {old : Nat} (hl : E.sto.li.seq ≤ old) :
    extended E.sto k t x (v, some old) = if u32Max < E.sto.li.seq + x then .error (.host .context .internalError)
      else .ok (v, some (Ext.lifetime E.sto.li.seq M (.upTo t x) old)) := by
  unfold extended Ext.lifetime
  simp only [key_info (v := v) hk hd hM hl]
  by_cases h0 : u32Max < E.sto.li.seq + x
  · rw [if_pos h0, if_pos h0]
  rw [if_neg h0, if_neg h0]
  by_cases h1 : old - E.sto.li.seq ≤ t
  · rw [if_pos h1]
    by_cases h2 : old < min (E.sto.li.seq + x) M
    · rw [if_pos ⟨h1, h2⟩]; congr 3; omega
    · rw [if_neg (fun h => h2 h.2)]; congr 3; omega
  · rw [if_neg h1, if_neg (fun h => h1 h.1)]

theorem between_eq {E : HEnv} (hk : E.sto.keys = keysOf) {k : LKey} (hd : keysOf.durability k = some .persistent) {M : Nat}
    (hM : E.sto.li.maxLiveUntil = some M) {x a b : Nat} {v : LVal} {old : Nat} (hl : E.sto.li.seq ≤ old) {e : Entry LVal}
    (he : extendedV2 E.sto k x a b (v, some old) = .ok e) : e = (v, some (Ext.lifetime E.sto.li.seq M (.between x a b) old)) := by
  unfold extendedV2 at he
  unfold Ext.lifetime
  simp only [key_info (v := v) hk hd hM hl] at he
  simp only
  generalize min (min (E.sto.li.seq + x - old) b) (M - old) = y at he ⊢
  by_cases h1 : y < a
  · rw [if_pos h1] at he; cases he; rw [if_neg (by omega)]
  rw [if_neg h1] at he
  rw [if_pos (by omega)]
  by_cases h2 : u32Max < old + y
  · rw [if_pos h2] at he; cases he
  rw [if_neg h2] at he
  by_cases h3 : y = 0
  · rw [if_pos h3] at he; cases he; rw [h3]; rfl
  · rw [if_neg h3] at he; cases he; rfl

theorem between_ok {E : HEnv} (hk : E.sto.keys = keysOf) {k : LKey} (hd : keysOf.durability k = some .persistent) {M : Nat}
    (hM : E.sto.li.maxLiveUntil = some M) {x a b : Nat} {v : LVal} {old : Nat} (hl : E.sto.li.seq ≤ old) (hu : old ≤ u32Max) :
    ∃ e, extendedV2 E.sto k x a b (v, some old) = .ok e := by
  have hMu := maxLive_u32 hM
  unfold extendedV2
  simp only [key_info (v := v) hk hd hM hl]
  have hy : old + min (min (E.sto.li.seq + x - old) b) (M - old) ≤ u32Max := by
    have : min (min (E.sto.li.seq + x - old) b) (M - old) ≤ M - old := Nat.min_le_right _ _
    omega
  generalize min (min (E.sto.li.seq + x - old) b) (M - old) = y at hy ⊢
  by_cases h1 : y < a
  · exact ⟨_, by rw [if_pos h1]⟩
  rw [if_neg h1, if_neg (by omega)]
  by_cases h3 : y = 0
  · exact ⟨_, by rw [if_pos h3]⟩
  · exact ⟨_, by rw [if_neg h3]⟩

/-- Access to a key. -/
def May (s : Host) (k : LKey) : Prop := permOf s.st.mode s.st.footprint k .readOnly = true

theorem live_some {E : HEnv} {st : Store LKey LVal} (h : StOk E st) {k : LKey} (hd : keysOf.durability k = some .persistent) {e : Entry LVal}
    (he : ledger E st k = some e) : ∃ l, e.2 = some l ∧ E.sto.li.seq ≤ l := by
  have := absMap_live h.mode h.map k
  rw [show Storage.Spec.absMap E.sto st.mode st.map k = some e from he] at this
  exact this e.1 e.2 .persistent rfl (by rw [h.keys]; exact hd)

theorem extendKey_does {E : HEnv} {s s' : Host} (h : StOk E s.st) {k : LKey} (hd : keysOf.durability k = some .persistent) {M : Nat}
    (hM : E.sto.li.maxLiveUntil = some M) {x : Ext} (he : extendKey E s k x = (s', .ok ())) :
    ledger E s'.st = extendedLedger (ledger E s.st) [k] (x.lifetime E.sto.li.seq M) ∧ x.Valid E.sto.li.seq ∧ May s k ∧
    ∃ e, ledger E s.st k = some e := by
  have key : ∀ {g : Entry LVal → Res (Entry LVal)} {L' : Ledger LKey LVal},
      extendAt E.sto (permOf s.st.mode s.st.footprint) (ledger E s.st) k g = .ok L' →
      ∃ v l e', ledger E s.st k = some (v, some l) ∧ May s k ∧ E.sto.li.seq ≤ l ∧ g (v, some l) = .ok e' ∧
        L' = (ledger E s.st).set k (some e') := by
    intro g L' hx
    unfold extendAt at hx
    cases hg : getAt E.sto (permOf s.st.mode s.st.footprint) (ledger E s.st) k with
    | error err => rw [hg] at hx; cases hx
    | ok e =>
      rw [hg] at hx
      simp only at hx
      obtain ⟨h1, h2, h3⟩ := getAt_ok hg
      obtain ⟨l, hl, hle⟩ := live_some h hd h1
      obtain ⟨v, l0⟩ := e
      cases hl
      cases he' : g (v, some l) with
      | error err => rw [he'] at hx; cases hx
      | ok e' => rw [he'] at hx; cases hx; exact ⟨v, l, e', h1, h3, hle, he', rfl⟩
  cases x with
  | upTo t x =>
    simp only [extendKey] at he
    have h2 : (extendTtl E.sto s.st k t x).2 = .ok () := congrArg Prod.snd he
    have h1 : ledger E (extendTtl E.sto s.st k t x).1 = ledger E s'.st := congrArg (fun r => ledger E r.1.st) he
    by_cases htx : t > x
    · simp only [extendTtl, htx, if_true] at h2; cases h2
    obtain ⟨st', hm, hr, -⟩ := extendTtl_spec h.mode h.map k t x htx
    rw [hr] at h1 h2
    cases hx : extendAt E.sto (permOf s.st.mode s.st.footprint) (ledger E s.st) k (extended E.sto k t x) with
    | error err => rw [hx] at h2; cases h2
    | ok L' =>
      obtain ⟨v, l, e', h3, h4, h5, h6, h7⟩ := key hx
      rw [upTo_eq h.keys hd hM h5] at h6
      by_cases hu : u32Max < E.sto.li.seq + x
      · rw [if_pos hu] at h6; cases h6
      rw [if_neg hu] at h6
      cases h6
      have h8 : ledger E st' = _ := hm.abs
      rw [hx] at h8
      refine ⟨?_, ⟨by omega, by omega⟩, h4, _, h3⟩
      rw [← h1]
      exact h8.trans (h7.trans (extendedLedger_set h3 _))
  | between x a b =>
    simp only [extendKey] at he
    have h2 : (extendTtlV2 E.sto s.st k x a b).2 = .ok () := congrArg Prod.snd he
    have h1 : ledger E (extendTtlV2 E.sto s.st k x a b).1 = ledger E s'.st := congrArg (fun r => ledger E r.1.st) he
    by_cases hab : b < a
    · simp only [extendTtlV2, hab, if_true] at h2; cases h2
    obtain ⟨st', hm, hr, -⟩ := extendTtlV2_spec h.mode h.map k x a b hab
    rw [hr] at h1 h2
    cases hx : extendAt E.sto (permOf s.st.mode s.st.footprint) (ledger E s.st) k (extendedV2 E.sto k x a b) with
    | error err => rw [hx] at h2; cases h2
    | ok L' =>
      obtain ⟨v, l, e', h3, h4, h5, h6, h7⟩ := key hx
      have h9 := between_eq h.keys hd hM h5 h6
      subst h9
      have h8 : ledger E st' = _ := hm.abs
      rw [hx] at h8
      refine ⟨?_, (by show a ≤ b; omega), h4, _, h3⟩
      rw [← h1]
      exact h8.trans (h7.trans (extendedLedger_set h3 (Ext.lifetime E.sto.li.seq M (.between x a b))))

theorem extendKey_succeeds {E : HEnv} {s : Host} (h : StOk E s.st) {k : LKey} (hd : keysOf.durability k = some .persistent) {M : Nat}
    (hM : E.sto.li.maxLiveUntil = some M) {x : Ext} (hv : x.Valid E.sto.li.seq) (hp : May s k) (hx : Extendable (ledger E s.st) k) :
    ∃ s', extendKey E s k x = (s', .ok ()) := by
  obtain ⟨v, l, hL, hu⟩ := hx
  obtain ⟨l', hl', hle⟩ := live_some h hd hL
  cases hl'
  have hg : getAt E.sto (permOf s.st.mode s.st.footprint) (ledger E s.st) k = .ok (v, some l) := by
    unfold getAt readAt
    unfold May at hp
    rw [if_pos (by rw [h.keys]; rfl), if_pos hp, hL]
  have done : ∀ r : Host × Res Unit, r.2 = .ok () → ∃ s', r = (s', .ok ()) := fun r hr => ⟨r.1, Prod.ext rfl hr⟩
  apply done
  cases x with
  | upTo t x =>
    obtain ⟨h1, h2⟩ := hv
    obtain ⟨st', hm, hr, -⟩ := extendTtl_spec h.mode h.map k t x (by omega)
    show (extendTtl E.sto s.st k t x).2 = .ok ()
    rw [hr]
    unfold extendAt
    rw [hg]
    simp only
    rw [upTo_eq h.keys hd hM hle, if_neg (by omega)]
    rfl
  | between x a b =>
    have hab : a ≤ b := hv
    obtain ⟨st', hm, hr, -⟩ := extendTtlV2_spec h.mode h.map k x a b (by omega)
    show (extendTtlV2 E.sto s.st k x a b).2 = .ok ()
    rw [hr]
    unfold extendAt
    rw [hg]
    simp only
    obtain ⟨e, he⟩ := between_ok (x := x) (a := a) (b := b) (v := v) h.keys hd hM hle hu
    rw [he]
    rfl

/-! ### What stays -/

theorem tagged_extended (E : HEnv) (L : Ledger LKey LVal) (a : List LKey) (f : Nat → Nat) (o : Addr) (t : Nat) :
    tagged E (extendedLedger L a f) o t = tagged E L o t := by
  unfold tagged extendedLedger
  split_ifs
  · cases L (.data o (.tag t) .persistent) with
    | none => rfl
    | some e => obtain ⟨v, l⟩ := e; cases v <;> rfl
  · rfl

theorem codeKeys_extended (E : HEnv) (L : Ledger LKey LVal) (a : List LKey) (f : Nat → Nat) (ex : Exec) :
    codeKeys E (extendedLedger L a f) ex = codeKeys E L ex := by
  cases ex <;> simp only [codeKeys, tagged_extended]

theorem scopeKeys_extended (E : HEnv) (L : Ledger LKey LVal) (a : List LKey) (f : Nat → Nat) (c : Nat) (scope : Scope) :
    scopeKeys E (extendedLedger L a f) c scope = scopeKeys E L c scope := by
  unfold scopeKeys
  congr 1
  split_ifs with h
  · rfl
  · have h1 : extendedLedger L a f (.inst c) = L (.inst c) ∨
        extendedLedger L a f (.inst c) = (L (.inst c)).map (fun e => (e.1, e.2.map f)) := by
      unfold extendedLedger; split_ifs
      · exact .inr rfl
      · exact .inl rfl
    rcases h1 with h1 | h1
    · rw [h1]; cases L (.inst c) with
      | none => rfl
      | some e => obtain ⟨v, l⟩ := e; cases v <;> simp only [codeKeys_extended]
    · rw [h1]; cases L (.inst c) with
      | none => rfl
      | some e => obtain ⟨v, l⟩ := e; cases v <;> simp only [Option.map, codeKeys_extended]

theorem codeKeys_no_inst {E : HEnv} {L : Ledger LKey LVal} {ex : Exec} {c : Nat} : LKey.inst c ∉ codeKeys E L ex := by
  cases ex with
  | wasm h => simp [codeKeys]
  | asset => simp [codeKeys]
  | ref o t => simp [codeKeys]

theorem extendable_extended {E : HEnv} {L : Ledger LKey LVal} {a : List LKey} {x : Ext} {k : LKey} {M : Nat} 
    (hM : E.sto.li.maxLiveUntil = some M) (h : Extendable L k) : Extendable (extendedLedger L a (x.lifetime E.sto.li.seq M)) k := by
  obtain ⟨v, l, h1, h2⟩ := h
  have hMu := maxLive_u32 hM
  unfold Extendable extendedLedger
  rw [h1]
  split_ifs
  · refine ⟨v, _, rfl, ?_⟩
    cases x with
    | upTo t y => simp only [Ext.lifetime]; split_ifs <;> omega
    | between y p q => simp only [Ext.lifetime]; split_ifs <;> omega
  · exact ⟨v, l, rfl, h2⟩

/-! ### The code -/

theorem OnlySt.may {E : HEnv} {s s' : Host} (h : OnlySt E s s') (k : LKey) : May s' k ↔ May s k := by
  unfold May; rw [h.st.perm]

/-- What the executable of a contract is. -/
theorem getInstance_does {E : HEnv} {s s' : Host} (h : StOk E s.st) {c : Nat} {ex : Exec} {m : FMap Nat Nat}
    (hg : getInstance E s c = (s', .ok (ex, m))) : May s (.inst c) ∧ ∃ l, ledger E s.st (.inst c) = some (.inst ex m, l) := by
  obtain ⟨l, h1, h2⟩ := getInstance_val h hg
  refine ⟨?_, l, by rw [← h2]; exact h1⟩
  unfold getInstance at hg
  rcases hr : liftSt s (fun st => getEntry E.sto st (.inst c)) with ⟨s1, r⟩
  rw [hr] at hg
  cases r with
  | error e => cases hg
  | ok e =>
    have h4 : (getEntry E.sto s.st (.inst c)).2 = .ok e := congrArg Prod.snd hr
    obtain ⟨st', -, h5, -⟩ := getEntry_spec h.mode h.map (.inst c)
    rw [h5] at h4
    exact (getAt_ok h4).2.2

theorem getEntry_gets {E : HEnv} {s : Host} (h : StOk E s.st) {k : LKey} {e : Entry LVal} (hp : May s k) (hL : ledger E s.st k = some e) :
    ∃ s1, liftSt s (fun st => getEntry E.sto st k) = (s1, .ok e) := by
  obtain ⟨st', -, h5, -⟩ := getEntry_spec h.mode h.map k
  refine ⟨{ s with st := st' }, ?_⟩
  unfold liftSt
  simp only
  rw [h5]
  unfold getAt readAt
  unfold May at hp
  rw [if_pos (by rw [h.keys]; rfl), if_pos hp, show Storage.Spec.absMap E.sto s.st.mode s.st.map k = some e from hL]

theorem getInstance_gets {E : HEnv} {s : Host} (h : StOk E s.st) {c : Nat} {ex : Exec} {m : FMap Nat Nat} {l : Option Nat}
    (hp : May s (.inst c)) (hL : ledger E s.st (.inst c) = some (.inst ex m, l)) : ∃ s1, getInstance E s c = (s1, .ok (ex, m)) := by
  obtain ⟨s1, h1⟩ := getEntry_gets h hp hL
  exact ⟨s1, by unfold getInstance; rw [h1]⟩

theorem resolveRef_does {E : HEnv} {s s' : Host} (h : StOk E s.st) {o : Addr} {t hash : Nat} (hg : resolveRef E s o t = (s', .ok hash)) :
    ledger E s'.st = ledger E s.st ∧ tagged E (ledger E s.st) o t = some hash := by
  unfold resolveRef at hg
  rcases hr : liftSt s (fun st => getEntry E.sto st (.data o (.tag t) .persistent)) with ⟨s1, r⟩
  rw [hr] at hg
  cases r with
  | error e => cases hg
  | ok e =>
    obtain ⟨v, l⟩ := e
    have h4 := getEntry_val h (k := .data o (.tag t) .persistent) (e := (v, l)) (congrArg Prod.snd hr)
    have h5 : ledger E s1.st = ledger E s.st := by
      rw [← h4.2]; exact (congrArg (fun r => ledger E r.1.st) hr).symm
    cases v with
    | data v =>
      simp only at hg
      cases hh : E.hashOf v with
      | none => rw [hh] at hg; cases hg
      | some y =>
        rw [hh] at hg
        cases hg
        exact ⟨h5, by unfold tagged; rw [h4.1]; exact hh⟩
    | _ => cases hg

theorem resolveRef_gets {E : HEnv} {s : Host} (h : StOk E s.st) {o : Addr} {t hash : Nat} (hp : May s (.data o (.tag t) .persistent))
    (hT : tagged E (ledger E s.st) o t = some hash) : ∃ s1, resolveRef E s o t = (s1, .ok hash) := by
  unfold tagged at hT
  cases hL : ledger E s.st (.data o (.tag t) .persistent) with
  | none => rw [hL] at hT; cases hT
  | some e =>
    obtain ⟨v, l⟩ := e
    rw [hL] at hT
    cases v with
    | data v =>
      obtain ⟨s1, h1⟩ := getEntry_gets h hp hL
      refine ⟨s1, ?_⟩
      unfold resolveRef
      rw [h1]
      simp only at hT ⊢
      rw [hT]
    | _ => cases hT

/-- The condition for an extension of an entry. -/
def Fit (s : Host) (L : Ledger LKey LVal) (k : LKey) : Prop := May s k ∧ ∃ e, L k = some e

theorem extendCode_does {E : HEnv} {s s' : Host} (h : StOk E s.st) {c M : Nat} (hM : E.sto.li.maxLiveUntil = some M) {x : Ext}
    (he : extendCode E s c x = (s', .ok ())) :
    ∃ ex m l, ledger E s.st (.inst c) = some (.inst ex m, l) ∧ May s (.inst c) ∧ (code E (ledger E s.st) ex).isSome = true ∧
      ledger E s'.st = extendedLedger (ledger E s.st) (codeKeys E (ledger E s.st) ex) (x.lifetime E.sto.li.seq M) ∧
      (∀ k ∈ codeKeys E (ledger E s.st) ex, Fit s (ledger E s.st) k ∧ x.Valid E.sto.li.seq) := by
  unfold extendCode at he
  rcases hg : getInstance E s c with ⟨s1, r⟩
  have h1 := getInstance_only h c
  have hL1 := getInstance_ledger h c
  rw [hg] at he h1 hL1
  cases r with
  | error e => cases he
  | ok p =>
    obtain ⟨ex, m⟩ := p
    obtain ⟨hp, l, hL⟩ := getInstance_does h hg
    refine ⟨ex, m, l, hL, hp, ?_⟩
    simp only at hL1
    cases ex with
    | wasm w =>
      simp only at he
      obtain ⟨h2, h3, h4, h5⟩ := extendKey_does h1.ok (k := .code w) rfl hM he
      rw [hL1] at h2 h5
      refine ⟨rfl, h2, fun k hk => ?_⟩
      simp only [codeKeys, List.mem_singleton] at hk
      subst hk
      exact ⟨⟨(h1.may _).mp h4, h5⟩, h3⟩
    | asset =>
      cases he
      exact ⟨rfl, by rw [hL1]; exact (extendedLedger_nil _ _).symm, fun k hk => by cases hk⟩
    | ref o t =>
      simp only at he
      rcases hk1 : extendKey E s1 (.data o (.tag t) .persistent) x with ⟨s2, r2⟩
      have h2o := extendKey_only h1.ok (shared_tag o t) x
      rw [hk1] at he h2o
      cases r2 with
      | error e => cases he
      | ok u =>
        simp only at he
        obtain ⟨h2, h3, h4, h5⟩ := extendKey_does h1.ok (k := .data o (.tag t) .persistent) rfl hM hk1
        rw [hL1] at h2 h5
        rcases hr2 : resolveRef E s2 o t with ⟨s3, r3⟩
        have h3o := resolveRef_only h2o.ok o t
        rw [hr2] at he h3o
        cases r3 with
        | error e => cases he
        | ok w =>
          simp only at he
          obtain ⟨hL3, hT⟩ := resolveRef_does h2o.ok hr2
          rw [h2, tagged_extended] at hT
          obtain ⟨h6, -, h7, h8⟩ := extendKey_does h3o.ok (k := .code w) rfl hM he
          have h12 := h1.trans h2o
          have h123 := h12.trans h3o
          refine ⟨by simp only [code, hT]; rfl, ?_, ?_⟩
          · rw [h6, hL3, h2, extendedLedger_append _ (fun k hk => by simp only [List.mem_singleton] at hk; subst hk; simp)]
            simp only [codeKeys, hT]; rfl
          · intro k hk
            simp only [codeKeys, hT, Option.toList, List.map, List.mem_cons, List.not_mem_nil, or_false] at hk
            rcases hk with hk | hk
            · subst hk; exact ⟨⟨(h1.may _).mp h4, h5⟩, h3⟩
            · subst hk
              refine ⟨⟨(h123.may _).mp h7, ?_⟩, h3⟩
              rw [hL3, h2, extendedLedger_other (by simp)] at h8
              exact h8

theorem extendCode_succeeds {E : HEnv} {s : Host} (h : StOk E s.st) {c M : Nat} (hM : E.sto.li.maxLiveUntil = some M) {x : Ext}
    {ex : Exec} {m : FMap Nat Nat} {l : Option Nat} (hL : ledger E s.st (.inst c) = some (.inst ex m, l)) (hp : May s (.inst c))
    (hc : (code E (ledger E s.st) ex).isSome = true)
    (hk : ∀ k ∈ codeKeys E (ledger E s.st) ex, May s k ∧ Extendable (ledger E s.st) k) (hv : x.Valid E.sto.li.seq) :
    ∃ s', extendCode E s c x = (s', .ok ()) := by
  obtain ⟨s1, hg⟩ := getInstance_gets h hp hL
  have h1 := getInstance_only h c
  have hL1 := getInstance_ledger h c
  unfold extendCode
  rw [hg] at h1 hL1 ⊢
  simp only at hL1
  cases ex with
  | wasm w =>
    obtain ⟨h2, h3⟩ := hk (.code w) (by simp [codeKeys])
    exact extendKey_succeeds h1.ok rfl hM hv ((h1.may _).mpr h2) (by rw [hL1]; exact h3)
  | asset => exact ⟨s1, rfl⟩
  | ref o t =>
    obtain ⟨w, hT⟩ : ∃ w, tagged E (ledger E s.st) o t = some w := by
      simp only [code, Option.isSome_map] at hc
      exact Option.isSome_iff_exists.mp hc
    obtain ⟨h2, h3⟩ := hk (.data o (.tag t) .persistent) (by simp [codeKeys])
    obtain ⟨h4, h5⟩ := hk (.code w) (by simp [codeKeys, hT])
    obtain ⟨s2, hs2⟩ := extendKey_succeeds h1.ok rfl hM hv ((h1.may _).mpr h2) (by rw [hL1]; exact h3)
    have h2o := extendKey_only h1.ok (shared_tag o t) x
    have hd := (extendKey_does h1.ok (k := .data o (.tag t) .persistent) rfl hM hs2).1
    simp only
    rw [hs2] at h2o ⊢
    simp only at hd ⊢
    have h12 := h1.trans h2o
    obtain ⟨s3, hs3⟩ := resolveRef_gets (hash := w) h2o.ok ((h12.may _).mpr h2) (by rw [hd, tagged_extended, hL1]; exact hT)
    have h3o := resolveRef_only h2o.ok o t
    have hL3 := (resolveRef_does h2o.ok hs3).1
    rw [hs3] at h3o ⊢
    have h123 := h12.trans h3o
    exact extendKey_succeeds h3o.ok rfl hM hv ((h123.may _).mpr h4) (by rw [hL3, hd, hL1]; exact extendable_extended hM h5)

/-! ### All -/

theorem scopeKeys_inst (E : HEnv) (L : Ledger LKey LVal) (c : Nat) : scopeKeys E L c .inst = [.inst c] := rfl

theorem scopeKeys_code {E : HEnv} {L : Ledger LKey LVal} {c : Nat} {ex : Exec} {m : FMap Nat Nat} {l : Option Nat}
    (h : L (.inst c) = some (.inst ex m, l)) : scopeKeys E L c .code = codeKeys E L ex := by
  simp [scopeKeys, h]

theorem scopeKeys_both {E : HEnv} {L : Ledger LKey LVal} {c : Nat} {ex : Exec} {m : FMap Nat Nat} {l : Option Nat}
    (h : L (.inst c) = some (.inst ex m, l)) : scopeKeys E L c .both = [.inst c] ++ codeKeys E L ex := by
  simp [scopeKeys, h]

theorem codeOf_inst {E : HEnv} {L : Ledger LKey LVal} {c : Nat} {ex : Exec} {m : FMap Nat Nat} {l : Option Nat}
    (h : L (.inst c) = some (.inst ex m, l)) : codeOf E L c = code E L ex := by
  simp [codeOf, h]

theorem code_extended (E : HEnv) (L : Ledger LKey LVal) (a : List LKey) (f : Nat → Nat) (ex : Exec) :
    code E (extendedLedger L a f) ex = code E L ex := by
  cases ex <;> simp only [code, tagged_extended]

theorem inst_extended {L : Ledger LKey LVal} {a : List LKey} {f : Nat → Nat} {k : LKey} {v : LVal} {l : Option Nat}
    (h : extendedLedger L a f k = some (v, l)) : ∃ l0, L k = some (v, l0) := by
  unfold extendedLedger at h
  split_ifs at h
  · cases hL : L k with
    | none => rw [hL] at h; cases h
    | some e => rw [hL] at h; cases h; exact ⟨e.2, rfl⟩
  · exact ⟨l, h⟩

theorem extendContract_does {E : HEnv} {s s' : Host} (h : StOk E s.st) {c M : Nat} (hM : E.sto.li.maxLiveUntil = some M)
    {scope : Scope} {x : Ext} (he : extendContract E s c scope x = (s', .ok ())) :
    ledger E s'.st = extendedLedger (ledger E s.st) (scopeKeys E (ledger E s.st) c scope) (x.lifetime E.sto.li.seq M) ∧
    Fit s (ledger E s.st) (.inst c) ∧
    (∀ k ∈ scopeKeys E (ledger E s.st) c scope, Fit s (ledger E s.st) k ∧ x.Valid E.sto.li.seq) ∧
    (scope ≠ .inst → (codeOf E (ledger E s.st) c).isSome = true) := by
  have hone := extendKey_only h (shared_inst c) x
  have hcode := extendCode_only h c x
  cases scope with
  | inst =>
    obtain ⟨h1, h2, h3, h4⟩ := extendKey_does h (k := .inst c) rfl hM he
    refine ⟨h1, ⟨h3, h4⟩, fun k hk => ?_, fun hn => absurd rfl hn⟩
    simp only [scopeKeys_inst, List.mem_singleton] at hk
    subst hk
    exact ⟨⟨h3, h4⟩, h2⟩
  | code =>
    obtain ⟨ex, m, l, h1, h2, h3, h4, h5⟩ := extendCode_does h hM he
    rw [scopeKeys_code h1, codeOf_inst h1]
    exact ⟨h4, ⟨h2, _, h1⟩, h5, fun _ => h3⟩
  | both =>
    have join : ∀ {ex m l}, ledger E s.st (.inst c) = some (.inst ex m, l) → May s (.inst c) → (code E (ledger E s.st) ex).isSome = true →
        x.Valid E.sto.li.seq → (∀ k ∈ codeKeys E (ledger E s.st) ex, Fit s (ledger E s.st) k) →
        ledger E s'.st = extendedLedger (ledger E s.st) ([.inst c] ++ codeKeys E (ledger E s.st) ex) (x.lifetime E.sto.li.seq M) →
        ledger E s'.st = extendedLedger (ledger E s.st) (scopeKeys E (ledger E s.st) c .both) (x.lifetime E.sto.li.seq M) ∧
        Fit s (ledger E s.st) (.inst c) ∧
        (∀ k ∈ scopeKeys E (ledger E s.st) c .both, Fit s (ledger E s.st) k ∧ x.Valid E.sto.li.seq) ∧
        (Scope.both ≠ .inst → (codeOf E (ledger E s.st) c).isSome = true) := by
      intro ex m l h1 h2 h3 hv h5 h4
      rw [scopeKeys_both h1, codeOf_inst h1]
      refine ⟨h4, ⟨h2, _, h1⟩, fun k hk => ⟨?_, hv⟩, fun _ => h3⟩
      rcases List.mem_append.mp hk with hk | hk
      · simp only [List.mem_singleton] at hk; subst hk; exact ⟨h2, _, h1⟩
      · exact h5 k hk
    have apart : ∀ {L : Ledger LKey LVal} {ex}, ∀ k ∈ [LKey.inst c], k ∉ codeKeys E L ex := by
      intro L ex k hk
      simp only [List.mem_singleton] at hk
      subst hk
      exact codeKeys_no_inst
    simp only [extendContract] at he
    cases x with
    | upTo t y =>
      simp only at he
      rcases hk : extendKey E s (.inst c) (.upTo t y) with ⟨s1, r⟩
      rw [hk] at he hone
      cases r with
      | error e => cases he
      | ok u =>
        simp only at he
        obtain ⟨h1, h2, h3, h4⟩ := extendKey_does h (k := .inst c) rfl hM hk
        obtain ⟨ex, m, l, g1, g2, g3, g4, g5⟩ := extendCode_does hone.ok hM he
        rw [h1] at g1 g3 g4 g5
        rw [codeKeys_extended] at g4 g5
        rw [code_extended] at g3
        obtain ⟨l0, g0⟩ := inst_extended g1
        refine join g0 h3 g3 h2 (fun k hk => ?_) (g4.trans (extendedLedger_append _ apart))
        obtain ⟨⟨f1, f2⟩, -⟩ := g5 k hk
        refine ⟨(hone.may _).mp f1, ?_⟩
        obtain ⟨⟨v, l⟩, f2⟩ := f2
        obtain ⟨l0, f0⟩ := inst_extended f2
        exact ⟨_, f0⟩
    | between y a b =>
      simp only at he
      rcases hk : extendCode E s c (.between y a b) with ⟨s1, r⟩
      rw [hk] at he hcode
      cases r with
      | error e => cases he
      | ok u =>
        simp only at he
        obtain ⟨ex, m, l, g1, g2, g3, g4, g5⟩ := extendCode_does h hM hk
        obtain ⟨h1, h2, h3, h4⟩ := extendKey_does hcode.ok (k := .inst c) rfl hM he
        rw [g4] at h1
        refine join g1 g2 g3 h2 (fun k hk => (g5 k hk).1) (h1.trans ?_)
        rw [extendedLedger_append _ (fun k hk hi => apart k hi hk)]
        exact extendedLedger_swap _

theorem extendContract_succeeds {E : HEnv} {s : Host} (h : StOk E s.st) {c M : Nat} (hM : E.sto.li.maxLiveUntil = some M)
    {scope : Scope} {x : Ext} (hv : x.Valid E.sto.li.seq) (hi : May s (.inst c))
    (hk : ∀ k ∈ scopeKeys E (ledger E s.st) c scope, May s k ∧ Extendable (ledger E s.st) k)
    (hc : scope ≠ .inst → (codeOf E (ledger E s.st) c).isSome = true) : ∃ s', extendContract E s c scope x = (s', .ok ()) := by
  have hone := extendKey_only h (shared_inst c) x
  have hcode := extendCode_only h c x
  have hex : scope ≠ .inst → ∃ ex m l, ledger E s.st (.inst c) = some (.inst ex m, l) ∧ (code E (ledger E s.st) ex).isSome = true := by
    intro hn
    have h1 := hc hn
    cases hL : ledger E s.st (.inst c) with
    | none => simp only [codeOf, hL] at h1; cases h1
    | some e =>
      obtain ⟨v, l⟩ := e
      cases v with
      | inst ex m => exact ⟨ex, m, l, rfl, by rw [codeOf_inst hL] at h1; exact h1⟩
      | _ => simp only [codeOf, hL] at h1; cases h1
  cases scope with
  | inst =>
    obtain ⟨h1, h2⟩ := hk (.inst c) (by simp [scopeKeys_inst])
    exact extendKey_succeeds h rfl hM hv h1 h2
  | code =>
    obtain ⟨ex, m, l, h1, h2⟩ := hex (by intro e; cases e)
    rw [scopeKeys_code h1] at hk
    exact extendCode_succeeds h hM h1 hi h2 hk hv
  | both =>
    obtain ⟨ex, m, l, h1, h2⟩ := hex (by intro e; cases e)
    rw [scopeKeys_both h1] at hk
    obtain ⟨k1, k2⟩ := hk (.inst c) (by simp)
    have k3 := fun k hm => hk k (List.mem_append.mpr (.inr hm))
    simp only [extendContract]
    cases x with
    | upTo t y =>
      obtain ⟨s1, hs1⟩ := extendKey_succeeds h (k := .inst c) rfl hM hv k1 k2
      have hd := (extendKey_does h (k := .inst c) rfl hM hs1).1
      simp only
      rw [hs1] at hone ⊢
      simp only
      have h1' : ∃ l', ledger E s1.st (.inst c) = some (.inst ex m, l') := by
        rw [hd]; exact ⟨_, by simp [extendedLedger, h1]; rfl⟩
      obtain ⟨l', h1'⟩ := h1'
      refine extendCode_succeeds hone.ok hM h1' ((hone.may _).mpr hi) (by rw [hd, code_extended]; exact h2) (fun k hm => ?_) hv
      rw [hd, codeKeys_extended] at hm
      obtain ⟨q1, q2⟩ := k3 k hm
      exact ⟨(hone.may _).mpr q1, by rw [hd]; exact extendable_extended hM q2⟩
    | between y a b =>
      obtain ⟨s1, hs1⟩ := extendCode_succeeds h hM h1 hi h2 k3 hv
      obtain ⟨ex', m', l', g1, -, -, hd, -⟩ := extendCode_does h hM hs1
      simp only
      rw [hs1] at hcode ⊢
      simp only
      exact extendKey_succeeds hcode.ok rfl hM hv ((hcode.may _).mpr k1) (by rw [hd]; exact extendable_extended hM k2)

end Soroban.Host
