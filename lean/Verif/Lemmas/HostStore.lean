import Verif.Model.Host
import Verif.Spec.Host
import Verif.Lemmas.Storage
import Mathlib.Data.List.Forall2
/-! The effect of host functions on storage. -/
namespace Soroban.Host
open Soroban Soroban.Auth Soroban.Storage Soroban.Storage.Spec
export Soroban.Host.Spec (Kept NotEntered topContract Longer)

/-- The ledger that a storage shows. -/
abbrev ledger (E : HEnv) (st : Store LKey LVal) : Ledger LKey LVal := absMap E.sto st.mode st.map

/-- Storage as the host sets it up. -/
structure StOk (E : HEnv) (st : Store LKey LVal) : Prop where
  keys : E.sto.keys = keysOf
  mode : ModeOk E.sto st.mode
  map : MapOk E.sto st.mode st.footprint st.map

/-- Keys whose entries cannot be deleted. -/
def LKey.lasting : LKey → Bool
  | .inst _ => true
  | .code _ => true
  | .data _ (.tag _) .persistent => true
  | _ => false

/-- What an executable refers to is there. -/
def Refers (L : Ledger LKey LVal) : Exec → Prop
  | .wasm h => (L (.code h)).isSome = true
  | .asset => True
  | .ref o t => (L (.data o (.tag t) .persistent)).isSome = true

/-- What contracts can do to the ledger: nonces are never changed once they are there; contract instances, code and executable
tags never go away; executables of contracts and the contents of tags are as before or refer to something that is there;
accounts have no data of their own. -/
structure LLe (E : HEnv) (L L' : Ledger LKey LVal) : Prop where
  nonce : ∀ a n e, L (.nonce a n) = some e → L' (.nonce a n) = some e
  lasting : ∀ k, k.lasting = true → (L k).isSome = true → (L' k).isSome = true
  inst : ∀ c ex m l, L (.inst c) = some (.inst ex m, l) →
    ∃ ex' m' l', L' (.inst c) = some (.inst ex' m', l') ∧ ∀ n, l = some n → ∃ n', l' = some n' ∧ n ≤ n'
  exec : ∀ c ex m l, L' (.inst c) = some (.inst ex m, l) → (∃ m0 l0, L (.inst c) = some (.inst ex m0, l0)) ∨ Refers L' ex
  tag : ∀ a n v l, L' (.data a (.tag n) .persistent) = some (v, l) →
    (∃ l0, L (.data a (.tag n) .persistent) = some (v, l0)) ∨ ∃ b h, v = .data b ∧ E.hashOf b = some h ∧ (L' (.code h)).isSome = true
  account : ∀ a k d, Longer (L (.data (.account a) k d)) (L' (.data (.account a) k d))

theorem longer_refl (e : Option (Entry LVal)) : Longer e e := by
  cases e with
  | none => exact .inl ⟨rfl, rfl⟩
  | some e => exact .inr ⟨e.1, e.2, e.2, rfl, rfl, fun n hn => ⟨n, hn, Nat.le_refl _⟩⟩

theorem longer_trans {e e' e'' : Option (Entry LVal)} (h : Longer e e') (h' : Longer e' e'') : Longer e e'' := by
  rcases h with ⟨h1, h2⟩ | ⟨v, l, l', h1, h2, h3⟩
  · subst h1 h2; exact h'
  · rcases h' with ⟨h4, -⟩ | ⟨v2, l2, l2', h4, h5, h6⟩
    · rw [h4] at h2; cases h2
    · rw [h2] at h4
      cases h4
      refine .inr ⟨v, l, l2', h1, h5, fun n hn => ?_⟩
      obtain ⟨n1, hn1, hle1⟩ := h3 n hn
      obtain ⟨n2, hn2, hle2⟩ := h6 n1 hn1
      exact ⟨n2, hn2, Nat.le_trans hle1 hle2⟩

theorem longer_of {e e' : Entry LVal} (h : e'.1 = e.1) (h' : ∀ n, e.2 = some n → ∃ n', e'.2 = some n' ∧ n ≤ n') :
    Longer (some e) (some e') := .inr ⟨e.1, e.2, e'.2, rfl, by rw [← h], h'⟩

theorem Refers.mono {L L' : Ledger LKey LVal} (h : ∀ k, k.lasting = true → (L k).isSome = true → (L' k).isSome = true) {ex : Exec}
    (hr : Refers L ex) : Refers L' ex := by
  cases ex with
  | wasm c => exact h (.code c) rfl hr
  | asset => trivial
  | ref o t => exact h (.data o (.tag t) .persistent) rfl hr

theorem LLe.refl {E : HEnv} (L : Ledger LKey LVal) : LLe E L L :=
  ⟨fun _ _ _ h => h, fun _ _ h => h, fun _ ex m l h => ⟨ex, m, l, h, fun n hn => ⟨n, hn, Nat.le_refl _⟩⟩,
    fun _ _ m l h => Or.inl ⟨m, l, h⟩, fun _ _ _ l h => Or.inl ⟨l, h⟩, fun _ _ _ => longer_refl _⟩
theorem LLe.trans {E : HEnv} {L L' L'' : Ledger LKey LVal} (h : LLe E L L') (h' : LLe E L' L'') : LLe E L L'' :=
  ⟨fun a n e he => h'.nonce a n e (h.nonce a n e he), fun k hk hs => h'.lasting k hk (h.lasting k hk hs), fun c ex m l hl => by
    obtain ⟨ex1, m1, l1, h1, h2⟩ := h.inst c ex m l hl
    obtain ⟨ex2, m2, l2, h3, h4⟩ := h'.inst c ex1 m1 l1 h1
    refine ⟨ex2, m2, l2, h3, fun n hn => ?_⟩
    obtain ⟨n1, hn1, hle1⟩ := h2 n hn
    obtain ⟨n2, hn2, hle2⟩ := h4 n1 hn1
    exact ⟨n2, hn2, Nat.le_trans hle1 hle2⟩, fun c ex m l hl => by
    rcases h'.exec c ex m l hl with ⟨m0, l0, h0⟩ | hr
    · exact (h.exec c ex m0 l0 h0).imp id (fun hr => hr.mono h'.lasting)
    · exact Or.inr hr, fun a n v l hl => by
    rcases h'.tag a n v l hl with ⟨l0, h0⟩ | hr
    · exact (h.tag a n v l0 h0).imp id (fun ⟨b, c, hb, hc, hs⟩ => ⟨b, c, hb, hc, h'.lasting (.code c) rfl hs⟩)
    · exact Or.inr hr, fun a k d => longer_trans (h.account a k d) (h'.account a k d)⟩

/-- A changed entry still is that of a contract instance, with a lifetime that is not shorter. -/
def KeepsInst (L : Ledger LKey LVal) (k : LKey) (e : Option (Entry LVal)) : Prop :=
  ∀ c, k = .inst c → ∀ ex m l, L k = some (.inst ex m, l) →
    ∃ ex' m' l', e = some (.inst ex' m', l') ∧ ∀ n, l = some n → ∃ n', l' = some n' ∧ n ≤ n'

/-- A changed entry has the executable or the contents of a tag as before, or they refer to something that is there. -/
structure Founded (E : HEnv) (L : Ledger LKey LVal) (k : LKey) (e : Option (Entry LVal)) : Prop where
  exec : ∀ c, k = .inst c → ∀ ex m l, e = some (.inst ex m, l) → (∃ m0 l0, L k = some (.inst ex m0, l0)) ∨ Refers L ex
  tag : ∀ a n, k = .data a (.tag n) .persistent → ∀ v l, e = some (v, l) →
    (∃ l0, L k = some (v, l0)) ∨ ∃ b h, v = .data b ∧ E.hashOf b = some h ∧ (L (.code h)).isSome = true
  own : ∀ a k' d, k = .data (.account a) k' d → Longer (L k) e

theorem LLe.set {E : HEnv} {L : Ledger LKey LVal} {k : LKey} {e : Option (Entry LVal)} (h1 : ∀ a n, k = .nonce a n → L k = none)
    (h2 : k.lasting = true → e.isSome = true) (h3 : KeepsInst L k e) (h4 : Founded E L k e) : LLe E L (L.set k e) := by
  have hlast : ∀ k', k'.lasting = true → (L k').isSome = true → (L.set k e k').isSome = true := by
    intro k' hk hs
    unfold Ledger.set
    by_cases h : k' = k
    · rw [if_pos h]; subst h; exact h2 hk
    · rw [if_neg h]; exact hs
  refine ⟨?_, hlast, fun c ex m l hl => ?_, fun c ex m l hl => ?_, fun a n v l hl => ?_, fun a k' d => ?_⟩
  rotate_left 2
  · by_cases h : LKey.inst c = k
    · have hl' : L.set k e k = some (.inst ex m, l) := by rw [← h]; rw [← h] at hl; exact hl
      unfold Ledger.set at hl'
      rw [if_pos rfl] at hl'
      rw [h]
      exact (h4.exec c h.symm ex m l hl').imp id (fun hr => hr.mono hlast)
    · unfold Ledger.set at hl
      rw [if_neg h] at hl
      exact Or.inl ⟨m, l, hl⟩
  · by_cases h : LKey.data a (.tag n) .persistent = k
    · have hl' : L.set k e k = some (v, l) := by rw [← h]; rw [← h] at hl; exact hl
      unfold Ledger.set at hl'
      rw [if_pos rfl] at hl'
      rw [h]
      exact (h4.tag a n h.symm v l hl').imp id (fun ⟨b, c, hb, hc, hs⟩ => ⟨b, c, hb, hc, hlast (.code c) rfl hs⟩)
    · unfold Ledger.set at hl
      rw [if_neg h] at hl
      exact Or.inl ⟨l, hl⟩
  · unfold Ledger.set
    by_cases h : LKey.data (.account a) k' d = k
    · rw [if_pos h, h]; exact h4.own a k' d h.symm
    · rw [if_neg h]; exact longer_refl _
  · intro a n e' he
    unfold Ledger.set
    rw [if_neg]
    · exact he
    · intro hk; rw [hk, h1 a n hk.symm] at he; cases he
  · unfold Ledger.set
    by_cases h : LKey.inst c = k
    · subst h
      simp only [if_true]
      exact h3 c rfl ex m l hl
    · rw [if_neg h]; exact ⟨ex, m, l, hl, fun n hn => ⟨n, hn, Nat.le_refl _⟩⟩

/-- What contracts can do to the storage. -/
structure SLe (E : HEnv) (st st' : Store LKey LVal) : Prop where
  mode : st'.mode = st.mode
  ok : StOk E st'
  fp : FpLe st.footprint st'.footprint
  fpE : st.mode = .enforcing → st'.footprint = st.footprint
  ledger : LLe E (ledger E st) (ledger E st')
  allowed : Allowed (permOf st.mode st.footprint) (Host.ledger E st) (Host.ledger E st')

theorem SLe.refl {E : HEnv} {st : Store LKey LVal} (h : StOk E st) : SLe E st st := 
  ⟨rfl, h, FpLe.refl _, fun _ => rfl, LLe.refl _, Allowed.refl _ _⟩

theorem SLe.perm {E : HEnv} {st st' : Store LKey LVal} (h : SLe E st st') :
    permOf st'.mode st'.footprint = permOf st.mode st.footprint := by
  rw [h.mode]
  cases hm : st.mode with
  | recording src => rfl
  | enforcing => simp only [permOf]; rw [h.fpE hm]

theorem SLe.trans {E : HEnv} {a b c : Store LKey LVal} (h1 : SLe E a b) (h2 : SLe E b c) : SLe E a c :=
  ⟨h2.mode.trans h1.mode, h2.ok, h1.fp.trans h2.fp, fun h => (h2.fpE (by rw [h1.mode]; exact h)).trans (h1.fpE h),
    h1.ledger.trans h2.ledger, h1.allowed.trans (by rw [← h1.perm]; exact h2.allowed)⟩

theorem SLe.ofMoved {E : HEnv} {st st' : Store LKey LVal} {L : Ledger LKey LVal} (h : StOk E st) (hm : Moved E.sto st st' L)
    (hl : LLe E (Host.ledger E st) L) (ha : Allowed (permOf st.mode st.footprint) (Host.ledger E st) L) : SLe E st st' := by
  refine ⟨hm.mode, ⟨h.keys, ?_, hm.ok⟩, hm.fp, hm.fpE, ?_, ?_⟩
  · rw [hm.mode]; exact h.mode
  · rw [show Host.ledger E st' = L from hm.abs]; exact hl
  · rw [show Host.ledger E st' = L from hm.abs]; exact ha

theorem SLe.ofSame {E : HEnv} {st st' : Store LKey LVal} (h : StOk E st) (hs : Same E.sto st st') : SLe E st st' :=
  SLe.ofMoved h hs.moved (LLe.refl _) (Allowed.refl _ _)

theorem LLe.orElse {E : HEnv} {L : Ledger LKey LVal} {r : Res (Ledger LKey LVal)} (h : ∀ L', r = .ok L' → LLe E L L') :
    LLe E L (Storage.orElse L r) := by
  cases r with
  | ok L' => exact h L' rfl
  | error e => exact LLe.refl L

theorem getEntry_sle {E : HEnv} {st : Store LKey LVal} (h : StOk E st) (k : LKey) : SLe E st (getEntry E.sto st k).1 := by
  obtain ⟨s', h1, h2, _⟩ := getEntry_spec h.mode h.map k
  rw [h2]; exact SLe.ofSame h h1

theorem getEntry_val {E : HEnv} {st : Store LKey LVal} (h : StOk E st) {k : LKey} {e : Entry LVal}
    (hr : (getEntry E.sto st k).2 = .ok e) : ledger E st k = some e ∧ ledger E (getEntry E.sto st k).1 = ledger E st := by
  obtain ⟨s', h1, h2, _⟩ := getEntry_spec h.mode h.map k
  rw [h2] at hr ⊢
  exact ⟨(getAt_ok hr).1, h1.abs⟩

theorem getEntry_live {E : HEnv} {st : Store LKey LVal} (h : StOk E st) {k : LKey} {e : Entry LVal}
    (hr : (getEntry E.sto st k).2 = .ok e) : LiveEntry E.sto k (some e) := by
  have := absMap_live h.mode h.map k
  rw [show absMap E.sto st.mode st.map k = some e from (getEntry_val h hr).1] at this
  exact this

theorem getEntry_ledger {E : HEnv} {st : Store LKey LVal} (h : StOk E st) (k : LKey) :
    ledger E (getEntry E.sto st k).1 = ledger E st := by
  obtain ⟨s', h1, h2, _⟩ := getEntry_spec h.mode h.map k
  rw [h2]; exact h1.abs

theorem has_sle {E : HEnv} {st : Store LKey LVal} (h : StOk E st) (k : LKey) : SLe E st (has E.sto st k).1 := by
  obtain ⟨s', h1, h2, _⟩ := has_spec h.mode h.map k
  rw [h2]; exact SLe.ofSame h h1

theorem has_ledger {E : HEnv} {st : Store LKey LVal} (h : StOk E st) (k : LKey) :
    ledger E (has E.sto st k).1 = ledger E st := by
  obtain ⟨s', h1, h2, _⟩ := has_spec h.mode h.map k
  rw [h2]; exact h1.abs

theorem has_val {E : HEnv} {st : Store LKey LVal} (h : StOk E st) {k : LKey} {b : Bool}
    (hr : (has E.sto st k).2 = .ok b) : (ledger E st k).isSome = b := by
  obtain ⟨s', h1, h2, _⟩ := has_spec h.mode h.map k
  rw [h2] at hr
  simp only [readAt] at hr
  split at hr
  · rename_i e he
    split at he
    · split at he
      · cases he; cases hr; rfl
      · cases he
    · cases he
  · cases hr

theorem putOpt_ledger {E : HEnv} {st : Store LKey LVal} (h : StOk E st) {k : LKey} {e : Option (Entry LVal)}
    (he : LiveEntry E.sto k e) :
    ((putOpt E.sto st k e).2 = .ok () ∧ ledger E (putOpt E.sto st k e).1 = (ledger E st).set k e) ∨
    ((∃ err, (putOpt E.sto st k e).2 = .error err) ∧ ledger E (putOpt E.sto st k e).1 = ledger E st) := by
  obtain ⟨s', h1, h2, _⟩ := putOpt_spec h.map k he
  rw [h2]
  have h3 : ledger E s' = _ := h1.abs
  simp only [h3]
  generalize hw : writeAt E.sto (permOf st.mode st.footprint) (absMap E.sto st.mode st.map) k e = w
  cases w with
  | error err => exact Or.inr ⟨⟨err, rfl⟩, rfl⟩
  | ok L =>
    left
    refine ⟨rfl, ?_⟩
    unfold writeAt at hw
    split at hw
    · split at hw
      · cases hw
      · split at hw
        · cases hw; rfl
        · cases hw
    · cases hw

theorem putOpt_sle {E : HEnv} {st : Store LKey LVal} (h : StOk E st) {k : LKey} {e : Option (Entry LVal)}
    (he : LiveEntry E.sto k e) (h1 : ∀ a n, k = .nonce a n → ledger E st k = none)
    (h2 : k.lasting = true → e.isSome = true) (h3 : KeepsInst (ledger E st) k e) (h4 : Founded E (ledger E st) k e) :
    SLe E st (putOpt E.sto st k e).1 := by
  obtain ⟨s', hm, hp, _⟩ := putOpt_spec h.map k he
  have hs : (putOpt E.sto st k e).1 = s' := by rw [hp]
  rw [hs]
  refine SLe.ofMoved h hm ?_ (Allowed.orElse (fun L' hL => writeAt_allowed hL))
  have hl := hm.abs
  rw [← hl]
  rcases putOpt_ledger h he with ⟨_, hL⟩ | ⟨_, hL⟩
  · rw [hs] at hL
    rw [show absMap E.sto s'.mode s'.map = _ from hL]
    exact LLe.set h1 h2 h3 h4
  · rw [hs] at hL
    rw [show absMap E.sto s'.mode s'.map = _ from hL]
    exact LLe.refl _

theorem write_sle {E : HEnv} {st : Store LKey LVal} (h : StOk E st) {k : LKey} (u : Option LVal → LVal)
    (h1 : ∀ a n, k ≠ .nonce a n) (h2 : ∀ c, k ≠ .inst c)
    (h3 : ∀ a n, k = .data a (.tag n) .persistent → ∀ o, ∃ b h, u o = .data b ∧ E.hashOf b = some h ∧
      (ledger E st (.code h)).isSome = true)
    (h4 : ∀ a k' d, k ≠ .data (.account a) k' d) :
    SLe E st (Storage.write E.sto st k u).1 := by
  obtain ⟨s', hm, hp, _⟩ := write_spec h.mode h.map k u
  rw [hp]
  refine SLe.ofMoved h hm (LLe.orElse ?_) (Allowed.orElse (fun L' hL => updateAt_allowed hL))
  intro L' hL
  have aux : ∀ e : Entry LVal, (∃ o, e.1 = u o) →
      writeAt E.sto (permOf st.mode st.footprint) (absMap E.sto st.mode st.map) k (some e) = .ok L' →
      LLe E (Host.ledger E st) L' := by
    intro e hu hw
    unfold writeAt at hw
    split at hw
    · split at hw
      · cases hw
      · split at hw
        · cases hw
          refine LLe.set (fun a n hk => absurd hk (h1 a n)) (fun _ => rfl) (fun c hc => absurd hc (h2 c))
            ⟨fun c hc => absurd hc (h2 c), fun a n hk v l he => Or.inr ?_, fun a k' d hk => absurd hk (h4 a k' d)⟩
          obtain ⟨o, ho⟩ := hu
          cases he
          obtain ⟨b, c, hb, hc⟩ := h3 a n hk o
          exact ⟨b, c, ho.trans hb, hc⟩
        · cases hw
    · cases hw
  unfold updateAt at hL
  split at hL
  · cases hL
  · exact aux _ ⟨_, rfl⟩ hL
  · split at hL
    · cases hL
    · exact aux _ ⟨_, rfl⟩ hL

theorem extendAt_lle {E : HEnv} {p : LKey → Access → Bool} {L L' : Ledger LKey LVal} {k : LKey}
    {f : Entry LVal → Res (Entry LVal)} (h1 : ∀ a n, k ≠ .nonce a n)
    (hf : ∀ e e', f e = .ok e' → e'.1 = e.1 ∧ ∀ n, e.2 = some n → ∃ n', e'.2 = some n' ∧ n ≤ n')
    (h : extendAt E.sto p L k f = .ok L') : LLe E L L' := by
  unfold extendAt at h
  split at h
  · cases h
  · rename_i e he
    split at h
    · cases h
    · rename_i e' he'
      cases h
      have hL := (getAt_ok he).1
      refine LLe.set (fun a n hk => absurd hk (h1 a n)) (fun _ => rfl) (fun c hc ex m l hl => ?_)
        ⟨fun c hc ex m l hl => ?_, fun a n hk v l hl => ?_, fun _ _ _ _ => by
          rw [hL]; exact longer_of (hf e e' he').1 (hf e e' he').2⟩
      rotate_left
      · obtain ⟨h2, -⟩ := hf e e' he'
        cases hl
        exact Or.inl ⟨m, e.2, by rw [hL, show (LVal.inst ex m, e.2) = e from Prod.ext h2 rfl]⟩
      · obtain ⟨h2, -⟩ := hf e e' he'
        cases hl
        exact Or.inl ⟨e.2, by rw [hL, show (v, e.2) = e from Prod.ext h2 rfl]⟩
      obtain ⟨h2, h3⟩ := hf e e' he'
      rw [(getAt_ok he).1] at hl
      cases hl
      simp only at h2
      exact ⟨ex, m, e'.2, by rw [← h2], h3⟩

theorem extendInfo_old {E : HEnv} {k : LKey} {x n : Nat} {v : LVal} {i : ExtInfo LVal} (hi : extendInfo E.sto k x v (some n) = .ok i) :
    i.oldLiveUntil = n := by
  unfold extendInfo at hi
  simp only at hi
  split at hi
  · cases hi
  · split at hi
    · cases hi
    · split at hi
      · cases hi
      · split at hi <;> cases hi
        rfl

theorem extended_longer {E : HEnv} {k : LKey} {t x : Nat} {e e' : Entry LVal} (h : extended E.sto k t x e = .ok e') :
    e'.1 = e.1 ∧ ∀ n, e.2 = some n → ∃ n', e'.2 = some n' ∧ n ≤ n' := by
  refine ⟨extended_value h, fun n hn => ?_⟩
  unfold extended at h
  cases hi : extendInfo E.sto k x e.1 e.2 with
  | error err => rw [hi] at h; cases h
  | ok i =>
    have ho : i.oldLiveUntil = n := by rw [hn] at hi; exact extendInfo_old hi
    rw [hi] at h
    simp only at h
    split at h
    · cases h
    · split at h
      · cases h; rename_i hc; exact ⟨_, rfl, by omega⟩
      · cases h; exact ⟨n, hn, Nat.le_refl _⟩

theorem extendedV2_longer {E : HEnv} {k : LKey} {x a b : Nat} {e e' : Entry LVal} (h : extendedV2 E.sto k x a b e = .ok e') :
    e'.1 = e.1 ∧ ∀ n, e.2 = some n → ∃ n', e'.2 = some n' ∧ n ≤ n' := by
  refine ⟨extendedV2_value h, fun n hn => ?_⟩
  unfold extendedV2 at h
  cases hi : extendInfo E.sto k x e.1 e.2 with
  | error err => rw [hi] at h; cases h
  | ok i =>
    have ho : i.oldLiveUntil = n := by rw [hn] at hi; exact extendInfo_old hi
    rw [hi] at h
    simp only at h
    split at h
    · cases h; exact ⟨n, hn, Nat.le_refl _⟩
    · split at h
      · cases h
      · split at h
        · cases h; exact ⟨n, hn, Nat.le_refl _⟩
        · cases h; exact ⟨_, rfl, by omega⟩

theorem extendTtl_sle {E : HEnv} {st : Store LKey LVal} (h : StOk E st) {k : LKey} (t x : Nat)
    (h1 : ∀ a n, k ≠ .nonce a n) : SLe E st (extendTtl E.sto st k t x).1 := by
  by_cases htx : t > x
  · have : extendTtl E.sto st k t x = (st, .error (.host .storage .invalidInput)) := by unfold extendTtl; rw [if_pos htx]
    rw [this]; exact SLe.refl h
  · obtain ⟨s', hm, hp, _⟩ := extendTtl_spec h.mode h.map k t x htx
    rw [hp]
    exact SLe.ofMoved h hm (LLe.orElse (fun L' hL => extendAt_lle h1 (fun _ _ he => extended_longer he) hL))
      (Allowed.orElse (fun L' hL => extendAt_allowed (fun _ _ he => extended_value he) hL))

theorem extendTtlV2_sle {E : HEnv} {st : Store LKey LVal} (h : StOk E st) {k : LKey} (x a b : Nat)
    (h1 : ∀ a n, k ≠ .nonce a n) : SLe E st (extendTtlV2 E.sto st k x a b).1 := by
  by_cases hab : b < a
  · have : extendTtlV2 E.sto st k x a b = (st, .error (.host .storage .invalidInput)) := by unfold extendTtlV2; rw [if_pos hab]
    rw [this]; exact SLe.refl h
  · obtain ⟨s', hm, hp, _⟩ := extendTtlV2_spec h.mode h.map k x a b hab
    rw [hp]
    exact SLe.ofMoved h hm (LLe.orElse (fun L' hL => extendAt_lle h1 (fun _ _ he => extendedV2_longer he) hL))
      (Allowed.orElse (fun L' hL => extendAt_allowed (fun _ _ he => extendedV2_value he) hL))

/-! ### what is kept of a contract -/

theorem keptRefl (c : Nat) (L : Ledger LKey LVal) : Kept c L L :=
  ⟨fun _ _ => rfl, fun _ _ => longer_refl _, fun _ _ l h => ⟨l, h, fun n hn => ⟨n, hn, Nat.le_refl _⟩⟩, fun h => Or.inl h⟩

theorem keptTrans {c : Nat} {L L' L'' : Ledger LKey LVal} (h : Kept c L L') (h' : Kept c L' L'') : Kept c L L'' := by
  refine ⟨fun k d => (h'.data k d).trans (h.data k d), fun n d => longer_trans (h.tag n d) (h'.tag n d), fun ex m l hl => ?_, fun hn => ?_⟩
  · obtain ⟨l1, h1, h2⟩ := h.inst ex m l hl
    obtain ⟨l2, h3, h4⟩ := h'.inst ex m l1 h1
    refine ⟨l2, h3, fun n hn => ?_⟩
    obtain ⟨n1, hn1, hle1⟩ := h2 n hn
    obtain ⟨n2, hn2, hle2⟩ := h4 n1 hn1
    exact ⟨n2, hn2, Nat.le_trans hle1 hle2⟩
  · rcases h.none hn with h1 | ⟨ex, l, h1⟩
    · exact h'.none h1
    · obtain ⟨l2, h3, _⟩ := h'.inst ex [] l h1
      exact Or.inr ⟨ex, l2, h3⟩

/-- The contract a key belongs to. -/
def LKey.contract : LKey → Option Nat
  | .data (.contract c) _ _ => some c
  | .inst c => some c
  | _ => none

/-- Changing an entry that does not belong to the contract. -/
theorem kept_set {c : Nat} {L : Ledger LKey LVal} {k : LKey} {e : Option (Entry LVal)} (h : k.contract ≠ some c) : Kept c L (L.set k e) := by
  have h1 : ∀ k', k'.contract = some c → (L.set k e) k' = L k' := by
    intro k' hk; unfold Ledger.set; rw [if_neg]; intro he; rw [he] at hk; exact h hk
  refine ⟨fun k' d => h1 _ rfl, fun n d => by rw [h1 _ rfl]; exact longer_refl _, fun ex m l hl => ⟨l, by rw [h1 _ rfl]; exact hl, fun n hn => ⟨n, hn, Nat.le_refl _⟩⟩, fun hn => ?_⟩
  left; rw [h1 _ rfl]; exact hn

theorem kept_set_inst {c c' : Nat} {L : Ledger LKey LVal} {e : Option (Entry LVal)} (h : c' ≠ c) : Kept c L (L.set (.inst c') e) :=
  kept_set (by intro he; cases he; exact h rfl)

/-- Giving a contract that has none an instance with empty storage. -/
theorem kept_new {c : Nat} {L : Ledger LKey LVal} (ex : Exec) (l : Option Nat) (h : L (.inst c) = none) :
    Kept c L (L.set (.inst c) (some (.inst ex [], l))) := by
  refine ⟨fun k' d => ?_, fun n d => ?_, fun ex' m l' hl => ?_, fun _ => Or.inr ⟨ex, l, ?_⟩⟩
  · unfold Ledger.set; rw [if_neg]; intro he; cases he
  · unfold Ledger.set; rw [if_neg (by intro he; cases he)]; exact longer_refl _
  · rw [h] at hl; cases hl
  · unfold Ledger.set; rw [if_pos rfl]

theorem kept_orElse {c : Nat} {L : Ledger LKey LVal} {r : Res (Ledger LKey LVal)} (h : ∀ L', r = .ok L' → Kept c L L') :
    Kept c L (Storage.orElse L r) := by
  cases r with
  | ok L' => exact h L' rfl
  | error e => exact keptRefl c L

theorem putOpt_kept {E : HEnv} {st : Store LKey LVal} (h : StOk E st) {k : LKey} {e : Option (Entry LVal)}
    (he : LiveEntry E.sto k e) {c : Nat} (hk : Kept c (ledger E st) ((ledger E st).set k e)) :
    Kept c (ledger E st) (ledger E (putOpt E.sto st k e).1) := by
  rcases putOpt_ledger h he with ⟨_, hL⟩ | ⟨_, hL⟩
  · rw [hL]; exact hk
  · rw [hL]; exact keptRefl c _

theorem write_kept {E : HEnv} {st : Store LKey LVal} (h : StOk E st) {k : LKey} (u : Option LVal → LVal) {c : Nat}
    (hk : k.contract ≠ some c) : Kept c (ledger E st) (ledger E (Storage.write E.sto st k u).1) := by
  obtain ⟨s', hm, hp, _⟩ := write_spec h.mode h.map k u
  rw [hp, show ledger E s' = _ from hm.abs]
  refine kept_orElse (fun L' hL => ?_)
  have aux : ∀ e, writeAt E.sto (permOf st.mode st.footprint) (absMap E.sto st.mode st.map) k (some e) = .ok L' →
      Kept c (Host.ledger E st) L' := by
    intro e hw
    unfold writeAt at hw
    split at hw
    · split at hw
      · cases hw
      · split at hw
        · cases hw; exact kept_set hk
        · cases hw
    · cases hw
  unfold updateAt at hL
  split at hL
  · cases hL
  · exact aux _ hL
  · split at hL
    · cases hL
    · exact aux _ hL

/-- A longer lifetime. -/
theorem kept_extend {E : HEnv} {p : LKey → Access → Bool} {L L' : Ledger LKey LVal} {k : LKey}
    {f : Entry LVal → Res (Entry LVal)} {c : Nat} (hk : ∀ n d, k ≠ .data (.contract c) (.val n) d)
    (hf : ∀ e e', f e = .ok e' → e'.1 = e.1 ∧ ∀ n, e.2 = some n → ∃ n', e'.2 = some n' ∧ n ≤ n')
    (h : extendAt E.sto p L k f = .ok L') : Kept c L L' := by
  unfold extendAt at h
  split at h
  · cases h
  · rename_i e he
    split at h
    · cases h
    · rename_i e' he'
      cases h
      obtain ⟨h1, h2⟩ := hf e e' he'
      have hL := (getAt_ok he).1
      by_cases hkc : k = .inst c
      · subst hkc
        refine ⟨fun k' d => ?_, fun n d => ?_, fun ex m l hl => ?_, fun hn => ?_⟩
        · unfold Ledger.set; rw [if_neg]; intro he; cases he
        · unfold Ledger.set; rw [if_neg (by intro he; cases he)]; exact longer_refl _
        · rw [hL] at hl
          cases hl
          refine ⟨e'.2, ?_, h2⟩
          unfold Ledger.set; rw [if_pos rfl]; simp only at h1; rw [← h1]
        · rw [hL] at hn; cases hn
      · by_cases hkt : ∃ n d, k = .data (.contract c) (.tag n) d
        · obtain ⟨n, d, rfl⟩ := hkt
          have h3 : ∀ k', k' ≠ .data (.contract c) (.tag n) d →
              (L.set (.data (.contract c) (.tag n) d) (some e')) k' = L k' := by
            intro k' hk'; unfold Ledger.set; rw [if_neg hk']
          refine ⟨fun k' d' => h3 _ (by intro he; cases he), fun n' d' => ?_, fun ex m l hl => ⟨l, ?_, fun n hn => ⟨n, hn, Nat.le_refl _⟩⟩,
            fun hn => .inl ?_⟩
          · by_cases he : LKey.data (.contract c) (.tag n') d' = .data (.contract c) (.tag n) d
            · rw [he, hL]; unfold Ledger.set; rw [if_pos rfl]; exact longer_of h1 h2
            · rw [h3 _ he]; exact longer_refl _
          · rw [h3 _ (by intro he; cases he)]; exact hl
          · rw [h3 _ (by intro he; cases he)]; exact hn
        refine kept_set (fun hc => ?_)
        cases k with
        | data a k' d => cases a with
          | contract c' => cases hc; cases k' with
            | val n => exact hk _ _ rfl
            | tag n => exact hkt ⟨_, _, rfl⟩
          | account i => cases hc
        | inst c' => cases hc; exact hkc rfl
        | code _ => cases hc
        | nonce _ _ => cases hc
        | account _ => cases hc
        | classic _ => cases hc

theorem extendTtl_kept {E : HEnv} {st : Store LKey LVal} (h : StOk E st) {k : LKey} (t x : Nat) {c : Nat}
    (hk : ∀ n d, k ≠ .data (.contract c) (.val n) d) : Kept c (ledger E st) (ledger E (extendTtl E.sto st k t x).1) := by
  by_cases htx : t > x
  · have : extendTtl E.sto st k t x = (st, .error (.host .storage .invalidInput)) := by unfold extendTtl; rw [if_pos htx]
    rw [this]; exact keptRefl c _
  · obtain ⟨s', hm, hp, _⟩ := extendTtl_spec h.mode h.map k t x htx
    rw [hp, show ledger E s' = _ from hm.abs]
    exact kept_orElse (fun L' hL => kept_extend hk (fun e e' he => extended_longer he) hL)

theorem extendTtlV2_kept {E : HEnv} {st : Store LKey LVal} (h : StOk E st) {k : LKey} (x a b : Nat) {c : Nat}
    (hk : ∀ n d, k ≠ .data (.contract c) (.val n) d) : Kept c (ledger E st) (ledger E (extendTtlV2 E.sto st k x a b).1) := by
  by_cases hab : b < a
  · have : extendTtlV2 E.sto st k x a b = (st, .error (.host .storage .invalidInput)) := by unfold extendTtlV2; rw [if_pos hab]
    rw [this]; exact keptRefl c _
  · obtain ⟨s', hm, hp, _⟩ := extendTtlV2_spec h.mode h.map k x a b hab
    rw [hp, show ledger E s' = _ from hm.abs]
    exact kept_orElse (fun L' hL => kept_extend hk (fun e e' he => extendedV2_longer he) hL)

/-! ### instance storage -/

/-- Contract instances have the same storage. -/
def MWeak (L L' : Ledger LKey LVal) : Prop :=
  ∀ c ex m l, L (.inst c) = some (.inst ex m, l) → ∃ ex' l', L' (.inst c) = some (.inst ex' m, l')

/-- Contract instances have the same executable. -/
def XSame (L L' : Ledger LKey LVal) : Prop :=
  ∀ c ex m l, L (.inst c) = some (.inst ex m, l) → ∃ m' l', L' (.inst c) = some (.inst ex m', l')

/-- Contract instances have the same executable and storage. -/
def MSame (L L' : Ledger LKey LVal) : Prop :=
  ∀ c ex m l, L (.inst c) = some (.inst ex m, l) → ∃ l', L' (.inst c) = some (.inst ex m, l')

theorem MSame.weak {L L' : Ledger LKey LVal} (h : MSame L L') : MWeak L L' := fun c ex m l hl => ⟨ex, h c ex m l hl⟩
theorem MSame.execs {L L' : Ledger LKey LVal} (h : MSame L L') : XSame L L' := fun c ex m l hl => ⟨m, h c ex m l hl⟩
theorem XSame.refl (L : Ledger LKey LVal) : XSame L L := fun _ _ m l h => ⟨m, l, h⟩

theorem MSame.refl (L : Ledger LKey LVal) : MSame L L := fun _ _ _ l h => ⟨l, h⟩
theorem MSame.trans {L L' L'' : Ledger LKey LVal} (h : MSame L L') (h' : MSame L' L'') : MSame L L'' := fun c ex m l hl => by
  obtain ⟨l1, h1⟩ := h c ex m l hl
  exact h' c ex m l1 h1

/-- Keys other than those of contract instances. -/
theorem MSame.set {L : Ledger LKey LVal} {k : LKey} {e : Option (Entry LVal)} (hk : ∀ c, k ≠ .inst c) : MSame L (L.set k e) := fun c ex m l hl =>
  ⟨l, by unfold Ledger.set; rw [if_neg (fun h => hk c h.symm)]; exact hl⟩

theorem MSame.setInst {L : Ledger LKey LVal} {c : Nat} {e : Option (Entry LVal)}
    (h : ∀ ex m l, L (.inst c) = some (.inst ex m, l) → ∃ l', e = some (.inst ex m, l')) : MSame L (L.set (.inst c) e) := fun c' ex m l hl => by
  unfold Ledger.set
  by_cases hc : c' = c
  · subst hc; rw [if_pos rfl]; exact h ex m l hl
  · rw [if_neg (fun h => by cases h; exact hc rfl)]; exact ⟨l, hl⟩

theorem msame_orElse {L : Ledger LKey LVal} {r : Res (Ledger LKey LVal)} (h : ∀ L', r = .ok L' → MSame L L') :
    MSame L (Storage.orElse L r) := by
  cases r with
  | ok L' => exact h L' rfl
  | error e => exact MSame.refl L

theorem putOpt_msame {E : HEnv} {st : Store LKey LVal} (h : StOk E st) {k : LKey} {e : Option (Entry LVal)}
    (he : LiveEntry E.sto k e) (hk : MSame (ledger E st) ((ledger E st).set k e)) :
    MSame (ledger E st) (ledger E (putOpt E.sto st k e).1) := by
  rcases putOpt_ledger h he with ⟨_, hL⟩ | ⟨_, hL⟩
  · rw [hL]; exact hk
  · rw [hL]; exact MSame.refl _

theorem write_msame {E : HEnv} {st : Store LKey LVal} (h : StOk E st) {k : LKey} (u : Option LVal → LVal)
    (hk : ∀ c, k ≠ .inst c) : MSame (ledger E st) (ledger E (Storage.write E.sto st k u).1) := by
  obtain ⟨s', hm, hp, _⟩ := write_spec h.mode h.map k u
  rw [hp, show ledger E s' = _ from hm.abs]
  refine msame_orElse (fun L' hL => ?_)
  have aux : ∀ e, writeAt E.sto (permOf st.mode st.footprint) (absMap E.sto st.mode st.map) k (some e) = .ok L' →
      MSame (Host.ledger E st) L' := by
    intro e hw
    unfold writeAt at hw
    split at hw
    · split at hw
      · cases hw
      · split at hw
        · cases hw; exact MSame.set hk
        · cases hw
    · cases hw
  unfold updateAt at hL
  split at hL
  · cases hL
  · exact aux _ hL
  · split at hL
    · cases hL
    · exact aux _ hL

theorem extend_msame {E : HEnv} {p : LKey → Access → Bool} {L L' : Ledger LKey LVal} {k : LKey}
    {f : Entry LVal → Res (Entry LVal)} (hf : ∀ e e', f e = .ok e' → e'.1 = e.1)
    (h : extendAt E.sto p L k f = .ok L') : MSame L L' := by
  unfold extendAt at h
  split at h
  · cases h
  · rename_i e he
    split at h
    · cases h
    · rename_i e' he'
      cases h
      have h1 := hf e e' he'
      have hL := (getAt_ok he).1
      by_cases hk : ∃ c, k = .inst c
      · obtain ⟨c, rfl⟩ := hk
        refine MSame.setInst (fun ex m l hl => ?_)
        rw [hL] at hl
        cases hl
        exact ⟨e'.2, by simp only at h1; rw [← h1]⟩
      · exact MSame.set (fun c hc => hk ⟨c, hc⟩)

theorem extendTtl_msame {E : HEnv} {st : Store LKey LVal} (h : StOk E st) (k : LKey) (t x : Nat) :
    MSame (ledger E st) (ledger E (extendTtl E.sto st k t x).1) := by
  by_cases htx : t > x
  · have : extendTtl E.sto st k t x = (st, .error (.host .storage .invalidInput)) := by unfold extendTtl; rw [if_pos htx]
    rw [this]; exact MSame.refl _
  · obtain ⟨s', hm, hp, _⟩ := extendTtl_spec h.mode h.map k t x htx
    rw [hp, show ledger E s' = _ from hm.abs]
    exact msame_orElse (fun L' hL => extend_msame (fun e e' he => (extended_longer he).1) hL)

theorem extendTtlV2_msame {E : HEnv} {st : Store LKey LVal} (h : StOk E st) (k : LKey) (x a b : Nat) :
    MSame (ledger E st) (ledger E (extendTtlV2 E.sto st k x a b).1) := by
  by_cases hab : b < a
  · have : extendTtlV2 E.sto st k x a b = (st, .error (.host .storage .invalidInput)) := by unfold extendTtlV2; rw [if_pos hab]
    rw [this]; exact MSame.refl _
  · obtain ⟨s', hm, hp, _⟩ := extendTtlV2_spec h.mode h.map k x a b hab
    rw [hp, show ledger E s' = _ from hm.abs]
    exact msame_orElse (fun L' hL => extend_msame (fun e e' he => (extendedV2_longer he).1) hL)

/-! ### host functions that only change the storage -/

/-- Only the storage differs. -/
structure OnlySt0 (E : HEnv) (s s' : Host) : Prop where
  rest : s' = { s with st := s'.st }
  st : SLe E s.st s'.st
  iso : ∀ c, topContract s.ctx ≠ some c → Kept c (ledger E s.st) (ledger E s'.st)

/-- Only the storage differs, and no instance has changed in it. -/
structure OnlySt (E : HEnv) (s s' : Host) : Prop extends OnlySt0 E s s' where
  same : MSame (ledger E s.st) (ledger E s'.st)

theorem OnlySt.refl {E : HEnv} {s : Host} (h : StOk E s.st) : OnlySt E s s :=
  ⟨⟨rfl, SLe.refl h, fun c _ => keptRefl c _⟩, MSame.refl _⟩
theorem OnlySt0.trans {E : HEnv} {a b c : Host} (h1 : OnlySt0 E a b) (h2 : OnlySt0 E b c) : OnlySt0 E a c :=
  ⟨by rw [h2.rest, h1.rest], h1.st.trans h2.st,
    fun c hc => keptTrans (h1.iso c hc) (h2.iso c (by rw [h1.rest]; exact hc))⟩
theorem OnlySt.trans {E : HEnv} {a b c : Host} (h1 : OnlySt E a b) (h2 : OnlySt E b c) : OnlySt E a c :=
  ⟨h1.toOnlySt0.trans h2.toOnlySt0, h1.same.trans h2.same⟩

theorem OnlySt0.ok {E : HEnv} {s s' : Host} (h : OnlySt0 E s s') : StOk E s'.st := h.st.ok

theorem OnlySt0.ctx {E : HEnv} {s s' : Host} (h : OnlySt0 E s s') : s'.ctx = s.ctx := by rw [h.rest]
theorem OnlySt0.auth {E : HEnv} {s s' : Host} (h : OnlySt0 E s s') : s'.auth = s.auth := by rw [h.rest]
theorem OnlySt0.fatal {E : HEnv} {s s' : Host} (h : OnlySt0 E s s') : s'.fatal = s.fatal := by rw [h.rest]
theorem OnlySt0.events {E : HEnv} {s s' : Host} (h : OnlySt0 E s s') : s'.events = s.events := by rw [h.rest]
theorem OnlySt0.trace {E : HEnv} {s s' : Host} (h : OnlySt0 E s s') : s'.trace = s.trace := by rw [h.rest]

theorem liftSt_only {E : HEnv} {α : Type} {s : Host} {f : Store LKey LVal → Store LKey LVal × Res α} (h : SLe E s.st (f s.st).1)
    (hi : ∀ c, topContract s.ctx ≠ some c → Kept c (ledger E s.st) (ledger E (f s.st).1))
    (hm : MSame (ledger E s.st) (ledger E (f s.st).1)) :
    OnlySt E s (liftSt s f).1 := ⟨⟨rfl, h, hi⟩, hm⟩

theorem liftSt_read {E : HEnv} {α : Type} {s : Host} {f : Store LKey LVal → Store LKey LVal × Res α} (h : SLe E s.st (f s.st).1)
    (hl : ledger E (f s.st).1 = ledger E s.st) : OnlySt E s (liftSt s f).1 :=
  ⟨⟨rfl, h, fun c _ => by
    have : ledger E (liftSt s f).1.st = ledger E s.st := hl
    rw [this]; exact keptRefl c _⟩, by
    have : ledger E (liftSt s f).1.st = ledger E s.st := hl
    rw [this]; exact MSame.refl _⟩

theorem getInstance_only {E : HEnv} {s : Host} (h : StOk E s.st) (c : Nat) : OnlySt E s (getInstance E s c).1 := by
  have h1 : OnlySt E s (liftSt s (fun st => getEntry E.sto st (.inst c))).1 := liftSt_read (getEntry_sle h _) (getEntry_ledger h _)
  unfold getInstance
  split
  all_goals (rename_i heq; rw [heq] at h1; exact h1)

theorem getInstance_ledger {E : HEnv} {s : Host} (h : StOk E s.st) (c : Nat) :
    ledger E (getInstance E s c).1.st = ledger E s.st := by
  have h1 : ledger E (liftSt s (fun st => getEntry E.sto st (.inst c))).1.st = ledger E s.st := getEntry_ledger h _
  unfold getInstance
  split
  all_goals (rename_i heq; rw [heq] at h1; exact h1)

theorem inst_not_nonce (c : Nat) : ∀ a n, LKey.inst c ≠ .nonce a n := fun _ _ h => by cases h
theorem code_not_nonce (c : Nat) : ∀ a n, LKey.code c ≠ .nonce a n := fun _ _ h => by cases h

/-- The storage of the instance that is stored: the given one, or the one it had. -/
def InstSet (L L' : Ledger LKey LVal) (c : Nat) (x : Option Exec) (m : Option (FMap Nat Nat)) : Prop :=
  (∀ c' ex m0 l, c' ≠ c → L (.inst c') = some (.inst ex m0, l) → ∃ l', L' (.inst c') = some (.inst ex m0, l')) ∧
  (∀ ex m0 l, L (.inst c) = some (.inst ex m0, l) → ∃ l', L' (.inst c) = some (.inst (x.getD ex) (m.getD m0), l')) ∧
  (∀ m1, m = some m1 → ∃ ex' l', L' (.inst c) = some (.inst ex' m1, l'))

theorem InstSet.none {L L' : Ledger LKey LVal} {c : Nat} {x : Option Exec} (h : InstSet L L' c x Option.none) : MWeak L L' :=
  fun c' ex m l hl => by
  by_cases hc : c' = c
  · subst hc; exact ⟨_, h.2.1 ex m l hl⟩
  · exact ⟨_, h.1 c' ex m l hc hl⟩

theorem InstSet.execs {L L' : Ledger LKey LVal} {c : Nat} {m : Option (FMap Nat Nat)} (h : InstSet L L' c Option.none m) : XSame L L' :=
  fun c' ex m l hl => by
  by_cases hc : c' = c
  · subst hc; exact ⟨_, h.2.1 ex m l hl⟩
  · exact ⟨_, h.1 c' ex m l hc hl⟩

theorem InstSet.before {L L1 L2 : Ledger LKey LVal} {c : Nat} {x : Option Exec} {m : Option (FMap Nat Nat)} (h : L1 = L)
    (h' : InstSet L1 L2 c x m) : InstSet L L2 c x m := by
  rw [h] at h'; exact h'

theorem storeInstance_only0 {E : HEnv} {s : Host} (h : StOk E s.st) (ex : Option Exec) (m : Option (FMap Nat Nat)) (c : Nat)
    (hw : topContract s.ctx = some c ∨ (ledger E s.st (.inst c) = none ∧ m.getD [] = []))
    (hex : ∀ x, ex = some x → Refers (ledger E s.st) x) :
    OnlySt0 E s (storeInstance E s ex m c).1 ∧
    ((storeInstance E s ex m c).2 = .ok () → InstSet (ledger E s.st) (ledger E (storeInstance E s ex m c).1.st) c ex m) ∧
    (∀ e, (storeInstance E s ex m c).2 = .error e → MSame (ledger E s.st) (ledger E (storeInstance E s ex m c).1.st)) := by
  have h1 : OnlySt E s (liftSt s (fun st => has E.sto st (.inst c))).1 := liftSt_read (has_sle h _) (has_ledger h _)
  have failed : ∀ (s' : Host) (e : Err), OnlySt E s s' → OnlySt0 E s s' ∧ ((Except.error e : Res Unit) = .ok () → InstSet (ledger E s.st) (ledger E s'.st) c ex m) ∧
      (∀ e', (Except.error e : Res Unit) = .error e' → MSame (ledger E s.st) (ledger E s'.st)) :=
    fun s' e h => ⟨h.toOnlySt0, fun h => (by cases h), fun _ _ => h.same⟩
  unfold storeInstance
  split
  · rename_i heq; rw [heq] at h1; exact failed _ _ h1
  · rename_i s1 heq
    have hled1 : ledger E s1.st = ledger E s.st := by
      have h3 := congrArg (fun r => ledger E r.1.st) heq
      exact h3.symm.trans (has_ledger h _)
    rw [heq] at h1
    have h2 : OnlySt E s1 (liftSt s1 (fun st => getEntry E.sto st (.inst c))).1 := liftSt_read (getEntry_sle h1.ok _) (getEntry_ledger h1.ok _)
    split
    · rename_i heq2; rw [heq2] at h2; exact failed _ _ (h1.trans h2)
    · rename_i s2 v l heq2
      have hlive : LiveEntry E.sto (.inst c) (some (v, l)) := by
        apply getEntry_live h1.ok
        have := congrArg Prod.snd heq2
        exact this
      have hled2' : ledger E s2.st = ledger E s1.st := by
        have h3 := congrArg (fun r => ledger E r.1.st) heq2
        exact h3.symm.trans (getEntry_ledger h1.ok _)
      have hled2 : ledger E s2.st (.inst c) = some (v, l) := by
        have h4 := getEntry_val h1.ok (k := .inst c) (e := (v, l)) (congrArg Prod.snd heq2)
        rw [hled2']; exact h4.1
      rw [heq2] at h2
      split
      · exact failed _ _ (h1.trans h2)
      · rename_i v' hv'
        have hl' : LiveEntry E.sto (.inst c) (some (v', l)) := by
          intro v' l' d hv hd
          simp only [Option.some.injEq, Prod.mk.injEq] at hv
          exact hlive v l' d (by rw [hv.2]) hd
        have hk : KeepsInst (ledger E s2.st) (.inst c) (some (v', l)) := by
          intro c' hc' ex0 m0 l0 hl0
          rw [hled2] at hl0
          cases hl0
          cases hv'
          exact ⟨_, _, l, rfl, fun n hn => ⟨n, hn, Nat.le_refl _⟩⟩
        have hfo : Founded E (ledger E s2.st) (.inst c) (some (v', l)) := by
          refine ⟨fun c' hc' ex1 m1 l1 he => ?_, (fun a n hk => by cases hk), (fun _ _ _ hk => by cases hk)⟩
          cases v with
          | inst ex0 m0 =>
            cases hv'
            cases he
            cases ex with
            | none => exact Or.inl ⟨m0, l, hled2⟩
            | some x => exact Or.inr (by rw [hled2', hled1]; exact hex x rfl)
          | _ => cases hv'
        have hput := putOpt_ledger h2.ok hl'
        have h3 : OnlySt0 E s2 (liftSt s2 (fun st => putOpt E.sto st (.inst c) (some (v', l)))).1 := by
          refine ⟨rfl, putOpt_sle h2.ok hl' (fun a n hk => absurd hk (inst_not_nonce c a n)) (fun _ => rfl) hk hfo,
            fun c' hc' => putOpt_kept h2.ok hl' (kept_set_inst ?_)⟩
          rw [show s2.ctx = s.ctx from (h1.trans h2).ctx] at hc'
          rcases hw with hw | ⟨hw, _⟩
          · intro he; rw [he] at hw; exact hc' hw
          · have := has_val h (k := .inst c) (b := true) (congrArg Prod.snd heq)
            rw [hw] at this; cases this
        refine ⟨(h1.trans h2).toOnlySt0.trans h3, fun hok => InstSet.before (hled2'.trans hled1) ?_, fun e he => (h1.trans h2).same.trans ?_⟩
        · have hok' : (putOpt E.sto s2.st (.inst c) (some (v', l))).2 = .ok () := hok
          rcases hput with ⟨_, hL⟩ | ⟨⟨err, he⟩, _⟩
          · show InstSet _ (ledger E (putOpt E.sto s2.st (.inst c) (some (v', l))).1) c ex m
            rw [hL]
            refine ⟨fun c' ex0 m0 l0 hc' hl0 => ⟨l0, ?_⟩, fun ex0 m0 l0 hl0 => ?_, fun m1 hm1 => ?_⟩
            · unfold Ledger.set; rw [if_neg (fun he => by cases he; exact hc' rfl)]; exact hl0
            · have hl0' : ledger E s2.st (.inst c) = some (.inst ex0 m0, l0) := hl0
              rw [hled2] at hl0'; cases hl0'; cases hv'
              exact ⟨l, by unfold Ledger.set; rw [if_pos rfl]⟩
            · subst hm1
              cases v with
              | inst ex0 m0 => cases hv'; exact ⟨ex.getD ex0, l, by unfold Ledger.set; rw [if_pos rfl]; rfl⟩
              | _ => cases hv'
          · rw [he] at hok'; cases hok'
        · have he' : (putOpt E.sto s2.st (.inst c) (some (v', l))).2 = .error e := he
          rcases hput with ⟨hok, _⟩ | ⟨_, hL⟩
          · rw [hok] at he'; cases he'
          · show MSame _ (ledger E (putOpt E.sto s2.st (.inst c) (some (v', l))).1)
            rw [hL]; exact MSame.refl _
  · rename_i s1 heq
    rw [heq] at h1
    split
    · exact failed _ _ h1
    · split
      · exact failed _ _ h1
      · rename_i ex _ l hl
        have hled : ledger E s1.st = ledger E s.st := by
          have h3 := congrArg (fun r => ledger E r.1.st) heq
          exact h3.symm.trans (has_ledger h _)
        have hnone : ledger E s1.st (.inst c) = none := by
          have := has_val h (k := .inst c) (b := false) (congrArg Prod.snd heq)
          rw [hled]; simpa using this
        have hsame : MSame (ledger E s1.st) (ledger E (putOpt E.sto s1.st (.inst c) (some (.inst ex (m.getD []), l))).1) :=
          putOpt_msame h1.ok (newLive_live hl _) (MSame.setInst (fun ex0 m0 l0 hl0 => by
            have hl0' : ledger E s1.st (.inst c) = some (.inst ex0 m0, l0) := hl0
            rw [hnone] at hl0'; cases hl0'))
        refine ⟨h1.toOnlySt0.trans ⟨rfl, putOpt_sle h1.ok (newLive_live hl _) (fun a n hk => absurd hk (inst_not_nonce c a n)) (fun _ => rfl)
          (fun c' hc' ex0 m0 l0 hl0 => by
            rw [show (s1, (Except.ok false : Res Bool)).1.st = s1.st from rfl, hnone] at hl0; cases hl0)
          ⟨fun c' hc' ex1 m1 l1 he => (by
            cases he
            exact Or.inr (by rw [show (s1, (Except.ok false : Res Bool)).1.st = s1.st from rfl, hled]; exact hex _ rfl)),
            (fun a n hk => by cases hk), (fun _ _ _ hk => by cases hk)⟩,
          (fun c' hc' => putOpt_kept h1.ok (newLive_live hl _) ?_)⟩, fun hok => InstSet.before hled ⟨fun c' ex0 m0 l0 _ hl0 => hsame c' ex0 m0 l0 hl0,
            fun ex0 m0 l0 hl0 => (by rw [hnone] at hl0; cases hl0), fun m1 hm1 => ?_⟩, fun _ _ => h1.same.trans hsame⟩
        rotate_left
        · subst hm1
          have hok' : (putOpt E.sto s1.st (.inst c) (some (.inst ex ((some m1).getD []), l))).2 = .ok () := hok
          rcases putOpt_ledger h1.ok (newLive_live hl (.inst ex ((some m1).getD []))) with ⟨_, hL⟩ | ⟨⟨err, he⟩, _⟩
          · refine ⟨ex, l, ?_⟩
            show ledger E (putOpt E.sto s1.st (.inst c) (some (.inst ex ((some m1).getD []), l))).1 (.inst c) = _
            rw [hL]; unfold Ledger.set; rw [if_pos rfl]; rfl
          · rw [he] at hok'; cases hok'
        rw [show s1.ctx = s.ctx from h1.ctx] at hc'
        rcases hw with hw | ⟨hw, hm⟩
        · exact kept_set_inst (fun he => hc' (by rw [← he]; exact hw))
        · by_cases hcc : c = c'
          · subst hcc
            rw [hm]; exact kept_new _ _ (by rw [show (s1, (Except.ok false : Res Bool)).1.st = s1.st from rfl, hled]; exact hw)
          · exact kept_set_inst hcc

/-- Storing an executable only. -/
theorem storeInstance_exec {E : HEnv} {s : Host} (h : StOk E s.st) (ex : Option Exec) (c : Nat)
    (hw : topContract s.ctx = some c) (hex : ∀ x, ex = some x → Refers (ledger E s.st) x) :
    OnlySt0 E s (storeInstance E s ex none c).1 ∧ MWeak (ledger E s.st) (ledger E (storeInstance E s ex none c).1.st) := by
  obtain ⟨h1, h2, h3⟩ := storeInstance_only0 h ex none c (Or.inl hw) hex
  refine ⟨h1, ?_⟩
  cases hr : (storeInstance E s ex none c).2 with
  | ok u => exact (h2 hr).none
  | error e => exact (h3 e hr).weak

/-- Storing a new instance. -/
theorem storeInstance_only {E : HEnv} {s : Host} (h : StOk E s.st) (ex : Option Exec) (c : Nat)
    (hw : ledger E s.st (.inst c) = none) (hex : ∀ x, ex = some x → Refers (ledger E s.st) x) :
    OnlySt E s (storeInstance E s ex none c).1 := by
  obtain ⟨h1, h2, h3⟩ := storeInstance_only0 h ex none c (Or.inr ⟨hw, rfl⟩) hex
  refine ⟨h1, ?_⟩
  cases hr : (storeInstance E s ex none c).2 with
  | ok u =>
    intro c' ex0 m l hl
    by_cases hc : c' = c
    · subst hc; rw [hw] at hl; cases hl
    · exact (h2 hr).1 c' ex0 m l hc hl
  | error e => exact h3 e hr

theorem verifyExists_only {E : HEnv} {s : Host} (h : StOk E s.st) (k : LKey) : OnlySt E s (verifyExists E s k).1 := by
  have h1 : OnlySt E s (liftSt s (fun st => has E.sto st k)).1 := liftSt_read (has_sle h _) (has_ledger h _)
  unfold verifyExists
  split
  all_goals (rename_i heq; rw [heq] at h1; exact h1)

theorem verifyExists_ok {E : HEnv} {s s' : Host} (h : StOk E s.st) {k : LKey} (hv : verifyExists E s k = (s', .ok ())) :
    (ledger E s'.st k).isSome = true := by
  unfold verifyExists at hv
  split at hv
  · cases hv
  · rename_i s1 heq
    cases hv
    have h1 := congrArg (fun r => ledger E r.1.st) heq
    rw [show ledger E s'.st = ledger E s.st from h1.symm.trans (has_ledger h k)]
    exact has_val h (congrArg Prod.snd heq)
  · cases hv

theorem resolveRef_only {E : HEnv} {s : Host} (h : StOk E s.st) (o : Addr) (t : Nat) : OnlySt E s (resolveRef E s o t).1 := by
  have h1 : OnlySt E s (liftSt s (fun st => getEntry E.sto st (.data o (.tag t) .persistent))).1 := liftSt_read (getEntry_sle h _) (getEntry_ledger h _)
  unfold resolveRef
  split
  · rename_i heq; rw [heq] at h1; exact h1
  · rename_i heq; rw [heq] at h1; split <;> exact h1
  · rename_i heq; rw [heq] at h1; exact h1

theorem wasmHash_only {E : HEnv} {s : Host} (h : StOk E s.st) (ex : Exec) : OnlySt E s (wasmHash E s ex).1 := by
  cases ex with
  | wasm h' => exact OnlySt.refl h
  | asset => exact OnlySt.refl h
  | ref o t =>
    have h1 := resolveRef_only h o t
    simp only [wasmHash]
    split
    all_goals (rename_i heq; rw [heq] at h1; exact h1)

theorem loadCode_only {E : HEnv} {s : Host} (h : StOk E s.st) (c : Nat) : OnlySt E s (loadCode E s c).1 := by
  have h1 : OnlySt E s (liftSt s (fun st => getEntry E.sto st (.code c))).1 := liftSt_read (getEntry_sle h _) (getEntry_ledger h _)
  unfold loadCode
  split
  all_goals (rename_i heq; rw [heq] at h1; exact h1)

theorem top_of_current {s : Host} {id : Nat} (h : currentContract s = .ok id) : topContract s.ctx = some id := by
  unfold currentContract at h
  unfold topContract
  cases hs : s.ctx with
  | nil => rw [hs] at h; cases h
  | cons c cs =>
    rw [hs] at h
    simp only at h
    cases hc : c.cid with
    | none => rw [hc] at h; cases h
    | some i => rw [hc] at h; cases h; rw [List.filterMap_cons, hc]; rfl

/-- Storing the instance storage of the top frame. -/
theorem persist_only {E : HEnv} {s : Host} (h : StOk E s.st) : OnlySt0 E s (persist E s).1 := by
  unfold persist
  split
  · exact (OnlySt.refl h).toOnlySt0
  · split
    · split
      · exact (OnlySt.refl h).toOnlySt0
      · rename_i c cs hcs _ m _ _ id hid
        have h1 := (storeInstance_only0 h none (some m) id (Or.inl (top_of_current hid)) (fun x hx => by cases hx)).1
        split
        all_goals (rename_i heq; rw [heq] at h1; exact h1)
    · exact (OnlySt.refl h).toOnlySt0

theorem persist_inst {E : HEnv} {s s' : Host} {b : Bool} (h : StOk E s.st) (hp : persist E s = (s', .ok b)) :
    (b = true ∧ ∃ c cs m id, s.ctx = c :: cs ∧ c.storage = some (m, true) ∧ c.cid = some id ∧ InstSet (ledger E s.st) (ledger E s'.st) id none (some m)) ∨
    (b = false ∧ s' = s ∧ ∃ c cs, s.ctx = c :: cs ∧ ∀ m, c.storage ≠ some (m, true)) := by
  unfold persist at hp
  cases hcs : s.ctx with
  | nil => rw [hcs] at hp; cases hp
  | cons c cs =>
    rw [hcs] at hp
    simp only at hp
    by_cases hst : ∃ m, c.storage = some (m, true)
    · obtain ⟨m, hm⟩ := hst
      rw [hm] at hp
      simp only at hp
      cases hid : currentContract s with
      | error e => rw [hid] at hp; cases hp
      | ok id =>
        rw [hid] at hp
        simp only at hp
        have h1 := (storeInstance_only0 h none (some m) id (Or.inl (top_of_current hid)) (fun x hx => by cases hx)).2.1
        rcases hr : storeInstance E s none (some m) id with ⟨s1, r⟩
        rw [hr] at hp h1
        cases r with
        | error e => cases hp
        | ok u =>
          cases hp
          refine Or.inl ⟨rfl, c, cs, m, id, rfl, hm, ?_, h1 rfl⟩
          unfold currentContract at hid
          rw [hcs] at hid
          simp only at hid
          cases hc : c.cid with
          | none => rw [hc] at hid; cases hid
          | some i => rw [hc] at hid; cases hid; rfl
    · right
      have : (s', (Except.ok b : Res Bool)) = (s, .ok false) := by
        rw [← hp]
        cases hs : c.storage with
        | none => rfl
        | some x =>
          obtain ⟨m, d⟩ := x
          cases d with
          | true => exact absurd ⟨m, hs⟩ hst
          | false => rfl
      cases this
      exact ⟨rfl, rfl, c, cs, rfl, fun m hm => hst ⟨m, hm⟩⟩

theorem verifyExec_only {E : HEnv} {s : Host} (h : StOk E s.st) (ex : Exec) : OnlySt E s (verifyExec E s ex).1 := by
  cases ex with
  | wasm h' => exact verifyExists_only h _
  | asset => exact OnlySt.refl h
  | ref o t => exact verifyExists_only h _

theorem verifyExec_ok {E : HEnv} {s s' : Host} (h : StOk E s.st) {ex : Exec} (hv : verifyExec E s ex = (s', .ok ())) :
    Refers (ledger E s'.st) ex := by
  cases ex with
  | wasm h' => exact verifyExists_ok h hv
  | asset => trivial
  | ref o t => exact verifyExists_ok h hv

theorem verifyExists_ledger {E : HEnv} {s : Host} (h : StOk E s.st) (k : LKey) : ledger E (verifyExists E s k).1.st = ledger E s.st := by
  have h1 : ledger E (liftSt s (fun st => has E.sto st k)).1.st = ledger E s.st := has_ledger h k
  unfold verifyExists
  split
  all_goals (rename_i heq; rw [heq] at h1; exact h1)

theorem verifyExec_ledger {E : HEnv} {s : Host} (h : StOk E s.st) (ex : Exec) : ledger E (verifyExec E s ex).1.st = ledger E s.st := by
  cases ex with
  | wasm h' => exact verifyExists_ledger h _
  | asset => rfl
  | ref o t => exact verifyExists_ledger h _

theorem createWithId_only {E : HEnv} {s : Host} (h : StOk E s.st) (id : Nat) (ex : Exec) :
    OnlySt E s (createWithId E s id ex).1 := by
  have h1 : OnlySt E s (liftSt s (fun st => has E.sto st (.inst id))).1 := liftSt_read (has_sle h _) (has_ledger h _)
  unfold createWithId
  split
  · rename_i heq; rw [heq] at h1; exact h1
  · rename_i heq; rw [heq] at h1; exact h1
  · rename_i s1 heq
    rw [heq] at h1
    have h2 := verifyExec_only h1.ok ex
    split
    · rename_i heq2; rw [heq2] at h2; exact h1.trans h2
    · rename_i heq2
      have hled2 := verifyExec_ledger h1.ok ex
      have hex := verifyExec_ok h1.ok heq2
      rw [heq2] at h2 hled2
      refine (h1.trans h2).trans (storeInstance_only h2.ok _ _ ?_ (fun x hx => by cases hx; exact hex))
      have hled : ledger E s1.st = ledger E s.st := by
        have h3 := congrArg (fun r => ledger E r.1.st) heq
        exact h3.symm.trans (has_ledger h _)
      have hn := has_val h (k := .inst id) (b := false) (congrArg Prod.snd heq)
      simp only at hled2 ⊢
      rw [hled2, hled]
      simpa using hn

theorem supportsCtor_only {E : HEnv} {s : Host} (h : StOk E s.st) (id : Nat) : OnlySt E s (supportsCtor E s id).1 := by
  have h1 := getInstance_only h id
  unfold supportsCtor
  split
  · rename_i heq; rw [heq] at h1; exact h1
  · rename_i s1 ex m heq
    rw [heq] at h1
    have h2 := wasmHash_only h1.ok ex
    split
    · rename_i heq2; rw [heq2] at h2; exact h1.trans h2
    · rename_i heq2; rw [heq2] at h2; exact h1.trans h2
    · rename_i s2 hh heq2
      rw [heq2] at h2
      have h3 := loadCode_only h2.ok hh
      split
      all_goals (rename_i heq3; rw [heq3] at h3; exact (h1.trans h2).trans h3)

theorem uploadWasm_only {E : HEnv} {s : Host} (h : StOk E s.st) (c w : Nat) : OnlySt E s (uploadWasm E s c w).1 := by
  have h1 : OnlySt E s (liftSt s (fun st => has E.sto st (.code c))).1 := liftSt_read (has_sle h _) (has_ledger h _)
  unfold uploadWasm
  split
  · rename_i heq; rw [heq] at h1; exact h1
  · rename_i s1 heq
    rw [heq] at h1
    have h2 : OnlySt E s1 (liftSt s1 (fun st => getEntry E.sto st (.code c))).1 := liftSt_read (getEntry_sle h1.ok _) (getEntry_ledger h1.ok _)
    split
    · rename_i heq2; rw [heq2] at h2; exact h1.trans h2
    · rename_i heq2
      rw [heq2] at h2
      split
      · exact h1.trans h2
      · split
        · exact h1.trans h2
        · rename_i l hl
          exact (h1.trans h2).trans (liftSt_only (putOpt_sle h2.ok (newLive_live hl _) (fun a n hk => absurd hk (code_not_nonce c a n)) (fun _ => rfl)
            (fun _ hc => by cases hc) ⟨(fun _ hk => by cases hk), (fun _ _ hk => by cases hk), (fun _ _ _ hk => by cases hk)⟩)
            (fun c' _ => putOpt_kept h2.ok (newLive_live hl _) (kept_set (by intro he; cases he)))
            (putOpt_msame h2.ok (newLive_live hl _) (MSame.set (fun _ he => by cases he))))
  · rename_i s1 heq
    rw [heq] at h1
    split
    · exact h1
    · rename_i l hl
      exact h1.trans (liftSt_only (putOpt_sle h1.ok (newLive_live hl _) (fun a n hk => absurd hk (code_not_nonce c a n)) (fun _ => rfl)
            (fun _ hc => by cases hc) ⟨(fun _ hk => by cases hk), (fun _ _ hk => by cases hk), (fun _ _ _ hk => by cases hk)⟩)
        (fun c' _ => putOpt_kept h1.ok (newLive_live hl _) (kept_set (by intro he; cases he)))
        (putOpt_msame h1.ok (newLive_live hl _) (MSame.set (fun _ he => by cases he))))

theorem asUnit_fst {α : Type} (r : Host × Res α) : (asUnit r).1 = r.1 := rfl

theorem validatePut_only {E : HEnv} {s : Host} (h : StOk E s.st) (k : DKey) (v : Nat) (d : Durability) :
    OnlySt E s (validatePut E s k v d).1 := by
  unfold validatePut
  split
  · exact OnlySt.refl h
  · split
    · split
      · exact OnlySt.refl h
      · exact verifyExists_only h _
    · exact OnlySt.refl h

theorem validatePut_tag {E : HEnv} {s s' : Host} (h : StOk E s.st) {n v : Nat}
    (hv : validatePut E s (.tag n) v .persistent = (s', .ok ())) :
    ∃ c, E.hashOf v = some c ∧ (ledger E s'.st (.code c)).isSome = true := by
  simp only [validatePut, if_true] at hv
  split at hv
  · cases hv
  · rename_i c hc
    exact ⟨c, hc, verifyExists_ok h hv⟩

/-- Keys whose lifetime can be extended by contracts they do not belong to. -/
def LKey.shared (k : LKey) : Prop := (∀ a n, k ≠ .nonce a n) ∧ ∀ c n d, k ≠ .data c (.val n) d

theorem extendKey_only {E : HEnv} {s : Host} (h : StOk E s.st) {k : LKey} (hk : k.shared) (x : Ext) :
    OnlySt E s (extendKey E s k x).1 := by
  cases x with
  | upTo t e => exact liftSt_only (extendTtl_sle h _ _ hk.1) (fun c _ => extendTtl_kept h _ _ (fun _ _ => hk.2 _ _ _)) (extendTtl_msame h _ _ _)
  | between e a b =>
    exact liftSt_only (extendTtlV2_sle h _ _ _ hk.1) (fun c _ => extendTtlV2_kept h _ _ _ (fun _ _ => hk.2 _ _ _)) (extendTtlV2_msame h _ _ _ _)

theorem shared_inst (c : Nat) : (LKey.inst c).shared :=
  ⟨(fun _ _ h => (by cases h)), (fun _ _ _ h => (by cases h))⟩
theorem shared_code (c : Nat) : (LKey.code c).shared :=
  ⟨(fun _ _ h => (by cases h)), (fun _ _ _ h => (by cases h))⟩
theorem shared_tag (a : Addr) (n : Nat) : (LKey.data a (.tag n) .persistent).shared :=
  ⟨(fun _ _ h => (by cases h)), (fun _ _ _ h => (by cases h))⟩

theorem extendCode_only {E : HEnv} {s : Host} (h : StOk E s.st) (c : Nat) (x : Ext) : OnlySt E s (extendCode E s c x).1 := by
  have h1 := getInstance_only h c
  unfold extendCode
  split
  · rename_i heq; rw [heq] at h1; exact h1
  · rename_i heq; rw [heq] at h1; exact h1.trans (extendKey_only h1.ok (shared_code _) x)
  · rename_i heq; rw [heq] at h1; exact h1
  · rename_i s1 o t _ heq
    rw [heq] at h1
    have h2 := extendKey_only h1.ok (shared_tag o t) x
    split
    · rename_i heq2; rw [heq2] at h2; exact h1.trans h2
    · rename_i s2 heq2
      rw [heq2] at h2
      have h3 := resolveRef_only h2.ok o t
      split
      · rename_i heq3; rw [heq3] at h3; exact h1.trans (h2.trans h3)
      · rename_i heq3; rw [heq3] at h3
        exact h1.trans (h2.trans (h3.trans (extendKey_only h3.ok (shared_code _) x)))

theorem extendContract_only {E : HEnv} {s : Host} (h : StOk E s.st) (c : Nat) (scope : Scope) (x : Ext) :
    OnlySt E s (extendContract E s c scope x).1 := by
  have h1 := extendKey_only h (shared_inst c) x
  have h2 := extendCode_only h c x
  unfold extendContract
  cases scope with
  | inst => exact h1
  | code => exact h2
  | both =>
    cases x with
    | upTo t e =>
      simp only
      split
      · rename_i heq; rw [heq] at h1; exact h1
      · rename_i heq; rw [heq] at h1; exact h1.trans (extendCode_only h1.ok c _)
    | between e a b =>
      simp only
      split
      · rename_i heq; rw [heq] at h2; exact h2
      · rename_i heq; rw [heq] at h2; exact h2.trans (extendKey_only h2.ok (shared_inst c) _)

theorem dataOp_only {E : HEnv} {s : Host} (h : StOk E s.st) (id : Nat) (ht : topContract s.ctx = some id) (o : DataOp) :
    OnlySt E s (dataOp E s id o).1 := by
  have own : ∀ c, topContract s.ctx ≠ some c → ∀ k d, (LKey.data (.contract id) k d).contract ≠ some c := by
    intro c hc k d he; cases he; exact hc ht
  cases o with
  | get k d =>
    have h1 : OnlySt E s (liftSt s (fun st => getEntry E.sto st (.data (.contract id) k d))).1 := liftSt_read (getEntry_sle h _) (getEntry_ledger h _)
    simp only [dataOp]
    split
    all_goals (rename_i heq; rw [heq] at h1; exact h1)
  | has k d =>
    have h1 : OnlySt E s (liftSt s (fun st => Storage.has E.sto st (.data (.contract id) k d))).1 := liftSt_read (has_sle h _) (has_ledger h _)
    simp only [dataOp]
    split
    all_goals (rename_i heq; rw [heq] at h1; exact h1)
  | put k v d =>
    have h1 := validatePut_only h k v d
    simp only [dataOp]
    split
    · rename_i heq; rw [heq] at h1; exact h1
    · rename_i heq; rw [heq] at h1
      rw [asUnit_fst]
      refine h1.trans (liftSt_only (write_sle h1.ok _ (fun _ _ h => by cases h) (fun _ h => by cases h) ?_ (fun _ _ _ h => by cases h)) (fun c hc => write_kept h1.ok _ (own c ?_ _ _))
        (write_msame h1.ok _ (fun _ he => by cases he)))
      · intro a n hk o
        cases hk
        obtain ⟨c, hc, hs⟩ := validatePut_tag h heq
        exact ⟨v, c, rfl, hc, hs⟩
      have := h1.ctx
      simp only at this
      rw [this] at hc; exact hc
  | del k d =>
    cases k with
    | tag n => exact OnlySt.refl h
    | val n =>
      simp only [dataOp]
      rw [asUnit_fst]
      refine liftSt_only (putOpt_sle h (fun v l d h => by cases h) (fun _ _ h => by cases h) ?_ (fun _ h => by cases h)
        ⟨(fun _ hk => by cases hk), (fun _ _ hk => by cases hk), (fun _ _ _ hk => by cases hk)⟩)
        (fun c hc => putOpt_kept h (fun v l d h => by cases h) (kept_set (own c hc _ _)))
        (putOpt_msame h (fun v l d h => by cases h) (MSame.set (fun _ he => by cases he)))
      intro hl; cases d <;> cases hl
  | extend k d t e =>
    simp only [dataOp]; rw [asUnit_fst]
    exact liftSt_only (extendTtl_sle h _ _ (fun _ _ h => by cases h))
      (fun c hc => extendTtl_kept h _ _ (fun k' d' he => by cases he; exact hc ht)) (extendTtl_msame h _ _ _)
  | extendV2 k d e a b =>
    simp only [dataOp]; rw [asUnit_fst]
    exact liftSt_only (extendTtlV2_sle h _ _ _ (fun _ _ h => by cases h))
      (fun c hc => extendTtlV2_kept h _ _ _ (fun k' d' he => by cases he; exact hc ht))
      (extendTtlV2_msame h _ _ _ _)
  | extendContract c scope x =>
    simp only [dataOp]; rw [asUnit_fst]
    exact extendContract_only h _ _ _
  | getClassic n =>
    have h1 : OnlySt E s (liftSt s (fun st => getEntry E.sto st (.classic n))).1 := liftSt_read (getEntry_sle h _) (getEntry_ledger h _)
    simp only [dataOp]
    split
    all_goals (rename_i heq; rw [heq] at h1; exact h1)
  | putClassic n v =>
    simp only [dataOp]; rw [asUnit_fst]
    exact liftSt_only (write_sle h _ (fun _ _ h => by cases h) (fun _ h => by cases h) (fun _ _ h => by cases h)
      (fun _ _ _ h => by cases h)) (fun c hc => write_kept h _ (fun he => by cases he))
      (write_msame h _ (fun _ he => by cases he))

/-- Consuming a nonce: if it succeeds the nonce was not there and now is, with at least the given lifetime. -/
theorem consumeNonce_only {E : HEnv} {s : Host} (h : StOk E s.st) (a : Addr) (n : Int) (l : Nat) (hl : E.sto.li.seq ≤ l) :
    OnlySt E s (consumeNonce E s a n l).1 ∧
    ((consumeNonce E s a n l).2 = .ok () → ledger E s.st (.nonce a n) = none ∧
      ∃ m, l ≤ m ∧ ledger E (consumeNonce E s a n l).1.st (.nonce a n) = some (.void, some m)) := by
  have h1 : OnlySt E s (liftSt s (fun st => has E.sto st (.nonce a n))).1 := liftSt_read (has_sle h _) (has_ledger h _)
  unfold consumeNonce
  split
  · exact ⟨OnlySt.refl h, fun h => by cases h⟩
  · rename_i m hm
    split
    · rename_i heq; rw [heq] at h1; exact ⟨h1, fun h => by cases h⟩
    · rename_i heq; rw [heq] at h1; exact ⟨h1, fun h => by cases h⟩
    · rename_i s1 heq
      have hnone : ledger E s.st (.nonce a n) = none := by
        have := has_val h (k := .nonce a n) (b := false) (by have := congrArg Prod.snd heq; exact this)
        simpa using this
      have hled : ledger E s1.st = ledger E s.st := by
        have := has_ledger h (.nonce a n)
        have h2 := congrArg Prod.fst heq
        have h3 : (liftSt s (fun st => has E.sto st (.nonce a n))).1.st = s1.st := by rw [h2]
        rw [← h3]; exact this
      rw [heq] at h1
      have hlive : LiveEntry E.sto (.nonce a n) (some (.void, some (max l m))) := by
        intro v l' d hv _
        cases hv
        exact ⟨_, rfl, Nat.le_trans hl (Nat.le_max_left _ _)⟩
      have h2 : SLe E s1.st (putOpt E.sto s1.st (.nonce a n) (some (.void, some (max l m)))).1 := putOpt_sle h1.ok hlive
        (fun _ _ _ => by rw [hled]; exact hnone) (fun _ => rfl) (fun _ h => by cases h)
        ⟨(fun _ hk => by cases hk), (fun _ _ hk => by cases hk), (fun _ _ _ hk => by cases hk)⟩
      refine ⟨h1.trans (liftSt_only h2 (fun c _ => putOpt_kept h1.ok hlive (kept_set (fun he => by cases he)))
        (putOpt_msame h1.ok hlive (MSame.set (fun _ he => by cases he)))), fun hok => ⟨hnone, max l m, Nat.le_max_left _ _, ?_⟩⟩
      have hok' : (putOpt E.sto s1.st (.nonce a n) (some (.void, some (max l m)))).2 = .ok () := hok
      rcases putOpt_ledger h1.ok hlive with ⟨_, hL⟩ | ⟨⟨err, he⟩, _⟩
      · show ledger E (putOpt E.sto s1.st (.nonce a n) (some (.void, some (max l m)))).1 (.nonce a n) = _
        rw [hL]; unfold Ledger.set; rw [if_pos rfl]
      · rw [he] at hok'; cases hok'

end Soroban.Host
