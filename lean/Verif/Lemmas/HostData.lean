import Verif.Lemmas.HostDeploy
import Verif.Spec.HostData
/-! Exactly when storage functions succeed, for C97. -/
namespace Soroban.Host
open Soroban Soroban.Auth Soroban.Storage Soroban.Storage.Spec
open Soroban.Host.Spec (CanAccess visible Found goal Storable Extends Allowed Gives keptLifetime ledgerAfter Lifetimes32 extendedLedger)

/-- An operation that succeeds exactly if `A`, with a result `G` and ledger `L'`, and changes nothing otherwise. -/
def Settles (E : HEnv) (s : Host) (A : Prop) (G : Out LVal → Prop) (L' : Ledger LKey LVal) (r : Host × Res (Out LVal)) : Prop :=
  (A → (∃ v, r.2 = .ok v ∧ G v) ∧ visible E r.1 = L') ∧ (¬ A → (∃ e, r.2 = .error e) ∧ visible E r.1 = visible E s)

theorem settles_change {E : HEnv} {s : Host} {A : Prop} {L' : Ledger LKey LVal} {f : Store LKey LVal → Store LKey LVal × Res Unit}
    {r : Res (Ledger LKey LVal)} (h : ∃ st', Moved E.sto s.st st' (orElse (visible E s) r) ∧ f s.st = (st', toUnit r))
    (h1 : A → r = .ok L') (h2 : ¬ A → ∃ e, r = .error e) : Settles E s A (fun v => v = .unit) L' (asUnit (liftSt s f)) := by
  obtain ⟨st', hm, hf⟩ := h
  have habs : absMap E.sto st'.mode st'.map = _ := hm.abs
  unfold Settles asUnit liftSt
  dsimp only
  rw [hf]
  refine ⟨fun ha => ?_, fun ha => ?_⟩
  · rw [h1 ha] at habs ⊢
    exact ⟨⟨_, rfl, rfl⟩, habs⟩
  · obtain ⟨e, he⟩ := h2 ha
    rw [he] at habs ⊢
    exact ⟨⟨_, rfl⟩, habs⟩

theorem readAt_iff {E : HEnv} {s : Host} (h : StOk E s.st) (k : LKey) :
    readAt E.sto (permOf s.st.mode s.st.footprint) (visible E s) k =
      if permOf s.st.mode s.st.footprint k .readOnly = true then .ok (visible E s k) else .error (.host .storage .exceededLimit) := by
  unfold readAt
  rw [if_pos (by rw [h.keys]; rfl)]

theorem writeAt_iff {E : HEnv} {s : Host} (h : StOk E s.st) (k : LKey) (e : Option (Entry LVal)) :
    writeAt E.sto (permOf s.st.mode s.st.footprint) (visible E s) k e =
      if permOf s.st.mode s.st.footprint k .readWrite = true then .ok ((visible E s).set k e)
      else .error (.host .storage .exceededLimit) := by
  have hc : checkEntry E.sto e = .ok () := by
    unfold checkEntry
    cases e with
    | none => rfl
    | some p => dsimp only; rw [if_pos (by rw [h.keys]; rfl)]
  unfold writeAt
  rw [if_pos (by rw [h.keys]; rfl), hc]

theorem settles_get {E : HEnv} {s : Host} (h : StOk E s.st) (k : LKey) :
    Settles E s (Found E s k) (fun r => ∃ e, visible E s k = some e ∧ r = .entry e) (visible E s)
      (match liftSt s (fun st => getEntry E.sto st k) with
        | (s, .ok e) => (s, .ok (.entry e))
        | (s, .error e) => (s, .error e)) := by
  have hL : visible E (liftSt s (fun st => getEntry E.sto st k)).1 = visible E s := (getEntry_read h k).ledger
  have hiff := fun e => getEntry_iff h (k := k) e
  rcases hx : liftSt s (fun st => getEntry E.sto st k) with ⟨s1, r⟩
  rw [hx] at hL hiff
  cases r with
  | ok e =>
    obtain ⟨h1, h2⟩ := (hiff e).mp rfl
    exact ⟨fun _ => ⟨⟨_, rfl, e, h2, rfl⟩, hL⟩, fun hn => absurd ⟨h1, by rw [h2]; rfl⟩ hn⟩
  | error e =>
    refine ⟨fun ⟨ha, hs⟩ => ?_, fun _ => ⟨⟨_, rfl⟩, hL⟩⟩
    obtain ⟨e', he'⟩ := Option.isSome_iff_exists.mp hs
    have := (hiff e').mpr ⟨ha, he'⟩
    cases this

theorem has_does {E : HEnv} {s : Host} (h : StOk E s.st) (k : LKey) :
    ∃ st', Same E.sto s.st st' ∧ liftSt s (fun st => Storage.has E.sto st k) = ({ s with st := st' },
      if permOf s.st.mode s.st.footprint k .readOnly = true then .ok (visible E s k).isSome
      else .error (.host .storage .exceededLimit)) := by
  obtain ⟨st', hsame, hhas, -⟩ := has_spec h.mode h.map k
  have hr := readAt_iff h k
  unfold visible at hr
  rw [hr] at hhas
  refine ⟨st', hsame, ?_⟩
  unfold liftSt visible
  dsimp only
  rw [hhas]
  by_cases hp : permOf s.st.mode s.st.footprint k .readOnly = true
  · rw [if_pos hp, if_pos hp]
  · rw [if_neg hp, if_neg hp]

theorem settles_has {E : HEnv} {s : Host} (h : StOk E s.st) (k : LKey) :
    Settles E s (CanAccess s k .readOnly) (fun r => r = .bool (visible E s k).isSome) (visible E s)
      (match liftSt s (fun st => Storage.has E.sto st k) with
        | (s, .ok b) => (s, .ok (.bool b))
        | (s, .error e) => (s, .error e)) := by
  obtain ⟨st', hsame, hx⟩ := has_does h k
  have hL : visible E { s with st := st' } = visible E s := hsame.abs
  rw [hx, Settles, canAccess_iff]
  by_cases hp : permOf s.st.mode s.st.footprint k .readOnly = true
  · rw [if_pos hp]
    exact ⟨fun _ => ⟨⟨_, rfl, rfl⟩, hL⟩, fun hn => absurd hp hn⟩
  · rw [if_neg hp]
    exact ⟨fun ha => absurd ha hp, fun _ => ⟨⟨_, rfl⟩, hL⟩⟩

theorem set_fun (L : Ledger LKey LVal) (k : LKey) (e : Option (Entry LVal)) : L.set k e = fun k' => if k' = k then e else L k' := rfl

theorem write_read {s : Host} {k : LKey} (h : permOf s.st.mode s.st.footprint k .readWrite = true) :
    permOf s.st.mode s.st.footprint k .readOnly = true := canAccess_iff.mp (may_read (canAccess_iff.mpr h))

/-- Writing an entry whose new lifetime, if it is new, is `new`. -/
theorem settles_write {E : HEnv} {s : Host} (h : StOk E s.st) (k : LKey) (v : LVal) (ok : Prop) (new : Option Nat)
    (hnew : ok → newLiveUntil E.sto k = .ok new) (hno : ¬ ok → ∃ e, newLiveUntil E.sto k = .error e) :
    Settles E s (CanAccess s k .readWrite ∧ (visible E s k = none → ok)) (fun r => r = .unit)
      (fun k' => if k' = k then some (v, keptLifetime (visible E s k') new) else visible E s k')
      (asUnit (liftSt s (fun st => Storage.write E.sto st k (fun _ => v)))) := by
  obtain ⟨st', h1, h2, -⟩ := write_spec h.mode h.map k (fun _ => v)
  have hset : ∀ l, l = keptLifetime (visible E s k) new → (visible E s).set k (some (v, l)) =
      fun k' => if k' = k then some (v, keptLifetime (visible E s k') new) else visible E s k' := by
    intro l hl
    funext k'
    rw [set_fun]
    by_cases hk : k' = k
    · subst hk; simp [hl]
    · simp [hk]
  refine settles_change ⟨st', h1, h2⟩ ?_ ?_
  · rintro ⟨ha, hn⟩
    rw [canAccess_iff] at ha
    change updateAt E.sto (permOf s.st.mode s.st.footprint) (visible E s) k _ = _
    unfold updateAt
    rw [readAt_iff h k, if_pos (write_read ha)]
    cases hv : visible E s k with
    | none =>
      dsimp only
      rw [hnew (hn hv)]
      dsimp only
      rw [writeAt_iff h, if_pos ha, hset _ (by rw [hv]; rfl)]
    | some e =>
      obtain ⟨v0, l⟩ := e
      dsimp only
      rw [writeAt_iff h, if_pos ha, hset _ (by rw [hv]; rfl)]
  · intro hn
    change ∃ e, updateAt E.sto (permOf s.st.mode s.st.footprint) (visible E s) k _ = _
    unfold updateAt
    rw [readAt_iff h k]
    by_cases hr : permOf s.st.mode s.st.footprint k .readOnly = true
    · rw [if_pos hr]
      rw [canAccess_iff] at hn
      by_cases hw : permOf s.st.mode s.st.footprint k .readWrite = true
      · have hv : visible E s k = none ∧ ¬ ok := by
          by_cases hv : visible E s k = none
          · exact ⟨hv, fun hok => hn ⟨hw, fun _ => hok⟩⟩
          · exact absurd ⟨hw, fun hv' => absurd hv' hv⟩ hn
        obtain ⟨e, he⟩ := hno hv.2
        rw [hv.1]
        dsimp only
        rw [he]
        exact ⟨_, rfl⟩
      · cases hv : visible E s k with
        | none =>
          dsimp only
          cases newLiveUntil E.sto k with
          | error e => exact ⟨_, rfl⟩
          | ok l => dsimp only; rw [writeAt_iff h, if_neg hw]; exact ⟨_, rfl⟩
        | some e =>
          obtain ⟨v0, l⟩ := e
          dsimp only
          rw [writeAt_iff h, if_neg hw]
          exact ⟨_, rfl⟩
    · rw [if_neg hr]
      exact ⟨_, rfl⟩

theorem newLive_data {E : HEnv} (hk : E.sto.keys = keysOf) (a : Addr) (k : DKey) (d : Durability) :
    ((E.sto.li.minLiveUntil d).isSome = true → newLiveUntil E.sto (.data a k d) = .ok (E.sto.li.minLiveUntil d)) ∧
    (¬ (E.sto.li.minLiveUntil d).isSome = true → ∃ e, newLiveUntil E.sto (.data a k d) = .error e) := by
  unfold newLiveUntil
  rw [hk]
  cases hd : E.sto.li.minLiveUntil d with
  | none => simp [keysOf, hd]
  | some m => simp [keysOf, hd]

theorem newLive_classic {E : HEnv} (hk : E.sto.keys = keysOf) (n : Nat) : newLiveUntil E.sto (.classic n) = .ok none := by
  unfold newLiveUntil
  rw [hk]
  rfl

theorem settles_del {E : HEnv} {s : Host} (h : StOk E s.st) (k : LKey) :
    Settles E s (CanAccess s k .readWrite) (fun r => r = .unit) (fun k' => if k' = k then none else visible E s k')
      (asUnit (liftSt s (fun st => putOpt E.sto st k none))) := by
  obtain ⟨st', h1, h2, -⟩ := putOpt_spec (E := E.sto) h.map k (e := none) (fun _ _ _ hv => (by cases hv))
  refine settles_change ⟨st', h1, h2⟩ ?_ ?_
  · intro ha
    change writeAt E.sto (permOf s.st.mode s.st.footprint) (visible E s) k none = _
    rw [writeAt_iff h, if_pos (canAccess_iff.mp ha)]
    rfl
  · intro ha
    change ∃ e, writeAt E.sto (permOf s.st.mode s.st.footprint) (visible E s) k none = _
    rw [writeAt_iff h, if_neg (fun hp => ha (canAccess_iff.mpr hp))]
    exact ⟨_, rfl⟩

/-! ### extensions -/

theorem live_data {E : HEnv} {s : Host} (h : StOk E s.st) {a : Addr} {k : DKey} {d : Durability} {e : Entry LVal}
    (he : visible E s (.data a k d) = some e) : ∃ v l, e = (v, some l) ∧ E.sto.li.seq ≤ l := by
  have := absMap_live h.mode h.map (.data a k d)
  rw [show Storage.Spec.absMap E.sto s.st.mode s.st.map (.data a k d) = some e from he] at this
  obtain ⟨l, hl, hle⟩ := this e.1 e.2 d rfl (by rw [h.keys]; rfl)
  exact ⟨e.1, l, by rw [← hl], hle⟩

theorem data_info {E : HEnv} (hk : E.sto.keys = keysOf) {a : Addr} {k : DKey} {d : Durability} {x : Nat} {v : LVal} {old : Nat}
    (hl : E.sto.li.seq ≤ old) :
    (∃ M, E.sto.li.maxLiveUntil = some M ∧ (d = .temporary → x ≤ M - E.sto.li.seq) ∧ extendInfo E.sto (.data a k d) x v (some old) =
      .ok { entry := v, oldLiveUntil := old, currentTtl := old - E.sto.li.seq, maxLiveUntil := M }) ∨
    ((¬ ∃ M, E.sto.li.maxLiveUntil = some M ∧ (d = .temporary → x ≤ M - E.sto.li.seq)) ∧
      ∃ e, extendInfo E.sto (.data a k d) x v (some old) = .error e) := by
  unfold extendInfo
  dsimp only
  rw [if_neg (by omega)]
  cases hM : E.sto.li.maxLiveUntil with
  | none => exact Or.inr ⟨fun ⟨M, hx, _⟩ => (by cases hx), _, rfl⟩
  | some M =>
    dsimp only
    rw [hk]
    change (∃ M', _) ∨ _
    by_cases hd : d = .temporary ∧ x > M - E.sto.li.seq
    · refine Or.inr ⟨?_, _, if_pos hd⟩
      rintro ⟨M', hx, hb⟩
      cases hx
      have := hb hd.1
      omega
    · exact Or.inl ⟨M, rfl, fun hdt => (by by_contra hc; exact hd ⟨hdt, by omega⟩), if_neg hd⟩

theorem settles_extend {E : HEnv} {s : Host} (h : StOk E s.st) {a : Addr} {k : DKey} {d : Durability} {x : Ext}
    (g : Entry LVal → Res (Entry LVal)) {f : Store LKey LVal → Store LKey LVal × Res Unit}
    (hf : x.Valid E.sto.li.seq → ∃ st', Moved E.sto s.st st' (orElse (visible E s)
        (extendAt E.sto (permOf s.st.mode s.st.footprint) (visible E s) (.data a k d) g)) ∧
      f s.st = (st', toUnit (extendAt E.sto (permOf s.st.mode s.st.footprint) (visible E s) (.data a k d) g)))
    (hbad : ¬ x.Valid E.sto.li.seq → ∃ e, (f s.st).2 = .error e ∧ visible E { s with st := (f s.st).1 } = visible E s)
    (hg : x.Valid E.sto.li.seq → ∀ v l, visible E s (.data a k d) = some (v, some l) → E.sto.li.seq ≤ l →
      (∃ M, E.sto.li.maxLiveUntil = some M ∧ (d = .temporary → goal x ≤ M - E.sto.li.seq) ∧
        g (v, some l) = .ok (v, some (x.lifetime E.sto.li.seq M l))) ∨
      ((¬ ∃ M, E.sto.li.maxLiveUntil = some M ∧ (d = .temporary → goal x ≤ M - E.sto.li.seq)) ∧ ∃ e, g (v, some l) = .error e)) :
    Settles E s (Extends E s (.data a k d) d x) (fun r => r = .unit)
      (extendedLedger (visible E s) [.data a k d] (x.lifetime E.sto.li.seq (E.sto.li.maxLiveUntil.getD 0))) (asUnit (liftSt s f)) := by
  by_cases hv : x.Valid E.sto.li.seq
  · refine settles_change (hf hv) ?_ ?_
    · rintro ⟨-, ⟨ha, hs⟩, hb⟩
      obtain ⟨e, he⟩ := Option.isSome_iff_exists.mp hs
      obtain ⟨v, l, rfl, hl⟩ := live_data h he
      unfold extendAt getAt
      rw [readAt_iff h, if_pos (canAccess_iff.mp ha), he]
      dsimp only
      rcases hg hv v l he hl with ⟨M, hM, -, hge⟩ | ⟨hn, -⟩
      · rw [hge, hM]
        dsimp only
        rw [extendedLedger_set he]
        rfl
      · exact absurd hb hn
    · intro hn
      unfold extendAt getAt
      rw [readAt_iff h]
      by_cases hp : permOf s.st.mode s.st.footprint (.data a k d) .readOnly = true
      · rw [if_pos hp]
        cases he : visible E s (.data a k d) with
        | none => exact ⟨_, rfl⟩
        | some e =>
          obtain ⟨v, l, rfl, hl⟩ := live_data h he
          dsimp only
          rcases hg hv v l he hl with ⟨M, hM, hb, -⟩ | ⟨-, err, herr⟩
          · exact absurd ⟨hv, ⟨canAccess_iff.mpr hp, by rw [he]; rfl⟩, M, hM, hb⟩ hn
          · rw [herr]; exact ⟨_, rfl⟩
      · rw [if_neg hp]; exact ⟨_, rfl⟩
  · obtain ⟨e, he, hL⟩ := hbad hv
    refine ⟨fun hx => absurd hx.valid hv, fun _ => ⟨⟨e, ?_⟩, hL⟩⟩
    unfold asUnit liftSt
    dsimp only
    rw [he]

theorem settles_upTo {E : HEnv} {s : Host} (h : StOk E s.st) (a : Addr) (k : DKey) (d : Durability) (t x : Nat) :
    Settles E s (Extends E s (.data a k d) d (.upTo t x)) (fun r => r = .unit)
      (extendedLedger (visible E s) [.data a k d] ((Ext.upTo t x).lifetime E.sto.li.seq (E.sto.li.maxLiveUntil.getD 0)))
      (asUnit (liftSt s (fun st => extendTtl E.sto st (.data a k d) t x))) := by
  refine settles_extend h (extended E.sto (.data a k d) t x) ?_ ?_ ?_
  · rintro ⟨h1, -⟩
    obtain ⟨st', h2, h3, -⟩ := extendTtl_spec h.mode h.map (.data a k d) t x (by omega)
    exact ⟨st', h2, h3⟩
  · intro hn
    by_cases htx : t > x
    · refine ⟨.host .storage .invalidInput, ?_, ?_⟩ <;> simp only [extendTtl, htx, if_true]
    · obtain ⟨st', h2, h3, -⟩ := extendTtl_spec h.mode h.map (.data a k d) t x htx
      have hu : u32Max < E.sto.li.seq + x := by
        by_contra hc
        exact hn ⟨by omega, by omega⟩
      have herr : ∃ e, extendAt E.sto (permOf s.st.mode s.st.footprint) (absMap E.sto s.st.mode s.st.map) (.data a k d)
          (extended E.sto (.data a k d) t x) = .error e := by
        unfold extendAt
        cases getAt E.sto (permOf s.st.mode s.st.footprint) (absMap E.sto s.st.mode s.st.map) (.data a k d) with
        | error e => exact ⟨_, rfl⟩
        | ok e =>
          dsimp only
          unfold extended
          cases extendInfo E.sto (.data a k d) x e.1 e.2 with
          | error e => exact ⟨_, rfl⟩
          | ok i => dsimp only; rw [if_pos hu]; exact ⟨_, rfl⟩
      obtain ⟨e, he⟩ := herr
      rw [he] at h2 h3
      rw [h3]
      exact ⟨e, rfl, h2.abs⟩
  · rintro ⟨-, hu⟩ v l - hl
    rcases data_info h.keys (a := a) (k := k) (d := d) (x := x) (v := v) hl with ⟨M, hM, hb, hi⟩ | ⟨hn, e, hi⟩
    · refine Or.inl ⟨M, hM, hb, ?_⟩
      unfold extended Ext.lifetime
      rw [hi]
      dsimp only
      rw [if_neg (by omega)]
      by_cases h1 : l - E.sto.li.seq ≤ t
      · rw [if_pos h1]
        by_cases h2 : l < min (E.sto.li.seq + x) M
        · rw [if_pos ⟨h1, h2⟩]; congr 3; omega
        · rw [if_neg (fun h => h2 h.2)]; congr 3; omega
      · rw [if_neg h1, if_neg (fun h => h1 h.1)]
    · refine Or.inr ⟨hn, e, ?_⟩
      unfold extended
      rw [hi]

theorem settles_between {E : HEnv} {s : Host} (h : StOk E s.st) (h32 : Lifetimes32 E s) (a : Addr) (k : DKey) (d : Durability) (x m n : Nat) :
    Settles E s (Extends E s (.data a k d) d (.between x m n)) (fun r => r = .unit)
      (extendedLedger (visible E s) [.data a k d] ((Ext.between x m n).lifetime E.sto.li.seq (E.sto.li.maxLiveUntil.getD 0)))
      (asUnit (liftSt s (fun st => extendTtlV2 E.sto st (.data a k d) x m n))) := by
  refine settles_extend h (extendedV2 E.sto (.data a k d) x m n) ?_ ?_ ?_
  · intro h1
    have h1 : m ≤ n := h1
    obtain ⟨st', h2, h3, -⟩ := extendTtlV2_spec h.mode h.map (.data a k d) x m n (by omega)
    exact ⟨st', h2, h3⟩
  · intro hn
    have hn : ¬ m ≤ n := hn
    have hlt : n < m := by omega
    refine ⟨.host .storage .invalidInput, ?_, ?_⟩ <;> simp only [extendTtlV2, hlt, if_true]
  · intro _ v l hvis hl
    have hu := h32 _ _ _ hvis
    rcases data_info h.keys (a := a) (k := k) (d := d) (x := x) (v := v) hl with ⟨M, hM, hb, hi⟩ | ⟨hn, e, hi⟩
    · refine Or.inl ⟨M, hM, hb, ?_⟩
      have hMu := maxLive_u32 hM
      unfold extendedV2 Ext.lifetime
      rw [hi]
      dsimp only
      have hy : l + min (min (E.sto.li.seq + x - l) n) (M - l) ≤ u32Max := by
        have : min (min (E.sto.li.seq + x - l) n) (M - l) ≤ M - l := Nat.min_le_right _ _
        omega
      generalize min (min (E.sto.li.seq + x - l) n) (M - l) = y at hy ⊢
      by_cases h1 : y < m
      · rw [if_pos h1, if_neg (by omega)]
      rw [if_neg h1, if_neg (by omega), if_pos (show m ≤ y by omega)]
      by_cases h3 : y = 0
      · rw [if_pos h3, h3]; rfl
      · rw [if_neg h3]
    · refine Or.inr ⟨hn, e, ?_⟩
      unfold extendedV2
      rw [hi]

/-! ### the check of new values -/

theorem verifyExists_settles {E : HEnv} {s : Host} (h : StOk E s.st) (k : LKey) :
    ∃ st', Same E.sto s.st st' ∧ (verifyExists E s k).1 = { s with st := st' } ∧
      (Found E s k → (verifyExists E s k).2 = .ok ()) ∧ (¬ Found E s k → ∃ e, (verifyExists E s k).2 = .error e) := by
  obtain ⟨st', hsame, hx⟩ := has_does h k
  refine ⟨st', hsame, ?_⟩
  unfold verifyExists Found
  rw [hx, canAccess_iff]
  by_cases hp : permOf s.st.mode s.st.footprint k .readOnly = true
  · rw [if_pos hp]
    cases hv : (visible E s k).isSome with
    | true => exact ⟨rfl, fun _ => rfl, fun hn => absurd ⟨hp, rfl⟩ hn⟩
    | false => exact ⟨rfl, fun ⟨_, hc⟩ => (by cases hc), fun _ => ⟨_, rfl⟩⟩
  · rw [if_neg hp]
    exact ⟨rfl, fun hc => absurd hc.1 hp, fun _ => ⟨_, rfl⟩⟩

theorem validatePut_settles {E : HEnv} {s : Host} (h : StOk E s.st) (k : DKey) (v : Nat) (d : Durability) :
    ∃ st', Same E.sto s.st st' ∧ (validatePut E s k v d).1 = { s with st := st' } ∧
      (Storable E s v d k → (validatePut E s k v d).2 = .ok ()) ∧ (¬ Storable E s v d k → ∃ e, (validatePut E s k v d).2 = .error e) := by
  have hrefl : Same E.sto s.st s.st := Same.refl h.map
  cases k with
  | val n => exact ⟨s.st, hrefl, rfl, fun _ => rfl, fun hn => absurd trivial hn⟩
  | tag t =>
    unfold validatePut Storable
    dsimp only
    by_cases hd : d = .persistent
    · rw [if_pos hd]
      cases hh : E.hashOf v with
      | none => exact ⟨s.st, hrefl, rfl, fun ⟨_, _, hc, _⟩ => (by cases hc), fun _ => ⟨_, rfl⟩⟩
      | some c =>
        dsimp only
        obtain ⟨st', h1, h2, h3, h4⟩ := verifyExists_settles h (.code c)
        refine ⟨st', h1, h2, ?_, fun hn => h4 (fun hf => hn ⟨hd, c, rfl, hf⟩)⟩
        rintro ⟨-, c', hc, hf⟩
        cases hc
        exact h3 hf
    · rw [if_neg hd]
      exact ⟨s.st, hrefl, rfl, fun hc => absurd hc.1 hd, fun _ => ⟨_, rfl⟩⟩

/-! ### all the functions -/

theorem data_settles {E : HEnv} {s : Host} (h : StOk E s.st) (h32 : Lifetimes32 E s) (id : Nat) {o : DataOp}
    (ho : ∀ c scope x, o ≠ .extendContract c scope x) :
    Settles E s (Allowed E s id o) (fun r => Gives E s id r o) (ledgerAfter E s id o) (dataOp E s id o) := by
  cases o with
  | get k d => exact settles_get h _
  | has k d => exact settles_has h _
  | put k v d =>
    obtain ⟨st', hsame, h1, h2, h3⟩ := validatePut_settles h k v d
    have hvis : visible E { s with st := st' } = visible E s := hsame.abs
    have hacc : ∀ k ty, CanAccess { s with st := st' } k ty ↔ CanAccess s k ty := fun k ty => by
      rw [canAccess_iff, canAccess_iff]
      exact (by rw [same_access (s := s) hsame])
    have hst : StOk E { s with st := st' }.st := ⟨h.keys, by rw [hsame.mode]; exact h.mode, hsame.ok⟩
    have hw := settles_write hst (.data (.contract id) k d) (.data v) _ _ (newLive_data h.keys (.contract id) k d).1
      (newLive_data h.keys (.contract id) k d).2
    unfold Settles at hw
    rw [hvis, hacc] at hw
    unfold dataOp
    dsimp only
    rcases hx : validatePut E s k v d with ⟨s1, r⟩
    rw [hx] at h1 h2 h3
    dsimp only at h1 h2 h3
    subst h1
    by_cases hs : Storable E s v d k
    · rw [h2 hs]
      dsimp only
      exact ⟨fun ha => hw.1 ha.2, fun hn => hw.2 (fun ha => hn ⟨hs, ha⟩)⟩
    · obtain ⟨e, he⟩ := h3 hs
      rw [he]
      exact ⟨fun ha => absurd ha.1 hs, fun _ => ⟨⟨_, rfl⟩, hvis⟩⟩
  | del k d =>
    cases k with
    | tag t => exact ⟨fun ⟨⟨n, hn⟩, _⟩ => (by cases hn), fun _ => ⟨⟨_, rfl⟩, rfl⟩⟩
    | val n =>
      have hw := settles_del h (.data (.contract id) (.val n) d)
      exact ⟨fun ha => hw.1 ha.2, fun hn => hw.2 (fun ha => hn ⟨⟨n, rfl⟩, ha⟩)⟩
  | extend k d t x => exact settles_upTo h _ k d t x
  | extendV2 k d x a b => exact settles_between h h32 _ k d x a b
  | extendContract c scope x => exact absurd rfl (ho c scope x)
  | getClassic n => exact settles_get h _
  | putClassic n v =>
    have hw := settles_write h (.classic n) (.classic v) True none (fun _ => newLive_classic h.keys n) (fun hn => absurd trivial hn)
    exact ⟨fun ha => hw.1 ⟨ha, fun _ => trivial⟩, fun hn => hw.2 (fun ha => hn ha.1)⟩

end Soroban.Host
