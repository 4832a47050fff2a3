import Verif.Lemmas.SacTotal
import Verif.Spec.SacStorage
import Verif.Props.Convert
/-! Making and reading the stored values of the asset contract. -/
namespace Soroban.SacStorage
open Soroban Soroban.Spec Soroban.Sac Soroban.ContractTypes Soroban.ContractTypes.Spec Soroban.SacValues Soroban.SacValues.Spec
open Soroban.SacStorage.Spec
open Soroban.Auth (Addr)

variable {objs objs' : List HostObj}

/-! ### Structs can be made -/

theorem syms_makes : ∀ {bs : List (List Nat)} {objs : List HostObj}, (∀ b ∈ bs, LeafGood (.sym b) = true) → objs.length + bs.length ≤ 2 ^ 31 →
    ∃ o ks, symbolsFromSlices objs bs = .ok (o, ks) ∧ o.length ≤ objs.length + bs.length ∧ ks.length = bs.length
  | [], objs, _, _ => ⟨objs, [], rfl, by simp, rfl⟩
  | b :: bs, objs, hg, hl => by
    rw [List.length_cons] at hl ⊢
    obtain ⟨o1, k, h1, e1⟩ := newLeaf_makes (l := .sym b) (hg b (by simp)) (objs := objs) (by omega)
    obtain ⟨o2, ks, h2, e2, e3⟩ := syms_makes (bs := bs) (objs := o1) (fun x hx => hg x (by simp [hx])) (by omega)
    exact ⟨o2, k :: ks, bind_ok.mpr ⟨_, h1, bind_ok.mpr ⟨_, h2, rfl⟩⟩, by omega, by rw [List.length_cons, e3]⟩

theorem loop_dense {cmp : Nat → Nat → Res Ordering} {good isVoid : Nat → Bool} : ∀ {l : List (Nat × Nat)} {prev : Option Nat},
    (∀ p ∈ l, good p.2 = true) → mapFromSlicesLoop cmp good isVoid false prev l = .ok l
  | [], _, _ => rfl
  | (k, v) :: l, prev, h => by
    have hc : checkPrev cmp false prev k = .ok () := by unfold checkPrev; cases prev <;> simp
    have hv := h (k, v) (by simp)
    have ih := loop_dense (cmp := cmp) (isVoid := isVoid) (l := l) (prev := some k) (fun p hp => h p (by simp [hp]))
    rw [mapFromSlicesLoop, hc]
    simp only at hv
    simp [hv, ih]

/-- Names in the order of symbols. -/
def ScAsc : List (List Nat) → Bool
  | a :: b :: r => (match scOrd (.symbol a) (.symbol b) with | .lt => true | _ => false) && ScAsc (b :: r)
  | _ => true

theorem sorted_syms (ho : ObjsOk objs) {d : Nat} : ∀ {ks vs : List Nat} {bs : List (List Nat)},
    List.Forall₂ (fun k b => Is objs k (.symbol b)) ks bs → ks.length = vs.length → ScAsc bs = true →
    checkSorted (valCmp objs (d + 1)) (ks.zip vs) = .ok ()
  | _, _, _, .nil, _, _ => by cases ‹List Nat› <;> rfl
  | _, [], _, .cons _ _, hl, _ => by simp at hl
  | _, [_], _, .cons _ .nil, _, _ => rfl
  | _, _ :: _ :: _, _, .cons _ .nil, hl, _ => by simp at hl
  | _, [_], _, .cons _ (.cons _ _), hl, _ => by simp at hl
  | k :: k' :: ks, v :: v' :: vs, b :: b' :: bs, .cons h1 (.cons h2 ht), hl, ha => by
    unfold ScAsc at ha
    rw [Bool.and_eq_true] at ha
    obtain ⟨a1, a2⟩ := ha
    have ih := sorted_syms ho (d := d) (ks := k' :: ks) (vs := v' :: vs) (.cons h2 ht) (by simpa using hl) a2
    have hc := valCmp_spec ho h1.1 h2.1 (Props.symbol_reads (symbol_is ho h1) d) (Props.symbol_reads (symbol_is ho h2) d)
    have e : scOrd (.symbol b) (.symbol b') = .lt := by
      cases hx : scOrd (.symbol b) (.symbol b') with
      | lt => rfl
      | eq => rw [hx] at a1; cases a1
      | gt => rw [hx] at a1; cases a1
    rw [e] at hc
    rw [List.zip_cons_cons, List.zip_cons_cons, checkSorted]
    simp only [hc]
    exact ih

theorem forall2_len {α β : Type} {R : α → β → Prop} {l : List α} {r : List β} (h : List.Forall₂ R l r) : l.length = r.length := by
  induction h with
  | nil => rfl
  | cons _ _ ih => simp [ih]

theorem sound_isSound {v : Nat} (h : Sound objs v) : isSoundVal objs v = true := by
  unfold isSoundVal
  rw [h.2]

theorem newStruct_makes (ho : ObjsOk objs) {d : Nat} {names : List (List Nat)} {vs : List Nat} {ss : List ScVal}
    (hr : List.Forall₂ (Is objs) vs ss) (hg : ∀ b ∈ names, LeafGood (.sym b) = true) (ha : ScAsc names = true)
    (hn : names.length = vs.length) (hl : objs.length + names.length + 1 ≤ 2 ^ 31) :
    Makes (names.length + 1) objs (newStruct (d + 1) objs names vs) := by
  obtain ⟨o1, ks, h1, e1, e2⟩ := syms_makes hg (objs := objs) (by omega)
  have g1 := syms_grown h1
  obtain ⟨k1, k2⟩ := syms_made ho h1 (by omega)
  have hr1 := forall2_grow hr g1
  obtain ⟨v, hv⟩ := addObj_ok (os := o1) (.map (ks.zip vs)) (by omega)
  refine ⟨_, v, bind_ok.mpr ⟨(o1, ks), h1, bind_ok.mpr ⟨ks.zip vs, ?_, hv⟩⟩, by simp; omega⟩
  have hgood : ∀ p ∈ ks.zip vs, isSoundVal o1 p.2 = true := fun p hp => by
    obtain ⟨s, hs⟩ := forall2_mem hr1 p.2 (List.of_mem_zip (a := p.1) (b := p.2) hp).2
    exact sound_isSound hs.1
  have hd := loop_dense (cmp := valCmp o1 (d + 1)) (isVoid := fun v => v == valVoid) (l := ks.zip vs) (prev := none) hgood
  have hs := sorted_syms k1 (d := d) k2 (vs := vs) (by omega) ha
  unfold mapFromSlices
  rw [if_neg (by simp; omega)]
  simp only [hd]
  unfold fromMap
  rw [if_neg (by simp [u32Max]; omega), hs]

theorem newRecord_makes (ho : ObjsOk objs) {d : Nat} {names : List (List Nat)} {ls : List Leaf} (hf : ∀ l ∈ ls, LeafFits l)
    (hg' : ∀ l ∈ ls, LeafGood l = true) (hg : ∀ b ∈ names, LeafGood (.sym b) = true) (ha : ScAsc names = true)
    (hn : names.length = ls.length) (hl : objs.length + names.length + names.length + 1 ≤ 2 ^ 31) :
    Makes (names.length + names.length + 1) objs (newRecord (d + 1) objs names ls) := by
  obtain ⟨o1, vs, h1, e1, e2⟩ := newLeaves_makes hg' (objs := objs) (by omega)
  obtain ⟨k1, k2⟩ := newLeaves_made ho hf h1 (by omega)
  obtain ⟨o2, v, h2, e3⟩ := newStruct_makes k1 (d := d) k2 hg ha (by omega) (by omega)
  exact ⟨o2, v, bind_ok.mpr ⟨_, h1, h2⟩, by omega⟩

theorem newLeaves_grown : ∀ {ls : List Leaf} {objs objs' : List HostObj} {vs : List Nat}, newLeaves objs ls = .ok (objs', vs) →
    ∃ e, objs' = objs ++ e
  | [], _, _, _, h => by cases h; exact ⟨[], by simp⟩
  | l :: ls, objs, objs', vs, h => by
    rw [newLeaves] at h
    obtain ⟨⟨o1, v⟩, h1, h2⟩ := bind_ok.mp h
    obtain ⟨⟨o2, ws⟩, h3, h4⟩ := bind_ok.mp h2
    cases h4
    exact grown_trans (newLeaf_grown h1) (newLeaves_grown h3)

theorem newRecord_made (ho : ObjsOk objs) {d : Nat} {names : List (List Nat)} {ls : List Leaf} {v : Nat} (hf : ∀ l ∈ ls, LeafFits l)
    (h : newRecord d objs names ls = .ok (objs', v)) (hl : objs'.length ≤ 2 ^ 31) :
    Made objs objs' v (struct (names.zip (ls.map leafOf))) := by
  obtain ⟨⟨o1, vs⟩, h1, h2⟩ := bind_ok.mp h
  obtain ⟨k1, k2⟩ := newLeaves_made ho hf h1 (Nat.le_trans (grown_len (newStruct_grown h2)) hl)
  have m := newStruct_made k1 k2 h2 hl
  exact ⟨grown_trans (newLeaves_grown h1) m.grown, m.good, m.is⟩

/-! ### Keys and values -/

theorem dataKey_made (ho : ObjsOk objs) {d : Nat} {k : DataKey} {v : Nat} (h : newDataKey d objs k = .ok (objs', v))
    (hl : objs'.length ≤ 2 ^ 31) : Made objs objs' v (keyOf k) := by
  cases k with
  | allowance f s =>
    obtain ⟨⟨o1, c⟩, h1, h2⟩ := bind_ok.mp h
    obtain ⟨⟨o2, m⟩, h3, h4⟩ := bind_ok.mp h2
    have g4 := newVec_grown h4
    have g3 := (bind_ok.mp h3)
    obtain ⟨⟨o3, ws⟩, q1, q2⟩ := g3
    have g3 := grown_trans (newLeaves_grown q1) (newStruct_grown q2)
    have l4 := grown_len g4
    have l3 := grown_len g3
    dsimp only at l3 l4 h4
    have m1 := newLeaf_made ho (l := .sym (txt "Allowance")) trivial h1 (by omega)
    have m3 := newRecord_made m1.good (ls := [.addr f, .addr s]) (by simp [LeafFits]) h3 (by omega)
    have m4 := newVec_made m3.good (.cons (m1.is.grow m3.grown) (.cons m3.is .nil)) h4 hl
    exact ⟨grown_trans m1.grown (grown_trans m3.grown m4.grown), m4.good, m4.is⟩
  | balance a => exact hostVec_made (ls := [.sym (txt "Balance"), .addr a]) ho (by simp [LeafFits]) h hl

theorem dataKey_makes (ho : ObjsOk objs) {d : Nat} {k : DataKey} (hl : objs.length + 7 ≤ 2 ^ 31) :
    Makes 7 objs (newDataKey (d + 1) objs k) := by
  cases k with
  | allowance f s =>
    obtain ⟨o1, c, h1, e1⟩ := newLeaf_makes (l := .sym (txt "Allowance")) (by decide) (objs := objs) (by omega)
    have m1 := newLeaf_made ho (l := .sym (txt "Allowance")) trivial h1 (by omega)
    obtain ⟨o2, m, h2, e2⟩ := newRecord_makes (d := d) m1.good (names := [sFrom, sSpender]) (ls := [.addr f, .addr s]) (by simp [LeafFits])
      (by simp [LeafGood]) (by decide) (by decide) rfl (by simp; omega)
    simp only [List.length_cons, List.length_nil] at e2
    have m2 := newRecord_made m1.good (ls := [.addr f, .addr s]) (by simp [LeafFits]) h2 (by omega)
    obtain ⟨v, hv⟩ := addObj_ok (os := o2) (.vec [c, m]) (by omega)
    refine ⟨_, v, bind_ok.mpr ⟨_, h1, bind_ok.mpr ⟨_, h2, bind_ok.mpr ⟨(), ?_, bind_ok.mpr ⟨_, rfl, hv⟩⟩⟩⟩, by simp; omega⟩
    exact checkAll_ok (.cons (m1.is.grow m2.grown) (.cons m2.is .nil))
  | balance a =>
    obtain ⟨o, v, h, e⟩ := hostVec_makes (ls := [.sym (txt "Balance"), .addr a]) ho (by intro l hl; simp at hl; rcases hl with rfl | rfl; exacts [by decide, rfl])
      (by simp [LeafFits]) (by simp; omega)
    exact ⟨o, v, h, by simp at e; omega⟩

theorem instKey_made (ho : ObjsOk objs) {k : InstKey} {v : Nat} (h : newInstKey objs k = .ok (objs', v)) (hl : objs'.length ≤ 2 ^ 31) :
    Made objs objs' v (instKeyOf k) := by
  cases k with
  | admin => exact hostVec_made (ls := [.sym (txt "Admin")]) ho (by simp [LeafFits]) h hl
  | assetInfo => exact hostVec_made (ls := [.sym (txt "AssetInfo")]) ho (by simp [LeafFits]) h hl
  | metadata => exact newLeaf_made ho (l := .sym (txt "METADATA")) trivial h hl

theorem instKey_makes (ho : ObjsOk objs) {k : InstKey} (hl : objs.length + 2 ≤ 2 ^ 31) : Makes 2 objs (newInstKey objs k) := by
  cases k with
  | admin => exact hostVec_makes (ls := [.sym (txt "Admin")]) ho (by decide) (by simp [LeafFits]) hl
  | assetInfo => exact hostVec_makes (ls := [.sym (txt "AssetInfo")]) ho (by decide) (by simp [LeafFits]) hl
  | metadata => exact (newLeaf_makes (l := .sym (txt "METADATA")) (by decide) (by omega)).le (by omega)

theorem balance_made (ho : ObjsOk objs) {d : Nat} {b : BalanceV} {v : Nat} (hf : Fits b.amount) (h : newBalance d objs b = .ok (objs', v))
    (hl : objs'.length ≤ 2 ^ 31) : Made objs objs' v (balanceOf b) :=
  newRecord_made (ls := [.i128 b.amount, .bool b.authorized, .bool b.clawback]) ho
    (by intro l hl; simp at hl; rcases hl with rfl | rfl | rfl; exacts [hf, trivial, trivial]) h hl

theorem balance_makes (ho : ObjsOk objs) {d : Nat} {b : BalanceV} (hf : Fits b.amount) (hl : objs.length + 7 ≤ 2 ^ 31) :
    Makes 7 objs (newBalance (d + 1) objs b) :=
  newRecord_makes (names := [sAmount, sAuthorized, sClawback]) (ls := [.i128 b.amount, .bool b.authorized, .bool b.clawback]) ho
    (by intro l hl; simp at hl; rcases hl with rfl | rfl | rfl; exacts [hf, trivial, trivial])
    (by intro l hl; simp at hl; rcases hl with rfl | rfl | rfl <;> rfl) (by decide) (by decide) rfl (by simp; omega)

theorem allowance_made (ho : ObjsOk objs) {d : Nat} {a : AllowanceV} {v : Nat} (hf : Fits a.amount) (hu : a.liveUntil < 2 ^ 32)
    (h : newAllowance d objs a = .ok (objs', v)) (hl : objs'.length ≤ 2 ^ 31) : Made objs objs' v (allowanceOf a) :=
  newRecord_made (ls := [.i128 a.amount, .u32 a.liveUntil]) ho
    (by intro l hl; simp at hl; rcases hl with rfl | rfl; exacts [hf, hu]) h hl

theorem allowance_makes (ho : ObjsOk objs) {d : Nat} {a : AllowanceV} (hf : Fits a.amount) (hu : a.liveUntil < 2 ^ 32)
    (hl : objs.length + 5 ≤ 2 ^ 31) : Makes 5 objs (newAllowance (d + 1) objs a) :=
  newRecord_makes (names := [sAmount, sLiveUntil]) (ls := [.i128 a.amount, .u32 a.liveUntil]) ho
    (by intro l hl; simp at hl; rcases hl with rfl | rfl; exacts [hf, hu])
    (by intro l hl; simp at hl; rcases hl with rfl | rfl <;> rfl) (by decide) (by decide) rfl (by simp; omega)

theorem readBalance_iff (ho : ObjsOk objs) {v : Nat} {s : ScVal} {b : BalanceV} (h : Is objs v s) :
    readBalance objs v = .ok b ↔ s = balanceOf b ∧ Fits b.amount := by
  constructor
  · intro hr
    obtain ⟨vs, h1, h2⟩ := bind_ok.mp hr
    obtain ⟨ss, e1, e2, e3⟩ := readStruct_is ho (by decide) h h1
    match vs, e3, e2, h2 with
    | [a, u, c], _, e2, h2 =>
      obtain ⟨x, y, z, rfl, i1, i2, i3⟩ := forall3 e2
      obtain ⟨a', q1, h3⟩ := bind_ok.mp h2
      obtain ⟨u', q2, h4⟩ := bind_ok.mp h3
      obtain ⟨c', q3, h5⟩ := bind_ok.mp h4
      cases h5
      obtain ⟨rfl, hf⟩ := (asI128_iff ho i1).1 q1
      cases (asBool_iff ho i2).1 q2
      cases (asBool_iff ho i3).1 q3
      exact ⟨e1, hf⟩
  · rintro ⟨rfl, hf⟩
    obtain ⟨vs, h1, h2⟩ := struct_is ho (ts := [sAmount, sAuthorized, sClawback])
      (ss := [int128 b.amount, .bool b.authorized, .bool b.clawback]) (by decide) rfl h
    obtain ⟨x, y, z, rfl, i1, i2, i3⟩ := three h2
    exact bind_ok.mpr ⟨_, h1, bind_ok.mpr ⟨_, (asI128_iff ho i1).2 ⟨rfl, hf⟩, bind_ok.mpr ⟨_, (asBool_iff ho i2).2 rfl,
      bind_ok.mpr ⟨_, (asBool_iff ho i3).2 rfl, rfl⟩⟩⟩⟩

theorem readAllowance_iff (ho : ObjsOk objs) {v : Nat} {s : ScVal} {a : AllowanceV} (h : Is objs v s) :
    readAllowance objs v = .ok a ↔ s = allowanceOf a ∧ Fits a.amount := by
  constructor
  · intro hr
    obtain ⟨vs, h1, h2⟩ := bind_ok.mp hr
    obtain ⟨ss, e1, e2, e3⟩ := readStruct_is ho (by decide) h h1
    match vs, e3, e2, h2 with
    | [x, l], _, e2, h2 =>
      obtain ⟨y, z, rfl, i1, i2⟩ := forall2 e2
      obtain ⟨a', q1, h3⟩ := bind_ok.mp h2
      obtain ⟨l', q2, h4⟩ := bind_ok.mp h3
      cases h4
      obtain ⟨rfl, hf⟩ := (asI128_iff ho i1).1 q1
      cases (asU32_iff ho i2).1 q2
      exact ⟨e1, hf⟩
  · rintro ⟨rfl, hf⟩
    obtain ⟨vs, h1, h2⟩ := struct_is ho (ts := [sAmount, sLiveUntil]) (ss := [int128 a.amount, .u32 a.liveUntil]) (by decide) rfl h
    obtain ⟨x, y, rfl, i1, i2⟩ := two h2
    exact bind_ok.mpr ⟨_, h1, bind_ok.mpr ⟨_, (asI128_iff ho i1).2 ⟨rfl, hf⟩, bind_ok.mpr ⟨_, (asU32_iff ho i2).2 rfl, rfl⟩⟩⟩

/-! ### Conversion for storage -/

/-- Nested no deeper than this, and without muxed addresses. -/
def Storable : Nat → ScVal → Prop
  | 0, _ => False
  | d + 1, s => (∀ i k, s ≠ .address (.muxedAccount i k)) ∧ ∀ x ∈ children s, Storable d x

theorem fromVals_conv {f g : Nat → Res ScVal} : ∀ {l : List Nat} {r : List ScVal}, fromVals f l = .ok r →
    (∀ v s, s ∈ r → f v = .ok s → g v = .ok s) → fromVals g l = .ok r
  | [], _, h, _ => h
  | v :: l, r, h, hg => by
    obtain ⟨s, ss, h1, h2, rfl⟩ := fromVals_cons h
    exact bind_ok.mpr ⟨_, hg v s (by simp) h1, bind_ok.mpr ⟨_, fromVals_conv h2 (fun v s hs => hg v s (by simp [hs])), rfl⟩⟩

theorem fromEntries_conv {f g : Nat → Res ScVal} : ∀ {l : List (Nat × Nat)} {r : List (ScVal × ScVal)}, fromEntries f l = .ok r →
    (∀ v s, (s ∈ r.map Prod.fst ∨ s ∈ r.map Prod.snd) → f v = .ok s → g v = .ok s) → fromEntries g l = .ok r
  | [], _, h, _ => h
  | (k, v) :: l, r, h, hg => by
    obtain ⟨s, s', ss, h1, h1', h2, rfl⟩ := fromEntries_cons h
    exact bind_ok.mpr ⟨_, hg k s (by simp) h1, bind_ok.mpr ⟨_, hg v s' (by simp) h1', bind_ok.mpr ⟨_, fromEntries_conv h2 (fun v s hs => hg v s (by
      rcases hs with hs | hs
      · exact Or.inl (by rw [List.map_cons]; exact List.mem_cons_of_mem _ hs)
      · exact Or.inr (by rw [List.map_cons]; exact List.mem_cons_of_mem _ hs))), rfl⟩⟩⟩

theorem storable_converts (hok : ObjsOk objs) : ∀ {d D v : Nat} {s : ScVal}, fromVal false objs D v = .ok s → Storable d s → fromVal true objs d v = .ok s := by
  intro d
  induction d with
  | zero => intro D v s _ hs; exact hs.elim
  | succ d ih =>
    intro D v s h hs
    cases D with
    | zero => cases h
    | succ D =>
      rw [fromVal] at h ⊢
      obtain ⟨s', h1, h2⟩ := bind_ok.mp h
      have e : s' = s := by
        unfold checkRepresentable at h2
        split at h2 <;> cases h2
        rfl
      rw [e] at h1 h2
      refine bind_ok.mpr ⟨s, ?_, h2⟩
      obtain ⟨hm, hc⟩ := hs
      cases ho : Val.isObject v with
      | false => unfold scValTryFromVal; rw [if_neg (by simp [ho])]; exact tryFrom_small ho h1
      | true =>
        obtain ⟨o, e1, e2⟩ := tryFrom_obj ho h1
        unfold scValTryFromVal
        rw [if_pos ho]
        refine bind_ok.mpr ⟨o, e1, ?_⟩
        cases o <;> simp only [fromHostObj] at e2 ⊢ <;> try exact e2
        · obtain ⟨r, hr, h⟩ := bind_ok.mp e2
          cases h
          exact bind_ok.mpr ⟨r, fromVals_conv hr (fun v s hs h => ih h (hc s (by simpa [children] using hs))), rfl⟩
        · obtain ⟨r, hr, h⟩ := bind_ok.mp e2
          cases h
          refine bind_ok.mpr ⟨r, fromEntries_conv hr (fun v s hs h => ih h (hc s ?_)), rfl⟩
          simp only [children, List.mem_flatMap]
          rcases hs with hs | hs <;> obtain ⟨p, hp, rfl⟩ := List.mem_map.1 hs <;> exact ⟨p, hp, by simp⟩
        · obtain ⟨_, _, hi⟩ := visitObj_ok.1 e1
          obtain ⟨i, k, rfl⟩ := (hok _ _ hi).1
          rw [if_neg (by simp)] at e2
          cases e2
          exact absurd rfl (hm i k)

end Soroban.SacStorage
