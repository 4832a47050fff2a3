import Verif.Lemmas.CompareVal
/-!
Lemmas for C05: the whole comparison of host values, and the comparison of ledger values.
-/
namespace Soroban
open Soroban.Spec

variable {fs : Bool} {objs : List HostObj}

theorem fromVal_succ {d v : Nat} {s : ScVal} (h : fromVal fs objs (d + 1) v = .ok s) :
    scValTryFromVal (fromVal fs objs d) fs objs v = .ok s := by
  rw [fromVal] at h
  obtain ⟨s', h1, h⟩ := bind_ok.1 h
  unfold checkRepresentable at h
  split at h <;> cases h
  exact h1

theorem tryFrom_obj {rec : Nat → Res ScVal} {v : Nat} {s : ScVal} (hv : Val.isObject v = true)
    (h : scValTryFromVal rec fs objs v = .ok s) : ∃ o, visitObj objs v = .ok o ∧ fromHostObj rec fs o = .ok s := by
  unfold scValTryFromVal at h
  rw [if_pos hv] at h
  exact bind_ok.1 h

theorem tryFrom_small {rec : Nat → Res ScVal} {v : Nat} {s : ScVal} (hv : Val.isObject v = false)
    (h : scValTryFromVal rec fs objs v = .ok s) : fromSmallVal v = .ok s := by
  unfold scValTryFromVal at h
  rw [if_neg (by simp [hv])] at h
  exact h

theorem visitObj_mem {v : Nat} {o : HostObj} (h : visitObj objs v = .ok o) : o ∈ objs := by
  unfold visitObj at h
  split at h
  · cases h
  · split at h
    · cases h
    · split at h
      · cases h; rename_i ho; exact List.mem_of_getElem? ho
      · cases h

theorem sound_tag {v : Nat} {o : HostObj} (h : Sound objs v) (hv : Val.isObject v = true) (ho : visitObj objs v = .ok o) :
    o.tag = Val.tag v := by
  replace h := h.2
  unfold checkIntegrity at h
  split at h
  · cases h
  · simp only [hv, if_true, ho] at h
    split at h
    · assumption
    · cases h

theorem ordToInt_sign (o : Ordering) :
    (if ordToInt o = 0 then Except.ok .eq else if ordToInt o < 0 then .ok .lt else .ok .gt : Res Ordering) = .ok o := by
  cases o <;> rfl

theorem visitObj_take {i : Nat} {v : Nat} {o : HostObj} (h : visitObj (objs.take i) v = .ok o) : visitObj objs v = .ok o := by
  have := visitObj_append (extra := objs.drop i) h
  rwa [List.take_append_drop] at this

theorem Spec.Sound.mono {objs' : List HostObj} {v : Nat} (hs : ∀ o, visitObj objs v = .ok o → visitObj objs' v = .ok o)
    (h : Sound objs v) : Sound objs' v := by
  obtain ⟨h1, h⟩ := h
  refine ⟨h1, ?_⟩
  unfold checkIntegrity at h ⊢
  split at h
  · cases h
  · rename_i hg
    rw [if_neg hg]
    split at h
    · rename_i ho
      rw [if_pos ho]
      cases hv : visitObj objs v with
      | error e => rw [hv] at h; cases h
      | ok o => rw [hs o hv]; rw [hv] at h; exact h
    · rename_i ho
      rw [if_neg ho]

theorem Spec.Sound.append {extra : List HostObj} {v : Nat} (h : Sound objs v) : Sound (objs ++ extra) v :=
  h.mono fun _ => visitObj_append

theorem Spec.ObjsOk.mem (h : ObjsOk objs) {o : HostObj} (ho : o ∈ objs) : ObjOk o ∧ ∀ v ∈ elems o, Sound objs v := by
  obtain ⟨i, hi, rfl⟩ := List.getElem_of_mem ho
  obtain ⟨h1, h2⟩ := h i _ (List.getElem?_eq_getElem hi)
  exact ⟨h1, fun v hv => (h2 v hv).mono fun _ => visitObj_take⟩

theorem objCmp_spec (hobjs : ObjsOk objs) {cmp : Nat → Nat → Res Ordering} {rec : Nat → Res ScVal}
    (ih : ∀ x y sx sy, Sound objs x → Sound objs y → rec x = .ok sx → rec y = .ok sy → cmp x y = .ok (scOrd sx sy))
    {a b : Nat} {sa sb : ScVal} (soa : Sound objs a) (sob : Sound objs b) (hor : Val.isObject a = true ∨ Val.isObject b = true)
    (ha : scValTryFromVal rec fs objs a = .ok sa) (hb : scValTryFromVal rec fs objs b = .ok sb) :
    objCmp (hostObjCmpBody cmp) objs a b = .ok (ordToInt (scOrd sa sb)) := by
  cases hoa : Val.isObject a with
  | true =>
    obtain ⟨ao, hva, hfa⟩ := tryFrom_obj hoa ha
    obtain ⟨hok, hel⟩ := hobjs.mem (visitObj_mem hva)
    cases hob : Val.isObject b with
    | true =>
      obtain ⟨bo, hvb, hfb⟩ := tryFrom_obj hob hb
      obtain ⟨hok', hel'⟩ := hobjs.mem (visitObj_mem hvb)
      have := hostObjCmp_spec (cmp := cmp) hok hok' hfa hfb
        (fun x hx y hy sx sy h1 h2 => ih x y sx sy (hel x hx) (hel' y hy) h1 h2)
      simp only [objCmp, hoa, hob, hva, hvb, this, bind, Except.bind]
    | false =>
      have hfb := tryFrom_small hob hb
      have ht := sound_tag soa hoa hva
      simp only [objCmp, hoa, hob, hva, bind, Except.bind]
      rcases tryCompare_spec hok hfa hfb with h | ⟨h, hne, ho⟩
      · simp only [h]
      · simp only [h, objCmpByType_eq (by rw [← ht]; exact objType_tag) (fromSmallVal_type hfb).1 hne, ← ho]
  | false =>
    have hfa := tryFrom_small hoa ha
    have hob : Val.isObject b = true := by simpa [hoa] using hor
    obtain ⟨bo, hvb, hfb⟩ := tryFrom_obj hob hb
    obtain ⟨hok', hel'⟩ := hobjs.mem (visitObj_mem hvb)
    have ht := sound_tag sob hob hvb
    simp only [objCmp, hoa, hob, hvb, bind, Except.bind]
    have hsw : scOrd sa sb = (scOrd sb sa).swap := Std.OrientedCmp.eq_swap
    rcases tryCompare_spec hok' hfb hfa with h | ⟨h, hne, ho⟩
    · simp only [h, ← hsw]
    · simp only [h, objCmpByType_eq (fromSmallVal_type hfa).1 (by rw [← ht]; exact objType_tag) (Ne.symm hne)]
      have hd := fromHostObj_type hfb
      rw [scOrd_disc (by rw [hd]; exact Ne.symm hne), hd]

theorem valCmp_spec (hobjs : ObjsOk objs) : ∀ {d a b : Nat} {sa sb : ScVal}, Sound objs a → Sound objs b →
    fromVal fs objs d a = .ok sa → fromVal fs objs d b = .ok sb → valCmp objs d a b = .ok (scOrd sa sb) := by
  intro d
  induction d with
  | zero => intro a b sa sb _ _ ha _; simp [fromVal] at ha
  | succ d ih =>
    intro a b sa sb soa sob ha hb
    have ha := fromVal_succ ha
    have hb := fromVal_succ hb
    rw [valCmp]
    unfold valCmpBody
    by_cases hab : a = b
    · subst hab
      rw [if_pos rfl]
      rw [ha] at hb; cases hb
      rw [scOrd_self]
    · rw [if_neg hab]
      by_cases hor : Val.isObject a = true ∨ Val.isObject b = true
      · rw [if_pos (by simpa using hor), objCmp_spec hobjs (fun x y sx sy h1 h2 h3 h4 => ih h1 h2 h3 h4) soa sob hor ha hb]
        exact ordToInt_sign _
      · rw [if_neg (by simpa using hor)]
        simp only [not_or, Bool.not_eq_true] at hor
        exact smallCmp_spec (tryFrom_small hor.1 ha) (tryFrom_small hor.2 hb)

/-! ### everything a host value converts to is legal XDR -/

theorem fromVals_mem {rec : Nat → Res ScVal} {l : List Nat} {r : List ScVal} (h : fromVals rec l = .ok r) :
    ∀ x ∈ r, ∃ v ∈ l, rec v = .ok x := by
  induction l generalizing r with
  | nil => cases h; intro x hx; simp at hx
  | cons a l ih =>
    obtain ⟨s, ss, h1, h2, rfl⟩ := fromVals_cons h
    intro x hx
    rcases List.mem_cons.1 hx with rfl | hx
    · exact ⟨a, by simp, h1⟩
    · obtain ⟨v, hv, hr⟩ := ih h2 x hx
      exact ⟨v, by simp [hv], hr⟩

theorem fromEntries_mem {rec : Nat → Res ScVal} {l : List (Nat × Nat)} {r : List (ScVal × ScVal)}
    (h : fromEntries rec l = .ok r) : ∀ p ∈ r, ∃ q ∈ l, rec q.1 = .ok p.1 ∧ rec q.2 = .ok p.2 := by
  induction l generalizing r with
  | nil => cases h; intro x hx; simp at hx
  | cons a l ih =>
    obtain ⟨k, v⟩ := a
    obtain ⟨s, s', ss, h1, h1', h2, rfl⟩ := fromEntries_cons h
    intro x hx
    rcases List.mem_cons.1 hx with rfl | hx
    · exact ⟨(k, v), by simp, h1, h1'⟩
    · obtain ⟨q, hq, hr⟩ := ih h2 x hx
      exact ⟨q, by simp [hq], hr⟩

theorem body_lt {v : Nat} (hv : v < 2^64) : Val.body v < 2^56 := by rw [body_eq]; omega

theorem asU64_lt (i : Int) : asU64 i < 2^64 := by unfold asU64; omega

theorem fromSmallVal_inRange {v : Nat} {s : ScVal} (hv : v < 2^64) (h : fromSmallVal v = .ok s) :
    InRange s ∧ children s = [] := by
  have hb := body_lt hv
  have hs := signedBody_range v
  unfold fromSmallVal at h
  split at h <;> try (cases h; done)
  all_goals first
    | (split at h <;> cases h
       rename_i he
       refine ⟨?_, rfl⟩
       unfold errorIsValid at he
       have : Val.major v < 2^32 := by rw [major_eq]; omega
       simp only [InRange]
       split at he
       · omega
       · split at he
         · simp at he; omega
         · simp at he)
    | (cases h; refine ⟨?_, rfl⟩; first
        | (simp only [InRange]; done)
        | simp only [InRange]; first
        | trivial
        | omega
        | (rw [major_eq]; omega)
        | (unfold asI32; dsimp only; split <;> omega)
        | exact ⟨asI64_range _, asU64_lt _⟩
        | exact ⟨asI64_range _, asU64_lt _, asU64_lt _, asU64_lt _⟩)

theorem fromVal_xdrOk (hobjs : ObjsOk objs) : ∀ {d v : Nat} {s : ScVal}, v < 2^64 →
    fromVal fs objs d v = .ok s → XdrOk s := by
  intro d
  induction d with
  | zero => intro v s _ h; simp [fromVal] at h
  | succ d ih =>
    intro v s hv h
    have h := fromVal_succ h
    cases ho : Val.isObject v with
    | false =>
      obtain ⟨h1, h2⟩ := fromSmallVal_inRange hv (tryFrom_small ho h)
      exact ⟨h1, by rw [h2]; intro x hx; simp at hx⟩
    | true =>
      obtain ⟨o, h1, h2⟩ := tryFrom_obj ho h
      have hm := visitObj_mem h1
      have hok := (hobjs.mem hm).1
      have hel : ∀ v ∈ elems o, v < 2^64 := fun v hv => ((hobjs.mem hm).2 v hv).1
      cases o <;> simp only [fromHostObj] at h2
      case vec l =>
        obtain ⟨r, hr, h⟩ := bind_ok.1 h2; cases h
        refine ⟨trivial, ?_⟩
        intro x hx
        obtain ⟨w, hw, hr⟩ := fromVals_mem hr x hx
        exact ih (hel w hw) hr
      case map l =>
        obtain ⟨r, hr, h⟩ := bind_ok.1 h2; cases h
        refine ⟨trivial, ?_⟩
        intro x hx
        simp only [children, List.mem_flatMap, List.mem_cons, List.not_mem_nil, or_false] at hx
        obtain ⟨p, hp, hx⟩ := hx
        obtain ⟨q, hq, hr1, hr2⟩ := fromEntries_mem hr p hp
        rcases hx with rfl | rfl
        · exact ih (hel q.1 (by simp only [elems, List.mem_append, List.mem_map]; exact Or.inl ⟨q, hq, rfl⟩)) hr1
        · exact ih (hel q.2 (by simp only [elems, List.mem_append, List.mem_map]; exact Or.inr ⟨q, hq, rfl⟩)) hr2
      case muxedAddress =>
        split at h2 <;> cases h2
        exact ⟨trivial, by intro x hx; simp [children] at hx⟩
      all_goals
        simp only [Except.ok.injEq] at h2
        subst h2
        refine ⟨?_, by intro x hx; simp [children] at hx⟩
        simp only [ObjOk] at hok
        first
        | (simp only [InRange]; done)
        | simp only [InRange]; first
        | trivial
        | omega
        | (unfold u128Hi u128Lo; omega)
        | exact ⟨asI64_range _, asU64_lt _⟩
        | (unfold u256IntoPieces; dsimp only; omega)
        | exact ⟨asI64_range _, asU64_lt _, asU64_lt _, asU64_lt _⟩

/-! ### comparison of ledger values -/

theorem cmpVec_sc {cmp : ScVal → ScVal → Res Ordering} : ∀ {l m : List ScVal},
    (∀ a ∈ l, ∀ b ∈ m, cmp a b = .ok (scOrd a b)) → cmpVec cmp l m = .ok (scOrdList l m) := by
  intro l
  induction l with
  | nil => intro m _; cases m <;> simp [cmpVec, scOrdList]
  | cons a l ih =>
    intro m hc
    cases m with
    | nil => simp [cmpVec, scOrdList]
    | cons b m =>
      simp only [cmpVec, hc a (by simp) b (by simp), bind, Except.bind, scOrdList]
      have := ih (m := m) (fun a ha b hb => hc a (by simp [ha]) b (by simp [hb]))
      cases scOrd a b <;> simp [this]

theorem cmpEntries_sc {cmp : ScVal → ScVal → Res Ordering} : ∀ {l m : List (ScVal × ScVal)},
    (∀ p ∈ l, ∀ q ∈ m, cmp p.1 q.1 = .ok (scOrd p.1 q.1) ∧ cmp p.2 q.2 = .ok (scOrd p.2 q.2)) →
    cmpVec (cmpPair cmp) l m = .ok (scOrdEntries l m) := by
  intro l
  induction l with
  | nil =>
    intro m _
    cases m with
    | nil => simp [cmpVec, scOrdEntries]
    | cons q m => obtain ⟨k, v⟩ := q; simp [cmpVec, scOrdEntries]
  | cons a l ih =>
    obtain ⟨k, v⟩ := a
    intro m hc
    cases m with
    | nil => simp [cmpVec, scOrdEntries]
    | cons b m =>
      obtain ⟨k', v'⟩ := b
      have h := hc (k, v) (by simp) (k', v') (by simp)
      simp only at h
      simp only [cmpVec, cmpPair, h.1, bind, Except.bind, scOrdEntries]
      cases scOrd k k' <;> simp [h.2]
      have := ih (m := m) (fun a ha b hb => hc a (by simp [ha]) b (by simp [hb]))
      cases scOrd v v' <;> simp [this]

theorem cmp2 {a b c d : Int} {n : Int} (hb : 0 ≤ b ∧ b < n) (hd : 0 ≤ d ∧ d < n) :
    compare (a * n + b) (c * n + d) = (compare a c).then (compare b d) := by
  have hn : 0 < n := by omega
  rcases lt_trichotomy a c with h | h | h
  · have h1 : (a + 1) * n ≤ c * n := Int.mul_le_mul_of_nonneg_right (by omega) (by omega)
    have : a * n + b < c * n + d := by rw [Int.add_mul] at h1; omega
    rw [compare_lt_iff_lt.2 h, compare_lt_iff_lt.2 this]; rfl
  · subst h
    rcases lt_trichotomy b d with h | h | h
    · rw [compare_lt_iff_lt.2 h, compare_lt_iff_lt.2 (by omega)]; simp
    · subst h; simp
    · rw [compare_gt_iff_gt.2 h, compare_gt_iff_gt.2 (by omega)]; simp
  · have h1 : (c + 1) * n ≤ a * n := Int.mul_le_mul_of_nonneg_right (by omega) (by omega)
    have : a * n + b > c * n + d := by rw [Int.add_mul] at h1; omega
    rw [compare_gt_iff_gt.2 h, compare_gt_iff_gt.2 this]; rfl

theorem cmp4 {a b c d a' b' c' d' : Int} (hb : 0 ≤ b ∧ b < 2^64) (hc : 0 ≤ c ∧ c < 2^64) (hd : 0 ≤ d ∧ d < 2^64)
    (hb' : 0 ≤ b' ∧ b' < 2^64) (hc' : 0 ≤ c' ∧ c' < 2^64) (hd' : 0 ≤ d' ∧ d' < 2^64) :
    compare (a * 2^192 + b * 2^128 + c * 2^64 + d) (a' * 2^192 + b' * 2^128 + c' * 2^64 + d') =
      (compare a a').then ((compare b b').then ((compare c c').then (compare d d'))) := by
  have e : ∀ a b c d : Int, a * 2^192 + b * 2^128 + c * 2^64 + d = ((a * 2^64 + b) * 2^64 + c) * 2^64 + d := by
    intros; omega
  rw [e, e, cmp2 hd hd', cmp2 hc hc', cmp2 hb hb', then_assoc, then_assoc]

theorem Spec.Comparable.not_none {d : Nat} {s : ScVal} (h : Comparable d s) : s ≠ .vec none ∧ s ≠ .map none := by
  cases d with
  | zero => exact h.elim
  | succ d => constructor <;> (rintro rfl; exact h.elim)

theorem Spec.Comparable.children {d : Nat} {s : ScVal} (h : Comparable (d + 1) s) : ∀ x ∈ Spec.children s, Comparable d x := by
  unfold Comparable at h
  split at h <;> first | exact h.elim | assumption | skip
  all_goals simp_all

theorem lexInts_one {a b : Int} : lexInts [a] [b] = compare a b := by
  simp [lexInts]

theorem scValCmp_diff {cmp : ScVal → ScVal → Res Ordering} {a b : ScVal} (ha : a ≠ .vec none ∧ a ≠ .map none)
    (hb : b ≠ .vec none ∧ b ≠ .map none) (hd : a.discriminant ≠ b.discriminant) :
    scValCmpBody cmp a b = .ok (scOrd a b) := by
  rw [scOrd_disc hd]
  unfold scValCmpBody
  split <;> first | rfl | exact absurd rfl hd | simp_all

theorem cast2 (a b : Nat) : compare a b = compare (a : Int) (b : Int) := (compare_cast a b).symm

theorem scValCmp_same {cmp : ScVal → ScVal → Res Ordering} {a b : ScVal} (ha : a ≠ .vec none ∧ a ≠ .map none)
    (hb : b ≠ .vec none ∧ b ≠ .map none) (hra : InRange a) (hrb : InRange b) (hd : a.discriminant = b.discriminant)
    (hc : ∀ x ∈ children a, ∀ y ∈ children b, cmp x y = .ok (scOrd x y)) :
    scValCmpBody cmp a b = .ok (scOrd a b) := by
  have hent : ∀ {l m : List (ScVal × ScVal)},
      (∀ x ∈ l.flatMap (fun p => [p.1, p.2]), ∀ y ∈ m.flatMap (fun p => [p.1, p.2]), cmp x y = .ok (scOrd x y)) →
      cmpVec (cmpPair cmp) l m = .ok (scOrdEntries l m) := by
    intro l m h
    refine cmpEntries_sc fun p hp q hq => ⟨h _ ?_ _ ?_, h _ ?_ _ ?_⟩ <;> simp only [List.mem_flatMap] <;>
      first | exact ⟨p, hp, by simp⟩ | exact ⟨q, hq, by simp⟩
  unfold scValCmpBody
  split
  · exact absurd rfl ha.1
  · exact absurd rfl ha.2
  · exact absurd rfl hb.1
  · exact absurd rfl hb.2
  · rw [scOrd]; exact cmpVec_sc hc
  · rw [scOrd]; exact hent hc
  · rw [scOrd_bytes hd rfl rfl rfl]
  · rw [scOrd_bytes hd rfl rfl rfl]
  · rw [scOrd_bytes hd rfl rfl rfl]
  · rw [scOrd_bytes hd rfl rfl rfl]
  · rename_i e s e' s'
    cases s <;> cases s'
    · rw [scOrd_leaf (Or.inl rfl)]
      simp only [cmpOption, ScVal.discriminant, content, lexInts, cast2 e e']
      cases compare (e : Int) e' <;> simp
    · rw [scOrd_leaf (Or.inl rfl)]
      simp only [cmpOption, ScVal.discriminant, content, lexInts, cast2 e e']
      cases compare (e : Int) e' <;> simp <;> rfl
    · rw [scOrd_leaf (Or.inr (Or.inl rfl))]
      simp only [cmpOption, ScVal.discriminant, content, lexInts, cast2 e e']
      cases compare (e : Int) e' <;> simp <;> rfl
    · rw [scOrd]
      simp only [cmpOption, hent hc]
      cases compare e e' <;> rfl
  · rename_i x y
    cases x <;> cases y <;> rfl
  · rw [scOrd_leaf (Or.inl rfl)]
    simp only [ScVal.discriminant, content, lexInts, compare_cast]
    simp [then_self_eq]
  · rw [scOrd_num hd rfl rfl rfl, cast2]
  · rw [scOrd_num hd rfl rfl rfl]
  · rw [scOrd_num hd rfl rfl rfl, cast2]
  · rw [scOrd_num hd rfl rfl rfl]
  · rw [scOrd_num hd rfl rfl rfl, cast2]
  · rw [scOrd_num hd rfl rfl rfl, cast2]
  · simp only [InRange] at hra hrb
    rw [scOrd_num hd rfl rfl rfl, cmp2 (by omega) (by omega), compare_cast, compare_cast]
  · simp only [InRange] at hra hrb
    rw [scOrd_num hd rfl rfl rfl, cmp2 (by omega) (by omega), compare_cast]
  · simp only [InRange] at hra hrb
    rw [scOrd_num hd rfl rfl rfl, cmp4 (by omega) (by omega) (by omega) (by omega) (by omega) (by omega)]
    simp only [compare_cast]
  · simp only [InRange] at hra hrb
    rw [scOrd_num hd rfl rfl rfl, cmp4 (by omega) (by omega) (by omega) (by omega) (by omega) (by omega)]
    simp only [compare_cast]
  · rw [scOrd_leaf (Or.inl rfl), addr_cmp_eq]
    simp [ScVal.discriminant, content]
  · rw [scOrd_num hd rfl rfl rfl]
  · rename_i hv hm hby hst hsy het hci hbo her hu32 hi32 hu64 hi64 htp hdu hu128 hi128 hu256 hi256 had hln
    have kv : ∀ o o', a = .vec o → b = .vec o' → False := by
      rintro (_ | o) (_ | o') rfl rfl
      · exact ha.1 rfl
      · exact ha.1 rfl
      · exact hb.1 rfl
      · exact hv _ _ rfl rfl
    have km : ∀ o o', a = .map o → b = .map o' → False := by
      rintro (_ | o) (_ | o') rfl rfl
      · exact ha.2 rfl
      · exact ha.2 rfl
      · exact hb.2 rfl
      · exact hm _ _ rfl rfl
    clear hc hent hra hrb
    cases a <;> cases b <;> first
      | (simp [ScVal.discriminant] at hd; done)
      | (exact (kv _ _ rfl rfl).elim)
      | (exact (km _ _ rfl rfl).elim)
      | exact (hby _ _ rfl rfl).elim
      | exact (hst _ _ rfl rfl).elim
      | exact (hsy _ _ rfl rfl).elim
      | exact (het _ _ rfl rfl).elim
      | exact (hci _ _ _ _ rfl rfl).elim
      | exact (hbo _ _ rfl rfl).elim
      | exact (her _ _ _ _ rfl rfl).elim
      | exact (hu32 _ _ rfl rfl).elim
      | exact (hi32 _ _ rfl rfl).elim
      | exact (hu64 _ _ rfl rfl).elim
      | exact (hi64 _ _ rfl rfl).elim
      | exact (htp _ _ rfl rfl).elim
      | exact (hdu _ _ rfl rfl).elim
      | exact (hu128 _ _ _ _ rfl rfl).elim
      | exact (hi128 _ _ _ _ rfl rfl).elim
      | exact (hu256 _ _ _ _ _ _ _ _ rfl rfl).elim
      | exact (hi256 _ _ _ _ _ _ _ _ rfl rfl).elim
      | exact (had _ _ rfl rfl).elim
      | exact (hln _ _ rfl rfl).elim
      | rfl

theorem scValCmp_spec : ∀ {d : Nat} {a b : ScVal}, Comparable d a → Comparable d b → XdrOk a → XdrOk b →
    scValCmp d a b = .ok (scOrd a b) := by
  intro d
  induction d with
  | zero => intro a b h; exact h.elim
  | succ d ih =>
    intro a b ha hb xa xb
    rw [scValCmp]
    obtain ⟨ra, ka⟩ := xa
    obtain ⟨rb, kb⟩ := xb
    by_cases hd : a.discriminant = b.discriminant
    · exact scValCmp_same ha.not_none hb.not_none ra rb hd fun x hx y hy =>
        ih (ha.children x hx) (hb.children y hy) (ka x hx) (kb y hy)
    · exact scValCmp_diff ha.not_none hb.not_none hd

end Soroban
