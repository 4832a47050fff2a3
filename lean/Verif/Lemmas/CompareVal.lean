import Verif.Lemmas.Compare
/-!
Lemmas for C05: comparison of inline values with each other and with objects, and the whole comparison.
-/
namespace Soroban
open Soroban.Spec

variable {rec : Nat → Res ScVal} {fs : Bool} {objs : List HostObj}

/-- The number an inline integer holds, in terms of the value it converts to. -/
theorem fromSmallVal_num {v : Nat} {s : ScVal} {t : IntTy} (h : fromSmallVal v = .ok s) (ht : Val.hasTag v t.smallTag = true) :
    content s = [readSmall t v] := by
  have hr := signedBody_range v
  unfold fromSmallVal at h
  cases t <;> rw [hasTag_tag ht (by decide) (by decide) (by decide)] at h <;> simp only [IntTy.smallTag] at h <;> cases h <;>
    simp only [content, readSmall]
  case u128 => congr 1; omega
  case i128 => congr 1; exact i128_pieces (by omega)
  case u256 => congr 1; omega
  case i256 => congr 1; exact i256_pieces (by omega)

theorem symbolIter_ne_zero (n s : Nat) : ∀ c ∈ symbolIter n s, c ≠ 0 := by
  induction n generalizing s with
  | zero => intro c hc; simp [symbolIter] at hc
  | succ n ih =>
    intro c hc
    rw [symbolIter] at hc
    split at hc
    · simp at hc
    · dsimp only at hc
      split at hc
      · rcases List.mem_cons.1 hc with rfl | hc
        · assumption
        · exact ih _ _ hc
      · exact ih _ _ hc

theorem symbolStrBytes_eq (v : Nat) : symbolStrBytes v = symbolChars v := by
  unfold symbolStrBytes
  have h : ∀ c ∈ symbolChars v, c ≠ 0 := fun c hc => symbolIter_ne_zero _ _ c hc
  generalize symbolChars v = l at h
  induction l with
  | nil => rfl
  | cons a l ih =>
    rw [List.takeWhile_cons_of_pos (by simpa using h a (by simp)), ih (fun c hc => h c (by simp [hc]))]

/-- The order of the types of an inline value and of an object. -/
theorem objCmpByType_eq {a b : Nat} {x y : Nat} (ha : (Val.tag a).scValType = some x) (hb : (Val.tag b).scValType = some y)
    (hne : x ≠ y) : objCmpByType a b = .ok (compare x y) := by
  unfold objCmpByType
  rw [ha, hb, if_neg (by simpa using hne)]
  rfl

theorem objType_tag {o : HostObj} : o.tag.scValType = some (objType o) := by cases o <;> rfl

theorem ofSmall_some {t : IntTy} {v : Nat} {x : Int} (h : ofSmall t v = some x) :
    Val.hasTag v t.smallTag = true ∧ x = readSmall t v := by
  unfold ofSmall at h
  split at h
  · exact ⟨by assumption, by cases h; rfl⟩
  · cases h

/-- An inline value has the tag of its type. -/
theorem hasTag_of_type {v : Nat} {s : ScVal} {t : Tag} (hs : fromSmallVal v = .ok s) (ht : t.scValType = some s.discriminant)
    (hsmall : t.code < 15) (hb : s.discriminant ≠ 0) : Val.hasTag v t = true := by
  have htag : Val.tag v = t := by
    unfold fromSmallVal at hs
    split at hs <;> first
      | (cases hs; done)
      | (split at hs <;> cases hs; rename_i h _; rw [h]; cases t <;>
          first | rfl | (simp [Tag.scValType, ScVal.discriminant] at ht; done) | (simp [Tag.code] at hsmall; done))
      | (cases hs; rename_i h; rw [h]; cases t <;>
          first | rfl | (simp [Tag.scValType, ScVal.discriminant] at ht; done) | (simp [Tag.code] at hsmall; done) | (simp [ScVal.discriminant] at hb; done))
  rw [hasTag_iff]
  exact Props.tag_code htag (by rintro rfl; simp [Tag.code] at hsmall)

/-- `try_compare_to_small`, or the order of types when it gives up. -/
theorem tryCompare_spec {o : HostObj} {v : Nat} {so sv : ScVal} (ho : ObjOk o) (hso : fromHostObj rec fs o = .ok so)
    (hsv : fromSmallVal v = .ok sv) :
    tryCompareToSmall o v = some (scOrd so sv) ∨
      (tryCompareToSmall o v = none ∧ objType o ≠ sv.discriminant ∧ scOrd so sv = compare (objType o) sv.discriminant) := by
  have hty := fromHostObj_type hso
  have hsd := (fromSmallVal_type hsv)
  by_cases hd : objType o = sv.discriminant
  · left
    have hnum : ∀ t : IntTy, t.smallTag.scValType = some (objType o) → ∀ x, objNum o = some x →
        (ofSmall t v).map (fun s => compare x s) = some (scOrd so sv) := by
      intro t ht x hx
      have htag : Val.hasTag v t.smallTag = true :=
        hasTag_of_type hsv (by rw [ht, hd]) (by cases t <;> decide) (by rw [← hd]; cases o <;> simp [objType])
      rw [Props.ofSmall_pos htag]
      simp only [Option.map_some]
      rw [scOrd_num (by rw [hty, hd]) (fromHostObj_num ho hso hx).1 (fromSmallVal_num hsv htag) (fromHostObj_num ho hso hx).2]
    cases o
    case u64 => exact hnum .u64 rfl _ rfl
    case i64 => exact hnum .i64 rfl _ rfl
    case timepoint => exact hnum .timepoint rfl _ rfl
    case duration => exact hnum .duration rfl _ rfl
    case u128 => exact hnum .u128 rfl _ rfl
    case i128 => exact hnum .i128 rfl _ rfl
    case u256 => exact hnum .u256 rfl _ rfl
    case i256 => exact hnum .i256 rfl _ rfl
    case symbol b =>
      have htag : Val.hasTag v .SymbolSmall = true := hasTag_of_type hsv (by rw [← hd]; rfl) (by decide) (by rw [← hd]; simp [objType])
      simp only [tryCompareToSmall, htag, if_true, symbolStrBytes_eq]
      have hsv' : sv = .symbol (symbolChars v) := by
        unfold fromSmallVal at hsv
        rw [hasTag_tag htag (by decide) (by decide) (by decide)] at hsv
        cases hsv; rfl
      rw [scOrd_bytes (by rw [hty, hd]) (fromHostObj_text hso rfl).1 (y := symbolChars v) (by rw [hsv']; rfl)
        (fromHostObj_text hso rfl).2]
    all_goals
      exfalso
      unfold fromSmallVal at hsv
      split at hsv <;> first
        | (cases hsv; done)
        | (split at hsv <;> cases hsv; simp [objType, ScVal.discriminant] at hd; done)
        | (cases hsv; simp [objType, ScVal.discriminant] at hd; done)
  · right
    refine ⟨?_, hd, ?_⟩
    · have hnum : ∀ t : IntTy, t.smallTag.scValType = some (objType o) → ofSmall t v = none := by
        intro t ht
        cases h : ofSmall t v with
        | none => rfl
        | some x =>
          have := hasTag_tag (ofSmall_some h).1 (by cases t <;> decide) (by cases t <;> decide) (by cases t <;> decide)
          rw [← this, hsd.1] at ht
          exact absurd (Option.some.inj ht).symm hd
      cases o
      case u64 => simp [tryCompareToSmall, hnum .u64 rfl]
      case i64 => simp [tryCompareToSmall, hnum .i64 rfl]
      case timepoint => simp [tryCompareToSmall, hnum .timepoint rfl]
      case duration => simp [tryCompareToSmall, hnum .duration rfl]
      case u128 => simp [tryCompareToSmall, hnum .u128 rfl]
      case i128 => simp [tryCompareToSmall, hnum .i128 rfl]
      case u256 => simp [tryCompareToSmall, hnum .u256 rfl]
      case i256 => simp [tryCompareToSmall, hnum .i256 rfl]
      case symbol =>
        simp only [tryCompareToSmall]
        split
        · rename_i ht
          have := hasTag_tag ht (by decide) (by decide) (by decide)
          have h2 := hsd.1
          rw [this] at h2
          exact absurd (Option.some.inj h2) hd
        · rfl
      all_goals rfl
    · rw [scOrd_disc (by rw [hty]; exact hd), hty]

theorem fromSmallVal_code {v : Nat} {s : ScVal} (h : fromSmallVal v = .ok s) : (Val.tag v).code < 15 := by
  unfold fromSmallVal at h
  cases hx : Val.tag v <;> rw [hx] at h <;> first | (cases h; done) | (simp [Tag.code]; done)

theorem fromU8_code_inj {s t : Tag} (h : s.code = t.code) : s = t := by
  cases s <;> first | (cases t <;> first | rfl | (exact absurd h (by decide)))

/-- Two inline values. -/
theorem smallCmp_spec {a b : Nat} {sa sb : ScVal} (ha : fromSmallVal a = .ok sa) (hb : fromSmallVal b = .ok sb) :
    (if (Val.tag a).code < (Val.tag b).code then Except.ok Ordering.lt
      else if (Val.tag b).code < (Val.tag a).code then .ok .gt
      else sameTagCmp (Val.tag a) a b : Res Ordering) = .ok (scOrd sa sb) := by
  have hta := fromSmallVal_type ha
  have htb := fromSmallVal_type hb
  by_cases ht : Val.tag a = Val.tag b
  · rw [← ht]
    simp only [lt_irrefl, if_false]
    have hd : sa.discriminant = sb.discriminant := by
      have := hta.1; rw [ht, htb.1] at this; exact (Option.some.inj this).symm
    have hnum : ∀ t : IntTy, Val.tag a = t.smallTag → scOrd sa sb = compare (readSmall t a) (readSmall t b) := by
      intro t h
      have h1 : Val.hasTag a t.smallTag = true := by
        rw [hasTag_iff]; exact Props.tag_code h (by cases t <;> decide)
      have h2 : Val.hasTag b t.smallTag = true := by
        rw [hasTag_iff]; exact Props.tag_code (ht ▸ h) (by cases t <;> decide)
      exact scOrd_num hd (fromSmallVal_num ha h1) (fromSmallVal_num hb h2) hta.2
    cases htag : Val.tag a <;> simp only [sameTagCmp]
    case U32Val => rw [hnum .u32 htag]; simp [readSmall, compare_cast]
    case I32Val => rw [hnum .i32 htag]; simp [readSmall]
    case U64Small => rw [hnum .u64 htag]; simp [readSmall, compare_cast]
    case I64Small => rw [hnum .i64 htag]; simp [readSmall]
    case TimepointSmall => rw [hnum .timepoint htag]; simp [readSmall, compare_cast]
    case DurationSmall => rw [hnum .duration htag]; simp [readSmall, compare_cast]
    case U128Small => rw [hnum .u128 htag]; simp [readSmall, compare_cast]
    case I128Small => rw [hnum .i128 htag]; simp [readSmall]
    case U256Small => rw [hnum .u256 htag]; simp [readSmall, compare_cast]
    case I256Small => rw [hnum .i256 htag]; simp [readSmall]
    case SymbolSmall =>
      unfold fromSmallVal at ha hb
      rw [← ht] at hb
      rw [htag] at ha hb
      cases ha; cases hb
      rw [scOrd_bytes (a := .symbol (symbolChars a)) (b := .symbol (symbolChars b)) (x := symbolChars a) (y := symbolChars b) rfl rfl rfl rfl]
      rfl
    case Error =>
      unfold fromSmallVal at ha hb
      rw [← ht] at hb
      rw [htag] at ha hb
      dsimp only at ha hb
      split at ha <;> cases ha
      split at hb <;> cases hb
      rw [scOrd_leaf (Or.inl rfl)]
      simp [content, lexInts, compare_cast, ScVal.discriminant, then_self_eq]
    all_goals
      unfold fromSmallVal at ha hb
      rw [← ht] at hb
      rw [htag] at ha hb
      cases ha
      try (cases hb; rw [scOrd_self])
  · have hne : (Val.tag a).code ≠ (Val.tag b).code := by
      intro h
      apply ht
      have := fromU8_code_inj h
      exact this
    have hgen : scOrd sa sb = compare (Val.tag a).code (Val.tag b).code := by
      by_cases hd : sa.discriminant = sb.discriminant
      · have h0 : (Val.tag a).scValType = (Val.tag b).scValType := by rw [hta.1, htb.1, hd]
        unfold fromSmallVal at ha hb
        split at ha <;> first
          | (cases ha; done)
          | (rename_i hx; split at hb <;> first
              | (cases hb; done)
              | (rename_i hy; first
                  | (rw [hx, hy] at ht; exact absurd rfl ht)
                  | (rw [hx, hy] at h0; simp [Tag.scValType] at h0; done)
                  | (cases ha; cases hb; rw [hx, hy, scOrd_leaf (Or.inl rfl)]; rfl)))
      · rw [scOrd_disc hd]
        have h1 := hta.1
        have h2 := htb.1
        have c1 := fromSmallVal_code ha
        have c2 := fromSmallVal_code hb
        clear hta htb ht ha hb
        generalize Val.tag a = ta at *
        generalize Val.tag b = tb at *
        generalize sa.discriminant = da at *
        generalize sb.discriminant = db at *
        cases ta <;> simp only [Tag.scValType, Option.some.injEq, reduceCtorEq] at h1 <;>
          try (simp [Tag.code] at c1; done)
        all_goals
          cases tb <;> simp only [Tag.scValType, Option.some.injEq, reduceCtorEq] at h2 <;>
          first
          | (simp [Tag.code] at c2; done)
          | (simp [Tag.code] at hne; done)
          | (subst h1; subst h2; first | rfl | exact absurd rfl hd)
    rw [hgen]
    rcases Nat.lt_or_ge (Val.tag a).code (Val.tag b).code with h | h
    · rw [if_pos h, Nat.compare_eq_lt.2 h]
    · have h' : (Val.tag b).code < (Val.tag a).code := by omega
      rw [if_neg (by omega), if_pos h', Nat.compare_eq_gt.2 h']

end Soroban
