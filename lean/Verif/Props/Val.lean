import Verif.Lemmas.Val
import Mathlib.Tactic.Ring
/-!
C01 small integers, C02 small symbols, C03 the integrity check on raw words.
-/
namespace Soroban.Props
open Soroban Soroban.Spec

/-! ### C01 -/

/-- Converting an integer of a type to an inline `Val` succeeds exactly in the documented small range. -/
theorem C01_small_iff_in_range (t : IntTy) (i : Int) (h : inType t i) :
    (toSmall t i).isSome ↔ inSmallRange t i := by
  cases t <;> simp only [inType, inSmallRange, toSmall] at h ⊢
  · simp
  · simp
  all_goals first
    | (split <;> rename_i hs <;> simp only [Option.isSome_some, Option.isSome_none, Bool.false_eq_true, true_iff, false_iff]
       · first
          | (rw [isSmallU64_iff (by omega)] at hs; omega)
          | (rw [isSmallI64_iff (by omega) (by omega)] at hs; omega)
          | (rw [isSmallUWide_iff] at hs; omega)
          | (rw [isSmallIWide_iff] at hs; omega)
       · first
          | (rw [isSmallU64_iff (by omega)] at hs; omega)
          | (rw [isSmallI64_iff (by omega) (by omega)] at hs; omega)
          | (rw [isSmallUWide_iff] at hs; omega)
          | (rw [isSmallIWide_iff] at hs; omega))

theorem ofSmall_pos {t : IntTy} {v : Nat} (h : Val.hasTag v t.smallTag = true) : ofSmall t v = some (readSmall t v) := by
  unfold ofSmall; rw [if_pos h]

/-- Reading back with the same type gives the same integer. -/
theorem C01_small_round_trip (t : IntTy) (i : Int) (v : Nat) (h : inType t i) (hv : toSmall t i = some v) :
    ofSmall t v = some i := by
  have hr := (C01_small_iff_in_range t i h).1 (by rw [hv]; rfl)
  cases t <;> simp only [inType, inSmallRange] at h hr <;> simp only [toSmall] at hv
  case u32 =>
    obtain rfl := Option.some.inj hv
    have e := fromMajorMinorAndTag_eq (maj := i.toNat) (min := 0) .U32Val (by omega) (by decide)
    have hg : Val.hasTag (Val.fromMajorMinorAndTag i.toNat 0 .U32Val) .U32Val = true := by
      rw [hasTag_iff, e]; simp only [Tag.code]; omega
    rw [ofSmall_pos (by exact hg)]
    simp only [readSmall, major_eq, e, Tag.code, Option.some.injEq]
    omega
  case i32 =>
    obtain rfl := Option.some.inj hv
    have hu : asU32 i < 2^32 := by unfold asU32; omega
    have e := fromMajorMinorAndTag_eq (maj := asU32 i) (min := 0) .I32Val hu (by decide)
    have hg : Val.hasTag (Val.fromMajorMinorAndTag (asU32 i) 0 .I32Val) .I32Val = true := by
      rw [hasTag_iff, e]; simp only [Tag.code]; omega
    rw [ofSmall_pos (by exact hg)]
    have : Val.major (Val.fromMajorMinorAndTag (asU32 i) 0 .I32Val) = asU32 i := by
      rw [major_eq, e]; simp only [Tag.code]; omega
    simp only [readSmall, this, Option.some.injEq]
    unfold asI32 asU32
    simp only
    split <;> omega
  all_goals
    split at hv
    case isFalse => simp at hv
    case isTrue =>
      obtain rfl := Option.some.inj hv
      refine (ofSmall_pos ((hasTag_fromBody _ _ _).2 rfl)).trans ?_
      simp only [readSmall, Option.some.injEq]
      first
        | (rw [body_fromBody _ (by omega)]; omega)
        | exact signedBody_fromBody _ hr
        | (rw [(asI64_asU64_eq i).2 (by omega)]; exact signedBody_fromBody _ hr)

/-- An inline integer cannot be read as any other integer type. -/
theorem C01_small_type_exclusive (t t' : IntTy) (i : Int) (v : Nat) (h : inType t i) (hv : toSmall t i = some v)
    (hne : t' ≠ t) : ofSmall t' v = none := by
  have htag : Val.hasTag v t.smallTag = true := by
    have := C01_small_round_trip t i v h hv
    unfold ofSmall at this
    by_contra hh
    rw [if_neg hh] at this
    simp at this
  unfold ofSmall
  rw [if_neg]
  intro hh
  rw [hasTag_iff] at htag hh
  rw [htag] at hh
  apply hne
  revert hh
  cases t <;> cases t' <;> decide

/-- Read direction, over all `2^64` payloads: a well-formed word that reads as `i` of type `t` is exactly the word `i`
converts to, and `i` is an integer of that type in the small range. -/
theorem C01_small_read_back (t : IntTy) (i : Int) (v : Nat) (hv : v < 2^64) (hgood : Val.isGood v = true)
    (h : ofSmall t v = some i) : inType t i ∧ inSmallRange t i ∧ toSmall t i = some v := by
  unfold ofSmall at h
  split at h
  case isFalse => simp at h
  case isTrue ht =>
    rw [hasTag_iff] at ht
    have hmin : t = .u32 ∨ t = .i32 → v / 256 % 2^24 = 0 := by
      intro hh
      have htag : Val.tag v = t.smallTag := by
        unfold Val.tag; rw [tagU8_eq, ht]
        rcases hh with rfl | rfl <;> decide
      unfold Val.isGood Val.goodFor at hgood
      rw [htag] at hgood
      rcases hh with rfl | rfl <;> simp only [IntTy.smallTag] at hgood <;> simpa [minor_eq] using hgood
    have key : inType t i ∧ inSmallRange t i := by
      cases t <;> simp only [inType, inSmallRange, IntTy.smallTag, Tag.code, Option.some.injEq, major_eq, body_eq, readSmall,
        Val.signedBody, asI64, asI32] at * <;> (try split at h) <;>
        first | omega | exact ⟨by omega, trivial⟩
    refine ⟨key.1, key.2, ?_⟩
    obtain ⟨w, hw⟩ := Option.isSome_iff_exists.1 ((C01_small_iff_in_range t i key.1).2 key.2)
    rw [hw]
    congr 1
    obtain ⟨h1, h2⟩ := key
    cases t <;> simp only [inType, inSmallRange, IntTy.smallTag, Tag.code, Option.some.injEq, major_eq, body_eq, readSmall,
        Val.signedBody, asI64, asI32, toSmall, Option.ite_none_right_eq_some] at *
    case u32 =>
      rw [← hw, fromMajorMinorAndTag_eq _ (by omega) (by decide)]
      have := hmin (Or.inl trivial)
      simp only [Tag.code]; omega
    case i32 =>
      have hu : asU32 i < 2^32 := by unfold asU32; omega
      rw [← hw, fromMajorMinorAndTag_eq _ hu (by decide)]
      have := hmin (Or.inr trivial)
      show (_ : Nat) = _
      unfold asU32 at *
      simp only [Tag.code]
      split at h <;> omega
    all_goals
      rw [← hw.2, fromBodyAndTag_eq]
      show (_ : Nat) = _
      simp only [Tag.code]
      first
        | omega
        | (unfold asU64; split at h <;> omega)
        | (rw [(asI64_asU64_eq i).2 (by omega)]; unfold asU64; split at h <;> omega)

/-- The extreme small `i128`, a value just outside it, and a negative `i32`. -/
example : inType .i128 (-2^55) ∧ toSmall .i128 (-2^55) = some 0x800000000000000b ∧
    ofSmall .i128 0x800000000000000b = some (-2^55) ∧ toSmall .i128 (-2^55 - 1) = none ∧
    toSmall .i32 (-1) = some 0xffffffff00000005 ∧ Val.isGood 0xffffffff00000005 = true := by
  refine ⟨by simp [inType], ?_⟩; decide

/-! ### C02 -/

theorem encodeByte_some {b : Nat} : (∃ v, encodeByte b = some v) ↔ isSymbolChar b := by
  unfold encodeByte isSymbolChar
  split
  · simp; omega
  · split
    · simp; omega
    · split
      · simp; omega
      · split
        · simp; omega
        · simp; omega

theorem decode_encode {b v : Nat} (h : encodeByte b = some v) : decodeCode v = b ∧ 1 ≤ v ∧ v ≤ 63 := by
  unfold encodeByte at h
  unfold decodeCode
  split at h
  · obtain rfl := Option.some.inj h; simp; omega
  · split at h
    · obtain rfl := Option.some.inj h
      refine ⟨?_, by omega, by omega⟩
      rw [if_neg (by omega), if_pos (by omega)]; omega
    · split at h
      · obtain rfl := Option.some.inj h
        refine ⟨?_, by omega, by omega⟩
        rw [if_neg (by omega), if_neg (by omega), if_pos (by omega)]; omega
      · split at h
        · obtain rfl := Option.some.inj h
          refine ⟨?_, by omega, by omega⟩
          rw [if_neg (by omega), if_neg (by omega), if_neg (by omega), if_pos (by omega)]; omega
        · simp at h

/-- Base-64 reading of a list of codes. -/
def codesVal (acc : Nat) : List Nat → Nat
  | [] => acc
  | v :: vs => codesVal (acc * 64 + v) vs

theorem codesVal_eq (acc : Nat) (vs : List Nat) : codesVal acc vs = acc * 64 ^ vs.length + codesVal 0 vs := by
  induction vs generalizing acc with
  | nil => simp [codesVal]
  | cons v vs ih =>
    simp only [codesVal, List.length_cons]
    rw [ih (acc * 64 + v), ih (0 * 64 + v), Nat.pow_succ]; ring

theorem codesVal_lt (vs : List Nat) (h : ∀ v ∈ vs, v ≤ 63) : codesVal 0 vs < 64 ^ vs.length := by
  induction vs with
  | nil => simp [codesVal]
  | cons v vs ih =>
    have h1 := ih fun v hv => h v (List.mem_cons_of_mem _ hv)
    have h2 := h v List.mem_cons_self
    simp only [codesVal, List.length_cons]
    rw [codesVal_eq, Nat.pow_succ]
    have : (0 * 64 + v) * 64 ^ vs.length ≤ 63 * 64 ^ vs.length := Nat.mul_le_mul_right _ (by omega)
    omega

theorem pow64_le {k n : Nat} (h : k ≤ n) : 64 ^ k ≤ 64 ^ n := Nat.pow_le_pow_right (by decide) h

theorem encodeLoop_eq (bytes : List Nat) (acc k : Nat) (hk : k + bytes.length ≤ 9) (hacc : acc < 64 ^ k) :
    encodeLoop acc bytes = (bytes.mapM encodeByte).map (codesVal acc) := by
  induction bytes generalizing acc k with
  | nil => rfl
  | cons b bs ih =>
    simp only [encodeLoop, List.mapM_cons]
    cases hb : encodeByte b with
    | none => rfl
    | some v =>
      have hv := (decode_encode hb).2
      simp only [List.length_cons] at hk
      have h8 : 64 ^ k ≤ 64 ^ 8 := pow64_le (by omega)
      have e : shl64 acc 6 ||| v = acc * 64 + v := by
        rw [shl64_eq, or_eq_add (k := 6) (by omega) (by omega)]; omega
      simp only [e]
      rw [ih (acc * 64 + v) (k + 1) (by omega) (by rw [Nat.pow_succ]; omega)]
      cases List.mapM encodeByte bs <;> rfl

theorem mapM_some {bytes vs : List Nat} (h : bytes.mapM encodeByte = some vs) :
    vs.map decodeCode = bytes ∧ vs.length = bytes.length ∧ (∀ v ∈ vs, 1 ≤ v ∧ v ≤ 63) ∧ ∀ b ∈ bytes, isSymbolChar b := by
  induction bytes generalizing vs with
  | nil => simp at h; subst h; simp
  | cons b bs ih =>
    rw [List.mapM_cons] at h
    cases hb : encodeByte b with
    | none => rw [hb] at h; simp at h
    | some v =>
      cases hbs : List.mapM encodeByte bs with
      | none => rw [hb, hbs] at h; simp at h
      | some ws =>
        rw [hb, hbs] at h
        simp at h
        subst h
        obtain ⟨h1, h2, h3, h4⟩ := ih hbs
        have hd := decode_encode hb
        refine ⟨by simp [h1, hd.1], by simp [h2], ?_, ?_⟩
        · intro w hw
          rcases List.mem_cons.1 hw with rfl | hw
          · exact hd.2
          · exact h3 w hw
        · intro c hc
          rcases List.mem_cons.1 hc with rfl | hc
          · exact encodeByte_some.1 ⟨v, hb⟩
          · exact h4 c hc

theorem mapM_isSome {bytes : List Nat} (h : ∀ b ∈ bytes, isSymbolChar b) : ∃ vs, bytes.mapM encodeByte = some vs := by
  induction bytes with
  | nil => exact ⟨[], rfl⟩
  | cons b bs ih =>
    obtain ⟨vs, hvs⟩ := ih fun b hb => h b (List.mem_cons_of_mem _ hb)
    obtain ⟨v, hv⟩ := encodeByte_some.2 (h b List.mem_cons_self)
    exact ⟨v :: vs, by rw [List.mapM_cons, hv, hvs]; rfl⟩

/-- Decoding of a list of codes, zero codes being skipped. -/
def decodeAll (ds : List Nat) : List Nat := (ds.map decodeCode).filter (· ≠ 0)

theorem iter_high (fuel H : Nat) : symbolIter fuel (H * 2^54 % 2^64) = [] := by
  induction fuel generalizing H with
  | zero => rfl
  | succ f ih =>
    simp only [symbolIter]
    split
    · rfl
    · have h0 : (H * 2^54 % 2^64) >>> 48 &&& 63 = 0 := by
        rw [Nat.shiftRight_eq_div_pow, show (63:Nat) = 2^6 - 1 from rfl, Nat.and_two_pow_sub_one_eq_mod]; omega
      have h1 : shl64 (H * 2^54 % 2^64) 6 = (H * 64) * 2^54 % 2^64 := by rw [shl64_eq]; omega
      rw [h0, h1, ih]
      decide

theorem decodeCode_zero : decodeCode 0 = 0 := by decide

theorem decodeAll_zero {ds : List Nat} (h : codesVal 0 ds = 0) : decodeAll ds = [] := by
  induction ds with
  | nil => rfl
  | cons d ds ih =>
    simp only [codesVal] at h
    rw [codesVal_eq] at h
    have hp : 0 < 64 ^ ds.length := Nat.pow_pos (by decide)
    have hd : d = 0 := by
      by_contra hd
      have : 0 < (0 * 64 + d) * 64 ^ ds.length := Nat.mul_pos (by omega) hp
      omega
    subst hd
    have := ih (by omega)
    unfold decodeAll at *
    simp only [List.map_cons, decodeCode_zero]
    rw [List.filter_cons_of_neg (by decide)]
    exact this

theorem iter_eq (fuel H : Nat) (ds : List Nat) (hlen : ds.length ≤ 9) (hf : ds.length ≤ fuel) (hd : ∀ d ∈ ds, d ≤ 63) :
    symbolIter fuel ((H * 2^54 + codesVal 0 ds * 64 ^ (9 - ds.length)) % 2^64) = decodeAll ds := by
  induction ds generalizing fuel H with
  | nil => simp only [codesVal, Nat.zero_mul, Nat.add_zero]; rw [iter_high]; rfl
  | cons d ds ih =>
    obtain ⟨f, rfl⟩ : ∃ f, fuel = f + 1 := ⟨fuel - 1, by simp at hf; omega⟩
    simp only [List.length_cons] at hlen hf
    have hd0 := hd d List.mem_cons_self
    have hds := fun x hx => hd x (List.mem_cons_of_mem _ hx)
    have hlt := codesVal_lt ds hds
    have e1 : codesVal 0 (d :: ds) * 64 ^ (9 - (ds.length + 1)) = d * 2^48 + codesVal 0 ds * 64 ^ (8 - ds.length) := by
      simp only [codesVal]
      rw [codesVal_eq]
      have hp : 64 ^ ds.length * 64 ^ (8 - ds.length) = 2^48 := by
        rw [← Nat.pow_add, show ds.length + (8 - ds.length) = 8 by omega]; rfl
      rw [show 9 - (ds.length + 1) = 8 - ds.length by omega, Nat.add_mul, Nat.mul_assoc, hp]
      omega
    have hrest : codesVal 0 ds * 64 ^ (8 - ds.length) < 2^48 := by
      have hp : 64 ^ ds.length * 64 ^ (8 - ds.length) = 2^48 := by
        rw [← Nat.pow_add, show ds.length + (8 - ds.length) = 8 by omega]; rfl
      have := Nat.mul_lt_mul_of_pos_right hlt (Nat.pow_pos (n := 8 - ds.length) (show 0 < 64 by decide))
      omega
    have e2 : codesVal 0 ds * 64 ^ (9 - ds.length) = codesVal 0 ds * 64 ^ (8 - ds.length) * 64 := by
      rw [show 9 - ds.length = (8 - ds.length) + 1 by omega, Nat.pow_succ, Nat.mul_assoc]
    have ih' := ih f (H * 64 + d) (by omega) (by omega) hds
    rw [e2] at ih'
    simp only [List.length_cons, symbolIter]
    rw [e1]
    generalize codesVal 0 ds * 64 ^ (8 - ds.length) = r at *
    have hcode : ((H * 2 ^ 54 + (d * 2 ^ 48 + r)) % 2 ^ 64) >>> 48 &&& 63 = d := by
      rw [Nat.shiftRight_eq_div_pow, show (63:Nat) = 2^6 - 1 from rfl, Nat.and_two_pow_sub_one_eq_mod]; omega
    have hshl : shl64 ((H * 2 ^ 54 + (d * 2 ^ 48 + r)) % 2 ^ 64) 6 = ((H * 64 + d) * 2 ^ 54 + r * 64) % 2 ^ 64 := by
      rw [shl64_eq]; omega
    rw [hcode, hshl, ih']
    by_cases h0 : (H * 2 ^ 54 + (d * 2 ^ 48 + r)) % 2 ^ 64 = 0
    · rw [if_pos h0]
      have hd0 : d = 0 := by omega
      have h0' : ((H * 64 + d) * 2 ^ 54 + r * 64) % 2 ^ 64 = 0 := by
        have e : (H * 64 + d) * 2 ^ 54 + r * 64 = (H * 2 ^ 54 + (d * 2 ^ 48 + r)) * 64 := by rw [hd0]; ring
        rw [e, Nat.mul_mod, h0, Nat.zero_mul]; rfl
      rw [h0'] at ih'
      have : symbolIter f 0 = [] := by cases f <;> simp [symbolIter]
      rw [this] at ih'
      unfold decodeAll at *
      simp only [List.map_cons, hd0, decodeCode_zero]
      rw [List.filter_cons_of_neg (by decide)]
      exact ih'
    · rw [if_neg h0]
      unfold decodeAll
      simp only [List.map_cons]
      by_cases hz : decodeCode d = 0
      · simp [hz]
      · simp [hz]

/-- The strings accepted: at most nine characters of the symbol alphabet; everything else is rejected. -/
theorem C02_symbol_accepts_iff (s : List Nat) :
    (symbolTryFromBytes s).isSome ↔ s.length ≤ 9 ∧ ∀ b ∈ s, isSymbolChar b := by
  unfold symbolTryFromBytes
  split
  · rename_i h; simp; omega
  · rename_i h
    rw [encodeLoop_eq s 0 0 (by omega) (by decide)]
    simp only [Option.isSome_map]
    constructor
    · intro hs
      obtain ⟨vs, hvs⟩ := Option.isSome_iff_exists.1 hs
      exact ⟨by omega, (mapM_some hvs).2.2.2⟩
    · intro hs
      obtain ⟨vs, hvs⟩ := mapM_isSome hs.2
      rw [hvs]; rfl

/-- The characters of an encoded symbol are exactly the string, and the word is a valid small symbol. -/
theorem C02_symbol_round_trip (s : List Nat) (v : Nat) (h : symbolTryFromBytes s = some v) :
    symbolChars v = s ∧ Val.hasTag v .SymbolSmall = true ∧ Val.isGood v = true := by
  unfold symbolTryFromBytes at h
  split at h
  · simp at h
  · rename_i hl
    rw [encodeLoop_eq s 0 0 (by omega) (by decide)] at h
    cases hvs : List.mapM encodeByte s with
    | none => rw [hvs] at h; simp at h
    | some vs =>
      rw [hvs] at h
      simp at h
      subst h
      obtain ⟨h1, h2, h3, h4⟩ := mapM_some hvs
      have hlt := codesVal_lt vs fun v hv => (h3 v hv).2
      have hlt9 : codesVal 0 vs < 2^54 := Nat.lt_of_lt_of_le hlt (by
        have := pow64_le (k := vs.length) (n := 9) (by omega)
        have e : 64 ^ 9 = 2 ^ 54 := by decide
        omega)
      have hb := body_fromBody .SymbolSmall (show codesVal 0 vs < 2^56 by omega)
      refine ⟨?_, (hasTag_fromBody _ _ _).2 rfl, ?_⟩
      · unfold symbolChars
        rw [hb]
        -- pad with leading zero codes up to nine
        have hpad : ∀ k, codesVal 0 (List.replicate k 0 ++ vs) = codesVal 0 vs := by
          intro k; induction k with
          | zero => rfl
          | succ k ih => simpa [List.replicate_succ, codesVal] using ih
        have := iter_eq 11 0 (List.replicate (9 - vs.length) 0 ++ vs) (by simp; omega) (by simp; omega) (by
          intro d hd
          rcases List.mem_append.1 hd with hd | hd
          · rw [(List.mem_replicate.1 hd).2]; omega
          · exact (h3 d hd).2)
        rw [hpad] at this
        have hlen : (List.replicate (9 - vs.length) 0 ++ vs).length = 9 := by simp; omega
        rw [hlen] at this
        rw [show (0 * 2 ^ 54 + codesVal 0 vs * 64 ^ (9 - 9)) % 2 ^ 64 = codesVal 0 vs by omega] at this
        rw [this]
        unfold decodeAll
        rw [List.map_append, List.filter_append, h1]
        have hz : List.filter (fun x => decide (x ≠ 0)) (List.map decodeCode (List.replicate (9 - vs.length) 0)) = [] := by
          rw [List.map_replicate, decodeCode_zero, List.filter_replicate]; simp
        rw [hz, List.nil_append, List.filter_eq_self]
        intro b hb
        have := h4 b hb
        unfold isSymbolChar at this
        simp; omega
      · have htag : Val.tag (Val.fromBodyAndTag (codesVal 0 vs) .SymbolSmall) = .SymbolSmall := by
          have := (hasTag_fromBody (codesVal 0 vs) .SymbolSmall .SymbolSmall).2 rfl
          rw [hasTag_iff] at this
          unfold Val.tag; rw [tagU8_eq, this]; decide
        unfold Val.isGood
        rw [htag]
        simp only [Val.goodFor, hb, symbolTryFromBody]
        rw [Nat.and_two_pow_sub_one_eq_mod, Nat.mod_eq_of_lt hlt9]
        simp

/-- Different strings encode to different words. -/
theorem C02_symbol_injective (s t : List Nat) (v : Nat) (hs : symbolTryFromBytes s = some v)
    (ht : symbolTryFromBytes t = some v) : s = t := by
  rw [← (C02_symbol_round_trip s v hs).1, (C02_symbol_round_trip t v ht).1]

theorem lexCmp_spec (a b : List Nat) :
    (lexCmp a b = .lt ↔ a < b) ∧ (lexCmp a b = .gt ↔ b < a) ∧ (lexCmp a b = .eq ↔ a = b) := by
  induction a generalizing b with
  | nil => cases b <;> simp [lexCmp]
  | cons x xs ih =>
    cases b with
    | nil => simp [lexCmp]
    | cons y ys =>
      obtain ⟨h1, h2, h3⟩ := ih ys
      simp only [lexCmp, List.cons_lt_cons_iff]
      rcases Nat.lt_trichotomy x y with h | h | h
      · simp [h]; omega
      · subst h; simp [h1, h2, h3]
      · have hn : ¬ x < y := by omega
        simp [h, hn]; omega

/-- Comparing encoded symbols gives the lexicographic order of the strings (Lean's order on lists of character codes). -/
theorem C02_symbol_order (s t : List Nat) (v w : Nat) (hs : symbolTryFromBytes s = some v)
    (ht : symbolTryFromBytes t = some w) :
    (symbolSmallCmp v w = .lt ↔ s < t) ∧ (symbolSmallCmp v w = .gt ↔ t < s) ∧ (symbolSmallCmp v w = .eq ↔ s = t) := by
  unfold symbolSmallCmp
  rw [(C02_symbol_round_trip s v hs).1, (C02_symbol_round_trip t w ht).1]
  exact lexCmp_spec s t

/-- Two different words that both pass the integrity check can spell the same symbol: zero codes are skipped wherever
they occur. (So equality of the words is finer than equality of the symbols for guest-made words.) -/
theorem C02_noncanonical_words_exist : ∃ v w : Nat, v < 2^64 ∧ w < 2^64 ∧ v ≠ w ∧ Val.isGood v = true ∧
    Val.isGood w = true ∧ Val.hasTag v .SymbolSmall = true ∧ Val.hasTag w .SymbolSmall = true ∧
    symbolChars v = symbolChars w ∧ symbolSmallCmp v w = .eq := by
  refine ⟨0x260e, 0x9800e, ?_⟩; decide

/-- `"Z_9"` is accepted; a dash and ten characters are not. -/
example : (symbolTryFromBytes [90, 95, 57]).isSome = true ∧ symbolTryFromBytes [97, 45] = none ∧
    symbolTryFromBytes (List.replicate 10 97) = none := by decide

/-! ### C03 -/

theorem tag_code {w : Nat} {t : Tag} (h : Val.tag w = t) (ht : t ≠ .Bad) : w % 256 = t.code := by
  unfold Val.tag at h
  rw [tagU8_eq] at h
  have := code_fromU8 ⟨w % 256, Nat.mod_lt _ (by decide)⟩
  by_cases hr : w % 256 < 15 ∨ (63 < w % 256 ∧ w % 256 < 80)
  · have := this.1 hr; simp only [h] at this; exact this.symm
  · have := this.2 hr; simp only [h] at this; exact absurd this ht

theorem tag_of_code {w : Nat} {t : Tag} (h : w % 256 = t.code) (h1 : t ≠ .SmallCodeUpperBound)
    (h2 : t ≠ .ObjectCodeLowerBound) (h3 : t ≠ .ObjectCodeUpperBound) : Val.tag w = t := by
  unfold Val.tag; rw [tagU8_eq, h]; exact fromU8_code t h1 h2 h3

theorem symbolTryFromBody_isSome (b : Nat) : (symbolTryFromBody b).isSome = true ↔ b < 2^54 := by
  unfold symbolTryFromBody
  rw [Nat.and_two_pow_sub_one_eq_mod]
  split
  · simp; omega
  · simp; omega

theorem layout_of_eq {w x : Nat} (h : Layout x) (e : x = w) : Layout w := e ▸ h

/-- The integrity check accepts exactly the words of the documented layout. -/
theorem C03_is_good_iff_layout (w : Nat) (hw : w < 2^64) : Val.isGood w = true ↔ Layout w := by
  constructor
  · intro h
    unfold Val.isGood at h
    cases ht : Val.tag w <;> rw [ht] at h <;> simp only [Val.goodFor] at h
    all_goals first
      | (simp at h; done)
      | skip
    all_goals
      have hc := tag_code ht (by decide)
      simp only [Tag.code] at hc
    all_goals first
      | (rw [body_eq] at h
         have hw0 : w = 0 ∨ w = 1 ∨ w = 2 := by simp at h; omega
         rcases hw0 with rfl | rfl | rfl
         · exact Layout.false_
         · exact Layout.true_
         · exact Layout.void)
      | (rw [symbolTryFromBody_isSome, body_eq] at h
         exact layout_of_eq (Layout.symbol (w / 256) h) (by omega))
      | (unfold errorIsValid at h
         rw [minor_eq, major_eq] at h
         split at h
         · exact layout_of_eq (Layout.contractError (w / 2^32) (by omega)) (by omega)
         · split at h
           · simp only [decide_eq_true_eq] at h
             exact layout_of_eq (Layout.systemError (w / 256 % 2^24) (w / 2^32) (by omega) (by omega) (by omega)) (by omega)
           · simp at h)
      | (exact layout_of_eq (Layout.smallInt (w % 256) (w / 256) (by omega) (by omega) (by omega)) (by omega))
      | (simp only [minor_eq, beq_iff_eq] at h
         exact layout_of_eq (Layout.int32 (w % 256) (w / 2^32) (by omega) (by omega)) (by omega))
      | (simp only [minor_eq, beq_iff_eq] at h
         exact layout_of_eq (Layout.object (w % 256) (w / 2^32) (by omega) (by omega) (by omega)) (by omega))
  · intro h
    obtain ⟨x, hx, h⟩ : ∃ x, w = x ∧ Layout x := ⟨w, rfl, h⟩
    have hgood : ∀ t : Tag, w % 256 = t.code → t ≠ .SmallCodeUpperBound → t ≠ .ObjectCodeLowerBound →
        t ≠ .ObjectCodeUpperBound → Val.goodFor t w = true → Val.isGood w = true := by
      intro t h0 h1 h2 h3 h4; unfold Val.isGood; rw [tag_of_code h0 h1 h2 h3]; exact h4
    have htable : ∀ n : Fin 256, (6 ≤ n.val ∧ n.val ≤ 13) ∨ (64 ≤ n.val ∧ n.val ≤ 79) → ∃ t ∈ Tag.all, n.val = t.code ∧
        t ≠ .SmallCodeUpperBound ∧ t ≠ .ObjectCodeLowerBound ∧ t ≠ .ObjectCodeUpperBound := by decide +kernel
    have hsmall : ∀ t : Tag, 6 ≤ t.code → t.code ≤ 13 → Val.goodFor t w = true := by
      intro t; cases t <;> simp [Tag.code, Val.goodFor]
    have hobj : Val.minor w = 0 → ∀ t : Tag, 64 ≤ t.code → t.code ≤ 79 → Val.goodFor t w = true := by
      intro h t; cases t <;> simp [Tag.code, Val.goodFor, h]
    cases h with
    | false_ => subst hx; decide
    | true_ => subst hx; decide
    | void => subst hx; decide
    | contractError code hcode =>
      apply hgood .Error (by simp only [Tag.code]; omega) (by decide) (by decide) (by decide)
      simp only [Val.goodFor, errorIsValid, minor_eq, major_eq]
      rw [if_pos (by omega)]
    | systemError type code h1 h2 h3 =>
      apply hgood .Error (by simp only [Tag.code]; omega) (by decide) (by decide) (by decide)
      simp only [Val.goodFor, errorIsValid, minor_eq, major_eq]
      rw [if_neg (by omega), if_pos (by omega)]
      simp only [decide_eq_true_eq]; omega
    | int32 tag n h1 h2 =>
      rcases h1 with rfl | rfl
      · apply hgood .U32Val (by simp only [Tag.code]; omega) (by decide) (by decide) (by decide)
        simp only [Val.goodFor, minor_eq, beq_iff_eq]; omega
      · apply hgood .I32Val (by simp only [Tag.code]; omega) (by decide) (by decide) (by decide)
        simp only [Val.goodFor, minor_eq, beq_iff_eq]; omega
    | smallInt tag n h1 h2 h3 =>
      obtain ⟨t, _, h4, h5, h6, h7⟩ := htable ⟨tag, by omega⟩ (Or.inl ⟨h1, h2⟩)
      simp only at h4
      exact hgood t (by omega) h5 h6 h7 (hsmall t (by omega) (by omega))
    | symbol n hn =>
      apply hgood .SymbolSmall (by simp only [Tag.code]; omega) (by decide) (by decide) (by decide)
      simp only [Val.goodFor, symbolTryFromBody_isSome, body_eq]; omega
    | object tag n h1 h2 h3 =>
      obtain ⟨t, _, h4, h5, h6, h7⟩ := htable ⟨tag, by omega⟩ (Or.inr ⟨h1, h2⟩)
      simp only at h4
      exact hgood t (by omega) h5 h6 h7 (hobj (by rw [minor_eq]; omega) t (by omega) (by omega))

/-- Every word the host constructs passes its own check: booleans, void, errors, inline integers and symbols, and object
words with a 32-bit handle. -/
theorem C03_constructors_are_good :
    Val.isGood valVoid = true ∧ (∀ b, Val.isGood (valBool b) = true) ∧
    (∀ code, code < 2^32 → Val.isGood (valError 0 code) = true) ∧
    (∀ type code, type ≤ 9 → code ≤ 9 → Val.isGood (valError type code) = true) ∧
    (∀ t i v, inType t i → toSmall t i = some v → Val.isGood v = true) ∧
    (∀ s v, symbolTryFromBytes s = some v → Val.isGood v = true) ∧
    (∀ h t, h < 2^32 → Tag.u8IsObject t.code = true → Val.isGood (valObject h t) = true ∧ Val.isObject (valObject h t) = true
      ∧ Val.major (valObject h t) = h ∧ Val.tag (valObject h t) = t) := by
  have herr : ∀ type code, type ≤ 9 → code < 2^32 → valError type code = code * 2^32 + type * 2^8 + 3 := fun type code h1 h2 =>
    fromMajorMinorAndTag_eq .Error h2 (by omega)
  have hgood : ∀ w x, w = x → x < 2^64 → Layout x → Val.isGood w = true := by
    rintro w x rfl h1 h2; exact (C03_is_good_iff_layout w h1).2 h2
  refine ⟨by decide, by decide, ?_, ?_, ?_, fun s v h => (C02_symbol_round_trip s v h).2.2, ?_⟩
  · intro code h
    exact hgood _ (code * 2^32 + 0 * 2^8 + 3) (herr 0 code (by omega) h) (by omega)
      (layout_of_eq (Layout.contractError code h) (by omega))
  · intro type code h1 h2
    refine hgood _ (code * 2^32 + type * 2^8 + 3) (herr type code h1 (by omega)) (by omega) ?_
    rcases Nat.eq_zero_or_pos type with h | h
    · exact layout_of_eq (Layout.contractError code (by omega)) (by omega)
    · exact layout_of_eq (Layout.systemError type code h h1 h2) (by omega)
  · intro t i v ht hv
    cases t <;> simp only [toSmall, inType] at hv ht
    case u32 =>
      refine hgood v (i.toNat * 2^32 + 4) ?_ (by omega) (Layout.int32 4 i.toNat (by decide) (by omega))
      rw [← Option.some.inj hv, fromMajorMinorAndTag_eq _ (by omega) (by decide)]
      simp only [Tag.code]
    case i32 =>
      have hu : asU32 i < 2^32 := by unfold asU32; omega
      refine hgood v (asU32 i * 2^32 + 5) ?_ (by omega) (Layout.int32 5 _ (by decide) hu)
      rw [← Option.some.inj hv, fromMajorMinorAndTag_eq _ hu (by decide)]
      simp only [Tag.code]
    all_goals
      split at hv
      case isFalse => simp at hv
      case isTrue =>
        have hv := Option.some.inj hv
        rw [fromBodyAndTag_eq] at hv
        simp only [Tag.code] at hv
        refine hgood v ((v / 256) * 2^8 + v % 256) (by omega) (by omega) (Layout.smallInt _ _ (by omega) (by omega) (by omega))
  · intro h t hh hobj
    have hr : 64 ≤ t.code ∧ t.code ≤ 79 := by
      revert hobj; cases t <;> decide
    have e : valObject h t = h * 2^32 + 0 * 2^8 + t.code := fromMajorMinorAndTag_eq t hh (by decide)
    have ht : Val.tag (valObject h t) = t := by
      apply tag_of_code (by rw [e]; omega) <;> (intro h; subst h; revert hobj; decide)
    refine ⟨?_, ?_, ?_, ht⟩
    · exact hgood _ _ (show valObject h t = h * 2^32 + t.code by rw [e]; omega) (by omega)
        (Layout.object t.code h hr.1 hr.2 hh)
    · unfold Val.isObject
      have : Val.tagU8 (valObject h t) = t.code := by rw [tagU8_eq, e]; omega
      rw [this]; exact hobj
    · rw [major_eq, e]; omega

/-- Some rejected words: unused tag 15, `true` with a body bit, a `u32` with a minor bit, an error of type 10, a symbol
with bit 54 set, an object with a minor bit. -/
example : Val.isGood 15 = false ∧ Val.isGood 0x101 = false ∧ Val.isGood 0x104 = false ∧ Val.isGood 0xa03 = false ∧
    Val.isGood 0x400000000000000e = false ∧ Val.isGood 0x148 = false ∧ Val.isGood 0x100000048 = true := by decide

end Soroban.Props
