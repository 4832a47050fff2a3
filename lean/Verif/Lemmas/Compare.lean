import Verif.Lemmas.ScVal
import Verif.Props.Val
import Verif.Spec.Objects
/-!
Lemmas for C05: the host's comparison of values computes the order of the ledger values they convert to.
-/
namespace Soroban
open Soroban.Spec

theorem lexCmp_eq_lexInts (a b : List Nat) : lexCmp a b = lexInts (a.map Int.ofNat) (b.map Int.ofNat) := by
  induction a generalizing b with
  | nil => cases b <;> rfl
  | cons x a ih =>
    cases b with
    | nil => rfl
    | cons y b =>
      simp only [lexCmp, List.map_cons, lexInts, ih, Int.ofNat_eq_natCast, compare_cast]
      by_cases h : x < y
      · simp [h, Nat.compare_eq_lt.2 h]
      · by_cases h' : y < x
        · simp [h', h, Nat.compare_eq_gt.2 h']
        · have : x = y := by omega
          subst this; simp

theorem addr_cmp_eq (a b : ScAddr) : a.cmp b = lexInts (addrContent a) (addrContent b) := by
  cases a <;> cases b <;> simp [ScAddr.cmp, ScAddr.cmp.rank, addrContent, lexInts, compare_cast] <;> rfl

theorem then_self_eq (o : Ordering) : o.then .eq = o := by cases o <;> rfl

theorem scOrd_num {a b : ScVal} {x y : Int} (hd : a.discriminant = b.discriminant) (hx : content a = [x]) (hy : content b = [y])
    (hl : descends a = false) : scOrd a b = compare x y := by
  rw [scOrd_leaf (Or.inl hl), hd, hx, hy]
  simp [lexInts, then_self_eq]

theorem scOrd_disc {a b : ScVal} (hd : a.discriminant ≠ b.discriminant) :
    scOrd a b = compare a.discriminant b.discriminant := by
  rw [scOrd_leaf (Or.inr (Or.inr hd)), then_ne_eq (by simpa using hd)]

theorem scOrd_bytes {a b : ScVal} {x y : List Nat} (hd : a.discriminant = b.discriminant) (hx : content a = x.map Int.ofNat)
    (hy : content b = y.map Int.ofNat) (hl : descends a = false) : scOrd a b = lexCmp x y := by
  rw [scOrd_leaf (Or.inl hl), hd, hx, hy, lexCmp_eq_lexInts]
  simp

/-! ### pieces -/

theorem u128_pieces {u : Nat} (h : u < 2^128) : u128Hi u * 2^64 + u128Lo u = u := by
  unfold u128Hi u128Lo; omega

theorem i128_pieces {i : Int} (h : -2^127 ≤ i ∧ i < 2^127) : i128Hi i * 2^64 + (i128Lo i : Int) = i := by
  unfold i128Hi i128Lo asI64 asU64; dsimp only; split <;> omega

theorem u256_pieces {u : Nat} (h : u < 2^256) :
    (u256IntoPieces u).1 * 2^192 + (u256IntoPieces u).2.1 * 2^128 + (u256IntoPieces u).2.2.1 * 2^64 + (u256IntoPieces u).2.2.2 = u := by
  unfold u256IntoPieces; dsimp only; omega

theorem i256_pieces {i : Int} (h : -2^255 ≤ i ∧ i < 2^255) :
    (i256IntoPieces i).1 * 2^192 + ((i256IntoPieces i).2.1 : Int) * 2^128 + ((i256IntoPieces i).2.2.1 : Int) * 2^64 +
      ((i256IntoPieces i).2.2.2 : Int) = i := by
  unfold i256IntoPieces asI64 asU64; dsimp only; split <;> omega

theorem asI64_range (x : Nat) : -2^63 ≤ asI64 x ∧ asI64 x < 2^63 := by
  unfold asI64; dsimp only; split <;> omega

theorem signedBody_range (v : Nat) : -2^55 ≤ Val.signedBody v ∧ Val.signedBody v < 2^55 := by
  have := asI64_range v
  unfold Val.signedBody; omega

/-! ### what words and objects convert to -/

/-- The number held by an integer object. -/
def objNum : HostObj → Option Int
  | .u64 n | .timepoint n | .duration n | .u128 n | .u256 n => some n
  | .i64 i | .i128 i | .i256 i => some i
  | _ => none

/-- The text held by a byte-string object. -/
def objText : HostObj → Option (List Nat)
  | .bytes b | .string b | .symbol b | .executableTag b => some b
  | _ => none

/-- The XDR type of an object. -/
def objType : HostObj → Nat
  | .u64 _ => 5 | .i64 _ => 6 | .timepoint _ => 7 | .duration _ => 8 | .u128 _ => 9 | .i128 _ => 10 | .u256 _ => 11
  | .i256 _ => 12 | .bytes _ => 13 | .string _ => 14 | .symbol _ => 15 | .vec _ => 16 | .map _ => 17 | .address _ => 18
  | .muxedAddress _ => 18 | .executableTag _ => 22

variable {rec : Nat → Res ScVal} {fs : Bool} {objs : List HostObj}

theorem fromHostObj_type {o : HostObj} {s : ScVal} (h : fromHostObj rec fs o = .ok s) : s.discriminant = objType o := by
  cases o <;> simp only [fromHostObj] at h
  case vec => obtain ⟨l, _, h⟩ := bind_ok.1 h; cases h; rfl
  case map => obtain ⟨l, _, h⟩ := bind_ok.1 h; cases h; rfl
  case muxedAddress => split at h <;> cases h; rfl
  all_goals (cases h; rfl)

theorem fromHostObj_num {o : HostObj} {s : ScVal} {x : Int} (ho : ObjOk o) (h : fromHostObj rec fs o = .ok s)
    (hx : objNum o = some x) : content s = [x] ∧ descends s = false := by
  cases o <;> simp only [objNum, Option.some.injEq, reduceCtorEq] at hx <;> simp only [fromHostObj, Except.ok.injEq] at h <;>
    subst h <;> subst hx <;> refine ⟨?_, rfl⟩ <;> simp only [ObjOk] at ho <;> simp only [content]
  case u128 n => congr 1; have := u128_pieces ho; exact_mod_cast this
  case i128 n => congr 1; exact i128_pieces ho
  case u256 n => congr 1; have := u256_pieces ho; exact_mod_cast this
  case i256 n => congr 1; exact i256_pieces ho

theorem fromHostObj_text {o : HostObj} {s : ScVal} {x : List Nat} (h : fromHostObj rec fs o = .ok s)
    (hx : objText o = some x) : content s = x.map Int.ofNat ∧ descends s = false := by
  cases o <;> simp only [objText, Option.some.injEq, reduceCtorEq] at hx <;> simp only [fromHostObj, Except.ok.injEq] at h <;>
    subst h <;> subst hx <;> exact ⟨rfl, rfl⟩

/-- Tags of inline values. -/
theorem fromSmallVal_type {v : Nat} {s : ScVal} (h : fromSmallVal v = .ok s) :
    (Val.tag v).scValType = some s.discriminant ∧ descends s = false := by
  unfold fromSmallVal at h
  split at h <;> first
    | (cases h; done)
    | (split at h <;> cases h; rename_i ht _; rw [ht]; exact ⟨rfl, rfl⟩)
    | (cases h; rename_i ht; rw [ht]; exact ⟨rfl, rfl⟩)

theorem hasTag_tag {v : Nat} {t : Tag} (h : Val.hasTag v t = true) (h1 : t ≠ .SmallCodeUpperBound)
    (h2 : t ≠ .ObjectCodeLowerBound) (h3 : t ≠ .ObjectCodeUpperBound) : Val.tag v = t := by
  have := (hasTag_iff v t).1 h
  exact Props.tag_of_code this h1 h2 h3

/-! ### comparing objects -/

theorem fromVals_cons {v : Nat} {vs : List Nat} {r : List ScVal} (h : fromVals rec (v :: vs) = .ok r) :
    ∃ s ss, rec v = .ok s ∧ fromVals rec vs = .ok ss ∧ r = s :: ss := by
  rw [fromVals] at h
  obtain ⟨s, h1, h⟩ := bind_ok.1 h
  obtain ⟨ss, h2, h⟩ := bind_ok.1 h
  cases h
  exact ⟨s, ss, h1, h2, rfl⟩

theorem fromEntries_cons {k v : Nat} {es : List (Nat × Nat)} {r : List (ScVal × ScVal)}
    (h : fromEntries rec ((k, v) :: es) = .ok r) :
    ∃ sk sv ss, rec k = .ok sk ∧ rec v = .ok sv ∧ fromEntries rec es = .ok ss ∧ r = (sk, sv) :: ss := by
  rw [fromEntries] at h
  obtain ⟨s, h1, h⟩ := bind_ok.1 h
  obtain ⟨s', h2, h⟩ := bind_ok.1 h
  obtain ⟨ss, h3, h⟩ := bind_ok.1 h
  cases h
  exact ⟨s, s', ss, h1, h2, h3, rfl⟩

theorem cmpVec_fromVals {cmp : Nat → Nat → Res Ordering} :
    ∀ {l m : List Nat} {sl sm : List ScVal}, fromVals rec l = .ok sl → fromVals rec m = .ok sm →
      (∀ a ∈ l, ∀ b ∈ m, ∀ sa sb, rec a = .ok sa → rec b = .ok sb → cmp a b = .ok (scOrd sa sb)) →
      cmpVec cmp l m = .ok (scOrdList sl sm) := by
  intro l
  induction l with
  | nil =>
    intro m sl sm hl hm _
    cases hl
    cases m with
    | nil => cases hm; rfl
    | cons b m =>
      obtain ⟨s, ss, _, _, rfl⟩ := fromVals_cons hm
      simp [cmpVec, scOrdList]
  | cons a l ih =>
    intro m sl sm hl hm hc
    obtain ⟨s, ss, h1, h2, rfl⟩ := fromVals_cons hl
    cases m with
    | nil => cases hm; simp [cmpVec, scOrdList]
    | cons b m =>
      obtain ⟨t, ts, h3, h4, rfl⟩ := fromVals_cons hm
      have hi := ih h2 h4 (fun a ha b hb => hc a (by simp [ha]) b (by simp [hb]))
      have hh := hc a (by simp) b (by simp) s t h1 h3
      simp only [cmpVec, hh, bind, Except.bind, scOrdList]
      cases scOrd s t <;> simp [hi]

theorem cmpEntries_fromEntries {cmp : Nat → Nat → Res Ordering} :
    ∀ {l m : List (Nat × Nat)} {sl sm : List (ScVal × ScVal)}, fromEntries rec l = .ok sl → fromEntries rec m = .ok sm →
      (∀ a ∈ elems (.map l), ∀ b ∈ elems (.map m), ∀ sa sb, rec a = .ok sa → rec b = .ok sb →
        cmp a b = .ok (scOrd sa sb)) →
      cmpVec (cmpPair cmp) l m = .ok (scOrdEntries sl sm) := by
  intro l
  induction l with
  | nil =>
    intro m sl sm hl hm _
    cases hl
    cases m with
    | nil => cases hm; rfl
    | cons b m =>
      obtain ⟨k, v⟩ := b
      obtain ⟨s, s', ss, _, _, _, rfl⟩ := fromEntries_cons hm
      simp [cmpVec, scOrdEntries]
  | cons a l ih =>
    obtain ⟨k, v⟩ := a
    intro m sl sm hl hm hc
    obtain ⟨sk, sv, ss, h1, h1', h2, rfl⟩ := fromEntries_cons hl
    cases m with
    | nil => cases hm; simp [cmpVec, scOrdEntries]
    | cons b m =>
      obtain ⟨k', v'⟩ := b
      obtain ⟨tk, tv, ts, h3, h3', h4, rfl⟩ := fromEntries_cons hm
      have hi := ih h2 h4 (fun a ha b hb => hc a (by
        simp only [elems, List.map_cons, List.mem_append, List.mem_cons] at ha ⊢; rcases ha with h | h <;> simp [h]) b (by
        simp only [elems, List.map_cons, List.mem_append, List.mem_cons] at hb ⊢; rcases hb with h | h <;> simp [h]))
      have hk := hc k (by simp [elems]) k' (by simp [elems]) sk tk h1 h3
      have hv := hc v (by simp [elems]) v' (by simp [elems]) sv tv h1' h3'
      simp only [cmpVec, cmpPair, hk, bind, Except.bind, scOrdEntries]
      cases scOrd sk tk <;> simp [hv]
      cases scOrd sv tv <;> simp [hi]

theorem hostObjCmp_disc {cmp : Nat → Nat → Res Ordering} {a b : HostObj} (h : a.discriminant ≠ b.discriminant) :
    hostObjCmpBody cmp a b = .ok (compare a.discriminant b.discriminant) := by
  cases a <;> cases b <;> first | rfl | (simp [HostObj.discriminant] at h; done)

theorem hostObjCmp_spec {cmp : Nat → Nat → Res Ordering} {a b : HostObj} {sa sb : ScVal} (ha : ObjOk a) (hb : ObjOk b)
    (hsa : fromHostObj rec fs a = .ok sa) (hsb : fromHostObj rec fs b = .ok sb)
    (hc : ∀ x ∈ elems a, ∀ y ∈ elems b, ∀ sx sy, rec x = .ok sx → rec y = .ok sy → cmp x y = .ok (scOrd sx sy)) :
    hostObjCmpBody cmp a b = .ok (scOrd sa sb) := by
  have hta := fromHostObj_type hsa
  have htb := fromHostObj_type hsb
  by_cases hd : a.discriminant = b.discriminant
  · have hdd : sa.discriminant = sb.discriminant := by
      rw [hta, htb]
      cases a <;> cases b <;> first | rfl | (simp [HostObj.discriminant] at hd; done)
    by_cases hn : ∃ x, objNum a = some x
    · obtain ⟨x, hx⟩ := hn
      have hy : ∃ y, objNum b = some y ∧ hostObjCmpBody cmp a b = .ok (compare x y) := by
        cases a <;> simp only [objNum, reduceCtorEq, Option.some.injEq] at hx <;> cases b <;>
          first
          | (simp [HostObj.discriminant] at hd; done)
          | (refine ⟨_, rfl, ?_⟩; subst hx; simp [hostObjCmpBody, compare_cast])
      obtain ⟨y, hy, hh⟩ := hy
      rw [hh, scOrd_num hdd (fromHostObj_num ha hsa hx).1 (fromHostObj_num hb hsb hy).1 (fromHostObj_num ha hsa hx).2]
    · by_cases ht : ∃ x, objText a = some x
      · obtain ⟨x, hx⟩ := ht
        have hy : ∃ y, objText b = some y ∧ hostObjCmpBody cmp a b = .ok (lexCmp x y) := by
          cases a <;> simp only [objText, reduceCtorEq, Option.some.injEq] at hx <;> cases b <;>
            first
            | (simp [HostObj.discriminant] at hd; done)
            | (refine ⟨_, rfl, ?_⟩; subst hx; rfl)
        obtain ⟨y, hy, hh⟩ := hy
        rw [hh, scOrd_bytes hdd (fromHostObj_text hsa hx).1 (fromHostObj_text hsb hy).1 (fromHostObj_text hsa hx).2]
      · cases a <;> simp only [objNum, objText, Option.some.injEq, exists_eq', not_true_eq_false] at hn ht <;> cases b <;>
          try (simp [HostObj.discriminant] at hd; done)
        case vec.vec l m =>
          simp only [fromHostObj] at hsa hsb
          obtain ⟨sl, h1, h⟩ := bind_ok.1 hsa; cases h
          obtain ⟨sm, h2, h⟩ := bind_ok.1 hsb; cases h
          simp only [hostObjCmpBody, scOrd]
          exact cmpVec_fromVals h1 h2 hc
        case map.map l m =>
          simp only [fromHostObj] at hsa hsb
          obtain ⟨sl, h1, h⟩ := bind_ok.1 hsa; cases h
          obtain ⟨sm, h2, h⟩ := bind_ok.1 hsb; cases h
          simp only [hostObjCmpBody, scOrd]
          exact cmpEntries_fromEntries h1 h2 hc
        case address.address x y =>
          simp only [fromHostObj, Except.ok.injEq] at hsa hsb
          subst hsa; subst hsb
          rw [scOrd_leaf (Or.inl rfl)]
          simp [hostObjCmpBody, addr_cmp_eq, content, ScVal.discriminant]
        case muxedAddress.muxedAddress x y =>
          simp only [fromHostObj] at hsa hsb
          split at hsa
          · cases hsa
          · rename_i hf; rw [if_neg hf] at hsb
            simp only [Except.ok.injEq] at hsa hsb
            subst hsa; subst hsb
            rw [scOrd_leaf (Or.inl rfl)]
            simp [hostObjCmpBody, addr_cmp_eq, content, ScVal.discriminant]
  · rw [hostObjCmp_disc hd]
    by_cases hdd : sa.discriminant = sb.discriminant
    · rw [hta, htb] at hdd
      cases a <;> cases b <;> try (first | (simp [objType] at hdd; done) | (simp [HostObj.discriminant] at hd; done))
      case address.muxedAddress x y =>
        simp only [fromHostObj] at hsa hsb
        split at hsb
        · cases hsb
        · simp only [Except.ok.injEq] at hsa hsb
          subst hsa; subst hsb
          obtain ⟨i, k, rfl⟩ := hb
          rw [scOrd_leaf (Or.inl rfl)]
          rcases ha with ⟨k', rfl⟩ | ⟨k', rfl⟩ <;> rfl
      case muxedAddress.address x y =>
        simp only [fromHostObj] at hsa hsb
        split at hsa
        · cases hsa
        · simp only [Except.ok.injEq] at hsa hsb
          subst hsa; subst hsb
          obtain ⟨i, k, rfl⟩ := ha
          rw [scOrd_leaf (Or.inl rfl)]
          rcases hb with ⟨k', rfl⟩ | ⟨k', rfl⟩ <;> rfl
    · rw [scOrd_disc hdd, hta, htb]
      rw [hta, htb] at hdd
      cases a <;> cases b <;> first | rfl | (simp [objType] at hdd; done) | (simp [HostObj.discriminant] at hd; done)

end Soroban
