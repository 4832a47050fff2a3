import Verif.Spec.RustValues
import Verif.Lemmas.SacValues
import Verif.Lemmas.Contexts
import Verif.Lemmas.SacTotal
import Verif.Props.Val
/-!
Conversions of Rust values.
-/
namespace Soroban.Rust
open Soroban Soroban.Spec Soroban.ContractTypes Soroban.Rust.Spec Soroban.SacValues

variable {objs : List HostObj}

/-! ### numbers -/

theorem number_u128 {n : Nat} (h : n < 2 ^ 128) : ScVal.u128 (u128Hi n) (u128Lo n) = number .u128 n := by
  unfold number u128Hi u128Lo
  congr 1 <;> omega

theorem number_i128 {i : Int} (h : -2 ^ 127 ≤ i ∧ i < 2 ^ 127) : ScVal.i128 (i128Hi i) (i128Lo i) = number .i128 i := by
  unfold number
  have e1 : i128Hi i = i / 2 ^ 64 := (asI64_asU64_eq _).2 (by omega)
  rw [e1]; rfl

theorem number_u256 {n : Nat} (h : n < 2 ^ 256) :
    ScVal.u256 (u256IntoPieces n).1 (u256IntoPieces n).2.1 (u256IntoPieces n).2.2.1 (u256IntoPieces n).2.2.2 = number .u256 n := by
  unfold number u256IntoPieces
  dsimp only
  congr 1 <;> omega

theorem number_i256 {i : Int} (h : -2 ^ 255 ≤ i ∧ i < 2 ^ 255) :
    ScVal.i256 (i256IntoPieces i).1 (i256IntoPieces i).2.1 (i256IntoPieces i).2.2.1 (i256IntoPieces i).2.2.2 = number .i256 i := by
  unfold number i256IntoPieces
  have e1 : asI64 (asU64 (i / 2 ^ 192)) = i / 2 ^ 192 := (asI64_asU64_eq _).2 (by omega)
  dsimp only
  rw [e1]; rfl

theorem from_u128 {n : Nat} (h : n < 2 ^ 128) : u128FromPieces (u128Hi n) (u128Lo n) = n := u128_pieces h
theorem from_i128 {i : Int} (h : -2 ^ 127 ≤ i ∧ i < 2 ^ 127) : i128FromPieces (i128Hi i) (i128Lo i) = i := i128_pieces h
theorem from_u256 {n : Nat} (h : n < 2 ^ 256) :
    u256FromPieces (u256IntoPieces n).1 (u256IntoPieces n).2.1 (u256IntoPieces n).2.2.1 (u256IntoPieces n).2.2.2 = n := by
  have := u256_pieces h
  generalize u256IntoPieces n = p at this ⊢
  unfold u256FromPieces
  rw [Nat.add_mul, Nat.mul_assoc, show (2 : Nat) ^ 64 * 2 ^ 128 = 2 ^ 192 by decide, ← Nat.add_assoc]
  exact this
theorem from_i256 {i : Int} (h : -2 ^ 255 ≤ i ∧ i < 2 ^ 255) :
    i256FromPieces (i256IntoPieces i).1 (i256IntoPieces i).2.1 (i256IntoPieces i).2.2.1 (i256IntoPieces i).2.2.2 = i := by
  have := i256_pieces h
  generalize i256IntoPieces i = p at this ⊢
  unfold i256FromPieces
  omega

/-- The number of a ledger value, for the proofs. -/
def unnumber : ScVal → Int
  | .u32 n => n
  | .i32 i => i
  | .u64 n => n
  | .i64 i => i
  | .timepoint n => n
  | .duration n => n
  | .u128 a b => a * 2 ^ 64 + b
  | .i128 a b => a * 2 ^ 64 + b
  | .u256 a b c d => a * 2 ^ 192 + b * 2 ^ 128 + c * 2 ^ 64 + d
  | .i256 a b c d => a * 2 ^ 192 + b * 2 ^ 128 + c * 2 ^ 64 + d
  | _ => 0

theorem unnumber_number {t : IntTy} {i : Int} (h : inType t i) : unnumber (number t i) = i := by
  cases t <;> simp only [inType] at h <;> simp only [number, unnumber] <;> omega

theorem number_inj {t : IntTy} {i j : Int} (hi : inType t i) (hj : inType t j) (h : number t i = number t j) : i = j := by
  rw [← unnumber_number hi, ← unnumber_number hj, h]

theorem number_type {t u : IntTy} {i j : Int} (h : number t i = number u j) : t = u := by
  cases t <;> cases u <;> first | rfl | (cases h; done)

theorem small_sound {t : IntTy} {v : Nat} {i : Int} {s : ScVal} (h : Is objs v s) (hr : ofSmall t v = some i) :
    inType t i ∧ s = number t i := by
  obtain ⟨h1, h2, -⟩ := Props.C01_small_read_back t i v h.1.1 (by
    have := h.1.2
    unfold checkIntegrity at this
    cases hg : Val.isGood v with
    | true => rfl
    | false => rw [hg] at this; cases this) hr
  refine ⟨h1, ?_⟩
  unfold ofSmall at hr
  split at hr
  · rename_i ht
    have ht := hasTag_tag ht (by cases t <;> decide) (by cases t <;> decide) (by cases t <;> decide)
    injection hr with hr
    subst hr
    have h3 := is_small h (tag_isObject h.1 ht (by cases t <;> decide))
    unfold fromSmallVal at h3
    rw [ht] at h3
    cases t <;> simp only [IntTy.smallTag] at h3 <;> simp only [inType, inSmallRange, readSmall] at h1 h2 <;> injection h3 with h3 <;>
      subst h3 <;> simp only [readSmall]
    all_goals first
      | rfl
      | (unfold number; congr 1; done)
      | exact number_i128 (by omega)
      | exact number_i256 (by omega)
      | (unfold number; congr 1 <;> omega)
  · cases hr

theorem readNum_iff (hok : ObjsOk objs) {t : IntTy} {v : Nat} {s : ScVal} (h : Is objs v s) (i : Int) :
    readNum objs t v = .ok i ↔ inType t i ∧ s = number t i := by
  have snd : ∀ i, readNum objs t v = .ok i → inType t i ∧ s = number t i := by
    intro i hr
    unfold readNum at hr
    cases hs : ofSmall t v with
    | some j =>
      rw [hs] at hr
      cases hr
      exact small_sound h hs
    | none =>
      rw [hs] at hr
      dsimp only at hr
      have hr : ∃ o, visitObj objs v = .ok o ∧ objNum t o = .ok i := by
        cases t <;> first
          | (cases hr; done)
          | (obtain ⟨w, h1, hr1⟩ := bind_ok.mp hr
             obtain ⟨_, e⟩ := asObj_ok.1 h1
             rw [e] at hr1
             obtain ⟨o, h2, hr2⟩ := bind_ok.mp hr1
             exact ⟨o, h2, hr2⟩)
      obtain ⟨o, h2, hr⟩ := hr
      obtain ⟨_, ⟨d, hd⟩, _, h3⟩ := is_obj hok h h2
      cases t <;> cases o <;> first | (cases hr; done) | skip
      all_goals
        simp only [ObjOk] at h3
        injection hd with hd
        injection hr with hr
        subst hd
        first
          | rw [from_u128 h3] at hr
          | rw [from_i128 h3] at hr
          | rw [from_u256 h3] at hr
          | rw [from_i256 h3] at hr
          | skip
        subst hr
        first
          | exact ⟨h3, rfl⟩
          | exact ⟨⟨by omega, by omega⟩, rfl⟩
          | exact ⟨⟨by omega, by omega⟩, number_u128 h3⟩
          | exact ⟨h3, number_i128 h3⟩
          | exact ⟨⟨by omega, by omega⟩, number_u256 h3⟩
          | exact ⟨h3, number_i256 h3⟩
  refine ⟨snd i, ?_⟩
  rintro ⟨hi, rfl⟩
  have ex : ∃ j, readNum objs t v = .ok j := by
    unfold readNum
    cases hs : ofSmall t v with
    | some j => exact ⟨j, rfl⟩
    | none =>
      cases hv : Val.isObject v with
      | true =>
        obtain ⟨o, ho⟩ := sound_visit h.1 hv
        obtain ⟨h1, ⟨d, hd⟩, _, h3⟩ := is_obj hok h ho
        cases t <;> cases o <;> first
          | (cases hd; done)
          | (obtain ⟨_, _, h4⟩ := bind_ok.mp hd; cases h4; done)
          | exact ⟨_, bind_ok.mpr ⟨v, asObj_ok.2 ⟨h1.symm, rfl⟩, bind_ok.mpr ⟨_, ho, rfl⟩⟩⟩
      | false =>
        have h1 := is_small h hv
        exfalso
        unfold ofSmall at hs
        split at hs
        · cases hs
        · rename_i hn
          apply hn
          clear snd hs hi hn
          unfold fromSmallVal at h1
          cases t <;> unfold number at h1 <;> split at h1 <;>
            first | (cases h1; done) | (split at h1 <;> cases h1; done) | (rename_i ht; exact (hasTag_iff _ _).mpr (Props.tag_code ht (by decide)))
  obtain ⟨j, hj⟩ := ex
  obtain ⟨g1, g2⟩ := snd j hj
  rw [hj, number_inj hi g1 g2]

/-! ### writing -/

theorem number_inRange {t : IntTy} {i : Int} (h : inType t i) : XdrOk (number t i) := by
  refine ⟨?_, ?_⟩
  · cases t <;> simp only [inType] at h <;> simp only [number, InRange] <;> omega
  · cases t <;> intro x hx <;> cases hx

theorem writeNum_either {t : IntTy} {i : Int} {b : Bool} {w : Nat} {o : HostObj} (h1 : toSmall t i = if b then some w else none)
    (h2 : numObj t i = .ok o) : writeNum objs t i = if b then .ok (objs, w) else addObj objs o := by
  unfold writeNum
  rw [h1, h2]
  cases b <;> rfl

theorem toVal_either {s : ScVal} {b : Bool} {w : Nat} {o : HostObj} (h1 : canRepresent s = true) (h2 : needsObject s = !b)
    (h3 : toSmallVal s = smallOr b w) (h4 : ∀ rec cmp, toHostObj rec cmp objs s = addObj objs o) :
    toVal 1 objs s = if b then .ok (objs, w) else addObj objs o := by
  unfold toVal valTryFromScVal
  rw [h1, h2, h3, h4]
  cases b <;> rfl

theorem word_again (i : Int) : asU64 (asI64 (asU64 i)) = asU64 i := by
  have := (asU64_lt i)
  unfold asI64 asU64 at *
  dsimp only
  split <;> omega

theorem writeNum_eq {t : IntTy} {i : Int} (h : inType t i) : writeNum objs t i = toVal 1 objs (number t i) := by
  cases t
  case u32 => rfl
  case i32 => rfl
  case u64 =>
    rw [writeNum_either (b := isSmallU64 i.toNat) rfl rfl, toVal_either (b := isSmallU64 i.toNat) rfl rfl rfl (fun _ _ => rfl)]
  case timepoint =>
    rw [writeNum_either (b := isSmallU64 i.toNat) rfl rfl, toVal_either (b := isSmallU64 i.toNat) rfl rfl rfl (fun _ _ => rfl)]
  case duration =>
    rw [writeNum_either (b := isSmallU64 i.toNat) rfl rfl, toVal_either (b := isSmallU64 i.toNat) rfl rfl rfl (fun _ _ => rfl)]
  case i64 =>
    rw [writeNum_either (b := isSmallI64 i) rfl rfl, toVal_either (b := isSmallI64 i) rfl rfl rfl (fun _ _ => rfl)]
  case u128 =>
    obtain ⟨n, rfl⟩ := Int.eq_ofNat_of_zero_le h.1
    have hn : n < 2 ^ 128 := by have := h.2; omega
    rw [writeNum_either (b := isSmallUWide n) rfl rfl]
    have e := number_u128 hn
    rw [← e]
    have f := from_u128 hn
    rw [toVal_either (b := isSmallUWide n) (w := Val.fromBodyAndTag (n % 2 ^ 64) .U128Small) (o := .u128 n) rfl
      (by unfold needsObject; dsimp only; rw [f]) (by unfold toSmallVal; dsimp only; rw [f])
      (fun _ _ => by unfold toHostObj; dsimp only; rw [f])]
    rw [show ((n : Int)).toNat = n from rfl, f]
  case i128 =>
    rw [writeNum_either (b := isSmallIWide i) rfl rfl, ← number_i128 h]
    have f := from_i128 h
    rw [toVal_either (b := isSmallIWide i) (w := Val.fromBodyAndTag (asU64 i) .I128Small) (o := .i128 i) rfl
      (by unfold needsObject; dsimp only; rw [f]) (by unfold toSmallVal; dsimp only; rw [f, word_again])
      (fun _ _ => by unfold toHostObj; dsimp only; rw [f]), f]
  case u256 =>
    obtain ⟨n, rfl⟩ := Int.eq_ofNat_of_zero_le h.1
    have hn : n < 2 ^ 256 := by have := h.2; omega
    rw [writeNum_either (b := isSmallUWide n) rfl rfl]
    have e := number_u256 hn
    rw [← e]
    have f := from_u256 hn
    rw [toVal_either (b := isSmallUWide n) (w := Val.fromBodyAndTag (n % 2 ^ 64) .U256Small) (o := .u256 n) rfl
      (by unfold needsObject; dsimp only; rw [f]) (by unfold toSmallVal; dsimp only; rw [f]; rfl)
      (fun _ _ => by unfold toHostObj; dsimp only; rw [f])]
    rw [show ((n : Int)).toNat = n from rfl, f]
  case i256 =>
    rw [writeNum_either (b := isSmallIWide i) rfl rfl, ← number_i256 h]
    have f := from_i256 h
    rw [toVal_either (b := isSmallIWide i) (w := Val.fromBodyAndTag (asU64 (asI64 (asU64 i))) .I256Small) (o := .i256 i) rfl
      (by unfold needsObject; dsimp only; rw [f]) (by unfold toSmallVal; dsimp only; rw [f, word_again]; rfl)
      (fun _ _ => by unfold toHostObj; dsimp only; rw [f]), f]

theorem leaf_made (ho : ObjsOk objs) {s : ScVal} (hx : XdrOk s) {objs' : List HostObj} {v : Nat} (h : toVal 1 objs s = .ok (objs', v))
    (hl : objs'.length ≤ 2 ^ 31) : Made objs objs' v s := by
  obtain ⟨h1, h2⟩ := toVal_conv ho hx hl h
  exact ⟨toVal_prefix h, h1, h2.sound, 1, h2.back⟩

theorem errorOk_xdr {t c : Nat} (h : ErrorOk t c) : XdrOk (.error t c) := ⟨h, fun x hx => by cases hx⟩

mutual
theorem write_made : ∀ {t : Ty} {x : RVal} {objs objs' : List HostObj} {v : Nat}, Has t x → ObjsOk objs → write objs x = .ok (objs', v) →
    objs'.length ≤ 2 ^ 31 → Made objs objs' v (meaning x)
  | t, .unit, _, _, _, _, ho, h, hl => leaf_made (s := .void) ho ⟨trivial, fun x hx => by cases hx⟩ h hl
  | t, .bool b, _, _, _, _, ho, h, hl => leaf_made (s := .bool b) ho ⟨trivial, fun x hx => by cases hx⟩ h hl
  | t, .none, _, _, _, _, ho, h, hl => leaf_made (s := .void) ho ⟨trivial, fun x hx => by cases hx⟩ h hl
  | t, .num t' i, _, _, _, ht, ho, h, hl => by
    have hi : inType t' i := by
      cases t <;> first | (cases ht; done) | (obtain ⟨rfl, h2⟩ := ht; exact h2)
    unfold write at h
    rw [writeNum_eq hi] at h
    exact leaf_made ho (number_inRange hi) h hl
  | t, .error a c, _, _, _, ht, ho, h, hl => by
    have he : ErrorOk a c := by cases t <;> first | (cases ht; done) | exact ht
    exact leaf_made ho (errorOk_xdr he) h hl
  | t, .err a c, _, _, _, ht, ho, h, hl => by
    have he : ErrorOk a c := by cases t <;> first | (cases ht; done) | exact ht
    exact leaf_made ho (errorOk_xdr he) h hl
  | t, .some x, _, _, _, ht, ho, h, hl => by
    obtain ⟨u, hu⟩ : ∃ u, Has u x := by cases t <;> first | (cases ht; done) | exact ⟨_, ht⟩
    unfold write at h
    have r : Made _ _ _ (meaning x) := write_made hu ho h hl
    unfold meaning
    exact r
  | t, .ok x, _, _, _, ht, ho, h, hl => by
    obtain ⟨u, hu⟩ : ∃ u, Has u x := by cases t <;> first | (cases ht; done) | exact ⟨_, ht⟩
    unfold write at h
    have r : Made _ _ _ (meaning x) := write_made hu ho h hl
    unfold meaning
    exact r
  | t, .tup xs, _, _, _, ht, ho, h, hl => by
    obtain ⟨ts, hu⟩ : ∃ ts, HasAll ts xs := by cases t <;> first | (cases ht; done) | exact ⟨_, ht⟩
    unfold write at h
    obtain ⟨⟨o1, vs⟩, h1, h2⟩ := bind_ok.mp h
    obtain ⟨e, he⟩ := newVec_grown h2
    obtain ⟨g1, g2, g3⟩ := writeAll_made hu ho h1 (by rw [he, List.length_append] at hl; omega)
    have := newVec_made g2 g3 h2 hl
    exact ⟨grown_trans g1 this.grown, this.good, this.is⟩
theorem writeAll_made : ∀ {ts : List Ty} {xs : List RVal} {objs objs' : List HostObj} {vs : List Nat}, HasAll ts xs → ObjsOk objs →
    writeAll objs xs = .ok (objs', vs) → objs'.length ≤ 2 ^ 31 →
    (∃ e, objs' = objs ++ e) ∧ ObjsOk objs' ∧ List.Forall₂ (Is objs') vs (meanings xs)
  | _, [], _, _, _, _, ho, h, hl => by
    cases h
    exact ⟨⟨[], by simp⟩, ho, .nil⟩
  | ts, x :: xs, _, _, _, ht, ho, h, hl => by
    obtain ⟨t, ts, rfl, h1, h2⟩ : ∃ t us, ts = t :: us ∧ Has t x ∧ HasAll us xs := by
      cases ts with
      | nil => cases ht
      | cons t us => exact ⟨t, us, rfl, ht⟩
    unfold writeAll at h
    obtain ⟨⟨o1, v⟩, g1, g2⟩ := bind_ok.mp h
    obtain ⟨⟨o2, vs⟩, g3, g4⟩ := bind_ok.mp g2
    cases g4
    obtain ⟨e, he⟩ := writeAll_grown g3
    have m1 := write_made h1 ho g1 (by rw [he, List.length_append] at hl; omega)
    obtain ⟨k1, k2, k3⟩ := writeAll_made h2 m1.good g3 hl
    refine ⟨grown_trans m1.grown k1, k2, .cons ?_ k3⟩
    obtain ⟨e', rfl⟩ := k1
    exact m1.is.append e'
theorem write_grown : ∀ {x : RVal} {objs objs' : List HostObj} {v : Nat}, write objs x = .ok (objs', v) → ∃ e, objs' = objs ++ e
  | .unit, _, _, _, h | .bool b, _, _, _, h | .none, _, _, _, h | .error a c, _, _, _, h | .err a c, _, _, _, h => by
    unfold write at h
    cases h
    exact ⟨[], by simp⟩
  | .num t i, _, _, _, h => by
    unfold write writeNum at h
    split at h
    · cases h
      exact ⟨[], by simp⟩
    · obtain ⟨o, _, h2⟩ := bind_ok.mp h
      exact addObj_grown h2
  | .some x, _, _, _, h => by unfold write at h; exact write_grown h
  | .ok x, _, _, _, h => by unfold write at h; exact write_grown h
  | .tup xs, _, _, _, h => by
    unfold write at h
    obtain ⟨⟨o1, vs⟩, h1, h2⟩ := bind_ok.mp h
    exact grown_trans (writeAll_grown h1) (newVec_grown h2)
theorem writeAll_grown : ∀ {xs : List RVal} {objs objs' : List HostObj} {vs : List Nat}, writeAll objs xs = .ok (objs', vs) →
    ∃ e, objs' = objs ++ e
  | [], _, _, _, h => by unfold writeAll at h; cases h; exact ⟨[], by simp⟩
  | x :: xs, _, _, _, h => by
    unfold writeAll at h
    obtain ⟨⟨o1, v⟩, g1, g2⟩ := bind_ok.mp h
    obtain ⟨⟨o2, vs⟩, g3, g4⟩ := bind_ok.mp g2
    cases g4
    exact grown_trans (write_grown g1) (writeAll_grown g3)
end

theorem sizes_len : ∀ {xs : List RVal}, xs.length ≤ sizes xs
  | [] => by simp
  | x :: xs => by
    have := sizes_len (xs := xs)
    have hp : ∀ y : RVal, 1 ≤ size y := by
      intro y
      induction y using RVal.rec (motive_2 := fun _ => True) <;> first | trivial | (simp only [size]; omega)
    have := hp x
    rw [sizes, List.length_cons]
    omega

mutual
theorem write_ok : ∀ {t : Ty} {x : RVal} {objs : List HostObj}, Has t x → ObjsOk objs → objs.length + size x ≤ 2 ^ 31 →
    ∃ objs' v, write objs x = .ok (objs', v) ∧ objs'.length ≤ objs.length + size x
  | _, .unit, _, _, _, _ | _, .bool b, _, _, _, _ | _, .none, _, _, _, _ | _, .error a c, _, _, _, _ | _, .err a c, _, _, _, _ => by
    unfold write
    exact ⟨_, _, rfl, by omega⟩
  | t, .num t' i, objs, ht, ho, hl => by
    have hi : inType t' i := by
      cases t <;> first | (cases ht; done) | (obtain ⟨rfl, h2⟩ := ht; exact h2)
    unfold write writeNum
    cases hs : toSmall t' i with
    | some v => exact ⟨_, _, rfl, by omega⟩
    | none =>
      have hl' : objs.length < 2 ^ 31 := by unfold size at hl; omega
      have : ∃ o, numObj t' i = .ok o := by cases t' <;> first | exact ⟨_, rfl⟩ | (cases hs; done)
      obtain ⟨o, h1⟩ := this
      obtain ⟨v, h2⟩ := addObj_ok o hl'
      refine ⟨_, v, bind_ok.mpr ⟨o, h1, h2⟩, ?_⟩
      unfold size
      simp
  | t, .some x, _, ht, ho, hl => by
    obtain ⟨u, hu⟩ : ∃ u, Has u x := by cases t <;> first | (cases ht; done) | exact ⟨_, ht⟩
    unfold size at hl ⊢
    unfold write
    exact write_ok hu ho hl
  | t, .ok x, _, ht, ho, hl => by
    obtain ⟨u, hu⟩ : ∃ u, Has u x := by cases t <;> first | (cases ht; done) | exact ⟨_, ht⟩
    unfold size at hl ⊢
    unfold write
    exact write_ok hu ho hl
  | t, .tup xs, objs, ht, ho, hl => by
    obtain ⟨ts, hu⟩ : ∃ ts, HasAll ts xs := by cases t <;> first | (cases ht; done) | exact ⟨_, ht⟩
    unfold size at hl ⊢
    obtain ⟨o1, vs, h1, h2⟩ := writeAll_ok hu ho (by omega)
    obtain ⟨-, g2, g3⟩ := writeAll_made hu ho h1 (by omega)
    have hlen : vs.length = xs.length := by
      rw [g3.length_eq]
      exact meanings_len xs
    have := sizes_len (xs := xs)
    obtain ⟨v, h3⟩ := addObj_ok (.vec vs) (os := o1) (by omega)
    refine ⟨o1 ++ [.vec vs], v, ?_, ?_⟩
    · unfold write
      refine bind_ok.mpr ⟨_, h1, ?_⟩
      refine bind_ok.mpr ⟨(), SacValues.checkAll_ok g3, bind_ok.mpr ⟨vs, ?_, h3⟩⟩
      unfold vecFromIter
      rw [if_neg (by unfold u32Max; omega)]
    · rw [List.length_append, List.length_singleton]; omega
theorem writeAll_ok : ∀ {ts : List Ty} {xs : List RVal} {objs : List HostObj}, HasAll ts xs → ObjsOk objs → objs.length + sizes xs ≤ 2 ^ 31 →
    ∃ objs' vs, writeAll objs xs = .ok (objs', vs) ∧ objs'.length ≤ objs.length + sizes xs
  | _, [], _, _, _, _ => ⟨_, _, rfl, by omega⟩
  | ts, x :: xs, objs, ht, ho, hl => by
    obtain ⟨t, ts, rfl, h1, h2⟩ : ∃ t us, ts = t :: us ∧ Has t x ∧ HasAll us xs := by
      cases ts with
      | nil => cases ht
      | cons t us => exact ⟨t, us, rfl, ht⟩
    unfold sizes at hl ⊢
    obtain ⟨o1, v, g1, g2⟩ := write_ok h1 ho (by omega)
    have m1 := write_made h1 ho g1 (by omega)
    obtain ⟨o2, vs, g3, g4⟩ := writeAll_ok h2 m1.good (by omega)
    exact ⟨o2, v :: vs, bind_ok.mpr ⟨_, g1, bind_ok.mpr ⟨_, g3, rfl⟩⟩, by omega⟩
theorem meanings_len : ∀ xs : List RVal, (meanings xs).length = xs.length
  | [] => rfl
  | x :: xs => by rw [meanings, List.length_cons, List.length_cons, meanings_len xs]
end

/-! ### reading -/

theorem small_of {v : Nat} {s : ScVal} (hok : ObjsOk objs) (h : Is objs v s) (hn : ∀ o d, fromHostObj (fromVal false objs d) false o ≠ .ok s) :
    fromSmallVal v = .ok s := by
  cases hv : Val.isObject v with
  | false => exact is_small h hv
  | true =>
    obtain ⟨o, ho⟩ := sound_visit h.1 hv
    obtain ⟨-, ⟨d, hd⟩, -⟩ := is_obj hok h ho
    exact absurd hd (hn o d)

theorem obj_ne_void (o : HostObj) (rec : Nat → Res ScVal) : fromHostObj rec false o ≠ .ok .void := by
  intro h
  cases o <;> first | (cases h; done) | (obtain ⟨_, _, h4⟩ := bind_ok.mp h; cases h4; done)

theorem obj_ne_error (o : HostObj) (rec : Nat → Res ScVal) (a b : Nat) : fromHostObj rec false o ≠ .ok (.error a b) := by
  intro h
  cases o <;> first | (cases h; done) | (obtain ⟨_, _, h4⟩ := bind_ok.mp h; cases h4; done)

theorem tag_void (hok : ObjsOk objs) {v : Nat} {s : ScVal} (h : Is objs v s) : Val.tag v = .Void ↔ s = .void := by
  constructor
  · intro ht
    have h1 := is_small h (tag_isObject h.1 ht (by decide))
    unfold fromSmallVal at h1
    rw [ht] at h1
    cases h1; rfl
  · rintro rfl
    have h1 := small_of hok h (fun o d => obj_ne_void o _)
    unfold fromSmallVal at h1
    split at h1 <;> first | assumption | (cases h1; done) | (split at h1 <;> cases h1; done)

theorem word_void (hok : ObjsOk objs) {v : Nat} {s : ScVal} (h : Is objs v s) : v = valVoid ↔ s = .void := by
  rw [← tag_void hok h]
  constructor
  · rintro rfl; decide
  · intro ht
    have h1 := h.1.2
    unfold checkIntegrity at h1
    have hg : Val.isGood v = true := by
      cases hg : Val.isGood v with
      | true => rfl
      | false => rw [hg] at h1; cases h1
    unfold Val.isGood at hg
    rw [ht] at hg
    simp only [Val.goodFor, beq_iff_eq] at hg
    have h2 := Props.tag_code ht (by decide)
    have h3 : v / 256 = 0 := by
      unfold Val.body at hg
      rw [Nat.shiftRight_eq_div_pow] at hg
      exact hg
    rw [show Tag.Void.code = 2 from rfl] at h2
    have : v = 2 := by omega
    rw [this]; decide

theorem tag_error (hok : ObjsOk objs) {v : Nat} {s : ScVal} (h : Is objs v s) :
    (Val.tag v = .Error → s = .error (Val.minor v) (Val.major v) ∧ ErrorOk (Val.minor v) (Val.major v)) ∧
    (∀ a b, s = .error a b → Val.tag v = .Error) := by
  constructor
  · intro ht
    have h1 := is_small h (tag_isObject h.1 ht (by decide))
    unfold fromSmallVal at h1
    rw [ht] at h1
    dsimp only at h1
    split at h1
    · rename_i hv
      injection h1 with h1
      refine ⟨h1.symm, ?_⟩
      have hmaj : Val.major v < 2 ^ 32 := by unfold Val.major; omega
      unfold errorIsValid at hv
      unfold ErrorOk
      split at hv
      · rename_i h0; rw [h0]; exact ⟨by omega, hmaj, Or.inl rfl⟩
      · split at hv
        · rename_i h10
          have : Val.major v < 10 := by simpa using hv
          exact ⟨h10, hmaj, Or.inr this⟩
        · cases hv
    · cases h1
  · rintro a b rfl
    have h1 := small_of hok h (fun o d => obj_ne_error o _ a b)
    unfold fromSmallVal at h1
    split at h1 <;> first | assumption | (cases h1; done)

/-- What reading a value does, for the value it denotes. -/
structure Reads (t : Ty) (objs : List HostObj) (v : Nat) (s : ScVal) : Prop where
  sound : ∀ x, read objs t v = .ok x → Has t x ∧ meaning x = s
  complete : ∀ x, Has t x → meaning x = s → ∃ y, read objs t v = .ok y

mutual
theorem read_spec (hok : ObjsOk objs) : ∀ {t : Ty} {v : Nat} {s : ScVal}, Is objs v s → Reads t objs v s
  | .unit, v, s, h => by
    refine ⟨fun x hr => ?_, fun x hx hm => ?_⟩
    · unfold read at hr
      split at hr <;> cases hr
      rename_i ht
      exact ⟨trivial, ((tag_void hok h).mp ht).symm⟩
    · cases x <;> first | (cases hx; done) | skip
      unfold read
      rw [if_pos ((tag_void hok h).mpr hm.symm)]
      exact ⟨_, rfl⟩
  | .bool, v, s, h => by
    refine ⟨fun x hr => ?_, fun x hx hm => ?_⟩
    · unfold read at hr
      obtain ⟨b, h1, h2⟩ := bind_ok.mp hr
      cases h2
      exact ⟨trivial, ((asBool_iff hok h).mp h1).symm⟩
    · cases x <;> first | (cases hx; done) | skip
      unfold read
      exact ⟨_, bind_ok.mpr ⟨_, (asBool_iff hok h).mpr hm.symm, rfl⟩⟩
  | .num t, v, s, h => by
    refine ⟨fun x hr => ?_, fun x hx hm => ?_⟩
    · unfold read at hr
      obtain ⟨i, h1, h2⟩ := bind_ok.mp hr
      cases h2
      obtain ⟨g1, g2⟩ := (readNum_iff hok h i).mp h1
      exact ⟨⟨rfl, g1⟩, g2.symm⟩
    · cases x <;> first | (cases hx; done) | skip
      obtain ⟨rfl, hi⟩ := hx
      unfold read
      exact ⟨_, bind_ok.mpr ⟨_, (readNum_iff hok h _).mpr ⟨hi, hm.symm⟩, rfl⟩⟩
  | .error, v, s, h => by
    refine ⟨fun x hr => ?_, fun x hx hm => ?_⟩
    · unfold read at hr
      split at hr <;> cases hr
      rename_i ht
      obtain ⟨g1, g2⟩ := (tag_error hok h).1 ht
      exact ⟨g2, g1.symm⟩
    · cases x <;> first | (cases hx; done) | skip
      unfold read
      rw [if_pos ((tag_error hok h).2 _ _ hm.symm)]
      exact ⟨_, rfl⟩
  | .opt t, v, s, h => by
    have ih := read_spec hok (t := t) h
    refine ⟨fun x hr => ?_, fun x hx hm => ?_⟩
    · unfold read at hr
      by_cases hv : v = valVoid
      · rw [if_pos hv] at hr
        cases hr
        exact ⟨trivial, ((word_void hok h).mp hv).symm⟩
      · rw [if_neg hv] at hr
        obtain ⟨y, h1, h2⟩ := bind_ok.mp hr
        cases h2
        obtain ⟨g1, g2⟩ := ih.sound y h1
        exact ⟨g1, by unfold meaning; exact g2⟩
    · unfold read
      by_cases hv : v = valVoid
      · rw [if_pos hv]; exact ⟨_, rfl⟩
      · rw [if_neg hv]
        cases x <;> first | (cases hx; done) | skip
        · exact absurd ((word_void hok h).mpr hm.symm) hv
        · unfold meaning at hm
          obtain ⟨y, hy⟩ := ih.complete _ hx hm
          exact ⟨_, bind_ok.mpr ⟨_, hy, rfl⟩⟩
  | .res t, v, s, h => by
    have ih := read_spec hok (t := t) h
    refine ⟨fun x hr => ?_, fun x hx hm => ?_⟩
    · unfold read at hr
      by_cases hv : Val.tag v = .Error
      · rw [if_pos hv] at hr
        cases hr
        obtain ⟨g1, g2⟩ := (tag_error hok h).1 hv
        exact ⟨g2, g1.symm⟩
      · rw [if_neg hv] at hr
        obtain ⟨y, h1, h2⟩ := bind_ok.mp hr
        cases h2
        obtain ⟨g1, g2⟩ := ih.sound y h1
        exact ⟨g1, by unfold meaning; exact g2⟩
    · unfold read
      by_cases hv : Val.tag v = .Error
      · rw [if_pos hv]; exact ⟨_, rfl⟩
      · rw [if_neg hv]
        cases x <;> first | (cases hx; done) | skip
        · unfold meaning at hm
          obtain ⟨y, hy⟩ := ih.complete _ hx hm
          exact ⟨_, bind_ok.mpr ⟨_, hy, rfl⟩⟩
        · exact absurd ((tag_error hok h).2 _ _ hm.symm) hv
  | .tup ts, v, s, h => by
    refine ⟨fun x hr => ?_, fun x hx hm => ?_⟩
    · unfold read at hr
      obtain ⟨w, h1, hr1⟩ := bind_ok.mp hr
      obtain ⟨_, e⟩ := asObj_ok.1 h1
      rw [e] at hr1
      obtain ⟨l, h2, hr2⟩ := bind_ok.mp hr1
      obtain ⟨ss, rfl, h3⟩ := is_vec hok h h2
      split at hr2
      · cases hr2
      · rename_i hl
        obtain ⟨xs, h4, h5⟩ := bind_ok.mp hr2
        cases h5
        obtain ⟨g1, g2⟩ := (readAll_spec hok h3 (by omega)).1 xs h4
        exact ⟨g1, by unfold meaning; rw [g2]⟩
    · cases x <;> first | (cases hx; done) | skip
      rename_i xs
      unfold meaning at hm
      subst hm
      obtain ⟨g1, vs, g2, g3⟩ := vec_is hok h
      have hl : ∀ {ts : List Ty} {xs : List RVal}, HasAll ts xs → ts.length = xs.length := by
        intro ts
        induction ts with
        | nil => intro xs h; cases xs <;> first | rfl | (cases h; done)
        | cons t ts ih => intro xs h; cases xs with
          | nil => cases h
          | cons x xs => rw [List.length_cons, List.length_cons, ih h.2]
      have hlen : vs.length = ts.length := by
        rw [g3.length_eq, meanings_len, hl hx]
      obtain ⟨ys, hy⟩ := (readAll_spec hok g3 hlen).2 xs hx rfl
      unfold read
      refine ⟨.tup ys, bind_ok.mpr ⟨v, asObj_ok.2 ⟨g1, rfl⟩, bind_ok.mpr ⟨vs, g2, ?_⟩⟩⟩
      · rw [if_neg (by omega)]
        exact bind_ok.mpr ⟨ys, hy, rfl⟩
theorem readAll_spec (hok : ObjsOk objs) : ∀ {ts : List Ty} {vs : List Nat} {ss : List ScVal}, List.Forall₂ (Is objs) vs ss →
    vs.length = ts.length → (∀ xs, readAll objs ts vs = .ok xs → HasAll ts xs ∧ meanings xs = ss) ∧
      (∀ xs, HasAll ts xs → meanings xs = ss → ∃ ys, readAll objs ts vs = .ok ys)
  | [], [], [], .nil, _ => by
    refine ⟨fun xs h => ?_, fun xs _ _ => ⟨_, rfl⟩⟩
    unfold readAll at h
    cases h
    exact ⟨trivial, rfl⟩
  | [], _ :: _, _, _, h => by cases h
  | _ :: _, [], _, _, h => by cases h
  | t :: ts, v :: vs, s :: ss, .cons h hs, hl => by
    have i1 := read_spec hok (t := t) h
    obtain ⟨i2, i3⟩ := readAll_spec hok (ts := ts) hs (by simpa using hl)
    refine ⟨fun xs hr => ?_, fun xs hx hm => ?_⟩
    · unfold readAll at hr
      obtain ⟨x, h1, h2⟩ := bind_ok.mp hr
      obtain ⟨xs', h3, h4⟩ := bind_ok.mp h2
      cases h4
      obtain ⟨a1, a2⟩ := i1.sound x h1
      obtain ⟨b1, b2⟩ := i2 xs' h3
      exact ⟨⟨a1, b1⟩, by rw [meanings, a2, b2]⟩
    · cases xs with
      | nil => cases hx
      | cons x xs =>
        rw [meanings] at hm
        injection hm with m1 m2
        obtain ⟨y, hy⟩ := i1.complete x hx.1 m1
        obtain ⟨ys, hys⟩ := i3 xs hx.2 m2
        exact ⟨y :: ys, bind_ok.mpr ⟨_, hy, bind_ok.mpr ⟨_, hys, rfl⟩⟩⟩
end

/-! ### which types are told apart -/

theorem number_ne (t : IntTy) (i : Int) : number t i ≠ .void ∧ (∀ a b, number t i ≠ .error a b) ∧ ∀ l, number t i ≠ .vec l := by
  cases t <;> exact ⟨(fun h => by cases h), (fun a b h => by cases h), fun l h => by cases h⟩

theorem void_can : ∀ {t : Ty} {x : RVal}, Has t x → meaning x = .void → CanBeVoid t
  | .unit, _, _, _ => trivial
  | .opt _, _, _, _ => trivial
  | .res t, .ok x, h, hm => by unfold meaning at hm; exact void_can (t := t) h hm
  | .res _, .err _ _, _, hm => by cases hm
  | .num t, .num _ i, _, hm => by unfold meaning at hm; exact absurd hm (number_ne _ _).1
  | .bool, .bool _, _, hm | .error, .error _ _, _, hm | .tup _, .tup _, _, hm => by unfold meaning at hm; cases hm

theorem can_void : ∀ {t : Ty}, CanBeVoid t → ∃ x, Has t x ∧ meaning x = .void
  | .unit, _ => ⟨.unit, trivial, rfl⟩
  | .opt _, _ => ⟨.none, trivial, rfl⟩
  | .res t, h => by
    obtain ⟨x, h1, h2⟩ := can_void (t := t) h
    exact ⟨.ok x, h1, by unfold meaning; exact h2⟩

theorem error_can : ∀ {t : Ty} {x : RVal} {a b : Nat}, Has t x → meaning x = .error a b → CanBeError t
  | .error, _, _, _, _, _ => trivial
  | .res _, _, _, _, _, _ => trivial
  | .opt t, .some x, _, _, h, hm => by unfold meaning at hm; exact error_can (t := t) h hm
  | .opt _, .none, _, _, _, hm => by cases hm
  | .num t, .num _ i, _, _, _, hm => by unfold meaning at hm; exact absurd hm ((number_ne _ _).2.1 _ _)
  | .bool, .bool _, _, _, _, hm | .unit, .unit, _, _, _, hm | .tup _, .tup _, _, _, _, hm => by unfold meaning at hm; cases hm

theorem can_error : ∀ {t : Ty}, CanBeError t → ∃ x, Has t x ∧ meaning x = .error 0 0
  | .error, _ => ⟨.error 0 0, ⟨by omega, by omega, Or.inl rfl⟩, rfl⟩
  | .res _, _ => ⟨.err 0 0, ⟨by omega, by omega, Or.inl rfl⟩, rfl⟩
  | .opt t, h => by
    obtain ⟨x, h1, h2⟩ := can_error (t := t) h
    exact ⟨.some x, h1, by unfold meaning; exact h2⟩

mutual
theorem plain_inj : ∀ {t : Ty}, Plain t → ∀ {x y : RVal}, Has t x → Has t y → meaning x = meaning y → x = y
  | .unit, _, .unit, .unit, _, _, _ => rfl
  | .bool, _, .bool _, .bool _, _, _, h => by unfold meaning at h; cases h; rfl
  | .num t, _, .num _ _, .num _ _, hx, hy, h => by
    unfold meaning at h
    obtain ⟨rfl, h1⟩ := hx
    obtain ⟨rfl, h2⟩ := hy
    rw [number_inj h1 h2 h]
  | .error, _, .error _ _, .error _ _, _, _, h => by unfold meaning at h; cases h; rfl
  | .opt _, _, .none, .none, _, _, _ => rfl
  | .opt t, hp, .none, .some y, _, hy, h => by
    unfold meaning at h
    exact absurd (void_can (t := t) hy h.symm) hp.1
  | .opt t, hp, .some x, .none, hx, _, h => by
    unfold meaning at h
    exact absurd (void_can (t := t) hx h) hp.1
  | .opt t, hp, .some x, .some y, hx, hy, h => by
    rw [meaning, meaning] at h
    rw [plain_inj (t := t) hp.2 hx hy h]
  | .res t, hp, .ok x, .ok y, hx, hy, h => by
    rw [meaning, meaning] at h
    rw [plain_inj (t := t) hp.2 hx hy h]
  | .res t, hp, .ok x, .err _ _, hx, _, h => by
    unfold meaning at h
    exact absurd (error_can (t := t) hx h) hp.1
  | .res t, hp, .err _ _, .ok y, _, hy, h => by
    unfold meaning at h
    exact absurd (error_can (t := t) hy h.symm) hp.1
  | .res _, _, .err _ _, .err _ _, _, _, h => by unfold meaning at h; cases h; rfl
  | .tup ts, hp, .tup xs, .tup ys, hx, hy, h => by
    rw [meaning, meaning] at h
    injection h with h
    injection h with h
    rw [plainAll_inj (ts := ts) hp hx hy h]
theorem plainAll_inj : ∀ {ts : List Ty}, PlainAll ts → ∀ {xs ys : List RVal}, HasAll ts xs → HasAll ts ys → meanings xs = meanings ys → xs = ys
  | [], _, [], [], _, _, _ => rfl
  | t :: ts, hp, x :: xs, y :: ys, hx, hy, h => by
    rw [meanings, meanings] at h
    injection h with h1 h2
    rw [plain_inj hp.1 hx.1 hy.1 h1, plainAll_inj hp.2 hx.2 hy.2 h2]
end

theorem zero_in (t : IntTy) : inType t 0 := by cases t <;> simp [inType]

mutual
theorem inhabited : ∀ t : Ty, ∃ x, Has t x
  | .unit => ⟨.unit, trivial⟩
  | .bool => ⟨.bool true, trivial⟩
  | .num t => ⟨.num t 0, rfl, zero_in t⟩
  | .error => ⟨.error 0 0, by omega, by omega, Or.inl rfl⟩
  | .opt _ => ⟨.none, trivial⟩
  | .res _ => ⟨.err 0 0, by omega, by omega, Or.inl rfl⟩
  | .tup ts => by obtain ⟨xs, h⟩ := inhabitedAll ts; exact ⟨.tup xs, h⟩
theorem inhabitedAll : ∀ ts : List Ty, ∃ xs, HasAll ts xs
  | [] => ⟨[], trivial⟩
  | t :: ts => by
    obtain ⟨x, h⟩ := inhabited t
    obtain ⟨xs, h'⟩ := inhabitedAll ts
    exact ⟨x :: xs, h, h'⟩
end

mutual
theorem ambiguous : ∀ {t : Ty}, ¬ Plain t → ∃ x y, Has t x ∧ Has t y ∧ x ≠ y ∧ meaning x = meaning y
  | .unit, h | .bool, h | .num _, h | .error, h => absurd trivial h
  | .opt t, h => by
    by_cases hc : CanBeVoid t
    · obtain ⟨x, h1, h2⟩ := can_void hc
      exact ⟨.none, .some x, trivial, h1, (fun e => by cases e), by rw [meaning, meaning, h2]⟩
    · obtain ⟨x, y, h1, h2, h3, h4⟩ := ambiguous (t := t) (fun hp => h ⟨hc, hp⟩)
      exact ⟨.some x, .some y, h1, h2, (fun e => h3 (by injection e)), by rw [meaning, meaning, h4]⟩
  | .res t, h => by
    by_cases hc : CanBeError t
    · obtain ⟨x, h1, h2⟩ := can_error hc
      exact ⟨.err 0 0, .ok x, ⟨by omega, by omega, Or.inl rfl⟩, h1, (fun e => by cases e), by rw [meaning, meaning, h2]⟩
    · obtain ⟨x, y, h1, h2, h3, h4⟩ := ambiguous (t := t) (fun hp => h ⟨hc, hp⟩)
      exact ⟨.ok x, .ok y, h1, h2, (fun e => h3 (by injection e)), by rw [meaning, meaning, h4]⟩
  | .tup ts, h => by
    obtain ⟨xs, ys, h1, h2, h3, h4⟩ := ambiguousAll (ts := ts) h
    exact ⟨.tup xs, .tup ys, h1, h2, (fun e => h3 (by injection e)), by rw [meaning, meaning, h4]⟩
theorem ambiguousAll : ∀ {ts : List Ty}, ¬ PlainAll ts → ∃ xs ys, HasAll ts xs ∧ HasAll ts ys ∧ xs ≠ ys ∧ meanings xs = meanings ys
  | [], h => absurd trivial h
  | t :: ts, h => by
    by_cases hp : Plain t
    · obtain ⟨xs, ys, h1, h2, h3, h4⟩ := ambiguousAll (ts := ts) (fun hq => h ⟨hp, hq⟩)
      obtain ⟨x, hx⟩ := inhabited t
      exact ⟨x :: xs, x :: ys, ⟨hx, h1⟩, ⟨hx, h2⟩, (fun e => h3 (by injection e)), by rw [meanings, meanings, h4]⟩
    · obtain ⟨x, y, h1, h2, h3, h4⟩ := ambiguous hp
      obtain ⟨xs, hx⟩ := inhabitedAll ts
      exact ⟨x :: xs, y :: xs, ⟨h1, hx⟩, ⟨h2, hx⟩, (fun e => h3 (by injection e)), by rw [meanings, meanings, h4]⟩
end

end Soroban.Rust
