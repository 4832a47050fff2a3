import Verif.Spec.SacValues
import Verif.Lemmas.Contexts
import Verif.Lemmas.SacCalls
/-!
The values of calls of the asset contract: arguments, results and events.
-/
namespace Soroban.SacValues
open Soroban Soroban.Spec Soroban.Sac Soroban.ContractTypes Soroban.ContractTypes.Spec Soroban.SacValues.Spec
open Soroban.Auth (Addr)
open Soroban.Strkey (visitAddress)

variable {objs objs' : List HostObj}

theorem pieces_eq {i : Int} (h : Fits i) : ScVal.i128 (i128Hi i) (i128Lo i) = int128 i := by
  obtain ⟨h1, h2⟩ := h
  have e1 : i128Hi i = i / 2 ^ 64 := (asI64_asU64_eq _).2 (by omega)
  have e2 : i128Lo i = (i % 2 ^ 64).toNat := by unfold i128Lo asU64; omega
  rw [e1, e2]; rfl

theorem fromPieces_eq {i : Int} (h : Fits i) : i128FromPieces (i128Hi i) (i128Lo i) = i := by
  obtain ⟨h1, h2⟩ := h
  have e1 : i128Hi i = i / 2 ^ 64 := (asI64_asU64_eq _).2 (by omega)
  have e2 : i128Lo i = (i % 2 ^ 64).toNat := by unfold i128Lo asU64; omega
  rw [e1, e2]; unfold i128FromPieces; omega

theorem int128_inj {a b : Int} (h : int128 a = int128 b) : a = b := by
  unfold int128 at h
  injection h with h1 h2
  omega

theorem address_inj {a b : Addr} (h : address a = address b) : a = b := by
  cases a <;> cases b <;> simp only [address, ScVal.address.injEq, ScAddr.account.injEq, ScAddr.contract.injEq, reduceCtorEq] at h <;> rw [h]

/-- A value that is no object. -/
theorem is_small {v : Nat} {s : ScVal} (h : Is objs v s) (hv : Val.isObject v = false) : fromSmallVal v = .ok s := by
  obtain ⟨_, d, hd⟩ := h
  cases d with
  | zero => cases hd
  | succ d =>
    have := fromVal_succ hd
    unfold scValTryFromVal at this
    rwa [if_neg (by rw [hv]; decide)] at this

theorem small_is {v : Nat} {s : ScVal} (h : SmallFor s v) (hc : canRepresent s = true) : Is objs v s := by
  obtain ⟨s1, s2, s3, s4⟩ := h
  refine ⟨⟨s1, ?_⟩, 1, ?_⟩
  · unfold checkIntegrity
    rw [if_neg (by simp [s2]), if_neg (by simp [s3])]
  · rw [fromVal]
    unfold scValTryFromVal
    rw [if_neg (by simp [s3]), s4]
    simp [bind, Except.bind, checkRepresentable, hc]

theorem asAddr_iff (hok : ObjsOk objs) {v : Nat} {s : ScVal} {a : Addr} (h : Is objs v s) : asAddr objs v = .ok a ↔ s = address a := by
  constructor
  · intro hr
    unfold asAddr at hr
    obtain ⟨w, h1, hr1⟩ := bind_ok.mp hr
    obtain ⟨_, e⟩ := asObj_ok.1 h1
    rw [e] at hr1
    obtain ⟨x, h2, hr2⟩ := bind_ok.mp hr1
    obtain ⟨rfl, _⟩ := is_address hok h h2
    cases x <;> cases hr2 <;> rfl
  · rintro rfl
    cases a with
    | account k =>
      obtain ⟨h1, h2⟩ := address_is hok h (Or.inl ⟨k, rfl⟩)
      exact bind_ok.mpr ⟨v, asObj_ok.2 ⟨h1, rfl⟩, bind_ok.mpr ⟨_, h2, rfl⟩⟩
    | contract k =>
      obtain ⟨h1, h2⟩ := address_is hok h (Or.inr ⟨k, rfl⟩)
      exact bind_ok.mpr ⟨v, asObj_ok.2 ⟨h1, rfl⟩, bind_ok.mpr ⟨_, h2, rfl⟩⟩

/-- What a muxed argument stands for. -/
def MuxIs (s : ScVal) (a : Addr) : Option Nat → Prop
  | none => s = address a
  | some i => ∃ k, s = muxed i k ∧ a = .account k

theorem muxed_is (hok : ObjsOk objs) {v i k : Nat} (h : Is objs v (muxed i k)) :
    Val.tag v = .MuxedAddressObject ∧ visitObj objs v = .ok (.muxedAddress (.muxedAccount i k)) := by
  obtain ⟨o, ho⟩ := is_object h rfl
  obtain ⟨h1, ⟨d, hd⟩, _, h2⟩ := is_obj hok h ho
  unfold muxed at hd
  cases o with
  | address b' => cases hd; rcases h2 with ⟨j, e⟩ | ⟨j, e⟩ <;> cases e
  | muxedAddress b => cases hd; exact ⟨h1.symm, ho⟩
  | vec m => obtain ⟨_, _, h4⟩ := bind_ok.mp hd; cases h4
  | map m => obtain ⟨_, _, h4⟩ := bind_ok.mp hd; cases h4
  | _ => cases hd

theorem asMuxed_iff (hok : ObjsOk objs) {v : Nat} {s : ScVal} {a : Addr} {i : Option Nat} (h : Is objs v s) :
    asMuxed objs v = .ok (a, i) ↔ MuxIs s a i := by
  constructor
  · intro hr
    unfold asMuxed at hr
    by_cases ht : Val.tag v = .MuxedAddressObject
    · rw [if_pos ht] at hr
      obtain ⟨o, h1, hr⟩ := bind_ok.mp hr
      obtain ⟨_, ⟨d, hd⟩, _, h2⟩ := is_obj hok h h1
      cases o with
      | muxedAddress b =>
        obtain ⟨i', k, rfl⟩ := h2
        cases hr
        cases hd
        exact ⟨k, rfl, rfl⟩
      | _ => cases hr
    · rw [if_neg ht] at hr
      obtain ⟨x, h1, hr⟩ := bind_ok.mp hr
      cases hr
      exact (asAddr_iff hok h).1 h1
  · intro hm
    unfold asMuxed
    cases i with
    | none =>
      have h1 := (asAddr_iff hok h).2 hm
      have ht : Val.tag v ≠ .MuxedAddressObject := by
        unfold asAddr at h1
        obtain ⟨w, h2, _⟩ := bind_ok.mp h1
        rw [(asObj_ok.1 h2).1]; decide
      rw [if_neg ht]
      exact bind_ok.mpr ⟨_, h1, rfl⟩
    | some i =>
      obtain ⟨k, rfl, rfl⟩ := hm
      obtain ⟨h1, h2⟩ := muxed_is hok h
      rw [if_pos h1]
      exact bind_ok.mpr ⟨_, h2, rfl⟩

theorem tag_isObject {v : Nat} {t : Tag} (hs : Sound objs v) (h : Val.tag v = t) (ht : t.code < 64) : Val.isObject v = false := by
  cases hv : Val.isObject v with
  | false => rfl
  | true =>
    obtain ⟨o, ho⟩ := sound_visit hs hv
    have := sound_obj hs ho
    rw [h] at this
    rw [← this] at ht
    cases o <;> (dsimp only [HostObj.tag] at ht; revert ht; decide)

theorem signed_fits (v : Nat) : Fits (Val.signedBody v) := by
  obtain ⟨h1, h2⟩ := signedBody_range v
  constructor <;> omega

theorem asI128_iff (hok : ObjsOk objs) {v : Nat} {s : ScVal} {a : Int} (h : Is objs v s) :
    asI128 objs v = .ok a ↔ s = int128 a ∧ Fits a := by
  constructor
  · intro hr
    unfold asI128 at hr
    by_cases ht : Val.tag v = .I128Small
    · rw [if_pos ht] at hr
      cases hr
      have h1 := is_small h (tag_isObject h.1 ht (by decide))
      unfold fromSmallVal at h1
      rw [ht] at h1
      cases h1
      exact ⟨pieces_eq (signed_fits v), signed_fits v⟩
    · rw [if_neg ht] at hr
      obtain ⟨w, h1, hr1⟩ := bind_ok.mp hr
      obtain ⟨_, e⟩ := asObj_ok.1 h1
      rw [e] at hr1
      clear hr
      obtain ⟨o, h2, hr⟩ := bind_ok.mp hr1
      obtain ⟨_, ⟨d, hd⟩, _, h3⟩ := is_obj hok h h2
      cases o with
      | i128 i =>
        have hf : Fits i := h3
        dsimp only at hr
        rw [fromPieces_eq hf] at hr
        cases hr
        cases hd
        exact ⟨pieces_eq hf, hf⟩
      | _ => cases hr
  · rintro ⟨rfl, hf⟩
    unfold asI128
    cases hv : Val.isObject v with
    | true =>
      obtain ⟨o, ho⟩ := sound_visit h.1 hv
      obtain ⟨h1, ⟨d, hd⟩, _, h3⟩ := is_obj hok h ho
      unfold int128 at hd
      cases o with
      | i128 i =>
        have hf' : Fits i := h3
        have hd' : ScVal.i128 (i128Hi i) (i128Lo i) = int128 a := by
          have := Except.ok.inj hd; exact this
        rw [pieces_eq hf'] at hd'
        cases int128_inj hd'
        rw [if_neg (by rw [← h1]; intro e; cases e)]
        refine bind_ok.mpr ⟨v, asObj_ok.2 ⟨h1.symm, rfl⟩, bind_ok.mpr ⟨_, ho, ?_⟩⟩
        dsimp only
        rw [fromPieces_eq hf]
      | vec m => obtain ⟨_, _, h4⟩ := bind_ok.mp hd; cases h4
      | map m => obtain ⟨_, _, h4⟩ := bind_ok.mp hd; cases h4
      | _ => cases hd
    | false =>
      have h1 := is_small h hv
      unfold int128 at h1
      unfold fromSmallVal at h1
      split at h1 <;> first | (cases h1; done) | (split at h1 <;> cases h1; done) | skip
      rename_i ht
      have hd' : ScVal.i128 (i128Hi (Val.signedBody v)) (i128Lo (Val.signedBody v)) = int128 a := by
        have := Except.ok.inj h1; exact this
      rw [pieces_eq (signed_fits v)] at hd'
      rw [if_pos ht, int128_inj hd']

theorem asU32_iff (hok : ObjsOk objs) {v : Nat} {s : ScVal} {n : Nat} (h : Is objs v s) : asU32Val v = .ok n ↔ s = .u32 n := by
  constructor
  · intro hr
    unfold asU32Val at hr
    split at hr <;> cases hr
    rename_i ht
    have h1 := is_small h (tag_isObject h.1 ht (by decide))
    unfold fromSmallVal at h1
    rw [ht] at h1
    cases h1
    rfl
  · rintro rfl
    unfold asU32Val
    cases hv : Val.isObject v with
    | true =>
      obtain ⟨o, ho⟩ := sound_visit h.1 hv
      obtain ⟨h1, ⟨d, hd⟩, _, h3⟩ := is_obj hok h ho
      cases o with
      | vec m => obtain ⟨_, _, h4⟩ := bind_ok.mp hd; cases h4
      | map m => obtain ⟨_, _, h4⟩ := bind_ok.mp hd; cases h4
      | muxedAddress m => cases hd
      | _ => cases hd
    | false =>
      have h1 := is_small h hv
      unfold fromSmallVal at h1
      split at h1 <;> first | (cases h1; done) | (split at h1 <;> cases h1; done) | skip
      rename_i ht
      cases h1
      rw [if_pos ht]

theorem asBool_iff (hok : ObjsOk objs) {v : Nat} {s : ScVal} {b : Bool} (h : Is objs v s) : asBool v = .ok b ↔ s = .bool b := by
  constructor
  · intro hr
    unfold asBool at hr
    by_cases ht : Val.tag v = .True
    · rw [if_pos ht] at hr
      cases hr
      have h1 := is_small h (tag_isObject h.1 ht (by decide))
      unfold fromSmallVal at h1
      rw [ht] at h1
      cases h1
      rfl
    · rw [if_neg ht] at hr
      split at hr <;> cases hr
      rename_i ht
      have h1 := is_small h (tag_isObject h.1 ht (by decide))
      unfold fromSmallVal at h1
      rw [ht] at h1
      cases h1
      rfl
  · rintro rfl
    unfold asBool
    cases hv : Val.isObject v with
    | true =>
      obtain ⟨o, ho⟩ := sound_visit h.1 hv
      obtain ⟨h1, ⟨d, hd⟩, _, h3⟩ := is_obj hok h ho
      cases o with
      | vec m => obtain ⟨_, _, h4⟩ := bind_ok.mp hd; cases h4
      | map m => obtain ⟨_, _, h4⟩ := bind_ok.mp hd; cases h4
      | _ => cases hd
    | false =>
      have h1 := is_small h hv
      unfold fromSmallVal at h1
      split at h1 <;> first | (cases h1; done) | (split at h1 <;> cases h1; done) | skip
      · rename_i ht
        cases h1
        rw [if_neg (by rw [ht]; decide), if_pos ht]
      · rename_i ht
        cases h1
        rw [if_pos ht]

theorem asBytes_iff (hok : ObjsOk objs) {v : Nat} {s : ScVal} (h : Is objs v s) :
    (∃ w, asObj .BytesObject v = .ok w) ↔ ∃ b, s = .bytes b := by
  constructor
  · rintro ⟨w, hw⟩
    obtain ⟨ht, rfl⟩ := asObj_ok.1 hw
    cases hv : Val.isObject w with
    | true =>
      obtain ⟨o, ho⟩ := sound_visit h.1 hv
      obtain ⟨h1, ⟨d, hd⟩, _, h3⟩ := is_obj hok h ho
      rw [ht] at h1
      cases o <;> first | (cases h1; done) | skip
      cases hd
      exact ⟨_, rfl⟩
    | false =>
      have h1 := is_small h hv
      unfold fromSmallVal at h1
      rw [ht] at h1
      cases h1
  · rintro ⟨b, rfl⟩
    exact ⟨v, asObj_ok.2 ⟨(bytes_is hok h).1, rfl⟩⟩

theorem forall1 {α β : Type} {R : α → β → Prop} {a : α} {ss : List β} (h : List.Forall₂ R [a] ss) : ∃ x, ss = [x] ∧ R a x := by
  cases h with | cons h t => cases t; exact ⟨_, rfl, h⟩

theorem forall2 {α β : Type} {R : α → β → Prop} {a b : α} {ss : List β} (h : List.Forall₂ R [a, b] ss) :
    ∃ x y, ss = [x, y] ∧ R a x ∧ R b y := by
  cases h with | cons h t => obtain ⟨y, rfl, hy⟩ := forall1 t; exact ⟨_, _, rfl, h, hy⟩

theorem forall3 {α β : Type} {R : α → β → Prop} {a b c : α} {ss : List β} (h : List.Forall₂ R [a, b, c] ss) :
    ∃ x y z, ss = [x, y, z] ∧ R a x ∧ R b y ∧ R c z := by
  cases h with | cons h t => obtain ⟨y, z, rfl, hy⟩ := forall2 t; exact ⟨_, _, _, rfl, h, hy⟩

theorem forall4 {α β : Type} {R : α → β → Prop} {a b c d : α} {ss : List β} (h : List.Forall₂ R [a, b, c, d] ss) :
    ∃ x y z u, ss = [x, y, z, u] ∧ R a x ∧ R b y ∧ R c z ∧ R d u := by
  cases h with | cons h t => obtain ⟨y, z, u, rfl, hy⟩ := forall3 t; exact ⟨_, _, _, _, rfl, h, hy⟩

/-- The amounts and ledgers of a call fit their types. -/
def OpFits : Op → Prop
  | .approve _ _ a l => Fits a ∧ l < 2 ^ 32
  | .transfer _ _ a => Fits a
  | .transferFrom _ _ _ a => Fits a
  | .burn _ a => Fits a
  | .burnFrom _ _ a => Fits a
  | .clawback _ a => Fits a
  | .mint _ a => Fits a
  | _ => True

theorem arguments_means (hok : ObjsOk objs) {i : Nat} {t : List Nat} {args : List Nat} {ss : List ScVal} {c : Call}
    (hi : fnNames[i]? = some t) (ha : List.Forall₂ (Is objs) args ss) (h : arguments objs i args = .ok c) :
    Means t ss c ∧ ∀ o m, c = .op o m → OpFits o := by
  unfold arguments at h
  split at h
  · obtain ⟨x, rfl, hx⟩ := forall1 ha
    obtain ⟨w, h1, h⟩ := bind_ok.mp h
    cases h
    obtain ⟨b, rfl⟩ := (asBytes_iff hok hx).1 ⟨w, h1⟩
    cases hi
    exact ⟨.initAsset b, fun _ _ e => by cases e⟩
  · obtain ⟨x, y, rfl, hx, hy⟩ := forall2 ha
    obtain ⟨f, h1, h⟩ := bind_ok.mp h
    obtain ⟨s, h2, h⟩ := bind_ok.mp h
    cases h
    rw [(asAddr_iff hok hx).1 h1, (asAddr_iff hok hy).1 h2]
    cases hi
    exact ⟨.allowance f s, fun _ _ e => by cases e; trivial⟩
  · obtain ⟨x, y, z, u, rfl, hx, hy, hz, hu⟩ := forall4 ha
    obtain ⟨f, h1, h⟩ := bind_ok.mp h
    obtain ⟨s, h2, h⟩ := bind_ok.mp h
    obtain ⟨a, h3, h⟩ := bind_ok.mp h
    obtain ⟨l, h4, h⟩ := bind_ok.mp h
    cases h
    rw [(asAddr_iff hok hx).1 h1, (asAddr_iff hok hy).1 h2, ((asI128_iff hok hz).1 h3).1, (asU32_iff hok hu).1 h4]
    cases hi
    have hl : l < 2 ^ 32 := by
      unfold asU32Val at h4
      split at h4 <;> cases h4
      have := hu.1.1
      unfold Val.major; omega
    exact ⟨.approve f s a l, fun _ _ e => by cases e; exact ⟨((asI128_iff hok hz).1 h3).2, hl⟩⟩
  · obtain ⟨x, rfl, hx⟩ := forall1 ha
    obtain ⟨f, h1, h⟩ := bind_ok.mp h
    cases h
    rw [(asAddr_iff hok hx).1 h1]
    cases hi
    exact ⟨.balance f, fun _ _ e => by cases e; trivial⟩
  · obtain ⟨x, rfl, hx⟩ := forall1 ha
    obtain ⟨f, h1, h⟩ := bind_ok.mp h
    cases h
    rw [(asAddr_iff hok hx).1 h1]
    cases hi
    exact ⟨.authorized f, fun _ _ e => by cases e; trivial⟩
  · obtain ⟨x, y, z, rfl, hx, hy, hz⟩ := forall3 ha
    obtain ⟨f, h1, h⟩ := bind_ok.mp h
    obtain ⟨⟨t', m⟩, h2, h⟩ := bind_ok.mp h
    obtain ⟨a, h3, h⟩ := bind_ok.mp h
    cases h
    have hm := (asMuxed_iff hok hy).1 h2
    rw [(asAddr_iff hok hx).1 h1, ((asI128_iff hok hz).1 h3).1]
    cases hi
    refine ⟨?_, fun _ _ e => by cases e; exact ((asI128_iff hok hz).1 h3).2⟩
    cases m with
    | none => rw [show y = address t' from hm]; exact .transfer f t' a
    | some i => obtain ⟨k, rfl, rfl⟩ := hm; exact .transferMuxed f i k a
  · obtain ⟨x, y, z, u, rfl, hx, hy, hz, hu⟩ := forall4 ha
    obtain ⟨s, h1, h⟩ := bind_ok.mp h
    obtain ⟨f, h2, h⟩ := bind_ok.mp h
    obtain ⟨t', h3, h⟩ := bind_ok.mp h
    obtain ⟨a, h4, h⟩ := bind_ok.mp h
    cases h
    rw [(asAddr_iff hok hx).1 h1, (asAddr_iff hok hy).1 h2, (asAddr_iff hok hz).1 h3, ((asI128_iff hok hu).1 h4).1]
    cases hi
    exact ⟨.transferFrom s f t' a, fun _ _ e => by cases e; exact ((asI128_iff hok hu).1 h4).2⟩
  · obtain ⟨x, y, rfl, hx, hy⟩ := forall2 ha
    obtain ⟨f, h1, h⟩ := bind_ok.mp h
    obtain ⟨a, h2, h⟩ := bind_ok.mp h
    cases h
    rw [(asAddr_iff hok hx).1 h1, ((asI128_iff hok hy).1 h2).1]
    cases hi
    exact ⟨.burn f a, fun _ _ e => by cases e; exact ((asI128_iff hok hy).1 h2).2⟩
  · obtain ⟨x, y, z, rfl, hx, hy, hz⟩ := forall3 ha
    obtain ⟨s, h1, h⟩ := bind_ok.mp h
    obtain ⟨f, h2, h⟩ := bind_ok.mp h
    obtain ⟨a, h3, h⟩ := bind_ok.mp h
    cases h
    rw [(asAddr_iff hok hx).1 h1, (asAddr_iff hok hy).1 h2, ((asI128_iff hok hz).1 h3).1]
    cases hi
    exact ⟨.burnFrom s f a, fun _ _ e => by cases e; exact ((asI128_iff hok hz).1 h3).2⟩
  · obtain ⟨x, y, rfl, hx, hy⟩ := forall2 ha
    obtain ⟨f, h1, h⟩ := bind_ok.mp h
    obtain ⟨a, h2, h⟩ := bind_ok.mp h
    cases h
    rw [(asAddr_iff hok hx).1 h1, ((asI128_iff hok hy).1 h2).1]
    cases hi
    exact ⟨.clawback f a, fun _ _ e => by cases e; exact ((asI128_iff hok hy).1 h2).2⟩
  · obtain ⟨x, y, rfl, hx, hy⟩ := forall2 ha
    obtain ⟨f, h1, h⟩ := bind_ok.mp h
    obtain ⟨a, h2, h⟩ := bind_ok.mp h
    cases h
    rw [(asAddr_iff hok hx).1 h1, (asBool_iff hok hy).1 h2]
    cases hi
    exact ⟨.setAuthorized f a, fun _ _ e => by cases e; trivial⟩
  · obtain ⟨x, y, rfl, hx, hy⟩ := forall2 ha
    obtain ⟨f, h1, h⟩ := bind_ok.mp h
    obtain ⟨a, h2, h⟩ := bind_ok.mp h
    cases h
    rw [(asAddr_iff hok hx).1 h1, ((asI128_iff hok hy).1 h2).1]
    cases hi
    exact ⟨.mint f a, fun _ _ e => by cases e; exact ((asI128_iff hok hy).1 h2).2⟩
  · obtain ⟨x, rfl, hx⟩ := forall1 ha
    obtain ⟨f, h1, h⟩ := bind_ok.mp h
    cases h
    rw [(asAddr_iff hok hx).1 h1]
    cases hi
    exact ⟨.setAdmin f, fun _ _ e => by cases e; trivial⟩
  · cases ha; cases h; cases hi; exact ⟨.admin, fun _ _ e => by cases e; trivial⟩
  · cases ha; cases h; cases hi; exact ⟨.decimals, fun _ _ e => by cases e⟩
  · cases ha; cases h; cases hi; exact ⟨.name, fun _ _ e => by cases e⟩
  · cases ha; cases h; cases hi; exact ⟨.symbol, fun _ _ e => by cases e⟩
  · obtain ⟨x, rfl, hx⟩ := forall1 ha
    obtain ⟨f, h1, h⟩ := bind_ok.mp h
    cases h
    rw [(asAddr_iff hok hx).1 h1]
    cases hi
    exact ⟨.trust f, fun _ _ e => by cases e; trivial⟩
  · cases h

theorem decode_means (hok : ObjsOk objs) {fn : Nat} {t : List Nat} {args : List Nat} {ss : List ScVal} {c : Call}
    (hf : Is objs fn (.symbol t)) (ha : List.Forall₂ (Is objs) args ss) (h : decode objs fn args = .ok c) :
    Means t ss c ∧ ∀ o m, c = .op o m → OpFits o := by
  unfold decode at h
  rw [symbol_is hok hf] at h
  obtain ⟨t', ht, h⟩ := bind_ok.mp h
  cases ht
  cases hm : firstMatch t 0 fnNames with
  | none => rw [hm] at h; cases h
  | some i =>
    rw [hm] at h
    have := (firstMatch_some hm).2
    rw [Nat.sub_zero] at this
    exact arguments_means hok this ha h

theorem one {α β : Type} {R : α → β → Prop} {x : β} {l : List α} (h : List.Forall₂ R l [x]) : ∃ a, l = [a] ∧ R a x := by
  cases h with | cons h t => cases t; exact ⟨_, rfl, h⟩

theorem two {α β : Type} {R : α → β → Prop} {x y : β} {l : List α} (h : List.Forall₂ R l [x, y]) :
    ∃ a b, l = [a, b] ∧ R a x ∧ R b y := by
  cases h with | cons h t => obtain ⟨y, rfl, hy⟩ := one t; exact ⟨_, _, rfl, h, hy⟩

theorem three {α β : Type} {R : α → β → Prop} {x y z : β} {l : List α} (h : List.Forall₂ R l [x, y, z]) :
    ∃ a b c, l = [a, b, c] ∧ R a x ∧ R b y ∧ R c z := by
  cases h with | cons h t => obtain ⟨y, z, rfl, hy⟩ := two t; exact ⟨_, _, _, rfl, h, hy⟩

theorem four {α β : Type} {R : α → β → Prop} {x y z u : β} {l : List α} (h : List.Forall₂ R l [x, y, z, u]) :
    ∃ a b c d, l = [a, b, c, d] ∧ R a x ∧ R b y ∧ R c z ∧ R d u := by
  cases h with | cons h t => obtain ⟨y, z, u, rfl, hy⟩ := three t; exact ⟨_, _, _, _, rfl, h, hy⟩

/-- A value that stands for an amount stands for one that fits. -/
theorem int128_fits (hok : ObjsOk objs) {v : Nat} {a : Int} (h : Is objs v (int128 a)) : Fits a := by
  cases hv : Val.isObject v with
  | true =>
    obtain ⟨o, ho⟩ := sound_visit h.1 hv
    obtain ⟨h1, ⟨d, hd⟩, _, h3⟩ := is_obj hok h ho
    unfold int128 at hd
    cases o with
    | i128 i =>
      have hf' : Fits i := h3
      have hd' : ScVal.i128 (i128Hi i) (i128Lo i) = int128 a := by
        have := Except.ok.inj hd; exact this
      rw [pieces_eq hf'] at hd'
      rw [← int128_inj hd']; exact hf'
    | vec m => obtain ⟨_, _, h4⟩ := bind_ok.mp hd; cases h4
    | map m => obtain ⟨_, _, h4⟩ := bind_ok.mp hd; cases h4
    | _ => cases hd
  | false =>
    have h1 := is_small h hv
    unfold int128 at h1
    unfold fromSmallVal at h1
    split at h1 <;> first | (cases h1; done) | (split at h1 <;> cases h1; done) | skip
    have hd' : ScVal.i128 (i128Hi (Val.signedBody v)) (i128Lo (Val.signedBody v)) = int128 a := by
      have := Except.ok.inj h1; exact this
    rw [pieces_eq (signed_fits v)] at hd'
    rw [← int128_inj hd']; exact signed_fits v

theorem addr_reads (hok : ObjsOk objs) {v : Nat} {a : Addr} (h : Is objs v (address a)) : asAddr objs v = .ok a := (asAddr_iff hok h).2 rfl

theorem i128_reads (hok : ObjsOk objs) {v : Nat} {a : Int} (h : Is objs v (int128 a)) : asI128 objs v = .ok a :=
  (asI128_iff hok h).2 ⟨rfl, int128_fits hok h⟩

theorem means_decode (hok : ObjsOk objs) {fn : Nat} {t : List Nat} {args : List Nat} {ss : List ScVal} {c : Call}
    (hf : Is objs fn (.symbol t)) (ha : List.Forall₂ (Is objs) args ss) (h : Means t ss c) : decode objs fn args = .ok c := by
  have key : ∀ i, firstMatch t 0 fnNames = some i → arguments objs i args = .ok c → decode objs fn args = .ok c := by
    intro i h1 h2
    refine bind_ok.mpr ⟨t, symbol_is hok hf, ?_⟩
    rw [h1]; exact h2
  clear hf
  cases h with
  | initAsset b =>
    obtain ⟨v, rfl, hv⟩ := one ha
    obtain ⟨w, hw⟩ := (asBytes_iff hok hv).2 ⟨b, rfl⟩
    exact key 0 (by decide) (bind_ok.mpr ⟨w, hw, rfl⟩)
  | allowance f s =>
    obtain ⟨u, v, rfl, hu, hv⟩ := two ha
    exact key 1 (by decide) (bind_ok.mpr ⟨_, addr_reads hok hu, bind_ok.mpr ⟨_, addr_reads hok hv, rfl⟩⟩)
  | approve f s a l =>
    obtain ⟨u, v, w, x, rfl, hu, hv, hw, hx⟩ := four ha
    exact key 2 (by decide) (bind_ok.mpr ⟨_, addr_reads hok hu, bind_ok.mpr ⟨_, addr_reads hok hv,
      bind_ok.mpr ⟨_, i128_reads hok hw, bind_ok.mpr ⟨_, (asU32_iff hok hx).2 rfl, rfl⟩⟩⟩⟩)
  | balance a =>
    obtain ⟨v, rfl, hv⟩ := one ha
    exact key 3 (by decide) (bind_ok.mpr ⟨_, addr_reads hok hv, rfl⟩)
  | authorized a =>
    obtain ⟨v, rfl, hv⟩ := one ha
    exact key 4 (by decide) (bind_ok.mpr ⟨_, addr_reads hok hv, rfl⟩)
  | transfer f t a =>
    obtain ⟨u, v, w, rfl, hu, hv, hw⟩ := three ha
    exact key 5 (by decide) (bind_ok.mpr ⟨_, addr_reads hok hu, bind_ok.mpr ⟨(t, none), (asMuxed_iff hok hv).2 rfl,
      bind_ok.mpr ⟨_, i128_reads hok hw, rfl⟩⟩⟩)
  | transferMuxed f i k a =>
    obtain ⟨u, v, w, rfl, hu, hv, hw⟩ := three ha
    exact key 5 (by decide) (bind_ok.mpr ⟨_, addr_reads hok hu, bind_ok.mpr ⟨(.account k, some i), (asMuxed_iff hok hv).2 ⟨k, rfl, rfl⟩,
      bind_ok.mpr ⟨_, i128_reads hok hw, rfl⟩⟩⟩)
  | transferFrom s f t a =>
    obtain ⟨u, v, w, x, rfl, hu, hv, hw, hx⟩ := four ha
    exact key 6 (by decide) (bind_ok.mpr ⟨_, addr_reads hok hu, bind_ok.mpr ⟨_, addr_reads hok hv,
      bind_ok.mpr ⟨_, addr_reads hok hw, bind_ok.mpr ⟨_, i128_reads hok hx, rfl⟩⟩⟩⟩)
  | burn f a =>
    obtain ⟨u, v, rfl, hu, hv⟩ := two ha
    exact key 7 (by decide) (bind_ok.mpr ⟨_, addr_reads hok hu, bind_ok.mpr ⟨_, i128_reads hok hv, rfl⟩⟩)
  | burnFrom s f a =>
    obtain ⟨u, v, w, rfl, hu, hv, hw⟩ := three ha
    exact key 8 (by decide) (bind_ok.mpr ⟨_, addr_reads hok hu, bind_ok.mpr ⟨_, addr_reads hok hv,
      bind_ok.mpr ⟨_, i128_reads hok hw, rfl⟩⟩⟩)
  | clawback f a =>
    obtain ⟨u, v, rfl, hu, hv⟩ := two ha
    exact key 9 (by decide) (bind_ok.mpr ⟨_, addr_reads hok hu, bind_ok.mpr ⟨_, i128_reads hok hv, rfl⟩⟩)
  | setAuthorized a b =>
    obtain ⟨u, v, rfl, hu, hv⟩ := two ha
    exact key 10 (by decide) (bind_ok.mpr ⟨_, addr_reads hok hu, bind_ok.mpr ⟨_, (asBool_iff hok hv).2 rfl, rfl⟩⟩)
  | mint t a =>
    obtain ⟨u, v, rfl, hu, hv⟩ := two ha
    exact key 11 (by decide) (bind_ok.mpr ⟨_, addr_reads hok hu, bind_ok.mpr ⟨_, i128_reads hok hv, rfl⟩⟩)
  | setAdmin a =>
    obtain ⟨v, rfl, hv⟩ := one ha
    exact key 12 (by decide) (bind_ok.mpr ⟨_, addr_reads hok hv, rfl⟩)
  | admin => cases ha; exact key 13 (by decide) rfl
  | decimals => cases ha; exact key 14 (by decide) rfl
  | name => cases ha; exact key 15 (by decide) rfl
  | symbol => cases ha; exact key 16 (by decide) rfl
  | trust a =>
    obtain ⟨v, rfl, hv⟩ := one ha
    exact key 17 (by decide) (bind_ok.mpr ⟨_, addr_reads hok hv, rfl⟩)

end Soroban.SacValues
