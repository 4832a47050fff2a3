import Verif.Lemmas.Xdr
import Verif.Lemmas.XdrForm
import Verif.Props.Convert
import Verif.Props.Compare
/-!
C73: serializing a value and reading the bytes back gives an equal value; every value has one serialized form, and reading accepts
serialized forms only.
-/
namespace Soroban.Props
open Soroban.Xdr Soroban.Xdr.Spec Soroban.Spec

variable {shallow : ScVal → Bool} {d : Nat} {objs objs' : List HostObj}

/-- Serializing gives the XDR form of the ledger value the argument stands for, in a new object, and leaves the others as they
were. It succeeds when the value can be converted within the depth left, its XDR form is not nested too deep and is not longer
than 32 MB. -/
theorem C73_serialize {v : Nat} (hl : objs.length < 2 ^ 31) :
    (∀ objs' h, serialize shallow d objs v = .ok (objs', h) → ∃ s, fromVal false objs d v = .ok s ∧
      objs' = objs ++ [.bytes (write s)] ∧ Holds objs' h (write s)) ∧
    (∀ s, fromVal false objs d v = .ok s → shallow s = true → (write s).length ≤ 32 * 1024 * 1024 →
      ∃ objs' h, serialize shallow d objs v = .ok (objs', h)) := by
  constructor
  · intro objs' h hs
    obtain ⟨s, h1, _, _, h4, h5⟩ := serialize_ok hl hs
    exact ⟨s, h1, h4, h5⟩
  · intro s h1 h2 h3
    obtain ⟨w, hw⟩ := addObj_ok (.bytes (write s)) hl
    refine ⟨_, w, bind_ok.mpr ⟨s, h1, bind_ok.mpr ⟨write s, ?_, hw⟩⟩⟩
    unfold toXdr
    rw [if_pos (by rw [h2, Bool.true_and]; exact decide_eq_true h3)]

/-- What was serialized is read back as an equal value, whatever objects have been added in between and with no less depth left;
reading succeeds for every value the host accepts from outside. -/
theorem C73_round_trip {v h d' : Nat} {later : List HostObj} (hobjs : ObjsOk (objs' ++ later)) (hok : ObjsOk objs)
    (hsz : ∀ o ∈ objs, ObjSized o) (hv : Sound objs v) (hl : objs.length < 2 ^ 31) (hd : d ≤ d')
    (hs : serialize shallow d objs v = .ok (objs', h)) :
    (∀ objs₂ w, deserialize shallow d' (objs' ++ later) h = .ok (objs₂, w) → objs₂.length ≤ 2 ^ 31 →
      Sound objs₂ w ∧ ∃ s, fromVal false objs₂ d' v = .ok s ∧ fromVal false objs₂ d' w = .ok s ∧ valCmp objs₂ d' v w = .ok .eq) ∧
    (∀ s, Denotes objs v s → Accepted d' s → (objs' ++ later).length + nodes s ≤ 2 ^ 31 →
      ∃ objs₂ w, deserialize shallow d' (objs' ++ later) h = .ok (objs₂, w)) := by
  obtain ⟨s, h1, h2, _, h4, h5⟩ := serialize_ok hl hs
  have hw := fromVal_wire hok hsz hv.1 h1
  have h6 : Holds (objs' ++ later) h (write s) := visitObj_append h5
  constructor
  · intro objs₂ w hdes hl2
    obtain ⟨t, e, ht, _, hto⟩ := deserialize_ok h6 (by
      intro x hx
      exact write_bytes hw x hx) hdes
    have hst : s = t := by
      have := write_prefix hw ht (x := []) (y := []) (by rw [List.append_nil, List.append_nil]; exact e)
      exact this.1
    subst hst
    obtain ⟨c1, c2⟩ := toVal_conv hobjs (wire_xdrOk hw) hl2 hto
    obtain ⟨ext, hext⟩ := toVal_prefix hto
    have hv2 : fromVal false objs₂ d' v = .ok s := by
      rw [hext, h4, List.append_assoc, List.append_assoc]
      exact fromVal_append (fromVal_mono hd h1)
    have sv : Sound objs₂ v := by
      rw [hext, h4, List.append_assoc, List.append_assoc]
      exact hv.append
    refine ⟨c2.sound, s, hv2, c2.back, ?_⟩
    rw [valCmp_spec c1 sv c2.sound hv2 c2.back, scOrd_self]
  · intro t ht ha hroom
    have hst : t = s := Denotes.unique ht ⟨d, h1⟩
    subst hst
    obtain ⟨o2, w, h7, _⟩ := toVal_total hobjs (wire_xdrOk hw) ha hroom
    exact ⟨o2, w, by rw [deserialize_eq h6 hw h2 ha]; exact h7⟩

/-- Two values have the same serialized form exactly when they compare equal, and no serialized form begins another. -/
theorem C73_injective {v w h k : Nat} {o₁ o₂ : List HostObj} {b c x y : List Nat} (hok : ObjsOk objs) (hsz : ∀ o ∈ objs, ObjSized o)
    (hv : Sound objs v) (hw : Sound objs w) (hl : objs.length < 2 ^ 31) (h1 : serialize shallow d objs v = .ok (o₁, h))
    (h2 : serialize shallow d objs w = .ok (o₂, k)) (hb : Holds o₁ h b) (hc : Holds o₂ k c) :
    (valCmp objs d v w = .ok .eq ↔ b = c) ∧ (b ++ x = c ++ y → b = c ∧ x = y) := by
  obtain ⟨s, a1, _, _, _, a5⟩ := serialize_ok hl h1
  obtain ⟨t, b1, _, _, _, b5⟩ := serialize_ok hl h2
  have e1 : b = write s := by
    have := hb.symm.trans a5
    exact HostObj.bytes.inj (Except.ok.inj this)
  have e2 : c = write t := by
    have := hc.symm.trans b5
    exact HostObj.bytes.inj (Except.ok.inj this)
  have ws := fromVal_wire hok hsz hv.1 a1
  have wt := fromVal_wire hok hsz hw.1 b1
  constructor
  · rw [valCmp_spec hok hv hw a1 b1, Except.ok.injEq, scOrd_eq_iff (wire_xdrOk ws) (wire_xdrOk wt), e1, e2]
    constructor
    · intro h; rw [h]
    · intro h
      exact (write_prefix ws wt (x := []) (y := []) (by rw [h])).1
  · intro h
    rw [e1, e2] at h
    obtain ⟨h3, h4⟩ := write_prefix ws wt h
    exact ⟨by rw [e1, e2, h3], h4⟩

/-- Reading accepts exactly the serialized forms of values the host accepts. -/
theorem C73_accepted_iff {h : Nat} {b : List Nat} (hok : ObjsOk objs) (hh : Holds objs h b) (hb : AllBytes b)
    (hroom : ∀ s, b = write s → objs.length + nodes s ≤ 2 ^ 31) :
    (∃ objs' v, deserialize shallow d objs h = .ok (objs', v) ∧ objs'.length ≤ 2 ^ 31) ↔
      ∃ s, b = write s ∧ Wire s ∧ shallow s = true ∧ Accepted d s := by
  constructor
  · rintro ⟨objs', v, hs, hl⟩
    obtain ⟨s, e, hw, hsh, hto⟩ := deserialize_ok hh hb hs
    exact ⟨s, e, hw, hsh, (toVal_conv hok (wire_xdrOk hw) hl hto).2.acc⟩
  · rintro ⟨s, e, hw, hsh, ha⟩
    obtain ⟨o, v, h1, h2⟩ := toVal_total hok (wire_xdrOk hw) ha (hroom s e)
    refine ⟨o, v, ?_, Nat.le_trans h2 (hroom s e)⟩
    rw [e] at hh
    rw [deserialize_eq hh hw hsh ha]
    exact h1

/-- Bytes that are read as a value are its serialized form: serializing the value gives the same bytes. -/
theorem C73_canonical {h v : Nat} {b : List Nat} (hok : ObjsOk objs) (hh : Holds objs h b) (hb : AllBytes b)
    (hlen : b.length ≤ 32 * 1024 * 1024) (hs : deserialize shallow d objs h = .ok (objs', v)) (hl : objs'.length < 2 ^ 31) :
    ∃ objs₂ k, serialize shallow d objs' v = .ok (objs₂, k) ∧ Holds objs₂ k b := by
  obtain ⟨s, e, hw, hsh, hto⟩ := deserialize_ok hh hb hs
  obtain ⟨_, c2⟩ := toVal_conv hok (wire_xdrOk hw) (by omega) hto
  obtain ⟨o, k, hser⟩ := (C73_serialize (shallow := shallow) (v := v) hl).2 s c2.back hsh (by rw [← e]; exact hlen)
  obtain ⟨t, ht, _, hk⟩ := (C73_serialize (shallow := shallow) (v := v) hl).1 o k hser
  rw [c2.back] at ht
  cases ht
  exact ⟨o, k, hser, by rw [e]; exact hk⟩

/-- The bytes are those XDR prescribes: the fields of the value one after the other, numbers with the most significant byte first,
data with their length before and zeros after them. No other bytes have that form. -/
theorem C73_form {v h : Nat} (hl : objs.length < 2 ^ 31) (hs : serialize shallow d objs v = .ok (objs', h)) :
    ∃ s b, fromVal false objs d v = .ok s ∧ Holds objs' h b ∧ Laid (fields s) b ∧ ∀ c, Laid (fields s) c → c = b := by
  obtain ⟨s, h1, _, h3⟩ := (C73_serialize hl).1 objs' h hs
  exact ⟨s, write s, h1, h3, write_laid s, fun c hc => Laid_unique hc (write_laid s)⟩

private theorem list_false : ∀ {l : List ScVal} {x : ScVal}, x ∈ l → canRepresentRec x = false → canRepresentList l = false
  | y :: l, x, hx, h => by
    rw [canRepresentList]
    rcases List.mem_cons.mp hx with rfl | hx
    · rw [h, Bool.false_and]
    · rw [list_false hx h, Bool.and_false]

private theorem entries_false : ∀ {l : List (ScVal × ScVal)} {x : ScVal} {e : ScVal × ScVal}, e ∈ l → x = e.1 ∨ x = e.2 →
    canRepresentRec x = false → canRepresentEntries l = false
  | (k, v) :: l, x, e, he, hx, h => by
    rw [canRepresentEntries]
    rcases List.mem_cons.mp he with rfl | he
    · rcases hx with rfl | rfl
      · rw [h, Bool.false_and, Bool.false_and]
      · rw [h, Bool.and_false, Bool.false_and]
    · rw [entries_false he hx h, Bool.and_false]

/-- Reading the form of a value that is no value of contracts is refused as such. -/
theorem C73_unrepresentable {h : Nat} {s : ScVal} (hw : Wire s) (hs : shallow s = true) (hu : Unrepresentable s)
    (hh : Holds objs h (write s)) : deserialize shallow d objs h = .error (.host .value .unexpectedType) := by
  have hf : canRepresentRec s = false := by
    clear hh hs hw
    induction hu with
    | noVec => rfl
    | noMap => rfl
    | instanceKey => rfl
    | nonceKey i => rfl
    | @inside s x hx hux ih =>
      cases s with
      | vec o =>
        cases o with
        | none => rfl
        | some l => rw [canRepresentRec]; exact list_false hx ih
      | map o =>
        cases o with
        | none => rfl
        | some m =>
          rw [canRepresentRec]
          simp only [children, List.mem_flatMap, List.mem_cons, List.not_mem_nil, or_false] at hx
          obtain ⟨e, he, hx⟩ := hx
          exact entries_false he hx ih
      | contractInstance a b => rfl
      | _ => cases hx
  unfold deserialize
  have hb : visitBytes objs h = .ok (write s) := by unfold visitBytes; rw [show visitObj objs h = _ from hh]
  rw [hb]
  show (match fromXdr shallow (write s) with
    | none => _ | some s => if canRepresentRec s then toVal d objs s else _) = _
  rw [fromXdr_write hw hs]
  simp only [hf]
  rfl

/-! ### Cases that meet the hypotheses -/

/-- The XDR form of the vector `[1, "a"]`. -/
def vecBytes : List Nat :=
  [0, 0, 0, 16, 0, 0, 0, 1, 0, 0, 0, 2, 0, 0, 0, 3, 0, 0, 0, 1, 0, 0, 0, 14, 0, 0, 0, 1, 97, 0, 0, 0]

example : write (.vec (some [.u32 1, .string [97]])) = vecBytes := by decide +kernel
example : fields (.vec (some [.u32 1, .string [97]])) =
    [.num 4 16, .num 4 1, .num 4 2, .num 4 3, .num 4 1, .num 4 14, .data [97]] := rfl
example : Laid (fields (.vec (some [.u32 1, .string [97]]))) vecBytes :=
  (by decide +kernel : write (.vec (some [.u32 1, .string [97]])) = vecBytes) ▸ write_laid _

/-- The result of a host function, compared. -/
def xdrGives (r : Res (List HostObj × Nat)) (objs : List HostObj) (v : Nat) : Bool :=
  match r with | .ok (o, w) => decide (o = objs ∧ w = v) | .error _ => false

/-- The table with those bytes: reading adds a text and a vector. -/
example : xdrGives (deserialize (fun _ => true) 100 [.bytes vecBytes] (valObject 1 .BytesObject))
    [.bytes vecBytes, .string [97], .vec [valU32 1, valObject 3 .StringObject]] (valObject 5 .VecObject) = true := by decide +kernel

/-- A nested vector is serialized and read back. -/
example : (∀ o ∈ exTable, ObjSized o) ∧ Sound exTable (valObject 9 .VecObject) ∧
    (∃ objs' h, serialize (fun _ => true) 100 exTable (valObject 9 .VecObject) = .ok (objs', h)) := by
  refine ⟨?_, ⟨by decide, rfl⟩, (C73_serialize (by decide)).2 _ rfl rfl (by decide +kernel)⟩
  intro o ho
  simp only [exTable, List.mem_cons, List.not_mem_nil, or_false] at ho
  rcases ho with rfl | rfl | rfl | rfl | rfl
  · trivial
  · exact ⟨by decide, by unfold AllBytes; decide⟩
  · show 2 < 2 ^ 32; decide
  · show 2 < 2 ^ 32; decide
  · show 2 < 2 ^ 32; decide

/-- A vector with a missing vector in it. -/
example : Wire (.vec (some [.vec none])) ∧ Unrepresentable (.vec (some [.vec none])) :=
  ⟨.mk trivial (show 1 < 2 ^ 32 by decide) (fun x hx => by
    simp only [children, List.mem_singleton] at hx; subst hx; exact .mk trivial trivial (fun x hx => by cases hx)),
    .inside (x := .vec none) (by simp [children]) .noVec⟩

/-- Nonzero padding, a missing byte, a trailing byte and an unknown kind are refused. -/
example : (fromXdr (fun _ => true) (vecBytes.dropLast ++ [1])).isNone = true := by decide +kernel
example : (fromXdr (fun _ => true) vecBytes.dropLast).isNone = true := by decide +kernel
example : (fromXdr (fun _ => true) (vecBytes ++ [0])).isNone = true := by decide +kernel
example : (fromXdr (fun _ => true) [0, 0, 0, 23]).isNone = true := by decide +kernel

end Soroban.Props
