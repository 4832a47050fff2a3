import Verif.Lemmas.Convert
/-!
C04: ledger values survive the trip through the host.

`toVal d objs s` is the host's conversion of the ledger value `s` with object table `objs` and `d` levels of nesting left; it
returns the new table and the value. `fromVal` is the conversion back (its first argument selects the variant for storage
keys). `Accepted`, `nodes`, `XdrOk`, `Sound` and `ObjsOk` are defined in Spec/ScVal.lean.
-/
namespace Soroban.Props
open Soroban.Spec

variable {objs objs' : List HostObj} {s : ScVal} {d v : Nat}

/-- C04, round trip: a converted value passes the integrity check and converts back to the original, as long as the table has
no more than 2^31 objects (handles are 32 bits wide and one bit tells relative from absolute), whatever objects are added
later and whatever depth is left then (no less than was needed). -/
theorem C04_round_trip (hobjs : ObjsOk objs) (hx : XdrOk s) (h : toVal d objs s = .ok (objs', v)) (hl : objs'.length ≤ 2^31) :
    ObjsOk objs' ∧ Sound objs' v ∧ ∀ later d', d ≤ d' → fromVal false (objs' ++ later) d' v = .ok s := by
  obtain ⟨h1, h2⟩ := toVal_conv hobjs hx hl h
  exact ⟨h1, h2.sound, fun later d' hd => fromVal_append (fromVal_mono hd h2.back)⟩

/-- C04, acceptance: with room in the table, the values that convert are exactly the supported ones: nested no deeper than the
limit, no missing vector or map body, nothing reserved for the ledger, symbols of at most 32 allowed characters, supported
kinds of addresses, and maps with strictly increasing keys. -/
theorem C04_accepted_iff (hobjs : ObjsOk objs) (hx : XdrOk s) (hroom : objs.length + nodes s ≤ 2^31) :
    (∃ objs' v, toVal d objs s = .ok (objs', v) ∧ objs'.length ≤ objs.length + nodes s) ↔ Accepted d s := by
  constructor
  · rintro ⟨objs', v, h, hl⟩
    exact (toVal_conv hobjs hx (by omega) h).2.acc
  · exact fun ha => toVal_total hobjs hx ha hroom

/-- C04, existing values: the conversion only appends to the table, so whatever a value meant before it means afterwards. -/
theorem C04_existing_values (h : toVal d objs s = .ok (objs', v)) :
    (∃ new, objs' = objs ++ new) ∧
    (∀ w o, visitObj objs w = .ok o → visitObj objs' w = .ok o) ∧
    (∀ fs d w t, fromVal fs objs d w = .ok t → fromVal fs objs' d w = .ok t) := by
  obtain ⟨e, rfl⟩ := toVal_prefix h
  exact ⟨⟨e, rfl⟩, fun w o => visitObj_append, fun fs d w t => fromVal_append⟩

/-- C04, no confusion: values converted one after the other, in any order, compare in the host as the ledger values do; in
particular they are equal only if the ledger values are. -/
theorem C04_faithful {s₁ s₂ : ScVal} {objs₁ objs₂ : List HostObj} {v₁ v₂ : Nat} (hobjs : ObjsOk objs) (hx₁ : XdrOk s₁)
    (hx₂ : XdrOk s₂) (h₁ : toVal d objs s₁ = .ok (objs₁, v₁)) (h₂ : toVal d objs₁ s₂ = .ok (objs₂, v₂))
    (hl : objs₂.length ≤ 2^31) :
    valCmp objs₂ d v₁ v₂ = .ok (scOrd s₁ s₂) ∧ (valCmp objs₂ d v₁ v₂ = .ok .eq ↔ s₁ = s₂) := by
  obtain ⟨e, rfl⟩ := toVal_prefix h₂
  have hl₁ : objs₁.length ≤ 2^31 := by rw [List.length_append] at hl; omega
  obtain ⟨a1, a2⟩ := toVal_conv hobjs hx₁ hl₁ h₁
  obtain ⟨b1, b2⟩ := toVal_conv a1 hx₂ hl h₂
  have a3 := a2.append e
  have := valCmp_spec b1 a3.sound b2.sound a3.back b2.back
  refine ⟨this, ?_⟩
  rw [this, Except.ok.injEq, scOrd_eq_iff hx₁ hx₂]

/-- The host value contains a muxed address at some depth. -/
inductive HasMuxed (objs : List HostObj) : Nat → Prop
  | here {v a} : visitObj objs v = .ok (.muxedAddress a) → HasMuxed objs v
  | inside {v o w} : visitObj objs v = .ok o → w ∈ elems o → HasMuxed objs w → HasMuxed objs v

theorem fromVals_each {rec : Nat → Res ScVal} : ∀ {l : List Nat} {r : List ScVal}, fromVals rec l = .ok r →
    ∀ v ∈ l, ∃ s, rec v = .ok s := by
  intro l
  induction l with
  | nil => intro r _ v hv; cases hv
  | cons a l ih =>
    intro r h v hv
    obtain ⟨s, ss, h1, h2, rfl⟩ := fromVals_cons h
    rcases List.mem_cons.1 hv with rfl | hv
    · exact ⟨s, h1⟩
    · exact ih h2 v hv

theorem fromEntries_each {rec : Nat → Res ScVal} : ∀ {l : List (Nat × Nat)} {r : List (ScVal × ScVal)},
    fromEntries rec l = .ok r → ∀ p ∈ l, (∃ s, rec p.1 = .ok s) ∧ ∃ s, rec p.2 = .ok s := by
  intro l
  induction l with
  | nil => intro r _ v hv; cases hv
  | cons a l ih =>
    obtain ⟨k, x⟩ := a
    intro r h v hv
    obtain ⟨s, s', ss, h1, h1', h2, rfl⟩ := fromEntries_cons h
    rcases List.mem_cons.1 hv with rfl | hv
    · exact ⟨⟨s, h1⟩, s', h1'⟩
    · exact ih h2 v hv

theorem storage_no_muxed {objs : List HostObj} (hm : HasMuxed objs v) : ∀ {d s}, fromVal true objs d v ≠ .ok s := by
  induction hm with
  | here hv =>
    intro d s h
    cases d with
    | zero => cases h
    | succ d =>
      obtain ⟨ho, _⟩ := visitObj_ok.1 hv
      obtain ⟨o, h1, h2⟩ := tryFrom_obj ho (fromVal_succ h)
      rw [hv] at h1; cases h1
      simp [fromHostObj] at h2
  | @inside v o w hv hw _ ih =>
    intro d s h
    cases d with
    | zero => cases h
    | succ d =>
      obtain ⟨ho, _⟩ := visitObj_ok.1 hv
      obtain ⟨o', h1, h2⟩ := tryFrom_obj ho (fromVal_succ h)
      rw [hv] at h1; cases h1
      cases o <;> simp only [elems, List.not_mem_nil] at hw
      case vec l =>
        obtain ⟨r, hr, _⟩ := bind_ok.1 h2
        obtain ⟨t, ht⟩ := fromVals_each hr w hw
        exact ih ht
      case map l =>
        obtain ⟨r, hr, _⟩ := bind_ok.1 h2
        simp only [List.mem_append, List.mem_map] at hw
        rcases hw with ⟨p, hp, rfl⟩ | ⟨p, hp, rfl⟩
        · obtain ⟨t, ht⟩ := (fromEntries_each hr p hp).1
          exact ih ht
        · obtain ⟨t, ht⟩ := (fromEntries_each hr p hp).2
          exact ih ht

theorem storage_agree {objs : List HostObj} : ∀ {d v s}, fromVal true objs d v = .ok s → fromVal false objs d v = .ok s := by
  intro d
  induction d with
  | zero => intro v s h; cases h
  | succ d ih =>
    intro v s h
    rw [fromVal] at h ⊢
    obtain ⟨s', h1, h2⟩ := bind_ok.1 h
    refine bind_ok.2 ⟨s', ?_, h2⟩
    cases ho : Val.isObject v with
    | false => unfold scValTryFromVal; rw [if_neg (by simp [ho])]; exact tryFrom_small ho h1
    | true =>
      obtain ⟨o, e1, e2⟩ := tryFrom_obj ho h1
      unfold scValTryFromVal
      rw [if_pos ho]
      refine bind_ok.2 ⟨o, e1, ?_⟩
      cases o <;> simp only [fromHostObj] at e2 ⊢ <;> try exact e2
      · obtain ⟨r, hr, h⟩ := bind_ok.1 e2
        exact bind_ok.2 ⟨r, fromVals_ext (fun v _ s h => ih h) hr, h⟩
      · obtain ⟨r, hr, h⟩ := bind_ok.1 e2
        exact bind_ok.2 ⟨r, fromEntries_ext (fun v s h => ih h) hr, h⟩
      · simp at e2

/-- C04, storage keys: a value containing a muxed address anywhere never becomes a storage key; when the conversion for
storage succeeds it gives the same ledger value as the ordinary one. -/
theorem C04_storage_keys :
    (HasMuxed objs v → ∀ d s, fromVal true objs d v ≠ .ok s) ∧
    (∀ d s, fromVal true objs d v = .ok s → fromVal false objs d v = .ok s) :=
  ⟨fun h _ _ => storage_no_muxed h, fun _ _ => storage_agree⟩

/-! ### non-vacuity -/

/-- A map from a symbol and a large integer to nested vectors: acceptable, converted with five new objects, and back. -/
def exMap : ScVal := .map (some [(.u64 (2^60), .vec (some [.u32 1, .i128 (-1) (2^64 - 1)])),
  (.symbol [97, 98, 99, 100, 101, 102, 103, 104, 105, 106], .vec (some []))])

example : ∃ objs' v, toVal 3 [] exMap = .ok (objs', v) ∧ objs'.length = 5 ∧ fromVal false objs' 3 v = .ok exMap :=
  ⟨_, _, rfl, rfl, rfl⟩

/-- The same map with its entries swapped, and one nested too deep, are rejected. -/
example : toVal 3 [] (.map (some [(.symbol [97], .void), (.u32 1, .void)])) = .error (.host .object .invalidInput) ∧
    toVal 1 [] (.vec (some [.void])) = .error (.host .context .exceededLimit) ∧
    toVal 3 [] (.vec (some [.ledgerKeyNonce 3])) = .error (.host .value .unexpectedType) := ⟨rfl, rfl, rfl⟩

example : HasMuxed [.muxedAddress (.muxedAccount 1 2), .vec [valObject 1 .MuxedAddressObject]] (valObject 3 .VecObject) :=
  .inside rfl (List.mem_singleton.2 rfl) (.here rfl)

end Soroban.Props
