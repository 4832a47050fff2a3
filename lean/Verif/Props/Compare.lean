import Verif.Lemmas.Denote
/-!
C05: the host's comparison of values is the order of the ledger values they stand for.

`ObjsOk objs` describes the host's object table, `Sound objs v` the values the host hands out; `Denotes objs v s` says that
`v` converts to the ledger value `s`, and `scOrd` (Spec/ScVal.lean) is the order on ledger values.
-/
namespace Soroban.Props
open Soroban.Spec

variable {objs : List HostObj}

/-- C05: comparing two values gives the order of the ledger values they stand for, or fails for lack of depth. It does not
fail when the depth left suffices to convert both. Every value stands for a ledger value, and for one only. -/
theorem C05_compare (hobjs : ObjsOk objs) {a b : Nat} (ha : Sound objs a) (hb : Sound objs b) :
    ∃ sa sb, Denotes objs a sa ∧ Denotes objs b sb ∧ XdrOk sa ∧ XdrOk sb ∧
      (∀ s, Denotes objs a s → s = sa) ∧ (∀ s, Denotes objs b s → s = sb) ∧
      ∀ d, (valCmp objs d a b = .ok (scOrd sa sb) ∨ valCmp objs d a b = .error (.host .context .exceededLimit)) ∧
        (fromVal false objs d a = .ok sa → fromVal false objs d b = .ok sb → valCmp objs d a b = .ok (scOrd sa sb)) := by
  obtain ⟨sa, hsa⟩ := denotes_total hobjs ha
  obtain ⟨sb, hsb⟩ := denotes_total hobjs hb
  exact ⟨sa, sb, hsa, hsb, denotes_xdrOk hobjs ha hsa, denotes_xdrOk hobjs hb hsb, fun s h => h.unique hsa,
    fun s h => h.unique hsb, fun d => ⟨valCmp_denotes hobjs ha hb hsa hsb d, fun h1 h2 => valCmp_spec hobjs ha hb h1 h2⟩⟩

/-- C05, `obj_cmp`: the host function returns -1, 0 or 1 as the first value's ledger value is less than, equal to or greater
than the second's; it is defined when at least one argument is an object, and fails only for lack of depth. -/
theorem C05_obj_cmp (hobjs : ObjsOk objs) {a b : Nat} (ha : Sound objs a) (hb : Sound objs b) {sa sb : ScVal}
    (hsa : Denotes objs a sa) (hsb : Denotes objs b sb) :
    (Val.isObject a = true ∨ Val.isObject b = true →
      ∀ d, objCmp (hostObjCmp objs d) objs a b =
          .ok (match scOrd sa sb with | .lt => -1 | .eq => 0 | .gt => 1) ∨
        objCmp (hostObjCmp objs d) objs a b = .error (.host .context .exceededLimit)) ∧
    (Val.isObject a = false ∧ Val.isObject b = false →
      ∀ d, objCmp (hostObjCmp objs d) objs a b = .error (.host .value .unexpectedType)) := by
  constructor
  · intro hor d
    have hi : (match scOrd sa sb with | .lt => -1 | .eq => 0 | .gt => 1 : Int) = ordToInt (scOrd sa sb) := by
      cases scOrd sa sb <;> rfl
    rw [hi]
    obtain ⟨da, hda⟩ := hsa
    obtain ⟨db, hdb⟩ := hsb
    have h1 := fromVal_succ (fromVal_mono (show da ≤ max da db + 1 by omega) hda)
    have h2 := fromVal_succ (fromVal_mono (show db ≤ max da db + 1 by omega) hdb)
    have h := objCmp_spec hobjs (cmp := valCmp objs (max da db))
      (fun x y sx sy e1 e2 e3 e4 => valCmp_spec hobjs e1 e2 e3 e4) ha hb hor h1 h2
    have hle : ∀ n k x y, DepthLe (hostObjCmp objs n x y) (hostObjCmp objs (n + k) x y) := by
      intro n k x y
      cases n with
      | zero => exact Or.inl rfl
      | succ n =>
        rw [Nat.add_right_comm]
        exact hostObjCmpBody_le (valCmp_le objs n k) x y
    change objCmp (hostObjCmp objs (max da db + 1)) objs a b = _ at h
    rcases Nat.le_total d (max da db + 1) with hd | hd
    · obtain ⟨k, hk⟩ := Nat.exists_eq_add_of_le hd
      rcases objCmp_le (hle d k) objs a b with h' | h'
      · exact Or.inr h'
      · rw [← hk, h] at h'; exact Or.inl h'
    · obtain ⟨k, hk⟩ := Nat.exists_eq_add_of_le hd
      rw [hk]
      exact Or.inl ((objCmp_le (hle _ k) objs a b).ok h)
  · rintro ⟨h1, h2⟩ d
    simp only [objCmp, h1, h2]

/-- C05, total order: whenever the comparisons succeed, comparing is reflexive, swapping the arguments swaps the result, the
order is transitive, and two values compare equal exactly when they stand for the same ledger value. -/
theorem C05_total_order (hobjs : ObjsOk objs) (d : Nat) {a b c : Nat} (ha : Sound objs a) (hb : Sound objs b)
    (hc : Sound objs c) {oab oba obc oac : Ordering} (hab : valCmp objs d a b = .ok oab) (hba : valCmp objs d b a = .ok oba)
    (hbc : valCmp objs d b c = .ok obc) (hac : valCmp objs d a c = .ok oac) :
    valCmp objs d a a = .ok .eq ∧ oba = oab.swap ∧
    (oab = .lt → obc ≠ .gt → oac = .lt) ∧ (oab ≠ .gt → obc = .lt → oac = .lt) ∧ (oab = .eq → oac = obc) ∧
    (oab = .eq ↔ ∃ s, Denotes objs a s ∧ Denotes objs b s) := by
  obtain ⟨sa, hsa⟩ := denotes_total hobjs ha
  obtain ⟨sb, hsb⟩ := denotes_total hobjs hb
  obtain ⟨sc, hsc⟩ := denotes_total hobjs hc
  have key : ∀ {x y sx sy o}, Sound objs x → Sound objs y → Denotes objs x sx → Denotes objs y sy →
      valCmp objs d x y = .ok o → o = scOrd sx sy := by
    intro x y sx sy o h1 h2 h3 h4 h
    rcases valCmp_denotes hobjs h1 h2 h3 h4 d with h' | h' <;> rw [h'] at h <;> cases h
    rfl
  have e1 := key ha hb hsa hsb hab
  have e2 := key hb ha hsb hsa hba
  have e3 := key hb hc hsb hsc hbc
  have e4 := key ha hc hsa hsc hac
  subst e1 e2 e3 e4
  haveI := scOrd_trans
  refine ⟨?_, Std.OrientedCmp.eq_swap, ?_, ?_, ?_, ?_⟩
  · cases d <;> simp [valCmp, valCmpBody]
  · intro h1 h2
    exact Std.TransCmp.lt_of_lt_of_isLE h1 (by cases h : scOrd sb sc <;> simp_all)
  · intro h1 h2
    exact Std.TransCmp.lt_of_isLE_of_lt (by cases h : scOrd sa sb <;> simp_all) h2
  · intro h1
    exact Std.TransCmp.congr_left h1
  · rw [scOrd_eq_iff (denotes_xdrOk hobjs ha hsa) (denotes_xdrOk hobjs hb hsb)]
    constructor
    · rintro rfl; exact ⟨sa, hsa, hsb⟩
    · rintro ⟨s, h1, h2⟩
      rw [hsa.unique h1, hsb.unique h2]

/-- C05, representation: two values that stand for the same ledger value (an integer held inline or as an object, a symbol
held inline or as an object, two copies of a vector) compare alike with every value, on either side. -/
theorem C05_representation (hobjs : ObjsOk objs) {a a' c : Nat} (ha : Sound objs a) (ha' : Sound objs a') (hc : Sound objs c)
    {s : ScVal} (h : Denotes objs a s) (h' : Denotes objs a' s) (d : Nat) {o o' : Ordering} :
    (valCmp objs d a c = .ok o → valCmp objs d a' c = .ok o' → o = o') ∧
    (valCmp objs d c a = .ok o → valCmp objs d c a' = .ok o' → o = o') := by
  obtain ⟨sc, hsc⟩ := denotes_total hobjs hc
  constructor <;> intro h1 h2
  · rcases valCmp_denotes hobjs ha hc h hsc d with e | e <;> rw [e] at h1 <;> cases h1
    rcases valCmp_denotes hobjs ha' hc h' hsc d with e | e <;> rw [e] at h2 <;> cases h2
    rfl
  · rcases valCmp_denotes hobjs hc ha hsc h d with e | e <;> rw [e] at h1 <;> cases h1
    rcases valCmp_denotes hobjs hc ha' hsc h' d with e | e <;> rw [e] at h2 <;> cases h2
    rfl

/-- C05, ledger values: the comparison of ledger values (used for ledger keys) is the same order, for every pair of legal
values without missing bodies that are not nested deeper than the limit. -/
theorem C05_ledger_values {d : Nat} {s s' : ScVal} (hc : Comparable d s) (hc' : Comparable d s') (hx : XdrOk s) (hx' : XdrOk s') :
    scValCmp d s s' = .ok (scOrd s s') :=
  scValCmp_spec hc hc' hx hx'

/-- C05: comparing two host values, and comparing the ledger values they convert to, give the same result. -/
theorem C05_agree (hobjs : ObjsOk objs) {d a b : Nat} {sa sb : ScVal} (ha : Sound objs a) (hb : Sound objs b)
    (hsa : fromVal false objs d a = .ok sa) (hsb : fromVal false objs d b = .ok sb) :
    scValCmp d sa sb = valCmp objs d a b ∧ ∃ o, valCmp objs d a b = .ok o := by
  rw [valCmp_spec hobjs ha hb hsa hsb, scValCmp_spec (fromVal_comparable hsa) (fromVal_comparable hsb)
    (denotes_xdrOk hobjs ha ⟨d, hsa⟩) (denotes_xdrOk hobjs hb ⟨d, hsb⟩)]
  exact ⟨rfl, _, rfl⟩

/-! ### non-vacuity -/

/-- A table with a 64-bit integer too large for a word, the text "ab" as an object, and vectors of both. -/
def exTable : List HostObj := [.u64 (2^60), .symbol [97, 98], .vec [valObject 1 .U64Object, valU32 7],
  .vec [valObject 1 .U64Object, valU32 8], .vec [valObject 5 .VecObject, valObject 3 .SymbolObject]]

theorem exTable_ok : ObjsOk exTable := by
  intro i o h
  match i with
  | 0 => cases h; exact ⟨by simp [ObjOk], by simp [elems]⟩
  | 1 => cases h; exact ⟨trivial, by simp [elems]⟩
  | 2 => cases h; refine ⟨trivial, ?_⟩; intro v hv; simp only [elems, List.mem_cons, List.not_mem_nil, or_false] at hv
         rcases hv with rfl | rfl <;> exact ⟨by decide, rfl⟩
  | 3 => cases h; refine ⟨trivial, ?_⟩; intro v hv; simp only [elems, List.mem_cons, List.not_mem_nil, or_false] at hv
         rcases hv with rfl | rfl <;> exact ⟨by decide, rfl⟩
  | 4 => cases h; refine ⟨trivial, ?_⟩; intro v hv; simp only [elems, List.mem_cons, List.not_mem_nil, or_false] at hv
         rcases hv with rfl | rfl <;> exact ⟨by decide, rfl⟩
  | n + 5 => simp [exTable] at h

/-- An inline symbol and an object symbol with the same text are equal; nested vectors compare by elements. -/
example : (∃ v, symbolTryFromBytes [97, 98] = some v ∧ valCmp exTable 100 v (valObject 3 .SymbolObject) = .ok .eq) ∧
    valCmp exTable 100 (valObject 5 .VecObject) (valObject 7 .VecObject) = .ok .lt ∧
    valCmp exTable 100 (valObject 9 .VecObject) (valObject 7 .VecObject) = .ok .gt ∧
    valCmp exTable 1 (valObject 9 .VecObject) (valObject 7 .VecObject) = .error (.host .context .exceededLimit) :=
  ⟨⟨_, rfl, rfl⟩, rfl, rfl, rfl⟩

example : Sound exTable (valObject 9 .VecObject) ∧ Sound exTable (valU32 3) ∧
    fromVal false exTable 3 (valObject 9 .VecObject) =
      .ok (.vec (some [.vec (some [.u64 (2^60), .u32 7]), .symbol [97, 98]])) :=
  ⟨⟨by decide, rfl⟩, ⟨by decide, rfl⟩, rfl⟩

end Soroban.Props
