import Verif.Lemmas.CompareHost
/-!
Lemmas for C04 and C05: more depth only turns a depth error into a result, and every sound value denotes a ledger value.
-/
namespace Soroban
open Soroban.Spec

/-- `r` is a depth error or the same result as `r'`. -/
def DepthLe {α : Type} (r r' : Res α) : Prop := r = .error depthErr ∨ r = r'

theorem DepthLe.refl {α : Type} (r : Res α) : DepthLe r r := Or.inr rfl

theorem DepthLe.bind {α β : Type} {r r' : Res α} {f f' : α → Res β} (h : DepthLe r r') (hf : ∀ x, DepthLe (f x) (f' x)) :
    DepthLe (r >>= f) (r' >>= f') := by
  rcases h with rfl | rfl
  · exact Or.inl rfl
  · cases r with
    | error e => exact Or.inr rfl
    | ok x => exact hf x

theorem DepthLe.ok {α : Type} {r r' : Res α} {x : α} (h : DepthLe r r') (hr : r = .ok x) : r' = .ok x := by
  rcases h with h | h
  · rw [h] at hr; cases hr
  · rw [← h, hr]

section
variable {cmp cmp' : Nat → Nat → Res Ordering}

theorem cmpVec_le {α : Type} {f g : α → α → Res Ordering} (h : ∀ a b, DepthLe (f a b) (g a b)) :
    ∀ l m, DepthLe (cmpVec f l m) (cmpVec g l m)
  | [], [] | [], _ :: _ | _ :: _, [] => .refl _
  | a :: l, b :: m => by
    simp only [cmpVec]
    refine (h a b).bind fun o => ?_
    cases o <;> first | exact .refl _ | exact cmpVec_le h l m

theorem cmpPair_le {α : Type} {f g : α → α → Res Ordering} (h : ∀ a b, DepthLe (f a b) (g a b)) (p q : α × α) :
    DepthLe (cmpPair f p q) (cmpPair g p q) := by
  unfold cmpPair
  refine (h _ _).bind fun o => ?_
  cases o <;> first | exact .refl _ | exact h _ _

theorem hostObjCmpBody_le (h : ∀ a b, DepthLe (cmp a b) (cmp' a b)) (a b : HostObj) :
    DepthLe (hostObjCmpBody cmp a b) (hostObjCmpBody cmp' a b) := by
  cases a <;> cases b <;> first
    | exact .refl _
    | exact cmpVec_le h _ _
    | exact cmpVec_le (cmpPair_le h) _ _

theorem objCmp_le {f g : HostObj → HostObj → Res Ordering} (h : ∀ a b, DepthLe (f a b) (g a b)) (objs : List HostObj)
    (a b : Nat) : DepthLe (objCmp f objs a b) (objCmp g objs a b) := by
  unfold objCmp
  split
  · exact (DepthLe.refl _).bind fun ao => (DepthLe.refl _).bind fun bo => (h ao bo).bind fun _ => .refl _
  all_goals exact .refl _

theorem valCmpBody_le {f g : HostObj → HostObj → Res Ordering} (h : ∀ a b, DepthLe (f a b) (g a b)) (objs : List HostObj)
    (a b : Nat) : DepthLe (valCmpBody f objs a b) (valCmpBody g objs a b) := by
  unfold valCmpBody
  split
  · exact .refl _
  · split
    · exact (objCmp_le h objs a b).bind fun _ => .refl _
    · exact .refl _

theorem valCmp_le (objs : List HostObj) : ∀ d k a b, DepthLe (valCmp objs d a b) (valCmp objs (d + k) a b)
  | 0, 0, _, _ => .refl _
  | 0, k + 1, a, b => by
    rw [valCmp, Nat.zero_add, valCmp]
    exact valCmpBody_le (fun _ _ => Or.inl rfl) objs a b
  | d + 1, k, a, b => by
    rw [Nat.add_right_comm, valCmp, valCmp]
    exact valCmpBody_le (hostObjCmpBody_le (valCmp_le objs d k)) objs a b

end

theorem fromVals_le {f g : Nat → Res ScVal} (h : ∀ v, DepthLe (f v) (g v)) : ∀ l, DepthLe (fromVals f l) (fromVals g l)
  | [] => .refl _
  | v :: l => (h v).bind fun _ => (fromVals_le h l).bind fun _ => .refl _

theorem fromEntries_le {f g : Nat → Res ScVal} (h : ∀ v, DepthLe (f v) (g v)) : ∀ l, DepthLe (fromEntries f l) (fromEntries g l)
  | [] => .refl _
  | (k, v) :: l => (h k).bind fun _ => (h v).bind fun _ => (fromEntries_le h l).bind fun _ => .refl _

theorem fromVal_le (fs : Bool) (objs : List HostObj) : ∀ d k v, DepthLe (fromVal fs objs d v) (fromVal fs objs (d + k) v)
  | 0, _, _ => Or.inl rfl
  | d + 1, k, v => by
    rw [Nat.add_right_comm, fromVal, fromVal]
    refine DepthLe.bind ?_ fun _ => .refl _
    unfold scValTryFromVal
    split
    · refine (DepthLe.refl _).bind fun o => ?_
      cases o <;> first
        | exact .refl _
        | exact (fromVals_le (fromVal_le fs objs d k) _).bind fun _ => .refl _
        | exact (fromEntries_le (fromVal_le fs objs d k) _).bind fun _ => .refl _
    · exact .refl _

theorem fromVal_mono {fs : Bool} {objs : List HostObj} {d d' v : Nat} {s : ScVal} (hd : d ≤ d')
    (h : fromVal fs objs d v = .ok s) : fromVal fs objs d' v = .ok s := by
  obtain ⟨k, rfl⟩ := Nat.exists_eq_add_of_le hd
  exact (fromVal_le fs objs d k v).ok h

variable {objs : List HostObj}

theorem Spec.Denotes.unique {v : Nat} {s s' : ScVal} (h : Denotes objs v s) (h' : Denotes objs v s') : s = s' := by
  obtain ⟨d, h⟩ := h
  obtain ⟨d', h'⟩ := h'
  have h1 := fromVal_mono (Nat.le_max_left d d') h
  have h2 := fromVal_mono (Nat.le_max_right d d') h'
  rw [h1] at h2
  exact Except.ok.inj h2

theorem valCmp_denotes (hobjs : ObjsOk objs) {a b : Nat} {sa sb : ScVal} (soa : Sound objs a) (sob : Sound objs b)
    (ha : Denotes objs a sa) (hb : Denotes objs b sb) (d : Nat) :
    valCmp objs d a b = .ok (scOrd sa sb) ∨ valCmp objs d a b = .error depthErr := by
  obtain ⟨da, ha⟩ := ha
  obtain ⟨db, hb⟩ := hb
  have h := valCmp_spec hobjs soa sob (fromVal_mono (Nat.le_max_left da db) ha) (fromVal_mono (Nat.le_max_right da db) hb)
  rcases Nat.le_total d (max da db) with hd | hd
  · obtain ⟨k, hk⟩ := Nat.exists_eq_add_of_le hd
    rcases valCmp_le objs d k a b with h' | h'
    · exact Or.inr h'
    · rw [← hk, h] at h'; exact Or.inl h'
  · obtain ⟨k, hk⟩ := Nat.exists_eq_add_of_le hd
    rw [hk]
    exact Or.inl ((valCmp_le objs _ k a b).ok h)

/-! ### every sound value denotes a ledger value -/

theorem fromVals_total {f : Nat → Res ScVal} : ∀ {l : List Nat}, (∀ v ∈ l, ∃ s, f v = .ok s) → ∃ r, fromVals f l = .ok r
  | [], _ => ⟨[], rfl⟩
  | v :: l, h => by
    obtain ⟨s, hs⟩ := h v (by simp)
    obtain ⟨r, hr⟩ := fromVals_total (l := l) fun w hw => h w (by simp [hw])
    exact ⟨s :: r, by simp [fromVals, hs, hr, bind, Except.bind]⟩

theorem fromEntries_total {f : Nat → Res ScVal} : ∀ {l : List (Nat × Nat)},
    (∀ p ∈ l, (∃ s, f p.1 = .ok s) ∧ ∃ s, f p.2 = .ok s) → ∃ r, fromEntries f l = .ok r
  | [], _ => ⟨[], rfl⟩
  | (k, v) :: l, h => by
    obtain ⟨⟨s, hs⟩, s', hs'⟩ := h (k, v) (by simp)
    obtain ⟨r, hr⟩ := fromEntries_total (l := l) fun w hw => h w (by simp [hw])
    exact ⟨(s, s') :: r, by simp only at hs hs'; simp [fromEntries, hs, hs', hr, bind, Except.bind]⟩

theorem fromHostObj_total {f : Nat → Res ScVal} {o : HostObj} (h : ∀ v ∈ elems o, ∃ s, f v = .ok s) :
    ∃ s, fromHostObj f false o = .ok s ∧ canRepresent s = true := by
  cases o <;> simp only [fromHostObj] <;> try exact ⟨_, rfl, rfl⟩
  case vec l =>
    obtain ⟨r, hr⟩ := fromVals_total (f := f) (l := l) fun v hv => h v hv
    exact ⟨_, by rw [hr]; rfl, rfl⟩
  case map l =>
    obtain ⟨r, hr⟩ := fromEntries_total (f := f) (l := l) fun p hp => ⟨h _ (elem_map_fst hp), h _ (elem_map_snd hp)⟩
    exact ⟨_, by rw [hr]; rfl, rfl⟩

theorem fromU8_small : ∀ k : Fin 256, Tag.u8IsObject k = false → Tag.u8IsObject (Tag.fromU8 k).code = false := by decide +kernel

theorem small_tag {v : Nat} (h : Val.isObject v = false) : Tag.u8IsObject (Val.tag v).code = false := by
  unfold Val.tag
  unfold Val.isObject at h
  rw [tagU8_eq] at h ⊢
  exact fromU8_small ⟨v % 256, by omega⟩ h

theorem fromSmallVal_total {v : Nat} (hg : Val.isGood v = true) (ho : Val.isObject v = false) :
    ∃ s, fromSmallVal v = .ok s ∧ canRepresent s = true := by
  unfold fromSmallVal
  unfold Val.isGood Val.goodFor at hg
  split <;> try exact ⟨_, rfl, rfl⟩
  · rename_i ht
    rw [ht] at hg
    have : errorIsValid v = true := by simpa using hg
    rw [if_pos this]
    exact ⟨_, rfl, rfl⟩
  · exfalso
    have := small_tag ho
    cases ht : Val.tag v <;> first | (simp_all; done) | (rw [ht] at this; exact absurd this (by decide))

theorem fromVal_total (hobjs : ObjsOk objs) : ∀ n d v, n < d → Sound (objs.take n) v → ∃ s, fromVal false objs d v = .ok s := by
  intro n
  induction n using Nat.strongRecOn with
  | _ n ih =>
    intro d v hd hs
    obtain ⟨d, rfl⟩ : ∃ e, d = e + 1 := ⟨d - 1, by omega⟩
    rw [fromVal]
    unfold scValTryFromVal
    obtain ⟨hv, hi⟩ := hs
    unfold checkIntegrity at hi
    split at hi
    · cases hi
    · rename_i hg
      cases ho : Val.isObject v with
      | false =>
        obtain ⟨s, h1, h2⟩ := fromSmallVal_total (by simpa using hg) ho
        exact ⟨s, by simp [h1, checkRepresentable, h2, bind, Except.bind]⟩
      | true =>
        rw [if_pos ho] at hi
        cases hvo : visitObj (objs.take n) v with
        | error e => rw [hvo] at hi; cases hi
        | ok o =>
          have hvo' := visitObj_take hvo
          obtain ⟨_, _, hm⟩ := visitObj_ok.1 hvo
          rw [List.getElem?_take] at hm
          split at hm
          · rename_i hlt
            obtain ⟨hok, hel⟩ := hobjs _ _ hm
            obtain ⟨s, h1, h2⟩ := fromHostObj_total (f := fromVal false objs d) (o := o) fun w hw =>
              ih _ hlt d w (by omega) (hel w hw)
            exact ⟨s, by simp [hvo', h1, checkRepresentable, h2, bind, Except.bind]⟩
          · cases hm

theorem denotes_total (hobjs : ObjsOk objs) {v : Nat} (hs : Sound objs v) : ∃ s, Denotes objs v s := by
  obtain ⟨s, h⟩ := fromVal_total hobjs objs.length (objs.length + 1) v (by omega) (by rwa [List.take_length])
  exact ⟨s, _, h⟩

theorem denotes_xdrOk (hobjs : ObjsOk objs) {v : Nat} {s : ScVal} (hs : Sound objs v) (h : Denotes objs v s) : XdrOk s := by
  obtain ⟨d, h⟩ := h
  exact fromVal_xdrOk hobjs hs.1 h

theorem fromVal_comparable : ∀ {d v : Nat} {s : ScVal}, fromVal false objs d v = .ok s → Comparable d s := by
  intro d
  induction d with
  | zero => intro v s h; simp [fromVal] at h
  | succ d ih =>
    intro v s h
    have h := fromVal_succ h
    cases ho : Val.isObject v with
    | false =>
      have h := tryFrom_small ho h
      unfold fromSmallVal at h
      split at h <;> first
        | (cases h; done)
        | (cases h; intro x hx; simp [children] at hx; done)
        | (split at h <;> cases h
           intro x hx; simp [children] at hx)
    | true =>
      obtain ⟨o, _, h2⟩ := tryFrom_obj ho h
      cases o <;> simp only [fromHostObj, Bool.false_eq_true, if_false] at h2 <;> try (cases h2; intro x hx; simp [children] at hx; done)
      case vec l =>
        obtain ⟨r, hr, h⟩ := bind_ok.1 h2; cases h
        intro x hx
        obtain ⟨w, hw, hr⟩ := fromVals_mem hr x hx
        exact ih hr
      case map l =>
        obtain ⟨r, hr, h⟩ := bind_ok.1 h2; cases h
        intro x hx
        simp only [children, List.mem_flatMap, List.mem_cons, List.not_mem_nil, or_false] at hx
        obtain ⟨p, hp, hx⟩ := hx
        obtain ⟨q, hq, hr1, hr2⟩ := fromEntries_mem hr p hp
        rcases hx with rfl | rfl
        · exact ih hr1
        · exact ih hr2

end Soroban
