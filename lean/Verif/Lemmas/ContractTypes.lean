import Verif.Spec.ContractTypes
import Verif.Lemmas.Preimage
import Verif.Lemmas.LedgerKey
import Verif.Props.MemoryMaps
/-!
Reading values as structs and enums.
-/
namespace Soroban.ContractTypes
open Soroban Soroban.Spec Soroban.Preimage Soroban.ContractTypes.Spec
open Soroban.Props (visitBytes_ok visitString_ok visitSymbol_ok symbolText_ok symbol_reads)
open Soroban.Strkey (visitAddress)
open Soroban.Keys (lexCmp_eq)

/-- A value that passes the integrity check, and what it stands for. -/
def Is (objs : List HostObj) (v : Nat) (s : ScVal) : Prop := Sound objs v ∧ Denotes objs v s

variable {objs : List HostObj}

theorem Is.append {v : Nat} {s : ScVal} (h : Is objs v s) (e : List HostObj) : Is (objs ++ e) v s :=
  ⟨h.1.append, let ⟨d, hd⟩ := h.2; ⟨d, fromVal_append hd⟩⟩

theorem sound_obj {v : Nat} {o : HostObj} (hs : Sound objs v) (ho : visitObj objs v = .ok o) : o.tag = Val.tag v := by
  have hi := hs.2
  unfold checkIntegrity at hi
  split at hi
  · cases hi
  · rw [if_pos (visitObj_ok.1 ho).1, ho] at hi
    dsimp only at hi
    split at hi
    · assumption
    · cases hi

theorem sound_visit {v : Nat} (hs : Sound objs v) (hv : Val.isObject v = true) : ∃ o, visitObj objs v = .ok o := by
  have hi := hs.2
  unfold checkIntegrity at hi
  cases ho : visitObj objs v with
  | ok o => exact ⟨o, rfl⟩
  | error e =>
    split at hi
    · cases hi
    · rw [ho] at hi; cases hi

theorem is_obj (hobjs : ObjsOk objs) {v : Nat} {s : ScVal} {o : HostObj} (h : Is objs v s) (ho : visitObj objs v = .ok o) :
    o.tag = Val.tag v ∧ (∃ d, fromHostObj (fromVal false objs d) false o = .ok s) ∧ (∀ w ∈ elems o, Sound objs w) ∧ ObjOk o := by
  obtain ⟨hs, d, hd⟩ := h
  refine ⟨sound_obj hs ho, ?_, ?_⟩
  · cases d with
    | zero => cases hd
    | succ d =>
      have := fromVal_succ hd
      unfold scValTryFromVal at this
      rw [if_pos (visitObj_ok.1 ho).1, ho] at this
      exact ⟨d, this⟩
  · obtain ⟨_, _, hm⟩ := visitObj_ok.1 ho
    obtain ⟨h1, h2⟩ := hobjs _ _ hm
    refine ⟨fun w hw => ?_, h1⟩
    have := (h2 w hw).append (extra := objs.drop (handleToIndex (objHandle v)))
    rwa [List.take_append_drop] at this

/-- Values that are only made of objects. -/
def OfObject : ScVal → Bool
  | .vec _ | .map _ | .bytes _ | .string _ | .address _ => true
  | _ => false

theorem is_object {v : Nat} {s : ScVal} (h : Is objs v s) (hs : OfObject s = true) : ∃ o, visitObj objs v = .ok o := by
  obtain ⟨hs', d, hd⟩ := h
  cases hv : Val.isObject v with
  | true => exact sound_visit hs' hv
  | false =>
    cases d with
    | zero => cases hd
    | succ d =>
      have := fromVal_succ hd
      unfold scValTryFromVal at this
      rw [if_neg (by rw [hv]; decide)] at this
      unfold fromSmallVal at this
      split at this <;> first | (cases this; done) | (cases this; cases hs; done) | (split at this <;> cases this; cases hs; done)

theorem fromVals_is {d : Nat} : ∀ {l : List Nat} {r : List ScVal}, fromVals (fromVal false objs d) l = .ok r →
    (∀ w ∈ l, Sound objs w) → List.Forall₂ (Is objs) l r
  | [], r, h, _ => by cases h; exact .nil
  | v :: vs, r, h, hs => by
    rw [fromVals] at h
    obtain ⟨s, h1, h⟩ := bind_ok.mp h
    obtain ⟨ss, h2, h⟩ := bind_ok.mp h
    cases h
    exact .cons ⟨hs v (by simp), d, h1⟩ (fromVals_is h2 fun w hw => hs w (by simp [hw]))

theorem fromEntries_is {d : Nat} : ∀ {l : List (Nat × Nat)} {r : List (ScVal × ScVal)}, fromEntries (fromVal false objs d) l = .ok r →
    (∀ p ∈ l, Sound objs p.1 ∧ Sound objs p.2) → List.Forall₂ (fun p q => Is objs p.1 q.1 ∧ Is objs p.2 q.2) l r
  | [], r, h, _ => by cases h; exact .nil
  | (k, v) :: vs, r, h, hs => by
    rw [fromEntries] at h
    obtain ⟨k', h1, h⟩ := bind_ok.mp h
    obtain ⟨v', h2, h⟩ := bind_ok.mp h
    obtain ⟨ss, h3, h⟩ := bind_ok.mp h
    cases h
    exact .cons ⟨⟨(hs (k, v) (by simp)).1, d, h1⟩, ⟨(hs (k, v) (by simp)).2, d, h2⟩⟩ (fromEntries_is h3 fun w hw => hs w (by simp [hw]))

/-! ### What handles stand for -/

theorem is_vec (hobjs : ObjsOk objs) {v : Nat} {s : ScVal} {l : List Nat} (h : Is objs v s) (ho : visitVec objs v = .ok l) :
    ∃ r, s = .vec (some r) ∧ List.Forall₂ (Is objs) l r := by
  obtain ⟨_, ⟨d, hd⟩, h2, _⟩ := is_obj hobjs h (visitVec_ok.1 ho)
  obtain ⟨r, h3, h4⟩ := bind_ok.mp hd
  cases h4
  exact ⟨r, rfl, fromVals_is h3 h2⟩

theorem is_map (hobjs : ObjsOk objs) {v : Nat} {s : ScVal} {m : List (Nat × Nat)} (h : Is objs v s) (ho : visitMap objs v = .ok m) :
    ∃ r, s = .map (some r) ∧ List.Forall₂ (fun p q => Is objs p.1 q.1 ∧ Is objs p.2 q.2) m r := by
  obtain ⟨_, ⟨d, hd⟩, h2, _⟩ := is_obj hobjs h (visitMap_ok.1 ho)
  obtain ⟨r, h3, h4⟩ := bind_ok.mp hd
  cases h4
  refine ⟨r, rfl, fromEntries_is h3 fun p hp => ⟨h2 _ ?_, h2 _ ?_⟩⟩
  · exact List.mem_append_left _ (List.mem_map_of_mem hp)
  · exact List.mem_append_right _ (List.mem_map_of_mem hp)

theorem is_bytes (hobjs : ObjsOk objs) {v : Nat} {s : ScVal} {b : List Nat} (h : Is objs v s) (ho : visitBytes objs v = .ok b) :
    s = .bytes b := by
  obtain ⟨_, ⟨d, hd⟩, _⟩ := is_obj hobjs h (visitBytes_ok.1 ho)
  cases hd; rfl

theorem is_string (hobjs : ObjsOk objs) {v : Nat} {s : ScVal} {b : List Nat} (h : Is objs v s) (ho : visitString objs v = .ok b) :
    s = .string b := by
  obtain ⟨_, ⟨d, hd⟩, _⟩ := is_obj hobjs h (visitString_ok.1 ho)
  cases hd; rfl

theorem is_address (hobjs : ObjsOk objs) {v : Nat} {s : ScVal} {a : ScAddr} (h : Is objs v s) (ho : visitAddress objs v = .ok a) :
    s = .address a ∧ Plain a := by
  obtain ⟨_, ⟨d, hd⟩, _, h2⟩ := is_obj hobjs h (visitAddress_iff.1 ho)
  cases hd; exact ⟨rfl, h2⟩

theorem is_symbol {v : Nat} {s : ScVal} {t : List Nat} (h : Is objs v s) (ho : symbolText objs v = .ok t) : s = .symbol t :=
  Denotes.unique h.2 ⟨1, symbol_reads ho 0⟩

/-! ### The other way round -/

theorem vec_is (hobjs : ObjsOk objs) {v : Nat} {r : List ScVal} (h : Is objs v (.vec (some r))) :
    Val.tag v = .VecObject ∧ ∃ l, visitVec objs v = .ok l ∧ List.Forall₂ (Is objs) l r := by
  obtain ⟨o, ho⟩ := is_object h rfl
  obtain ⟨h1, ⟨d, hd⟩, h2, _⟩ := is_obj hobjs h ho
  cases o with
  | vec l =>
    obtain ⟨r, h3, h4⟩ := bind_ok.mp hd
    cases h4
    exact ⟨h1.symm, l, visitVec_ok.2 ho, fromVals_is h3 h2⟩
  | map m => obtain ⟨_, _, h4⟩ := bind_ok.mp hd; cases h4
  | _ => cases hd

theorem map_is (hobjs : ObjsOk objs) {v : Nat} {r : List (ScVal × ScVal)} (h : Is objs v (.map (some r))) :
    Val.tag v = .MapObject ∧ ∃ m, visitMap objs v = .ok m ∧ List.Forall₂ (fun p q => Is objs p.1 q.1 ∧ Is objs p.2 q.2) m r := by
  obtain ⟨o, ho⟩ := is_object h rfl
  obtain ⟨h1, ⟨d, hd⟩, h2, _⟩ := is_obj hobjs h ho
  cases o with
  | map m =>
    obtain ⟨r', h3, h4⟩ := is_map hobjs h (visitMap_ok.2 ho)
    cases h3
    exact ⟨h1.symm, m, visitMap_ok.2 ho, h4⟩
  | vec m => obtain ⟨_, _, h4⟩ := bind_ok.mp hd; cases h4
  | _ => cases hd

theorem bytes_is (hobjs : ObjsOk objs) {v : Nat} {b : List Nat} (h : Is objs v (.bytes b)) :
    Val.tag v = .BytesObject ∧ visitBytes objs v = .ok b := by
  obtain ⟨o, ho⟩ := is_object h rfl
  obtain ⟨h1, ⟨d, hd⟩, _⟩ := is_obj hobjs h ho
  cases o with
  | bytes b' => cases hd; exact ⟨h1.symm, visitBytes_ok.2 ho⟩
  | vec m => obtain ⟨_, _, h4⟩ := bind_ok.mp hd; cases h4
  | map m => obtain ⟨_, _, h4⟩ := bind_ok.mp hd; cases h4
  | _ => cases hd

theorem string_is (hobjs : ObjsOk objs) {v : Nat} {b : List Nat} (h : Is objs v (.string b)) :
    Val.tag v = .StringObject ∧ visitString objs v = .ok b := by
  obtain ⟨o, ho⟩ := is_object h rfl
  obtain ⟨h1, ⟨d, hd⟩, _⟩ := is_obj hobjs h ho
  cases o with
  | string b' => cases hd; exact ⟨h1.symm, visitString_ok.2 ho⟩
  | vec m => obtain ⟨_, _, h4⟩ := bind_ok.mp hd; cases h4
  | map m => obtain ⟨_, _, h4⟩ := bind_ok.mp hd; cases h4
  | _ => cases hd

theorem address_is (hobjs : ObjsOk objs) {v : Nat} {a : ScAddr} (h : Is objs v (.address a)) (hp : Plain a) :
    Val.tag v = .AddressObject ∧ visitAddress objs v = .ok a := by
  obtain ⟨o, ho⟩ := is_object h rfl
  obtain ⟨h1, ⟨d, hd⟩, _, h2⟩ := is_obj hobjs h ho
  cases o with
  | address b' => cases hd; exact ⟨h1.symm, visitAddress_iff.2 ho⟩
  | muxedAddress b =>
    cases hd
    obtain ⟨i, k, e⟩ := h2
    rcases hp with ⟨j, e'⟩ | ⟨j, e'⟩ <;> (rw [e] at e'; cases e')
  | vec m => obtain ⟨_, _, h4⟩ := bind_ok.mp hd; cases h4
  | map m => obtain ⟨_, _, h4⟩ := bind_ok.mp hd; cases h4
  | _ => cases hd

theorem symbol_is (hobjs : ObjsOk objs) {v : Nat} {t : List Nat} (h : Is objs v (.symbol t)) : symbolText objs v = .ok t := by
  cases hv : Val.isObject v with
  | true =>
    obtain ⟨o, ho⟩ := sound_visit h.1 hv
    obtain ⟨h1, ⟨d, hd⟩, _⟩ := is_obj hobjs h ho
    cases o with
    | symbol b' => cases hd; exact symbolText_ok.2 (Or.inr ⟨h1.symm, ho⟩)
    | vec m => obtain ⟨_, _, h4⟩ := bind_ok.mp hd; cases h4
    | map m => obtain ⟨_, _, h4⟩ := bind_ok.mp hd; cases h4
    | _ => cases hd
  | false =>
    obtain ⟨_, d, hd⟩ := h
    cases d with
    | zero => cases hd
    | succ d =>
      have := fromVal_succ hd
      unfold scValTryFromVal at this
      rw [if_neg (by rw [hv]; decide)] at this
      unfold fromSmallVal at this
      split at this <;> first | (cases this; done) | (split at this <;> cases this; done) | skip
      rename_i ht
      cases this
      exact symbolText_ok.2 (Or.inl ⟨ht, rfl⟩)

theorem asSym_ok {v : Nat} {t : List Nat} (h : symbolText objs v = .ok t) : asSym v = .ok v := by
  unfold asSym
  rcases symbolText_ok.1 h with ⟨h1, _⟩ | ⟨h1, _⟩
  · rw [if_pos h1]
  · rw [if_neg (by rw [h1]; decide), if_pos h1]

/-- A value with the tag of a symbol has a text. -/
theorem asSym_is (hobjs : ObjsOk objs) {v w : Nat} {s : ScVal} (h : Is objs v s) (hw : asSym v = .ok w) :
    w = v ∧ ∃ t, s = .symbol t ∧ symbolText objs v = .ok t := by
  unfold asSym at hw
  split at hw
  · rename_i ht
    cases hw
    have := symbolText_ok (objs := objs).2 (Or.inl ⟨ht, rfl⟩)
    exact ⟨rfl, _, is_symbol h this, this⟩
  · split at hw
    · rename_i ht
      cases hw
      refine ⟨rfl, ?_⟩
      have hv : Val.isObject v = true := by
        cases hv : Val.isObject v with
        | true => rfl
        | false => have := small_tag hv; rw [ht] at this; cases this
      obtain ⟨o, ho⟩ := sound_visit h.1 hv
      obtain ⟨h1, ⟨d, hd⟩, _⟩ := is_obj hobjs h ho
      rw [ht] at h1
      cases o with
      | symbol b => cases hd; exact ⟨b, rfl, symbolText_ok.2 (Or.inr ⟨ht, ho⟩)⟩
      | _ => cases h1
    · cases hw

theorem asObj_ok {t : Tag} {v w : Nat} : asObj t v = .ok w ↔ Val.tag v = t ∧ w = v := by
  unfold asObj
  split
  · rename_i h; exact ⟨fun e => by cases e; exact ⟨h, rfl⟩, fun ⟨_, e⟩ => by rw [e]⟩
  · rename_i h; exact ⟨(fun e => by cases e), fun ⟨e, _⟩ => absurd e h⟩

/-! ### Structs -/

/-- Each name is before the later ones. -/
def Asc (ts : List (List Nat)) : Prop := ts.Pairwise fun a b => lexCmp a b = .lt

instance (ts : List (List Nat)) : Decidable (Asc ts) := inferInstanceAs (Decidable (List.Pairwise _ ts))

theorem unpackCmp_text {k : Nat} {t : List Nat} {o : Ordering} : unpackCmp objs (.inl k) (.inr t) = .ok o ↔
    ∃ s, symbolText objs k = .ok s ∧ o = lexCmp s t := by
  unfold unpackCmp
  rw [show keyText objs (.inl k) = symbolText objs k from rfl, show keyText objs (.inr t) = .ok t from rfl]
  cases symbolText objs k with
  | error e => exact ⟨(fun h => by cases h), (fun ⟨_, h, _⟩ => by cases h)⟩
  | ok s => exact ⟨(fun h => by cases h; exact ⟨s, rfl, rfl⟩), (fun ⟨_, h, h'⟩ => by cases h; rw [h']; rfl)⟩

theorem unpackLoop_texts : ∀ {ts : List (List Nat)} {m : List (Nat × Nat)} {prev : Option (Nat ⊕ List Nat)} {vs : List Nat}
    {rest : List ((Nat ⊕ List Nat) × Nat)}, m.length = ts.length → Asc ts →
    (∀ q, prev = some q → ∃ p, q = .inr p ∧ ∀ t ∈ ts, lexCmp p t = .lt) →
    (unpackLoop (unpackCmp objs) valVoid false prev (m.map (fun p => (.inl p.1, p.2))) (ts.map .inr) = .ok (vs, rest) ↔
      List.Forall₂ (fun p t => symbolText objs p.1 = .ok t) m ts ∧ vs = m.map Prod.snd ∧ rest = [])
  | [], [], prev, vs, rest, _, _, _ => by
    simp only [List.map_nil, unpackLoop]
    constructor
    · intro h; cases h; exact ⟨.nil, rfl, rfl⟩
    · rintro ⟨_, rfl, rfl⟩; rfl
  | t :: ts, (k, v) :: m, prev, vs, rest, hl, ha, hp => by
    obtain ⟨ha1, ha2⟩ := List.pairwise_cons.1 ha
    simp only [List.map_cons, unpackLoop]
    have hc : checkPrev (unpackCmp objs) true prev (.inr t) = .ok () := by
      cases prev with
      | none => rfl
      | some q =>
        obtain ⟨p, rfl, h⟩ := hp q rfl
        unfold checkPrev unpackCmp keyText
        simp [bind, Except.bind, h t (by simp)]
    rw [hc]
    dsimp only
    have ih := fun vs rest => unpackLoop_texts (ts := ts) (m := m) (prev := some (.inr t)) (vs := vs) (rest := rest)
      (by simpa using hl) ha2 (fun q hq => by cases hq; exact ⟨t, rfl, ha1⟩)
    constructor
    · intro h
      rw [unpackOne] at h
      cases hx : unpackCmp objs (.inl k) (.inr t) with
      | error e => rw [hx] at h; cases h
      | ok o =>
        rw [hx] at h
        obtain ⟨s, h1, rfl⟩ := unpackCmp_text.1 hx
        dsimp only at h
        rw [if_neg (by decide)] at h
        by_cases hs : lexCmp s t = .eq
        · rw [if_neg (by rw [hs]; decide)] at h
          dsimp only at h
          cases hy : unpackLoop (unpackCmp objs) valVoid false (some (.inr t)) (m.map (fun p => (.inl p.1, p.2))) (ts.map .inr) with
          | error e => rw [hy] at h; cases h
          | ok r =>
            obtain ⟨vs', rest'⟩ := r
            rw [hy] at h
            cases h
            obtain ⟨h2, h3, h4⟩ := (ih _ _).1 hy
            rw [lexCmp_eq] at hs
            subst hs
            exact ⟨.cons h1 h2, by rw [h3], h4⟩
        · rw [if_pos (by simpa using hs)] at h
          cases h
    · rintro ⟨h1, rfl, rfl⟩
      cases h1 with
      | cons h1 h2 =>
        have hx : unpackCmp objs (.inl k) (.inr t) = .ok .eq := unpackCmp_text.2 ⟨t, h1, (lexCmp_eq.2 rfl).symm⟩
        rw [unpackOne, hx]
        simp [(ih _ _).2 ⟨h2, rfl, rfl⟩]
  | [], _ :: _, _, _, _, hl, _, _ => by simp at hl
  | _ :: _, [], _, _, _, hl, _, _ => by simp at hl

theorem unpackTexts_dense {ts : List (List Nat)} {m : List (Nat × Nat)} {vs : List Nat} (ha : Asc ts) :
    unpackTexts objs false m ts = .ok vs ↔ List.Forall₂ (fun p t => symbolText objs p.1 = .ok t) m ts ∧ vs = m.map Prod.snd := by
  unfold unpackTexts mapUnpack
  by_cases hl : m.length = ts.length
  · rw [if_neg (by simp [hl])]
    have := fun vs rest => unpackLoop_texts (objs := objs) (prev := none) (vs := vs) (rest := rest) hl ha (fun q hq => by cases hq)
    constructor
    · intro h
      cases hy : unpackLoop (unpackCmp objs) valVoid false none (m.map (fun p => (.inl p.1, p.2))) (ts.map .inr) with
      | error e => rw [hy] at h; cases h
      | ok r =>
        obtain ⟨vs', rest⟩ := r
        rw [hy] at h
        obtain ⟨h1, h2, rfl⟩ := (this _ _).1 hy
        cases h
        exact ⟨h1, h2⟩
    · rintro ⟨h1, rfl⟩
      rw [(this _ _).2 ⟨h1, rfl, rfl⟩]
      rfl
  · rw [if_pos (by simpa using hl)]
    exact ⟨(fun h => by cases h), fun h => absurd h.1.length_eq hl⟩

theorem struct_zip {m : List (Nat × Nat)} {ts : List (List Nat)} {r : List (ScVal × ScVal)}
    (h : List.Forall₂ (fun p t => symbolText objs p.1 = .ok t) m ts)
    (h' : List.Forall₂ (fun p q => Is objs p.1 q.1 ∧ Is objs p.2 q.2) m r) :
    ScVal.map (some r) = struct (ts.zip (r.map Prod.snd)) ∧ List.Forall₂ (Is objs) (m.map Prod.snd) (r.map Prod.snd) := by
  induction h generalizing r with
  | nil => cases h'; exact ⟨rfl, .nil⟩
  | cons h _ ih =>
    cases h' with
    | cons g gs =>
      rename_i q r
      obtain ⟨i1, i2⟩ := ih gs
      refine ⟨?_, .cons g.2 i2⟩
      unfold struct at i1 ⊢
      simp only [ScVal.map.injEq, Option.some.injEq] at i1
      simp only [List.map_cons, List.zip_cons_cons, ← i1]
      obtain ⟨q1, q2⟩ := q
      have e : q1 = _ := is_symbol g.1 h
      rw [e]

theorem readStruct_is (hobjs : ObjsOk objs) {v : Nat} {s : ScVal} {ts : List (List Nat)} {vs : List Nat} (ha : Asc ts) (h : Is objs v s)
    (hr : readStruct objs ts v = .ok vs) :
    ∃ ss, s = struct (ts.zip ss) ∧ List.Forall₂ (Is objs) vs ss ∧ vs.length = ts.length := by
  unfold readStruct at hr
  obtain ⟨w, h1, hr1⟩ := bind_ok.mp hr
  obtain ⟨ht, rfl⟩ := asObj_ok.1 h1
  obtain ⟨m, h2, hr2⟩ := bind_ok.mp hr1
  obtain ⟨h3, rfl⟩ := (unpackTexts_dense ha).1 hr2
  obtain ⟨r, rfl, h4⟩ := is_map hobjs h h2
  obtain ⟨h5, h6⟩ := struct_zip h3 h4
  exact ⟨_, h5, h6, by rw [List.length_map]; exact h3.length_eq⟩

theorem struct_texts {m : List (Nat × Nat)} (hobjs : ObjsOk objs) : ∀ {ts : List (List Nat)} {ss : List ScVal}, ts.length = ss.length →
    List.Forall₂ (fun p q => Is objs p.1 q.1 ∧ Is objs p.2 q.2) m ((ts.zip ss).map fun p => (.symbol p.1, p.2)) →
    List.Forall₂ (fun p t => symbolText objs p.1 = .ok t) m ts ∧ List.Forall₂ (Is objs) (m.map Prod.snd) ss := by
  induction m with
  | nil =>
    intro ts ss hl h
    cases ts with
    | nil => cases ss with
      | nil => exact ⟨.nil, .nil⟩
      | cons => simp at hl
    | cons t ts => cases ss with
      | nil => simp at hl
      | cons => cases h
  | cons p m ih =>
    intro ts ss hl h
    cases ts with
    | nil => cases h
    | cons t ts => cases ss with
      | nil => cases h
      | cons s ss =>
        cases h with
        | cons g gs =>
          obtain ⟨i1, i2⟩ := ih (by simpa using hl) gs
          exact ⟨.cons (symbol_is hobjs g.1) i1, .cons g.2 i2⟩

theorem struct_is (hobjs : ObjsOk objs) {v : Nat} {ts : List (List Nat)} {ss : List ScVal} (ha : Asc ts) (hl : ts.length = ss.length)
    (h : Is objs v (struct (ts.zip ss))) : ∃ vs, readStruct objs ts v = .ok vs ∧ List.Forall₂ (Is objs) vs ss := by
  obtain ⟨h1, m, h2, h3⟩ := map_is hobjs h
  obtain ⟨h4, h5⟩ := struct_texts hobjs hl h3
  exact ⟨_, bind_ok.mpr ⟨v, asObj_ok.2 ⟨h1, rfl⟩, bind_ok.mpr ⟨m, h2, (unpackTexts_dense ha).2 ⟨h4, rfl⟩⟩⟩, h5⟩

/-! ### Enums -/

theorem firstMatch_some {t : List Nat} : ∀ {cs : List (List Nat)} {k i : Nat}, firstMatch t k cs = some i → k ≤ i ∧ cs[i - k]? = some t
  | [], _, _, h => by cases h
  | c :: cs, k, i, h => by
    rw [firstMatch] at h
    split at h
    · rename_i hc
      cases h
      rw [lexCmp_eq] at hc
      simp [hc]
    · obtain ⟨h1, h2⟩ := firstMatch_some h
      refine ⟨by omega, ?_⟩
      rw [show i - k = (i - (k + 1)) + 1 by omega]
      simpa using h2

theorem readEnum_is (hobjs : ObjsOk objs) {v i : Nat} {s : ScVal} {cs : List (List Nat)} {l : List Nat} (h : Is objs v s)
    (hr : readEnum objs cs v = .ok (i, l)) :
    ∃ t ss, s = .vec (some (.symbol t :: ss)) ∧ cs[i]? = some t ∧ ∃ c l', l = c :: l' ∧ List.Forall₂ (Is objs) l' ss := by
  unfold readEnum at hr
  obtain ⟨w, h1, hr1⟩ := bind_ok.mp hr
  obtain ⟨ht, rfl⟩ := asObj_ok.1 h1
  obtain ⟨l₁, h2, hr⟩ := bind_ok.mp hr1
  obtain ⟨c, h3, hr⟩ := bind_ok.mp hr
  obtain ⟨c', h4, hr⟩ := bind_ok.mp hr
  obtain ⟨t, h5, hr⟩ := bind_ok.mp hr
  obtain ⟨r, rfl, h6⟩ := is_vec hobjs h h2
  cases hm : firstMatch t 0 cs with
  | none => rw [hm] at hr; cases hr
  | some j =>
    rw [hm] at hr
    cases hr
    cases h6 with
    | nil => cases h3
    | cons g gs =>
      cases h3
      obtain ⟨rfl, t', rfl, h7⟩ := asSym_is hobjs g h4
      rw [h5] at h7
      cases h7
      exact ⟨t, _, rfl, by simpa using (firstMatch_some hm).2, _, _, rfl, gs⟩

theorem enum_is (hobjs : ObjsOk objs) {v i : Nat} {t : List Nat} {ss : List ScVal} {cs : List (List Nat)}
    (h : Is objs v (.vec (some (.symbol t :: ss)))) (hc : firstMatch t 0 cs = some i) :
    ∃ c l, readEnum objs cs v = .ok (i, c :: l) ∧ List.Forall₂ (Is objs) l ss := by
  obtain ⟨h1, l, h2, h3⟩ := vec_is hobjs h
  cases h3 with
  | cons g gs =>
    rename_i c l
    have ht := symbol_is hobjs g
    refine ⟨c, l, ?_, gs⟩
    unfold readEnum
    refine bind_ok.mpr ⟨v, asObj_ok.2 ⟨h1, rfl⟩, bind_ok.mpr ⟨_, h2, bind_ok.mpr ⟨c, rfl, bind_ok.mpr ⟨c, asSym_ok ht,
      bind_ok.mpr ⟨t, ht, ?_⟩⟩⟩⟩⟩
    rw [hc]

/-! ### Executables -/

theorem asBytes32_is (hobjs : ObjsOk objs) {v w : Nat} {s : ScVal} (h : Is objs v s) (hr : asBytes32 objs v = .ok w) :
    w = v ∧ ∃ b, s = .bytes b ∧ b.length = 32 ∧ bytes32 objs v = .ok b := by
  unfold asBytes32 at hr
  obtain ⟨w', h1, hr1⟩ := bind_ok.mp hr
  obtain ⟨ht, e⟩ := asObj_ok.1 h1
  obtain ⟨b, h2, hr2⟩ := bind_ok.mp hr1
  subst e
  split at hr2
  · rename_i hl
    cases hr2
    exact ⟨rfl, b, is_bytes hobjs h h2, hl, bytes32_iff.2 ⟨visitBytes_ok.1 h2, hl⟩⟩
  · cases hr2

theorem bytes32_is (hobjs : ObjsOk objs) {v : Nat} {b : List Nat} (h : Is objs v (.bytes b)) (hl : b.length = 32) :
    asBytes32 objs v = .ok v ∧ bytes32 objs v = .ok b := by
  obtain ⟨h1, h2⟩ := bytes_is hobjs h
  refine ⟨bind_ok.mpr ⟨v, asObj_ok.2 ⟨h1, rfl⟩, bind_ok.mpr ⟨b, h2, by rw [if_pos hl]⟩⟩, bytes32_iff.2 ⟨visitBytes_ok.1 h2, hl⟩⟩

theorem readRef_is (hobjs : ObjsOk objs) {v : Nat} {s : ScVal} {h : ExecH} {e : Exec} (hi : Is objs v s) (hr : readRef objs v = .ok h)
    (he : execToXdr objs h = .ok e) : ∃ o t, s = struct [(nOwner, .address o), (nTag, .string t)] ∧ Plain o ∧ e = .ref o t := by
  unfold readRef at hr
  obtain ⟨vs, h1, hr1⟩ := bind_ok.mp hr
  obtain ⟨ss, rfl, h2, h3⟩ := readStruct_is hobjs (by decide) hi h1
  match vs, h3, hr1, h2 with
  | [a, b], _, hr1, .cons ga (.cons gb .nil) =>
    dsimp only at hr1
    obtain ⟨a', h4, hr2⟩ := bind_ok.mp hr1
    obtain ⟨b', h5, hr3⟩ := bind_ok.mp hr2
    cases hr3
    obtain ⟨_, rfl⟩ := asObj_ok.1 h4
    obtain ⟨_, rfl⟩ := asObj_ok.1 h5
    rw [execToXdr] at he
    obtain ⟨o, h6, he1⟩ := bind_ok.mp he
    obtain ⟨t, h7, he2⟩ := bind_ok.mp he1
    cases he2
    obtain ⟨rfl, hp⟩ := is_address hobjs ga h6
    cases is_string hobjs gb h7
    exact ⟨o, t, rfl, hp, rfl⟩

theorem ref_is (hobjs : ObjsOk objs) {v : Nat} {o : ScAddr} {t : List Nat} (hp : Plain o)
    (hi : Is objs v (struct [(nOwner, .address o), (nTag, .string t)])) :
    ∃ h, readRef objs v = .ok h ∧ execToXdr objs h = .ok (.ref o t) := by
  obtain ⟨vs, h1, h2⟩ := struct_is hobjs (ts := [nOwner, nTag]) (ss := [.address o, .string t]) (by decide) rfl hi
  match vs, h1, h2 with
  | [a, b], h1, .cons ga (.cons gb .nil) =>
    obtain ⟨h3, h4⟩ := address_is hobjs ga hp
    obtain ⟨h5, h6⟩ := string_is hobjs gb
    refine ⟨.ref a b, bind_ok.mpr ⟨_, h1, bind_ok.mpr ⟨a, asObj_ok.2 ⟨h3, rfl⟩, bind_ok.mpr ⟨b, asObj_ok.2 ⟨h5, rfl⟩, rfl⟩⟩⟩, ?_⟩
    rw [execToXdr]
    exact bind_ok.mpr ⟨o, h4, bind_ok.mpr ⟨t, h6, rfl⟩⟩

theorem readExec_is (hobjs : ObjsOk objs) {v : Nat} {s : ScVal} {h : ExecH} {e : Exec} (hi : Is objs v s) (hr : readExec objs v = .ok h)
    (he : execToXdr objs h = .ok e) : ExecIs s e := by
  unfold readExec at hr
  obtain ⟨⟨i, l⟩, h1, hr1⟩ := bind_ok.mp hr
  obtain ⟨t, ss, rfl, h2, c, l', rfl, h3⟩ := readEnum_is hobjs hi h1
  match i, h2, hr1 with
  | 0, h2, hr1 =>
    cases h2
    obtain ⟨x, h4, hr2⟩ := bind_ok.mp hr1
    cases h3 with
    | nil => cases h4
    | cons g gs =>
      cases h4
      obtain ⟨w, h5, hr3⟩ := bind_ok.mp hr2
      cases hr3
      obtain ⟨rfl, b, rfl, hl, h6⟩ := asBytes32_is hobjs g h5
      rw [execToXdr] at he
      obtain ⟨b', h7, he⟩ := bind_ok.mp he
      rw [h6] at h7
      cases h7
      cases he
      exact .wasm hl
  | 1, h2, hr1 => cases hr1; cases he
  | 2, h2, hr1 =>
    cases h2
    obtain ⟨x, h4, hr2⟩ := bind_ok.mp hr1
    cases h3 with
    | nil => cases h4
    | cons g gs =>
      cases h4
      obtain ⟨o, t, rfl, hp, rfl⟩ := readRef_is hobjs g hr2 he
      exact .ref hp
  | n + 3, h2, _ => simp at h2

theorem exec_is (hobjs : ObjsOk objs) {v : Nat} {s : ScVal} {e : Exec} (hi : Is objs v s) (h : ExecIs s e) :
    ∃ h, readExec objs v = .ok h ∧ execToXdr objs h = .ok e := by
  cases h with
  | wasm hl =>
    obtain ⟨c, l, h1, h2⟩ := enum_is hobjs (i := 0) (cs := [cWasm, cAsset, cRef]) hi (by decide)
    match l, h1, h2 with
    | b :: l, h1, .cons g gs =>
      obtain ⟨h3, h4⟩ := bytes32_is hobjs g hl
      refine ⟨.wasm b, bind_ok.mpr ⟨_, h1, bind_ok.mpr ⟨b, rfl, bind_ok.mpr ⟨b, h3, rfl⟩⟩⟩, ?_⟩
      rw [execToXdr]
      exact bind_ok.mpr ⟨_, h4, rfl⟩
  | ref hp =>
    obtain ⟨c, l, h1, h2⟩ := enum_is hobjs (i := 2) (cs := [cWasm, cAsset, cRef]) hi (by decide)
    match l, h1, h2 with
    | b :: l, h1, .cons g gs =>
      obtain ⟨h, h3, h4⟩ := ref_is hobjs hp g
      exact ⟨h, bind_ok.mpr ⟨_, h1, bind_ok.mpr ⟨b, rfl, h3⟩⟩, h4⟩

/-! ### Entries -/

theorem fromVals_ex : ∀ {l : List Nat} {r : List ScVal}, List.Forall₂ (Is objs) l r →
    ∃ D, ∀ d, D ≤ d → fromVals (fromVal false objs d) l = .ok r
  | _, _, .nil => ⟨0, fun _ _ => rfl⟩
  | _, _, .cons h hs => by
    obtain ⟨D, hD⟩ := fromVals_ex hs
    obtain ⟨_, d, hd⟩ := h
    refine ⟨max D d, fun e he => ?_⟩
    rw [fromVals]
    exact bind_ok.mpr ⟨_, fromVal_mono (by omega) hd, bind_ok.mpr ⟨_, hD e (by omega), rfl⟩⟩

theorem symbolToXdr_text {v : Nat} {t : List Nat} (h : symbolText objs v = .ok t) : symbolToXdr objs v = .ok t := by
  unfold symbolToXdr
  rcases symbolText_ok.1 h with ⟨h1, h2⟩ | ⟨h1, h2⟩
  · rw [if_neg (by rw [h1]; decide), if_pos h1, h2]
  · rw [if_pos h1]; exact visitSymbol_ok.2 h2

theorem fnToXdr_call {k f : Nat} {as : List Nat} {c : ScAddr} {n : List Nat} {r : List ScVal} (hk : visitAddress objs k = .ok c)
    (hf : symbolText objs f = .ok n) (ha : List.Forall₂ (Is objs) as r) :
    ∃ D, ∀ d, D ≤ d → fnToXdr d objs (.call k f as) = .ok (.call c n r) := by
  obtain ⟨D, hD⟩ := fromVals_ex ha
  refine ⟨D, fun d hd => ?_⟩
  rw [fnToXdr]
  exact bind_ok.mpr ⟨n, symbolToXdr_text hf, bind_ok.mpr ⟨c, hk, bind_ok.mpr ⟨r, hD d hd, rfl⟩⟩⟩

/-- In the XDR form the tree is the given one, however much depth there is beyond some. -/
def Reads (objs : List HostObj) (i : AInv) (x : XInv) : Prop := ∃ D, ∀ d, D ≤ d → invToXdr d objs i = .ok x

theorem parseAll_is {self : ScAddr} {rec : Nat → Res AInv}
    (ih : ∀ {v s i}, Is objs v s → rec v = .ok i → ∃ x, Lists self s x ∧ Reads objs i x ∧ Unused i) :
    ∀ {l : List Nat} {r : List ScVal} {is : List AInv}, List.Forall₂ (Is objs) l r → parseAll rec l = .ok is →
    ∃ xs, List.Forall₂ (Lists self) r xs ∧ (∃ D, ∀ d, D ≤ d → invsToXdr d objs is = .ok xs) ∧ UnusedAll is
  | _, _, is, .nil, h => by cases h; exact ⟨[], .nil, ⟨0, fun _ _ => rfl⟩, trivial⟩
  | _, _, is, .cons g gs, h => by
    rw [parseAll] at h
    obtain ⟨i, h1, h⟩ := bind_ok.mp h
    obtain ⟨is', h2, h⟩ := bind_ok.mp h
    cases h
    obtain ⟨x, j1, ⟨D, hD⟩, j2⟩ := ih g h1
    obtain ⟨xs, k1, ⟨D', hD'⟩, k2⟩ := parseAll_is ih gs h2
    refine ⟨x :: xs, .cons j1 k1, ⟨max D D', fun d hd => ?_⟩, j2, k2⟩
    rw [invsToXdr]
    exact bind_ok.mpr ⟨x, hD d (by omega), bind_ok.mpr ⟨xs, hD' d (by omega), rfl⟩⟩

theorem readCall_is (hobjs : ObjsOk objs) {v : Nat} {s : ScVal} {h : EntryH} (hi : Is objs v s) (hr : readCall objs v = .ok h) :
    ∃ k f a t c n ra rs, h = .call k f a t ∧ visitAddress objs k = .ok c ∧ symbolText objs f = .ok n ∧ Is objs a ra ∧ Is objs t rs ∧
      Plain c ∧ s = struct [(nContext, struct [(nArgs, ra), (nContract, .address c), (nFnName, .symbol n)]), (nSubs, rs)] := by
  unfold readCall at hr
  obtain ⟨vs, h1, hr1⟩ := bind_ok.mp hr
  obtain ⟨ss, rfl, h2, h3⟩ := readStruct_is hobjs (by decide) hi h1
  match vs, h3, hr1, h2 with
  | [x, t], _, hr1, .cons gx (.cons gt .nil) =>
    dsimp only at hr1
    obtain ⟨ws, h4, hr2⟩ := bind_ok.mp hr1
    obtain ⟨rs, rfl, h5, h6⟩ := readStruct_is hobjs (by decide) gx h4
    match ws, h6, hr2, h5 with
    | [a, k, f], _, hr2, .cons ga (.cons gk (.cons gf .nil)) =>
      dsimp only at hr2
      obtain ⟨a', q1, hr3⟩ := bind_ok.mp hr2
      obtain ⟨k', q2, hr4⟩ := bind_ok.mp hr3
      obtain ⟨f', q3, hr5⟩ := bind_ok.mp hr4
      obtain ⟨t', q4, hr6⟩ := bind_ok.mp hr5
      cases hr6
      obtain ⟨_, rfl⟩ := asObj_ok.1 q1
      obtain ⟨hk, rfl⟩ := asObj_ok.1 q2
      obtain ⟨_, rfl⟩ := asObj_ok.1 q4
      obtain ⟨rfl, n, rfl, hn⟩ := asSym_is hobjs gf q3
      have hob : Val.isObject k' = true := by
        cases hv : Val.isObject k' with
        | true => rfl
        | false => have := small_tag hv; rw [hk] at this; cases this
      obtain ⟨o, ho⟩ := sound_visit gk.1 hob
      obtain ⟨m1, ⟨d, m2⟩, _, m3⟩ := is_obj hobjs gk ho
      rw [hk] at m1
      cases o with
      | address c =>
        cases m2
        exact ⟨k', f', a', t', c, n, _, _, rfl, visitAddress_iff.2 ho, hn, ga, gt, m3, rfl⟩
      | _ => cases m1

theorem parse_is (hobjs : ObjsOk objs) {self : ScAddr} : ∀ {d v : Nat} {s : ScVal} {i : AInv}, Is objs v s →
    parse self objs d v = .ok i → ∃ x, Lists self s x ∧ Reads objs i x ∧ Unused i
  | 0, v, s, i, _, h => by
    rw [parse] at h
    obtain ⟨_, _, h⟩ := bind_ok.mp h
    cases h
  | d + 1, v, s, i, hi, h => by
    rw [parse] at h
    obtain ⟨e, he, h⟩ := bind_ok.mp h
    unfold readEntry at he
    obtain ⟨⟨j, l⟩, h1, he1⟩ := bind_ok.mp he
    obtain ⟨t, ss, rfl, h2, c, l', rfl, h3⟩ := readEnum_is hobjs hi h1
    match j, h2, he1 with
    | 0, h2, he1 =>
      cases h2
      obtain ⟨x, h4, he2⟩ := bind_ok.mp he1
      cases h3 with
      | nil => cases h4
      | cons g gs =>
        cases h4
        obtain ⟨k, f, a, t, c, n, ra, rs, rfl, q1, q2, q3, q4, q5, rfl⟩ := readCall_is hobjs g he2
        dsimp only at h
        obtain ⟨as, h5, h⟩ := bind_ok.mp h
        obtain ⟨ts, h6, h⟩ := bind_ok.mp h
        obtain ⟨subs, h7, h⟩ := bind_ok.mp h
        cases h
        obtain ⟨r1, rfl, g1⟩ := is_vec hobjs q3 h5
        obtain ⟨r2, rfl, g2⟩ := is_vec hobjs q4 h6
        obtain ⟨xs, k1, ⟨D, hD⟩, k2⟩ := parseAll_is (fun a b => parse_is hobjs a b) g2 h7
        obtain ⟨D', hD'⟩ := fnToXdr_call q1 q2 g1
        refine ⟨_, .call q5 k1, ⟨max D D', fun e he => ?_⟩, rfl, k2⟩
        rw [invToXdr]
        exact bind_ok.mpr ⟨_, hD' e (by omega), bind_ok.mpr ⟨xs, hD e (by omega), rfl⟩⟩
    | 1, h2, he1 =>
      cases h2
      obtain ⟨x, h4, he2⟩ := bind_ok.mp he1
      cases h3 with
      | nil => cases h4
      | cons g gs =>
        cases h4
        unfold readCreate at he2
        obtain ⟨vs, h5, he3⟩ := bind_ok.mp he2
        obtain ⟨rs, rfl, h6, h7⟩ := readStruct_is hobjs (by decide) g h5
        match vs, h7, he3, h6 with
        | [a, b], _, he3, .cons ga (.cons gb .nil) =>
          dsimp only at he3
          obtain ⟨eh, q1, he4⟩ := bind_ok.mp he3
          obtain ⟨b', q2, he5⟩ := bind_ok.mp he4
          cases he5
          dsimp only at h
          obtain ⟨ex, q3, h⟩ := bind_ok.mp h
          obtain ⟨salt, q4, h⟩ := bind_ok.mp h
          cases h
          obtain ⟨rfl, s2, rfl, hl, q5⟩ := asBytes32_is hobjs gb q2
          rw [q4] at q5
          cases q5
          exact ⟨_, .create (readExec_is hobjs ga q1 q3) hl, ⟨0, fun _ _ => rfl⟩, rfl, trivial⟩
    | 2, h2, he1 =>
      cases h2
      obtain ⟨x, h4, he2⟩ := bind_ok.mp he1
      cases h3 with
      | nil => cases h4
      | cons g gs =>
        cases h4
        unfold readCreateWith at he2
        obtain ⟨vs, h5, he3⟩ := bind_ok.mp he2
        obtain ⟨rs, rfl, h6, h7⟩ := readStruct_is hobjs (by decide) g h5
        match vs, h7, he3, h6 with
        | [w, a, b], _, he3, .cons gw (.cons ga (.cons gb .nil)) =>
          dsimp only at he3
          obtain ⟨w', q0, he4⟩ := bind_ok.mp he3
          obtain ⟨eh, q1, he5⟩ := bind_ok.mp he4
          obtain ⟨b', q2, he6⟩ := bind_ok.mp he5
          cases he6
          dsimp only at h
          obtain ⟨ex, q3, h⟩ := bind_ok.mp h
          obtain ⟨salt, q4, h⟩ := bind_ok.mp h
          obtain ⟨⟨as, as'⟩, q6, h⟩ := bind_ok.mp h
          cases h
          obtain ⟨rfl, s2, rfl, hl, q5⟩ := asBytes32_is hobjs gb q2
          rw [q4] at q5
          cases q5
          obtain ⟨_, rfl⟩ := asObj_ok.1 q0
          unfold ctorArgs at q6
          obtain ⟨ws, q7, q8⟩ := bind_ok.mp q6
          obtain ⟨r, q9, q10⟩ := bind_ok.mp q8
          cases q10
          obtain ⟨r', rfl, q11⟩ := is_vec hobjs gw q7
          obtain ⟨D, hD⟩ := fromVals_ex q11
          have := hD (max D d) (by omega)
          rw [fromVals_lift (fun v s hv => fromVal_mono (by omega) hv) q9] at this
          cases this
          exact ⟨_, .createWith (readExec_is hobjs ga q1 q3) hl, ⟨0, fun _ _ => rfl⟩, rfl, trivial⟩
    | n + 3, h2, _ => simp at h2

mutual
theorem lists_parse (hobjs : ObjsOk objs) {self : ScAddr} : ∀ {x : XInv} {v : Nat} {s : ScVal}, Is objs v s → Lists self s x →
    ∃ D, ∀ d, D ≤ d → ∃ i, parse self objs d v = .ok i
  | .mk f xs, v, s, hi, h => by
    cases h with
    | @call cc ff aa sss rest _ hp hs =>
      obtain ⟨c, l, h1, h2⟩ := enum_is hobjs (i := 0) (cs := [cContract, cCreate, cCreateWith]) hi (by decide)
      match l, h1, h2 with
      | b :: l, h1, .cons g gs =>
        obtain ⟨vs, h3, h4⟩ := struct_is hobjs (ts := [nContext, nSubs])
          (ss := [struct [(txt "args", .vec (some aa)), (txt "contract", .address cc), (txt "fn_name", .symbol ff)], .vec (some sss)])
          (by decide) rfl g
        match vs, h3, h4 with
        | [x, t], h3, .cons gx (.cons gt .nil) =>
          obtain ⟨ws, h5, h6⟩ := struct_is hobjs (ts := [nArgs, nContract, nFnName])
            (ss := [.vec (some aa), .address cc, .symbol ff]) (by decide) rfl gx
          match ws, h5, h6 with
          | [a, k, fn], h5, .cons ga (.cons gk (.cons gf .nil)) =>
            obtain ⟨q1, as, q2, q3⟩ := vec_is hobjs ga
            obtain ⟨q4, ts, q5, q6⟩ := vec_is hobjs gt
            obtain ⟨q7, q8⟩ := address_is hobjs gk hp
            have q9 := symbol_is hobjs gf
            obtain ⟨D, hD⟩ := listsAll_parse hobjs q6 hs
            refine ⟨D + 1, fun d hd => ?_⟩
            obtain ⟨d, rfl⟩ : ∃ e, d = e + 1 := ⟨d - 1, by omega⟩
            obtain ⟨is, his⟩ := hD d (by omega)
            refine ⟨.mk (.call k fn as) is false, ?_⟩
            rw [parse]
            refine bind_ok.mpr ⟨.call k fn a t, ?_, bind_ok.mpr ⟨as, q2, bind_ok.mpr ⟨ts, q5, bind_ok.mpr ⟨is, his, rfl⟩⟩⟩⟩
            unfold readEntry readCall
            exact bind_ok.mpr ⟨_, h1, bind_ok.mpr ⟨b, rfl, bind_ok.mpr ⟨_, h3, bind_ok.mpr ⟨_, h5,
              bind_ok.mpr ⟨a, asObj_ok.2 ⟨q1, rfl⟩, bind_ok.mpr ⟨k, asObj_ok.2 ⟨q7, rfl⟩, bind_ok.mpr ⟨fn, asSym_ok q9,
              bind_ok.mpr ⟨t, asObj_ok.2 ⟨q4, rfl⟩, rfl⟩⟩⟩⟩⟩⟩⟩⟩
    | @create es ex salt rest he hl =>
      obtain ⟨c, l, h1, h2⟩ := enum_is hobjs (i := 1) (cs := [cContract, cCreate, cCreateWith]) hi (by decide)
      match l, h1, h2 with
      | b :: l, h1, .cons g gs =>
        obtain ⟨vs, h3, h4⟩ := struct_is hobjs (ts := [nExecutable, nSalt]) (ss := [es, .bytes salt]) (by decide) rfl g
        match vs, h3, h4 with
        | [x, t], h3, .cons gx (.cons gt .nil) =>
          obtain ⟨eh, q1, q2⟩ := exec_is hobjs gx he
          obtain ⟨q3, q4⟩ := bytes32_is hobjs gt hl
          refine ⟨1, fun d hd => ?_⟩
          obtain ⟨d, rfl⟩ : ∃ e, d = e + 1 := ⟨d - 1, by omega⟩
          refine ⟨.mk (.create ⟨.address self salt, ex, []⟩) [] false, ?_⟩
          rw [parse]
          refine bind_ok.mpr ⟨.create eh t, ?_, bind_ok.mpr ⟨_, q2, bind_ok.mpr ⟨_, q4, rfl⟩⟩⟩
          unfold readEntry readCreate
          exact bind_ok.mpr ⟨_, h1, bind_ok.mpr ⟨b, rfl, bind_ok.mpr ⟨_, h3, bind_ok.mpr ⟨_, q1, bind_ok.mpr ⟨_, q3, rfl⟩⟩⟩⟩⟩
    | @createWith es ex salt as rest he hl =>
      obtain ⟨c, l, h1, h2⟩ := enum_is hobjs (i := 2) (cs := [cContract, cCreate, cCreateWith]) hi (by decide)
      match l, h1, h2 with
      | b :: l, h1, .cons g gs =>
        obtain ⟨vs, h3, h4⟩ := struct_is hobjs (ts := [nCtorArgs, nExecutable, nSalt]) (ss := [.vec (some as), es, .bytes salt])
          (by decide) rfl g
        match vs, h3, h4 with
        | [w, x, t], h3, .cons gw (.cons gx (.cons gt .nil)) =>
          obtain ⟨eh, q1, q2⟩ := exec_is hobjs gx he
          obtain ⟨q3, q4⟩ := bytes32_is hobjs gt hl
          obtain ⟨q5, ws, q6, q7⟩ := vec_is hobjs gw
          obtain ⟨D, hD⟩ := fromVals_ex q7
          refine ⟨D + 1, fun d hd => ?_⟩
          obtain ⟨d, rfl⟩ : ∃ e, d = e + 1 := ⟨d - 1, by omega⟩
          refine ⟨.mk (.create ⟨.address self salt, ex, as⟩) [] false, ?_⟩
          rw [parse]
          refine bind_ok.mpr ⟨.createWith eh t w, ?_, bind_ok.mpr ⟨_, q2, bind_ok.mpr ⟨_, q4, bind_ok.mpr ⟨(as, ws), ?_, rfl⟩⟩⟩⟩
          · unfold readEntry readCreateWith
            exact bind_ok.mpr ⟨_, h1, bind_ok.mpr ⟨b, rfl, bind_ok.mpr ⟨_, h3, bind_ok.mpr ⟨w, asObj_ok.2 ⟨q5, rfl⟩,
              bind_ok.mpr ⟨_, q1, bind_ok.mpr ⟨_, q3, rfl⟩⟩⟩⟩⟩⟩
          · exact bind_ok.mpr ⟨ws, q6, bind_ok.mpr ⟨as, hD d (by omega), rfl⟩⟩
theorem listsAll_parse (hobjs : ObjsOk objs) {self : ScAddr} : ∀ {xs : List XInv} {l : List Nat} {r : List ScVal},
    List.Forall₂ (Is objs) l r → List.Forall₂ (Lists self) r xs → ∃ D, ∀ d, D ≤ d → ∃ is, parseAll (parse self objs d) l = .ok is
  | [], _, _, .nil, _ => ⟨0, fun _ _ => ⟨[], rfl⟩⟩
  | x :: xs, _, _, .cons g gs, .cons h hs => by
    obtain ⟨D, hD⟩ := lists_parse hobjs g h
    obtain ⟨D', hD'⟩ := listsAll_parse hobjs gs hs
    refine ⟨max D D', fun d hd => ?_⟩
    obtain ⟨i, h1⟩ := hD d (by omega)
    obtain ⟨is, h2⟩ := hD' d (by omega)
    exact ⟨i :: is, bind_ok.mpr ⟨i, h1, bind_ok.mpr ⟨is, h2, rfl⟩⟩⟩
end

theorem enum_inj {c c' : List Nat} {x x' : ScVal} {r r' : List ScVal}
    (h : ScVal.vec (some (.symbol c :: x :: r)) = .vec (some (.symbol c' :: x' :: r'))) : c = c' ∧ x = x' := by
  injection h with h
  injection h with h
  injection h with h1 h2
  injection h1 with h1
  injection h2 with h2 _
  exact ⟨h1, h2⟩

theorem struct2_inj {a b : List Nat} {x y x' y' : ScVal} (h : struct [(a, x), (b, y)] = struct [(a, x'), (b, y')]) : x = x' ∧ y = y' := by
  injection h with h
  injection h with h
  injection h with h1 h2
  injection h2 with h2 _
  injection h1 with _ h1
  injection h2 with _ h2
  exact ⟨h1, h2⟩

theorem struct3_inj {a b c : List Nat} {x y z x' y' z' : ScVal}
    (h : struct [(a, x), (b, y), (c, z)] = struct [(a, x'), (b, y'), (c, z')]) : x = x' ∧ y = y' ∧ z = z' := by
  injection h with h
  injection h with h
  injection h with h1 h
  injection h with h2 h
  injection h with h3 _
  injection h1 with _ h1
  injection h2 with _ h2
  injection h3 with _ h3
  exact ⟨h1, h2, h3⟩

theorem execIs_inv {s : ScVal} {e : Exec} (h : ExecIs s e) :
    (∃ b r, s = .vec (some (.symbol cWasm :: .bytes b :: r)) ∧ e = .wasm b) ∨
    ∃ o t r, s = .vec (some (.symbol cRef :: struct [(nOwner, .address o), (nTag, .string t)] :: r)) ∧ e = .ref o t := by
  cases h with
  | wasm => exact Or.inl ⟨_, _, rfl, rfl⟩
  | ref => exact Or.inr ⟨_, _, _, rfl, rfl⟩

theorem execIs_unique {s : ScVal} {e e' : Exec} (h : ExecIs s e) (h' : ExecIs s e') : e = e' := by
  rcases execIs_inv h with ⟨b, r, h1, h2⟩ | ⟨o, t, r, h1, h2⟩ <;>
    rcases execIs_inv h' with ⟨b', r', h3, h4⟩ | ⟨o', t', r', h3, h4⟩ <;> rw [h1] at h3 <;> obtain ⟨h5, h6⟩ := enum_inj h3
  · injection h6 with h6; rw [h2, h4, h6]
  · exact absurd h5 (by decide)
  · exact absurd h5 (by decide)
  · obtain ⟨h7, h8⟩ := struct2_inj h6
    injection h7 with h7
    injection h8 with h8
    rw [h2, h4, h7, h8]

theorem lists_inv {self : ScAddr} {s : ScVal} {f : XFn} {xs : List XInv} (h : Lists self s (.mk f xs)) :
    (∃ c n as ss r, s = .vec (some (.symbol cContract :: struct [(nContext, struct [(nArgs, .vec (some as)), (nContract, .address c),
        (nFnName, .symbol n)]), (nSubs, .vec (some ss))] :: r)) ∧ f = .call c n as ∧ List.Forall₂ (Lists self) ss xs) ∨
    (∃ t e salt r, s = .vec (some (.symbol cCreate :: struct [(nExecutable, t), (nSalt, .bytes salt)] :: r)) ∧
      f = .createV2 ⟨.address self salt, e, []⟩ ∧ xs = [] ∧ ExecIs t e) ∨
    ∃ t e salt as r, s = .vec (some (.symbol cCreateWith :: struct [(nCtorArgs, .vec (some as)), (nExecutable, t),
      (nSalt, .bytes salt)] :: r)) ∧ f = .createV2 ⟨.address self salt, e, as⟩ ∧ xs = [] ∧ ExecIs t e := by
  cases h with
  | call _ hs => exact Or.inl ⟨_, _, _, _, _, rfl, rfl, hs⟩
  | create he => exact Or.inr (Or.inl ⟨_, _, _, _, rfl, rfl, rfl, he⟩)
  | createWith he => exact Or.inr (Or.inr ⟨_, _, _, _, _, rfl, rfl, rfl, he⟩)

mutual
theorem lists_unique {self : ScAddr} : ∀ {x y : XInv} {s : ScVal}, Lists self s x → Lists self s y → x = y
  | .mk f xs, .mk g ys, s, h, h' => by
    rcases lists_inv h with ⟨c, n, as, ss, r, h1, h2, hs⟩ | ⟨t, e, salt, r, h1, h2, hx, he⟩ | ⟨t, e, salt, as, r, h1, h2, hx, he⟩ <;>
    rcases lists_inv h' with ⟨c', n', as', ss', r', h3, h4, hs'⟩ | ⟨t', e', salt', r', h3, h4, hx', he'⟩ |
      ⟨t', e', salt', as', r', h3, h4, hx', he'⟩ <;> rw [h1] at h3 <;> obtain ⟨h5, h6⟩ := enum_inj h3 <;>
    first | exact absurd h5 (by decide) | skip
    · obtain ⟨h7, h8⟩ := struct2_inj h6
      obtain ⟨h9, h10, h11⟩ := struct3_inj h7
      injection h8 with h8; injection h8 with h8
      injection h9 with h9; injection h9 with h9
      injection h10 with h10
      injection h11 with h11
      subst h8
      rw [h2, h4, h9, h10, h11, listsAll_unique hs hs']
    · obtain ⟨h7, h8⟩ := struct2_inj h6
      injection h8 with h8
      subst h7
      rw [h2, h4, hx, hx', h8, execIs_unique he he']
    · obtain ⟨h7, h8, h9⟩ := struct3_inj h6
      injection h7 with h7; injection h7 with h7
      injection h9 with h9
      subst h8
      rw [h2, h4, hx, hx', h7, h9, execIs_unique he he']
theorem listsAll_unique {self : ScAddr} : ∀ {xs ys : List XInv} {r : List ScVal}, List.Forall₂ (Lists self) r xs →
    List.Forall₂ (Lists self) r ys → xs = ys
  | [], _, _, .nil, .nil => rfl
  | x :: xs, _, _, .cons h hs, .cons g gs => by rw [lists_unique h g, listsAll_unique hs gs]
end

end Soroban.ContractTypes
