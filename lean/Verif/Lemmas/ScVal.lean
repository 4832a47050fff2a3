import Verif.Spec.ScVal
import Verif.Lemmas.Val
import Verif.Lemmas.Objects
/-!
Lemmas about the order of ledger values.
-/
namespace Soroban.Spec
open Soroban

/-- Induction on ledger values: a property of every value follows if it passes from the values inside a value to the value. -/
theorem ScVal.induct {P : ScVal → Prop} (h : ∀ s, (∀ x ∈ children s, P x) → P s) (s : ScVal) : P s := by
  refine ScVal.rec (motive_1 := P) (motive_2 := fun o => ∀ l, o = some l → ∀ x ∈ l, P x)
    (motive_3 := fun o => ∀ m, o = some m → ∀ p ∈ m, P p.1 ∧ P p.2)
    (motive_4 := fun l => ∀ x ∈ l, P x) (motive_5 := fun m => ∀ p ∈ m, P p.1 ∧ P p.2)
    (motive_6 := fun p => P p.1 ∧ P p.2)
    ?_ ?_ ?_ ?_ ?_ ?_ ?_ ?_ ?_ ?_ ?_ ?_ ?_ ?_ ?_ ?_ ?_ ?_ ?_ ?_ ?_ ?_ ?_ ?_ ?_ ?_ ?_ ?_ ?_ ?_ ?_ ?_ s
  all_goals try (intros; apply h; intro x hx; simp [children] at hx; done)
  · intro v hv
    apply h
    intro x hx
    cases v with
    | none => simp [children] at hx
    | some l => exact hv l rfl x hx
  · intro m hm
    apply h
    intro x hx
    cases m with
    | none => simp [children] at hx
    | some l =>
      simp only [children, List.mem_flatMap, List.mem_cons, List.not_mem_nil, or_false] at hx
      obtain ⟨p, hp, rfl | rfl⟩ := hx
      · exact (hm l rfl p hp).1
      · exact (hm l rfl p hp).2
  · intro e m hm
    apply h
    intro x hx
    cases m with
    | none => simp [children] at hx
    | some l =>
      simp only [children, List.mem_flatMap, List.mem_cons, List.not_mem_nil, or_false] at hx
      obtain ⟨p, hp, rfl | rfl⟩ := hx
      · exact (hm l rfl p hp).1
      · exact (hm l rfl p hp).2
  · intro l hl; cases hl
  · intro l ih l' hl; cases hl; exact ih
  · intro l hl; cases hl
  · intro l ih l' hl; cases hl; exact ih
  · intro x hx; cases hx
  · intro a l ha hl x hx
    rcases List.mem_cons.1 hx with rfl | hx
    · exact ha
    · exact hl x hx
  · intro x hx; cases hx
  · intro a l ha hl x hx
    rcases List.mem_cons.1 hx with rfl | hx
    · exact ha
    · exact hl x hx
  · intro a b ha hb; exact ⟨ha, hb⟩

/-! ### the order is a total order -/

theorem then_assoc (a b c : Ordering) : (a.then b).then c = a.then (b.then c) := by cases a <;> rfl

/-- A self-delimiting code of a list of numbers. -/
def tok : List Int → List Int
  | [] => [0]
  | i :: l => 1 :: i :: tok l

theorem cmp01 : compare (0 : Int) 1 = .lt := by decide
theorem cmp10 : compare (1 : Int) 0 = .gt := by decide
theorem cmpSelf (i : Int) : compare i i = .eq := by simp

theorem lexInts_tok (l m x y : List Int) : lexInts (tok l ++ x) (tok m ++ y) = (lexInts l m).then (lexInts x y) := by
  induction l generalizing m with
  | nil => cases m <;> simp [tok, lexInts, cmp01]
  | cons i l ih => cases m <;> simp [tok, lexInts, cmp10, ih, then_assoc]

mutual
/-- A self-delimiting code of a ledger value, with the same order. -/
def enc : ScVal → List Int
  | .vec (some l) => 16 :: (tok [1] ++ encList l)
  | .map (some m) => 17 :: (tok [1] ++ encEntries m)
  | .contractInstance e (some m) => 19 :: (tok [e, 1] ++ encEntries m)
  | s => s.discriminant :: tok (content s)

def encList : List ScVal → List Int
  | [] => [0]
  | s :: ss => 1 :: (enc s ++ encList ss)

def encEntries : List (ScVal × ScVal) → List Int
  | [] => [0]
  | (k, v) :: es => 1 :: (enc k ++ (enc v ++ encEntries es))
end

/-- The kinds of value that `scOrd` descends into. -/
def descends : ScVal → Bool
  | .vec (some _) | .map (some _) | .contractInstance _ (some _) => true
  | _ => false

theorem enc_leaf {s : ScVal} (h : descends s = false) : enc s = (s.discriminant : Int) :: tok (content s) := by
  cases s
  case vec v => cases v <;> first | rfl | simp [descends] at h
  case map v => cases v <;> first | rfl | simp [descends] at h
  case contractInstance e v => cases v <;> first | rfl | simp [descends] at h
  all_goals rfl

theorem enc_head (s : ScVal) : ∃ r, enc s = (s.discriminant : Int) :: (tok (content s) ++ r) := by
  by_cases h : descends s = false
  · exact ⟨[], by rw [enc_leaf h]; simp⟩
  · cases s
    case vec v => cases v with
      | none => simp [descends] at h
      | some l => exact ⟨encList l, by simp [enc, content, ScVal.discriminant]⟩
    case map v => cases v with
      | none => simp [descends] at h
      | some l => exact ⟨encEntries l, by simp [enc, content, ScVal.discriminant]⟩
    case contractInstance e v => cases v with
      | none => simp [descends] at h
      | some l => exact ⟨encEntries l, by simp [enc, content, ScVal.discriminant]⟩
    all_goals simp [descends] at h

theorem scOrd_leaf {a b : ScVal} (h : descends a = false ∨ descends b = false ∨ a.discriminant ≠ b.discriminant) :
    scOrd a b = (compare a.discriminant b.discriminant).then (lexInts (content a) (content b)) := by
  unfold scOrd
  split
  · simp [descends, ScVal.discriminant] at h
  · simp [descends, ScVal.discriminant] at h
  · simp [descends, ScVal.discriminant] at h
  · rfl

theorem compare_cast (a b : Nat) : compare (a : Int) (b : Int) = compare a b := by
  simp only [compare, compareOfLessAndEq, Nat.cast_lt, Nat.cast_inj]

theorem content_ne {a b : ScVal} (hd : a.discriminant = b.discriminant) (h : descends a ≠ descends b) :
    lexInts (content a) (content b) ≠ .eq := by
  cases a <;> cases b <;> simp [ScVal.discriminant] at hd <;> try (simp [descends] at h; done)
  case vec.vec v w => cases v <;> cases w <;> simp [descends] at h <;> simp [content, lexInts, cmp01, cmp10]
  case map.map v w => cases v <;> cases w <;> simp [descends] at h <;> simp [content, lexInts, cmp01, cmp10]
  case contractInstance.contractInstance e v e' w =>
    cases v <;> cases w <;> simp [descends] at h <;> simp [content, lexInts, cmp01, cmp10]

theorem then_ne_eq {a : Ordering} (h : a ≠ .eq) (b : Ordering) : a.then b = a := by cases a <;> simp_all

theorem lexInts_enc : ∀ a b : ScVal, ∀ x y, lexInts (enc a ++ x) (enc b ++ y) = (scOrd a b).then (lexInts x y) := by
  intro a
  induction a using ScVal.induct with
  | h a ih =>
  intro b x y
  by_cases hdisc : a.discriminant = b.discriminant
  · by_cases hda : descends a = false
    · by_cases hdb : descends b = false
      · rw [enc_leaf hda, enc_leaf hdb, scOrd_leaf (Or.inl hda)]
        simp only [List.cons_append, lexInts, lexInts_tok, compare_cast, then_assoc]
      · have hne := content_ne hdisc (by rw [hda]; simpa using Ne.symm hdb)
        obtain ⟨r, hr⟩ := enc_head a
        obtain ⟨r', hr'⟩ := enc_head b
        rw [hr, hr', scOrd_leaf (Or.inl hda)]
        simp only [List.cons_append, lexInts, List.append_assoc, lexInts_tok, compare_cast, then_assoc]
        rw [then_ne_eq hne, then_ne_eq hne]
    · by_cases hdb : descends b = false
      · have hne := content_ne hdisc (by rw [hdb]; simpa using hda)
        obtain ⟨r, hr⟩ := enc_head a
        obtain ⟨r', hr'⟩ := enc_head b
        rw [hr, hr', scOrd_leaf (Or.inr (Or.inl hdb))]
        simp only [List.cons_append, lexInts, List.append_assoc, lexInts_tok, compare_cast, then_assoc]
        rw [then_ne_eq hne, then_ne_eq hne]
      · -- both are containers of the same type
        have hlist : ∀ (l : List ScVal), (∀ s ∈ l, ∀ b x y, lexInts (enc s ++ x) (enc b ++ y) =
            (scOrd s b).then (lexInts x y)) → ∀ m x y, lexInts (encList l ++ x) (encList m ++ y) =
            (scOrdList l m).then (lexInts x y) := by
          intro l
          induction l with
          | nil => intro _ m x y; cases m <;> simp [encList, scOrdList, lexInts, cmp01]
          | cons s l ihl =>
            intro hs m x y
            cases m with
            | nil => simp [encList, scOrdList, lexInts, cmp10]
            | cons t m =>
              simp only [encList, scOrdList, List.cons_append, lexInts, List.append_assoc, cmpSelf]
              rw [hs s (by simp), ihl (fun s' hs' => hs s' (by simp [hs']))]
              simp [then_assoc]
        have hent : ∀ (l : List (ScVal × ScVal)), (∀ p ∈ l, (∀ b x y, lexInts (enc p.1 ++ x) (enc b ++ y) =
            (scOrd p.1 b).then (lexInts x y)) ∧ (∀ b x y, lexInts (enc p.2 ++ x) (enc b ++ y) =
            (scOrd p.2 b).then (lexInts x y))) → ∀ m x y, lexInts (encEntries l ++ x) (encEntries m ++ y) =
            (scOrdEntries l m).then (lexInts x y) := by
          intro l
          induction l with
          | nil => intro _ m x y; cases m with
            | nil => simp [encEntries, scOrdEntries, lexInts]
            | cons p m => obtain ⟨k, v⟩ := p; simp [encEntries, scOrdEntries, lexInts, cmp01]
          | cons p l ihl =>
            obtain ⟨k, v⟩ := p
            intro hs m x y
            cases m with
            | nil => simp [encEntries, scOrdEntries, lexInts, cmp10]
            | cons q m =>
              obtain ⟨k', v'⟩ := q
              simp only [encEntries, scOrdEntries, List.cons_append, lexInts, List.append_assoc, cmpSelf]
              rw [(hs (k, v) (by simp)).1, (hs (k, v) (by simp)).2, ihl (fun s' hs' => hs s' (by simp [hs']))]
              simp [then_assoc]
        cases a <;> cases b <;> simp [ScVal.discriminant] at hdisc <;> try (simp [descends] at hda; done)
        case vec.vec v w =>
          cases v <;> cases w <;> simp [descends] at hda hdb
          rename_i l m
          simp only [enc, scOrd, List.cons_append, lexInts, List.append_assoc, lexInts_tok, cmpSelf]
          rw [hlist l (fun s hs => ih s hs)]; rfl
        case map.map v w =>
          cases v <;> cases w <;> simp [descends] at hda hdb
          rename_i l m
          simp only [enc, scOrd, List.cons_append, lexInts, List.append_assoc, lexInts_tok, cmpSelf]
          rw [hent l (fun p hp => ⟨ih p.1 (by simp only [children, List.mem_flatMap]; exact ⟨p, hp, by simp⟩),
            ih p.2 (by simp only [children, List.mem_flatMap]; exact ⟨p, hp, by simp⟩)⟩)]; rfl
        case contractInstance.contractInstance e v e' w =>
          cases v <;> cases w <;> simp [descends] at hda hdb
          rename_i l m
          simp only [enc, scOrd, List.cons_append, lexInts, List.append_assoc, lexInts_tok, cmpSelf]
          rw [hent l (fun p hp => ⟨ih p.1 (by simp only [children, List.mem_flatMap]; exact ⟨p, hp, by simp⟩),
            ih p.2 (by simp only [children, List.mem_flatMap]; exact ⟨p, hp, by simp⟩)⟩)]
          simp [compare_cast, then_assoc]
  · obtain ⟨r, hr⟩ := enc_head a
    obtain ⟨r', hr'⟩ := enc_head b
    rw [hr, hr', scOrd_leaf (Or.inr (Or.inr hdisc))]
    simp only [List.cons_append, lexInts, compare_cast]
    have : compare a.discriminant b.discriminant ≠ .eq := by simpa using hdisc
    rw [then_ne_eq this, then_ne_eq this, then_ne_eq this]

theorem scOrd_eq_enc (a b : ScVal) : scOrd a b = lexInts (enc a) (enc b) := by
  have := lexInts_enc a b [] []
  simp only [List.append_nil] at this
  rw [this]; simp [lexInts]

theorem lexInts_swap (a b : List Int) : lexInts a b = (lexInts b a).swap := by
  induction a generalizing b with
  | nil => cases b <;> rfl
  | cons x a ih =>
    cases b with
    | nil => rfl
    | cons y b =>
      simp only [lexInts, Ordering.swap_then, ← ih]
      rw [Std.OrientedCmp.eq_swap (cmp := (compare : Int → Int → Ordering)) (a := x) (b := y)]

theorem lexInts_isLE_trans : ∀ {a b c : List Int}, (lexInts a b).isLE → (lexInts b c).isLE → (lexInts a c).isLE := by
  intro a
  induction a with
  | nil => intro b c _ _; cases c <;> rfl
  | cons x a ih =>
    intro b c h1 h2
    cases b with
    | nil => simp [lexInts] at h1
    | cons y b =>
      cases c with
      | nil => simp [lexInts] at h2
      | cons z c =>
        simp only [lexInts] at *
        rcases lt_trichotomy x y with h | h | h
        · rcases lt_trichotomy y z with h' | h' | h'
          · simp [compare_lt_iff_lt.2 (h.trans h')]
          · subst h'; simp [compare_lt_iff_lt.2 h]
          · simp [compare_gt_iff_gt.2 h'] at h2
        · subst h
          rcases lt_trichotomy x z with h' | h' | h'
          · simp [compare_lt_iff_lt.2 h']
          · subst h'
            simp only [cmpSelf, Ordering.then] at *
            exact ih h1 h2
          · simp [compare_gt_iff_gt.2 h'] at h2
        · simp [compare_gt_iff_gt.2 h] at h1

instance : Std.TransCmp lexInts where
  eq_swap {a b} := lexInts_swap a b
  isLE_trans := lexInts_isLE_trans

instance scOrd_trans : Std.TransCmp scOrd where
  eq_swap {a b} := by rw [scOrd_eq_enc, scOrd_eq_enc b a]; exact lexInts_swap _ _
  isLE_trans {a b c} h1 h2 := by
    rw [scOrd_eq_enc] at *
    exact lexInts_isLE_trans h1 h2

theorem scOrd_self (a : ScVal) : scOrd a a = .eq := Std.ReflCmp.compare_self

theorem lexInts_eq : ∀ {a b : List Int}, lexInts a b = .eq → a = b := by
  intro a
  induction a with
  | nil => intro b h; cases b <;> simp [lexInts] at h; rfl
  | cons x a ih =>
    intro b h
    cases b with
    | nil => simp [lexInts] at h
    | cons y b =>
      simp only [lexInts, Ordering.then_eq_eq] at h
      rw [ih h.2, compare_eq_iff_eq.1 h.1]

/-! ### equal in the order means equal -/

theorem map_ofNat_inj {a b : List Nat} (h : a.map Int.ofNat = b.map Int.ofNat) : a = b := by
  induction a generalizing b with
  | nil => cases b <;> simp_all
  | cons x a ih =>
    cases b with
    | nil => simp at h
    | cons y b =>
      simp only [List.map_cons, List.cons.injEq, Int.ofNat.injEq] at h
      rw [h.1, ih h.2]

theorem addrContent_inj {a b : ScAddr} (h : addrContent a = addrContent b) : a = b := by
  cases a <;> cases b <;> simp [addrContent] at h <;> simp [h]

theorem leaf_inj {a b : ScVal} (ha : InRange a) (hb : InRange b) (hda : descends a = false) (hdb : descends b = false)
    (hd : a.discriminant = b.discriminant) (hc : content a = content b) : a = b := by
  cases a <;> cases b <;> simp [ScVal.discriminant] at hd
  case vec.vec v w => cases v <;> cases w <;> simp [descends] at hda hdb; rfl
  case map.map v w => cases v <;> cases w <;> simp [descends] at hda hdb; rfl
  case contractInstance.contractInstance e v e' w =>
    cases v <;> cases w <;> simp [descends] at hda hdb
    simp [content] at hc; rw [hc]
  case bytes.bytes => rw [map_ofNat_inj hc]
  case string.string => rw [map_ofNat_inj hc]
  case symbol.symbol => rw [map_ofNat_inj hc]
  case executableTag.executableTag => rw [map_ofNat_inj hc]
  case address.address => rw [addrContent_inj hc]
  case bool.bool x y => cases x <;> cases y <;> simp [content] at hc <;> rfl
  case void.void => rfl
  case ledgerKeyContractInstance.ledgerKeyContractInstance => rfl
  all_goals
    simp only [content, List.cons.injEq, and_true] at hc
    simp only [InRange] at ha hb
  case u128.u128 a b a' b' =>
    have h1 : a = a' := by omega
    have h2 : b = b' := by omega
    rw [h1, h2]
  case i128.i128 a b a' b' =>
    have h1 : a = a' := by omega
    have h2 : b = b' := by omega
    rw [h1, h2]
  case u256.u256 a b c d a' b' c' d' =>
    have h1 : a = a' := by omega
    have h2 : b = b' := by omega
    have h3 : c = c' := by omega
    have h4 : d = d' := by omega
    rw [h1, h2, h3, h4]
  case i256.i256 a b c d a' b' c' d' =>
    have h1 : a = a' := by omega
    have h2 : b = b' := by omega
    have h3 : c = c' := by omega
    have h4 : d = d' := by omega
    rw [h1, h2, h3, h4]
  case error.error => rw [Int.ofNat.inj hc.1, Int.ofNat.inj hc.2]
  case i32.i32 => rw [hc]
  case i64.i64 => rw [hc]
  case ledgerKeyNonce.ledgerKeyNonce => rw [hc]
  all_goals rw [Int.ofNat.inj hc]

theorem scOrd_eq_iff : ∀ {a b : ScVal}, XdrOk a → XdrOk b → (scOrd a b = .eq ↔ a = b) := by
  intro a
  induction a using ScVal.induct with
  | h a ih =>
  intro b ha hb
  refine ⟨fun h => ?_, fun h => by subst h; exact scOrd_self a⟩
  obtain ⟨har, hac⟩ := ha
  obtain ⟨hbr, hbc⟩ := hb
  by_cases hl : descends a = false ∨ descends b = false ∨ a.discriminant ≠ b.discriminant
  · rw [scOrd_leaf hl] at h
    simp only [Ordering.then_eq_eq] at h
    obtain ⟨hd, hc⟩ := h
    have hd := Nat.compare_eq_eq.1 hd
    have hc' := lexInts_eq hc
    have hda : descends a = descends b := by
      by_contra hne
      exact content_ne hd hne hc
    have : descends a = false := by
      rcases hl with h | h | h
      · exact h
      · rw [hda]; exact h
      · exact absurd hd h
    exact leaf_inj har hbr this (hda ▸ this) hd hc'
  · have hlist : ∀ (l m : List ScVal), (∀ s ∈ l, ∀ t ∈ m, scOrd s t = .eq → s = t) → scOrdList l m = .eq → l = m := by
      intro l
      induction l with
      | nil => intro m _ h; cases m <;> simp [scOrdList] at h; rfl
      | cons s l ihl =>
        intro m hs h
        cases m with
        | nil => simp [scOrdList] at h
        | cons t m =>
          simp only [scOrdList, Ordering.then_eq_eq] at h
          rw [hs s (by simp) t (by simp) h.1, ihl m (fun s' h1 t' h2 => hs s' (by simp [h1]) t' (by simp [h2])) h.2]
    have hent : ∀ (l m : List (ScVal × ScVal)), (∀ s ∈ l, ∀ t ∈ m, (scOrd s.1 t.1 = .eq → s.1 = t.1) ∧
        (scOrd s.2 t.2 = .eq → s.2 = t.2)) → scOrdEntries l m = .eq → l = m := by
      intro l
      induction l with
      | nil =>
        intro m _ h
        cases m with
        | nil => rfl
        | cons q m => obtain ⟨k, v⟩ := q; simp [scOrdEntries] at h
      | cons s l ihl =>
        obtain ⟨k, v⟩ := s
        intro m hs h
        cases m with
        | nil => simp [scOrdEntries] at h
        | cons t m =>
          obtain ⟨k', v'⟩ := t
          simp only [scOrdEntries, Ordering.then_eq_eq] at h
          have h1 := hs (k, v) (by simp) (k', v') (by simp)
          have e1 : k = k' := h1.1 h.1.1
          have e2 : v = v' := h1.2 h.1.2
          rw [e1, e2, ihl m (fun s' h1 t' h2 => hs s' (by simp [h1]) t' (by simp [h2])) h.2]
    have hmem : ∀ {l : List (ScVal × ScVal)} {p}, p ∈ l → p.1 ∈ l.flatMap (fun p => [p.1, p.2]) ∧
        p.2 ∈ l.flatMap (fun p => [p.1, p.2]) := by
      intro l p hp
      constructor <;> exact List.mem_flatMap.2 ⟨p, hp, by simp⟩
    simp only [not_or, Bool.not_eq_false, not_not] at hl
    obtain ⟨hda, hdb, hd⟩ := hl
    cases a <;> cases b <;> simp [ScVal.discriminant] at hd <;> try (simp [descends] at hda; done)
    case vec.vec v w =>
      cases v <;> cases w <;> simp [descends] at hda hdb
      simp only [scOrd] at h
      rename_i l m
      rw [hlist l m (fun s hs t ht => (ih s hs (hac s hs) (hbc t ht)).1) h]
    case map.map v w =>
      cases v <;> cases w <;> simp [descends] at hda hdb
      simp only [scOrd] at h
      rw [hent _ _ (fun s hs t ht => ⟨(ih s.1 (hmem hs).1 (hac _ (hmem hs).1) (hbc _ (hmem ht).1)).1,
        (ih s.2 (hmem hs).2 (hac _ (hmem hs).2) (hbc _ (hmem ht).2)).1⟩) h]
    case contractInstance.contractInstance e v e' w =>
      cases v <;> cases w <;> simp [descends] at hda hdb
      simp only [scOrd, Ordering.then_eq_eq] at h
      rw [Nat.compare_eq_eq.1 h.1,
        hent _ _ (fun s hs t ht => ⟨(ih s.1 (hmem hs).1 (hac _ (hmem hs).1) (hbc _ (hmem ht).1)).1,
        (ih s.2 (hmem hs).2 (hac _ (hmem hs).2) (hbc _ (hmem ht).2)).1⟩) h.2]

end Soroban.Spec
