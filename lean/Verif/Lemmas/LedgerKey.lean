import Verif.Spec.LedgerKey
import Verif.Lemmas.Denote
/-! Lemmas for C76 and C77. -/
namespace Soroban.Keys
open Soroban.Spec Soroban.Preimage Soroban.Keys.Spec

/-! ### values that may nest too deep -/

theorem cmpOption_le {A : Type} {f g : A → A → Res Ordering} (h : ∀ a b, DepthLe (f a b) (g a b)) :
    ∀ a b, DepthLe (cmpOption f a b) (cmpOption g a b)
  | some a, some b => h a b
  | none, none => .refl _
  | none, some _ => .refl _
  | some _, none => .refl _

theorem scValCmpBody_le {f g : ScVal → ScVal → Res Ordering} (h : ∀ a b, DepthLe (f a b) (g a b)) (a b : ScVal) :
    DepthLe (scValCmpBody f a b) (scValCmpBody g a b) := by
  unfold scValCmpBody
  split <;> first
    | exact .refl _
    | exact cmpVec_le h _ _
    | exact cmpVec_le (cmpPair_le h) _ _
    | skip
  rename_i e s e' s'
  cases compare e e' <;> first | exact .refl _ | exact cmpOption_le (cmpVec_le (cmpPair_le h)) _ _

theorem scValCmp_le : ∀ d k a b, DepthLe (scValCmp d a b) (scValCmp (d + k) a b)
  | 0, _, _, _ => Or.inl rfl
  | d + 1, k, a, b => by
    rw [Nat.add_right_comm, scValCmp, scValCmp]
    exact scValCmpBody_le (scValCmp_le d k) a b

theorem comparable_mono : ∀ {d e : Nat} {s : ScVal}, d ≤ e → Comparable d s → Comparable e s
  | 0, _, _, _, h => by simp [Comparable] at h
  | d + 1, 0, _, hd, _ => absurd hd (by omega)
  | d + 1, e + 1, s, hd, h => by
    have hc := h.children
    have : ∀ x ∈ children s, Comparable e x := fun x hx => comparable_mono (by omega) (hc x hx)
    unfold Comparable at h ⊢
    split at h <;> simp_all

/-- With any depth, the order of the values or an error about the depth. -/
theorem scValCmp_any {a b : ScVal} (ha : XdrOk a ∧ Whole a) (hb : XdrOk b ∧ Whole b) (d : Nat) :
    scValCmp d a b = .ok (scOrd a b) ∨ scValCmp d a b = .error depthErr := by
  obtain ⟨xa, da, ha⟩ := ha
  obtain ⟨xb, db, hb⟩ := hb
  have h := scValCmp_spec (comparable_mono (Nat.le_max_left da db) ha) (comparable_mono (Nat.le_max_right da db) hb) xa xb
  rcases Nat.le_total d (max da db) with hd | hd
  · obtain ⟨k, hk⟩ := Nat.exists_eq_add_of_le hd
    rcases scValCmp_le d k a b with h' | h'
    · exact Or.inr h'
    · rw [← hk, h] at h'; exact Or.inl h'
  · obtain ⟨k, hk⟩ := Nat.exists_eq_add_of_le hd
    rw [hk]
    exact Or.inl ((scValCmp_le _ k a b).ok h)

/-! ### parts of keys -/

theorem lexCmp_then : ∀ {c c' : List Nat} (i i' : Nat), c.length = c'.length →
    (lexCmp c c').then (compare i i') = lexInts (c.map Int.ofNat ++ [(i : Int)]) (c'.map Int.ofNat ++ [(i' : Int)])
  | [], [], i, i', _ => by simp [lexCmp, lexInts, compare_cast]
  | [], _ :: _, _, _, h => by simp at h
  | _ :: _, [], _, _, h => by simp at h
  | a :: c, b :: c', i, i', h => by
    have ih := lexCmp_then i i' (Nat.succ.inj h)
    simp only [lexCmp, List.map_cons, List.cons_append, lexInts, ← ih]
    have : compare (Int.ofNat a) (Int.ofNat b) = compare a b := compare_cast a b
    rw [this]
    rcases Nat.lt_trichotomy a b with h | h | h
    · simp [compare_lt_iff_lt.2 h, h]
    · subst h; simp
    · simp [compare_gt_iff_gt.2 h, h, Nat.lt_asymm h]

theorem line_cmp {p q : LineAsset} (hp : LineOk p) (hq : LineOk q) : p.cmp q = lexInts (lineContent p) (lineContent q) := by
  cases p <;> cases q <;> first
    | (simp [LineAsset.cmp, LineAsset.cmp.rank, lineContent, lexInts, compare_cast]; done)
    | (simp only [LineAsset.cmp, lineContent, lexInts, cmpSelf, Ordering.eq_then]
       exact lexCmp_then _ _ (by rw [hp, hq]))
    | (simp only [LineAsset.cmp, LineAsset.cmp.rank, lineContent, lexInts]; rfl)

theorem ofNat_map_inj : ∀ {l m : List Nat}, l.map Int.ofNat = m.map Int.ofNat → l = m
  | [], [], _ => rfl
  | [], _ :: _, h => by simp at h
  | _ :: _, [], h => by simp at h
  | a :: l, b :: m, h => by
    simp only [List.map_cons, List.cons.injEq] at h
    rw [Int.ofNat.inj h.1, ofNat_map_inj h.2]

theorem line_inj {p q : LineAsset} (h : lineContent p = lineContent q) : p = q := by
  cases p <;> cases q <;> simp [lineContent] at h ⊢
  · exact ⟨ofNat_map_inj h.1, h.2⟩
  · exact ⟨ofNat_map_inj h.1, h.2⟩
  · exact h

theorem durability_cmp (a b : Durability) : a.cmp b = compare (a == .persistent).toNat (b == .persistent).toNat := by
  cases a <;> cases b <;> rfl

theorem durability_inj {a b : Durability} (h : compare (a == .persistent).toNat (b == .persistent).toNat = .eq) : a = b := by
  cases a <;> cases b <;> first | rfl | (exfalso; revert h; decide)

/-! ### the order of keys -/

theorem keyOrd_kind {a b : LKey} (h : a.kind ≠ b.kind) : keyOrd a b = compare a.kind b.kind := by
  cases a <;> cases b <;> first | rfl | exact absurd rfl h

/-- A key as numbers. -/
def keyEnc : LKey → List Int
  | .account x => [0, (x : Int)]
  | .trustline x p => 1 :: (x : Int) :: lineContent p
  | .contractData c k t => 6 :: (tok (addrContent c) ++ (enc k ++ [((t == .persistent).toNat : Int)]))
  | .contractCode x => [7, (x : Int)]
  | k => [(k.kind : Int)]

theorem keyEnc_head (a : LKey) : ∃ l, keyEnc a = (a.kind : Int) :: l := by
  cases a <;> exact ⟨_, rfl⟩

theorem keyOrd_enc (a b : LKey) : keyOrd a b = lexInts (keyEnc a) (keyEnc b) := by
  by_cases h : a.kind = b.kind
  · cases a <;> cases b <;> simp only [LKey.kind, reduceCtorEq] at h <;> first
      | (exfalso; revert h; decide)
      | (simp [keyOrd, keyEnc, lexInts, LKey.kind, compare_cast]; done)
      | skip
    simp only [keyOrd, keyEnc, lexInts, cmpSelf, Ordering.eq_then, lexInts_tok, lexInts_enc, compare_cast, then_self_eq]
  · rw [keyOrd_kind h]
    obtain ⟨l, hl⟩ := keyEnc_head a
    obtain ⟨m, hm⟩ := keyEnc_head b
    rw [hl, hm, lexInts, compare_cast]
    rcases Nat.lt_trichotomy a.kind b.kind with h' | h' | h'
    · simp [compare_lt_iff_lt.2 h']
    · exact absurd h' h
    · simp [compare_gt_iff_gt.2 h']

instance : Std.TransCmp keyOrd where
  eq_swap {a b} := by rw [keyOrd_enc, keyOrd_enc b a]; exact lexInts_swap _ _
  isLE_trans {a b c} h1 h2 := by
    rw [keyOrd_enc] at *
    exact lexInts_isLE_trans h1 h2

theorem supported_of {k : LKey} (h : KeyOk k) : Supported k := by
  cases k <;> first | (simp [Supported, LKey.kind]; done) | exact h

theorem then_eq_iff {a b : Ordering} : a.then b = .eq ↔ a = .eq ∧ b = .eq := by cases a <;> simp

theorem compare_nat_eq {a b : Nat} : compare a b = .eq ↔ a = b := by simp

theorem keyOrd_eq {a b : LKey} (ha : KeyOk a) (hb : KeyOk b) : keyOrd a b = .eq ↔ a = b := by
  constructor
  · intro h
    have hk : a.kind = b.kind := by
      by_contra hk
      rw [keyOrd_kind hk, compare_nat_eq] at h
      exact hk h
    cases a <;> cases b <;> simp only [LKey.kind] at hk <;> first
      | (exfalso; revert hk; decide)
      | (exfalso; revert ha; simp [KeyOk, Supported, LKey.kind]; done)
      | skip
    · rw [compare_nat_eq.mp h]
    · obtain ⟨h1, h2⟩ := then_eq_iff.mp h
      rw [compare_nat_eq.mp h1, line_inj (lexInts_eq h2)]
    · obtain ⟨h1, h2⟩ := then_eq_iff.mp h
      obtain ⟨h2, h3⟩ := then_eq_iff.mp h2
      rw [addrContent_inj (lexInts_eq h1), (scOrd_eq_iff ha.1 hb.1).mp h2, durability_inj h3]
    · rw [compare_nat_eq.mp h]
  · rintro rfl
    exact Std.ReflCmp.compare_self

/-- With any depth, the order of the keys or an error about the depth. -/
theorem keyCmp_any {a b : LKey} (ha : KeyOk a) (hb : KeyOk b) (d : Nat) :
    (keyCmp d a b = .ok (keyOrd a b) ∨ keyCmp d a b = .error depthErr) ∧
      (Shallow d a → Shallow d b → keyCmp d a b = .ok (keyOrd a b)) := by
  have sa : checkSupported a = .ok () := by
    have := supported_of ha
    cases a <;> first | rfl | (exfalso; revert this; simp [Supported, LKey.kind]; done)
  have sb : checkSupported b = .ok () := by
    have := supported_of hb
    cases b <;> first | rfl | (exfalso; revert this; simp [Supported, LKey.kind]; done)
  have key : ∀ r, keyCmp d a b = r → (r = .ok (keyOrd a b) → (keyCmp d a b = .ok (keyOrd a b) ∨ keyCmp d a b = .error depthErr) ∧
      (Shallow d a → Shallow d b → keyCmp d a b = .ok (keyOrd a b))) := fun r hr h => by
    rw [hr]; exact ⟨Or.inl h, fun _ _ => h⟩
  cases a <;> first | cases sa | skip
  all_goals (cases b <;> first | cases sb | skip)
  all_goals first
    | exact key _ rfl rfl
    | skip
  · refine key _ rfl ?_
    show Except.ok (Ordering.then _ (LineAsset.cmp _ _)) = _
    rw [line_cmp ha hb]; rfl
  · rename_i c k t c' k' t'
    have hs := scValCmp_any ha hb d
    have hsp : Comparable d k → Comparable d k' → scValCmp d k k' = .ok (scOrd k k') := fun h1 h2 => scValCmp_spec h1 h2 ha.1 hb.1
    have hk : keyCmp d (.contractData c k t) (.contractData c' k' t') = dataCmp d c k t c' k' t' := rfl
    have hgo : scValCmp d k k' = .ok (scOrd k k') →
        keyCmp d (.contractData c k t) (.contractData c' k' t') = .ok (keyOrd (.contractData c k t) (.contractData c' k' t')) := by
      intro h
      rw [hk]
      simp only [dataCmp, keyOrd, h, addr_cmp_eq, durability_cmp, andCmp, bind, Except.bind]
      generalize lexInts _ _ = o1
      generalize scOrd _ _ = o2
      generalize compare (t == Durability.persistent).toNat _ = o3
      cases o1 <;> cases o2 <;> cases o3 <;> rfl
    refine ⟨?_, fun h1 h2 => hgo (hsp h1 h2)⟩
    rcases hs with h | h
    · exact Or.inl (hgo h)
    · rw [hk]
      simp only [dataCmp, keyOrd, h, addr_cmp_eq, andCmp, bind, Except.bind]
      generalize lexInts _ _ = o1
      cases o1 <;> simp

/-! ### authorized functions -/

theorem lexCmp_eq {a b : List Nat} : lexCmp a b = .eq ↔ a = b := by
  constructor
  · intro h
    rw [lexCmp_eq_lexInts] at h
    exact ofNat_map_inj (lexInts_eq h)
  · rintro rfl
    rw [lexCmp_eq_lexInts]
    exact Std.ReflCmp.compare_self

theorem addrCmp_eq {a b : ScAddr} : a.cmp b = .eq ↔ a = b := by
  rw [addr_cmp_eq]
  constructor
  · exact fun h => addrContent_inj (lexInts_eq h)
  · rintro rfl
    exact Std.ReflCmp.compare_self

theorem assetCmp_eq {a b : AssetMeta.Asset} : assetCmp a b = .eq ↔ a = b := by
  cases a <;> cases b <;> simp [assetCmp, assetCmp.rank, then_eq_iff, lexCmp_eq] <;> decide

theorem idCmp_eq {a b : IdPre} : idCmp a b = .eq ↔ a = b := by
  cases a <;> cases b <;> simp [idCmp, then_eq_iff, lexCmp_eq, addrCmp_eq, assetCmp_eq]

theorem execCmp_eq {a b : Exec} : execCmp a b = .eq ↔ a = b := by
  cases a <;> cases b <;> simp [execCmp, execCmp.rank, then_eq_iff, lexCmp_eq, addrCmp_eq] <;> decide

/-- What a comparison answers about equality: right if it answers, and otherwise it ran out of depth, which `E` allows. -/
def Tells (E : Prop) (r : Res Ordering) (p : Prop) : Prop := (∃ o, r = .ok o ∧ (o = .eq ↔ p)) ∨ (E ∧ r = .error depthErr)

theorem tells_and {E : Prop} {r r' : Res Ordering} {p q : Prop} (h : Tells E r p) (h' : Tells E r' q) :
    Tells E (andCmp r r') (p ∧ q) := by
  rcases h with ⟨o, rfl, ho⟩ | ⟨e, rfl⟩
  · cases o with
    | lt => exact Or.inl ⟨.lt, rfl, by simp at ho; simp [ho]⟩
    | gt => exact Or.inl ⟨.gt, rfl, by simp at ho; simp [ho]⟩
    | eq =>
      have hp : p := by simpa using ho
      rcases h' with ⟨o, ho, he⟩ | ⟨e, he⟩
      · exact Or.inl ⟨o, ho, by simp [he, hp]⟩
      · exact Or.inr ⟨e, he⟩
  · exact Or.inr ⟨e, rfl⟩

theorem tells_vec {A B : Type} {E : Prop} {cmp : A → A → Res Ordering} {R : A → B → Prop}
    (h : ∀ a b x y, R a x → R b y → Tells E (cmp a b) (x = y)) : ∀ {l m : List A} {s t : List B},
    List.Forall₂ R l s → List.Forall₂ R m t → Tells E (cmpVec cmp l m) (s = t)
  | [], [], _, _, .nil, .nil => Or.inl ⟨.eq, rfl, by simp⟩
  | [], _ :: _, _, _, .nil, .cons _ _ => Or.inl ⟨.lt, rfl, by simp⟩
  | _ :: _, [], _, _, .cons _ _, .nil => Or.inl ⟨.gt, rfl, by simp⟩
  | a :: l, b :: m, x :: s, y :: t, .cons h1 h2, .cons h3 h4 => by
    have ih := tells_and (h a b x y h1 h3) (tells_vec h h2 h4)
    rw [List.cons.injEq]
    exact ih

theorem forall2_self {P : ScVal → Prop} : ∀ {l : List ScVal}, (∀ s ∈ l, P s) → List.Forall₂ (fun a x => a = x ∧ P x) l l
  | [], _ => .nil
  | s :: l, h => .cons ⟨rfl, h s (by simp)⟩ (forall2_self fun t ht => h t (by simp [ht]))

theorem tells_sc {a b : ScVal} (ha : XdrOk a ∧ Whole a) (hb : XdrOk b ∧ Whole b) (d : Nat) :
    Tells True (scValCmp d a b) (a = b) := by
  rcases scValCmp_any ha hb d with h | h
  · exact Or.inl ⟨_, h, scOrd_eq_iff ha.1 hb.1⟩
  · exact Or.inr ⟨trivial, h⟩

theorem tells_sc' {a b : ScVal} {d : Nat} (ha : XdrOk a ∧ Comparable d a) (hb : XdrOk b ∧ Comparable d b) :
    Tells False (scValCmp d a b) (a = b) :=
  Or.inl ⟨_, scValCmp_spec ha.2 hb.2 ha.1 hb.1, scOrd_eq_iff ha.1 hb.1⟩

theorem tells_val {objs : List HostObj} (ho : ObjsOk objs) {a b : Nat} {x y : ScVal} (ha : Sound objs a ∧ Denotes objs a x)
    (hb : Sound objs b ∧ Denotes objs b y) (d : Nat) : Tells True (valCmp objs d a b) (x = y) := by
  rcases valCmp_denotes ho ha.1 hb.1 ha.2 hb.2 d with h | h
  · exact Or.inl ⟨_, h, scOrd_eq_iff (denotes_xdrOk ho ha.1 ha.2) (denotes_xdrOk ho hb.1 hb.2)⟩
  · exact Or.inr ⟨trivial, h⟩

theorem tells_val' {objs : List HostObj} (ho : ObjsOk objs) {a b d : Nat} {x y : ScVal}
    (ha : Sound objs a ∧ fromVal false objs d a = .ok x) (hb : Sound objs b ∧ fromVal false objs d b = .ok y) :
    Tells False (valCmp objs d a b) (x = y) :=
  Or.inl ⟨_, valCmp_spec ho ha.1 hb.1 ha.2 hb.2,
    scOrd_eq_iff (denotes_xdrOk ho ha.1 ⟨d, ha.2⟩) (denotes_xdrOk ho hb.1 ⟨d, hb.2⟩)⟩

theorem tells_create {E : Prop} {P : ScVal → Prop} {a b : CreateArgs} {d : Nat}
    (hP : ∀ x y, P x → P y → Tells E (scValCmp d x y) (x = y)) (ha : ∀ s ∈ a.args, P s) (hb : ∀ s ∈ b.args, P s) :
    Tells E (createCmp d a b) (a = b) := by
  have hv : Tells E (cmpVec (scValCmp d) a.args b.args) (a.args = b.args) :=
    tells_vec (R := fun a x => a = x ∧ P x)
      (fun p q x y hp hq => by
        obtain ⟨rfl, hp⟩ := hp
        obtain ⟨rfl, hq⟩ := hq
        exact hP _ _ hp hq) (forall2_self ha) (forall2_self hb)
  have hab : a = b ↔ a.id = b.id ∧ a.exec = b.exec ∧ a.args = b.args := by
    cases a; cases b; simp
  have h1 : Tells E (.ok (idCmp a.id b.id)) (a.id = b.id) := Or.inl ⟨_, rfl, idCmp_eq⟩
  have h2 : Tells E (.ok (execCmp a.exec b.exec)) (a.exec = b.exec) := Or.inl ⟨_, rfl, execCmp_eq⟩
  have h := tells_and h1 (tells_and h2 hv)
  rw [hab]
  have e : createCmp d a b = andCmp (.ok (idCmp a.id b.id)) (andCmp (.ok (execCmp a.exec b.exec)) (cmpVec (scValCmp d) a.args b.args)) := by
    unfold createCmp andCmp
    simp only [bind, Except.bind]
  rw [e]
  exact h

theorem tells_call {E : Prop} {objs : List HostObj} {d : Nat} {R : Nat → ScVal → Prop}
    (hR : ∀ a b x y, R a x → R b y → Tells E (valCmp objs d a b) (x = y)) {c n c' n' : Nat} {a a' : List Nat}
    {sc sn sc' sn' : ScVal} {sa sa' : List ScVal} (h1 : R c sc) (h2 : R n sn) (h3 : List.Forall₂ R a sa)
    (h1' : R c' sc') (h2' : R n' sn') (h3' : List.Forall₂ R a' sa') :
    Tells E (fnCmp objs d (.call c n a) (.call c' n' a')) (sc = sc' ∧ sn = sn' ∧ sa = sa') := by
  have h := tells_and (hR _ _ _ _ h1 h1') (tells_and (hR _ _ _ _ h2 h2') (tells_vec hR h3 h3'))
  exact h

end Soroban.Keys
