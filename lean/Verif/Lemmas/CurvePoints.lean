import Verif.Spec.CurvePoints
import Verif.Lemmas.BnOrder
/-!
The host functions for curves compute the group operations on encoded points.
-/
namespace Soroban.Curves

open Soroban.Curves.Spec

section
variable {F : Type} [Field F] [DecidableEq F] {C : Curve F}

theorem serialize_bytes (hK : Lawful C.coord) (a : Aff F) : IsBytes (affineSerialize C a) := by
  cases a with
  | zero =>
    intro x hx
    rcases List.mem_cons.mp hx with h | h
    · rw [h]; decide
    · rw [List.eq_of_mem_replicate h]; decide
  | xy x y => exact isBytes_append.mpr ⟨hK.bytes x, hK.bytes y⟩

theorem bn_serialize_bytes (hK : Lawful C.coord) (a : Aff F) : IsBytes (bnAffineSerialize C a) := by
  cases a with
  | zero => exact isBytes_append.mpr ⟨hK.bytes 0, hK.bytes 0⟩
  | xy x y => exact isBytes_append.mpr ⟨hK.bytes x, hK.bytes y⟩

theorem bls_reads (hK : Lawful C.coord) (ht : ∀ x, (C.coord.enc x).headD 0 < 32) (h6 : (6 : F) ≠ 0) (hb : C.b ≠ 0) {m : Mode}
    (hm : m ≠ .noCheck) :
    Computes (fun P : Point C.b => affineSerialize C (toAff P)) (fun P => m = .inSubgroup → C.order • P = 0)
      (affineDeserialize C m) toAff := by
  refine ⟨fun P hP => ?_, fun b hbb hno => ?_⟩
  · refine (bls_deserialize_iff hK ht (serialize_bytes hK _)).mpr ⟨rfl, fun _ => (onCurve_iff h6 hb).mpr ⟨P, rfl⟩, fun h => ?_⟩
    exact (subgroup_iff P).mpr (hP h)
  · cases h : affineDeserialize C m b with
    | error e => rw [bls_deserialize_err h]
    | ok a =>
      exfalso
      obtain ⟨h1, h2, h3⟩ := (bls_deserialize_iff hK ht hbb).mp h
      obtain ⟨P, rfl⟩ := (onCurve_iff h6 hb).mp (h2 hm)
      exact hno P (fun h => (subgroup_iff P).mp (h3 h)) h1.symm

theorem bn_reads (hK : Lawful C.coord) (ht : ∀ x, (C.coord.enc x).headD 0 < 64) (hz : C.coord.enc 0 = List.replicate C.coord.size 0)
    (h6 : (6 : F) ≠ 0) (hb : C.b ≠ 0) {cs : Bool} :
    Computes (fun P : Point C.b => bnAffineSerialize C (toAff P)) (fun P => cs = true → C.order • P = 0)
      (bnAffineDeserialize C true cs) toAff := by
  have hne : ∀ P : Point C.b, toAff P ≠ .xy 0 0 := by
    intro P h
    cases P with
    | zero => cases h
    | some x y hp =>
      injection h with h1 h2
      subst h1 h2
      have := W_equation.mp hp.1
      exact hb (by linear_combination -this)
  refine ⟨fun P hP => ?_, fun b hbb hno => ?_⟩
  · refine (bn_deserialize_iff hK ht hz (bn_serialize_bytes hK _)).mpr
      ⟨rfl, hne P, fun _ => (onCurve_iff h6 hb).mpr ⟨P, rfl⟩, fun h => ?_⟩
    exact (subgroup_iff P).mpr (hP h)
  · cases h : bnAffineDeserialize C true cs b with
    | error e => rw [bn_deserialize_err h]
    | ok a =>
      exfalso
      obtain ⟨h1, _, h2, h3⟩ := (bn_deserialize_iff hK ht hz hbb).mp h
      obtain ⟨P, rfl⟩ := (onCurve_iff h6 hb).mp (h2 rfl)
      exact hno P (fun h => (subgroup_iff P).mp (h3 h)) h1.symm

/-! ### Functions of what has been read -/

theorem computes_congr {A T : Type} {enc enc' : A → Bytes} {S S' : A → Prop} {api : Bytes → Res T} {f f' : A → T}
    (h : Computes enc S api f) (he : ∀ a, enc a = enc' a) (hS : ∀ a, S a ↔ S' a) (hf : ∀ a, S a → f a = f' a) :
    Computes enc' S' api f' := by
  refine ⟨fun a ha => ?_, fun b hb hno => h.2 b hb fun a ha => ?_⟩
  · rw [← he, h.1 a ((hS a).mpr ha), hf a ((hS a).mpr ha)]
  · rw [he]
    exact hno a ((hS a).mp ha)

theorem computes_bind {A T U : Type} {enc : A → Bytes} {S : A → Prop} {read : Bytes → Res T} {f : A → T} (g : T → Res U) (g' : A → U)
    (h : Computes enc S read f) (hg : ∀ a, S a → g (f a) = .ok (g' a)) : Computes enc S (fun b => read b >>= g) g' := by
  refine ⟨fun a ha => ?_, fun b hb hno => ?_⟩
  · show (read (enc a) >>= g) = _
    rw [h.1 a ha]
    exact hg a ha
  · show (read b >>= g) = _
    rw [h.2 b hb hno]
    rfl

theorem computes_bind2 {A B T U V : Type} {enc : A → Bytes} {S : A → Prop} {read : Bytes → Res T} {f : A → T} {enc' : B → Bytes}
    {S' : B → Prop} {read' : Bytes → Res U} {f' : B → U} (g : T → U → Res V) (g' : A → B → V)
    (h : Computes enc S read f) (h' : Computes enc' S' read' f') (hg : ∀ a c, S a → S' c → g (f a) (f' c) = .ok (g' a c)) :
    Computes2 enc S enc' S' (fun b b' => read b >>= fun x => read' b' >>= fun y => g x y) g' := by
  refine ⟨fun a c ha hc => ?_, fun b b' hb hb' hno => ?_⟩
  · show (read (enc a) >>= _) = _
    rw [h.1 a ha]
    show (read' (enc' c) >>= _) = _
    rw [h'.1 c hc]
    exact hg a c ha hc
  · show (read b >>= _) = _
    by_cases hr : ∀ a, S a → enc a ≠ b
    · rw [h.2 b hb hr]
      rfl
    · have hr' := hno.resolve_left hr
      have hr : ∃ a, S a ∧ enc a = b := by
        by_contra hc
        exact hr fun a ha he => hc ⟨a, ha, he⟩
      obtain ⟨a, ha, rfl⟩ := hr
      rw [h.1 a ha]
      show (read' b' >>= _) = _
      rw [h'.2 b' hb' hr']
      rfl

/-! ### Vectors -/

theorem pointVec_iff {b : F} {enc : Point b → Bytes} {S : Point b → Prop} {read : Bytes → Res (Aff F)} (h : Computes enc S read toAff) :
    ∀ {v : List Elem}, IsVec v → ∀ ps, pointVec read v = .ok ps ↔
      ∃ l : List (Point b), (∀ P ∈ l, S P) ∧ v = encs enc l ∧ ps = l.map toAff := by
  intro v
  induction v with
  | nil =>
    intro _ ps
    constructor
    · intro hp
      exact ⟨[], by simp, rfl, (Except.ok.inj hp).symm⟩
    · rintro ⟨l, _, hv, rfl⟩
      cases l with
      | nil => rfl
      | cons P l => cases hv
  | cons e v ih =>
    intro hv ps
    have ih := ih (fun x hx => hv x (List.mem_cons_of_mem _ hx))
    cases e with
    | u256 n => exact ⟨(fun h => nomatch h), by rintro ⟨l, _, hl, _⟩; cases l <;> cases hl⟩
    | other => exact ⟨(fun h => nomatch h), by rintro ⟨l, _, hl, _⟩; cases l <;> cases hl⟩
    | bytes x =>
      have hx := hv x List.mem_cons_self
      constructor
      · intro hp
        obtain ⟨a, ha, hp⟩ := bind_ok.mp hp
        obtain ⟨as, has, hpe⟩ := bind_ok.mp hp
        obtain ⟨l, hl, rfl, rfl⟩ := (ih _).mp has
        have hx' : ∃ P, S P ∧ enc P = x := by
          by_contra hc
          rw [h.2 x hx fun P hP he => hc ⟨P, hP, he⟩] at ha
          cases ha
        obtain ⟨P, hP, rfl⟩ := hx'
        rw [h.1 P hP] at ha
        refine ⟨P :: l, fun Q hQ => ?_, rfl, ?_⟩
        · rcases List.mem_cons.mp hQ with rfl | hQ
          exacts [hP, hl Q hQ]
        · rw [← Except.ok.inj hpe, ← Except.ok.inj ha]
          rfl
      · rintro ⟨l, hl, hv, rfl⟩
        cases l with
        | nil => cases hv
        | cons P l =>
          obtain ⟨h1, h2⟩ := List.cons.inj hv
          injection h1 with h1
          subst h1 h2
          refine bind_ok.mpr ⟨_, h.1 P (hl P List.mem_cons_self), bind_ok.mpr ⟨l.map toAff, ?_, rfl⟩⟩
          exact (ih _).mpr ⟨l, fun Q hQ => hl Q (List.mem_cons_of_mem _ hQ), rfl, rfl⟩

theorem pointVec_err {b : F} {enc : Point b → Bytes} {S : Point b → Prop} {read : Bytes → Res (Aff F)} (h : Computes enc S read toAff) :
    ∀ {v : List Elem}, IsVec v → ∀ e, pointVec read v = .error e → e = invalidInput ∨ e = conversionError := by
  intro v
  induction v with
  | nil =>
    intro _ e he
    cases he
  | cons x v ih =>
    intro hv e he
    have ih := ih (fun x hx => hv x (List.mem_cons_of_mem _ hx))
    cases x with
    | u256 n => exact .inr (Except.error.inj he).symm
    | other => exact .inr (Except.error.inj he).symm
    | bytes x =>
      have he : (read x >>= fun p => pointVec read v >>= fun ps => .ok (p :: ps)) = .error e := he
      cases ha : read x with
      | error e' =>
        rw [ha] at he
        have : e' = invalidInput := by
          by_cases hc : ∀ P, S P → enc P ≠ x
          · rw [h.2 x (hv x List.mem_cons_self) hc] at ha
            exact (Except.error.inj ha).symm
          · exfalso
            apply hc
            rintro P hP rfl
            rw [h.1 P hP] at ha
            cases ha
        exact .inl ((Except.error.inj he).symm.trans this)
      | ok a =>
        rw [ha] at he
        have he : (pointVec read v >>= fun ps => .ok (a :: ps)) = .error e := he
        cases hq : pointVec read v with
        | error e' =>
          rw [hq] at he
          exact Except.error.inj he ▸ ih e' hq
        | ok ps =>
          rw [hq] at he
          cases he

theorem frVec_iff {r : Nat} : ∀ {v : List Elem} {ns : List Nat}, frVec r v = .ok ns ↔ ∃ l, v = nums l ∧ ns = l.map fun n => n % r := by
  intro v
  induction v with
  | nil =>
    intro ns
    constructor
    · intro h
      exact ⟨[], rfl, (Except.ok.inj h).symm⟩
    · rintro ⟨l, hv, rfl⟩
      cases l with
      | nil => rfl
      | cons n l => cases hv
  | cons e v ih =>
    intro ns
    cases e with
    | bytes n => exact ⟨(fun h => nomatch h), by rintro ⟨l, hl, _⟩; cases l <;> cases hl⟩
    | other => exact ⟨(fun h => nomatch h), by rintro ⟨l, hl, _⟩; cases l <;> cases hl⟩
    | u256 n =>
      constructor
      · intro h
        obtain ⟨ms, hms, h⟩ := bind_ok.mp h
        obtain ⟨l, rfl, rfl⟩ := ih.mp hms
        exact ⟨n :: l, rfl, (Except.ok.inj h).symm⟩
      · rintro ⟨l, hv, rfl⟩
        cases l with
        | nil => cases hv
        | cons m l =>
          obtain ⟨h1, h2⟩ := List.cons.inj hv
          injection h1 with h1
          subst h1 h2
          exact bind_ok.mpr ⟨_, ih.mpr ⟨l, rfl, rfl⟩, rfl⟩

theorem frVec_err {r : Nat} : ∀ {v : List Elem} {e : Err}, frVec r v = .error e → e = conversionError := by
  intro v
  induction v with
  | nil =>
    intro e he
    cases he
  | cons x v ih =>
    intro e he
    cases x with
    | bytes n => exact (Except.error.inj he).symm
    | other => exact (Except.error.inj he).symm
    | u256 n =>
      have he : (frVec r v >>= fun ns => .ok (frFromU256 r n :: ns)) = .error e := he
      cases hq : frVec r v with
      | error e' =>
        rw [hq] at he
        exact Except.error.inj he ▸ ih hq
      | ok ns =>
        rw [hq] at he
        cases he

theorem mod_nsmul' {A : Type} [AddCommMonoid A] {r : Nat} {P : A} (h : r • P = 0) (n : Nat) : (n % r) • P = n • P := by
  conv_rhs => rw [← Nat.mod_add_div n r, add_nsmul, mul_nsmul, h, nsmul_zero, add_zero]

theorem zip_toAff {b : F} : ∀ (l : List (Point b × Nat)) (r : Nat),
    ((l.map (·.1)).map toAff).zip ((l.map (·.2)).map fun n => n % r) = (l.map fun t => (t.1, t.2 % r)).map fun t => (toAff t.1, t.2) := by
  intro l r
  induction l with
  | nil => rfl
  | cons t l ih => simp only [List.map_cons, List.zip_cons_cons, ih]

theorem computes_msm {r : Nat} {b : F} {enc : Point b → Bytes} {S : Point b → Prop} {read : Bytes → Res (Aff F)} {ser : Aff F → Bytes}
    (h : Computes enc S read toAff) (hS : ∀ P, S P → r • P = 0) (hs : ∀ P : Point b, ser (toAff P) = enc P) :
    ComputesMsm enc S (fun vp vs => pointVec read vp >>= fun ps => frVec r vs >>= fun ns => msmInternal ps ns >>= fun p => .ok (ser p)) := by
  intro vp vs hv
  have lin : ∀ l : List (Point b × Nat), (∀ t ∈ l, S t.1) → lincomb (l.map fun t => (t.1, t.2 % r)) = lincomb l := by
    intro l
    induction l with
    | nil => intro _; rfl
    | cons t l ih =>
      intro hl
      have := ih fun t ht => hl t (List.mem_cons_of_mem _ ht)
      unfold lincomb at this ⊢
      rw [List.map_cons, List.map_cons, List.map_cons, List.sum_cons, List.sum_cons, this]
      dsimp only
      rw [mod_nsmul' (hS _ (hl t List.mem_cons_self))]
  constructor
  · intro out
    constructor
    · intro ho
      obtain ⟨ps, hps, ho⟩ := bind_ok.mp ho
      obtain ⟨ns, hns, ho⟩ := bind_ok.mp ho
      obtain ⟨q, hq, hoe⟩ := bind_ok.mp ho
      obtain ⟨l, hl, rfl, rfl⟩ := (pointVec_iff h hv ps).mp hps
      obtain ⟨m, rfl, rfl⟩ := frVec_iff.mp hns
      unfold msmInternal at hq
      split at hq
      · cases hq
      rename_i hlen
      simp only [List.length_map, not_or, not_not] at hlen
      have e1 : (l.zip m).map (·.1) = l := List.map_fst_zip (by omega)
      have e2 : (l.zip m).map (·.2) = m := List.map_snd_zip (by omega)
      have hz : ∀ t ∈ l.zip m, S t.1 := fun t ht => hl _ (List.of_mem_zip ht).1
      refine ⟨l.zip m, ?_, hz, by rw [e1], by rw [e2], ?_⟩
      · intro h0
        rw [h0] at e1
        rw [← e1] at hlen
        exact hlen.2 rfl
      · rw [← Except.ok.inj hoe, ← Except.ok.inj hq]
        have key := zip_toAff (l.zip m) r
        rw [e1, e2] at key
        rw [key, msm_eq, hs, lin _ hz]
    · rintro ⟨l, hl, hlS, rfl, rfl, rfl⟩
      refine bind_ok.mpr ⟨_, (pointVec_iff h hv _).mpr ⟨l.map (·.1), ?_, rfl, rfl⟩, bind_ok.mpr ⟨_, frVec_iff.mpr ⟨l.map (·.2), rfl, rfl⟩,
        bind_ok.mpr ⟨toAff (lincomb l), ?_, by rw [hs]⟩⟩⟩
      · intro P hP
        obtain ⟨t, ht, rfl⟩ := List.mem_map.mp hP
        exact hlS t ht
      · unfold msmInternal
        rw [if_neg, zip_toAff, msm_eq, lin l hlS]
        simp only [List.length_map, ne_eq, not_true_eq_false, false_or, List.length_eq_zero_iff]
        exact hl
  · intro e he
    have he : (pointVec read vp >>= fun ps => frVec r vs >>= fun ns => msmInternal ps ns >>= fun p => .ok (ser p)) = .error e := he
    cases h1 : pointVec read vp with
    | error e' =>
      rw [h1] at he
      exact Except.error.inj he ▸ pointVec_err h hv e' h1
    | ok ps =>
      rw [h1] at he
      have he : (frVec r vs >>= fun ns => msmInternal ps ns >>= fun p => .ok (ser p)) = .error e := he
      cases h2 : frVec r vs with
      | error e' =>
        rw [h2] at he
        exact .inr (Except.error.inj he ▸ frVec_err h2)
      | ok ns =>
        rw [h2] at he
        have he : (msmInternal ps ns >>= fun p => .ok (ser p)) = .error e := he
        unfold msmInternal at he
        split at he
        · exact .inl (Except.error.inj he).symm
        · cases he

theorem computes_pairing {G : Type} [Field G] [DecidableEq G] {T : Type} [CommMonoid T] [DecidableEq T] {b : F} {c : G}
    {enc : Point b → Bytes} {S : Point b → Prop} {read : Bytes → Res (Aff F)} {enc' : Point c → Bytes} {S' : Point c → Prop}
    {read' : Bytes → Res (Aff G)} {e : Point b → Point c → T} {pair : List (Aff F × Aff G) → Option T}
    (h : Computes enc S read toAff) (h' : Computes enc' S' read' toAff)
    (hp : ∀ l : List (Point b × Point c), (∀ q ∈ l, S q.1 ∧ S' q.2) →
      pair (l.map fun q => (toAff q.1, toAff q.2)) = some (l.map fun q => e q.1 q.2).prod) :
    ComputesPairing enc S enc' S' e (multiPairingCheck pair read read') := by
  intro v v' hv hv'
  have zipm : ∀ l : List (Point b × Point c), ((l.map (·.1)).map toAff).zip ((l.map (·.2)).map toAff) =
      l.map fun q => (toAff q.1, toAff q.2) := by
    intro l
    induction l with
    | nil => rfl
    | cons q l ih => simp only [List.map_cons, List.zip_cons_cons, ih]
  have val : ∀ l : List (Point b × Point c), l ≠ [] → (∀ q ∈ l, S q.1 ∧ S' q.2) →
      pairingInternal pair ((l.map (·.1)).map toAff) ((l.map (·.2)).map toAff) =
        .ok (decide ((l.map fun q => e q.1 q.2).prod = 1)) := by
    intro l hl hS
    unfold pairingInternal
    rw [if_neg, zipm, hp l hS]
    simp only [List.length_map, ne_eq, not_true_eq_false, false_or, List.length_eq_zero_iff]
    exact hl
  by_cases hlen : v.length ≠ v'.length ∨ v.length = 0
  · have hx : multiPairingCheck pair read read' v v' = .error invalidInput := if_pos hlen
    rw [hx]
    refine ⟨fun t => ⟨(fun h => nomatch h), ?_⟩, fun err he => .inl (Except.error.inj he).symm⟩
    rintro ⟨l, hl, _, rfl, rfl, _⟩
    simp only [encs, List.length_map, ne_eq, not_true_eq_false, false_or, List.length_eq_zero_iff] at hlen
    exact absurd hlen hl
  · have hx : multiPairingCheck pair read read' v v' =
        (pointVec read v >>= fun ps => pointVec read' v' >>= fun qs => pairingInternal pair ps qs) := if_neg hlen
    rw [hx]
    have split : ∀ ps qs, pointVec read v = .ok ps → pointVec read' v' = .ok qs → ∃ l : List (Point b × Point c), l ≠ [] ∧
        (∀ q ∈ l, S q.1 ∧ S' q.2) ∧ v = encs enc (l.map (·.1)) ∧ v' = encs enc' (l.map (·.2)) ∧ ps = (l.map (·.1)).map toAff ∧
        qs = (l.map (·.2)).map toAff := by
      intro ps qs h1 h2
      obtain ⟨l, hl, rfl, rfl⟩ := (pointVec_iff h hv ps).mp h1
      obtain ⟨m, hm, rfl, rfl⟩ := (pointVec_iff h' hv' qs).mp h2
      simp only [encs, List.length_map, not_or, not_not] at hlen
      have e1 : (l.zip m).map (·.1) = l := List.map_fst_zip (by omega)
      have e2 : (l.zip m).map (·.2) = m := List.map_snd_zip (by omega)
      refine ⟨l.zip m, ?_, fun q hq => ⟨hl _ (List.of_mem_zip hq).1, hm _ (List.of_mem_zip hq).2⟩, by rw [e1], by rw [e2],
        by rw [e1], by rw [e2]⟩
      intro h0
      rw [h0] at e1
      rw [← e1] at hlen
      exact hlen.2 rfl
    constructor
    · intro t
      constructor
      · intro ht
        obtain ⟨ps, hps, ht1⟩ := bind_ok.mp ht
        obtain ⟨qs, hqs, ht2⟩ := bind_ok.mp ht1
        obtain ⟨l, h1, h2, h3, h4, h5, h6⟩ := split ps qs hps hqs
        refine ⟨l, h1, h2, h3, h4, ?_⟩
        rw [h5, h6, val l h1 h2] at ht2
        exact (Except.ok.inj ht2).symm
      · rintro ⟨l, hl, hS, rfl, rfl, rfl⟩
        refine bind_ok.mpr ⟨_, (pointVec_iff h hv _).mpr ⟨l.map (·.1), ?_, rfl, rfl⟩,
          bind_ok.mpr ⟨_, (pointVec_iff h' hv' _).mpr ⟨l.map (·.2), ?_, rfl, rfl⟩, val l hl hS⟩⟩
        · intro P hP
          obtain ⟨t, ht, rfl⟩ := List.mem_map.mp hP
          exact (hS t ht).1
        · intro P hP
          obtain ⟨t, ht, rfl⟩ := List.mem_map.mp hP
          exact (hS t ht).2
    · intro err he
      cases h1 : pointVec read v with
      | error e' =>
        rw [h1] at he
        exact Except.error.inj he ▸ pointVec_err h hv e' h1
      | ok ps =>
        rw [h1] at he
        have he : (pointVec read' v' >>= fun qs => pairingInternal pair ps qs) = .error err := he
        cases h2 : pointVec read' v' with
        | error e' =>
          rw [h2] at he
          exact Except.error.inj he ▸ pointVec_err h' hv' e' h2
        | ok qs =>
          rw [h2] at he
          obtain ⟨l, g1, g2, _, _, g5, g6⟩ := split ps qs h1 h2
          have he : pairingInternal pair ps qs = .error err := he
          rw [g5, g6, val l g1 g2] at he
          cases he

end

/-! ### The four curves -/

theorem six_ne {p : Nat} [Fact p.Prime] (h : 6 % p ≠ 0) : (6 : ZMod p) ≠ 0 := by
  intro h0
  have h0 : ((6 : Nat) : ZMod p) = 0 := by exact_mod_cast h0
  rw [ZMod.natCast_eq_zero_iff] at h0
  exact h (Nat.mod_eq_zero_of_dvd h0)

theorem six_ne2 {p : Nat} [Fact p.Prime] [Fact (∀ r : ZMod p, r ^ 2 ≠ -1 + 0 * r)] (h : 6 % p ≠ 0) : (6 : Fp2 p) ≠ 0 := by
  intro h0
  have h1 := congrArg QuadraticAlgebra.re h0
  exact six_ne h h1

theorem blsEnc1_eq (P : BlsG1) : affineSerialize blsG1 (toAff P) = blsEnc1 P := by
  cases P with
  | zero => rfl
  | some x y h =>
    show (toLe 48 x.val).reverse ++ (toLe 48 y.val).reverse = be 48 x.val ++ be 48 y.val
    rw [be_eq, be_eq]

theorem blsEnc2_eq (P : BlsG2) : affineSerialize blsG2 (toAff P) = blsEnc2 P := by
  cases P with
  | zero => rfl
  | some x y h =>
    show (toLe 48 x.im.val).reverse ++ (toLe 48 x.re.val).reverse ++ ((toLe 48 y.im.val).reverse ++ (toLe 48 y.re.val).reverse) =
      be 48 x.im.val ++ be 48 x.re.val ++ (be 48 y.im.val ++ be 48 y.re.val)
    rw [be_eq, be_eq, be_eq, be_eq]

theorem bnEnc1_eq (P : BnG1) : bnAffineSerialize bnG1 (toAff P) = bnEnc1 P := by
  cases P with
  | zero =>
    show (toLe 32 (0 : ZMod bnP).val).reverse ++ (toLe 32 (0 : ZMod bnP).val).reverse = List.replicate 64 0
    rw [ZMod.val_zero]
    decide
  | some x y h =>
    show (toLe 32 x.val).reverse ++ (toLe 32 y.val).reverse = be 32 x.val ++ be 32 y.val
    rw [be_eq, be_eq]

theorem bnEnc2_eq (P : BnG2) : bnAffineSerialize bnG2 (toAff P) = bnEnc2 P := by
  cases P with
  | zero =>
    show (toLe 32 (0 : ZMod bnP).val).reverse ++ (toLe 32 (0 : ZMod bnP).val).reverse ++
      ((toLe 32 (0 : ZMod bnP).val).reverse ++ (toLe 32 (0 : ZMod bnP).val).reverse) = List.replicate 128 0
    rw [ZMod.val_zero]
    decide
  | some x y h =>
    show (toLe 32 x.im.val).reverse ++ (toLe 32 x.re.val).reverse ++ ((toLe 32 y.im.val).reverse ++ (toLe 32 y.re.val).reverse) =
      be 32 x.im.val ++ be 32 x.re.val ++ (be 32 y.im.val ++ be 32 y.re.val)
    rw [be_eq, be_eq, be_eq, be_eq]

theorem blsG1_lawful : Lawful blsG1.coord := fp_lawful (by decide) (by decide +kernel)
theorem blsG2_lawful : Lawful blsG2.coord := fp2_lawful (by decide) (by decide +kernel)
theorem bnG1_lawful : Lawful bnG1.coord := fp_lawful (by decide) (by decide +kernel)
theorem bnG2_lawful : Lawful bnG2.coord := fp2_lawful (by decide) (by decide +kernel)

theorem blsG1_b : blsG1.b ≠ 0 := by
  show (4 : ZMod blsP) ≠ 0
  intro h
  exact six_ne (p := blsP) (by decide +kernel) (by
    have : (2 : ZMod blsP) * 2 = 0 := by linear_combination h
    have h2 : (2 : ZMod blsP) = 0 := (mul_self_eq_zero (M₀ := ZMod blsP)).mp this
    linear_combination 3 * h2)

theorem blsG2_b : blsG2.b ≠ 0 := by
  intro h
  exact blsG1_b (congrArg QuadraticAlgebra.re h)

theorem bnG2_b_eq : bnG2.b * ⟨9, 1⟩ = 3 := by
  apply QuadraticAlgebra.ext
  · decide +kernel
  · decide +kernel

theorem bnG2_b : bnG2.b ≠ 0 := by
  intro h
  have h1 := bnG2_b_eq
  rw [h, zero_mul] at h1
  exact bn_b (congrArg QuadraticAlgebra.re h1).symm

theorem blsG1_reads {m : Mode} (hm : m ≠ .noCheck) :
    Computes blsEnc1 (fun P => m = .inSubgroup → blsR • P = 0) (affineDeserialize blsG1 m) toAff :=
  computes_congr (bls_reads blsG1_lawful (fp_top (by decide) (by decide +kernel)) (six_ne (by decide +kernel)) blsG1_b hm) blsEnc1_eq
    (fun _ => Iff.rfl) fun _ _ => rfl

theorem blsG2_reads {m : Mode} (hm : m ≠ .noCheck) :
    Computes blsEnc2 (fun P => m = .inSubgroup → blsR • P = 0) (affineDeserialize blsG2 m) toAff :=
  computes_congr (bls_reads blsG2_lawful (fp2_top (by decide) (by decide +kernel) (by decide +kernel)) (six_ne2 (by decide +kernel))
    blsG2_b hm) blsEnc2_eq (fun _ => Iff.rfl) fun _ _ => rfl

theorem bnEnc1_zero : bnG1.coord.enc 0 = List.replicate bnG1.coord.size 0 := by
  show (toLe 32 (0 : ZMod bnP).val).reverse = List.replicate 32 0
  rw [ZMod.val_zero]
  decide

theorem bnEnc2_zero : bnG2.coord.enc 0 = List.replicate bnG2.coord.size 0 := by
  show (toLe 32 (0 : ZMod bnP).val).reverse ++ (toLe 32 (0 : ZMod bnP).val).reverse = List.replicate 64 0
  rw [ZMod.val_zero]
  decide

theorem bnG1_reads : Computes bnEnc1 (fun _ => True) (bnAffineDeserialize bnG1 true false) toAff :=
  computes_congr (bn_reads bnG1_lawful (fp_top (by decide) (by decide +kernel)) (bnEnc1_zero) bn_six bn_b) bnEnc1_eq
    (fun _ => ⟨fun _ => trivial, fun _ h => nomatch h⟩) fun _ _ => rfl

theorem bnG2_reads : Computes bnEnc2 (fun P => bnR • P = 0) (bnAffineDeserialize bnG2 true true) toAff :=
  computes_congr (bn_reads bnG2_lawful (fp2_top (by decide) (by decide +kernel) (by decide +kernel)) (bnEnc2_zero)
    (six_ne2 (by decide +kernel)) bnG2_b) bnEnc2_eq
    (fun _ => ⟨fun h => h rfl, fun h _ => h⟩) fun _ _ => rfl

end Soroban.Curves
