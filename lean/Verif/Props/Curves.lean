import Verif.Lemmas.SomePairing
/-!
C65: encodings of points. C66: the group operations. C67: pairing checks. C68: scalars.
-/
namespace Soroban.Props

open Soroban.Curves Soroban.Curves.Spec

/-! ### C65 -/

/-- Two points never have the same encoding. -/
theorem C65_injective :
    Function.Injective blsEnc1 ∧ Function.Injective blsEnc2 ∧ Function.Injective bnEnc1 ∧ Function.Injective bnEnc2 := by
  have inj : ∀ {F : Type} [Field F] [DecidableEq F] {b : F} {enc : Point b → Bytes} {read : Bytes → Res (Aff F)}
      {ser : Aff F → Bytes}, (∀ P : Point b, ser (toAff P) = enc P) → (∀ P : Point b, read (ser (toAff P)) = .ok (toAff P)) →
      Function.Injective enc := by
    intro F _ _ b enc read ser hs hr P Q h
    have h1 := hr P
    rw [hs, h, ← hs, hr Q] at h1
    exact toAff_inj (Except.ok.inj h1).symm
  refine ⟨inj blsEnc1_eq (read := affineDeserialize blsG1 .onCurve) fun P => ?_,
    inj blsEnc2_eq (read := affineDeserialize blsG2 .onCurve) fun P => ?_,
    inj bnEnc1_eq (read := bnAffineDeserialize bnG1 true false) fun P => ?_,
    inj bnEnc2_eq (read := bnAffineDeserialize bnG2 true false) fun P => ?_⟩
  · rw [blsEnc1_eq]
    exact (blsG1_reads (by decide)).1 P (fun h => nomatch h)
  · rw [blsEnc2_eq]
    exact (blsG2_reads (by decide)).1 P (fun h => nomatch h)
  · rw [bnEnc1_eq]
    exact bnG1_reads.1 P trivial
  · exact (bn_reads bnG2_lawful (fp2_top (by decide) (by decide +kernel) (by decide +kernel)) bnEnc2_zero
      (six_ne2 (by decide +kernel)) bnG2_b).1 P (fun h => nomatch h)

theorem C65_length (P : BlsG1) (Q : BlsG2) (R : BnG1) (S : BnG2) :
    ((blsEnc1 P).length = 96 ∧ IsBytes (blsEnc1 P)) ∧ ((blsEnc2 Q).length = 192 ∧ IsBytes (blsEnc2 Q)) ∧
      ((bnEnc1 R).length = 64 ∧ IsBytes (bnEnc1 R)) ∧ ((bnEnc2 S).length = 128 ∧ IsBytes (bnEnc2 S)) := by
  have hbe : ∀ n v, (be n v).length = n := by
    intro n
    induction n with
    | zero => intro v; rfl
    | succ n ih => intro v; rw [be, List.length_append, ih]; rfl
  refine ⟨⟨?_, blsEnc1_eq P ▸ serialize_bytes blsG1_lawful _⟩, ⟨?_, blsEnc2_eq Q ▸ serialize_bytes blsG2_lawful _⟩,
    ⟨?_, bnEnc1_eq R ▸ bn_serialize_bytes bnG1_lawful _⟩, ⟨?_, bnEnc2_eq S ▸ bn_serialize_bytes bnG2_lawful _⟩⟩
  · cases P with
    | zero => rfl
    | some x y h => simp [blsEnc1, zcash, hbe]
  · cases Q with
    | zero => rfl
    | some x y h => simp [blsEnc2, zcash, be2, hbe]
  · cases R with
    | zero => rfl
    | some x y h => simp [bnEnc1, ethereum, hbe]
  · cases S with
    | zero => rfl
    | some x y h => simp [bnEnc2, ethereum, be2, hbe]

/-- The subgroup checks accept just the encodings of points on the curve, and decide membership. -/
theorem C65_subgroup_check :
    Computes blsEnc1 (fun _ => True) (checkIsInSubgroup blsG1) (fun P => decide (blsR • P = 0)) ∧
      Computes blsEnc2 (fun _ => True) (checkIsInSubgroup blsG2) (fun P => decide (blsR • P = 0)) := by
  constructor
  · refine computes_congr (computes_bind (fun pt => .ok (isInSubgroup blsG1 pt)) _ (blsG1_reads (m := .onCurve) (by decide))
      (fun P _ => rfl)) (fun _ => rfl) (fun _ => ⟨fun _ => trivial, fun _ h => nomatch h⟩) fun P _ => ?_
    rw [Bool.eq_iff_iff, decide_eq_true_iff]
    exact subgroup_iff (C := blsG1) P
  · refine computes_congr (computes_bind (fun pt => .ok (isInSubgroup blsG2 pt)) _ (blsG2_reads (m := .onCurve) (by decide))
      (fun P _ => rfl)) (fun _ => rfl) (fun _ => ⟨fun _ => trivial, fun _ h => nomatch h⟩) fun P _ => ?_
    rw [Bool.eq_iff_iff, decide_eq_true_iff]
    exact subgroup_iff (C := blsG2) P

/-- The on-curve checks take any two coordinates, and decide the equation. -/
theorem C65_on_curve_check :
    DecidesCurve (fun x : ZMod blsP => be 48 x.val) (64 :: List.replicate 95 0) 4 (checkIsOnCurve blsG1) ∧
      DecidesCurve (fun x : Fp2 blsP => be2 48 x) (64 :: List.replicate 191 0) ⟨4, 4⟩ (checkIsOnCurve blsG2) ∧
      DecidesCurve (fun x : ZMod bnP => be 32 x.val) (List.replicate 64 0) 3 (bnCheckIsOnCurve bnG1) := by
  have gen : ∀ {F : Type} [Field F] [DecidableEq F] {C : Curve F} {read : Bytes → Res (Aff F)} {ser : Aff F → Bytes}
      {no : Aff F → Prop} {e : F → Bytes},
      (∀ {b a}, IsBytes b → (read b = .ok a ↔ b = ser a ∧ no a)) → (∀ {b e}, read b = .error e → e = invalidInput) →
      (∀ a, IsBytes (ser a)) → no .zero → (∀ x y, ser (.xy x y) = e x ++ e y) →
      (∀ x y, e x ++ e y ≠ ser .zero → no (.xy x y)) →
      DecidesCurve e (ser .zero) C.b (fun b => read b >>= fun pt => .ok (isOnCurve C pt)) := by
    intro F _ _ C read ser no e hr he hb h0 hs hn
    refine ⟨?_, fun x y hne => ?_, fun bs hbs hne hno => ?_⟩
    · exact bind_ok.mpr ⟨.zero, (hr (hb _)).mpr ⟨rfl, h0⟩, rfl⟩
    · refine bind_ok.mpr ⟨.xy x y, (hr (hs x y ▸ hb _)).mpr ⟨(hs x y).symm, hn x y hne⟩, ?_⟩
      show (Except.ok (decide (y * y = x * x * x + C.b)) : Res Bool) = _
      congr 1
      rw [decide_eq_decide]
      constructor
      · intro h; linear_combination h
      · intro h; linear_combination h
    · show (read bs >>= fun pt => .ok (isOnCurve C pt)) = _
      cases h : read bs with
      | error err =>
        rw [he h]
        rfl
      | ok a =>
        exfalso
        obtain ⟨h1, _⟩ := (hr hbs).mp h
        cases a with
        | zero => exact hne h1
        | xy x y => exact hno x y ((hs x y).symm.trans h1.symm)
  refine ⟨gen (C := blsG1) (ser := affineSerialize blsG1) (no := fun _ => True) (fun hb => ?_) bls_deserialize_err
      (serialize_bytes blsG1_lawful) trivial (fun x y => ?_) (fun _ _ _ => trivial),
    gen (C := blsG2) (ser := affineSerialize blsG2) (no := fun _ => True) (fun hb => ?_) bls_deserialize_err
      (serialize_bytes blsG2_lawful) trivial (fun x y => ?_) (fun _ _ _ => trivial), ?_⟩
  · rw [bls_deserialize_iff blsG1_lawful (fp_top (by decide) (by decide +kernel)) hb]
    simp
  · show (toLe 48 x.val).reverse ++ (toLe 48 y.val).reverse = _
    rw [be_eq, be_eq]
  · rw [bls_deserialize_iff blsG2_lawful (fp2_top (by decide) (by decide +kernel) (by decide +kernel)) hb]
    simp
  · show (toLe 48 x.im.val).reverse ++ (toLe 48 x.re.val).reverse ++ ((toLe 48 y.im.val).reverse ++ (toLe 48 y.re.val).reverse) = _
    rw [be2, be2, be_eq, be_eq, be_eq, be_eq]
  · have hz : bnAffineSerialize bnG1 .zero = List.replicate 64 0 := bnEnc1_eq 0
    have hxy : ∀ x y : ZMod bnP, bnAffineSerialize bnG1 (.xy x y) = be 32 x.val ++ be 32 y.val := by
      intro x y
      show (toLe 32 x.val).reverse ++ (toLe 32 y.val).reverse = _
      rw [be_eq, be_eq]
    rw [← hz]
    refine gen (C := bnG1) (ser := bnAffineSerialize bnG1) (no := fun a => a ≠ .xy 0 0) (fun hb => ?_) bn_deserialize_err
      (bn_serialize_bytes bnG1_lawful) (fun h => nomatch h) hxy (fun x y hne h => ?_)
    · rw [bn_deserialize_iff bnG1_lawful (fp_top (by decide) (by decide +kernel)) bnEnc1_zero hb]
      simp
    · rw [← hxy, h] at hne
      exact hne rfl

/-- A field element is taken just when it is written with the full length and is less than the modulus, for any map to the curve. -/
theorem C65_field_elements (m1 : ZMod blsP → BlsG1) (m2 : Fp2 blsP → BlsG2) :
    Computes (fun x : ZMod blsP => be 48 x.val) (fun _ => True) (hostMap blsG1 fun x => coords (m1 x)) (fun x => blsEnc1 (m1 x)) ∧
      Computes (fun x : Fp2 blsP => be2 48 x) (fun _ => True) (hostMap blsG2 fun x => coords (m2 x)) (fun x => blsEnc2 (m2 x)) := by
  have gen : ∀ {F : Type} [Field F] {C : Curve F} {e : F → Bytes}, Lawful C.coord → (∀ x, C.coord.enc x = e x) →
      Computes e (fun _ => True) (fieldElementDeserialize C) id := by
    intro F _ C e hK he
    refine ⟨fun x _ => ?_, fun b hb hno => ?_⟩
    · unfold fieldElementDeserialize
      rw [← he, if_neg (fun h => h (hK.len x)), (hK.iff _ (hK.bytes x) (hK.len x) x).mpr rfl]
      rfl
    · unfold fieldElementDeserialize
      by_cases hl : b.length = C.coord.size
      · rw [if_neg (fun h => h hl)]
        cases hd : C.coord.dec b with
        | none => rfl
        | some x =>
          refine absurd ?_ (hno x trivial)
          rw [(hK.iff b hb hl x).mp hd, he]
      · rw [if_pos hl]
  refine ⟨computes_bind _ _ (gen (C := blsG1) blsG1_lawful fun x => (be_eq _ _).symm) fun x _ => ?_,
    computes_bind _ _ (gen (C := blsG2) blsG2_lawful fun x => ?_) fun x _ => ?_⟩
  · show (Except.ok (affineSerialize blsG1 (toAff (m1 x))) : Res Bytes) = _
    rw [blsEnc1_eq]
  · show (toLe 48 x.im.val).reverse ++ (toLe 48 x.re.val).reverse = _
    rw [be2, be_eq, be_eq]
  · show (Except.ok (affineSerialize blsG2 (toAff (m2 x))) : Res Bytes) = _
    rw [blsEnc2_eq]

/-- Hashing to a curve wants a domain separation tag of 1 to 255 bytes. -/
theorem C65_hash (h1 : Bytes → Bytes → BlsG1) (h2 : Bytes → Bytes → BlsG2) (msg dst : Bytes) :
    (hostHash blsG1 (fun d m => coords (h1 d m)) msg dst =
      if 1 ≤ dst.length ∧ dst.length ≤ 255 then .ok (blsEnc1 (h1 dst msg)) else .error invalidInput) ∧
    (hostHash blsG2 (fun d m => coords (h2 d m)) msg dst =
      if 1 ≤ dst.length ∧ dst.length ≤ 255 then .ok (blsEnc2 (h2 dst msg)) else .error invalidInput) := by
  unfold hostHash
  rw [show (coords : BlsG1 → _) = toAff from rfl, show (coords : BlsG2 → _) = toAff from rfl]
  by_cases h : dst.length = 0 ∨ dst.length > 255
  · rw [if_pos h, if_pos h, if_neg (by omega), if_neg (by omega)]
    exact ⟨rfl, rfl⟩
  · rw [if_neg h, if_neg h, if_pos (by omega), if_pos (by omega), blsEnc1_eq, blsEnc2_eq]
    exact ⟨rfl, rfl⟩

/-- The generators of the four groups are in the subgroups, and a point of order three of BLS12-381's first curve is not. -/
example : blsR • blsGen1 = 0 ∧ blsR • blsGen2 = 0 ∧ bnR • bnGen = 0 ∧ bnR • bnGen2 = 0 ∧ blsGen1 ≠ 0 ∧ blsGen2 ≠ 0 ∧ bnGen ≠ 0 ∧
    bnGen2 ≠ 0 :=
  ⟨blsGen1_order, blsGen2_order, bnGen_order, bnGen2_order, (fun h => nomatch h), (fun h => nomatch h), (fun h => nomatch h),
    (fun h => nomatch h)⟩

theorem three_nonsingular : (W (4 : ZMod blsP)).Nonsingular 0 2 :=
  (W_nonsingular (six_ne (by decide +kernel)) blsG1_b).mpr (by show (2 : ZMod blsP) * 2 = 0 * 0 * 0 + 4; ring)

/-- A point of order three. -/
def blsThree : BlsG1 := .some 0 2 three_nonsingular

theorem blsThree_order : 3 • blsThree = 0 :=
  order_of_ladder (inv := invFp blsP) [false] (by decide) (by decide +kernel)

theorem blsThree_outside : blsR • blsThree ≠ 0 := by
  have h1 : blsR % 3 = 1 := by decide +kernel
  intro h
  rw [← mod_nsmul' blsThree_order, h1, one_nsmul] at h
  cases h

/-- It is on the curve, and the check answers that it is not in the subgroup. -/
example : checkIsInSubgroup blsG1 (be 48 0 ++ be 48 2) = .ok false ∧ checkIsOnCurve blsG1 (be 48 0 ++ be 48 2) = .ok true := by
  have e : blsEnc1 blsThree = be 48 0 ++ be 48 2 := by
    show be 48 (0 : ZMod blsP).val ++ be 48 (2 : ZMod blsP).val = _
    rw [ZMod.val_zero, show (2 : ZMod blsP).val = 2 by decide +kernel]
  have h := C65_subgroup_check.1.1 blsThree trivial
  dsimp only at h
  rw [e, decide_eq_false blsThree_outside] at h
  refine ⟨h, ?_⟩
  have h := C65_on_curve_check.1.2.1 0 2
  dsimp only at h
  rw [ZMod.val_zero, show (2 : ZMod blsP).val = 2 by decide +kernel] at h
  rw [h (by decide), decide_eq_true (by ring)]

/-- Coordinates off the curve, and coordinates that are too large. -/
example : checkIsOnCurve blsG1 (be 48 0 ++ be 48 3) = .ok false ∧ checkIsOnCurve blsG1 (be 48 blsP ++ be 48 2) = .error invalidInput := by
  constructor
  · have h := C65_on_curve_check.1.2.1 0 3
    dsimp only at h
    rw [ZMod.val_zero, show (3 : ZMod blsP).val = 3 by decide +kernel] at h
    rw [h (by decide), decide_eq_false (by decide +kernel)]
  · refine C65_on_curve_check.1.2.2 _ (by unfold IsBytes; decide +kernel) (by decide +kernel) fun x y h => ?_
    dsimp only at h
    have hbe : ∀ n v, (be n v).length = n := by
      intro n
      induction n with
      | zero => intro v; rfl
      | succ n ih => intro v; rw [be, List.length_append, ih]; rfl
    have h1 := (List.append_inj h (by rw [hbe, hbe])).1
    have hx : fromLe (be 48 x.val).reverse = x.val := by
      rw [be_eq, List.reverse_reverse]
      exact fromLe_toLe _ _ (lt_of_lt_of_le (ZMod.val_lt x) (by decide +kernel))
    rw [h1] at hx
    have h2 : fromLe (be 48 blsP).reverse = blsP := by decide +kernel
    rw [h2] at hx
    exact absurd hx.symm (ZMod.val_lt x).ne

/-! ### C66 -/

/-- Addition takes any two points of the curve. -/
theorem C66_add :
    Computes2 blsEnc1 (fun _ => True) blsEnc1 (fun _ => True) (hostAdd blsG1) (fun P Q => blsEnc1 (P + Q)) ∧
      Computes2 blsEnc2 (fun _ => True) blsEnc2 (fun _ => True) (hostAdd blsG2) (fun P Q => blsEnc2 (P + Q)) ∧
      Computes2 bnEnc1 (fun _ => True) bnEnc1 (fun _ => True) (bnHostAdd bnG1) (fun P Q => bnEnc1 (P + Q)) := by
  have r1 : Computes blsEnc1 (fun _ => True) (affineDeserialize blsG1 .onCurve) toAff :=
    computes_congr (blsG1_reads (by decide)) (fun _ => rfl) (fun _ => ⟨fun _ => trivial, fun _ h => nomatch h⟩) fun _ _ => rfl
  have r2 : Computes blsEnc2 (fun _ => True) (affineDeserialize blsG2 .onCurve) toAff :=
    computes_congr (blsG2_reads (by decide)) (fun _ => rfl) (fun _ => ⟨fun _ => trivial, fun _ h => nomatch h⟩) fun _ _ => rfl
  refine ⟨computes_bind2 _ _ r1 r1 fun P Q _ _ => ?_, computes_bind2 _ _ r2 r2 fun P Q _ _ => ?_,
    computes_bind2 _ _ bnG1_reads bnG1_reads fun P Q _ _ => ?_⟩
  · rw [add_eq, blsEnc1_eq]
  · rw [add_eq, blsEnc2_eq]
  · rw [add_eq, bnEnc1_eq]

/-- On BN254's first curve every point is in the subgroup, so nothing is lost by not checking it. -/
theorem C66_bn_subgroup (P : BnG1) : bnR • P = 0 := bn_order P

/-- Multiplication takes the points of the subgroup, and any number. -/
theorem C66_mul (n : Nat) :
    Computes blsEnc1 (fun P => blsR • P = 0) (fun b => hostMul blsG1 b n) (fun P => blsEnc1 (n • P)) ∧
      Computes blsEnc2 (fun P => blsR • P = 0) (fun b => hostMul blsG2 b n) (fun P => blsEnc2 (n • P)) ∧
      Computes bnEnc1 (fun _ => True) (fun b => bnHostMul bnG1 b n) (fun P => bnEnc1 (n • P)) := by
  have r1 : Computes blsEnc1 (fun P => blsR • P = 0) (affineDeserialize blsG1 .inSubgroup) toAff :=
    computes_congr (blsG1_reads (by decide)) (fun _ => rfl) (fun _ => ⟨fun h => h rfl, fun h _ => h⟩) fun _ _ => rfl
  have r2 : Computes blsEnc2 (fun P => blsR • P = 0) (affineDeserialize blsG2 .inSubgroup) toAff :=
    computes_congr (blsG2_reads (by decide)) (fun _ => rfl) (fun _ => ⟨fun h => h rfl, fun h _ => h⟩) fun _ _ => rfl
  refine ⟨computes_bind _ _ r1 fun P hP => ?_, computes_bind _ _ r2 fun P hP => ?_, computes_bind _ _ bnG1_reads fun P _ => ?_⟩
  · show (Except.ok (affineSerialize blsG1 (mul (n % blsR) (toAff P))) : Res Bytes) = _
    rw [mul_eq, mod_nsmul' hP, blsEnc1_eq]
  · show (Except.ok (affineSerialize blsG2 (mul (n % blsR) (toAff P))) : Res Bytes) = _
    rw [mul_eq, mod_nsmul' hP, blsEnc2_eq]
  · show (Except.ok (bnAffineSerialize bnG1 (mul (n % bnR) (toAff P))) : Res Bytes) = _
    rw [mul_eq, mod_nsmul' (bn_order P), bnEnc1_eq]

/-- Sums of multiples. -/
theorem C66_msm :
    ComputesMsm blsEnc1 (fun P => blsR • P = 0) (hostMsm blsG1) ∧ ComputesMsm blsEnc2 (fun P => blsR • P = 0) (hostMsm blsG2) ∧
      ComputesMsm bnEnc1 (fun _ => True) (bnHostMsm bnG1) := by
  have r1 : Computes blsEnc1 (fun P => blsR • P = 0) (affineDeserialize blsG1 .inSubgroup) toAff :=
    computes_congr (blsG1_reads (by decide)) (fun _ => rfl) (fun _ => ⟨fun h => h rfl, fun h _ => h⟩) fun _ _ => rfl
  have r2 : Computes blsEnc2 (fun P => blsR • P = 0) (affineDeserialize blsG2 .inSubgroup) toAff :=
    computes_congr (blsG2_reads (by decide)) (fun _ => rfl) (fun _ => ⟨fun h => h rfl, fun h _ => h⟩) fun _ _ => rfl
  exact ⟨computes_msm r1 (fun _ h => h) blsEnc1_eq, computes_msm r2 (fun _ h => h) blsEnc2_eq,
    computes_msm bnG1_reads (fun P _ => bn_order P) bnEnc1_eq⟩

/-- What contracts can rely on in terms of bytes: sums do not depend on the order, products of numbers and sums of numbers go over to
multiples, and results are taken as arguments. -/
theorem C66_laws (b b' b'' : Bytes) (hb : IsBytes b) (hb' : IsBytes b') (hb'' : IsBytes b'') (m n : Nat) :
    Laws (hostAdd blsG1) (hostMul blsG1) b b' b'' m n ∧ Laws (hostAdd blsG2) (hostMul blsG2) b b' b'' m n ∧
      Laws (bnHostAdd bnG1) (bnHostMul bnG1) b b' b'' m n := by
  have gen : ∀ {A : Type} [AddCommGroup A] {enc : A → Bytes} {S : A → Prop} {add : Bytes → Bytes → Res Bytes}
      {mul : Bytes → Nat → Res Bytes}, (∀ a, IsBytes (enc a)) → (∀ (n : Nat) a, S a → S (n • a)) →
      Computes2 enc (fun _ => True) enc (fun _ => True) add (fun P Q => enc (P + Q)) →
      (∀ n : Nat, Computes enc S (fun b => mul b n) (fun P => enc (n • P))) → Laws add mul b b' b'' m n := by
    intro A _ enc S add mul hB hS ha hm
    have un : ∀ {x : Bytes}, IsBytes x → (∃ a, enc a = x) ∨ (∀ y, IsBytes y → add x y = .error invalidInput ∧
        add y x = .error invalidInput) := by
      intro x hx
      by_cases h : ∃ a, enc a = x
      · exact .inl h
      · have h : ∀ a, True → enc a ≠ x := fun a _ he => h ⟨a, he⟩
        exact .inr fun y hy => ⟨ha.2 x y hx hy (.inl h), ha.2 y x hy hx (.inr h)⟩
    have ok : ∀ p q, add (enc p) (enc q) = .ok (enc (p + q)) := fun p q => ha.1 p q trivial trivial
    refine ⟨?_, ?_, ?_⟩
    · rcases un hb with ⟨p, rfl⟩ | h
      · rcases un hb' with ⟨q, rfl⟩ | h
        · rw [ok, ok, add_comm]
        · rw [(h _ hb).1, (h _ hb).2]
      · rw [(h _ hb').1, (h _ hb').2]
    · rcases un hb with ⟨p, rfl⟩ | h
      · rcases un hb' with ⟨q, rfl⟩ | h'
        · rcases un hb'' with ⟨r, rfl⟩ | h''
          · rw [ok, ok]
            show add (enc (p + q)) (enc r) = add (enc p) (enc (q + r))
            rw [ok, ok, add_assoc]
          · rw [ok, (h'' _ hb').2]
            exact (h'' _ (hB _)).2
        · rw [(h' _ hb).2, (h' _ hb'').1]
          rfl
      · rw [(h _ hb').1]
        rcases un hb' with ⟨q, rfl⟩ | h'
        · rcases un hb'' with ⟨r, rfl⟩ | h''
          · rw [ok]
            exact (h _ (hB _)).1.symm
          · rw [(h'' _ hb').2]
            rfl
        · rw [(h' _ hb'').1]
          rfl
    · by_cases h : ∃ a, S a ∧ enc a = b
      · obtain ⟨p, hp, rfl⟩ := h
        have hm1 : ∀ (k : Nat) q, S q → mul (enc q) k = .ok (enc (k • q)) := fun k q hq => (hm k).1 q hq
        rw [hm1 m p hp, hm1 n p hp, hm1 (m * n) p hp, hm1 (m + n) p hp]
        refine ⟨?_, ?_⟩
        · show mul (enc (m • p)) n = _
          rw [hm1 n _ (hS m p hp), mul_nsmul]
        · show add (enc (m • p)) (enc (n • p)) = _
          rw [ok, add_nsmul]
      · have hm2 : ∀ k : Nat, mul b k = .error invalidInput := fun k => (hm k).2 b hb fun a hS he => h ⟨a, hS, he⟩
        rw [hm2, hm2, hm2, hm2]
        exact ⟨rfl, rfl⟩
  have clo : ∀ {A : Type} [AddCommGroup A] {r : Nat} (n : Nat) (a : A), r • a = 0 → r • n • a = 0 := by
    intro A _ r n a h
    rw [← mul_nsmul', mul_nsmul, h, nsmul_zero]
  exact ⟨gen (fun P => (C65_length P 0 0 0).1.2) clo C66_add.1 fun n => (C66_mul n).1,
    gen (fun P => (C65_length 0 P 0 0).2.1.2) clo C66_add.2.1 fun n => (C66_mul n).2.1,
    gen (fun P => (C65_length 0 0 P 0).2.2.1.2) (fun _ _ h => h) C66_add.2.2 fun n => (C66_mul n).2.2⟩

/-- Multiplication of the generator, and refusal of the point of order three. -/
example (n : Nat) : hostMul blsG1 (blsEnc1 blsGen1) n = .ok (blsEnc1 (n • blsGen1)) ∧
    hostMul blsG1 (blsEnc1 blsThree) n = .error invalidInput ∧
    hostAdd blsG1 (blsEnc1 blsThree) (blsEnc1 blsThree) = .ok (blsEnc1 (-blsThree)) := by
  refine ⟨(C66_mul n).1.1 _ blsGen1_order, (C66_mul n).1.2 _ (C65_length _ 0 0 0).1.2 fun a ha he => ?_, ?_⟩
  · rw [C65_injective.1 he] at ha
    exact blsThree_outside ha
  · rw [C66_add.1.1 _ _ trivial trivial]
    dsimp only
    congr 2
    apply eq_neg_of_add_eq_zero_left
    rw [← two_nsmul, ← succ_nsmul]
    exact blsThree_order

example : bnHostMsm bnG1 (encs bnEnc1 [bnGen, 2 • bnGen]) (nums [3, 2]) = .ok (bnEnc1 (7 • bnGen)) := by
  refine ((C66_msm.2.2 _ _ ?_).1 _).mpr ⟨[(bnGen, 3), (2 • bnGen, 2)], by simp, fun _ _ => trivial, rfl, rfl, ?_⟩
  · intro b hb
    obtain ⟨a, _, ha⟩ := List.mem_map.mp hb
    injection ha with ha
    exact ha ▸ (C65_length 0 0 a 0).2.2.1.2
  · have h : lincomb [(bnGen, 3), (2 • bnGen, 2)] = 3 • bnGen + (2 • 2 • bnGen + 0) := rfl
    rw [h, add_zero, ← mul_nsmul, ← add_nsmul]

/-! ### C67 -/

/-- The pairing checks, for any pairing the library computes on the subgroups. -/
theorem C67_check {T : Type} [CommMonoid T] [DecidableEq T] (e : BlsG1 → BlsG2 → T) (e' : BnG1 → BnG2 → T)
    (pair : List (Aff (ZMod blsP) × Aff (Fp2 blsP)) → Option T) (pair' : List (Aff (ZMod bnP) × Aff (Fp2 bnP)) → Option T)
    (hp : Multiplies (fun P => blsR • P = 0) (fun Q => blsR • Q = 0) e pair)
    (hp' : Multiplies (fun _ => True) (fun Q => bnR • Q = 0) e' pair') :
    ComputesPairing blsEnc1 (fun P => blsR • P = 0) blsEnc2 (fun Q => blsR • Q = 0) e
        (blsMultiPairingCheck blsG1 blsG2 pair) ∧
      ComputesPairing bnEnc1 (fun _ => True) bnEnc2 (fun Q => bnR • Q = 0) e'
        (bnMultiPairingCheck bnG1 bnG2 pair') := by
  have r1 : Computes blsEnc1 (fun P => blsR • P = 0) (affineDeserialize blsG1 .inSubgroup) toAff :=
    computes_congr (blsG1_reads (by decide)) (fun _ => rfl) (fun _ => ⟨fun h => h rfl, fun h _ => h⟩) fun _ _ => rfl
  have r2 : Computes blsEnc2 (fun P => blsR • P = 0) (affineDeserialize blsG2 .inSubgroup) toAff :=
    computes_congr (blsG2_reads (by decide)) (fun _ => rfl) (fun _ => ⟨fun h => h rfl, fun h _ => h⟩) fun _ _ => rfl
  exact ⟨computes_pairing r1 r2 hp, computes_pairing bnG1_reads bnG2_reads hp'⟩

/-- A check of two pairs of points, for a bilinear map. -/
theorem pairing_two {A B T : Type} [AddCommGroup A] [AddCommGroup B] [CommGroup T] [DecidableEq T] {enc : A → Bytes} {S : A → Prop}
    {enc' : B → Bytes} {S' : B → Prop} {e : A → B → T} {api : List Elem → List Elem → Res Bool} (hB : ∀ a, IsBytes (enc a))
    (hB' : ∀ a, IsBytes (enc' a)) (h : ComputesPairing enc S enc' S' e api) {P P' : A} {Q Q' : B} (hP : S P) (hP' : S P') (hQ : S' Q)
    (hQ' : S' Q') : api (encs enc [P, P']) (encs enc' [Q, Q']) = .ok (decide (e P Q * e P' Q' = 1)) := by
  have hv : ∀ {A : Type} {enc : A → Bytes}, (∀ a, IsBytes (enc a)) → ∀ l : List A, IsVec (encs enc l) := by
    intro A enc hB l b hb
    obtain ⟨a, _, ha⟩ := List.mem_map.mp hb
    injection ha with ha
    exact ha ▸ hB a
  refine ((h _ _ (hv hB _) (hv hB' _)).1 _).mpr ⟨[(P, Q), (P', Q')], by simp, ?_, rfl, rfl, ?_⟩
  · intro q hq
    rcases List.mem_cons.mp hq with rfl | hq
    · exact ⟨hP, hQ⟩
    · rw [List.mem_singleton.mp hq]
      exact ⟨hP', hQ'⟩
  · simp

theorem pairing_zero_left {A B T : Type} [AddCommGroup A] [AddCommGroup B] [CommGroup T] {S : A → Prop} {S' : B → Prop} {e : A → B → T}
    (he : IsPairing S S' e) (h0 : S 0) {Q : B} (hQ : S' Q) : e 0 Q = 1 := by
  have h := he.add_left 0 0 Q h0 h0 hQ
  rw [add_zero] at h
  exact (mul_eq_left.mp h.symm)

theorem pairing_zero_right {A B T : Type} [AddCommGroup A] [AddCommGroup B] [CommGroup T] {S : A → Prop} {S' : B → Prop} {e : A → B → T}
    (he : IsPairing S S' e) {P : A} (hP : S P) (h0 : S' 0) : e P 0 = 1 := by
  have h := he.add_right P 0 0 hP h0 h0
  rw [add_zero] at h
  exact (mul_eq_left.mp h.symm)

/-- Moving a factor from one side to the other does not matter, and a check of two pairs decides a relation of multiples: a signature
`R` of `H` for the key `k • g` is accepted just when `R = k • H`. -/
theorem pairing_signature {A B T : Type} [AddCommGroup A] [AddCommGroup B] [CommGroup T] [DecidableEq A] [DecidableEq T]
    {enc : A → Bytes} {S : A → Prop}
    {enc' : B → Bytes} {S' : B → Prop} {e : A → B → T} {api : List Elem → List Elem → Res Bool} (hB : ∀ a, IsBytes (enc a))
    (hB' : ∀ a, IsBytes (enc' a)) (h : ComputesPairing enc S enc' S' e api) (he : IsPairing S S' e)
    (hS0 : S 0) (hSa : ∀ a b, S a → S b → S (a + b)) (hSn : ∀ a, S a → S (-a))
    (hS0' : S' 0) (hSa' : ∀ a b, S' a → S' b → S' (a + b)) {g : B} (hg : S' g)
    (hnd : ∀ P, S P → e P g = 1 → P = 0) {R H : A} (hR : S R) (hH : S H) (k : Nat) :
    api (encs enc [R, -H]) (encs enc' [g, k • g]) = .ok (decide (R = k • H)) := by
  have hk : ∀ n : Nat, S (n • H) ∧ S' (n • g) := by
    intro n
    induction n with
    | zero => rw [zero_nsmul, zero_nsmul]; exact ⟨hS0, hS0'⟩
    | succ n ih => rw [succ_nsmul, succ_nsmul]; exact ⟨hSa _ _ ih.1 hH, hSa' _ _ ih.2 hg⟩
  rw [pairing_two hB hB' h hR (hSn _ hH) hg (hk k).2]
  congr 1
  rw [decide_eq_decide]
  have hneg : ∀ {P : A} {Q : B}, S P → S' Q → e (-P) Q = (e P Q)⁻¹ := by
    intro P Q hP hQ
    have h1 := he.add_left P (-P) Q hP (hSn _ hP) hQ
    rw [add_neg_cancel, pairing_zero_left he hS0 hQ] at h1
    exact (inv_eq_of_mul_eq_one_right h1.symm).symm
  have hmove : ∀ n : Nat, e H (n • g) = e (n • H) g := by
    intro n
    induction n with
    | zero => rw [zero_nsmul, zero_nsmul, pairing_zero_left he hS0 hg, pairing_zero_right he hH hS0']
    | succ n ih => rw [succ_nsmul, succ_nsmul, he.add_right _ _ _ hH (hk n).2 hg, he.add_left _ _ _ (hk n).1 hH hg, ih]
  rw [hneg hH (hk k).2, hmove k, ← hneg (hk k).1 hg, ← he.add_left _ _ _ hR (hSn _ (hk k).1) hg]
  constructor
  · intro h1
    have h2 := hnd _ (hSa _ _ hR (hSn _ (hk k).1)) h1
    rwa [← sub_eq_add_neg, sub_eq_zero] at h2
  · rintro rfl
    rw [add_neg_cancel, pairing_zero_left he hS0 hg]

/-- Verification of signatures: for a bilinear map that is not degenerate at `g`, the check of `(R, g)` and `(-H, k • g)` accepts just
the `R` that is `k • H`. -/
theorem C67_signature {T : Type} [CommGroup T] [DecidableEq T] (e : BlsG1 → BlsG2 → T) (e' : BnG1 → BnG2 → T)
    (pair : List (Aff (ZMod blsP) × Aff (Fp2 blsP)) → Option T) (pair' : List (Aff (ZMod bnP) × Aff (Fp2 bnP)) → Option T)
    (hp : Multiplies (fun P => blsR • P = 0) (fun Q => blsR • Q = 0) e pair)
    (hp' : Multiplies (fun _ => True) (fun Q => bnR • Q = 0) e' pair')
    (he : IsPairing (fun P => blsR • P = 0) (fun Q => blsR • Q = 0) e) (he' : IsPairing (fun _ => True) (fun Q => bnR • Q = 0) e')
    (g : BlsG2) (g' : BnG2) (hg : blsR • g = 0) (hg' : bnR • g' = 0)
    (hnd : ∀ P, blsR • P = 0 → e P g = 1 → P = 0) (hnd' : ∀ P, e' P g' = 1 → P = 0) (k : Nat) :
    (∀ R H, blsR • R = 0 → blsR • H = 0 →
      blsMultiPairingCheck blsG1 blsG2 pair (encs blsEnc1 [R, -H]) (encs blsEnc2 [g, k • g]) = .ok (decide (R = k • H))) ∧
    (∀ R H, bnMultiPairingCheck bnG1 bnG2 pair' (encs bnEnc1 [R, -H]) (encs bnEnc2 [g', k • g']) = .ok (decide (R = k • H))) := by
  have hadd : ∀ {A : Type} [AddCommGroup A] {r : Nat} (a b : A), r • a = 0 → r • b = 0 → r • (a + b) = 0 := by
    intro A _ r a b ha hb
    rw [nsmul_add, ha, hb, add_zero]
  have hneg : ∀ {A : Type} [AddCommGroup A] {r : Nat} (a : A), r • a = 0 → r • (-a) = 0 := by
    intro A _ r a ha
    rw [neg_nsmul, ha, neg_zero]
  obtain ⟨h1, h2⟩ := C67_check e e' pair pair' hp hp'
  refine ⟨fun R H hR hH => ?_, fun R H => ?_⟩
  · exact pairing_signature (fun P => (C65_length P 0 0 0).1.2) (fun P => (C65_length 0 P 0 0).2.1.2) h1 he (nsmul_zero _) hadd hneg
      (nsmul_zero _) hadd hg hnd hR hH k
  · exact pairing_signature (fun P => (C65_length 0 0 P 0).2.2.1.2) (fun P => (C65_length 0 0 0 P).2.2.2.2) h2 he' trivial
      (fun _ _ _ _ => trivial) (fun _ _ => trivial) (nsmul_zero _) hadd hg' (fun P _ => hnd' P) trivial trivial k

/-- The hypotheses about the library's pairing can be met, with the generators. -/
example : ∃ (e : BlsG1 → BlsG2 → Multiplicative BlsG1) (pair : List (Aff (ZMod blsP) × Aff (Fp2 blsP)) → Option (Multiplicative BlsG1)),
    Multiplies (fun P => blsR • P = 0) (fun Q => blsR • Q = 0) e pair ∧
    IsPairing (fun P => blsR • P = 0) (fun Q => blsR • Q = 0) e ∧ ∀ P, blsR • P = 0 → e P blsGen2 = 1 → P = 0 := by
  obtain ⟨e, h1, h2⟩ := some_pairing (A := BlsG1) blsR blsGen2 blsGen2_order (fun h => nomatch h)
  obtain ⟨pair, hp⟩ := some_product (fun P => blsR • P = 0) (fun Q => blsR • Q = 0) e
  exact ⟨e, pair, hp, h1, h2⟩

example : ∃ (e : BnG1 → BnG2 → Multiplicative BnG1) (pair : List (Aff (ZMod bnP) × Aff (Fp2 bnP)) → Option (Multiplicative BnG1)),
    Multiplies (fun _ => True) (fun Q => bnR • Q = 0) e pair ∧
    IsPairing (fun _ => True) (fun Q => bnR • Q = 0) e ∧ ∀ P, e P bnGen2 = 1 → P = 0 := by
  obtain ⟨e, h1, h2⟩ := some_pairing (A := BnG1) bnR bnGen2 bnGen2_order (fun h => nomatch h)
  obtain ⟨pair, hp⟩ := some_product (fun _ => True) (fun Q => bnR • Q = 0) e
  exact ⟨e, pair, hp, ⟨fun P P' Q _ _ => h1.1 P P' Q (bn_order P) (bn_order P'), fun P Q Q' _ => h1.2 P Q Q' (bn_order P)⟩,
    fun P => h2 P (bn_order P)⟩

/-! ### C68 -/

theorem C68_canonical (r a b n : Nat) (hr : 0 < r) :
    frAdd r a b = (a + b) % r ∧ frMul r a b = a * b % r ∧ frPow r a n = a ^ n % r ∧ (frSub r a b + b) % r = a % r ∧
      frSub r a b < r := by
  have : NeZero r := ⟨by omega⟩
  have c : ∀ a : Nat, ((frFromU256 r a : Nat) : ZMod r) = a := fun a => ZMod.natCast_mod a r
  refine ⟨?_, ?_, ?_, ?_, ZMod.val_lt _⟩
  · rw [frAdd, c, c, ← Nat.cast_add, ZMod.val_natCast]
  · rw [frMul, c, c, ← Nat.cast_mul, ZMod.val_natCast]
  · rw [frPow, c, ← Nat.cast_pow, ZMod.val_natCast]
  · have h : ((frSub r a b + b : Nat) : ZMod r) = (a : Nat) := by
      rw [frSub, Nat.cast_add, ZMod.natCast_zmod_val, c, c]
      ring
    exact (ZMod.natCast_eq_natCast_iff' _ _ _).mp h

/-- Inversion fails on the multiples of the order, and only on them. -/
theorem C68_inverse (r a : Nat) (hr : r = blsR ∨ r = bnR) :
    (a % r = 0 → frInv r a = .error invalidInput) ∧
      (a % r ≠ 0 → ∃ c, frInv r a = .ok c ∧ c < r ∧ a * c % r = 1) := by
  have hp : Fact r.Prime := by
    rcases hr with rfl | rfl
    exacts [inferInstance, inferInstance]
  have : NeZero r := ⟨hp.out.ne_zero⟩
  have c : ((frFromU256 r a : Nat) : ZMod r) = a := ZMod.natCast_mod a r
  have z : (a : ZMod r) = 0 ↔ a % r = 0 := by
    rw [ZMod.natCast_eq_zero_iff]
    exact Nat.dvd_iff_mod_eq_zero
  unfold frInv
  rw [c]
  refine ⟨fun h => if_pos (z.mpr h), fun h => ⟨_, if_neg (fun h0 => h (z.mp h0)), ZMod.val_lt _, ?_⟩⟩
  have h0 : (a : ZMod r) ≠ 0 := fun h0 => h (z.mp h0)
  have h1 : ((a * ((a : ZMod r)⁻¹).val : Nat) : ZMod r) = ((1 : Nat) : ZMod r) := by
    rw [Nat.cast_mul, ZMod.natCast_zmod_val, mul_inv_cancel₀ h0, Nat.cast_one]
  have h2 := (ZMod.natCast_eq_natCast_iff' _ _ _).mp h1
  rw [h2]
  exact Nat.mod_eq_of_lt hp.out.one_lt

example : frInv blsR 2 = .ok ((blsR + 1) / 2) := by
  obtain ⟨c, h1, h2, h3⟩ := (C68_inverse blsR 2 (.inl rfl)).2 (by decide +kernel)
  rw [h1]
  have h4 : blsR % 2 = 1 := by decide +kernel
  have h5 : 1 < blsR := by decide +kernel
  revert h2 h3 h4 h5
  generalize blsR = r
  intro h2 h3 h4 h5
  have h6 : 2 * c = r + 1 := by
    by_cases hc : 2 * c < r
    · rw [Nat.mod_eq_of_lt hc] at h3
      omega
    · rw [Nat.mod_eq_sub_mod (by omega), Nat.mod_eq_of_lt (by omega)] at h3
      omega
  congr 1
  omega

end Soroban.Props
