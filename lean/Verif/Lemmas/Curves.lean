import Verif.Spec.Curves
import Verif.Lemmas.Memory
import Verif.Lemmas.MemorySpec
import Verif.Lemmas.Objects
import Mathlib.Tactic.LinearCombination
import Mathlib.Tactic.FieldSimp
/-!
Points of the model and points of Mathlib's group; encodings of coordinates and points.
-/
namespace Soroban.Curves
open Soroban.Curves.Spec

/-! ### The group -/

section
variable {F : Type} [Field F] [DecidableEq F] {C : Curve F}

/-- The coordinates of a point. -/
def toAff {b : F} : Point b → Aff F
  | .zero => .zero
  | .some x y _ => .xy x y

theorem toAff_inj {b : F} {P Q : Point b} (h : toAff P = toAff Q) : P = Q := by
  cases P with
  | zero => cases Q with
    | zero => rfl
    | some x y h' => cases h
  | some x y h' => cases Q with
    | zero => cases h
    | some x' y' h'' =>
      injection h with h1 h2
      subst h1 h2
      rfl

theorem W_equation {b x y : F} : (W b).Equation x y ↔ y * y = x * x * x + b := by
  rw [WeierstrassCurve.Affine.equation_iff]
  simp only [W]
  constructor
  · intro h
    linear_combination h
  · intro h
    linear_combination h

theorem W_disc {b : F} : (W b).Δ = -432 * b ^ 2 := by
  simp only [WeierstrassCurve.Δ, WeierstrassCurve.b₂, WeierstrassCurve.b₄, WeierstrassCurve.b₆, WeierstrassCurve.b₈, W]
  ring

theorem W_nonsingular {b x y : F} (h6 : (6 : F) ≠ 0) (hb : b ≠ 0) : (W b).Nonsingular x y ↔ y * y = x * x * x + b := by
  rw [← W_equation]
  refine (WeierstrassCurve.Affine.equation_iff_nonsingular_of_Δ_ne_zero ?_).symm
  rw [W_disc]
  have : (-432 : F) = -2 * 6 ^ 3 := by norm_num
  have h2 : (2 : F) ≠ 0 := by
    intro h
    apply h6
    have : (6 : F) = 2 * 3 := by norm_num
    rw [this, h, zero_mul]
  rw [this]
  exact mul_ne_zero (mul_ne_zero (neg_ne_zero.mpr h2) (pow_ne_zero _ h6)) (pow_ne_zero _ hb)

theorem onCurve_iff (h6 : (6 : F) ≠ 0) (hb : C.b ≠ 0) {a : Aff F} : isOnCurve C a = true ↔ ∃ P : Point C.b, toAff P = a := by
  cases a with
  | zero => exact ⟨fun _ => ⟨.zero, rfl⟩, fun _ => rfl⟩
  | xy x y =>
    constructor
    · intro h
      exact ⟨.some x y ((W_nonsingular h6 hb).mpr (of_decide_eq_true h)), rfl⟩
    · rintro ⟨P, hP⟩
      cases P with
      | zero => cases hP
      | some x' y' h' =>
        injection hP with h1 h2
        subst h1 h2
        exact decide_eq_true ((W_nonsingular h6 hb).mp h')

theorem add_eq {b : F} (P Q : Point b) : add (toAff P) (toAff Q) = toAff (P + Q) := by
  cases P with
  | zero =>
    rw [show (WeierstrassCurve.Affine.Point.zero : Point b) = 0 from rfl, zero_add]
    rfl
  | some x1 y1 h1 =>
    cases Q with
    | zero =>
      rw [show (WeierstrassCurve.Affine.Point.zero : Point b) = 0 from rfl, add_zero]
      rfl
    | some x2 y2 h2 =>
      have hn : (W b).negY x2 y2 = -y2 := by simp [WeierstrassCurve.Affine.negY, W]
      show add (.xy x1 y1) (.xy x2 y2) = _
      unfold add
      dsimp only
      by_cases h : x1 = x2 ∧ y1 = -y2
      · rw [if_pos h, WeierstrassCurve.Affine.Point.add_of_Y_eq h.1 (by rw [hn]; exact h.2)]
        rfl
      · rw [if_neg h, WeierstrassCurve.Affine.Point.add_some (by rw [hn]; exact h)]
        have hl : (W b).slope x1 x2 y1 y2 = if x1 = x2 then 3 * x1 * x1 / (2 * y1) else (y2 - y1) / (x2 - x1) := by
          by_cases hx : x1 = x2
          · rw [if_pos hx, WeierstrassCurve.Affine.slope_of_Y_ne hx (by rw [hn]; exact fun hy => h ⟨hx, hy⟩)]
            simp only [WeierstrassCurve.Affine.negY, W]
            congr 1 <;> ring
          · rw [if_neg hx, WeierstrassCurve.Affine.slope_of_X_ne hx, ← neg_sub y2, ← neg_sub x2, neg_div_neg_eq]
        rw [← hl]
        show Aff.xy _ _ = Aff.xy _ _
        generalize (W b).slope x1 x2 y1 y2 = l
        have hx : (W b).addX x1 x2 l = l * l - x1 - x2 := by simp only [WeierstrassCurve.Affine.addX, W]; ring
        have hy : (W b).addY x1 x2 y1 l = l * (x1 - (l * l - x1 - x2)) - y1 := by
          simp only [WeierstrassCurve.Affine.addY, WeierstrassCurve.Affine.negAddY, WeierstrassCurve.Affine.negY,
            WeierstrassCurve.Affine.addX, W]
          ring
        rw [hx, hy]

theorem mul_eq {b : F} (P : Point b) : ∀ n : Nat, mul n (toAff P) = toAff (n • P) := by
  intro n
  induction n with
  | zero =>
    rw [zero_smul]
    rfl
  | succ n ih =>
    rw [mul, ih, add_eq, succ_nsmul]

theorem msm_eq {b : F} : ∀ l : List (Point b × Nat), msmUnchecked (l.map fun t => (toAff t.1, t.2)) = toAff (lincomb l)
  | [] => rfl
  | t :: l => by
    show add (mul t.2 (toAff t.1)) (msmUnchecked (l.map fun t => (toAff t.1, t.2))) = _
    rw [msm_eq l, mul_eq, add_eq]
    rfl

theorem subgroup_iff (P : Point C.b) : isInSubgroup C (toAff P) = true ↔ C.order • P = 0 := by
  unfold isInSubgroup
  rw [decide_eq_true_iff, mul_eq]
  constructor
  · intro h
    exact toAff_inj (h.trans rfl)
  · intro h
    rw [h]
    rfl

end

/-! ### Encodings of coordinates -/

/-- Reading and writing are inverse to each other on bytes. -/
structure Lawful {F : Type} (K : Coord F) : Prop where
  pos : 0 < K.size
  len : ∀ x, (K.enc x).length = K.size
  bytes : ∀ x, IsBytes (K.enc x)
  iff : ∀ b, IsBytes b → b.length = K.size → ∀ x, K.dec b = some x ↔ b = K.enc x

theorem be_eq : ∀ n v : Nat, be n v = (toLe n v).reverse
  | 0, _ => rfl
  | n + 1, v => by rw [be, be_eq n, toLe, List.reverse_cons]

theorem isBytes_reverse {b : Bytes} (h : IsBytes b) : IsBytes b.reverse := fun x hx => h x (List.mem_reverse.mp hx)

theorem toLe_bytes (n v : Nat) : IsBytes (toLe n v) := by
  induction n generalizing v with
  | zero => intro x hx; cases hx
  | succ n ih =>
    intro x hx
    rcases List.mem_cons.mp hx with rfl | hx
    · exact Nat.mod_lt _ (by omega)
    · exact ih _ x hx

theorem fp_lawful {p n : Nat} [NeZero p] (hn : 0 < n) (hp : p ≤ 256 ^ n) : Lawful (fpCoord p n) where
  pos := hn
  len x := by
    show ((toLe n x.val).reverse).length = n
    rw [List.length_reverse, toLe_length]
  bytes x := isBytes_reverse (toLe_bytes _ _)
  iff b hb hl x := by
    show (if fromLe b.reverse < p then some (fromLe b.reverse : ZMod p) else none) = some x ↔ b = (toLe n x.val).reverse
    have hl' : b.reverse.length = n := by rw [List.length_reverse]; exact hl
    constructor
    · intro h
      split at h
      · rename_i hlt
        injection h with h
        subst h
        rw [ZMod.val_natCast_of_lt hlt, ← hl', toLe_fromLe _ (isBytes_reverse hb), List.reverse_reverse]
      · cases h
    · intro h
      subst h
      have hx := ZMod.val_lt x
      rw [List.reverse_reverse, fromLe_toLe _ _ (Nat.lt_of_lt_of_le hx hp), if_pos hx, ZMod.natCast_zmod_val]

theorem isBytes_append {a b : Bytes} : IsBytes (a ++ b) ↔ IsBytes a ∧ IsBytes b := by
  constructor
  · intro h
    exact ⟨fun x hx => h x (List.mem_append_left _ hx), fun x hx => h x (List.mem_append_right _ hx)⟩
  · rintro ⟨h1, h2⟩ x hx
    rcases List.mem_append.mp hx with hx | hx
    · exact h1 x hx
    · exact h2 x hx

theorem isBytes_take {b : Bytes} (h : IsBytes b) (n : Nat) : IsBytes (b.take n) := fun x hx => h x (List.mem_of_mem_take hx)

theorem isBytes_drop {b : Bytes} (h : IsBytes b) (n : Nat) : IsBytes (b.drop n) := fun x hx => h x (List.mem_of_mem_drop hx)

theorem fp2_lawful {p n : Nat} [NeZero p] (hn : 0 < n) (hp : p ≤ 256 ^ n) : Lawful (fp2Coord p n) := by
  have hl := fp_lawful hn hp
  refine ⟨?_, fun z => ?_, fun z => ?_, fun b hb hlen z => ?_⟩
  · show 0 < 2 * n
    omega
  · show ((fpCoord p n).enc z.im ++ (fpCoord p n).enc z.re).length = 2 * n
    rw [List.length_append, hl.len, hl.len]
    show n + n = 2 * n
    omega
  · exact isBytes_append.mpr ⟨hl.bytes _, hl.bytes _⟩
  · have hlen : b.length = 2 * n := hlen
    have h1 := hl.iff (b.take n) (isBytes_take hb n) (by rw [List.length_take]; show min n b.length = n; omega)
    have h2 := hl.iff (b.drop n) (isBytes_drop hb n) (by rw [List.length_drop]; show b.length - n = n; omega)
    show (match (fpCoord p n).dec (b.take n), (fpCoord p n).dec (b.drop n) with
      | some c1, some c0 => some ⟨c0, c1⟩ | _, _ => none) = some z ↔ b = (fpCoord p n).enc z.im ++ (fpCoord p n).enc z.re
    constructor
    · intro h
      cases e1 : (fpCoord p n).dec (b.take n) with
      | none => rw [e1] at h; cases h
      | some c1 =>
        cases e2 : (fpCoord p n).dec (b.drop n) with
        | none => rw [e1, e2] at h; cases h
        | some c0 =>
          rw [e1, e2] at h
          injection h with h
          subst h
          rw [← (h1 c1).mp e1, ← (h2 c0).mp e2, List.take_append_drop]
    · intro h
      have hlen1 : ((fpCoord p n).enc z.im).length = n := hl.len _
      rw [(h1 z.im).mpr (by rw [h, List.take_left' hlen1]), (h2 z.re).mpr (by rw [h, List.drop_left' hlen1])]

theorem toLe_head_lt {n v t : Nat} (hn : 0 < n) (hv : v < t * 256 ^ (n - 1)) : ((toLe n v).reverse).headD 0 < t := by
  induction n generalizing v with
  | zero => omega
  | succ n ih =>
    rw [toLe, List.reverse_cons]
    cases n with
    | zero =>
      have : v < t := by simpa using hv
      show v % 256 < t
      exact Nat.lt_of_le_of_lt (Nat.mod_le _ _) this
    | succ n =>
      have h := ih (v := v / 256) (by omega) (by
        rw [Nat.div_lt_iff_lt_mul (by omega)]
        rw [show n + 1 + 1 - 1 = n + 1 from rfl, pow_succ, ← Nat.mul_assoc] at hv
        exact hv)
      cases hr : (toLe (n + 1) (v / 256)).reverse with
      | nil =>
        have := congrArg List.length hr
        rw [List.length_reverse, toLe_length] at this
        cases this
      | cons a l =>
        rw [hr] at h
        exact h

theorem fp_top {p n t : Nat} [NeZero p] (hn : 0 < n) (hp : p ≤ t * 256 ^ (n - 1)) (x : ZMod p) : ((fpCoord p n).enc x).headD 0 < t :=
  toLe_head_lt hn (Nat.lt_of_lt_of_le (ZMod.val_lt x) hp)

theorem headD_append {a b : Bytes} (h : 0 < a.length) : (a ++ b).headD 0 = a.headD 0 := by
  cases a with
  | nil => cases h
  | cons => rfl

theorem fp2_top {p n t : Nat} [NeZero p] (hn : 0 < n) (hp256 : p ≤ 256 ^ n) (hp : p ≤ t * 256 ^ (n - 1)) (z : Fp2 p) :
    ((fp2Coord p n).enc z).headD 0 < t := by
  show ((fpCoord p n).enc z.im ++ (fpCoord p n).enc z.re).headD 0 < t
  rw [headD_append (by rw [(fp_lawful hn hp256).len]; exact hn)]
  exact fp_top hn hp _

/-! ### Encodings of points: BLS12-381 -/

section
variable {F : Type} [Field F] [DecidableEq F] {C : Curve F}

theorem bls_bits : ∀ b0 < 256, (b0 &&& 0b11100000 = 0 ↔ b0 < 32) ∧ (b0 < 32 → b0 &&& 0b10000000 = 0 ∧ b0 &&& 0b01000000 = 0 ∧
    b0 &&& 0b00011111 = b0) := by decide +kernel

theorem arkRead_zero {tl : Bytes} : arkRead C (0b01000000 :: tl) = some .zero := by
  unfold arkRead
  dsimp only [List.headD_cons]
  rw [if_neg (by decide), if_pos (by decide)]

theorem zeros_iff {l : Bytes} : l.all (fun x => decide (x = 0)) = true ↔ l = List.replicate l.length 0 := by
  rw [List.all_eq_true, List.eq_replicate_iff]
  simp

/-- Reading with the checks of the encoding but without checks of the point. -/
theorem bls_read_iff (hK : Lawful C.coord) (ht : ∀ x, (C.coord.enc x).headD 0 < 32) {b : Bytes} (hb : IsBytes b) {a : Aff F} :
    (validatePointEncoding (2 * C.coord.size) b = .ok () ∧ deserializeNoValidate C (2 * C.coord.size) b = .ok a) ↔
      b = affineSerialize C a := by
  have hpos := hK.pos
  constructor
  · rintro ⟨h1, h2⟩
    unfold validatePointEncoding at h1
    unfold deserializeNoValidate at h2
    split at h1
    · cases h1
    rename_i hlen
    rw [if_neg hlen] at h2
    have hl : b.length = 2 * C.coord.size := by
      by_contra hc
      exact hlen (.inr hc)
    cases b with
    | nil =>
      have : (0 : Nat) = 2 * C.coord.size := hl
      omega
    | cons b0 tl =>
      have hb0 : b0 < 256 := hb b0 List.mem_cons_self
      dsimp only [List.headD_cons, List.tail_cons] at h1
      split at h1
      · by_cases hz : b0 = 64 ∧ (tl.all fun x => decide (x = 0)) = true
        · obtain ⟨rfl, hz⟩ := hz
          rw [arkRead_zero] at h2
          injection h2 with h2
          subst h2
          have hlt : tl.length = 2 * C.coord.size - 1 := by
            have : tl.length + 1 = 2 * C.coord.size := hl
            omega
          show _ = 0b01000000 :: List.replicate (2 * C.coord.size - 1) 0
          rw [← hlt, ← zeros_iff.mp hz]
        · exact absurd (h1.symm.trans (if_neg hz)) (fun h => nomatch h)
      · split at h1
        · rename_i h0
          have h32 := (bls_bits b0 hb0).1.mp h0
          obtain ⟨e1, e2, e3⟩ := (bls_bits b0 hb0).2 h32
          have htake : (b0 :: tl.take (C.coord.size - 1)) = (b0 :: tl).take C.coord.size := by
            obtain ⟨k, hk⟩ : ∃ k, C.coord.size = k + 1 := ⟨C.coord.size - 1, by omega⟩
            rw [hk]
            rfl
          have ha : arkRead C (b0 :: tl) = (match C.coord.dec ((b0 :: tl).take C.coord.size), C.coord.dec ((b0 :: tl).drop C.coord.size) with
              | some x, some y => some (Aff.xy x y) | _, _ => none) := by
            unfold arkRead
            dsimp only [List.headD_cons, List.tail_cons]
            rw [if_neg (fun h => h e1), if_neg (fun h => h e2), e3, htake]
            rfl
          rw [ha] at h2
          have i1 := hK.iff _ (isBytes_take hb C.coord.size) (by rw [List.length_take, hl]; omega)
          have i2 := hK.iff _ (isBytes_drop hb C.coord.size) (by rw [List.length_drop, hl]; omega)
          cases d1 : C.coord.dec ((b0 :: tl).take C.coord.size) with
          | none => rw [d1] at h2; cases h2
          | some x =>
            cases d2 : C.coord.dec ((b0 :: tl).drop C.coord.size) with
            | none => rw [d1, d2] at h2; cases h2
            | some y =>
              rw [d1, d2] at h2
              injection h2 with h2
              subst h2
              show _ = C.coord.enc x ++ C.coord.enc y
              rw [← (i1 x).mp d1, ← (i2 y).mp d2, List.take_append_drop]
        · cases h1
  · intro h
    subst h
    cases a with
    | zero =>
      have hl : (affineSerialize C .zero).length = 2 * C.coord.size := by
        show (List.replicate (2 * C.coord.size - 1) 0).length + 1 = _
        rw [List.length_replicate]
        omega
      have hc : ¬ (2 * C.coord.size = 0 ∨ (affineSerialize C .zero).length ≠ 2 * C.coord.size) := by
        rintro (h | h)
        · omega
        · exact h hl
      constructor
      · unfold validatePointEncoding
        rw [if_neg hc]
        show (if (0b01000000 : Nat) &&& 0b11100000 = 0b01000000 then
          if (0b01000000 : Nat) = 0b01000000 ∧ (List.replicate (2 * C.coord.size - 1) 0).all (fun x => decide (x = 0)) = true then _ else _
          else _) = _
        rw [if_pos (by decide), if_pos ⟨rfl, zeros_iff.mpr (by rw [List.length_replicate])⟩]
      · unfold deserializeNoValidate
        rw [if_neg hc]
        show (match arkRead C (0b01000000 :: List.replicate (2 * C.coord.size - 1) 0) with
          | none => Except.error invalidInput | some p => Except.ok p) = _
        rw [arkRead_zero]
    | xy x y =>
      have hx := hK.len x
      have hy := hK.len y
      have hl : (affineSerialize C (.xy x y)).length = 2 * C.coord.size := by
        show (C.coord.enc x ++ C.coord.enc y).length = _
        rw [List.length_append, hx, hy]
        omega
      have hc : ¬ (2 * C.coord.size = 0 ∨ (affineSerialize C (.xy x y)).length ≠ 2 * C.coord.size) := by
        rintro (h | h)
        · omega
        · exact h hl
      have htx := ht x
      have htk : (affineSerialize C (.xy x y)).take C.coord.size = C.coord.enc x := List.take_left' hx
      have hdr : (affineSerialize C (.xy x y)).drop C.coord.size = C.coord.enc y := List.drop_left' hx
      have hhead : (affineSerialize C (.xy x y)).headD 0 < 32 := by
        show (C.coord.enc x ++ C.coord.enc y).headD 0 < 32
        rw [headD_append (by omega)]
        exact htx
      revert hb hl hc htk hdr hhead
      generalize affineSerialize C (.xy x y) = b
      intro hb hl hc htk hdr hhead
      cases b with
      | nil =>
        have : (0 : Nat) = 2 * C.coord.size := hl
        omega
      | cons b0 tl =>
        have hb0 : b0 < 256 := hb b0 List.mem_cons_self
        have h32 : b0 < 32 := hhead
        have h0 := (bls_bits b0 hb0).1.mpr h32
        obtain ⟨e1, e2, e3⟩ := (bls_bits b0 hb0).2 h32
        constructor
        · unfold validatePointEncoding
          rw [if_neg hc]
          dsimp only [List.headD_cons, List.tail_cons]
          rw [h0, if_neg (by decide), if_pos rfl]
        · unfold deserializeNoValidate
          rw [if_neg hc]
          have htake : (b0 :: tl.take (C.coord.size - 1)) = (b0 :: tl).take C.coord.size := by
            obtain ⟨k, hk⟩ : ∃ k, C.coord.size = k + 1 := ⟨C.coord.size - 1, by omega⟩
            rw [hk]
            rfl
          have ha : arkRead C (b0 :: tl) = some (.xy x y) := by
            unfold arkRead
            dsimp only [List.headD_cons, List.tail_cons]
            rw [if_neg (fun h => h e1), if_neg (fun h => h e2), e3, htake, htk, hdr,
              (hK.iff _ (hK.bytes x) hx x).mpr rfl, (hK.iff _ (hK.bytes y) hy y).mpr rfl]
          rw [ha]

theorem bls_deserialize_iff (hK : Lawful C.coord) (ht : ∀ x, (C.coord.enc x).headD 0 < 32) {m : Mode} {b : Bytes}
    (hb : IsBytes b) {a : Aff F} :
    affineDeserialize C m b = .ok a ↔
      b = affineSerialize C a ∧ (m ≠ .noCheck → isOnCurve C a = true) ∧ (m = .inSubgroup → isInSubgroup C a = true) := by
  rw [← bls_read_iff hK ht hb]
  unfold affineDeserialize
  cases h1 : validatePointEncoding (2 * C.coord.size) b with
  | error e =>
    simp only [Bind.bind, Except.bind]
    exact ⟨(fun h => nomatch h), fun h => nomatch h.1.1⟩
  | ok u =>
    cases h2 : deserializeNoValidate C (2 * C.coord.size) b with
    | error e =>
      simp only [Bind.bind, Except.bind]
      exact ⟨(fun h => nomatch h), fun h => nomatch h.1.2⟩
    | ok a' =>
      simp only [Bind.bind, Except.bind]
      have e1 : (Except.ok a' : Res (Aff F)) = .ok a ↔ a' = a := ⟨fun h => Except.ok.inj h, fun h => by rw [h]⟩
      by_cases haa : a' = a
      · subst haa
        cases m <;> cases isOnCurve C a' <;> cases isInSubgroup C a' <;> simp
      · rw [e1]
        constructor
        · intro h
          split at h
          · cases h
          split at h
          · cases h
          · exact absurd (Except.ok.inj h) haa
        · intro h
          exact absurd h.1.2 haa

theorem validatePointEncoding_err {n : Nat} {b : Bytes} {e : Err} (h : validatePointEncoding n b = .error e) : e = invalidInput := by
  unfold validatePointEncoding at h
  split at h
  · exact (Except.error.inj h).symm
  dsimp only at h
  split at h
  · split at h
    · cases h
    · exact (Except.error.inj h).symm
  split at h
  · cases h
  · exact (Except.error.inj h).symm

theorem bls_deserialize_err {m : Mode} {b : Bytes} {e : Err} (h : affineDeserialize C m b = .error e) : e = invalidInput := by
  unfold affineDeserialize at h
  cases h1 : validatePointEncoding (2 * C.coord.size) b with
  | error e' =>
    rw [h1] at h
    simp only [Bind.bind, Except.bind] at h
    rw [← Except.error.inj h]
    exact validatePointEncoding_err h1
  | ok u =>
    rw [h1] at h
    cases h2 : deserializeNoValidate C (2 * C.coord.size) b with
    | error e' =>
      rw [h2] at h
      simp only [Bind.bind, Except.bind] at h
      rw [← Except.error.inj h]
      unfold deserializeNoValidate at h2
      split at h2
      · exact (Except.error.inj h2).symm
      split at h2
      · exact (Except.error.inj h2).symm
      · cases h2
    | ok a' =>
      rw [h2] at h
      simp only [Bind.bind, Except.bind] at h
      split at h
      · exact (Except.error.inj h).symm
      split at h
      · exact (Except.error.inj h).symm
      · cases h

/-! ### Encodings of points: BN254 -/

theorem bn_bits : ∀ b0 < 256, (b0 &&& 0b11000000 = 0 ↔ b0 < 64) := by decide +kernel

theorem bnFieldElement_iff (hK : Lawful C.coord) {b : Bytes} (hb : IsBytes b) {x : F} :
    bnFieldElement C b = .ok x ↔ b = C.coord.enc x := by
  have hpos := hK.pos
  unfold bnFieldElement
  by_cases hl : b.length = C.coord.size
  · rw [if_neg (by rintro (h | h); exacts [by omega, h hl])]
    rw [← hK.iff b hb hl x]
    cases C.coord.dec b with
    | none => exact ⟨(fun h => nomatch h), fun h => nomatch h⟩
    | some y => exact ⟨fun h => by rw [Except.ok.inj h], fun h => by rw [Option.some.inj h]⟩
  · rw [if_pos (.inr hl)]
    refine ⟨(fun h => nomatch h), fun h => absurd (by rw [h, hK.len]) hl⟩

theorem bn_zeros (hK : Lawful C.coord) (hz : C.coord.enc 0 = List.replicate C.coord.size 0) {x y : F} :
    (C.coord.enc x ++ C.coord.enc y).all (fun x => decide (x = 0)) = true ↔ x = 0 ∧ y = 0 := by
  have one : ∀ x : F, (C.coord.enc x).all (fun x => decide (x = 0)) = true ↔ x = 0 := by
    intro x
    rw [zeros_iff, hK.len, ← hz]
    constructor
    · intro h
      have h1 := (hK.iff _ (hK.bytes x) (hK.len x) x).mpr rfl
      have h2 := (hK.iff _ (hK.bytes x) (hK.len x) 0).mpr h
      rw [h1] at h2
      exact Option.some.inj h2
    · rintro rfl
      rfl
  rw [List.all_append, Bool.and_eq_true, one, one]

theorem bn_deserialize_iff (hK : Lawful C.coord) (ht : ∀ x, (C.coord.enc x).headD 0 < 64)
    (hz : C.coord.enc 0 = List.replicate C.coord.size 0) {cc cs : Bool} {b : Bytes} (hb : IsBytes b) {a : Aff F} :
    bnAffineDeserialize C cc cs b = .ok a ↔
      b = bnAffineSerialize C a ∧ a ≠ .xy 0 0 ∧ (cc = true → isOnCurve C a = true) ∧ (cs = true → isInSubgroup C a = true) := by
  have hpos := hK.pos
  have hmul0 : isInSubgroup C (.zero : Aff F) = true := by
    have : ∀ n : Nat, mul n (.zero : Aff F) = .zero := by
      intro n
      induction n with
      | zero => rfl
      | succ n ih => rw [mul, ih]; rfl
    exact decide_eq_true (this _)
  have ser : ∀ x y : F, (bnAffineSerialize C (.xy x y)).length = 2 * C.coord.size ∧
      (bnAffineSerialize C (.xy x y)).headD 0 < 64 ∧ (bnAffineSerialize C (.xy x y)).take C.coord.size = C.coord.enc x ∧
      (bnAffineSerialize C (.xy x y)).drop C.coord.size = C.coord.enc y := by
    intro x y
    have hx := hK.len x
    have hy := hK.len y
    refine ⟨?_, ?_, List.take_left' hx, List.drop_left' hx⟩
    · show (C.coord.enc x ++ C.coord.enc y).length = _
      rw [List.length_append, hx, hy]
      omega
    · show (C.coord.enc x ++ C.coord.enc y).headD 0 < 64
      rw [headD_append (by omega)]
      exact ht x
  have hb0 : b.headD 0 < 256 := by
    cases b with
    | nil => decide
    | cons x l => exact hb x List.mem_cons_self
  -- a well-formed encoding is that of two coordinates
  have val : ∀ inf, bnValidateFlags (2 * C.coord.size) b = .ok inf ↔
      (b.length = 2 * C.coord.size ∧ b.headD 0 < 64 ∧ inf = b.all fun x => decide (x = 0)) := by
    intro inf
    unfold bnValidateFlags
    by_cases hl : b.length = 2 * C.coord.size
    · rw [if_neg (fun h => h hl)]
      by_cases hf : b.headD 0 < 64
      · rw [if_neg (fun h => h ((bn_bits _ hb0).mpr hf))]
        exact ⟨fun h => ⟨hl, hf, (Except.ok.inj h).symm⟩, fun h => by rw [h.2.2]⟩
      · rw [if_pos (fun h => hf ((bn_bits _ hb0).mp h))]
        exact ⟨(fun h => nomatch h), fun h => absurd h.2.1 hf⟩
    · rw [if_pos hl]
      exact ⟨(fun h => nomatch h), fun h => absurd h.1 hl⟩
  unfold bnAffineDeserialize
  constructor
  · intro h
    obtain ⟨inf, h1, h2⟩ := bind_ok.mp h
    obtain ⟨hl, hf, hinf⟩ := (val inf).mp h1
    cases inf with
    | true =>
      rw [if_pos rfl] at h2
      have h2 := Except.ok.inj h2
      subst h2
      refine ⟨?_, (fun h => nomatch h), (fun _ => rfl), fun _ => hmul0⟩
      show b = C.coord.enc 0 ++ C.coord.enc 0
      rw [hz, List.replicate_append_replicate, ← Nat.two_mul, ← hl]
      exact zeros_iff.mp hinf.symm
    | false =>
      rw [if_neg (by decide)] at h2
      obtain ⟨x, hx, h2⟩ := bind_ok.mp h2
      obtain ⟨y, hy, h2⟩ := bind_ok.mp h2
      have hx := (bnFieldElement_iff hK (isBytes_take hb _)).mp hx
      have hy := (bnFieldElement_iff hK (isBytes_drop hb _)).mp hy
      have hbe : b = C.coord.enc x ++ C.coord.enc y := by rw [← hx, ← hy, List.take_append_drop]
      split at h2
      · cases h2
      rename_i h3
      split at h2
      · cases h2
      rename_i h4
      have h2 := Except.ok.inj h2
      subst h2
      refine ⟨hbe, fun hne => ?_, fun hc => ?_, fun hc => ?_⟩
      · injection hne with e1 e2
        have := (bn_zeros hK hz).mpr ⟨e1, e2⟩
        rw [← hbe, ← hinf] at this
        cases this
      · rw [hc] at h3
        simpa using h3
      · rw [hc] at h4
        simpa using h4
  · rintro ⟨hbs, hne, hc, hs⟩
    cases a with
    | zero =>
      have hbs : b = bnAffineSerialize C (.xy 0 0) := hbs
      obtain ⟨s1, s2, _, _⟩ := ser 0 0
      rw [← hbs] at s1 s2
      have hall : (b.all fun x => decide (x = 0)) = true := by
        rw [hbs]
        exact (bn_zeros hK hz).mpr ⟨rfl, rfl⟩
      refine bind_ok.mpr ⟨true, (val true).mpr ⟨s1, s2, hall.symm⟩, ?_⟩
      rw [if_pos rfl]
    | xy x y =>
      obtain ⟨s1, s2, s3, s4⟩ := ser x y
      rw [← hbs] at s1 s2 s3 s4
      have hall : (b.all fun x => decide (x = 0)) = false := by
        cases hq : b.all fun x => decide (x = 0) with
        | false => rfl
        | true =>
          rw [hbs] at hq
          obtain ⟨rfl, rfl⟩ := (bn_zeros hK hz).mp hq
          exact absurd rfl hne
      refine bind_ok.mpr ⟨false, (val false).mpr ⟨s1, s2, hall.symm⟩, ?_⟩
      rw [if_neg (by decide)]
      refine bind_ok.mpr ⟨x, (bnFieldElement_iff hK (isBytes_take hb _)).mpr s3, ?_⟩
      refine bind_ok.mpr ⟨y, (bnFieldElement_iff hK (isBytes_drop hb _)).mpr s4, ?_⟩
      rw [if_neg, if_neg]
      · cases cs with
        | false => simp
        | true => rw [hs rfl]; simp
      · cases cc with
        | false => simp
        | true => rw [hc rfl]; simp

theorem bn_deserialize_err {cc cs : Bool} {b : Bytes} {e : Err} (h : bnAffineDeserialize C cc cs b = .error e) :
    e = invalidInput := by
  have fe : ∀ {b e}, bnFieldElement C b = .error e → e = invalidInput := by
    intro b e h
    unfold bnFieldElement at h
    split at h
    · exact (Except.error.inj h).symm
    split at h
    · exact (Except.error.inj h).symm
    · cases h
  unfold bnAffineDeserialize at h
  cases h1 : bnValidateFlags (2 * C.coord.size) b with
  | error e' =>
    rw [h1] at h
    simp only [Bind.bind, Except.bind] at h
    rw [← Except.error.inj h]
    unfold bnValidateFlags at h1
    split at h1
    · exact (Except.error.inj h1).symm
    split at h1
    · exact (Except.error.inj h1).symm
    · cases h1
  | ok inf =>
    rw [h1] at h
    simp only [Bind.bind, Except.bind] at h
    split at h
    · cases h
    cases h2 : bnFieldElement C (b.take C.coord.size) with
    | error e' =>
      rw [h2] at h
      rw [← Except.error.inj h]
      exact fe h2
    | ok x =>
      rw [h2] at h
      cases h3 : bnFieldElement C (b.drop C.coord.size) with
      | error e' =>
        rw [h3] at h
        rw [← Except.error.inj h]
        exact fe h3
      | ok y =>
        rw [h3] at h
        dsimp only at h
        split at h
        · exact (Except.error.inj h).symm
        split at h
        · exact (Except.error.inj h).symm
        · cases h

end

end Soroban.Curves
