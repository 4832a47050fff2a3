import Verif.Spec.Val
/-!
Arithmetic reading of the bit operations in `Model/Val.lean`.
-/
namespace Soroban

theorem shl64_eq (x k : Nat) : shl64 x k = (x * 2^k) % 2^64 := by
  unfold shl64; rw [Nat.shiftLeft_eq]

theorem or_eq_add {a b k : Nat} (h : b < 2^k) (ha : 2^k ∣ a) : a ||| b = a + b := by
  obtain ⟨c, rfl⟩ := ha
  rw [← Nat.two_pow_add_eq_or_of_lt h]

theorem Tag.code_lt (t : Tag) : t.code < 256 := by cases t <;> decide

theorem fromBodyAndTag_eq (b : Nat) (t : Tag) : Val.fromBodyAndTag b t = (b % 2^56) * 256 + t.code := by
  unfold Val.fromBodyAndTag
  rw [shl64_eq, or_eq_add (k := 8) t.code_lt (by omega)]
  show (b * 2^8 % 2^64 + t.code : Nat) = _
  omega

theorem fromMajorMinorAndTag_eq {maj min : Nat} (t : Tag) (h1 : maj < 2^32) (h2 : min < 2^24) :
    Val.fromMajorMinorAndTag maj min t = maj * 2^32 + min * 2^8 + t.code := by
  unfold Val.fromMajorMinorAndTag
  rw [shl64_eq, or_eq_add (k := 24) h2 (by omega), fromBodyAndTag_eq]
  show ((maj * 2^24 % 2^64 + min) % 2^56 * 256 + t.code : Nat) = _
  omega

theorem tagU8_eq (v : Nat) : Val.tagU8 v = v % 256 := by
  unfold Val.tagU8
  exact Nat.and_two_pow_sub_one_eq_mod v 8

theorem body_eq (v : Nat) : Val.body v = v / 256 := by
  unfold Val.body; rw [Nat.shiftRight_eq_div_pow]

theorem minor_eq (v : Nat) : Val.minor v = v / 256 % 2^24 := by
  unfold Val.minor; rw [body_eq]; exact Nat.and_two_pow_sub_one_eq_mod _ 24

theorem major_eq (v : Nat) : Val.major v = v / 2^32 % 2^32 := by
  unfold Val.major; rw [body_eq, Nat.shiftRight_eq_div_pow, Nat.div_div_eq_div_mul]

theorem fromU8_code : ∀ t : Tag, t ≠ .SmallCodeUpperBound → t ≠ .ObjectCodeLowerBound → t ≠ .ObjectCodeUpperBound →
    Tag.fromU8 t.code = t := by
  intro t; cases t <;> decide

/-- The whole table of the 256 tag bytes. -/
theorem code_fromU8 : ∀ n : Fin 256, (n.val < 15 ∨ (63 < n.val ∧ n.val < 80) → (Tag.fromU8 n.val).code = n.val) ∧
    (¬ (n.val < 15 ∨ (63 < n.val ∧ n.val < 80)) → Tag.fromU8 n.val = .Bad) := by decide +kernel

theorem asI64_eq {x : Nat} (h : x < 2^64) : asI64 x = if x < 2^63 then (x : Int) else (x : Int) - 2^64 := by
  unfold asI64; simp only; rw [Nat.mod_eq_of_lt h]

theorem hasTag_iff (v : Nat) (t : Tag) : Val.hasTag v t = true ↔ v % 256 = t.code := by
  unfold Val.hasTag; rw [tagU8_eq]; simp

theorem isSmallU64_iff {u : Nat} (h : u < 2^64) : isSmallU64 u = true ↔ u < 2^56 := by
  unfold isSmallU64
  rw [shl64_eq, Nat.shiftRight_eq_div_pow]
  simp only [beq_iff_eq]
  omega

theorem isSmallI64_iff {i : Int} (h : -2^63 ≤ i) (h' : i < 2^63) : isSmallI64 i = true ↔ (-2^55 ≤ i ∧ i < 2^55) := by
  unfold isSmallI64 asI64 asU64
  simp only [beq_iff_eq]
  split <;> omega

theorem asI64_asU64_eq (i : Int) : asI64 (asU64 i) = i ↔ (-2^63 ≤ i ∧ i < 2^63) := by
  unfold asI64 asU64
  simp only
  split <;> omega

theorem asI64_asU64_range (i : Int) : -2^63 ≤ asI64 (asU64 i) ∧ asI64 (asU64 i) < 2^63 := by
  unfold asI64 asU64
  simp only
  split <;> omega

theorem isSmallUWide_iff (u : Nat) : isSmallUWide u = true ↔ u < 2^56 := by
  unfold isSmallUWide
  simp only [Bool.and_eq_true, beq_iff_eq]
  rw [isSmallU64_iff (Nat.mod_lt _ (by decide))]
  omega

theorem isSmallIWide_iff (i : Int) : isSmallIWide i = true ↔ (-2^55 ≤ i ∧ i < 2^55) := by
  unfold isSmallIWide
  simp only [Bool.and_eq_true, beq_iff_eq]
  have hr := asI64_asU64_range i
  rw [isSmallI64_iff hr.1 hr.2]
  constructor
  · rintro ⟨h, e⟩; omega
  · intro h
    have : asI64 (asU64 i) = i := (asI64_asU64_eq i).2 (by omega)
    rw [this]; exact ⟨h, rfl⟩

theorem signedBody_fromBody {i : Int} (t : Tag) (h : -2^55 ≤ i ∧ i < 2^55) :
    Val.signedBody (Val.fromBodyAndTag (asU64 i) t) = i := by
  have hc := t.code_lt
  rw [fromBodyAndTag_eq]
  unfold Val.signedBody asI64 asU64
  simp only
  split <;> omega

theorem body_fromBody {n : Nat} (t : Tag) (h : n < 2^56) : Val.body (Val.fromBodyAndTag n t) = n := by
  have hc := t.code_lt
  rw [body_eq, fromBodyAndTag_eq]; omega

theorem hasTag_fromBody (n : Nat) (t t' : Tag) : Val.hasTag (Val.fromBodyAndTag n t) t' = true ↔ t = t' := by
  have hc := t.code_lt
  rw [hasTag_iff, fromBodyAndTag_eq]
  have : (n % 2 ^ 56 * 256 + t.code) % 256 = t.code := by omega
  rw [this]
  constructor
  · intro h; revert h; cases t <;> cases t' <;> decide
  · rintro rfl; rfl

end Soroban
