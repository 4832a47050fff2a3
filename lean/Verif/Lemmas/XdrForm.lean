import Verif.Lemmas.Xdr
import Verif.Spec.XdrForm
/-! The bytes written have the form of the specification, and no other bytes have it. -/
namespace Soroban.Xdr
open Soroban Soroban.Xdr.Spec Soroban.Strkey

theorem value_append (a b : List Nat) : value (a ++ b) = value a * 256 ^ b.length + value b := by
  unfold value
  rw [List.foldl_append]
  generalize a.foldl (fun a x => 256 * a + x) 0 = c
  induction b using List.reverseRecOn generalizing c with
  | nil => simp
  | append_singleton b x ih =>
    rw [List.foldl_append, List.foldl_append, ih c]
    simp only [List.foldl_cons, List.foldl_nil, List.length_append, List.length_cons, List.length_nil, Nat.zero_add, pow_succ]
    ring

theorem value_lt {b : List Nat} (h : ∀ x ∈ b, x < 256) : value b < 256 ^ b.length := by
  induction b using List.reverseRecOn with
  | nil => decide
  | append_singleton b x ih =>
    rw [value_append]
    have h1 := ih (fun y hy => h y (List.mem_append_left _ hy))
    have h2 := h x (by simp)
    have h3 : value [x] = x := by simp [value]
    rw [h3, List.length_append, List.length_singleton, pow_succ]
    omega

theorem value_inj : ∀ {a b : List Nat}, a.length = b.length → (∀ x ∈ a, x < 256) → (∀ x ∈ b, x < 256) → value a = value b → a = b := by
  intro a
  induction a using List.reverseRecOn with
  | nil => intro b hl _ _ _; exact (List.length_eq_zero_iff.mp hl.symm).symm
  | append_singleton a x ih =>
    intro b
    cases b using List.reverseRecOn with
    | nil => intro hl; simp at hl
    | append_singleton b y =>
      intro hl ha hb hv
      have h3 : ∀ x : Nat, value [x] = x := by intro x; simp [value]
      rw [value_append, value_append, h3, h3] at hv
      simp only [List.length_singleton, Nat.pow_one] at hv
      have hx := ha x (by simp)
      have hy := hb y (by simp)
      have hab : value a = value b ∧ x = y := by omega
      rw [ih (by simpa using hl) (fun z hz => ha z (List.mem_append_left _ hz)) (fun z hz => hb z (List.mem_append_left _ hz)) hab.1, hab.2]

theorem IsNum.unique {n : Nat} {v : Int} {a b : List Nat} (ha : IsNum n v a) (hb : IsNum n v b) : a = b :=
  value_inj (ha.length.trans hb.length.symm) ha.bytes hb.bytes (by have := ha.value.trans hb.value.symm; exact_mod_cast this)

theorem Field.Is.unique {f : Field} {a b : List Nat} (ha : f.Is a) (hb : f.Is b) : a = b := by
  cases f with
  | num n v => exact IsNum.unique ha hb
  | data d =>
    obtain ⟨l1, z1, rfl, hl1, hz1, hn1, hm1⟩ := ha
    obtain ⟨l2, z2, rfl, hl2, hz2, hn2, hm2⟩ := hb
    have hl := IsNum.unique hl1 hl2
    subst hl
    have : z1.length = z2.length := by
      simp only [List.length_append] at hm1 hm2
      omega
    rw [(List.eq_replicate_iff.mpr ⟨this, hz1⟩).trans (List.eq_replicate_iff.mpr ⟨rfl, hz2⟩).symm]

theorem Laid_unique : ∀ {fs : List Field} {a b : List Nat}, Laid fs a → Laid fs b → a = b
  | [], a, b, ha, hb => ha.trans (Eq.symm hb)
  | f :: fs, a, b, ⟨x, y, h1, h2, h3⟩, ⟨x', y', h1', h2', h3'⟩ => by
    rw [h1, h1', Field.Is.unique h2 h2', Laid_unique h3 h3']

theorem Laid_append : ∀ {fs gs : List Field} {a b : List Nat}, Laid fs a → Laid gs b → Laid (fs ++ gs) (a ++ b)
  | [], gs, a, b, ha, hb => by rw [show a = [] from ha]; exact hb
  | f :: fs, gs, a, b, ⟨x, y, h1, h2, h3⟩, hb => ⟨x, y ++ b, by rw [h1, List.append_assoc], h2, Laid_append h3 hb⟩

theorem Laid_cons {f : Field} {fs : List Field} {a b : List Nat} (h : f.Is a) (h' : Laid fs b) : Laid (f :: fs) (a ++ b) := ⟨a, b, rfl, h, h'⟩

theorem Laid_one {f : Field} {a : List Nat} (h : f.Is a) : Laid [f] a := ⟨a, [], by simp, h, rfl⟩

theorem fromLe_value (b : List Nat) : fromLe b = value b.reverse := by
  induction b with
  | nil => rfl
  | cons x b ih =>
    rw [List.reverse_cons, value_append, ← ih]
    have h3 : value [x] = x := by simp [value]
    rw [h3]
    simp only [List.length_singleton, pow_one, fromLe]
    omega

theorem be_mod (n v : Nat) : be n v = be n (v % 256 ^ n) := by
  have key : ∀ n v : Nat, toLe n v = toLe n (v % 256 ^ n) := by
    intro n
    induction n with
    | zero => intro v; rfl
    | succ n ih =>
      intro v
      simp only [toLe]
      rw [ih (v / 256), ih (v % 256 ^ (n + 1) / 256)]
      have h1 : v % 256 ^ (n + 1) % 256 = v % 256 := Nat.mod_mod_of_dvd _ (Dvd.intro_left (256 ^ n) rfl)
      have h2 : v % 256 ^ (n + 1) / 256 % 256 ^ n = v / 256 % 256 ^ n := by
        rw [pow_succ, mul_comm, Nat.mod_mul, Nat.add_mul_div_left _ _ (by decide), Nat.div_eq_of_lt (Nat.mod_lt _ (by decide)), Nat.zero_add,
          Nat.mod_mod]
      rw [h1, h2]
  unfold be Strkey.beBytes
  rw [key]

theorem be_isNum (n v : Nat) : IsNum n v (be n v) := by
  refine ⟨be_length n v, be_bytes n v, ?_⟩
  have : value (be n v) = v % 256 ^ n := by
    rw [be_mod]
    have := ofBe_beBytes n (v % 256 ^ n) (Nat.mod_lt _ (by positivity))
    unfold Strkey.ofBe at this
    rw [fromLe_value, List.reverse_reverse] at this
    exact this
  rw [this]
  push_cast
  rfl

theorem num (n v : Nat) : (Field.num n v).Is (be n v) := be_isNum n v

theorem numU32 (i : Int) : (Field.num 4 i).Is (be 4 (asU32 i)) := by
  have h := be_isNum 4 (asU32 i)
  refine ⟨h.length, h.bytes, h.value.trans ?_⟩
  unfold asU32
  have : ((2 : Int) ^ 32) = 256 ^ 4 := by norm_num
  rw [this, Int.toNat_of_nonneg (Int.emod_nonneg _ (by norm_num)), Int.emod_emod_of_dvd _ (dvd_refl _)]

theorem numU64 (i : Int) : (Field.num 8 i).Is (be 8 (asU64 i)) := by
  have h := be_isNum 8 (asU64 i)
  refine ⟨h.length, h.bytes, h.value.trans ?_⟩
  unfold asU64
  have : ((2 : Int) ^ 64) = 256 ^ 8 := by norm_num
  rw [this, Int.toNat_of_nonneg (Int.emod_nonneg _ (by norm_num)), Int.emod_emod_of_dvd _ (dvd_refl _)]

theorem writeVar_is (b : List Nat) : (Field.data b).Is (writeVar b) := by
  refine ⟨_, _, rfl, be_isNum 4 b.length, fun x hx => List.eq_of_mem_replicate hx, ?_, ?_⟩
  · rw [List.length_replicate]; unfold padding; omega
  · unfold writeVar
    rw [List.length_append, List.length_append, be_length, List.length_replicate]
    unfold padding; omega

theorem writeAddr_laid (a : ScAddr) : Laid (addrFields a) (writeAddr a) := by
  cases a <;> simp only [writeAddr, addrFields, List.append_assoc]
  · exact Laid_cons (num 4 0) (Laid_cons (num 4 0) (Laid_one (num 32 _)))
  · exact Laid_cons (num 4 1) (Laid_one (num 32 _))
  · exact Laid_cons (num 4 2) (Laid_cons (num 8 _) (Laid_one (num 32 _)))
  · exact Laid_cons (num 4 3) (Laid_cons (num 4 0) (Laid_one (num 32 _)))
  · exact Laid_cons (num 4 4) (Laid_one (num 32 _))

mutual
theorem write_laid : ∀ s : ScVal, Laid (fields s) (write s)
  | .bool b => by cases b <;> exact Laid_cons (num 4 _) (Laid_one (num 4 _))
  | .void => Laid_one (num 4 1)
  | .error t c => by rw [write, List.append_assoc]; exact Laid_cons (num 4 2) (Laid_cons (num 4 t) (Laid_one (num 4 c)))
  | .u32 n => Laid_cons (num 4 3) (Laid_one (num 4 n))
  | .i32 i => Laid_cons (num 4 4) (Laid_one (numU32 i))
  | .u64 n => Laid_cons (num 4 5) (Laid_one (num 8 n))
  | .i64 i => Laid_cons (num 4 6) (Laid_one (numU64 i))
  | .timepoint n => Laid_cons (num 4 7) (Laid_one (num 8 n))
  | .duration n => Laid_cons (num 4 8) (Laid_one (num 8 n))
  | .u128 hi lo => by rw [write, List.append_assoc]; exact Laid_cons (num 4 9) (Laid_cons (num 8 hi) (Laid_one (num 8 lo)))
  | .i128 hi lo => by rw [write, List.append_assoc]; exact Laid_cons (num 4 10) (Laid_cons (numU64 hi) (Laid_one (num 8 lo)))
  | .u256 a b c d => by
    simp only [write, List.append_assoc]
    exact Laid_cons (num 4 11) (Laid_cons (num 8 a) (Laid_cons (num 8 b) (Laid_cons (num 8 c) (Laid_one (num 8 d)))))
  | .i256 a b c d => by
    simp only [write, List.append_assoc]
    exact Laid_cons (num 4 12) (Laid_cons (numU64 a) (Laid_cons (num 8 b) (Laid_cons (num 8 c) (Laid_one (num 8 d)))))
  | .bytes b => Laid_cons (num 4 13) (Laid_one (writeVar_is b))
  | .string b => Laid_cons (num 4 14) (Laid_one (writeVar_is b))
  | .symbol b => Laid_cons (num 4 15) (Laid_one (writeVar_is b))
  | .vec none => Laid_cons (num 4 16) (Laid_one (num 4 0))
  | .vec (some l) => by
    simp only [write, List.append_assoc]
    exact Laid_cons (num 4 16) (Laid_cons (num 4 1) (Laid_cons (num 4 l.length) (writeList_laid l)))
  | .map none => Laid_cons (num 4 17) (Laid_one (num 4 0))
  | .map (some m) => by
    simp only [write, List.append_assoc]
    exact Laid_cons (num 4 17) (Laid_cons (num 4 1) (Laid_cons (num 4 m.length) (writeEntries_laid m)))
  | .address a => Laid_cons (num 4 18) (writeAddr_laid a)
  | .contractInstance _ _ => Laid_one (num 4 19)
  | .ledgerKeyContractInstance => Laid_one (num 4 20)
  | .ledgerKeyNonce i => Laid_cons (num 4 21) (Laid_one (numU64 i))
  | .executableTag b => Laid_cons (num 4 22) (Laid_one (writeVar_is b))

theorem writeList_laid : ∀ l : List ScVal, Laid (fieldsList l) (writeList l)
  | [] => rfl
  | s :: ss => Laid_append (write_laid s) (writeList_laid ss)

theorem writeEntries_laid : ∀ l : List (ScVal × ScVal), Laid (fieldsEntries l) (writeEntries l)
  | [] => rfl
  | (k, v) :: es => by
    rw [writeEntries, List.append_assoc]
    exact Laid_append (write_laid k) (Laid_append (write_laid v) (writeEntries_laid es))
end

end Soroban.Xdr
