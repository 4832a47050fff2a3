import Verif.Spec.Xdr
import Verif.Lemmas.Strkey
import Verif.Lemmas.Convert
/-! Lemmas for C73: reading is the inverse of writing. -/
namespace Soroban.Xdr
open Soroban.Spec Soroban.Xdr.Spec
open Soroban.Strkey (ofBe beBytes_length beBytes_lt ofBe_beBytes beBytes_ofBe ofBe_lt)

theorem be_length (n v : Nat) : (be n v).length = n := beBytes_length n v

theorem andThen_some {α β : Type} {r : Reader α} {f : α → Reader β} {b : List Nat} {y : β × List Nat} :
    andThen r f b = some y ↔ ∃ x mid, r b = some (x, mid) ∧ f x mid = some y := by
  unfold andThen
  cases h : r b with
  | none => simp
  | some p =>
    obtain ⟨x, mid⟩ := p
    constructor
    · intro h'; exact ⟨x, mid, rfl, h'⟩
    · rintro ⟨x', mid', e, h'⟩
      cases e; exact h'

theorem andThen_eq {α β : Type} {r : Reader α} {f : α → Reader β} {b mid : List Nat} {x : α} (h : r b = some (x, mid)) :
    andThen r f b = f x mid := by rw [andThen, h]

theorem readBytes_fwd (b rest : List Nat) : readBytes b.length (b ++ rest) = some (b, rest) := by
  unfold readBytes
  rw [if_pos (by simp), List.take_left, List.drop_left]

theorem readBytes_bwd {n : Nat} {b x rest : List Nat} (h : readBytes n b = some (x, rest)) : b = x ++ rest ∧ x.length = n := by
  unfold readBytes at h
  by_cases hn : n ≤ b.length
  · rw [if_pos hn] at h
    cases h
    exact ⟨(List.take_append_drop n b).symm, by simp [hn]⟩
  · rw [if_neg hn] at h; exact nomatch h

theorem readNat_fwd {n v : Nat} (h : v < 256 ^ n) (rest : List Nat) : readNat n (be n v ++ rest) = some (v, rest) := by
  have := readBytes_fwd (be n v) rest
  rw [be_length] at this
  rw [readNat, andThen_eq this, ret, be, ofBe_beBytes n v h]

theorem readNat_bwd {n v : Nat} {b rest : List Nat} (hb : AllBytes b) (h : readNat n b = some (v, rest)) :
    b = be n v ++ rest ∧ v < 256 ^ n ∧ AllBytes rest := by
  obtain ⟨x, mid, h1, h2⟩ := andThen_some.mp h
  obtain ⟨e, hl⟩ := readBytes_bwd h1
  cases h2
  have hx : ∀ y ∈ x, y < 256 := fun y hy => hb y (by rw [e]; exact List.mem_append_left _ hy)
  refine ⟨?_, ofBe_lt hl hx, fun y hy => hb y (by rw [e]; exact List.mem_append_right _ hy)⟩
  rw [be, beBytes_ofBe hl hx]
  exact e

theorem all_zero {l : List Nat} {n : Nat} (h : l.all (· == 0) = true) (hl : l.length = n) : l = List.replicate n 0 := by
  refine List.eq_replicate_iff.mpr ⟨hl, fun x hx => ?_⟩
  have := List.all_eq_true.mp h x hx
  simpa using this

theorem readVar_fwd {max : Nat} {b : List Nat} (h : b.length ≤ max) (h' : b.length < 2 ^ 32) (rest : List Nat) :
    readVar max (writeVar b ++ rest) = some (b, rest) := by
  unfold readVar writeVar
  rw [List.append_assoc, List.append_assoc, andThen_eq (readNat_fwd (n := 4) h' _), if_neg (by omega),
    andThen_eq (readBytes_fwd _ _)]
  have := readBytes_fwd (List.replicate (padding b.length) 0) rest
  rw [List.length_replicate] at this
  rw [andThen_eq this, if_pos (by simp)]
  rfl

theorem readVar_bwd {max : Nat} {b x rest : List Nat} (hb : AllBytes b) (h : readVar max b = some (x, rest)) :
    b = writeVar x ++ rest ∧ x.length ≤ max ∧ x.length < 2 ^ 32 ∧ AllBytes x ∧ AllBytes rest := by
  obtain ⟨n, m1, h1, h2⟩ := andThen_some.mp h
  obtain ⟨e1, hn, b1⟩ := readNat_bwd hb h1
  by_cases hm : n > max
  · rw [if_pos hm] at h2; exact nomatch h2
  · rw [if_neg hm] at h2
    obtain ⟨data, m2, h3, h4⟩ := andThen_some.mp h2
    obtain ⟨e2, hl⟩ := readBytes_bwd h3
    obtain ⟨pad, m3, h5, h6⟩ := andThen_some.mp h4
    obtain ⟨e3, hp⟩ := readBytes_bwd h5
    by_cases hz : pad.all (· == 0) = true
    · rw [if_pos hz] at h6
      cases h6
      rw [e2] at b1
      refine ⟨?_, by omega, by rw [hl]; exact hn, fun y hy => b1 y (List.mem_append_left _ hy),
        fun y hy => b1 y (List.mem_append_right _ (by rw [e3]; exact List.mem_append_right _ hy))⟩
      rw [writeVar, hl, e1, e2, e3, ← all_zero hz hp]
      simp only [List.append_assoc]
    · rw [if_neg hz] at h6; exact nomatch h6

theorem readMany_fwd {α : Type} {r : Reader α} {w : α → List Nat} {rest : List Nat} : ∀ {xs : List α},
    (∀ x ∈ xs, ∀ rest, r (w x ++ rest) = some (x, rest)) → readMany r xs.length (xs.flatMap w ++ rest) = some (xs, rest)
  | [], _ => rfl
  | x :: xs, h => by
    rw [List.length_cons, readMany, List.flatMap_cons, List.append_assoc, andThen_eq (h x List.mem_cons_self _),
      andThen_eq (readMany_fwd (fun y hy => h y (List.mem_cons_of_mem _ hy)))]
    rfl

theorem readMany_bwd {α : Type} {r : Reader α} {w : α → List Nat} {P : α → Prop}
    (hr : ∀ {b x rest}, AllBytes b → r b = some (x, rest) → b = w x ++ rest ∧ P x ∧ AllBytes rest) : ∀ {n : Nat} {b rest : List Nat}
    {xs : List α}, AllBytes b → readMany r n b = some (xs, rest) →
      b = xs.flatMap w ++ rest ∧ xs.length = n ∧ (∀ x ∈ xs, P x) ∧ AllBytes rest
  | 0, b, rest, xs, hb, h => by
    cases h; exact ⟨rfl, rfl, fun x hx => (nomatch hx), hb⟩
  | n + 1, b, rest, xs, hb, h => by
    obtain ⟨x, m1, h1, h2⟩ := andThen_some.mp h
    obtain ⟨ys, m2, h3, h4⟩ := andThen_some.mp h2
    cases h4
    obtain ⟨e1, p1, b1⟩ := hr hb h1
    obtain ⟨e2, hl, p2, b2⟩ := readMany_bwd hr b1 h3
    refine ⟨?_, by rw [List.length_cons, hl], ?_, b2⟩
    · rw [List.flatMap_cons, List.append_assoc, ← e2, ← e1]
    · intro y hy
      rcases List.mem_cons.mp hy with h | h
      · rw [h]; exact p1
      · exact p2 y h

/-- An optional array, as it is written. -/
def writeOptArr {α : Type} (w : α → List Nat) : Option (List α) → List Nat
  | none => be 4 0
  | some l => be 4 1 ++ be 4 l.length ++ l.flatMap w

theorem readOptArr_fwd {α : Type} {r : Reader α} {w : α → List Nat} {rest : List Nat} {o : Option (List α)}
    (hl : ∀ l, o = some l → l.length < 2 ^ 32) (h : ∀ l, o = some l → ∀ x ∈ l, ∀ rest, r (w x ++ rest) = some (x, rest)) :
    readOpt (readArr r) (writeOptArr w o ++ rest) = some (o, rest) := by
  cases o with
  | none => rw [writeOptArr, readOpt, andThen_eq (readNat_fwd (by decide) _)]; rfl
  | some l =>
    rw [writeOptArr, readOpt, List.append_assoc, List.append_assoc, andThen_eq (readNat_fwd (by decide) _)]
    show andThen (readArr r) _ _ = _
    rw [andThen_eq (x := l) (mid := rest)]
    · rfl
    · rw [readArr, andThen_eq (readNat_fwd (n := 4) (hl l rfl) _)]
      exact readMany_fwd (h l rfl)

theorem readOptArr_bwd {α : Type} {r : Reader α} {w : α → List Nat} {P : α → Prop}
    (hr : ∀ {b x rest}, AllBytes b → r b = some (x, rest) → b = w x ++ rest ∧ P x ∧ AllBytes rest) {b rest : List Nat}
    {o : Option (List α)} (hb : AllBytes b) (h : readOpt (readArr r) b = some (o, rest)) :
    b = writeOptArr w o ++ rest ∧ (∀ l, o = some l → l.length < 2 ^ 32 ∧ ∀ x ∈ l, P x) ∧ AllBytes rest := by
  obtain ⟨k, m1, h1, h2⟩ := andThen_some.mp h
  obtain ⟨e1, hk, b1⟩ := readNat_bwd hb h1
  match k, h2 with
  | 0, h2 =>
    cases h2
    exact ⟨e1, fun l hl => (nomatch hl), b1⟩
  | 1, h2 =>
    obtain ⟨l, m2, h3, h4⟩ := andThen_some.mp h2
    cases h4
    obtain ⟨n, m3, h5, h6⟩ := andThen_some.mp h3
    obtain ⟨e2, hn, b2⟩ := readNat_bwd b1 h5
    obtain ⟨e3, hl, hP, b3⟩ := readMany_bwd hr b2 h6
    refine ⟨?_, ?_, b3⟩
    · rw [writeOptArr, hl, e1, e2, e3]
      simp only [List.append_assoc]
    · intro l' hl'
      cases hl'
      exact ⟨by rw [hl]; exact hn, hP⟩
  | k + 2, h2 => exact nomatch h2

theorem expect_fwd {c : Nat} (h : c < 256 ^ 4) (rest : List Nat) : expect c (be 4 c ++ rest) = some ((), rest) := by
  rw [expect, andThen_eq (readNat_fwd h _), if_pos rfl]; rfl

theorem expect_bwd {c : Nat} {b rest : List Nat} {u : Unit} (hb : AllBytes b) (h : expect c b = some (u, rest)) :
    b = be 4 c ++ rest ∧ AllBytes rest := by
  obtain ⟨k, m, h1, h2⟩ := andThen_some.mp h
  obtain ⟨e, _, b1⟩ := readNat_bwd hb h1
  by_cases hk : k = c
  · rw [if_pos hk] at h2
    cases h2
    rw [← hk]
    exact ⟨e, b1⟩
  · rw [if_neg hk] at h2; exact nomatch h2

theorem readAddr_fwd {a : ScAddr} (h : AddrFits a) (rest : List Nat) : readAddr (writeAddr a ++ rest) = some (a, rest) := by
  unfold readAddr
  cases a with
  | account k =>
    rw [writeAddr, List.append_assoc, List.append_assoc, andThen_eq (readNat_fwd (by decide) _)]
    show andThen (expect 0) _ _ = _
    rw [andThen_eq (expect_fwd (by decide) _), andThen_eq (readNat_fwd h _)]; rfl
  | contract k =>
    rw [writeAddr, List.append_assoc, andThen_eq (readNat_fwd (by decide) _)]
    show andThen (readNat 32) _ _ = _
    rw [andThen_eq (readNat_fwd h _)]; rfl
  | muxedAccount i k =>
    rw [writeAddr, List.append_assoc, List.append_assoc, andThen_eq (readNat_fwd (by decide) _)]
    show andThen (readNat 8) _ _ = _
    rw [andThen_eq (readNat_fwd h.1 _), andThen_eq (readNat_fwd h.2 _)]; rfl
  | claimableBalance k =>
    rw [writeAddr, List.append_assoc, List.append_assoc, andThen_eq (readNat_fwd (by decide) _)]
    show andThen (expect 0) _ _ = _
    rw [andThen_eq (expect_fwd (by decide) _), andThen_eq (readNat_fwd h _)]; rfl
  | liquidityPool k =>
    rw [writeAddr, List.append_assoc, andThen_eq (readNat_fwd (by decide) _)]
    show andThen (readNat 32) _ _ = _
    rw [andThen_eq (readNat_fwd h _)]; rfl

theorem readAddr_bwd {a : ScAddr} {b rest : List Nat} (hb : AllBytes b) (h : readAddr b = some (a, rest)) :
    b = writeAddr a ++ rest ∧ AddrFits a ∧ AllBytes rest := by
  obtain ⟨k, m1, h1, h2⟩ := andThen_some.mp h
  obtain ⟨e1, _, b1⟩ := readNat_bwd hb h1
  match k, h2 with
  | 0, h2 =>
    obtain ⟨_, m2, h3, h4⟩ := andThen_some.mp h2
    obtain ⟨k, m3, h5, h6⟩ := andThen_some.mp h4
    cases h6
    obtain ⟨e2, b2⟩ := expect_bwd b1 h3
    obtain ⟨e3, l3, b3⟩ := readNat_bwd b2 h5
    exact ⟨by rw [e1, e2, e3, writeAddr]; simp only [List.append_assoc], l3, b3⟩
  | 1, h2 =>
    obtain ⟨k, m3, h5, h6⟩ := andThen_some.mp h2
    cases h6
    obtain ⟨e3, l3, b3⟩ := readNat_bwd b1 h5
    exact ⟨by rw [e1, e3, writeAddr]; simp only [List.append_assoc], l3, b3⟩
  | 2, h2 =>
    obtain ⟨i, m2, h3, h4⟩ := andThen_some.mp h2
    obtain ⟨k, m3, h5, h6⟩ := andThen_some.mp h4
    cases h6
    obtain ⟨e2, l2, b2⟩ := readNat_bwd b1 h3
    obtain ⟨e3, l3, b3⟩ := readNat_bwd b2 h5
    exact ⟨by rw [e1, e2, e3, writeAddr]; simp only [List.append_assoc], ⟨l2, l3⟩, b3⟩
  | 3, h2 =>
    obtain ⟨_, m2, h3, h4⟩ := andThen_some.mp h2
    obtain ⟨k, m3, h5, h6⟩ := andThen_some.mp h4
    cases h6
    obtain ⟨e2, b2⟩ := expect_bwd b1 h3
    obtain ⟨e3, l3, b3⟩ := readNat_bwd b2 h5
    exact ⟨by rw [e1, e2, e3, writeAddr]; simp only [List.append_assoc], l3, b3⟩
  | 4, h2 =>
    obtain ⟨k, m3, h5, h6⟩ := andThen_some.mp h2
    cases h6
    obtain ⟨e3, l3, b3⟩ := readNat_bwd b1 h5
    exact ⟨by rw [e1, e3, writeAddr]; simp only [List.append_assoc], l3, b3⟩
  | k + 5, h2 => exact nomatch h2

theorem writeList_eq (l : List ScVal) : writeList l = l.flatMap write := by
  induction l with
  | nil => rw [writeList]; rfl
  | cons s l ih => rw [writeList, ih, List.flatMap_cons]

/-- An entry, as it is written. -/
def writeEntry (p : ScVal × ScVal) : List Nat := write p.1 ++ write p.2

theorem writeEntries_eq (l : List (ScVal × ScVal)) : writeEntries l = l.flatMap writeEntry := by
  induction l with
  | nil => rw [writeEntries]; rfl
  | cons s l ih => rw [writeEntries, ih, List.flatMap_cons]; rfl

theorem write_vec (o : Option (List ScVal)) : write (.vec o) = be 4 16 ++ writeOptArr write o := by
  cases o with
  | none => rw [write]; rfl
  | some l => rw [write, writeOptArr, writeList_eq]; simp only [List.append_assoc]

theorem write_map (o : Option (List (ScVal × ScVal))) : write (.map o) = be 4 17 ++ writeOptArr writeEntry o := by
  cases o with
  | none => rw [write]; rfl
  | some l => rw [write, writeOptArr, writeEntries_eq]; simp only [List.append_assoc]

/-! ### Numbers with a sign -/

theorem asI32_asU32 {i : Int} (h : -2 ^ 31 ≤ i ∧ i < 2 ^ 31) : asI32 (asU32 i) = i := by
  unfold asI32 asU32; dsimp only; split <;> omega

theorem asU32_lt (i : Int) : asU32 i < 2 ^ 32 := by unfold asU32; omega

theorem asU32_asI32 {n : Nat} (h : n < 2 ^ 32) : asU32 (asI32 n) = n ∧ -2 ^ 31 ≤ asI32 n ∧ asI32 n < 2 ^ 31 := by
  unfold asI32 asU32; dsimp only; split <;> omega

theorem asU64_asI64 {n : Nat} (h : n < 2 ^ 64) : asU64 (asI64 n) = n ∧ -2 ^ 63 ≤ asI64 n ∧ asI64 n < 2 ^ 63 := by
  unfold asI64 asU64; dsimp only; split <;> omega

theorem asI64_asU64 {i : Int} (h : -2 ^ 63 ≤ i ∧ i < 2 ^ 63) : asI64 (asU64 i) = i := (asI64_asU64_eq i).mpr h

/-! ### Values -/

theorem write_length (s : ScVal) : 4 ≤ (write s).length := by
  unfold write
  split <;> simp only [List.length_append, be_length] <;> omega

theorem flatMap_length_le {α : Type} {w : α → List Nat} {x : α} : ∀ {l : List α}, x ∈ l → (w x).length ≤ (l.flatMap w).length
  | y :: l, h => by
    rw [List.flatMap_cons, List.length_append]
    rcases List.mem_cons.mp h with h | h
    · rw [h]; omega
    · have := flatMap_length_le (w := w) h; omega

/-- Reading returns what was written. -/
theorem read_fwd : ∀ {f : Nat} {s : ScVal}, Wire s → (write s).length ≤ f → ∀ rest, read f (write s ++ rest) = some (s, rest)
  | 0, s, _, hf, _ => by have := write_length s; omega
  | f + 1, s, hw, hf, rest => by
    obtain ⟨hi, hz, hc⟩ := hw
    rw [read]
    cases s with
    | bool b =>
      rw [write, List.append_assoc, andThen_eq (readNat_fwd (by decide) _)]
      simp only [readCase]
      cases b
      · rw [andThen_eq (readNat_fwd (by decide) _)]; rfl
      · rw [andThen_eq (readNat_fwd (by decide) _)]; rfl
    | void => rw [write, andThen_eq (readNat_fwd (by decide) _)]; rfl
    | error t c =>
      rw [write, List.append_assoc, List.append_assoc, andThen_eq (readNat_fwd (by decide) _)]
      show readError _ = _
      have h1 := hi.1
      rw [readError, andThen_eq (readNat_fwd (by omega) _), andThen_eq (readNat_fwd (n := 4) hi.2.1 _), if_pos ⟨h1, hi.2.2⟩]; rfl
    | u32 n =>
      rw [write, List.append_assoc, andThen_eq (readNat_fwd (by decide) _)]
      simp only [readCase]
      rw [andThen_eq (readNat_fwd (n := 4) hi _)]; rfl
    | i32 i =>
      rw [write, List.append_assoc, andThen_eq (readNat_fwd (by decide) _)]
      simp only [readCase]
      rw [andThen_eq (readNat_fwd (n := 4) (asU32_lt i) _), asI32_asU32 hi]; rfl
    | u64 n =>
      rw [write, List.append_assoc, andThen_eq (readNat_fwd (by decide) _)]
      simp only [readCase]
      rw [andThen_eq (readNat_fwd (n := 8) hi _)]; rfl
    | i64 i =>
      rw [write, List.append_assoc, andThen_eq (readNat_fwd (by decide) _)]
      simp only [readCase]
      rw [andThen_eq (readNat_fwd (n := 8) (asU64_lt i) _), asI64_asU64 hi]; rfl
    | timepoint n =>
      rw [write, List.append_assoc, andThen_eq (readNat_fwd (by decide) _)]
      simp only [readCase]
      rw [andThen_eq (readNat_fwd (n := 8) hi _)]; rfl
    | duration n =>
      rw [write, List.append_assoc, andThen_eq (readNat_fwd (by decide) _)]
      simp only [readCase]
      rw [andThen_eq (readNat_fwd (n := 8) hi _)]; rfl
    | u128 hi' lo =>
      rw [write, List.append_assoc, List.append_assoc, andThen_eq (readNat_fwd (by decide) _)]
      simp only [readCase]
      rw [andThen_eq (readNat_fwd (n := 8) hi.1 _), andThen_eq (readNat_fwd (n := 8) hi.2 _)]; rfl
    | i128 hi' lo =>
      rw [write, List.append_assoc, List.append_assoc, andThen_eq (readNat_fwd (by decide) _)]
      simp only [readCase]
      rw [andThen_eq (readNat_fwd (n := 8) (asU64_lt _) _), andThen_eq (readNat_fwd (n := 8) hi.2 _), asI64_asU64 hi.1]; rfl
    | u256 a b c d =>
      rw [write, List.append_assoc, List.append_assoc, List.append_assoc, List.append_assoc, andThen_eq (readNat_fwd (by decide) _)]
      simp only [readCase]
      rw [andThen_eq (readNat_fwd (n := 8) hi.1 _), andThen_eq (readNat_fwd (n := 8) hi.2.1 _),
        andThen_eq (readNat_fwd (n := 8) hi.2.2.1 _), andThen_eq (readNat_fwd (n := 8) hi.2.2.2 _)]; rfl
    | i256 a b c d =>
      rw [write, List.append_assoc, List.append_assoc, List.append_assoc, List.append_assoc, andThen_eq (readNat_fwd (by decide) _)]
      simp only [readCase]
      rw [andThen_eq (readNat_fwd (n := 8) (asU64_lt _) _), andThen_eq (readNat_fwd (n := 8) hi.2.1 _),
        andThen_eq (readNat_fwd (n := 8) hi.2.2.1 _), andThen_eq (readNat_fwd (n := 8) hi.2.2.2 _), asI64_asU64 hi.1]; rfl
    | bytes b =>
      rw [write, List.append_assoc, andThen_eq (readNat_fwd (by decide) _)]
      show andThen (readVar maxU32) _ _ = _
      have h1 := hz.1
      rw [andThen_eq (readVar_fwd (by unfold maxU32; omega) hz.1 _)]; rfl
    | string b =>
      rw [write, List.append_assoc, andThen_eq (readNat_fwd (by decide) _)]
      show andThen (readVar maxU32) _ _ = _
      have h1 := hz.1
      rw [andThen_eq (readVar_fwd (by unfold maxU32; omega) hz.1 _)]; rfl
    | symbol b =>
      rw [write, List.append_assoc, andThen_eq (readNat_fwd (by decide) _)]
      show andThen (readVar 32) _ _ = _
      have h1 := hz.1
      rw [andThen_eq (readVar_fwd hz.1 (by omega) _)]; rfl
    | executableTag b =>
      rw [write, List.append_assoc, andThen_eq (readNat_fwd (by decide) _)]
      show andThen (readVar maxU32) _ _ = _
      have h1 := hz.1
      rw [andThen_eq (readVar_fwd (by unfold maxU32; omega) hz.1 _)]; rfl
    | address a =>
      rw [write, List.append_assoc, andThen_eq (readNat_fwd (by decide) _)]
      show andThen readAddr _ _ = _
      rw [andThen_eq (readAddr_fwd hz _)]; rfl
    | ledgerKeyContractInstance => rw [write, andThen_eq (readNat_fwd (by decide) _)]; rfl
    | ledgerKeyNonce i =>
      rw [write, List.append_assoc, andThen_eq (readNat_fwd (by decide) _)]
      simp only [readCase]
      rw [andThen_eq (readNat_fwd (n := 8) (asU64_lt i) _), asI64_asU64 hz]; rfl
    | contractInstance e m => exact hz.elim
    | vec o =>
      rw [write_vec] at hf
      rw [write_vec, List.append_assoc, andThen_eq (readNat_fwd (by decide) _)]
      show andThen (readOpt (readArr (read f))) _ _ = _
      rw [andThen_eq (readOptArr_fwd (w := write) (o := o) (rest := rest) ?_ ?_)]
      · rfl
      · intro l hl; rw [hl] at hz; exact hz
      · intro l hl x hx
        rw [hl] at hc hf
        refine read_fwd (hc x hx) ?_
        rw [writeOptArr, List.length_append, List.length_append, List.length_append, be_length, be_length] at hf
        have := flatMap_length_le (w := write) hx
        omega
    | map o =>
      rw [write_map] at hf
      rw [write_map, List.append_assoc, andThen_eq (readNat_fwd (by decide) _)]
      show andThen (readOpt (readArr _)) _ _ = _
      rw [andThen_eq (readOptArr_fwd (w := writeEntry) (o := o) (rest := rest) ?_ ?_)]
      · rfl
      · intro l hl; rw [hl] at hz; exact hz
      · intro l hl x hx rest
        rw [hl] at hc hf
        rw [writeOptArr, List.length_append, List.length_append, List.length_append, be_length, be_length] at hf
        have h1 := flatMap_length_le (w := writeEntry) hx
        rw [writeEntry, List.length_append] at h1
        have c1 : x.1 ∈ children (.map (some l)) := List.mem_flatMap.mpr ⟨x, hx, List.mem_cons_self⟩
        have c2 : x.2 ∈ children (.map (some l)) := List.mem_flatMap.mpr ⟨x, hx, List.mem_cons_of_mem _ List.mem_cons_self⟩
        rw [writeEntry, List.append_assoc, andThen_eq (read_fwd (hc _ c1) (by omega) _), andThen_eq (read_fwd (hc _ c2) (by omega) _)]
        rfl

theorem wire_leaf {s : ScVal} (hi : InRange s) (hz : SizesFit s) (hc : children s = []) : Wire s :=
  ⟨hi, hz, by rw [hc]; exact fun x hx => (nomatch hx)⟩

/-- Whatever is read is what would be written. -/
theorem read_bwd : ∀ {f : Nat} {b rest : List Nat} {s : ScVal}, AllBytes b → read f b = some (s, rest) →
    b = write s ++ rest ∧ Wire s ∧ AllBytes rest
  | 0, b, rest, s, _, h => nomatch h
  | f + 1, b, rest, s, hb, h => by
    obtain ⟨k, m1, h1, h2⟩ := andThen_some.mp h
    obtain ⟨e1, _, b1⟩ := readNat_bwd hb h1
    match k, h2 with
    | 0, h2 =>
      obtain ⟨n, m2, h3, h4⟩ := andThen_some.mp h2
      obtain ⟨e2, _, b2⟩ := readNat_bwd b1 h3
      match n, h4 with
      | 0, h4 => cases h4; exact ⟨by rw [e1, e2, write, List.append_assoc]; rfl, wire_leaf trivial trivial rfl, b2⟩
      | 1, h4 => cases h4; exact ⟨by rw [e1, e2, write, List.append_assoc]; rfl, wire_leaf trivial trivial rfl, b2⟩
      | n + 2, h4 => exact nomatch h4
    | 1, h2 => cases h2; exact ⟨by rw [e1, write], wire_leaf trivial trivial rfl, b1⟩
    | 2, h2 =>
      obtain ⟨t, m2, h3, h4⟩ := andThen_some.mp h2
      obtain ⟨e2, _, b2⟩ := readNat_bwd b1 h3
      obtain ⟨c, m3, h5, h6⟩ := andThen_some.mp h4
      obtain ⟨e3, l3, b3⟩ := readNat_bwd b2 h5
      by_cases hc : t < 10 ∧ (t = 0 ∨ c < 10)
      · rw [if_pos hc] at h6
        cases h6
        exact ⟨by rw [e1, e2, e3, write]; simp only [List.append_assoc], wire_leaf ⟨hc.1, l3, hc.2⟩ trivial rfl, b3⟩
      · rw [if_neg hc] at h6; exact nomatch h6
    | 3, h2 =>
      obtain ⟨n, m2, h3, h4⟩ := andThen_some.mp h2
      obtain ⟨e2, l2, b2⟩ := readNat_bwd b1 h3
      cases h4
      exact ⟨by rw [e1, e2, write, List.append_assoc], wire_leaf l2 trivial rfl, b2⟩
    | 4, h2 =>
      obtain ⟨n, m2, h3, h4⟩ := andThen_some.mp h2
      obtain ⟨e2, l2, b2⟩ := readNat_bwd b1 h3
      cases h4
      have := asU32_asI32 (n := n) l2
      exact ⟨by rw [e1, e2, write, List.append_assoc, this.1], wire_leaf this.2 trivial rfl, b2⟩
    | 5, h2 =>
      obtain ⟨n, m2, h3, h4⟩ := andThen_some.mp h2
      obtain ⟨e2, l2, b2⟩ := readNat_bwd b1 h3
      cases h4
      exact ⟨by rw [e1, e2, write, List.append_assoc], wire_leaf l2 trivial rfl, b2⟩
    | 6, h2 =>
      obtain ⟨n, m2, h3, h4⟩ := andThen_some.mp h2
      obtain ⟨e2, l2, b2⟩ := readNat_bwd b1 h3
      cases h4
      have := asU64_asI64 (n := n) l2
      exact ⟨by rw [e1, e2, write, List.append_assoc, this.1], wire_leaf this.2 trivial rfl, b2⟩
    | 7, h2 =>
      obtain ⟨n, m2, h3, h4⟩ := andThen_some.mp h2
      obtain ⟨e2, l2, b2⟩ := readNat_bwd b1 h3
      cases h4
      exact ⟨by rw [e1, e2, write, List.append_assoc], wire_leaf l2 trivial rfl, b2⟩
    | 8, h2 =>
      obtain ⟨n, m2, h3, h4⟩ := andThen_some.mp h2
      obtain ⟨e2, l2, b2⟩ := readNat_bwd b1 h3
      cases h4
      exact ⟨by rw [e1, e2, write, List.append_assoc], wire_leaf l2 trivial rfl, b2⟩
    | 9, h2 =>
      obtain ⟨x, m2, h3, h4⟩ := andThen_some.mp h2
      obtain ⟨e2, l2, b2⟩ := readNat_bwd b1 h3
      obtain ⟨y, m3, h5, h6⟩ := andThen_some.mp h4
      obtain ⟨e3, l3, b3⟩ := readNat_bwd b2 h5
      cases h6
      exact ⟨by rw [e1, e2, e3, write]; simp only [List.append_assoc], wire_leaf ⟨l2, l3⟩ trivial rfl, b3⟩
    | 10, h2 =>
      obtain ⟨x, m2, h3, h4⟩ := andThen_some.mp h2
      obtain ⟨e2, l2, b2⟩ := readNat_bwd b1 h3
      obtain ⟨y, m3, h5, h6⟩ := andThen_some.mp h4
      obtain ⟨e3, l3, b3⟩ := readNat_bwd b2 h5
      cases h6
      have := asU64_asI64 (n := x) l2
      exact ⟨by rw [e1, e2, e3, write, this.1]; simp only [List.append_assoc], wire_leaf ⟨this.2, l3⟩ trivial rfl, b3⟩
    | 11, h2 =>
      obtain ⟨x, m2, h3, h4⟩ := andThen_some.mp h2
      obtain ⟨e2, l2, b2⟩ := readNat_bwd b1 h3
      obtain ⟨y, m3, h5, h6⟩ := andThen_some.mp h4
      obtain ⟨e3, l3, b3⟩ := readNat_bwd b2 h5
      obtain ⟨z, m4, h7, h8⟩ := andThen_some.mp h6
      obtain ⟨e4, l4, b4⟩ := readNat_bwd b3 h7
      obtain ⟨w, m5, h9, h10⟩ := andThen_some.mp h8
      obtain ⟨e5, l5, b5⟩ := readNat_bwd b4 h9
      cases h10
      exact ⟨by rw [e1, e2, e3, e4, e5, write]; simp only [List.append_assoc], wire_leaf ⟨l2, l3, l4, l5⟩ trivial rfl, b5⟩
    | 12, h2 =>
      obtain ⟨x, m2, h3, h4⟩ := andThen_some.mp h2
      obtain ⟨e2, l2, b2⟩ := readNat_bwd b1 h3
      obtain ⟨y, m3, h5, h6⟩ := andThen_some.mp h4
      obtain ⟨e3, l3, b3⟩ := readNat_bwd b2 h5
      obtain ⟨z, m4, h7, h8⟩ := andThen_some.mp h6
      obtain ⟨e4, l4, b4⟩ := readNat_bwd b3 h7
      obtain ⟨w, m5, h9, h10⟩ := andThen_some.mp h8
      obtain ⟨e5, l5, b5⟩ := readNat_bwd b4 h9
      cases h10
      have := asU64_asI64 (n := x) l2
      exact ⟨by rw [e1, e2, e3, e4, e5, write, this.1]; simp only [List.append_assoc],
        wire_leaf ⟨this.2, l3, l4, l5⟩ trivial rfl, b5⟩
    | 13, h2 =>
      obtain ⟨x, m2, h3, h4⟩ := andThen_some.mp h2
      obtain ⟨e2, _, l2, a2, b2⟩ := readVar_bwd b1 h3
      cases h4
      exact ⟨by rw [e1, e2, write, List.append_assoc], wire_leaf trivial ⟨l2, a2⟩ rfl, b2⟩
    | 14, h2 =>
      obtain ⟨x, m2, h3, h4⟩ := andThen_some.mp h2
      obtain ⟨e2, _, l2, a2, b2⟩ := readVar_bwd b1 h3
      cases h4
      exact ⟨by rw [e1, e2, write, List.append_assoc], wire_leaf trivial ⟨l2, a2⟩ rfl, b2⟩
    | 15, h2 =>
      obtain ⟨x, m2, h3, h4⟩ := andThen_some.mp h2
      obtain ⟨e2, l2, _, a2, b2⟩ := readVar_bwd b1 h3
      cases h4
      exact ⟨by rw [e1, e2, write, List.append_assoc], wire_leaf trivial ⟨l2, a2⟩ rfl, b2⟩
    | 16, h2 =>
      obtain ⟨o, m2, h3, h4⟩ := andThen_some.mp h2
      obtain ⟨e2, l2, b2⟩ := readOptArr_bwd (w := write) (P := Wire) (fun hb h => read_bwd hb h) b1 h3
      cases h4
      refine ⟨by rw [e1, e2, write_vec, List.append_assoc], ?_, b2⟩
      cases o with
      | none => exact wire_leaf trivial trivial rfl
      | some l => exact ⟨trivial, (l2 l rfl).1, (l2 l rfl).2⟩
    | 17, h2 =>
      obtain ⟨o, m2, h3, h4⟩ := andThen_some.mp h2
      obtain ⟨e2, l2, b2⟩ := readOptArr_bwd (w := writeEntry) (P := fun p => Wire p.1 ∧ Wire p.2) (fun {b p rest} hb h => by
        obtain ⟨x, m1, h1, h2⟩ := andThen_some.mp h
        obtain ⟨e1, w1, b1⟩ := read_bwd hb h1
        obtain ⟨y, m2, h3, h4⟩ := andThen_some.mp h2
        obtain ⟨e2, w2, b2⟩ := read_bwd b1 h3
        cases h4
        exact ⟨by rw [e1, e2, writeEntry, List.append_assoc], ⟨w1, w2⟩, b2⟩) b1 h3
      cases h4
      refine ⟨by rw [e1, e2, write_map, List.append_assoc], ?_, b2⟩
      cases o with
      | none => exact wire_leaf trivial trivial rfl
      | some l =>
        refine ⟨trivial, (l2 l rfl).1, ?_⟩
        intro x hx
        obtain ⟨p, hp, hx⟩ := List.mem_flatMap.mp hx
        have := (l2 l rfl).2 p hp
        rcases List.mem_cons.mp hx with h | h
        · rw [h]; exact this.1
        · rw [List.mem_singleton.mp h]; exact this.2
    | 18, h2 =>
      obtain ⟨x, m2, h3, h4⟩ := andThen_some.mp h2
      obtain ⟨e2, l2, b2⟩ := readAddr_bwd b1 h3
      cases h4
      exact ⟨by rw [e1, e2, write, List.append_assoc], wire_leaf trivial l2 rfl, b2⟩
    | 19, h2 => exact nomatch h2
    | 20, h2 => cases h2; exact ⟨by rw [e1, write], wire_leaf trivial trivial rfl, b1⟩
    | 21, h2 =>
      obtain ⟨n, m2, h3, h4⟩ := andThen_some.mp h2
      obtain ⟨e2, l2, b2⟩ := readNat_bwd b1 h3
      cases h4
      have := asU64_asI64 (n := n) l2
      exact ⟨by rw [e1, e2, write, List.append_assoc, this.1], wire_leaf trivial this.2 rfl, b2⟩
    | 22, h2 =>
      obtain ⟨x, m2, h3, h4⟩ := andThen_some.mp h2
      obtain ⟨e2, _, l2, a2, b2⟩ := readVar_bwd b1 h3
      cases h4
      exact ⟨by rw [e1, e2, write, List.append_assoc], wire_leaf trivial ⟨l2, a2⟩ rfl, b2⟩
    | k + 23, h2 => exact nomatch h2

/-- Different values are written differently, whatever follows. -/
theorem write_prefix {s t : ScVal} {x y : List Nat} (hs : Wire s) (ht : Wire t) (h : write s ++ x = write t ++ y) : s = t ∧ x = y := by
  have h1 := read_fwd hs (Nat.le_add_right (write s).length (write t).length) x
  have h2 := read_fwd ht (Nat.le_add_left (write t).length (write s).length) y
  rw [h, h2] at h1
  cases h1
  exact ⟨rfl, rfl⟩

theorem fromXdr_write {shallow : ScVal → Bool} {s : ScVal} (hs : Wire s) (h : shallow s = true) : fromXdr shallow (write s) = some s := by
  have h1 := read_fwd hs (Nat.le_refl _) []
  rw [List.append_nil] at h1
  rw [fromXdr, h1]
  show (if shallow s = true then some s else none) = some s
  rw [if_pos h]

theorem fromXdr_some {shallow : ScVal → Bool} {b : List Nat} {s : ScVal} (hb : AllBytes b) (h : fromXdr shallow b = some s) :
    b = write s ∧ Wire s ∧ shallow s = true := by
  unfold fromXdr at h
  cases hr : read b.length b with
  | none => rw [hr] at h; exact nomatch h
  | some p =>
    obtain ⟨t, rest⟩ := p
    rw [hr] at h
    cases rest with
    | cons x xs => exact nomatch h
    | nil =>
      by_cases hsh : shallow t = true
      · have h' : (if shallow t = true then some t else none) = some s := h
        rw [if_pos hsh] at h'
        cases h'
        obtain ⟨e, hw, _⟩ := read_bwd hb hr
        exact ⟨by rw [e, List.append_nil], hw, hsh⟩
      · have h' : (if shallow t = true then some t else none) = some s := h
        rw [if_neg hsh] at h'
        exact nomatch h'

theorem be_bytes (n v : Nat) : AllBytes (be n v) := fun x hx => beBytes_lt n v x hx

theorem bytes_append {a b : List Nat} (ha : AllBytes a) (hb : AllBytes b) : AllBytes (a ++ b) := by
  intro x hx
  rcases List.mem_append.mp hx with h | h
  · exact ha x h
  · exact hb x h

theorem writeVar_bytes {b : List Nat} (h : AllBytes b) : AllBytes (writeVar b) := by
  refine bytes_append (bytes_append (be_bytes _ _) h) ?_
  intro x hx
  rw [(List.mem_replicate.mp hx).2]
  decide

theorem writeOptArr_bytes {α : Type} {w : α → List Nat} {o : Option (List α)} (h : ∀ l, o = some l → ∀ x ∈ l, AllBytes (w x)) :
    AllBytes (writeOptArr w o) := by
  cases o with
  | none => exact be_bytes _ _
  | some l =>
    refine bytes_append (bytes_append (be_bytes _ _) (be_bytes _ _)) ?_
    intro x hx
    obtain ⟨y, hy, hx⟩ := List.mem_flatMap.mp hx
    exact h l rfl y hy x hx

/-- What is written are bytes. -/
theorem write_bytes {s : ScVal} (h : Wire s) : AllBytes (write s) := by
  induction h with
  | @mk s hi hz _ ih =>
    cases s with
    | vec o =>
      rw [write_vec]
      exact bytes_append (be_bytes _ _) (writeOptArr_bytes (fun l hl x hx => ih x (by rw [hl]; exact hx)))
    | map o =>
      rw [write_map]
      refine bytes_append (be_bytes _ _) (writeOptArr_bytes (fun l hl x hx => ?_))
      rw [hl] at ih
      exact bytes_append (ih _ (List.mem_flatMap.mpr ⟨x, hx, List.mem_cons_self⟩))
        (ih _ (List.mem_flatMap.mpr ⟨x, hx, List.mem_cons_of_mem _ List.mem_cons_self⟩))
    | bytes b => rw [write]; exact bytes_append (be_bytes _ _) (writeVar_bytes hz.2)
    | string b => rw [write]; exact bytes_append (be_bytes _ _) (writeVar_bytes hz.2)
    | symbol b => rw [write]; exact bytes_append (be_bytes _ _) (writeVar_bytes hz.2)
    | executableTag b => rw [write]; exact bytes_append (be_bytes _ _) (writeVar_bytes hz.2)
    | address a =>
      rw [write]
      refine bytes_append (be_bytes _ _) ?_
      cases a <;> simp only [writeAddr] <;> repeat' first | exact be_bytes _ _ | apply bytes_append
    | _ => rw [write]; repeat' first | exact be_bytes _ _ | apply bytes_append

/-! ### Host values -/

theorem symbolIter_sized : ∀ (f s : Nat), (symbolIter f s).length ≤ f ∧ ∀ c ∈ symbolIter f s, c < 256
  | 0, _ => ⟨Nat.le_refl _, fun c hc => (nomatch hc)⟩
  | f + 1, s => by
    have ih := symbolIter_sized f (shl64 s 6)
    unfold symbolIter
    split
    · exact ⟨Nat.zero_le _, fun c hc => (nomatch hc)⟩
    · dsimp only
      split
      · refine ⟨by rw [List.length_cons]; omega, ?_⟩
        intro c hc
        rcases List.mem_cons.mp hc with h | h
        · rw [h]; unfold decodeCode; split <;> (try split) <;> (try split) <;> (try split) <;> omega
        · exact ih.2 c h
      · exact ⟨by omega, ih.2⟩

theorem fromSmallVal_sized {v : Nat} {s : ScVal} (h : fromSmallVal v = .ok s) : SizesFit s := by
  unfold fromSmallVal at h
  split at h <;> try (cases h; done)
  all_goals first
    | (cases h; simp only [SizesFit]; done)
    | (cases h; have := symbolIter_sized 11 (Val.body v); exact ⟨by have h1 := this.1; unfold symbolChars; omega, this.2⟩)
    | (split at h <;> cases h; simp only [SizesFit]; done)

theorem fromVals_length {rec : Nat → Res ScVal} : ∀ {l : List Nat} {r : List ScVal}, fromVals rec l = .ok r → r.length = l.length
  | [], r, h => by cases h; rfl
  | v :: l, r, h => by
    obtain ⟨s, ss, _, h2, rfl⟩ := fromVals_cons h
    rw [List.length_cons, List.length_cons, fromVals_length h2]

theorem fromEntries_length {rec : Nat → Res ScVal} : ∀ {l : List (Nat × Nat)} {r : List (ScVal × ScVal)},
    fromEntries rec l = .ok r → r.length = l.length
  | [], r, h => by cases h; rfl
  | (k, v) :: l, r, h => by
    obtain ⟨s, s', ss, _, _, h2, rfl⟩ := fromEntries_cons h
    rw [List.length_cons, List.length_cons, fromEntries_length h2]

/-- The ledger value of a host value has the sizes of XDR. -/
theorem fromVal_wire {objs : List HostObj} {fs : Bool} (hobjs : ObjsOk objs) (hsz : ∀ o ∈ objs, ObjSized o) :
    ∀ {d v : Nat} {s : ScVal}, v < 2 ^ 64 → fromVal fs objs d v = .ok s → Wire s := by
  intro d
  induction d with
  | zero => intro v s _ h; simp [fromVal] at h
  | succ d ih =>
    intro v s hv h0
    obtain ⟨hi, _⟩ := fromVal_xdrOk hobjs hv h0
    have h := fromVal_succ h0
    cases ho : Val.isObject v with
    | false =>
      have h1 := tryFrom_small ho h
      exact wire_leaf hi (fromSmallVal_sized h1) (fromSmallVal_inRange hv h1).2
    | true =>
      obtain ⟨o, h1, h2⟩ := tryFrom_obj ho h
      have hm := visitObj_mem h1
      have hz := hsz o hm
      have hel : ∀ v ∈ elems o, v < 2^64 := fun v hv => ((hobjs.mem hm).2 v hv).1
      cases o <;> simp only [fromHostObj] at h2
      case vec l =>
        obtain ⟨r, hr, h⟩ := bind_ok.1 h2; cases h
        refine ⟨hi, ?_, ?_⟩
        · show r.length < 2 ^ 32
          rw [fromVals_length hr]; exact hz
        · intro x hx
          obtain ⟨w, hw, hr⟩ := fromVals_mem hr x hx
          exact ih (hel w hw) hr
      case map l =>
        obtain ⟨r, hr, h⟩ := bind_ok.1 h2; cases h
        refine ⟨hi, ?_, ?_⟩
        · show r.length < 2 ^ 32
          rw [fromEntries_length hr]; exact hz
        · intro x hx
          simp only [children, List.mem_flatMap, List.mem_cons, List.not_mem_nil, or_false] at hx
          obtain ⟨p, hp, hx⟩ := hx
          obtain ⟨q, hq, hr1, hr2⟩ := fromEntries_mem hr p hp
          rcases hx with rfl | rfl
          · exact ih (hel q.1 (by simp only [elems, List.mem_append, List.mem_map]; exact Or.inl ⟨q, hq, rfl⟩)) hr1
          · exact ih (hel q.2 (by simp only [elems, List.mem_append, List.mem_map]; exact Or.inr ⟨q, hq, rfl⟩)) hr2
      case muxedAddress =>
        split at h2 <;> cases h2
        exact wire_leaf hi hz rfl
      all_goals
        simp only [Except.ok.injEq] at h2
        subst h2
        exact wire_leaf hi (by first | exact hz | trivial) rfl

theorem canRepresentRec_of_accepted : ∀ {d : Nat} {s : ScVal}, Accepted d s → canRepresentRec s = true
  | 0, s, h => h.elim
  | d + 1, s, h => by
    cases s with
    | vec o =>
      cases o with
      | none => exact h.elim
      | some l =>
        rw [canRepresentRec]
        have key : ∀ l : List ScVal, (∀ x ∈ l, Accepted d x) → canRepresentList l = true := by
          intro l
          induction l with
          | nil => intro _; rw [canRepresentList]
          | cons x l ih =>
            intro hl
            rw [canRepresentList, canRepresentRec_of_accepted (hl x List.mem_cons_self),
              ih (fun y hy => hl y (List.mem_cons_of_mem _ hy))]; rfl
        exact key l h.2
    | map o =>
      cases o with
      | none => exact h.elim
      | some l =>
        rw [canRepresentRec]
        have key : ∀ l : List (ScVal × ScVal), (∀ x ∈ l, Accepted d x.1 ∧ Accepted d x.2) → canRepresentEntries l = true := by
          intro l
          induction l with
          | nil => intro _; rw [canRepresentEntries]
          | cons x l ih =>
            intro hl
            obtain ⟨k, v⟩ := x
            have := hl (k, v) List.mem_cons_self
            rw [canRepresentEntries, canRepresentRec_of_accepted this.1, canRepresentRec_of_accepted this.2,
              ih (fun y hy => hl y (List.mem_cons_of_mem _ hy))]; rfl
        exact key l h.2.1
    | contractInstance e m => exact h.elim
    | ledgerKeyContractInstance => exact h.elim
    | ledgerKeyNonce n => exact h.elim
    | _ => rw [canRepresentRec] <;> (intros; simp_all)

theorem wire_xdrOk {s : ScVal} (h : Wire s) : XdrOk s := by
  induction h with
  | mk hi _ _ ih => exact ⟨hi, ih⟩

theorem serialize_ok {shallow : ScVal → Bool} {d : Nat} {objs objs' : List HostObj} {v h : Nat} (hl : objs.length < 2 ^ 31)
    (hs : serialize shallow d objs v = .ok (objs', h)) : ∃ s, fromVal false objs d v = .ok s ∧ shallow s = true ∧
      (write s).length ≤ maxLen ∧ objs' = objs ++ [.bytes (write s)] ∧ Holds objs' h (write s) := by
  obtain ⟨s, h1, h2⟩ := bind_ok.mp hs
  obtain ⟨b, h3, h4⟩ := bind_ok.mp h2
  unfold toXdr at h3
  by_cases hc : (shallow s && decide ((write s).length ≤ maxLen)) = true
  · rw [if_pos hc] at h3
    cases h3
    rw [Bool.and_eq_true, decide_eq_true_eq] at hc
    exact ⟨s, h1, hc.1, hc.2, addObj_eq h4, (addObj_visit hl h4).1⟩
  · rw [if_neg hc] at h3; exact nomatch h3

theorem deserialize_ok {shallow : ScVal → Bool} {d : Nat} {objs objs' : List HostObj} {v h : Nat} {b : List Nat} (hh : Holds objs h b)
    (hb : AllBytes b) (hs : deserialize shallow d objs h = .ok (objs', v)) :
    ∃ s, b = write s ∧ Wire s ∧ shallow s = true ∧ toVal d objs s = .ok (objs', v) := by
  obtain ⟨b', h1, h2⟩ := bind_ok.mp hs
  unfold visitBytes at h1
  rw [show visitObj objs h = _ from hh] at h1
  cases h1
  cases hx : fromXdr shallow b with
  | none => rw [hx] at h2; exact nomatch h2
  | some s =>
    rw [hx] at h2
    obtain ⟨e, hw, hsh⟩ := fromXdr_some hb hx
    by_cases hc : canRepresentRec s = true
    · have h3 : (if canRepresentRec s = true then toVal d objs s else .error (.host .value .unexpectedType)) = .ok (objs', v) := h2
      rw [if_pos hc] at h3
      exact ⟨s, e, hw, hsh, h3⟩
    · have h3 : (if canRepresentRec s = true then toVal d objs s else .error (.host .value .unexpectedType)) = .ok (objs', v) := h2
      rw [if_neg hc] at h3; exact nomatch h3

theorem deserialize_eq {shallow : ScVal → Bool} {d d' : Nat} {objs : List HostObj} {h : Nat} {s : ScVal} (hh : Holds objs h (write s))
    (hw : Wire s) (hsh : shallow s = true) (ha : Accepted d' s) : deserialize shallow d objs h = toVal d objs s := by
  unfold deserialize visitBytes
  rw [show visitObj objs h = _ from hh]
  show (match fromXdr shallow (write s) with
    | none => Except.error xdrError
    | some s => if canRepresentRec s then toVal d objs s else .error (.host .value .unexpectedType)) = _
  rw [fromXdr_write hw hsh]
  show (if canRepresentRec s = true then toVal d objs s else .error (.host .value .unexpectedType)) = _
  rw [if_pos (canRepresentRec_of_accepted ha)]

end Soroban.Xdr
