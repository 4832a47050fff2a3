import Verif.Lemmas.Collections
/-!
Proofs about the metering of collections: accounts.
-/
namespace Soroban.Coll
open Soroban.Budget (B)
open Soroban.Coll.Spec

/-- The balance of a log: what was paid for memory copies, less what was read and copied. -/
def bal (l : List Ev) : Int := (paidFor 2 l : Int) - readBytes l - copiedBytes l

theorem bal_append (a b : List Ev) : bal (a ++ b) = bal a + bal b := by
  unfold bal
  rw [paidFor_append, readBytes_append, copiedBytes_append]
  push_cast
  omega

/-- From a credit `c` to a credit `c'`, at no moment more than `k` below zero. -/
def Acct {α : Type} (k : Nat) (c c' : Int) (op : Op α) : Prop :=
  ∀ m, ∃ new, (op m).1.log = new ++ m.log ∧ (∀ t, t <:+ new → 0 ≤ bal t + c + k) ∧
    match (op m).2 with
    | .ok _ => c' ≤ bal new + c
    | .error e => Refusal e ∨ 0 ≤ bal new + c

section
variable {α β : Type} {k : Nat} {c c' d : Int}

theorem suffix_nil {t : List Ev} (h : t <:+ []) : t = [] := by
  obtain ⟨p, hp⟩ := h
  exact (List.append_eq_nil_iff.mp hp).2

theorem suffix_one {t : List Ev} {e : Ev} (h : t <:+ [e]) : t = [] ∨ t = [e] := by
  obtain ⟨p, hp⟩ := h
  cases p with
  | nil => exact .inr hp
  | cons x p =>
    rw [List.cons_append] at hp
    injection hp with _ hp
    exact .inl (List.append_eq_nil_iff.mp hp).2

theorem acct_ret (a : α) (h : c' ≤ c) (h0 : 0 ≤ c + k) : Acct k c c' (.ret a) := by
  intro m
  refine ⟨[], rfl, ?_, ?_⟩
  · intro t ht
    rw [suffix_nil ht]
    show 0 ≤ (0 : Int) + c + k
    omega
  · show c' ≤ (0 : Int) + c
    omega

theorem acct_fail (e : Err) (h : 0 ≤ c) : Acct k c c' (.fail e : Op α) := by
  intro m
  refine ⟨[], rfl, ?_, ?_⟩
  · intro t ht
    rw [suffix_nil ht]
    show 0 ≤ (0 : Int) + c + k
    omega
  · right
    show 0 ≤ (0 : Int) + c
    omega

theorem acct_bind {x : Op α} {f : α → Op β} (hx : Acct k c d x) (hf : ∀ a, Acct k d c' (f a)) : Acct k c c' (x >>= f) := by
  intro m
  obtain ⟨n1, h1, h2, h3⟩ := hx m
  show ∃ new, (Op.andThen x f m).1.log = _ ∧ _ ∧ (match (Op.andThen x f m).2 with | .ok _ => _ | .error e => _)
  unfold Op.andThen
  rcases hc : x m with ⟨m', q⟩
  rw [hc] at h1 h3
  cases q with
  | error e => exact ⟨n1, h1, h2, h3⟩
  | ok a =>
    obtain ⟨n2, g1, g2, g3⟩ := hf a m'
    dsimp only at h1 h3 ⊢
    refine ⟨n2 ++ n1, by rw [g1, h1, List.append_assoc], ?_, ?_⟩
    · intro t ht
      rcases suffix_append_cases ht with h5 | ⟨t', h5, rfl⟩
      · exact h2 t h5
      · have := g2 t' h5
        rw [bal_append]
        omega
    · rw [bal_append]
      cases hr : (f a m').2 with
      | ok b => rw [hr] at g3; dsimp only at g3 ⊢; omega
      | error e =>
        rw [hr] at g3
        dsimp only at g3 ⊢
        rcases g3 with g3 | g3
        · exact .inl g3
        · exact .inr (by omega)

theorem acct_lift {f : B → B × Res α} (h : c' ≤ c) (h0 : 0 ≤ c) : Acct k c c' (lift f) := by
  intro m
  refine ⟨[], rfl, ?_, ?_⟩
  · intro t ht
    rw [suffix_nil ht]
    show 0 ≤ (0 : Int) + c + k
    omega
  · show (match (f m.b).2 with | .ok _ => c' ≤ (0 : Int) + c | .error e => Refusal e ∨ 0 ≤ (0 : Int) + c)
    cases (f m.b).2 with
    | ok a => dsimp only; omega
    | error e => right; omega

/-- A charge: what is given counts if it is for memory copies. -/
theorem acct_charge {ty n : Nat} (h : c' ≤ c + (if ty = 2 then n else 0 : Nat)) (h0 : 0 ≤ c + k) : Acct k c c' (charge ty n) := by
  intro m
  unfold charge
  rcases hc : m.b.charge ty 1 (some n) with ⟨b, r⟩
  have hb : bal [.paid ty n] = ((if ty = 2 then n else 0 : Nat) : Int) := by
    unfold bal
    simp only [paidFor, readBytes, copiedBytes]
    push_cast
    omega
  cases r with
  | ok u =>
    refine ⟨[.paid ty n], rfl, ?_, ?_⟩
    · intro t ht
      rcases suffix_one ht with rfl | rfl
      · show 0 ≤ (0 : Int) + c + k
        omega
      · rw [hb]; omega
    · dsimp only
      rw [hb]; omega
  | error e =>
    refine ⟨[], rfl, ?_, .inl (charge_refusal (by rw [hc]))⟩
    intro t ht
    rw [suffix_nil ht]
    show 0 ≤ (0 : Int) + c + k
    omega

theorem acct_look {n : Nat} (h : c' ≤ c - n) (h0 : 0 ≤ c - n + k) : Acct k c c' (look n) := by
  intro m
  have hb : bal [.read n] = -(n : Int) := by
    unfold bal
    simp only [paidFor, readBytes, copiedBytes]
    push_cast
    omega
  refine ⟨[.read n], rfl, ?_, ?_⟩
  · intro t ht
    rcases suffix_one ht with rfl | rfl
    · show 0 ≤ (0 : Int) + c + k
      omega
    · rw [hb]; omega
  · show c' ≤ bal _ + c
    rw [hb]; omega

theorem acct_copy {n : Nat} (h : c' ≤ c - n) (h0 : 0 ≤ c - n + k) : Acct k c c' (copy n) := by
  intro m
  have hb : bal [.copied n] = -(n : Int) := by
    unfold bal
    simp only [paidFor, readBytes, copiedBytes]
    push_cast
    omega
  refine ⟨[.copied n], rfl, ?_, ?_⟩
  · intro t ht
    rcases suffix_one ht with rfl | rfl
    · show 0 ≤ (0 : Int) + c + k
      omega
    · rw [hb]; omega
  · show c' ≤ bal _ + c
    rw [hb]; omega

theorem acct_void {op : Op α} (h : Acct k c c' op) : Acct k c c' (void op) := by
  intro m
  obtain ⟨new, h1, h2, h3⟩ := h m
  refine ⟨new, h1, h2, ?_⟩
  unfold void
  dsimp only
  cases hr : (op m).2 with
  | ok a => rw [hr] at h3; exact h3
  | error e => rw [hr] at h3; exact h3

theorem acct_mono {op : Op α} {k' : Nat} (h : Acct k c c' op) (hk : k ≤ k') : Acct k' c c' op := by
  intro m
  obtain ⟨new, h1, h2, h3⟩ := h m
  exact ⟨new, h1, fun t ht => by have := h2 t ht; omega, h3⟩

end

/-! ### parts of operations -/
section
variable {α : Type} {k : Nat} {c c' d : Int}

theorem sat_mul {a b : Nat} (h : a * b ≤ u64Max) : satMulU64 a b = a * b := by
  rw [Budget.satMulU64_eq]
  exact Nat.min_eq_right h

theorem mul_fits {size n : Nat} (hs : size < 2 ^ 31) (hn : n ≤ u32Max + 1) : size * n ≤ u64Max := by
  have h1 : size * n ≤ (2 ^ 31) * (u32Max + 1) := Nat.mul_le_mul (by omega) hn
  have h2 : (2 ^ 31) * (u32Max + 1) ≤ u64Max := by decide
  exact Nat.le_trans h1 h2

theorem acct_cpy {n : Nat} (h : c' ≤ c + n) (h0 : 0 ≤ c + k) : Acct k c c' (charge memCpy n) :=
  acct_charge (by rw [if_pos (show memCpy = 2 from rfl)]; exact h) h0

theorem acct_other {ty n : Nat} (ht : ty ≠ 2) (h : c' ≤ c) (h0 : 0 ≤ c + k) : Acct k c c' (charge ty n) :=
  acct_charge (by rw [if_neg ht]; omega) h0

theorem acct_deepClone {E : Elt α} {xs : List α} (hs : E.size * xs.length ≤ u64Max) (h : c' ≤ c + (E.size * xs.length : Nat)) (h0 : 0 ≤ c + k)
    (h1 : 0 ≤ c + (E.size * xs.length : Nat)) : Acct k c c' (deepClone E xs) := by
  unfold deepClone
  have e1 : satMulU64 1 24 = 24 := by decide
  have e2 : satMulU64 xs.length E.size = E.size * xs.length := by
    rw [sat_mul (by rw [Nat.mul_comm]; exact hs), Nat.mul_comm]
  rw [e1, e2]
  refine acct_bind (d := c) (acct_cpy (by omega) h0) fun _ => ?_
  refine acct_bind (d := c) (acct_other (by decide) (Int.le_refl _) h0) fun _ => ?_
  refine acct_bind (d := c + (E.size * xs.length : Nat)) (acct_cpy (by omega) h0) fun _ => ?_
  exact acct_lift h h1

theorem acct_access {size n : Nat} (hs : size * n ≤ u64Max) (h : c' ≤ c + (size * n : Nat)) (h0 : 0 ≤ c + k) :
    Acct k c c' (chargeAccess size n) := by
  unfold chargeAccess
  rw [sat_mul hs]
  exact acct_cpy h h0

theorem acct_scan {size n : Nat} (hs : size * n ≤ u64Max) (h : c' ≤ c + (size * n : Nat)) (h0 : 0 ≤ c + k) :
    Acct k c c' (chargeScan size n) := by
  unfold chargeScan
  rw [sat_mul hs]
  exact acct_cpy h h0

theorem acct_searchLoop {size : Nat} {xs : List α} {f : α → B → B × Res Ordering} : ∀ (n left right : Nat) (c c' : Int), right - left < 2 ^ n →
    c' ≤ c - (size * n : Nat) → 0 ≤ c - (size * n : Nat) → Acct k c c' (searchLoop size xs f left right) := by
  intro n
  induction n with
  | zero =>
    intro left right c c' hn h h0
    rw [searchLoop, dif_neg (by omega)]
    exact acct_ret _ (by omega) (by omega)
  | succ n ih =>
    intro left right c c' hn h h0
    rw [Nat.pow_succ] at hn
    have hm : size * (n + 1) = size * n + size := Nat.mul_succ size n
    rw [hm] at h h0
    rw [searchLoop]
    by_cases hlr : left < right
    · rw [dif_pos hlr]
      dsimp only
      cases xs[left + (right - left) / 2]? with
      | none => exact acct_fail _ (by omega)
      | some x =>
        dsimp only
        refine acct_bind (d := c - size) (acct_look (by omega) (by omega)) fun _ => ?_
        refine acct_bind (d := c - size) (acct_lift (by omega) (by omega)) fun o => ?_
        cases o with
        | lt => exact ih _ _ _ _ (by omega) (by omega) (by omega)
        | gt => exact ih _ _ _ _ (by omega) (by omega) (by omega)
        | eq => exact acct_ret _ (by omega) (by omega)
    · rw [dif_neg hlr]
      exact acct_ret _ (by omega) (by omega)

theorem lt_bits (n : Nat) : n < 2 ^ bits n := by
  unfold bits
  split
  · next h => subst h; decide
  · exact Nat.lt_log2_self

theorem bits_le {n : Nat} (h : n ≤ u32Max) : bits n ≤ 32 := by
  unfold bits
  split
  · omega
  · next h0 =>
    have : n.log2 < 32 := (Nat.log2_lt h0).mpr (by unfold u32Max at h; omega)
    omega

theorem acct_search {size : Nat} {xs : List α} {f : α → B → B × Res Ordering} (hs : size < 2 ^ 31) (hl : xs.length ≤ u32Max)
    (h : c' ≤ c + size) (h0 : 0 ≤ c) : Acct k c c' (search size xs f) := by
  have hb := bits_le hl
  have e : satAddU32 (bits xs.length) 1 = bits xs.length + 1 := by
    unfold satAddU32 u32Max
    split <;> omega
  unfold search chargeBinsearch
  rw [e, sat_mul (mul_fits hs (by unfold u32Max; omega))]
  have hm : size * (bits xs.length + 1) = size * bits xs.length + size := Nat.mul_succ _ _
  refine acct_bind (d := c + (size * (bits xs.length + 1) : Nat)) (acct_cpy (by omega) (by omega)) fun _ => ?_
  exact acct_searchLoop (bits xs.length) _ _ _ _ (by have := lt_bits xs.length; omega) (by omega) (by omega)

theorem acct_cmpLoop {size : Nat} {cmp : α → α → B → B × Res Ordering} : ∀ (as bs : List α) (c c' : Int),
    c' ≤ c - (size * min as.length bs.length : Nat) → 0 ≤ c - (size * min as.length bs.length : Nat) → Acct k c c' (cmpLoop size cmp as bs) := by
  intro as
  induction as with
  | nil => intro bs c c' h h0; cases bs <;> exact acct_ret _ (by omega) (by omega)
  | cons a as ih =>
    intro bs c c' h h0
    cases bs with
    | nil => exact acct_ret _ (by omega) (by omega)
    | cons b bs =>
      rw [List.length_cons, List.length_cons, show min (as.length + 1) (bs.length + 1) = min as.length bs.length + 1 by omega,
        Nat.mul_succ] at h h0
      rw [cmpLoop]
      refine acct_bind (d := c - size) (acct_look (by omega) (by omega)) fun _ => ?_
      refine acct_bind (d := c - size) (acct_lift (by omega) (by omega)) fun o => ?_
      cases o with
      | eq => exact ih _ _ _ (by omega) (by omega)
      | lt => exact acct_ret _ (by omega) (by omega)
      | gt => exact acct_ret _ (by omega) (by omega)

theorem acct_firstLoop {size : Nat} {f : α → B → B × Res Ordering} : ∀ (xs : List α) (i : Nat) (c c' : Int),
    c' ≤ c - (size * xs.length : Nat) → 0 ≤ c - (size * xs.length : Nat) → Acct k c c' (firstLoop size f i xs) := by
  intro xs
  induction xs with
  | nil => intro i c c' h h0; exact acct_ret _ (by omega) (by omega)
  | cons x xs ih =>
    intro i c c' h h0
    rw [List.length_cons, Nat.mul_succ] at h h0
    rw [firstLoop]
    refine acct_bind (d := c - size) (acct_look (by omega) (by omega)) fun _ => ?_
    refine acct_bind (d := c - size) (acct_lift (by omega) (by omega)) fun o => ?_
    split
    · exact acct_ret _ (by omega) (by omega)
    · exact ih _ _ _ (by omega) (by omega)

theorem acct_lastLoop {size : Nat} {f : α → B → B × Res Ordering} : ∀ (xs : List α) (c c' : Int),
    c' ≤ c - (size * xs.length : Nat) → 0 ≤ c - (size * xs.length : Nat) → Acct k c c' (lastLoop size f xs) := by
  intro xs
  induction xs with
  | nil => intro c c' h h0; exact acct_ret _ (by omega) (by omega)
  | cons x xs ih =>
    intro c c' h h0
    rw [List.length_cons, Nat.mul_succ] at h h0
    rw [lastLoop]
    refine acct_bind (d := c - size) (acct_look (by omega) (by omega)) fun _ => ?_
    refine acct_bind (d := c - size) (acct_lift (by omega) (by omega)) fun o => ?_
    split
    · exact acct_ret _ (by omega) (by omega)
    · exact ih _ _ (by omega) (by omega)

theorem acct_lookAll {size : Nat} : ∀ (xs : List α) (c c' : Int),
    c' ≤ c - (size * xs.length : Nat) → 0 ≤ c - (size * xs.length : Nat) → Acct k c c' (lookAll size xs) := by
  intro xs
  induction xs with
  | nil => intro c c' h h0; exact acct_ret _ (by omega) (by omega)
  | cons x xs ih =>
    intro c c' h h0
    rw [List.length_cons, Nat.mul_succ] at h h0
    exact acct_bind (d := c - size) (acct_look (by omega) (by omega)) fun _ => ih _ _ (by omega) (by omega)

theorem acct_sortedLoop {K V : Type} {cmp : K → K → B → B × Res Ordering} {size : Nat} : ∀ (m : List (K × V)) (c c' : Int),
    c' ≤ c - (size * m.length : Nat) → 0 ≤ c - (size * m.length : Nat) → Acct k c c' (sortedLoop cmp size m) := by
  intro m
  induction m with
  | nil => intro c c' h h0; exact acct_ret _ (by omega) (by omega)
  | cons a m ih =>
    intro c c' h h0
    rw [List.length_cons, Nat.mul_succ] at h h0
    cases m with
    | nil => exact acct_ret _ (by omega) (by omega)
    | cons b m =>
      rw [sortedLoop]
      refine acct_bind (d := c - size) (acct_look (by omega) (by omega)) fun _ => ?_
      refine acct_bind (d := c - size) (acct_lift (by omega) (by omega)) fun o => ?_
      cases o with
      | lt => exact ih _ _ (by omega) (by omega)
      | eq => exact acct_fail _ (by omega)
      | gt => exact acct_fail _ (by omega)

/-! ### new collections -/

theorem acct_vecOfIter {E : Elt α} {xs : List α} (hs : E.size < 2 ^ 31) (hk : E.size * xs.length ≤ k) (h : c' ≤ c) (h0 : 0 ≤ c) :
    Acct k c c' (vecOfIter E xs) := by
  unfold vecOfIter
  split
  · exact acct_fail _ h0
  · next hl =>
    refine acct_bind (d := c - (E.size * xs.length : Nat)) (acct_copy (by omega) (by omega)) fun _ => ?_
    refine acct_bind (d := c) (acct_deepClone (mul_fits hs (by omega)) (by omega) (by omega) (by omega)) fun _ => ?_
    unfold fromVec
    rw [if_neg hl]
    exact acct_ret _ h (by omega)

theorem acct_fromMap {K V : Type} {E : Elt (K × V)} {cmp : K → K → B → B × Res Ordering} {m : List (K × V)} (hs : E.size < 2 ^ 31) (h : c' ≤ c)
    (h0 : 0 ≤ c) : Acct k c c' (fromMap E cmp m) := by
  unfold fromMap
  split
  · exact acct_fail _ h0
  · refine acct_bind (d := c + (E.size * m.length : Nat)) (acct_scan (mul_fits hs (by omega)) (by omega) (by omega)) fun _ => ?_
    refine acct_bind (d := c) (acct_sortedLoop _ _ _ (by omega) (by omega)) fun _ => ?_
    exact acct_ret _ h (by omega)

theorem acct_mapOfIter {K V : Type} {E : Elt (K × V)} {cmp : K → K → B → B × Res Ordering} {m : List (K × V)} (hs : E.size < 2 ^ 31)
    (hk : E.size * m.length ≤ k) (h : c' ≤ c) (h0 : 0 ≤ c) : Acct k c c' (mapOfIter E cmp m) := by
  unfold mapOfIter
  split
  · exact acct_fail _ h0
  · next hl =>
    refine acct_bind (d := c - (E.size * m.length : Nat)) (acct_copy (by omega) (by omega)) fun _ => ?_
    refine acct_bind (d := c) (acct_deepClone (mul_fits hs (by omega)) (by omega) (by omega) (by omega)) fun _ => ?_
    exact acct_fromMap hs h h0

end
end Soroban.Coll
