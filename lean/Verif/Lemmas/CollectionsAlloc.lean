import Verif.Lemmas.CollectionsPaid
/-!
Proofs about the metering of collections: allocations, and the operations as a whole.
-/
namespace Soroban.Coll
open Soroban.Budget (B)
open Soroban.Coll.Spec

/-- What was paid for allocations, less what was copied. -/
def bal2 (l : List Ev) : Int := (paidFor 1 l : Int) - copiedBytes l

theorem bal2_append (a b : List Ev) : bal2 (a ++ b) = bal2 a + bal2 b := by
  unfold bal2
  rw [paidFor_append, copiedBytes_append]
  push_cast
  omega

/-- From a credit `c` to a credit `c'`. -/
def Acct2 {α : Type} (c c' : Int) (op : Op α) : Prop :=
  ∀ m, ∃ new, (op m).1.log = new ++ m.log ∧
    match (op m).2 with
    | .ok _ => c' ≤ bal2 new + c
    | .error e => Refusal e ∨ 0 ≤ bal2 new + c

section
variable {α β : Type} {c c' d : Int}

theorem acct2_ret (a : α) (h : c' ≤ c) : Acct2 c c' (.ret a) := fun m => ⟨[], rfl, by show c' ≤ (0 : Int) + c; omega⟩

theorem acct2_fail (e : Err) (h : 0 ≤ c) : Acct2 c c' (.fail e : Op α) := fun m => ⟨[], rfl, .inr (by show 0 ≤ (0 : Int) + c; omega)⟩

theorem acct2_bind {x : Op α} {f : α → Op β} (hx : Acct2 c d x) (hf : ∀ a, Acct2 d c' (f a)) : Acct2 c c' (x >>= f) := by
  intro m
  obtain ⟨n1, h1, h3⟩ := hx m
  show ∃ new, (Op.andThen x f m).1.log = _ ∧ (match (Op.andThen x f m).2 with | .ok _ => _ | .error e => _)
  unfold Op.andThen
  rcases hc : x m with ⟨m', q⟩
  rw [hc] at h1 h3
  cases q with
  | error e => exact ⟨n1, h1, h3⟩
  | ok a =>
    obtain ⟨n2, g1, g3⟩ := hf a m'
    dsimp only at h1 h3 ⊢
    refine ⟨n2 ++ n1, by rw [g1, h1, List.append_assoc], ?_⟩
    rw [bal2_append]
    cases hr : (f a m').2 with
    | ok b => rw [hr] at g3; dsimp only at g3 ⊢; omega
    | error e =>
      rw [hr] at g3
      dsimp only at g3 ⊢
      rcases g3 with g3 | g3
      · exact .inl g3
      · exact .inr (by omega)

theorem acct2_lift {f : B → B × Res α} (h : c' ≤ c) (h0 : 0 ≤ c) : Acct2 c c' (lift f) := by
  intro m
  refine ⟨[], rfl, ?_⟩
  show (match (f m.b).2 with | .ok _ => c' ≤ (0 : Int) + c | .error e => Refusal e ∨ 0 ≤ (0 : Int) + c)
  cases (f m.b).2 with
  | ok a => dsimp only; omega
  | error e => right; omega

theorem acct2_charge {ty n : Nat} (h : c' ≤ c + (if ty = 1 then n else 0 : Nat)) : Acct2 c c' (charge ty n) := by
  intro m
  unfold charge
  rcases hc : m.b.charge ty 1 (some n) with ⟨b, r⟩
  cases r with
  | ok u =>
    refine ⟨[.paid ty n], rfl, ?_⟩
    have hb : bal2 [.paid ty n] = ((if ty = 1 then n else 0 : Nat) : Int) := by
      unfold bal2
      simp only [paidFor, copiedBytes]
      push_cast
      omega
    dsimp only
    rw [hb]; omega
  | error e => exact ⟨[], rfl, .inl (charge_refusal (by rw [hc]))⟩

theorem acct2_any (ty n : Nat) (h : c' ≤ c) : Acct2 c c' (charge ty n) := acct2_charge (by omega)

theorem acct2_look {n : Nat} (h : c' ≤ c) : Acct2 c c' (look n) :=
  fun m => ⟨[.read n], rfl, by show c' ≤ (0 : Int) + c; omega⟩

theorem acct2_copy {n : Nat} (h : c' ≤ c - n) : Acct2 c c' (copy n) := by
  intro m
  refine ⟨[.copied n], rfl, ?_⟩
  have hb : bal2 [.copied n] = -(n : Int) := by
    unfold bal2
    simp only [paidFor, copiedBytes]
    push_cast
    omega
  show c' ≤ bal2 _ + c
  rw [hb]; omega

theorem acct2_void {op : Op α} (h : Acct2 c c' op) : Acct2 c c' (void op) := by
  intro m
  obtain ⟨new, h1, h3⟩ := h m
  refine ⟨new, h1, ?_⟩
  unfold void
  dsimp only
  cases hr : (op m).2 with
  | ok a => rw [hr] at h3; exact h3
  | error e => rw [hr] at h3; exact h3

theorem acct2_deepClone {E : Elt α} {xs : List α} (hs : E.size * xs.length ≤ u64Max) (h : c' ≤ c + (E.size * xs.length : Nat))
    (h1 : 0 ≤ c + (E.size * xs.length : Nat)) : Acct2 c c' (deepClone E xs) := by
  unfold deepClone
  have e2 : satMulU64 xs.length E.size = E.size * xs.length := by
    rw [sat_mul (by rw [Nat.mul_comm]; exact hs), Nat.mul_comm]
  rw [e2]
  refine acct2_bind (d := c) (acct2_any _ _ (Int.le_refl _)) fun _ => ?_
  refine acct2_bind (d := c + (E.size * xs.length : Nat)) (acct2_charge (by rw [if_pos (show memAlloc = 1 from rfl)]; omega)) fun _ => ?_
  refine acct2_bind (d := c + (E.size * xs.length : Nat)) (acct2_any _ _ (Int.le_refl _)) fun _ => ?_
  exact acct2_lift h h1

theorem acct2_searchLoop {size : Nat} {xs : List α} {f : α → B → B × Res Ordering} (h0 : 0 ≤ c) : ∀ (n left right : Nat), right - left ≤ n →
    Acct2 c c (searchLoop size xs f left right) := by
  intro n
  induction n with
  | zero =>
    intro left right hn
    rw [searchLoop, dif_neg (by omega)]
    exact acct2_ret _ (Int.le_refl _)
  | succ n ih =>
    intro left right hn
    rw [searchLoop]
    by_cases hlr : left < right
    · rw [dif_pos hlr]
      dsimp only
      cases xs[left + (right - left) / 2]? with
      | none => exact acct2_fail _ h0
      | some x =>
        dsimp only
        refine acct2_bind (acct2_look (Int.le_refl _)) fun _ => acct2_bind (acct2_lift (Int.le_refl _) h0) fun o => ?_
        cases o with
        | lt => exact ih _ _ (by omega)
        | gt => exact ih _ _ (by omega)
        | eq => exact acct2_ret _ (Int.le_refl _)
    · rw [dif_neg hlr]
      exact acct2_ret _ (Int.le_refl _)

theorem acct2_search {size : Nat} {xs : List α} {f : α → B → B × Res Ordering} (h0 : 0 ≤ c) : Acct2 c c (search size xs f) :=
  acct2_bind (acct2_any _ _ (Int.le_refl _)) fun _ => acct2_searchLoop h0 _ _ _ (Nat.le_refl _)

theorem acct2_cmpLoop {size : Nat} {cmp : α → α → B → B × Res Ordering} (h0 : 0 ≤ c) : ∀ as bs : List α, Acct2 c c (cmpLoop size cmp as bs) := by
  intro as
  induction as with
  | nil => intro bs; cases bs <;> exact acct2_ret _ (Int.le_refl _)
  | cons a as ih =>
    intro bs
    cases bs with
    | nil => exact acct2_ret _ (Int.le_refl _)
    | cons b bs =>
      rw [cmpLoop]
      refine acct2_bind (acct2_look (Int.le_refl _)) fun _ => acct2_bind (acct2_lift (Int.le_refl _) h0) fun o => ?_
      cases o with
      | eq => exact ih _
      | lt => exact acct2_ret _ (Int.le_refl _)
      | gt => exact acct2_ret _ (Int.le_refl _)

theorem acct2_firstLoop {size : Nat} {f : α → B → B × Res Ordering} (h0 : 0 ≤ c) : ∀ (xs : List α) (i : Nat), Acct2 c c (firstLoop size f i xs) := by
  intro xs
  induction xs with
  | nil => intro i; exact acct2_ret _ (Int.le_refl _)
  | cons x xs ih =>
    intro i
    rw [firstLoop]
    refine acct2_bind (acct2_look (Int.le_refl _)) fun _ => acct2_bind (acct2_lift (Int.le_refl _) h0) fun o => ?_
    split
    · exact acct2_ret _ (Int.le_refl _)
    · exact ih _

theorem acct2_lastLoop {size : Nat} {f : α → B → B × Res Ordering} (h0 : 0 ≤ c) : ∀ xs : List α, Acct2 c c (lastLoop size f xs) := by
  intro xs
  induction xs with
  | nil => exact acct2_ret _ (Int.le_refl _)
  | cons x xs ih =>
    rw [lastLoop]
    refine acct2_bind (acct2_look (Int.le_refl _)) fun _ => acct2_bind (acct2_lift (Int.le_refl _) h0) fun o => ?_
    split
    · exact acct2_ret _ (Int.le_refl _)
    · exact ih

theorem acct2_lookAll {size : Nat} : ∀ xs : List α, Acct2 c c (lookAll size xs)
  | [] => acct2_ret _ (Int.le_refl _)
  | _ :: xs => acct2_bind (acct2_look (Int.le_refl _)) fun _ => acct2_lookAll xs

theorem acct2_sortedLoop {K V : Type} {cmp : K → K → B → B × Res Ordering} {size : Nat} (h0 : 0 ≤ c) :
    ∀ m : List (K × V), Acct2 c c (sortedLoop cmp size m) := by
  intro m
  induction m with
  | nil => exact acct2_ret _ (Int.le_refl _)
  | cons a m ih =>
    cases m with
    | nil => exact acct2_ret _ (Int.le_refl _)
    | cons b m =>
      rw [sortedLoop]
      refine acct2_bind (acct2_look (Int.le_refl _)) fun _ => acct2_bind (acct2_lift (Int.le_refl _) h0) fun o => ?_
      cases o with
      | lt => exact ih
      | eq => exact acct2_fail _ h0
      | gt => exact acct2_fail _ h0

theorem acct2_vecOfIter {E : Elt α} {xs : List α} (hs : E.size < 2 ^ 31) (h0 : 0 ≤ c) : Acct2 c c (vecOfIter E xs) := by
  unfold vecOfIter
  split
  · exact acct2_fail _ h0
  · next hl =>
    refine acct2_bind (d := c - (E.size * xs.length : Nat)) (acct2_copy (by omega)) fun _ => ?_
    refine acct2_bind (d := c) (acct2_deepClone (mul_fits hs (by omega)) (by omega) (by omega)) fun _ => ?_
    unfold fromVec
    rw [if_neg hl]
    exact acct2_ret _ (Int.le_refl _)

theorem acct2_fromMap {K V : Type} {E : Elt (K × V)} {cmp : K → K → B → B × Res Ordering} {m : List (K × V)}
    (h0 : 0 ≤ c) : Acct2 c c (fromMap E cmp m) := by
  unfold fromMap
  split
  · exact acct2_fail _ h0
  · exact acct2_bind (acct2_any _ _ (Int.le_refl _)) fun _ => acct2_bind (acct2_sortedLoop h0 _) fun _ => acct2_ret _ (Int.le_refl _)

theorem acct2_mapOfIter {K V : Type} {E : Elt (K × V)} {cmp : K → K → B → B × Res Ordering} {m : List (K × V)} (hs : E.size < 2 ^ 31)
    (h0 : 0 ≤ c) : Acct2 c c (mapOfIter E cmp m) := by
  unfold mapOfIter
  split
  · exact acct2_fail _ h0
  · next hl =>
    refine acct2_bind (d := c - (E.size * m.length : Nat)) (acct2_copy (by omega)) fun _ => ?_
    refine acct2_bind (d := c) (acct2_deepClone (mul_fits hs (by omega)) (by omega) (by omega)) fun _ => ?_
    exact acct2_fromMap h0

end

/-! ### operations -/

/-- A step that charges for one element and looks at it. -/
theorem acct_one {α : Type} {k size : Nat} {f : Op α} (hs : size < 2 ^ 31) (hf : Acct k 0 0 f) :
    Acct k 0 0 (chargeAccess size 1 >>= fun _ => look size >>= fun _ => f) := by
  have h1 : size * 1 ≤ u64Max := mul_fits hs (by decide)
  exact acct_bind (d := size) (acct_access h1 (by omega) (by omega)) fun _ =>
    acct_bind (d := 0) (acct_look (by omega) (by omega)) fun _ => hf

theorem acct2_one {α : Type} {size : Nat} {f : Op α} (hf : Acct2 0 0 f) :
    Acct2 0 0 (chargeAccess size 1 >>= fun _ => look size >>= fun _ => f) :=
  acct2_bind (acct2_any _ _ (Int.le_refl _)) fun _ => acct2_bind (acct2_look (Int.le_refl _)) fun _ => hf

theorem acct_vecCmd {A : Type} {E : Elt A} (hs : E.size < 2 ^ 31) (cmd : VecCmd A) (hl : ∀ v ∈ cmd.inputs, v.length ≤ u32Max) :
    Acct (E.size * cmd.ahead) 0 0 (cmd.run E) := by
  have z : (0 : Int) ≤ 0 := Int.le_refl 0
  cases cmd with
  | ofIter xs => exact acct_void (acct_vecOfIter hs (Nat.le_refl _) z z)
  | set v i x =>
    have hv := hl v (List.mem_cons_self ..)
    refine acct_void (acct_bind (d := (E.size * v.length : Nat)) (acct_deepClone (mul_fits hs (by omega)) (by omega) (by omega) (by omega))
      fun _ => acct_bind (d := 0) (acct_copy (by omega) (by omega)) fun _ => acct_one hs ?_)
    split
    · exact acct_ret _ z (by omega)
    · exact acct_fail _ z
  | get v i =>
    refine acct_void (acct_one hs ?_)
    cases v[i]? with
    | some x => exact acct_ret _ z (by omega)
    | none => exact acct_fail _ z
  | pushFront v x =>
    refine acct_void ?_
    unfold pushFront
    split
    · exact acct_fail _ z
    · exact acct_vecOfIter hs (Nat.le_refl _) z z
  | popFront v =>
    refine acct_void ?_
    unfold popFront
    split
    · exact acct_fail _ z
    · exact acct_vecOfIter hs (Nat.mul_le_mul_left _ (by rw [List.length_drop]; exact Nat.sub_le _ _)) z z
  | pushBack v x =>
    refine acct_void ?_
    unfold pushBack
    split
    · exact acct_fail _ z
    · exact acct_vecOfIter hs (Nat.mul_le_mul_left _ (by rw [List.length_append]; exact Nat.le_refl _)) z z
  | popBack v =>
    refine acct_void ?_
    unfold popBack
    split
    · exact acct_fail _ z
    · exact acct_vecOfIter hs (Nat.mul_le_mul_left _ (by rw [List.length_take]; exact Nat.min_le_right _ _)) z z
  | remove v i =>
    refine acct_void ?_
    unfold vremove
    split
    · exact acct_fail _ z
    · unfold addOrErr
      split
      · exact acct_fail _ z
      · next heq =>
        split at heq
        · cases heq
        · cases heq
          refine acct_vecOfIter hs (Nat.mul_le_mul_left _ ?_) z z
          rw [List.length_append, List.length_take, List.length_drop]
          show _ ≤ v.length
          omega
  | front v =>
    refine acct_void (acct_one hs ?_)
    cases v.head? with
    | some x => exact acct_ret _ z (by omega)
    | none => exact acct_fail _ z
  | back v =>
    refine acct_void (acct_one hs ?_)
    cases v.getLast? with
    | some x => exact acct_ret _ z (by omega)
    | none => exact acct_fail _ z
  | insert v i x =>
    refine acct_void ?_
    unfold vinsert pushBack pushFront
    split
    · exact acct_fail _ z
    split
    · exact acct_fail _ z
    split
    · exact acct_vecOfIter hs (Nat.mul_le_mul_left _ (by rw [List.length_append]; exact Nat.le_refl _)) z z
    split
    · exact acct_vecOfIter hs (Nat.le_refl _) z z
    · refine acct_vecOfIter hs (Nat.mul_le_mul_left _ ?_) z z
      rw [List.length_append, List.length_append, List.length_take, List.length_drop]
      show _ + 1 + _ ≤ v.length + 1
      omega
  | append a b =>
    refine acct_void ?_
    unfold append
    split
    · exact acct_fail _ z
    · exact acct_vecOfIter hs (Nat.mul_le_mul_left _ (by rw [List.length_append]; exact Nat.le_refl _)) z z
  | slice v s e =>
    refine acct_void ?_
    unfold slice
    split
    · exact acct_fail _ z
    · refine acct_vecOfIter hs (Nat.mul_le_mul_left _ ?_) z z
      rw [List.length_drop, List.length_take]
      show _ ≤ v.length
      omega
  | firstIndexOf f v =>
    have hv := hl v (List.mem_cons_self ..)
    exact acct_void (acct_bind (d := (E.size * v.length : Nat)) (acct_scan (mul_fits hs (by omega)) (by omega) (by omega)) fun _ =>
      acct_firstLoop v 0 _ _ (by omega) (by omega))
  | lastIndexOf f v =>
    have hv := hl v (List.mem_cons_self ..)
    exact acct_void (acct_bind (d := (E.size * v.length : Nat)) (acct_scan (mul_fits hs (by omega)) (by omega) (by omega)) fun _ =>
      acct_lastLoop _ _ _ (by rw [List.length_reverse]; omega) (by rw [List.length_reverse]; omega))
  | search f v => exact acct_void (acct_search hs (hl v (List.mem_cons_self ..)) (by omega) z)
  | toVec v =>
    have hv := hl v (List.mem_cons_self ..)
    exact acct_void (acct_bind (d := (E.size * v.length : Nat)) (acct_deepClone (mul_fits hs (by omega)) (by omega) (by omega) (by omega))
      fun _ => acct_bind (d := 0) (acct_copy (by omega) (by omega)) fun _ => acct_ret _ z (by omega))
  | compare cmp a b =>
    have ha := hl a (List.mem_cons_self ..)
    refine acct_void ?_
    unfold vcompare
    rw [sat_mul (mul_fits hs (by omega))]
    exact acct_bind (d := (E.size * min a.length b.length : Nat)) (acct_cpy (by omega) (by omega)) fun _ =>
      acct_bind (acct_other (by decide) (Int.le_refl _) (by omega)) fun _ => acct_cmpLoop a b _ _ (by omega) (by omega)

theorem acct2_vecCmd {A : Type} {E : Elt A} (hs : E.size < 2 ^ 31) (cmd : VecCmd A) (hl : ∀ v ∈ cmd.inputs, v.length ≤ u32Max) :
    Acct2 0 0 (cmd.run E) := by
  have z : (0 : Int) ≤ 0 := Int.le_refl 0
  cases cmd with
  | ofIter xs => exact acct2_void (acct2_vecOfIter hs z)
  | set v i x =>
    have hv := hl v (List.mem_cons_self ..)
    refine acct2_void (acct2_bind (d := (E.size * v.length : Nat)) (acct2_deepClone (mul_fits hs (by omega)) (by omega) (by omega))
      fun _ => acct2_bind (d := 0) (acct2_copy (by omega)) fun _ => acct2_one ?_)
    split
    · exact acct2_ret _ z
    · exact acct2_fail _ z
  | get v i =>
    refine acct2_void (acct2_one ?_)
    cases v[i]? with
    | some x => exact acct2_ret _ z
    | none => exact acct2_fail _ z
  | pushFront v x =>
    refine acct2_void ?_
    unfold pushFront
    split
    · exact acct2_fail _ z
    · exact acct2_vecOfIter hs z
  | popFront v =>
    refine acct2_void ?_
    unfold popFront
    split
    · exact acct2_fail _ z
    · exact acct2_vecOfIter hs z
  | pushBack v x =>
    refine acct2_void ?_
    unfold pushBack
    split
    · exact acct2_fail _ z
    · exact acct2_vecOfIter hs z
  | popBack v =>
    refine acct2_void ?_
    unfold popBack
    split
    · exact acct2_fail _ z
    · exact acct2_vecOfIter hs z
  | remove v i =>
    refine acct2_void ?_
    unfold vremove
    split
    · exact acct2_fail _ z
    · split
      · exact acct2_fail _ z
      · exact acct2_vecOfIter hs z
  | front v =>
    refine acct2_void (acct2_one ?_)
    cases v.head? with
    | some x => exact acct2_ret _ z
    | none => exact acct2_fail _ z
  | back v =>
    refine acct2_void (acct2_one ?_)
    cases v.getLast? with
    | some x => exact acct2_ret _ z
    | none => exact acct2_fail _ z
  | insert v i x =>
    refine acct2_void ?_
    unfold vinsert pushBack pushFront
    split
    · exact acct2_fail _ z
    split
    · exact acct2_fail _ z
    split
    · exact acct2_vecOfIter hs z
    split
    · exact acct2_vecOfIter hs z
    · exact acct2_vecOfIter hs z
  | append a b =>
    refine acct2_void ?_
    unfold append
    split
    · exact acct2_fail _ z
    · exact acct2_vecOfIter hs z
  | slice v s e =>
    refine acct2_void ?_
    unfold slice
    split
    · exact acct2_fail _ z
    · exact acct2_vecOfIter hs z
  | firstIndexOf f v => exact acct2_void (acct2_bind (acct2_any _ _ z) fun _ => acct2_firstLoop z v 0)
  | lastIndexOf f v => exact acct2_void (acct2_bind (acct2_any _ _ z) fun _ => acct2_lastLoop z _)
  | search f v => exact acct2_void (acct2_search z)
  | toVec v =>
    have hv := hl v (List.mem_cons_self ..)
    exact acct2_void (acct2_bind (d := (E.size * v.length : Nat)) (acct2_deepClone (mul_fits hs (by omega)) (by omega) (by omega))
      fun _ => acct2_bind (d := 0) (acct2_copy (by omega)) fun _ => acct2_ret _ z)
  | compare cmp a b =>
    exact acct2_void (acct2_bind (acct2_any _ _ z) fun _ => acct2_bind (acct2_any _ _ z) fun _ => acct2_cmpLoop z a b)

theorem acct_mapCmd {K V : Type} {E : Elt (K × V)} {cmp : K → K → B → B × Res Ordering} {clone : V → B → B × Res Unit} (hs : E.size < 2 ^ 31)
    (cmd : MapCmd K V) (hl : ∀ v ∈ cmd.inputs, v.length ≤ u32Max) : Acct (E.size * cmd.ahead) 0 0 (cmd.run E cmp clone) := by
  have z : (0 : Int) ≤ 0 := Int.le_refl 0
  have h1 : E.size * 1 ≤ u64Max := mul_fits hs (by decide)
  cases cmd with
  | ofMap m => exact acct_void (acct_fromMap hs z z)
  | ofIter m => exact acct_void (acct_mapOfIter hs (Nat.le_refl _) z z)
  | insert m k v =>
    have hm := hl m (List.mem_cons_self ..)
    refine acct_void (acct_bind (d := 0) (acct_access h1 (by omega) (by omega)) fun _ =>
      acct_bind (d := 0) (acct_search hs hm (by omega) z) fun r => ?_)
    cases r with
    | found i =>
      refine acct_mapOfIter hs (Nat.mul_le_mul_left _ ?_) z z
      rw [List.length_append, List.length_append, List.length_take, List.length_drop]
      show _ + 1 + _ ≤ m.length + 1
      omega
    | notFound i =>
      dsimp only
      split
      · exact acct_fail _ z
      · refine acct_mapOfIter hs (Nat.mul_le_mul_left _ ?_) z z
        rw [List.length_append, List.length_append, List.length_take, List.length_drop]
        show _ + 1 + _ ≤ m.length + 1
        omega
  | get m k =>
    have hm := hl m (List.mem_cons_self ..)
    refine acct_void (acct_bind (d := 0) (acct_search hs hm (by omega) z) fun r => ?_)
    cases r with
    | found i =>
      refine acct_one hs ?_
      cases m[i]? with
      | some x => exact acct_ret _ z (by omega)
      | none => exact acct_fail _ z
    | notFound i => exact acct_ret _ z (by omega)
  | getAt m i =>
    refine acct_void (acct_one hs ?_)
    cases m[i]? with
    | some x => exact acct_ret _ z (by omega)
    | none => exact acct_fail _ z
  | remove m k =>
    have hm := hl m (List.mem_cons_self ..)
    refine acct_void (acct_bind (d := E.size) (acct_search hs hm (by omega) z) fun r => ?_)
    cases r with
    | found i =>
      refine acct_bind (d := E.size) (acct_mapOfIter hs (Nat.mul_le_mul_left _ ?_) (Int.le_refl _) (by omega)) fun new =>
        acct_bind (d := 0) (acct_look (by omega) (by omega)) fun _ => ?_
      · show _ ≤ m.length
        split
        · rw [List.length_append, List.length_take, List.length_drop]
          omega
        · rw [List.length_drop]
          omega
      · cases m[i]? with
        | some x => exact acct_bind (acct_lift z z) fun _ => acct_ret _ z (by omega)
        | none => exact acct_fail _ z
    | notFound i => exact acct_ret _ (by omega) (by omega)
  | contains m k =>
    have hm := hl m (List.mem_cons_self ..)
    refine acct_void (acct_bind (d := 0) (acct_search hs hm (by omega) z) fun r => ?_)
    cases r <;> exact acct_ret _ z (by omega)
  | iter m =>
    have hm := hl m (List.mem_cons_self ..)
    exact acct_void (acct_bind (d := (E.size * m.length : Nat)) (acct_scan (mul_fits hs (by omega)) (by omega) (by omega)) fun _ =>
      acct_bind (d := 0) (acct_lookAll m _ _ (by omega) (by omega)) fun _ => acct_ret _ z (by omega))
  | compare pair a b =>
    have ha := hl a (List.mem_cons_self ..)
    refine acct_void ?_
    unfold mcompare
    rw [sat_mul (mul_fits hs (by omega))]
    exact acct_bind (d := (E.size * min a.length b.length : Nat)) (acct_cpy (by omega) (by omega)) fun _ =>
      acct_cmpLoop a b _ _ (by omega) (by omega)

theorem acct2_mapCmd {K V : Type} {E : Elt (K × V)} {cmp : K → K → B → B × Res Ordering} {clone : V → B → B × Res Unit} (hs : E.size < 2 ^ 31)
    (cmd : MapCmd K V) : Acct2 0 0 (cmd.run E cmp clone) := by
  have z : (0 : Int) ≤ 0 := Int.le_refl 0
  cases cmd with
  | ofMap m => exact acct2_void (acct2_fromMap z)
  | ofIter m => exact acct2_void (acct2_mapOfIter hs z)
  | insert m k v =>
    refine acct2_void (acct2_bind (acct2_any _ _ z) fun _ => acct2_bind (acct2_search z) fun r => ?_)
    cases r with
    | found i => exact acct2_mapOfIter hs z
    | notFound i =>
      dsimp only
      split
      · exact acct2_fail _ z
      · exact acct2_mapOfIter hs z
  | get m k =>
    refine acct2_void (acct2_bind (acct2_search z) fun r => ?_)
    cases r with
    | found i =>
      refine acct2_one ?_
      cases m[i]? with
      | some x => exact acct2_ret _ z
      | none => exact acct2_fail _ z
    | notFound i => exact acct2_ret _ z
  | getAt m i =>
    refine acct2_void (acct2_one ?_)
    cases m[i]? with
    | some x => exact acct2_ret _ z
    | none => exact acct2_fail _ z
  | remove m k =>
    refine acct2_void (acct2_bind (acct2_search z) fun r => ?_)
    cases r with
    | found i =>
      refine acct2_bind (acct2_mapOfIter hs z) fun new => acct2_bind (acct2_look z) fun _ => ?_
      cases m[i]? with
      | some x => exact acct2_bind (acct2_lift z z) fun _ => acct2_ret _ z
      | none => exact acct2_fail _ z
    | notFound i => exact acct2_ret _ z
  | contains m k =>
    refine acct2_void (acct2_bind (acct2_search z) fun r => ?_)
    cases r <;> exact acct2_ret _ z
  | iter m =>
    exact acct2_void (acct2_bind (acct2_any _ _ z) fun _ => acct2_bind (acct2_lookAll m) fun _ => acct2_ret _ z)
  | compare pair a b => exact acct2_void (acct2_bind (acct2_any _ _ z) fun _ => acct2_cmpLoop z a b)

/-- Both accounts together. -/
theorem fair_of {α : Type} {k : Nat} {op : Op α} (h1 : Acct k 0 0 op) (h2 : Acct2 0 0 op) : Fair k op := by
  intro m
  obtain ⟨n1, a1, a2, a3⟩ := h1 m
  obtain ⟨n2, b1, b3⟩ := h2 m
  have he : n1 = n2 := List.append_cancel_right (a1.symm.trans b1)
  subst he
  refine ⟨n1, a1, ?_, ?_⟩
  · intro t ht
    have := a2 t ht
    unfold bal at this
    omega
  · intro hr
    cases hq : (op m).2 with
    | ok a =>
      rw [hq] at a3 b3
      dsimp only at a3 b3
      unfold bal at a3
      unfold bal2 at b3
      omega
    | error e =>
      rw [hq] at a3 b3
      dsimp only at a3 b3
      have hn := hr e hq
      rcases a3 with a3 | a3
      · exact absurd a3 hn
      · rcases b3 with b3 | b3
        · exact absurd b3 hn
        · unfold bal at a3
          unfold bal2 at b3
          omega

theorem fair_cmd (c : Cmd) (h : c.Sound) : Fair c.ahead c.run := by
  cases c with
  | vec E c => exact fair_of (acct_vecCmd h.1 c h.2) (acct2_vecCmd h.1 c h.2)
  | map E cmp clone c => exact fair_of (acct_mapCmd h.1 c h.2) (acct2_mapCmd h.1 c)

end Soroban.Coll
