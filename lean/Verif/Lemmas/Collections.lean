import Verif.Spec.Collections
import Verif.Lemmas.Budget
/-!
Proofs about the metering of collections: accounts of what is done and paid, and agreement with the unmetered operations.
-/
namespace Soroban.Coll
open Soroban.Budget (B)
open Soroban.Coll.Spec

/-! ### the log -/

theorem readBytes_append (a b : List Ev) : readBytes (a ++ b) = readBytes a + readBytes b := by
  induction a with
  | nil => simp [readBytes]
  | cons x a ih => cases x <;> simp [readBytes, ih, Nat.add_assoc]

theorem copiedBytes_append (a b : List Ev) : copiedBytes (a ++ b) = copiedBytes a + copiedBytes b := by
  induction a with
  | nil => simp [copiedBytes]
  | cons x a ih => cases x <;> simp [copiedBytes, ih, Nat.add_assoc]

theorem paidFor_append (ty : Nat) (a b : List Ev) : paidFor ty (a ++ b) = paidFor ty a + paidFor ty b := by
  induction a with
  | nil => simp [paidFor]
  | cons x a ih => cases x <;> simp [paidFor, ih, Nat.add_assoc]

theorem looks_append (a b : List Ev) : looks (a ++ b) = looks a + looks b := by
  induction a with
  | nil => simp [looks]
  | cons x a ih => cases x <;> simp [looks, ih]; omega

theorem suffix_append_cases {t a b : List Ev} (h : t <:+ a ++ b) : t <:+ b ∨ ∃ t', t' <:+ a ∧ t = t' ++ b := by
  obtain ⟨p, hp⟩ := h
  rcases List.append_eq_append_iff.mp hp with ⟨c, h1, h2⟩ | ⟨c, h1, h2⟩
  · exact .inr ⟨c, ⟨p, h1.symm⟩, h2⟩
  · exact .inl ⟨c, h2.symm⟩

/-! ### refusals -/

theorem charge_refusal {b : B} {ty n : Nat} {i : Option Nat} {e : Err} (h : (b.charge ty n i).2 = .error e) : Refusal e := by
  have hl : ∀ (d : Budget.Dim) (s : Bool) (e : Err), d.checkLimit s = .error e → Refusal e := by
    intro d s e h
    unfold Budget.Dim.checkLimit at h
    dsimp only at h
    split at h <;> split at h <;> first | cases h | skip
    all_goals first | exact .inl rfl | skip
  have hd : ∀ (b : B) (e : Err), (b.chargeDims ty n i).2 = .error e → Refusal e := by
    intro b e h
    unfold Budget.B.chargeDims at h
    have hdc : ∀ (d : Budget.Dim) (s : Bool) (e : Err), d.charge ty n i s = .error e → Refusal e := by
      intro d s e h
      unfold Budget.Dim.charge Budget.Dim.costModel at h
      cases hm : d.models[ty]? with
      | none => rw [hm] at h; injection h with h; exact .inr h.symm
      | some m => rw [hm] at h; dsimp only at h; split at h <;> cases h
    have hc : ∀ (b : B) (e : Err), (b.chargeCpu ty n i).2 = .error e → Refusal e := by
      intro b e h
      unfold Budget.B.chargeCpu at h
      cases hx : b.cpu.charge ty n i b.inShadow with
      | error e' => rw [hx] at h; injection h with h; subst h; exact hdc _ _ _ hx
      | ok r => rw [hx] at h; exact hl _ _ _ h
    have hm : ∀ (b : B) (e : Err), (b.chargeMem ty n i).2 = .error e → Refusal e := by
      intro b e h
      unfold Budget.B.chargeMem at h
      cases hx : b.mem.charge ty n i b.inShadow with
      | error e' => rw [hx] at h; injection h with h; subst h; exact hdc _ _ _ hx
      | ok r => rw [hx] at h; exact hl _ _ _ h
    rcases hx : b.chargeCpu ty n i with ⟨b', r⟩
    rw [hx] at h
    cases r with
    | error e' => injection h with h; subst h; exact hc b e' (by rw [hx])
    | ok u => exact hm b' e h
  unfold Budget.B.charge at h
  cases ht : b.trackers[ty]? with
  | none => rw [ht] at h; injection h with h; exact .inr h.symm
  | some t =>
    rw [ht] at h
    dsimp only at h
    split at h
    · exact hd _ _ h
    · split at h
      · exact hd _ _ h
      · injection h with h; exact .inr h.symm

/-! ### agreement with the unmetered operations -/
section Same
variable {α β : Type}

theorem same_ret (a : α) : Same (.ret a) (.ok a) := fun _ => .inl rfl
theorem same_fail (e : Err) : Same (.fail e : Op α) (.error e) := fun _ => .inl rfl

theorem same_bind {x : Op α} {f : α → Op β} {r : Res α} {g : α → Res β} (hx : Same x r) (hf : ∀ a, Same (f a) (g a)) :
    Same (x >>= f) (r >>= g) := by
  intro m
  have h := hx m
  show (Op.andThen x f m).2 = _ ∨ _
  unfold Op.andThen
  show _ ∨ ∃ e, (Op.andThen x f m).2 = .error e ∧ Refusal e
  unfold Op.andThen
  rcases hc : x m with ⟨m', q⟩
  rw [hc] at h
  cases q with
  | ok a =>
    rcases h with h | ⟨e, h, -⟩
    · subst h
      exact hf a m'
    · cases h
  | error e =>
    rcases h with h | ⟨e', h, hr⟩
    · subst h
      exact .inl rfl
    · refine .inr ⟨e', ?_, hr⟩
      dsimp only at h ⊢
      injection h with h
      rw [h]

/-- A step that only charges does not change the result. -/
theorem same_after {x : Op Unit} {f : Unit → Op β} {r : Res β} (hx : Same x (.ok ())) (hf : Same (f ()) r) : Same (x >>= f) r :=
  (same_bind (g := fun _ => r) hx (fun _ => hf))

theorem same_charge (ty n : Nat) : Same (charge ty n) (.ok ()) := by
  intro m
  unfold charge
  rcases hc : m.b.charge ty 1 (some n) with ⟨b, r⟩
  cases r with
  | ok u => exact .inl rfl
  | error e => exact .inr ⟨e, rfl, charge_refusal (by rw [hc])⟩

theorem same_look (n : Nat) : Same (look n) (.ok ()) := fun _ => .inl rfl
theorem same_copy (n : Nat) : Same (copy n) (.ok ()) := fun _ => .inl rfl
theorem same_lift {f : B → B × Res α} {r : Res α} (h : SameB f r) : Same (lift f) r := fun m => h m.b

theorem same_deepClone {E : Elt α} (hE : ∀ xs, SameB (E.subs xs) (.ok ())) (xs : List α) : Same (deepClone E xs) (.ok ()) :=
  same_after (same_charge _ _) <| same_after (same_charge _ _) <| same_after (same_charge _ _) (same_lift (hE xs))

theorem same_searchLoop {size : Nat} {xs : List α} {f : α → B → B × Res Ordering} {g : α → Res Ordering} (hf : ∀ x, SameB (f x) (g x)) :
    ∀ (n left right : Nat), right - left ≤ n → Same (searchLoop size xs f left right) (bsearchLoop xs g left right) := by
  intro n
  induction n with
  | zero =>
    intro left right hn
    rw [searchLoop, bsearchLoop, dif_neg (by omega), dif_neg (by omega)]
    exact same_ret _
  | succ n ih =>
    intro left right hn
    rw [searchLoop, bsearchLoop]
    by_cases h : left < right
    · rw [dif_pos h, dif_pos h]
      dsimp only
      cases hx : xs[left + (right - left) / 2]? with
      | none => exact same_fail _
      | some x =>
        dsimp only
        refine same_after (same_look size) ?_
        have := same_bind (f := fun o => match o with
            | .lt => searchLoop size xs f (left + (right - left) / 2 + 1) right
            | .gt => searchLoop size xs f left (left + (right - left) / 2)
            | .eq => .ret (.found (left + (right - left) / 2)))
          (g := fun o => match o with
            | .lt => bsearchLoop xs g (left + (right - left) / 2 + 1) right
            | .gt => bsearchLoop xs g left (left + (right - left) / 2)
            | .eq => .ok (.found (left + (right - left) / 2))) (same_lift (hf x)) (fun o => by
            cases o with
            | lt => exact ih _ _ (by omega)
            | gt => exact ih _ _ (by omega)
            | eq => exact same_ret _)
        cases hg : g x with
        | error e => rw [hg] at this; exact this
        | ok o => rw [hg] at this; cases o <;> exact this
    · rw [dif_neg h, dif_neg h]
      exact same_ret _

theorem same_search {size : Nat} {xs : List α} {f : α → B → B × Res Ordering} {g : α → Res Ordering} (hf : ∀ x, SameB (f x) (g x)) :
    Same (search size xs f) (bsearch xs g) :=
  same_after (same_charge _ _) (same_searchLoop hf _ 0 xs.length (Nat.le_refl _))

theorem same_cmpLoop {size : Nat} {f : α → α → B → B × Res Ordering} {g : α → α → Res Ordering} (hf : ∀ x y, SameB (f x y) (g x y)) :
    ∀ as bs : List α, Same (cmpLoop size f as bs) (cmpVec g as bs) := by
  intro as
  induction as with
  | nil => intro bs; cases bs <;> exact same_ret _
  | cons a as ih =>
    intro bs
    cases bs with
    | nil => exact same_ret _
    | cons b bs =>
      rw [cmpLoop, cmpVec]
      refine same_after (same_look size) (same_bind (same_lift (hf a b)) ?_)
      intro o
      cases o with
      | eq => exact ih bs
      | lt => exact same_ret _
      | gt => exact same_ret _

/-! ### vectors -/
section Vec
variable {A : Type} {E : Elt A}

theorem same_vecOfIter (hE : ∀ xs, SameB (E.subs xs) (.ok ())) (xs : List A) : Same (vecOfIter E xs) (vecFromIter xs) := by
  unfold vecOfIter vecFromIter
  split
  · exact same_fail _
  · next h =>
    refine same_after (same_copy _) (same_after (same_deepClone hE xs) ?_)
    unfold fromVec
    rw [if_neg h]
    exact same_ret _

theorem same_set (hE : ∀ xs, SameB (E.subs xs) (.ok ())) (v : List A) (i : Nat) (x : A) : Same (set E v i x) (vSet v i x) := by
  refine same_after (same_deepClone hE v) (same_after (same_copy _) (same_after (same_charge _ _) (same_after (same_look _) ?_)))
  unfold vSet
  split
  · exact same_ret _
  · exact same_fail _

theorem same_vget (v : List A) (i : Nat) : Same (vget E v i) (vGet v i) := by
  refine same_after (same_charge _ _) (same_after (same_look _) ?_)
  unfold vGet
  cases v[i]? with
  | some x => exact same_ret _
  | none => exact same_fail _

theorem same_pushFront (hE : ∀ xs, SameB (E.subs xs) (.ok ())) (v : List A) (x : A) : Same (pushFront E v x) (vPushFront v x) := by
  unfold pushFront vPushFront
  split
  · exact same_fail _
  · exact same_vecOfIter hE _

theorem same_popFront (hE : ∀ xs, SameB (E.subs xs) (.ok ())) (v : List A) : Same (popFront E v) (vPopFront v) := by
  unfold popFront vPopFront
  split
  · exact same_fail _
  · exact same_vecOfIter hE _

theorem same_pushBack (hE : ∀ xs, SameB (E.subs xs) (.ok ())) (v : List A) (x : A) : Same (pushBack E v x) (vPushBack v x) := by
  unfold pushBack vPushBack
  split
  · exact same_fail _
  · exact same_vecOfIter hE _

theorem same_popBack (hE : ∀ xs, SameB (E.subs xs) (.ok ())) (v : List A) : Same (popBack E v) (vPopBack v) := by
  unfold popBack vPopBack
  split
  · exact same_fail _
  · exact same_vecOfIter hE _

theorem same_vremove (hE : ∀ xs, SameB (E.subs xs) (.ok ())) (v : List A) (i : Nat) : Same (vremove E v i) (vRemove v i) := by
  unfold vremove vRemove
  split
  · exact same_fail _
  · cases addOrErr i 1 with
    | error e => exact same_fail _
    | ok s => exact same_vecOfIter hE _

theorem same_front (v : List A) : Same (front E v) (vFront v) := by
  refine same_after (same_charge _ _) (same_after (same_look _) ?_)
  unfold vFront
  cases v.head? with
  | some x => exact same_ret _
  | none => exact same_fail _

theorem same_back (v : List A) : Same (back E v) (vBack v) := by
  refine same_after (same_charge _ _) (same_after (same_look _) ?_)
  unfold vBack
  cases v.getLast? with
  | some x => exact same_ret _
  | none => exact same_fail _

theorem same_vinsert (hE : ∀ xs, SameB (E.subs xs) (.ok ())) (v : List A) (i : Nat) (x : A) : Same (vinsert E v i x) (vInsert v i x) := by
  unfold vinsert vInsert
  split
  · exact same_fail _
  split
  · exact same_fail _
  split
  · exact same_pushBack hE v x
  split
  · exact same_pushFront hE v x
  · exact same_vecOfIter hE _

theorem same_append (hE : ∀ xs, SameB (E.subs xs) (.ok ())) (a b : List A) : Same (append E a b) (vAppend a b) := by
  unfold append vAppend
  cases addOrErr a.length b.length with
  | error e => exact same_fail _
  | ok s => exact same_vecOfIter hE _

theorem same_slice (hE : ∀ xs, SameB (E.subs xs) (.ok ())) (v : List A) (s e : Nat) : Same (slice E v s e) (vSlice v s e) := by
  unfold slice vSlice
  split
  · exact same_fail _
  · exact same_vecOfIter hE _

theorem same_firstLoop {size : Nat} {f : A → B → B × Res Ordering} {g : A → Res Ordering} (hf : ∀ x, SameB (f x) (g x)) :
    ∀ (xs : List A) (i : Nat), Same (firstLoop size f i xs) (firstIndexLoop g i xs) := by
  intro xs
  induction xs with
  | nil => intro i; exact same_ret _
  | cons x xs ih =>
    intro i
    rw [firstLoop, firstIndexLoop]
    refine same_after (same_look size) ?_
    have := same_bind (f := fun o => if o == .eq then Op.ret (some i) else firstLoop size f (i + 1) xs)
      (g := fun o => if o == .eq then .ok (some i) else firstIndexLoop g (i + 1) xs) (same_lift (hf x)) (fun o => by
        split
        · exact same_ret _
        · exact ih _)
    cases hg : g x with
    | error e => rw [hg] at this; exact this
    | ok o => rw [hg] at this; exact this

theorem same_lastLoop {size : Nat} {f : A → B → B × Res Ordering} {g : A → Res Ordering} (hf : ∀ x, SameB (f x) (g x)) :
    ∀ xs : List A, Same (lastLoop size f xs) (lastIndexLoop g xs) := by
  intro xs
  induction xs with
  | nil => exact same_ret _
  | cons x xs ih =>
    rw [lastLoop, lastIndexLoop]
    refine same_after (same_look size) ?_
    have := same_bind (f := fun o => if o == .eq then Op.ret (some xs.length) else lastLoop size f xs)
      (g := fun o => if o == .eq then .ok (some xs.length) else lastIndexLoop g xs) (same_lift (hf x)) (fun o => by
        split
        · exact same_ret _
        · exact ih)
    cases hg : g x with
    | error e => rw [hg] at this; exact this
    | ok o => rw [hg] at this; exact this

theorem same_toVec (hE : ∀ xs, SameB (E.subs xs) (.ok ())) (v : List A) : Same (toVec E v) (.ok v) :=
  same_after (same_deepClone hE v) (same_after (same_copy _) (same_ret _))

end Vec

/-! ### maps -/
section Map
variable {K V : Type} {E : Elt (K × V)} {cmp : K → K → B → B × Res Ordering} {c : K → K → Res Ordering}

theorem same_sortedLoop {size : Nat} (hc : ∀ a b, SameB (cmp a b) (c a b)) :
    ∀ m : List (K × V), Same (sortedLoop cmp size m) (checkSorted c m) := by
  intro m
  induction m with
  | nil => exact same_ret _
  | cons a m ih =>
    cases m with
    | nil => exact same_ret _
    | cons b m =>
      rw [sortedLoop, checkSorted]
      refine same_after (same_look size) ?_
      have := same_bind (f := fun o => match o with
          | .lt => sortedLoop cmp size (b :: m)
          | _ => .fail (.host .object .invalidInput))
        (g := fun o => match o with
          | .lt => checkSorted c (b :: m)
          | _ => .error (.host .object .invalidInput)) (same_lift (hc a.1 b.1)) (fun o => by
          cases o with
          | lt => exact ih
          | eq => exact same_fail _
          | gt => exact same_fail _)
      cases hg : c a.1 b.1 with
      | error e => rw [hg] at this; exact this
      | ok o => rw [hg] at this; cases o <;> exact this

theorem same_fromMap (hc : ∀ a b, SameB (cmp a b) (c a b)) (m : List (K × V)) : Same (fromMap E cmp m) (Soroban.fromMap c m) := by
  unfold fromMap Soroban.fromMap
  split
  · exact same_fail _
  · refine same_after (same_charge _ _) ?_
    have := same_bind (f := fun _ => Op.ret m) (g := fun _ => .ok m) (same_sortedLoop (size := E.size) hc m) (fun _ => same_ret _)
    cases hg : checkSorted c m with
    | error e => rw [hg] at this; exact this
    | ok o => rw [hg] at this; exact this

theorem same_mapOfIter (hE : ∀ xs, SameB (E.subs xs) (.ok ())) (hc : ∀ a b, SameB (cmp a b) (c a b)) (m : List (K × V)) :
    Same (mapOfIter E cmp m) (fromExactIter c m) := by
  unfold mapOfIter fromExactIter
  split
  · exact same_fail _
  · exact same_after (same_copy _) (same_after (same_deepClone hE m) (same_fromMap hc m))

theorem same_find (hc : ∀ a b, SameB (cmp a b) (c a b)) (m : List (K × V)) (k : K) : Same (find E cmp m k) (Soroban.find c m k) :=
  same_search (fun p => hc p.1 k)

theorem same_insert (hE : ∀ xs, SameB (E.subs xs) (.ok ())) (hc : ∀ a b, SameB (cmp a b) (c a b)) (m : List (K × V)) (k : K) (v : V) :
    Same (insert E cmp m k v) (Soroban.insert c m k v) := by
  refine same_after (same_charge _ _) ?_
  unfold Soroban.insert
  have := same_bind (f := fun r => match r with
      | Found.found i => mapOfIter E cmp (m.take i ++ [(k, v)] ++ m.drop (i + 1))
      | .notFound i => if m.length == u32Max then .fail oob else mapOfIter E cmp (m.take i ++ [(k, v)] ++ m.drop i))
    (g := fun r => match r with
      | .found i => fromExactIter c (m.take i ++ [(k, v)] ++ m.drop (i + 1))
      | .notFound i => if m.length == u32Max then .error oob else fromExactIter c (m.take i ++ [(k, v)] ++ m.drop i))
    (same_find (E := E) hc m k) (fun r => by
      cases r with
      | found i => exact same_mapOfIter hE hc _
      | notFound i =>
        dsimp only
        split
        · exact same_fail _
        · exact same_mapOfIter hE hc _)
  cases hg : Soroban.find c m k with
  | error e => rw [hg] at this; exact this
  | ok o => rw [hg] at this; cases o <;> exact this

theorem same_get (hc : ∀ a b, SameB (cmp a b) (c a b)) (m : List (K × V)) (k : K) : Same (get E cmp m k) (Soroban.get c m k) := by
  unfold Soroban.get
  have := same_bind (f := fun r => match r with
      | Found.found i => (do
        chargeAccess E.size 1
        look E.size
        match m[i]? with
        | some p => Op.ret (some p.2)
        | none => Op.fail (.host .object .internalError) : Op (Option V))
      | .notFound _ => Op.ret none)
    (g := fun r => match r with
      | .found i => (match m[i]? with
        | some p => .ok (some p.2)
        | none => .error (.host .object .internalError))
      | .notFound _ => .ok none)
    (same_find (E := E) hc m k) (fun r => by
      cases r with
      | found i =>
        refine same_after (same_charge _ _) (same_after (same_look _) ?_)
        dsimp only
        cases m[i]? with
        | some p => exact same_ret _
        | none => exact same_fail _
      | notFound i => exact same_ret _)
  cases hg : Soroban.find c m k with
  | error e => rw [hg] at this; exact this
  | ok o => rw [hg] at this; cases o <;> exact this

theorem same_getAt (m : List (K × V)) (i : Nat) : Same (getAt E m i) (getAtIndex m i) := by
  refine same_after (same_charge _ _) (same_after (same_look _) ?_)
  unfold getAtIndex
  cases m[i]? with
  | some p => exact same_ret _
  | none => exact same_fail _

theorem same_remove {clone : V → B → B × Res Unit} (hE : ∀ xs, SameB (E.subs xs) (.ok ())) (hc : ∀ a b, SameB (cmp a b) (c a b))
    (hv : ∀ v, SameB (clone v) (.ok ())) (m : List (K × V)) (k : K) : Same (remove E cmp clone m k) (Soroban.remove c m k) := by
  unfold Soroban.remove
  have := same_bind (f := fun r => match r with
      | Found.found i => (do
        let new ← mapOfIter E cmp (if i > 0 then m.take i ++ m.drop (i + 1) else m.drop 1)
        look E.size
        match m[i]? with
        | none => Op.fail (.host .object .internalError)
        | some p => do
          lift (clone p.2)
          Op.ret (some (new, p.2)) : Op (Option (List (K × V) × V)))
      | .notFound _ => Op.ret none)
    (g := fun r => match r with
      | .found i => fromExactIter c (if i > 0 then m.take i ++ m.drop (i + 1) else m.drop 1) >>= fun new => (match m[i]? with
        | some p => .ok (some (new, p.2))
        | none => .error (.host .object .internalError))
      | .notFound _ => .ok none)
    (same_find (E := E) hc m k) (fun r => by
      cases r with
      | found i =>
        refine same_bind (same_mapOfIter hE hc _) (fun new => same_after (same_look _) ?_)
        cases m[i]? with
        | some p => exact same_after (same_lift (hv p.2)) (same_ret _)
        | none => exact same_fail _
      | notFound i => exact same_ret _)
  cases hg : Soroban.find c m k with
  | error e => rw [hg] at this; exact this
  | ok o =>
    rw [hg] at this
    cases o with
    | notFound i => exact this
    | found i =>
      dsimp only
      cases hi : fromExactIter c (if i > 0 then m.take i ++ m.drop (i + 1) else m.drop 1) with
      | error e =>
        intro s
        have h := this s
        dsimp only [bind, Except.bind] at h
        rw [hi] at h
        exact h
      | ok new =>
        intro s
        have h := this s
        dsimp only [bind, Except.bind] at h
        rw [hi] at h
        exact h

theorem same_containsKey (hc : ∀ a b, SameB (cmp a b) (c a b)) (m : List (K × V)) (k : K) :
    Same (containsKey E cmp m k) (Soroban.containsKey c m k) := by
  unfold Soroban.containsKey
  have := same_bind (f := fun r => match r with | Found.found _ => Op.ret true | .notFound _ => Op.ret false)
    (g := fun r => match r with | .found _ => .ok true | .notFound _ => .ok false)
    (same_find (E := E) hc m k) (fun r => by cases r <;> exact same_ret _)
  cases hg : Soroban.find c m k with
  | error e => rw [hg] at this; exact this
  | ok o => rw [hg] at this; cases o <;> exact this

theorem same_lookAll {α : Type} (size : Nat) : ∀ xs : List α, Same (lookAll size xs) (.ok ())
  | [] => same_ret _
  | _ :: xs => same_after (same_look size) (same_lookAll size xs)

theorem same_iter (m : List (K × V)) : Same (iter E m) (.ok m) :=
  same_after (same_charge _ _) (same_after (same_lookAll _ m) (same_ret _))

end Map
end Same
end Soroban.Coll
