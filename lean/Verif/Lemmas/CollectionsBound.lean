import Verif.Lemmas.CollectionsAlloc
/-!
Proofs about the metering of collections: what can be done within a limit on instructions.
-/
namespace Soroban.Coll
open Soroban.Budget (B CostModel)
open Soroban.Coll.Spec

/-- The cost of memory copies is at least a unit each, and the limit is within the range of cost computations. -/
structure Net (cm : CostModel) (L : Nat) : Prop where
  lin : 1 ≤ cm.linTerm
  const : 1 ≤ cm.constTerm
  limit : L < 2 ^ 57 - 1

/-- What was paid for copies has used up instructions. -/
structure Within (cm : CostModel) (L : Nat) (m : M) : Prop where
  real : m.b.inShadow = false
  model : m.b.cpu.models[2]? = some cm
  limit : m.b.cpu.limit = L
  used : cm.linTerm * paidFor 2 m.log ≤ 128 * m.b.cpu.net
  within : cm.linTerm * paidFor 2 m.log ≤ 128 * L

def Keeps {α : Type} (cm : CostModel) (L : Nat) (op : Op α) : Prop := ∀ m, Within cm L m → Within cm L (op m).1

section
variable {α β : Type} {cm : CostModel} {L : Nat}

theorem keeps_ret (a : α) : Keeps cm L (.ret a) := fun _ h => h
theorem keeps_fail (e : Err) : Keeps cm L (.fail e : Op α) := fun _ h => h
theorem keeps_look (n : Nat) : Keeps cm L (look n) := fun _ h => ⟨h.1, h.2, h.3, h.4, h.5⟩
theorem keeps_copy (n : Nat) : Keeps cm L (copy n) := fun _ h => ⟨h.1, h.2, h.3, h.4, h.5⟩

theorem keeps_bind {x : Op α} {f : α → Op β} (hx : Keeps cm L x) (hf : ∀ a, Keeps cm L (f a)) : Keeps cm L (x >>= f) := by
  intro m h
  have h1 := hx m h
  show Within cm L (Op.andThen x f m).1
  unfold Op.andThen
  rcases hc : x m with ⟨m', q⟩
  rw [hc] at h1
  cases q with
  | error e => exact h1
  | ok a => exact hf a m' h1

theorem keeps_lift {f : B → B × Res α} (hf : Honest f) : Keeps cm L (lift f) := by
  intro m h
  obtain ⟨h1, h2, h3, h4⟩ := hf m.b h.1
  refine ⟨h1, ?_, ?_, ?_, h.5⟩
  · show (f m.b).1.cpu.models[2]? = some cm
    rw [h2]; exact h.2
  · show (f m.b).1.cpu.limit = L
    rw [h3]; exact h.3
  · exact Nat.le_trans h.4 (Nat.mul_le_mul_left 128 h4)

theorem keeps_void {op : Op α} (h : Keeps cm L op) : Keeps cm L (void op) := fun m hm => h m hm

theorem evaluate_pays (hn : Net cm L) {n net : Nat} (h : min u64Max (net + cm.evaluate 1 (some n)) ≤ L) :
    cm.linTerm * n ≤ 128 * cm.evaluate 1 (some n) ∧ min u64Max (net + cm.evaluate 1 (some n)) = net + cm.evaluate 1 (some n) := by
  have hlim := hn.limit
  have hlin := hn.lin
  have hconst := hn.const
  have hu : 2 ^ 57 - 1 < u64Max := by decide
  have he : cm.evaluate 1 (some n) = min u64Max (min u64Max cm.constTerm + min u64Max (min u64Max (cm.linTerm * n)) / 128) := by
    unfold CostModel.evaluate
    dsimp only
    rw [if_neg (by omega), Budget.satAddU64_eq, Budget.satMulU64_eq, Budget.satMulU64_eq, Budget.satMulU64_eq, Nat.mul_one, Nat.mul_one,
      Nat.shiftRight_eq_div_pow]
  have hd : u64Max / 128 = 2 ^ 57 - 1 := by decide
  generalize cm.evaluate 1 (some n) = ev at he h ⊢
  generalize cm.linTerm * n = y at he ⊢
  generalize cm.constTerm = c0 at he hconst
  generalize u64Max = U at he h hu hd ⊢
  generalize 2 ^ 57 - 1 = W at hu hd hlim
  have h1 : min U (net + ev) = net + ev := by omega
  refine ⟨?_, h1⟩
  have h2 : ev ≤ L := by omega
  by_cases hy : y ≤ U
  · rw [Nat.min_eq_right hy, Nat.min_eq_right hy] at he
    omega
  · rw [Nat.min_eq_left (by omega : U ≤ y), Nat.min_self, hd] at he
    omega

theorem keeps_charge (hn : Net cm L) (ty n : Nat) : Keeps cm L (charge ty n) := by
  intro m h
  unfold charge
  obtain ⟨b1, hb1, hs1, -, -, hcpu, -, hok⟩ := Budget.charge_real_cases m.b ty 1 (some n) h.1
  rcases hc : m.b.charge ty 1 (some n) with ⟨b2, r⟩
  rw [hc] at hb1 hok
  dsimp only at hb1
  subst hb1
  have hbump : ∀ (d : Budget.Dim) (a : Nat), (d.bump a).models = d.models ∧ (d.bump a).limit = d.limit ∧ (d.bump a).net = min u64Max (d.net + a) :=
    fun d a => ⟨rfl, rfl, rfl⟩
  have hmods : b1.cpu.models = m.b.cpu.models := by
    rcases hcpu with e | ⟨q, -, e⟩ <;> rw [e]
    exact (hbump _ _).1
  have hlims : b1.cpu.limit = m.b.cpu.limit := by
    rcases hcpu with e | ⟨q, -, e⟩ <;> rw [e]
    exact (hbump _ _).2.1
  have hu : 128 * L < u64Max := by
    have h1 := hn.limit
    have h2 : 128 * (2 ^ 57 - 1) ≤ u64Max := by decide
    omega
  cases r with
  | error e =>
    refine ⟨hs1, by show b1.cpu.models[2]? = _; rw [hmods]; exact h.2, by show b1.cpu.limit = _; rw [hlims]; exact h.3, ?_, h.5⟩
    show _ ≤ 128 * b1.cpu.net
    have h4 := h.4
    have h5 := h.5
    rcases hcpu with e | ⟨q, -, e⟩
    · rw [e]; exact h4
    · rw [e, (hbump _ _).2.2]
      dsimp only
      generalize cm.linTerm * paidFor 2 m.log = y at h4 h5
      generalize q.evaluate 1 (some n) = ev
      generalize u64Max = U at hu
      omega
  | ok u =>
    obtain ⟨cm', mm, h1, -, h3, -, h5, -⟩ := hok rfl
    refine ⟨hs1, by show b1.cpu.models[2]? = _; rw [hmods]; exact h.2, by show b1.cpu.limit = _; rw [hlims]; exact h.3, ?_, ?_⟩
    all_goals
      show cm.linTerm * paidFor 2 (.paid ty n :: m.log) ≤ _
      simp only [paidFor]
      rw [Nat.mul_add]
    · by_cases ht : ty = 2
      · subst ht
        rw [if_pos rfl]
        rw [h.2] at h1
        cases h1
        rw [h3, (hbump _ _).2.2] at h5 ⊢
        rw [h.3] at h5
        obtain ⟨e1, e2⟩ := evaluate_pays hn h5
        rw [e2]
        have h4 := h.4
        generalize cm.linTerm * paidFor 2 m.log = y at h4 ⊢
        generalize cm.linTerm * n = z at e1 ⊢
        omega
      · rw [if_neg ht]
        rw [h3, (hbump _ _).2.2]
        have h4 := h.4
        have h6 := h.5
        generalize cm.linTerm * paidFor 2 m.log = y at h4 h6 ⊢
        generalize cm'.evaluate 1 (some n) = ev
        generalize u64Max = U at hu ⊢
        omega
    · by_cases ht : ty = 2
      · subst ht
        rw [if_pos rfl]
        rw [h.2] at h1
        cases h1
        rw [h3, (hbump _ _).2.2, h.3] at h5
        obtain ⟨e1, e2⟩ := evaluate_pays hn h5
        rw [e2] at h5
        have h4 := h.4
        generalize cm.linTerm * paidFor 2 m.log = y at h4 ⊢
        generalize cm.linTerm * n = z at e1 ⊢
        omega
      · rw [if_neg ht, Nat.mul_zero, Nat.zero_add]
        exact h.5

end

/-! ### operations -/
section
variable {α : Type} {cm : CostModel} {L : Nat} (hn : Net cm L)
include hn

theorem keeps_deepClone {E : Elt α} (hE : ∀ xs, Honest (E.subs xs)) (xs : List α) : Keeps cm L (deepClone E xs) :=
  keeps_bind (keeps_charge hn _ _) fun _ => keeps_bind (keeps_charge hn _ _) fun _ => keeps_bind (keeps_charge hn _ _) fun _ => keeps_lift (hE xs)

omit hn in
theorem keeps_searchLoop {size : Nat} {xs : List α} {f : α → B → B × Res Ordering} (hf : ∀ x, Honest (f x)) :
    ∀ (n left right : Nat), right - left ≤ n → Keeps cm L (searchLoop size xs f left right) := by
  intro n
  induction n with
  | zero =>
    intro left right hn
    rw [searchLoop, dif_neg (by omega)]
    exact keeps_ret _
  | succ n ih =>
    intro left right hn
    rw [searchLoop]
    by_cases hlr : left < right
    · rw [dif_pos hlr]
      dsimp only
      cases xs[left + (right - left) / 2]? with
      | none => exact keeps_fail _
      | some x =>
        dsimp only
        refine keeps_bind (keeps_look _) fun _ => keeps_bind (keeps_lift (hf x)) fun o => ?_
        cases o with
        | lt => exact ih _ _ (by omega)
        | gt => exact ih _ _ (by omega)
        | eq => exact keeps_ret _
    · rw [dif_neg hlr]
      exact keeps_ret _

theorem keeps_search {size : Nat} {xs : List α} {f : α → B → B × Res Ordering} (hf : ∀ x, Honest (f x)) : Keeps cm L (search size xs f) :=
  keeps_bind (keeps_charge hn _ _) fun _ => keeps_searchLoop hf _ _ _ (Nat.le_refl _)

omit hn in
theorem keeps_cmpLoop {size : Nat} {cmp : α → α → B → B × Res Ordering} (hc : ∀ x y, Honest (cmp x y)) :
    ∀ as bs : List α, Keeps cm L (cmpLoop size cmp as bs) := by
  intro as
  induction as with
  | nil => intro bs; cases bs <;> exact keeps_ret _
  | cons a as ih =>
    intro bs
    cases bs with
    | nil => exact keeps_ret _
    | cons b bs =>
      rw [cmpLoop]
      refine keeps_bind (keeps_look _) fun _ => keeps_bind (keeps_lift (hc a b)) fun o => ?_
      cases o with
      | eq => exact ih _
      | lt => exact keeps_ret _
      | gt => exact keeps_ret _

omit hn in
theorem keeps_firstLoop {size : Nat} {f : α → B → B × Res Ordering} (hf : ∀ x, Honest (f x)) :
    ∀ (xs : List α) (i : Nat), Keeps cm L (firstLoop size f i xs) := by
  intro xs
  induction xs with
  | nil => intro i; exact keeps_ret _
  | cons x xs ih =>
    intro i
    rw [firstLoop]
    refine keeps_bind (keeps_look _) fun _ => keeps_bind (keeps_lift (hf x)) fun o => ?_
    split
    · exact keeps_ret _
    · exact ih _

omit hn in
theorem keeps_lastLoop {size : Nat} {f : α → B → B × Res Ordering} (hf : ∀ x, Honest (f x)) :
    ∀ xs : List α, Keeps cm L (lastLoop size f xs) := by
  intro xs
  induction xs with
  | nil => exact keeps_ret _
  | cons x xs ih =>
    rw [lastLoop]
    refine keeps_bind (keeps_look _) fun _ => keeps_bind (keeps_lift (hf x)) fun o => ?_
    split
    · exact keeps_ret _
    · exact ih

omit hn in
theorem keeps_lookAll {size : Nat} : ∀ xs : List α, Keeps cm L (lookAll size xs)
  | [] => keeps_ret _
  | _ :: xs => keeps_bind (keeps_look _) fun _ => keeps_lookAll xs

omit hn in
theorem keeps_sortedLoop {K V : Type} {cmp : K → K → B → B × Res Ordering} {size : Nat} (hc : ∀ x y, Honest (cmp x y)) :
    ∀ m : List (K × V), Keeps cm L (sortedLoop cmp size m) := by
  intro m
  induction m with
  | nil => exact keeps_ret _
  | cons a m ih =>
    cases m with
    | nil => exact keeps_ret _
    | cons b m =>
      rw [sortedLoop]
      refine keeps_bind (keeps_look _) fun _ => keeps_bind (keeps_lift (hc _ _)) fun o => ?_
      cases o with
      | lt => exact ih
      | eq => exact keeps_fail _
      | gt => exact keeps_fail _

theorem keeps_vecOfIter {E : Elt α} (hE : ∀ xs, Honest (E.subs xs)) (xs : List α) : Keeps cm L (vecOfIter E xs) := by
  unfold vecOfIter fromVec
  split
  · exact keeps_fail _
  · exact keeps_bind (keeps_copy _) fun _ => keeps_bind (keeps_deepClone hn hE xs) fun _ => keeps_ret _

theorem keeps_fromMap {K V : Type} {E : Elt (K × V)} {cmp : K → K → B → B × Res Ordering} (hc : ∀ x y, Honest (cmp x y)) (m : List (K × V)) :
    Keeps cm L (fromMap E cmp m) := by
  unfold fromMap
  split
  · exact keeps_fail _
  · exact keeps_bind (keeps_charge hn _ _) fun _ => keeps_bind (keeps_sortedLoop hc m) fun _ => keeps_ret _

theorem keeps_mapOfIter {K V : Type} {E : Elt (K × V)} {cmp : K → K → B → B × Res Ordering} (hE : ∀ xs, Honest (E.subs xs))
    (hc : ∀ x y, Honest (cmp x y)) (m : List (K × V)) : Keeps cm L (mapOfIter E cmp m) := by
  unfold mapOfIter
  split
  · exact keeps_fail _
  · exact keeps_bind (keeps_copy _) fun _ => keeps_bind (keeps_deepClone hn hE m) fun _ => keeps_fromMap hn hc m

theorem keeps_vecCmd {A : Type} {E : Elt A} (hE : ∀ xs, Honest (E.subs xs)) (cmd : VecCmd A) (hh : cmd.Honest) : Keeps cm L (cmd.run E) := by
  have one : ∀ {β : Type} {x : Op β}, Keeps cm L x → Keeps cm L (chargeAccess E.size 1 >>= fun _ => look E.size >>= fun _ => x) :=
    fun h => keeps_bind (keeps_charge hn _ _) fun _ => keeps_bind (keeps_look _) fun _ => h
  have opt : ∀ (o : Option A) (e : Err), Keeps cm L (match o with | some x => Op.ret x | none => Op.fail e) := by
    intro o e
    cases o with
    | some x => exact keeps_ret _
    | none => exact keeps_fail _
  cases cmd with
  | ofIter xs => exact keeps_void (keeps_vecOfIter hn hE xs)
  | set v i x =>
    refine keeps_void (keeps_bind (keeps_deepClone hn hE v) fun _ => keeps_bind (keeps_copy _) fun _ => one ?_)
    split
    · exact keeps_ret _
    · exact keeps_fail _
  | get v i =>
    refine keeps_void (one ?_)
    cases v[i]? with
    | some x => exact keeps_ret _
    | none => exact keeps_fail _
  | front v =>
    refine keeps_void (one ?_)
    cases v.head? with
    | some x => exact keeps_ret _
    | none => exact keeps_fail _
  | back v =>
    refine keeps_void (one ?_)
    cases v.getLast? with
    | some x => exact keeps_ret _
    | none => exact keeps_fail _
  | pushFront v x =>
    refine keeps_void ?_
    unfold pushFront
    split
    · exact keeps_fail _
    · exact keeps_vecOfIter hn hE _
  | popFront v =>
    refine keeps_void ?_
    unfold popFront
    split
    · exact keeps_fail _
    · exact keeps_vecOfIter hn hE _
  | pushBack v x =>
    refine keeps_void ?_
    unfold pushBack
    split
    · exact keeps_fail _
    · exact keeps_vecOfIter hn hE _
  | popBack v =>
    refine keeps_void ?_
    unfold popBack
    split
    · exact keeps_fail _
    · exact keeps_vecOfIter hn hE _
  | remove v i =>
    refine keeps_void ?_
    unfold vremove
    split
    · exact keeps_fail _
    · split
      · exact keeps_fail _
      · exact keeps_vecOfIter hn hE _
  | insert v i x =>
    refine keeps_void ?_
    unfold vinsert pushBack pushFront
    repeat' split
    all_goals first | exact keeps_fail _ | exact keeps_vecOfIter hn hE _
  | append a b =>
    refine keeps_void ?_
    unfold append
    split
    · exact keeps_fail _
    · exact keeps_vecOfIter hn hE _
  | slice v s e =>
    refine keeps_void ?_
    unfold slice
    split
    · exact keeps_fail _
    · exact keeps_vecOfIter hn hE _
  | firstIndexOf f v => exact keeps_void (keeps_bind (keeps_charge hn _ _) fun _ => keeps_firstLoop hh v 0)
  | lastIndexOf f v => exact keeps_void (keeps_bind (keeps_charge hn _ _) fun _ => keeps_lastLoop hh _)
  | search f v => exact keeps_void (keeps_search hn hh)
  | toVec v => exact keeps_void (keeps_bind (keeps_deepClone hn hE v) fun _ => keeps_bind (keeps_copy _) fun _ => keeps_ret _)
  | compare cmp a b =>
    exact keeps_void (keeps_bind (keeps_charge hn _ _) fun _ => keeps_bind (keeps_charge hn _ _) fun _ => keeps_cmpLoop hh a b)

theorem keeps_mapCmd {K V : Type} {E : Elt (K × V)} {cmp : K → K → B → B × Res Ordering} {clone : V → B → B × Res Unit}
    (hE : ∀ xs, Honest (E.subs xs)) (hc : ∀ x y, Honest (cmp x y)) (hv : ∀ v, Honest (clone v)) (cmd : MapCmd K V) (hh : cmd.Honest) :
    Keeps cm L (cmd.run E cmp clone) := by
  have one : ∀ {β : Type} {x : Op β}, Keeps cm L x → Keeps cm L (chargeAccess E.size 1 >>= fun _ => look E.size >>= fun _ => x) :=
    fun h => keeps_bind (keeps_charge hn _ _) fun _ => keeps_bind (keeps_look _) fun _ => h
  have hf : ∀ (m : List (K × V)) k, Keeps cm L (find E cmp m k) := fun m k => keeps_search hn (fun p => hc p.1 k)
  cases cmd with
  | ofMap m => exact keeps_void (keeps_fromMap hn hc m)
  | ofIter m => exact keeps_void (keeps_mapOfIter hn hE hc m)
  | insert m k v =>
    refine keeps_void (keeps_bind (keeps_charge hn _ _) fun _ => keeps_bind (hf m k) fun r => ?_)
    cases r with
    | found i => exact keeps_mapOfIter hn hE hc _
    | notFound i =>
      dsimp only
      split
      · exact keeps_fail _
      · exact keeps_mapOfIter hn hE hc _
  | get m k =>
    refine keeps_void (keeps_bind (hf m k) fun r => ?_)
    cases r with
    | found i =>
      refine one ?_
      cases m[i]? with
      | some x => exact keeps_ret _
      | none => exact keeps_fail _
    | notFound i => exact keeps_ret _
  | getAt m i =>
    refine keeps_void (one ?_)
    cases m[i]? with
    | some x => exact keeps_ret _
    | none => exact keeps_fail _
  | remove m k =>
    refine keeps_void (keeps_bind (hf m k) fun r => ?_)
    cases r with
    | found i =>
      refine keeps_bind (keeps_mapOfIter hn hE hc _) fun new => keeps_bind (keeps_look _) fun _ => ?_
      cases m[i]? with
      | some x => exact keeps_bind (keeps_lift (hv _)) fun _ => keeps_ret _
      | none => exact keeps_fail _
    | notFound i => exact keeps_ret _
  | contains m k =>
    refine keeps_void (keeps_bind (hf m k) fun r => ?_)
    cases r <;> exact keeps_ret _
  | iter m => exact keeps_void (keeps_bind (keeps_charge hn _ _) fun _ => keeps_bind (keeps_lookAll m) fun _ => keeps_ret _)
  | compare pair a b => exact keeps_void (keeps_bind (keeps_charge hn _ _) fun _ => keeps_cmpLoop hh a b)

theorem keeps_cmd (c : Cmd) (hh : c.Honest) : Keeps cm L c.run := by
  cases c with
  | vec E c => exact keeps_vecCmd hn hh.1 c hh.2
  | map E cmp clone c => exact keeps_mapCmd hn hh.1 hh.2.1 hh.2.2.1 c hh.2.2.2

theorem keeps_runAll : ∀ (cs : List Cmd), (∀ c ∈ cs, c.Honest) → Keeps cm L (runAll cs) := by
  intro cs
  induction cs with
  | nil => intro _ m h; exact h
  | cons c cs ih =>
    intro hh m h
    have h1 := keeps_cmd hn c (hh c (List.mem_cons_self ..)) m h
    have ih := ih (fun x hx => hh x (List.mem_cons_of_mem _ hx))
    rw [runAll]
    dsimp only
    rcases hc : c.run m with ⟨m', q⟩
    rw [hc] at h1
    cases q with
    | ok u => exact ih m' h1
    | error e =>
      dsimp only
      split
      · exact h1
      · exact ih m' h1

end

/-- At every moment of a sequence of operations the work done is paid for, except for what the operation at hand copies first. -/
theorem runAll_fair {k : Nat} : ∀ (cs : List Cmd), (∀ c ∈ cs, c.Sound) → (∀ c ∈ cs, c.ahead ≤ k) → ∀ m, ∃ new,
    (runAll cs m).1.log = new ++ m.log ∧ ∀ t, t <:+ new → readBytes t + copiedBytes t ≤ paidFor 2 t + k := by
  intro cs
  induction cs with
  | nil =>
    intro _ _ m
    refine ⟨[], rfl, fun t ht => ?_⟩
    rw [suffix_nil ht]
    exact Nat.zero_le _
  | cons c cs ih =>
    intro hs hk m
    obtain ⟨n1, a1, a2, a3⟩ := fair_cmd c (hs c (List.mem_cons_self ..)) m
    have hk1 := hk c (List.mem_cons_self ..)
    have ih := ih (fun x hx => hs x (List.mem_cons_of_mem _ hx)) (fun x hx => hk x (List.mem_cons_of_mem _ hx))
    have a2' : ∀ t, t <:+ n1 → readBytes t + copiedBytes t ≤ paidFor 2 t + k := fun t ht => by have := a2 t ht; omega
    rw [runAll]
    dsimp only
    rcases hc : c.run m with ⟨m', q⟩
    rw [hc] at a1 a3
    dsimp only at a1
    have go : (∀ e, q = .error e → ¬ Refusal e) → ∃ new, (runAll cs m').1.log = new ++ m.log ∧
        ∀ t, t <:+ new → readBytes t + copiedBytes t ≤ paidFor 2 t + k := by
      intro hq
      obtain ⟨n2, b1, b2⟩ := ih m'
      have := (a3 hq).1
      refine ⟨n2 ++ n1, by rw [b1, a1, List.append_assoc], fun t ht => ?_⟩
      rcases suffix_append_cases ht with h5 | ⟨t', h5, rfl⟩
      · exact a2' t h5
      · have := b2 t' h5
        rw [readBytes_append, copiedBytes_append, paidFor_append]
        omega
    cases q with
    | ok u => exact go (fun e h => nomatch h)
    | error e =>
      dsimp only
      split
      · exact ⟨n1, a1, a2'⟩
      · next hr => exact go (fun e' h => by injection h with h; subst h; exact hr)

theorem paidFor_suffix {t l : List Ev} (ty : Nat) (h : t <:+ l) : paidFor ty t ≤ paidFor ty l := by
  obtain ⟨p, rfl⟩ := h
  rw [paidFor_append]
  omega

/-! ### searches -/

/-- At most `n` elements are looked at. -/
def Looks {α : Type} (n : Nat) (op : Op α) : Prop := ∀ m, ∃ new, (op m).1.log = new ++ m.log ∧ looks new ≤ n

theorem looks_ret {α : Type} {n : Nat} (a : α) : Looks n (.ret a) := fun _ => ⟨[], rfl, Nat.zero_le _⟩
theorem looks_fail {α : Type} {n : Nat} (e : Err) : Looks n (.fail e : Op α) := fun _ => ⟨[], rfl, Nat.zero_le _⟩
theorem looks_lift {α : Type} {n : Nat} (f : B → B × Res α) : Looks n (lift f) := fun _ => ⟨[], rfl, Nat.zero_le _⟩
theorem looks_look (n : Nat) : Looks 1 (look n) := fun _ => ⟨[.read n], rfl, Nat.le_refl _⟩

theorem looks_charge (ty n : Nat) : Looks 0 (charge ty n) := by
  intro m
  unfold charge
  rcases m.b.charge ty 1 (some n) with ⟨b, r⟩
  cases r with
  | ok u => exact ⟨[.paid ty n], rfl, Nat.le_refl _⟩
  | error e => exact ⟨[], rfl, Nat.le_refl _⟩

theorem looks_bind {α β : Type} {p q : Nat} {x : Op α} {f : α → Op β} (hx : Looks p x) (hf : ∀ a, Looks q (f a)) : Looks (p + q) (x >>= f) := by
  intro m
  obtain ⟨n1, h1, h2⟩ := hx m
  show ∃ new, (Op.andThen x f m).1.log = _ ∧ _
  unfold Op.andThen
  rcases hc : x m with ⟨m', r⟩
  rw [hc] at h1
  cases r with
  | error e => exact ⟨n1, h1, by omega⟩
  | ok a =>
    obtain ⟨n2, g1, g2⟩ := hf a m'
    refine ⟨n2 ++ n1, by rw [g1, h1, List.append_assoc], ?_⟩
    rw [looks_append]
    omega

theorem looks_searchLoop {α : Type} {size : Nat} {xs : List α} {f : α → B → B × Res Ordering} : ∀ (n left right : Nat), right - left < 2 ^ n →
    Looks n (searchLoop size xs f left right) := by
  intro n
  induction n with
  | zero =>
    intro left right hn
    rw [searchLoop, dif_neg (by omega)]
    exact looks_ret _
  | succ n ih =>
    intro left right hn
    rw [Nat.pow_succ] at hn
    rw [searchLoop]
    by_cases hlr : left < right
    · rw [dif_pos hlr]
      dsimp only
      cases xs[left + (right - left) / 2]? with
      | none => exact looks_fail _
      | some x =>
        dsimp only
        rw [Nat.add_comm]
        refine looks_bind (looks_look _) fun _ => ?_
        rw [← Nat.zero_add n]
        refine looks_bind (looks_lift _) fun o => ?_
        cases o with
        | lt => exact ih _ _ (by omega)
        | gt => exact ih _ _ (by omega)
        | eq => exact looks_ret _
    · rw [dif_neg hlr]
      exact looks_ret _

theorem looks_search {α : Type} {size : Nat} {xs : List α} {f : α → B → B × Res Ordering} : Looks (bits xs.length) (search size xs f) := by
  rw [← Nat.zero_add (bits xs.length)]
  exact looks_bind (looks_charge _ _) fun _ => looks_searchLoop _ _ _ (by have := lt_bits xs.length; omega)

theorem bits_pow {n p : Nat} (h : p ≤ bits n) : p = 0 ∨ 2 ^ (p - 1) ≤ n := by
  unfold bits at h
  split at h
  · exact .inl (by omega)
  · next h0 =>
    right
    have h1 : 2 ^ n.log2 ≤ n := Nat.log2_self_le h0
    exact Nat.le_trans (Nat.pow_le_pow_right (by omega) (by omega)) h1
end Soroban.Coll
