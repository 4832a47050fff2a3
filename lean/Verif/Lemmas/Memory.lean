import Verif.Spec.Memory
import Verif.Lemmas.Objects
import Verif.Lemmas.Convert
/-!
Lemmas for C54, C55 and the part of C10 about linear memory.
-/
namespace Soroban
open Spec

theorem readBytes_ok {mem b : List Nat} {pos len : Nat} (h : readBytes mem pos len = .ok b) :
    pos + len ≤ mem.length ∧ b = (mem.drop pos).take len ∧ b.length = len := by
  unfold readBytes at h
  split at h
  · cases h
    rename_i hc
    refine ⟨hc, rfl, ?_⟩
    rw [List.length_take, List.length_drop]
    omega
  · cases h

theorem readBytes_get {mem b : List Nat} {pos len : Nat} (h : readBytes mem pos len = .ok b) :
    ∀ i, i < len → b[i]? = mem[pos + i]? := by
  obtain ⟨_, rfl, _⟩ := readBytes_ok h
  intro i hi
  rw [List.getElem?_take, if_pos hi, List.getElem?_drop]

theorem writeBytes_ok {mem m bs : List Nat} {pos : Nat} (h : writeBytes mem pos bs = .ok m) : Overwritten mem m pos bs := by
  unfold writeBytes at h
  split at h
  · cases h
    rename_i hc
    refine ⟨?_, hc, ?_, ?_⟩
    · simp only [List.length_append, List.length_take, List.length_drop]
      omega
    · intro i hi
      rw [List.append_assoc, List.getElem?_append_right (by rw [List.length_take]; omega), List.length_take,
        List.getElem?_append_left (by omega)]
      congr 1
      omega
    · intro i hi
      rw [List.append_assoc]
      rcases hi with hi | hi
      · rw [List.getElem?_append_left (by rw [List.length_take]; omega), List.getElem?_take, if_pos hi]
      · rw [List.getElem?_append_right (by rw [List.length_take]; omega), List.length_take,
          List.getElem?_append_right (by omega), List.getElem?_drop]
        congr 1
        omega
  · cases h

theorem writeBytes_length {mem m bs : List Nat} {pos : Nat} (h : writeBytes mem pos bs = .ok m) : m.length = mem.length :=
  (writeBytes_ok h).1

theorem writeBytes_read {mem m bs : List Nat} {pos : Nat} (h : writeBytes mem pos bs = .ok m) : readBytes m pos bs.length = .ok bs := by
  obtain ⟨h1, h2, h3, _⟩ := writeBytes_ok h
  unfold readBytes
  rw [if_pos (by omega)]
  congr 1
  apply List.ext_getElem?
  intro i
  rw [List.getElem?_take]
  split
  · rw [List.getElem?_drop]
    exact h3 i (by assumption)
  · rw [List.getElem?_eq_none (by omega)]

/-! ### words -/

theorem toLe_length (n w : Nat) : (toLe n w).length = n := by
  induction n generalizing w with
  | zero => rfl
  | succ n ih => simp [toLe, ih]

theorem fromLe_toLe (n w : Nat) (h : w < 256 ^ n) : fromLe (toLe n w) = w := by
  induction n generalizing w with
  | zero => simp at h; subst h; rfl
  | succ n ih =>
    rw [toLe, fromLe, ih (w / 256) (by rw [Nat.pow_succ] at h; omega)]
    omega

theorem toLe_get (n w : Nat) : ∀ k, k < n → (toLe n w)[k]? = some (w / 256 ^ k % 256) := by
  induction n generalizing w with
  | zero => intro k hk; omega
  | succ n ih =>
    intro k hk
    cases k with
    | zero => simp [toLe]
    | succ k =>
      rw [toLe, List.getElem?_cons_succ, ih _ k (by omega), Nat.div_div_eq_div_mul, Nat.pow_succ, Nat.mul_comm 256]

theorem fromLe_lt (b : List Nat) (h : ∀ x ∈ b, x < 256) : fromLe b < 256 ^ b.length := by
  induction b with
  | nil => simp [fromLe]
  | cons a t ih =>
    have := ih (fun x hx => h x (by simp [hx]))
    have ha := h a (by simp)
    rw [fromLe, List.length_cons, Nat.pow_succ]
    omega

theorem fromLe_get (b : List Nat) (h : ∀ x ∈ b, x < 256) : ∀ k, k < b.length → b[k]? = some (fromLe b / 256 ^ k % 256) := by
  induction b with
  | nil => intro k hk; simp at hk
  | cons a t ih =>
    intro k hk
    have ha := h a (by simp)
    cases k with
    | zero =>
      rw [fromLe]
      simp
      omega
    | succ k =>
      rw [List.getElem?_cons_succ, ih (fun x hx => h x (by simp [hx])) k (by simpa using hk), fromLe, Nat.pow_succ,
        Nat.mul_comm _ 256, ← Nat.div_div_eq_div_mul]
      rw [show (a + 256 * fromLe t) / 256 = fromLe t by omega]

theorem unwords_length (ws : List Nat) : (unwords ws).length = ws.length * 8 := by
  unfold unwords
  induction ws with
  | nil => rfl
  | cons w ws ih => rw [List.flatMap_cons, List.length_append, ih, toLe_length, List.length_cons]; omega

theorem words_length (n : Nat) (b : List Nat) : (words n b).length = n := by
  induction n generalizing b with
  | zero => rfl
  | succ n ih => simp [words, ih]

theorem words_unwords (ws : List Nat) (h : ∀ w ∈ ws, w < 2^64) : words ws.length (unwords ws) = ws := by
  induction ws with
  | nil => rfl
  | cons w ws ih =>
    have hl : (toLe 8 w).length = 8 := toLe_length 8 w
    rw [List.length_cons, words, unwords, List.flatMap_cons, List.take_append_of_le_length (by omega), List.take_of_length_le (by omega),
      List.drop_append_of_le_length (by omega), List.drop_of_length_le (by omega), List.nil_append]
    have := ih (fun x hx => h x (by simp [hx]))
    unfold unwords at this
    rw [this, fromLe_toLe 8 w (by have := h w (by simp); norm_num; omega)]

theorem words_get (n : Nat) (b : List Nat) (i : Nat) (hi : i < n) :
    (words n b)[i]? = some (fromLe ((b.drop (8 * i)).take 8)) := by
  induction n generalizing b i with
  | zero => omega
  | succ n ih =>
    cases i with
    | zero => simp [words]
    | succ i =>
      rw [words, List.getElem?_cons_succ, ih _ i (by omega), List.drop_drop]
      congr 4
      omega

theorem unwords_get (ws : List Nat) (i w : Nat) (hi : ws[i]? = some w) (k : Nat) (hk : k < 8) :
    (unwords ws)[8 * i + k]? = some (w / 256 ^ k % 256) := by
  induction ws generalizing i with
  | nil => cases hi
  | cons a ws ih =>
    have hl : (toLe 8 a).length = 8 := toLe_length 8 a
    unfold unwords
    rw [List.flatMap_cons]
    cases i with
    | zero =>
      cases hi
      rw [List.getElem?_append_left (by omega), Nat.mul_zero, Nat.zero_add]
      exact toLe_get 8 _ k hk
    | succ i =>
      rw [List.getElem?_append_right (by omega), hl, show 8 * (i + 1) + k - 8 = 8 * i + k by omega]
      exact ih i (by simpa using hi)

theorem valsSize_ok {pos n s : Nat} (h : valsSize pos n = .ok s) : s = n * 8 ∧ pos + n * 8 ≤ u32Max := by
  unfold valsSize at h
  split at h
  · cases h
  · split at h
    · cases h
    · split at h
      · cases h
      · cases h
        exact ⟨rfl, by omega⟩

theorem valsSize_eq {pos n : Nat} (h : pos + n * 8 ≤ u32Max) : valsSize pos n = .ok (n * 8) := by
  unfold valsSize
  rw [if_neg (by omega), if_neg (by omega), if_neg (by omega)]

theorem relToAbsAll_ok {tbl : List Nat} : ∀ {ws vs : List Nat}, relToAbsAll tbl ws = .ok vs →
    List.Forall₂ (fun w v => relToAbs tbl w = .ok v) ws vs
  | [], vs, h => by cases h; exact .nil
  | w :: ws, vs, h => by
    unfold relToAbsAll at h
    obtain ⟨a, h1, h⟩ := bind_ok.mp h
    obtain ⟨as, h2, h⟩ := bind_ok.mp h
    cases h
    exact .cons h1 (relToAbsAll_ok h2)

theorem relToAbsAll_eq {tbl : List Nat} : ∀ {ws vs : List Nat}, List.Forall₂ (fun w v => relToAbs tbl w = .ok v) ws vs →
    relToAbsAll tbl ws = .ok vs
  | _, _, .nil => rfl
  | _, _, .cons h ht => by
    unfold relToAbsAll
    exact bind_ok.mpr ⟨_, h, bind_ok.mpr ⟨_, relToAbsAll_eq ht, rfl⟩⟩

/-! ### what a call can give -/

/-- Plain values, the arguments of a call and what is directly inside them, and handles of the frame. -/
def Held (l : Lin) (as : List Nat) (w : Nat) : Prop :=
  Val.isObject w = false ∨ w ∈ as ∨ w ∈ l.tbl ∨ ElemOfArg l.objs as w

/-- What a call can hand out or put into new objects: plain values, its arguments and what is directly inside them, handles of the
frame, and objects made by the call. -/
def Given (l : Lin) (as : List Nat) (w : Nat) : Prop :=
  Held l as w ∨ CreatedSince l.objs.length w ∧ w < 2^64

structure HResult (l : Lin) (as : List Nat) (l' : Lin) (ret : Ret) : Prop where
  objs : ∃ extra, l'.objs = l.objs ++ extra
  new : ∀ i o, l.objs.length ≤ i → l'.objs[i]? = some o → ∀ w ∈ elems o, Given l as w
  tbl : ∃ extra, l'.tbl = l.tbl ++ extra ∧ ∀ w ∈ extra, Held l as w ∧ Val.isObject w = true
  ret : ∀ v, ret = .val v → Given l as v

theorem created_of_addObj {objs objs₁ objs' : List HostObj} {o : HostObj} {v : Nat} (hl : objs'.length ≤ 2^31) (hle : objs.length ≤ objs₁.length)
    (h : addObj objs₁ o = .ok (objs', v)) : CreatedSince objs.length v ∧ v < 2^64 := by
  have heq := addObj_eq h
  have hlt : objs₁.length < 2^31 := by rw [heq, List.length_append] at hl; simp at hl; omega
  refine ⟨?_, (addObj_sound hlt h).2.1.1⟩
  unfold CreatedSince
  rw [(addObj_visit hlt h).2.1]
  exact hle

/-- The common case: at most one new object, memory changed at will, handles of the frame unchanged. -/
theorem hresult_add {l : Lin} {as : List Nat} {o : HostObj} {objs : List HostObj} {v : Nat} {mem : List Nat} (hl : objs.length ≤ 2^31)
    (h : addObj l.objs o = .ok (objs, v)) (he : ∀ w ∈ elems o, Given l as w) :
    HResult l as { l with mem := mem, objs := objs } (.val v) where
  objs := ⟨[o], addObj_eq h⟩
  new i o' hi ho' := by
    dsimp only at ho'
    rw [addObj_eq h, List.getElem?_append_right hi] at ho'
    have : o' = o := by
      cases hz : i - l.objs.length with
      | zero => rw [hz] at ho'; cases ho'; rfl
      | succ n => rw [hz] at ho'; simp at ho'
    subst this
    exact he
  tbl := ⟨[], by simp, by simp⟩
  ret w hw := by
    cases hw
    exact Or.inr (created_of_addObj hl (Nat.le_refl _) h)

theorem hresult_same {l l' : Lin} {as : List Nat} {ret : Ret} (h1 : l'.objs = l.objs) (h2 : l'.tbl = l.tbl)
    (h : ∀ v, ret = .val v → Given l as v) : HResult l as l' ret where
  objs := ⟨[], by simp [h1]⟩
  new i o hi ho := by rw [h1, List.getElem?_eq_none hi] at ho; cases ho
  tbl := ⟨[], by simp [h2], by simp⟩
  ret := h

theorem hresult_of_run {l : Lin} {as : List Nat} {objs : List HostObj} {ret : Ret} (hl : objs.length ≤ 2^31)
    (h : RunResult l.objs as objs ret) : HResult l as { l with objs := objs } ret := by
  cases h with
  | raw n h => exact hresult_same h rfl (by intro v hv; cases hv)
  | val v h hv =>
    refine hresult_same h rfl ?_
    intro w hw
    cases hw
    rcases hv with h | h
    · exact Or.inl (Or.inl h)
    · exact Or.inl (Or.inr (Or.inr (Or.inr h)))
  | obj o v h hv =>
    refine hresult_add (mem := l.mem) hl h ?_
    intro w hw
    rcases hv w hw with h | h
    · exact Or.inl (Or.inr (Or.inl h))
    · exact Or.inl (Or.inr (Or.inr (Or.inr h)))

theorem retBytes_result {objs objs' : List HostObj} {as : List Nat} {x : Res HostObj} {r : Ret}
    (h : retObj objs x = .ok (objs', r)) (hx : ∀ o, x = .ok o → elems o = []) : RunResult objs as objs' r := by
  refine retObj_result ?_ h
  intro o ho w hw
  rw [hx o ho] at hw
  cases hw

theorem retPlain_result {objs objs' : List HostObj} {as : List Nat} {x : Res Nat} {r : Ret}
    (h : retVal objs x = .ok (objs', r)) (hx : ∀ v, x = .ok v → Val.isObject v = false) : RunResult objs as objs' r :=
  retVal_result (fun v hv => Or.inl (hx v hv)) h

theorem runB_result {objs objs' : List HostObj} {f : BFn} {as : List Nat} {r : Ret} (h : runB objs f as = .ok (objs', r)) :
    RunResult objs as objs' r := by
  unfold runB at h
  split at h
  case h_1 => exact retBytes_result h (by intro o ho; cases ho; rfl)
  case h_11 a b =>
    refine retBytes_result h ?_
    intro o ho
    obtain ⟨_, _, ho⟩ := bind_ok.mp ho
    obtain ⟨_, _, ho⟩ := bind_ok.mp ho
    obtain ⟨_, _, ho⟩ := bind_ok.mp ho
    cases ho
    rfl
  case h_18 => cases h
  all_goals first
    | (refine retBytes_result h ?_
       intro o ho
       obtain ⟨_, _, ho⟩ := bind_ok.mp ho
       obtain ⟨_, _, ho⟩ := bind_ok.mp ho
       cases ho
       rfl)
    | (refine retBytes_result h ?_
       intro o ho
       obtain ⟨_, _, ho⟩ := bind_ok.mp ho
       cases ho
       rfl)
    | (refine retPlain_result h ?_
       intro v hv
       obtain ⟨_, _, hv⟩ := bind_ok.mp hv
       obtain ⟨_, _, hv⟩ := bind_ok.mp hv
       cases hv
       exact notObject_valU32 _)

theorem relToAbs_held {l : Lin} {as : List Nat} {w v : Nat} (h : relToAbs l.tbl w = .ok v) : Held l as v := by
  unfold relToAbs at h
  split at h
  · split at h
    · split at h
      · split at h
        · cases h
          rename_i hg _
          exact Or.inr (Or.inr (Or.inl (List.mem_of_getElem? hg)))
        · cases h
      · cases h
    · cases h
  · cases h
    rename_i hn
    exact Or.inl (by simpa using hn)

theorem relToAbsAll_held {l : Lin} {as : List Nat} : ∀ {ws vs : List Nat}, relToAbsAll l.tbl ws = .ok vs → ∀ v ∈ vs, Held l as v
  | [], vs, h => by cases h; simp
  | w :: ws, vs, h => by
    unfold relToAbsAll at h
    obtain ⟨a, h1, h⟩ := bind_ok.mp h
    obtain ⟨as', h2, h⟩ := bind_ok.mp h
    cases h
    intro v hv
    rcases List.mem_cons.1 hv with rfl | hv
    · exact relToAbs_held h1
    · exact relToAbsAll_held h2 v hv

theorem readVals_held {l : Lin} {as : List Nat} {pos n : Nat} {vs : List Nat} (h : readVals l.mem l.tbl pos n = .ok vs) :
    ∀ v ∈ vs, Held l as v := by
  unfold readVals at h
  obtain ⟨_, _, h⟩ := bind_ok.mp h
  obtain ⟨_, _, h⟩ := bind_ok.mp h
  exact relToAbsAll_held h

theorem absToRel_tbl {tbl tbl' : List Nat} {v r : Nat} (h : absToRel tbl v = .ok (tbl', r)) :
    tbl' = tbl ++ [v].filter (Val.isObject ·) := by
  unfold absToRel at h
  cases hob : Val.isObject v
  · rw [hob] at h; cases h; simp [hob]
  · rw [hob] at h
    simp only [if_true] at h
    split at h
    · cases h
    · split at h <;> cases h
      simp [hob]

theorem enterFrame_tbl : ∀ {vs tbl tbl' rs : List Nat}, enterFrame tbl vs = .ok (tbl', rs) →
    tbl' = tbl ++ vs.filter (Val.isObject ·) ∧ rs.length = vs.length
  | [], tbl, tbl', rs, h => by cases h; simp
  | v :: vs, tbl, tbl', rs, h => by
    unfold enterFrame at h
    obtain ⟨⟨tbl₁, r⟩, h1, h⟩ := bind_ok.mp h
    obtain ⟨⟨tbl₂, rs'⟩, h2, h⟩ := bind_ok.mp h
    cases h
    obtain ⟨e1, e2⟩ := enterFrame_tbl h2
    refine ⟨?_, by simp [e2]⟩
    rw [e1, absToRel_tbl h1, List.append_assoc, ← List.filter_append]
    rfl

theorem writeVals_ok {mem tbl mem' tbl' : List Nat} {pos : Nat} {vs : List Nat} (h : writeVals mem tbl pos vs = .ok (mem', tbl')) :
    ∃ rs, enterFrame tbl vs = .ok (tbl', rs) ∧ rs.length = vs.length ∧ pos + vs.length * 8 ≤ u32Max ∧
      writeBytes mem pos (unwords rs) = .ok mem' := by
  unfold writeVals at h
  obtain ⟨_, h1, h⟩ := bind_ok.mp h
  obtain ⟨_, h2, h⟩ := bind_ok.mp h
  obtain ⟨⟨tbl₁, rs⟩, h3, h⟩ := bind_ok.mp h
  obtain ⟨m, h4, h⟩ := bind_ok.mp h
  cases h
  exact ⟨rs, h3, (enterFrame_tbl h3).2, (valsSize_ok h1).2, h4⟩

theorem symbolObject_ok {b : List Nat} {o : HostObj} (h : symbolObject b = .ok o) :
    o = .symbol b ∧ b.length ≤ 32 ∧ ∀ c ∈ b, (encodeByte c).isSome = true := by
  unfold symbolObject at h
  split at h
  · cases h
  · split at h
    · cases h
      rename_i h1 h2
      exact ⟨rfl, by omega, by simpa using h2⟩
    · cases h

/-- What making the symbols of keys does to the object table. -/
theorem symbolsFromSlices_result : ∀ {bs : List (List Nat)} {objs objs' : List HostObj} {ks : List Nat},
    symbolsFromSlices objs bs = .ok (objs', ks) → objs'.length ≤ 2^31 →
    ∃ extra, objs' = objs ++ extra ∧ (∀ o ∈ extra, ∃ b, o = .symbol b) ∧
      ∀ k ∈ ks, (∃ b, symbolTryFromBytes b = some k) ∨ CreatedSince objs.length k ∧ k < 2^64
  | [], objs, objs', ks, h, _ => by cases h; exact ⟨[], by simp, by simp, by simp⟩
  | b :: bs, objs, objs', ks, h, hl => by
    unfold symbolsFromSlices at h
    obtain ⟨⟨objs₁, k⟩, h1, h⟩ := bind_ok.mp h
    obtain ⟨⟨objs₂, ks'⟩, h2, h⟩ := bind_ok.mp h
    cases h
    obtain ⟨e, he, hs, hk⟩ := symbolsFromSlices_result h2 hl
    unfold symbolFromSlice at h1
    cases hx : symbolTryFromBytes b with
    | some v =>
      rw [hx] at h1
      cases h1
      refine ⟨e, he, hs, ?_⟩
      intro k' hk'
      rcases List.mem_cons.1 hk' with rfl | hk'
      · exact Or.inl ⟨b, hx⟩
      · exact hk k' hk'
    | none =>
      rw [hx] at h1
      obtain ⟨o, ho, h1⟩ := bind_ok.mp h1
      have heq := addObj_eq h1
      have hle : objs₁.length ≤ objs'.length := by rw [he]; simp
      refine ⟨o :: e, by rw [he, heq]; simp, ?_, ?_⟩
      · intro o' ho'
        rcases List.mem_cons.1 ho' with rfl | ho'
        · exact ⟨b, (symbolObject_ok ho).1⟩
        · exact hs o' ho'
      · intro k' hk'
        rcases List.mem_cons.1 hk' with rfl | hk'
        · exact Or.inr (created_of_addObj (Nat.le_trans hle hl) (Nat.le_refl _) h1)
        · rcases hk k' hk' with h | h
          · exact Or.inl h
          · right
            refine ⟨?_, h.2⟩
            have h := h.1
            unfold CreatedSince at h ⊢
            have : objs.length ≤ objs₁.length := by rw [heq]; simp
            omega

theorem mapFromSlicesLoop_sub {K V : Type} {cmp : K → K → Res Ordering} {good isVoid : V → Bool} {sparse : Bool} :
    ∀ {l m : List (K × V)} {prev : Option K}, mapFromSlicesLoop cmp good isVoid sparse prev l = .ok m →
      (∀ p ∈ m, p ∈ l) ∧ ∀ p ∈ l, good p.2 = true
  | [], m, prev, h => by cases h; simp
  | (k, v) :: rest, m, prev, h => by
    rw [mapFromSlicesLoop] at h
    split at h
    · cases h
    · split at h
      · cases h
      · rename_i hg
        cases hx : mapFromSlicesLoop cmp good isVoid sparse (some k) rest with
        | error e => rw [hx] at h; cases h
        | ok m' =>
          rw [hx] at h
          obtain ⟨ih1, ih2⟩ := mapFromSlicesLoop_sub hx
          dsimp only at h
          have hm : m = if (!sparse || !isVoid v) = true then (k, v) :: m' else m' := (Except.ok.inj h).symm
          constructor
          · intro p hp
            rw [hm] at hp
            split at hp
            · rcases List.mem_cons.1 hp with rfl | hp
              · simp
              · exact List.mem_cons_of_mem _ (ih1 p hp)
            · exact List.mem_cons_of_mem _ (ih1 p hp)
          · intro p hp
            rcases List.mem_cons.1 hp with rfl | hp
            · simpa using hg
            · exact ih2 p hp

theorem mapFromSlices_sub {K V : Type} {cmp : K → K → Res Ordering} {good isVoid : V → Bool} {sparse : Bool} {keys : List K} {vals : List V}
    {m : List (K × V)} (h : mapFromSlices cmp good isVoid sparse keys vals = .ok m) :
    (∀ p ∈ m, p.1 ∈ keys ∧ p.2 ∈ vals ∧ good p.2 = true) ∧ checkSorted cmp m = .ok () ∧ keys.length = vals.length := by
  unfold mapFromSlices at h
  split at h
  · cases h
  · rename_i hlen
    cases hx : mapFromSlicesLoop cmp good isVoid sparse none (keys.zip vals) with
    | error e => rw [hx] at h; cases h
    | ok m' =>
      rw [hx] at h
      dsimp only at h
      obtain ⟨h1, h2⟩ := mapFromSlicesLoop_sub hx
      unfold fromMap at h
      split at h
      · cases h
      · cases hs : checkSorted cmp m' with
        | error e => rw [hs] at h; cases h
        | ok u =>
          rw [hs] at h
          cases h
          refine ⟨?_, by rw [hs], by simpa using hlen⟩
          intro p hp
          have hz := h1 p hp
          exact ⟨(List.of_mem_zip hz).1, (List.of_mem_zip hz).2, h2 p hz⟩

theorem unpackOne_sub {K V : Type} {cmp : K → K → Res Ordering} {void v : V} {sparse : Bool} {k : K} :
    ∀ {m m' : List (K × V)}, unpackOne cmp void sparse k m = .ok (v, m') → (v = void ∨ ∃ p ∈ m, p.2 = v) ∧ ∀ p ∈ m', p ∈ m
  | [], m', h => by cases h; simp
  | (mk, mv) :: rest, m', h => by
    rw [unpackOne] at h
    split at h
    · cases h
    · split at h
      · split at h
        · obtain ⟨h1, h2⟩ := unpackOne_sub h
          refine ⟨?_, fun p hp => List.mem_cons_of_mem _ (h2 p hp)⟩
          rcases h1 with h | ⟨p, hp, e⟩
          · exact Or.inl h
          · exact Or.inr ⟨p, List.mem_cons_of_mem _ hp, e⟩
        · cases h; exact ⟨Or.inr ⟨(mk, _), by simp, rfl⟩, fun p hp => List.mem_cons_of_mem _ hp⟩
        · cases h; exact ⟨Or.inl rfl, fun p hp => hp⟩
      · split at h
        · cases h
        · cases h; exact ⟨Or.inr ⟨(mk, _), by simp, rfl⟩, fun p hp => List.mem_cons_of_mem _ hp⟩

theorem unpackLoop_sub {K V : Type} {cmp : K → K → Res Ordering} {void : V} {sparse : Bool} :
    ∀ {ks : List K} {m rest : List (K × V)} {prev : Option K} {vs : List V}, unpackLoop cmp void sparse prev m ks = .ok (vs, rest) →
      (∀ v ∈ vs, v = void ∨ ∃ p ∈ m, p.2 = v) ∧ vs.length = ks.length
  | [], m, rest, prev, vs, h => by cases h; simp
  | k :: ks, m, rest, prev, vs, h => by
    rw [unpackLoop] at h
    split at h
    · cases h
    · cases ho : unpackOne cmp void sparse k m with
      | error e => rw [ho] at h; cases h
      | ok q =>
        obtain ⟨v, m'⟩ := q
        rw [ho] at h
        dsimp only at h
        cases hl : unpackLoop cmp void sparse (some k) m' ks with
        | error e => rw [hl] at h; cases h
        | ok q =>
          obtain ⟨vs', rest'⟩ := q
          rw [hl] at h
          cases h
          obtain ⟨h1, h2⟩ := unpackOne_sub ho
          obtain ⟨h3, h4⟩ := unpackLoop_sub hl
          refine ⟨?_, by simp [h4]⟩
          intro x hx
          rcases List.mem_cons.1 hx with rfl | hx
          · exact h1
          · rcases h3 x hx with h | ⟨p, hp, e⟩
            · exact Or.inl h
            · exact Or.inr ⟨p, h2 p hp, e⟩

theorem unpackTexts_sub {objs : List HostObj} {sparse : Bool} {m : List (Nat × Nat)} {ts : List (List Nat)} {vs : List Nat}
    (h : unpackTexts objs sparse m ts = .ok vs) : (∀ v ∈ vs, v = valVoid ∨ ∃ p ∈ m, p.2 = v) ∧ vs.length = ts.length := by
  unfold unpackTexts mapUnpack at h
  split at h
  · cases h
  · split at h
    · cases h
    · split at h
      · cases h
        rename_i rest hx hall
        obtain ⟨h1, h2⟩ := unpackLoop_sub hall
        refine ⟨?_, by simpa using h2⟩
        intro v hv
        rcases h1 v hv with h | ⟨p, hp, e⟩
        · exact Or.inl h
        · obtain ⟨q, hq, hqp⟩ := List.mem_map.1 hp
          subst hqp
          exact Or.inr ⟨q, hq, e⟩
      · cases h

theorem notObject_small {v : Nat} {b : List Nat} (h : symbolTryFromBytes b = some v) : Val.isObject v = false := by
  unfold symbolTryFromBytes at h
  split at h
  · cases h
  · obtain ⟨n, hn, rfl⟩ := Option.map_eq_some_iff.1 h
    rw [Bool.eq_false_iff, Ne, isObject_iff]
    rw [fromBodyAndTag_eq]
    have : Tag.code .SymbolSmall = 14 := rfl
    omega

/-- A call that writes values into memory. -/
theorem hresult_unpack {l : Lin} {as : List Nat} {mem tbl : List Nat} {pos : Nat} {vs : List Nat}
    (h : writeVals l.mem l.tbl pos vs = .ok (mem, tbl)) (hv : ∀ v ∈ vs, Held l as v) :
    HResult l as { l with mem := mem, tbl := tbl } (.val valVoid) := by
  obtain ⟨rs, h1, _⟩ := writeVals_ok h
  exact {
    objs := ⟨[], by simp⟩
    new := fun i o hi ho => by
      dsimp only at ho
      rw [List.getElem?_eq_none hi] at ho; cases ho
    tbl := ⟨_, (enterFrame_tbl h1).1, fun w hw => ⟨hv w (List.mem_filter.1 hw).1, (List.mem_filter.1 hw).2⟩⟩
    ret := fun v hv => by cases hv; exact Or.inl (Or.inl notObject_void) }

theorem copyTo_result {l l' : Lin} {as : List Nat} {b : Res (List Nat)} {p q n : Nat} {r : Ret} (h : copyTo l b p q n = .ok (l', r)) :
    HResult l as l' r := by
  unfold copyTo at h
  obtain ⟨_, _, h⟩ := bind_ok.mp h
  obtain ⟨_, _, h⟩ := bind_ok.mp h
  obtain ⟨_, _, h⟩ := bind_ok.mp h
  cases h
  exact hresult_same rfl rfl (by intro v hv; cases hv; exact Or.inl (Or.inl notObject_void))

theorem newFrom_result {l l' : Lin} {as : List Nat} {mk : List Nat → Res HostObj} {p n : Nat} {r : Ret} (hl : l'.objs.length ≤ 2^31)
    (hmk : ∀ b o, mk b = .ok o → elems o = []) (h : newFrom l mk p n = .ok (l', r)) : HResult l as l' r := by
  unfold newFrom at h
  obtain ⟨_, _, h⟩ := bind_ok.mp h
  obtain ⟨o, ho, h⟩ := bind_ok.mp h
  obtain ⟨⟨objs, v⟩, ha, h⟩ := bind_ok.mp h
  cases h
  refine hresult_add (mem := l.mem) hl ha ?_
  intro w hw
  rw [hmk _ _ ho] at hw
  cases hw

theorem runM_result {cmp : List HostObj → Nat → Nat → Res Ordering} {l l' : Lin} {f : MFn} {as : List Nat} {r : Ret}
    (h : runM cmp l f as = .ok (l', r)) (hl : l'.objs.length ≤ 2^31) : HResult l as l' r := by
  unfold runM at h
  split at h
  · exact copyTo_result h
  · exact copyTo_result h
  · exact copyTo_result h
  · obtain ⟨_, _, h⟩ := bind_ok.mp h
    obtain ⟨_, _, h⟩ := bind_ok.mp h
    obtain ⟨⟨objs, v⟩, ha, h⟩ := bind_ok.mp h
    cases h
    exact hresult_add (mem := l.mem) hl ha (by intro w hw; cases hw)
  · exact newFrom_result hl (by intro b o ho; cases ho; rfl) h
  · exact newFrom_result hl (by intro b o ho; cases ho; rfl) h
  · exact newFrom_result hl (by intro b o ho; rw [(symbolObject_ok ho).1]; rfl) h
  · unfold symbolIndex at h
    obtain ⟨_, _, h⟩ := bind_ok.mp h
    obtain ⟨_, _, h⟩ := bind_ok.mp h
    split at h
    · cases h
      exact hresult_same rfl rfl (by intro v hv; cases hv; exact Or.inl (Or.inl (notObject_valU32 _)))
    · cases h
  · unfold vecNewFrom at h
    obtain ⟨vs, h1, h⟩ := bind_ok.mp h
    obtain ⟨_, _, h⟩ := bind_ok.mp h
    obtain ⟨hv, h2, h⟩ := bind_ok.mp h
    obtain ⟨⟨objs, v⟩, ha, h⟩ := bind_ok.mp h
    cases h
    have := vecFromIter_eq h2
    subst this
    exact hresult_add (mem := l.mem) hl ha (fun w hw => Or.inl (readVals_held h1 w hw))
  · rename_i v p n
    unfold vecUnpackTo at h
    obtain ⟨hv, h1, h⟩ := bind_ok.mp h
    split at h
    · obtain ⟨⟨mem, tbl⟩, h2, h⟩ := bind_ok.mp h
      cases h
      refine hresult_unpack h2 ?_
      intro w hw
      exact Or.inr (Or.inr (Or.inr ⟨v, by simp, _, visitVec_ok.1 h1, hw⟩))
    · cases h
  · rename_i k v' n
    unfold mapNewFromMem at h
    obtain ⟨bs, h1, h⟩ := bind_ok.mp h
    obtain ⟨⟨objs₁, keys⟩, h2, h⟩ := bind_ok.mp h
    obtain ⟨vals, h3, h⟩ := bind_ok.mp h
    obtain ⟨m, h4, h⟩ := bind_ok.mp h
    obtain ⟨⟨objs₂, v⟩, h5, h⟩ := bind_ok.mp h
    cases h
    have heq := addObj_eq h5
    dsimp only at hl
    obtain ⟨e, he, hs, hk⟩ := symbolsFromSlices_result h2 (by rw [heq, List.length_append] at hl; omega)
    obtain ⟨hm, _, _⟩ := mapFromSlices_sub h4
    have hmg : ∀ w ∈ elems (.map m), Given l [k, v', n] w := by
      intro w hw
      unfold elems at hw
      rcases List.mem_append.1 hw with hw | hw <;> obtain ⟨p, hp, rfl⟩ := List.mem_map.1 hw
      · rcases hk _ (hm p hp).1 with ⟨b, hb⟩ | h
        · exact Or.inl (Or.inl (notObject_small hb))
        · exact Or.inr h
      · exact Or.inl (readVals_held h3 _ (hm p hp).2.1)
    exact {
      objs := ⟨e ++ [.map m], by dsimp only; rw [heq, he, List.append_assoc]⟩
      new := fun i o hi ho => by
        dsimp only at ho
        rw [heq, he, List.append_assoc, List.getElem?_append_right hi] at ho
        rcases List.mem_append.1 (List.mem_of_getElem? ho) with ho | ho
        · obtain ⟨b, rfl⟩ := hs o ho
          intro w hw; cases hw
        · rw [List.mem_singleton] at ho
          subst ho
          exact hmg
      tbl := ⟨[], by simp, by simp⟩
      ret := fun v hv => by
        cases hv
        exact Or.inr (created_of_addObj hl (by rw [he]; simp) h5) }
  · rename_i m k v n
    unfold mapUnpackToMem at h
    obtain ⟨hm, h1, h⟩ := bind_ok.mp h
    obtain ⟨bs, h2, h⟩ := bind_ok.mp h
    obtain ⟨vals, h3, h⟩ := bind_ok.mp h
    obtain ⟨⟨mem, tbl⟩, h4, h⟩ := bind_ok.mp h
    cases h
    refine hresult_unpack h4 ?_
    intro w hw
    rcases (unpackTexts_sub h3).1 w hw with rfl | ⟨p, hp, rfl⟩
    · exact Or.inl notObject_void
    · exact Or.inr (Or.inr (Or.inr ⟨m, by simp, _, visitMap_ok.1 h1, elem_map_snd hp⟩))
  · cases h

theorem runH_result {cmp : List HostObj → Nat → Nat → Res Ordering} {l l' : Lin} {f : HFn} {as : List Nat} {r : Ret}
    (h : runH cmp l f as = .ok (l', r)) (hl : l'.objs.length ≤ 2^31) : HResult l as l' r := by
  cases f with
  | obj f =>
    unfold runH at h
    obtain ⟨⟨objs, r'⟩, h1, h⟩ := bind_ok.mp h
    cases h
    exact hresult_of_run hl (runFn_result h1)
  | buf f =>
    unfold runH at h
    obtain ⟨⟨objs, r'⟩, h1, h⟩ := bind_ok.mp h
    cases h
    exact hresult_of_run hl (runB_result h1)
  | mem f => exact runM_result h hl

end Soroban
