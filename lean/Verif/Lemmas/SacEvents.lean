import Verif.Lemmas.SacValues
/-!
The values the asset contract makes: results and events.
-/
namespace Soroban.SacValues
open Soroban Soroban.Spec Soroban.Sac Soroban.ContractTypes Soroban.ContractTypes.Spec Soroban.SacValues.Spec
open Soroban.Auth (Addr)

variable {objs objs' : List HostObj}

/-- What a leaf stands for. -/
def leafOf : Leaf → ScVal
  | .sym t => .symbol t
  | .addr a => address a
  | .str b => .string b
  | .i128 i => int128 i
  | .u64 n => .u64 n
  | .u32 n => .u32 n
  | .bool b => .bool b

def LeafFits : Leaf → Prop
  | .i128 i => Fits i
  | .u64 n => n < 2 ^ 64
  | .u32 n => n < 2 ^ 32
  | _ => True

theorem made_small {v : Nat} {s : ScVal} (ho : ObjsOk objs) (h : SmallFor s v) (hc : canRepresent s = true) : Made objs objs v s :=
  ⟨⟨[], by simp⟩, ho, small_is h hc⟩

theorem newLeaf_grown {l : Leaf} {v : Nat} (h : newLeaf objs l = .ok (objs', v)) : ∃ e, objs' = objs ++ e := by
  cases l with
  | sym t => exact sym_grown h
  | addr a => exact addObj_grown h
  | str b => exact addObj_grown h
  | i128 i =>
    rw [newLeaf] at h
    split at h
    · cases h; exact ⟨[], by simp⟩
    · exact addObj_grown h
  | u64 n =>
    rw [newLeaf] at h
    split at h
    · cases h; exact ⟨[], by simp⟩
    · exact addObj_grown h
  | u32 n => cases h; exact ⟨[], by simp⟩
  | bool b => cases h; exact ⟨[], by simp⟩

theorem newLeaf_made (ho : ObjsOk objs) {l : Leaf} {v : Nat} (hf : LeafFits l) (h : newLeaf objs l = .ok (objs', v))
    (hl : objs'.length ≤ 2 ^ 31) : Made objs objs' v (leafOf l) := by
  cases l with
  | sym t => exact (sym_made ho h hl).1
  | addr a =>
    cases a with
    | account k => exact add_made ho h hl (Or.inl ⟨k, rfl⟩) (by intro w hw; cases hw) ⟨0, rfl⟩ rfl
    | contract k => exact add_made ho h hl (Or.inr ⟨k, rfl⟩) (by intro w hw; cases hw) ⟨0, rfl⟩ rfl
  | str b => exact add_made ho h hl trivial (by intro w hw; cases hw) ⟨0, rfl⟩ rfl
  | i128 i =>
    have hf' : Fits i := hf
    have e := pieces_eq hf'
    have e2 := fromPieces_eq hf'
    rw [newLeaf] at h
    have hr : InRange (int128 i) := by
      obtain ⟨h1, h2⟩ := hf'
      simp only [int128, InRange]
      omega
    split at h
    · rename_i hs
      cases h
      refine made_small ho ?_ rfl
      refine toSmallVal_spec hr ?_
      show toSmallVal (int128 i) = _
      rw [← e, toSmallVal, e2, smallOr, if_pos hs]
    · rw [e2] at h
      refine add_made ho h hl hf' (by intro w hw; cases hw) ⟨0, ?_⟩ rfl
      show Except.ok (ScVal.i128 (i128Hi i) (i128Lo i)) = _
      rw [e]; rfl
  | u64 n =>
    have hf' : n < 2 ^ 64 := hf
    rw [newLeaf] at h
    split at h
    · rename_i hs
      cases h
      refine made_small ho ?_ rfl
      refine toSmallVal_spec hf' ?_
      show toSmallVal (.u64 n) = _
      rw [toSmallVal, smallOr, if_pos hs]
    · exact add_made ho h hl hf' (by intro w hw; cases hw) ⟨0, rfl⟩ rfl
  | u32 n => cases h; exact made_small ho (toSmallVal_spec (s := .u32 n) hf rfl) rfl
  | bool b => cases h; exact made_small ho (toSmallVal_spec (s := .bool b) trivial rfl) rfl

theorem newLeaves_grown : ∀ {ls : List Leaf} {objs objs' : List HostObj} {vs : List Nat}, newLeaves objs ls = .ok (objs', vs) →
    ∃ e, objs' = objs ++ e
  | [], objs, objs', vs, h => by cases h; exact ⟨[], by simp⟩
  | l :: ls, objs, objs', vs, h => by
    rw [newLeaves] at h
    obtain ⟨⟨o1, v1⟩, h1, h⟩ := bind_ok.mp h
    obtain ⟨⟨o2, vs2⟩, h2, h⟩ := bind_ok.mp h
    cases h
    exact grown_trans (newLeaf_grown h1) (newLeaves_grown h2)

theorem newLeaves_made : ∀ {ls : List Leaf} {objs objs' : List HostObj} {vs : List Nat}, ObjsOk objs → (∀ l ∈ ls, LeafFits l) →
    newLeaves objs ls = .ok (objs', vs) → objs'.length ≤ 2 ^ 31 → ObjsOk objs' ∧ List.Forall₂ (Is objs') vs (ls.map leafOf)
  | [], objs, objs', vs, ho, _, h, _ => by cases h; exact ⟨ho, .nil⟩
  | l :: ls, objs, objs', vs, ho, hf, h, hl => by
    rw [newLeaves] at h
    obtain ⟨⟨o1, v1⟩, h1, h⟩ := bind_ok.mp h
    obtain ⟨⟨o2, vs2⟩, h2, h⟩ := bind_ok.mp h
    cases h
    have g := newLeaves_grown h2
    have m := newLeaf_made ho (hf l (by simp)) h1 (Nat.le_trans (grown_len g) hl)
    obtain ⟨k1, k2⟩ := newLeaves_made m.good (fun l hl => hf l (by simp [hl])) h2 hl
    exact ⟨k1, .cons (m.is.grow g) k2⟩

theorem hostVec_grown {ls : List Leaf} {v : Nat} (h : hostVec objs ls = .ok (objs', v)) : ∃ e, objs' = objs ++ e := by
  unfold hostVec at h
  obtain ⟨⟨o1, vs⟩, h1, h⟩ := bind_ok.mp h
  exact grown_trans (newLeaves_grown h1) (newVec_grown h)

theorem hostVec_made (ho : ObjsOk objs) {ls : List Leaf} {v : Nat} (hf : ∀ l ∈ ls, LeafFits l) (h : hostVec objs ls = .ok (objs', v))
    (hl : objs'.length ≤ 2 ^ 31) : Made objs objs' v (.vec (some (ls.map leafOf))) := by
  unfold hostVec at h
  obtain ⟨⟨o1, vs⟩, h1, h⟩ := bind_ok.mp h
  have g := newVec_grown h
  obtain ⟨k1, k2⟩ := newLeaves_made ho hf h1 (Nat.le_trans (grown_len g) hl)
  have m := newVec_made k1 k2 h hl
  exact ⟨grown_trans (newLeaves_grown h1) g, m.good, m.is⟩

theorem addMap_made (ho : ObjsOk objs) {ks vs : List Nat} {bs : List (List Nat)} {ss : List ScVal} {v : Nat}
    (hk : List.Forall₂ (fun k b => Is objs k (.symbol b)) ks bs) (hv : List.Forall₂ (Is objs) vs ss)
    (h : addObj objs (.map (ks.zip vs)) = .ok (objs', v)) (hl : objs'.length ≤ 2 ^ 31) : Made objs objs' v (struct (bs.zip ss)) := by
  have g := addObj_grown h
  obtain ⟨D, hD⟩ := entries_ex (objs := objs') (hk.imp fun _ _ hx => hx.grow g) (forall2_grow hv g)
  refine add_made ho h hl trivial (fun w hw => ?_) ⟨D, bind_ok.mpr ⟨_, hD D (Nat.le_refl D), rfl⟩⟩ rfl
  unfold elems at hw
  rcases List.mem_append.1 hw with hw | hw <;> obtain ⟨p, hp, rfl⟩ := List.mem_map.1 hw
  · have := (List.of_mem_zip (a := p.1) (b := p.2) hp).1
    obtain ⟨b, _, hb⟩ := forall₂_mem_left hk this
    exact hb.1
  · obtain ⟨s, hs⟩ := forall2_mem hv p.2 (List.of_mem_zip (a := p.1) (b := p.2) hp).2
    exact hs.1

theorem putObj_grown {d m k v r : Nat} (h : putObj d objs m k v = .ok (objs', r)) : ∃ e, objs' = objs ++ e := by
  unfold putObj at h
  obtain ⟨es, h1, h⟩ := bind_ok.mp h
  obtain ⟨es', h2, h⟩ := bind_ok.mp h
  exact addObj_grown h

theorem mapPut_nil {cmp : Nat → Nat → Res Ordering} {k v : Nat} {r : List (Nat × Nat)} (h : mapPut cmp [] k v = .ok r) : r = [(k, v)] := by
  unfold mapPut insert find bsearch at h
  rw [bsearchLoop] at h
  simp only [List.length_nil, Nat.lt_irrefl, dite_false] at h
  rw [if_neg (by decide)] at h
  exact fromExactIter_ok h

theorem mapPut_one {cmp : Nat → Nat → Res Ordering} {k v k1 v1 : Nat} {r : List (Nat × Nat)} (hc : cmp k1 k = .ok .lt ∨ ∃ e, cmp k1 k = .error e)
    (h : mapPut cmp [(k1, v1)] k v = .ok r) : r = [(k1, v1), (k, v)] := by
  unfold mapPut insert find bsearch at h
  rw [bsearchLoop] at h
  rcases hc with hc | ⟨e, hc⟩
  rotate_left
  · simp [hc] at h
  simp only [List.length_singleton, Nat.lt_one_iff, Nat.sub_zero, Nat.reduceDiv, Nat.add_zero, List.getElem?_cons_zero, hc, dite_true] at h
  rw [bsearchLoop] at h
  simp only [Nat.zero_add, Nat.lt_irrefl, dite_false] at h
  rw [if_neg (by decide)] at h
  exact fromExactIter_ok h

theorem amountData_grown {d : Nat} {a : Int} {mux : Option Nat} {v : Nat} (h : amountData d objs a mux = .ok (objs', v)) :
    ∃ e, objs' = objs ++ e := by
  cases mux with
  | none => rw [amountData] at h; exact newLeaf_grown h
  | some i =>
    rw [amountData] at h
    obtain ⟨⟨o1, v1⟩, h1, h⟩ := bind_ok.mp h
    obtain ⟨⟨o2, v2⟩, h2, h⟩ := bind_ok.mp h
    obtain ⟨⟨o3, v3⟩, h3, h⟩ := bind_ok.mp h
    obtain ⟨⟨o4, v4⟩, h4, h⟩ := bind_ok.mp h
    obtain ⟨⟨o5, v5⟩, h5, h⟩ := bind_ok.mp h
    obtain ⟨⟨o6, v6⟩, h6, h⟩ := bind_ok.mp h
    exact grown_trans (grown_trans (grown_trans (addObj_grown h1) (newLeaf_grown h2)) (grown_trans (newLeaf_grown h3) (putObj_grown h4)))
      (grown_trans (grown_trans (newLeaf_grown h5) (newLeaf_grown h6)) (putObj_grown h))

theorem amount_first : scOrd (.symbol (txt "amount")) (.symbol (txt "to_muxed_id")) = .lt := by decide

theorem amountData_made (ho : ObjsOk objs) {d : Nat} {a : Int} {mux : Option Nat} {v : Nat} (hf : Fits a)
    (hm : ∀ i, mux = some i → i < 2 ^ 64) (h : amountData d objs a mux = .ok (objs', v)) (hl : objs'.length ≤ 2 ^ 31) :
    Made objs objs' v (amountWith a mux) := by
  have hg := amountData_grown h
  cases mux with
  | none => exact newLeaf_made ho (l := .i128 a) hf h hl
  | some i =>
    have hi := hm i rfl
    rw [amountData] at h
    obtain ⟨⟨o1, v1⟩, h1, h⟩ := bind_ok.mp h
    obtain ⟨⟨o2, v2⟩, h2, h⟩ := bind_ok.mp h
    obtain ⟨⟨o3, v3⟩, h3, h⟩ := bind_ok.mp h
    obtain ⟨⟨o4, v4⟩, h4, h⟩ := bind_ok.mp h
    obtain ⟨⟨o5, v5⟩, h5, h⟩ := bind_ok.mp h
    obtain ⟨⟨o6, v6⟩, h6, h⟩ := bind_ok.mp h
    dsimp only at *
    have g2 := newLeaf_grown h2
    have g3 := newLeaf_grown h3
    have g4 := putObj_grown h4
    have g5 := newLeaf_grown h5
    have g6 := newLeaf_grown h6
    have g7 := putObj_grown h
    have l6 := Nat.le_trans (grown_len g7) hl
    have l5 := Nat.le_trans (grown_len g6) l6
    have l4 := Nat.le_trans (grown_len g5) l5
    have l3 := Nat.le_trans (grown_len g4) l4
    have l2 := Nat.le_trans (grown_len g3) l3
    have l1 := Nat.le_trans (grown_len g2) l2
    have m1 := add_made (s := .map (some [])) ho h1 l1 trivial (by intro w hw; cases hw) ⟨0, rfl⟩ rfl
    have m2 := newLeaf_made m1.good (l := .sym _) trivial h2 l2
    have m3 := newLeaf_made m2.good (l := .i128 a) hf h3 l3
    unfold putObj at h4
    obtain ⟨es, p1, h4⟩ := bind_ok.mp h4
    obtain ⟨es', p2, h4⟩ := bind_ok.mp h4
    obtain ⟨_, es2, p3, p4⟩ := map_is m3.good (m1.is.grow (grown_trans g2 g3))
    rw [p1] at p3
    cases p3
    cases p4
    cases mapPut_nil p2
    have k3 : List.Forall₂ (fun k b => Is o3 k (.symbol b)) [v2] [txt "amount"] := .cons (m2.is.grow g3) .nil
    have m4 := addMap_made (ks := [v2]) (vs := [v3]) m3.good k3 (.cons m3.is .nil) h4 l4
    have m5 := newLeaf_made m4.good (l := .sym _) trivial h5 l5
    have m6 := newLeaf_made m5.good (l := .u64 i) hi h6 l6
    unfold putObj at h
    obtain ⟨fs, q1, h⟩ := bind_ok.mp h
    obtain ⟨fs', q2, h⟩ := bind_ok.mp h
    have hv4 : visitMap o6 v4 = .ok [(v2, v3)] := by
      have hlt : o3.length < 2 ^ 31 := by rw [addObj_eq h4, List.length_append] at l4; simp at l4; omega
      obtain ⟨e, he⟩ := grown_trans g5 g6
      rw [he]
      exact visitMap_ok.2 (visitObj_append (addObj_sound hlt h4).2.2.1)
    rw [hv4] at q1
    cases q1
    have g36 := grown_trans g4 (grown_trans g5 g6)
    have ka : Is o6 v2 (.symbol (txt "amount")) := (m2.is.grow g3).grow g36
    have kb : Is o6 v5 (.symbol (txt "to_muxed_id")) := m5.is.grow g6
    have hc : valCmp o6 d v2 v5 = .ok .lt ∨ ∃ e, valCmp o6 d v2 v5 = .error e := by
      rcases valCmp_denotes m6.good ka.1 kb.1 ka.2 kb.2 d with e | e
      · exact Or.inl (by rw [e, amount_first])
      · exact Or.inr ⟨_, e⟩
    cases mapPut_one hc q2
    have m7 := addMap_made (ks := [v2, v5]) (vs := [v3, v6]) (bs := [txt "amount", txt "to_muxed_id"]) m6.good (.cons ka (.cons kb .nil))
      (.cons (m3.is.grow g36) (.cons m6.is .nil)) h hl
    exact ⟨hg, m7.good, m7.is⟩

/-- The amounts and ledgers of an event fit their types. -/
def EvFits : TokEvent → Prop
  | .approve _ _ a l => Fits a ∧ l < 2 ^ 32
  | .transfer _ _ a => Fits a
  | .mint _ a => Fits a
  | .burn _ a => Fits a
  | .clawback _ a => Fits a
  | _ => True

theorem event_parts {d : Nat} {ls : List Leaf} {t x : Nat} {data : List HostObj → Res (List HostObj × Nat)} {s : ScVal} (ho : ObjsOk objs)
    (hf : ∀ l ∈ ls, LeafFits l) (hg : ∀ {o o' : List HostObj} {v : Nat}, data o = .ok (o', v) → ∃ e, o' = o ++ e)
    (hd : ∀ {o o' : List HostObj} {v : Nat}, ObjsOk o → data o = .ok (o', v) → o'.length ≤ 2 ^ 31 → Made o o' v s)
    (h : (do let (objs, t) ← hostVec objs ls; let (objs, x) ← data objs; .ok (objs, t, x)) = Except.ok (ε := Err) (objs', t, x))
    (hl : objs'.length ≤ 2 ^ 31) :
    (∃ e, objs' = objs ++ e) ∧ ObjsOk objs' ∧ Is objs' t (.vec (some (ls.map leafOf))) ∧ Is objs' x s := by
  obtain ⟨⟨o1, t1⟩, h1, h⟩ := bind_ok.mp h
  obtain ⟨⟨o2, x1⟩, h2, h⟩ := bind_ok.mp h
  cases h
  have g := hg h2
  have m1 := hostVec_made ho hf h1 (Nat.le_trans (grown_len g) hl)
  have m2 := hd m1.good h2 hl
  exact ⟨grown_trans m1.grown g, m2.good, m1.is.grow g, m2.is⟩

theorem newEvent_made (ho : ObjsOk objs) {d : Nat} {nm : List Nat} {mux : Option Nat} {e : TokEvent} {t x : Nat} (hf : EvFits e)
    (hm : ∀ i, mux = some i → i < 2 ^ 64) (h : newEvent d nm mux objs e = .ok (objs', t, x)) (hl : objs'.length ≤ 2 ^ 31) :
    (∃ e, objs' = objs ++ e) ∧ ObjsOk objs' ∧ Is objs' t (.vec (some (topics nm e))) ∧ Is objs' x (dataOf mux e) := by
  cases e with
  | approve f s a l =>
    rw [newEvent] at h
    refine event_parts (d := d) (data := fun o => hostVec o [.i128 a, .u32 l]) ho ?_ hostVec_grown ?_ h hl
    · simp [LeafFits]
    · intro o o' v ho h hl
      refine hostVec_made ho ?_ h hl
      intro y hy
      simp only [List.mem_cons, List.not_mem_nil, or_false] at hy
      rcases hy with rfl | rfl
      · exact hf.1
      · exact hf.2
  | transfer f t a =>
    rw [newEvent] at h
    exact event_parts (d := d) (data := fun o => amountData d o a mux) ho (by simp [LeafFits]) amountData_grown
      (fun ho h hl => amountData_made ho hf hm h hl) h hl
  | mint t a =>
    rw [newEvent] at h
    exact event_parts (d := d) (data := fun o => amountData d o a mux) ho (by simp [LeafFits]) amountData_grown
      (fun ho h hl => amountData_made ho hf hm h hl) h hl
  | burn f a =>
    rw [newEvent] at h
    exact event_parts (d := d) (data := fun o => newLeaf o (.i128 a)) ho (by simp [LeafFits]) newLeaf_grown
      (fun ho h hl => newLeaf_made ho (l := .i128 a) hf h hl) h hl
  | clawback f a =>
    rw [newEvent] at h
    exact event_parts (d := d) (data := fun o => newLeaf o (.i128 a)) ho (by simp [LeafFits]) newLeaf_grown
      (fun ho h hl => newLeaf_made ho (l := .i128 a) hf h hl) h hl
  | setAuthorized a b =>
    rw [newEvent] at h
    exact event_parts (d := d) (data := fun o => newLeaf o (.bool b)) ho (by simp [LeafFits]) newLeaf_grown
      (fun ho h hl => newLeaf_made ho (l := .bool b) trivial h hl) h hl
  | setAdmin a n =>
    rw [newEvent] at h
    exact event_parts (d := d) (data := fun o => newLeaf o (.addr n)) ho (by simp [LeafFits]) newLeaf_grown
      (fun ho h hl => newLeaf_made ho (l := .addr n) trivial h hl) h hl

theorem newEvent_grown {d : Nat} {nm : List Nat} {mux : Option Nat} {e : TokEvent} {t x : Nat}
    (h : newEvent d nm mux objs e = .ok (objs', t, x)) : ∃ e, objs' = objs ++ e := by
  cases e <;> rw [newEvent] at h <;> obtain ⟨⟨o1, t1⟩, h1, h⟩ := bind_ok.mp h <;> obtain ⟨⟨o2, x1⟩, h2, h⟩ := bind_ok.mp h <;> cases h <;>
    first
      | exact grown_trans (hostVec_grown h1) (newLeaf_grown h2)
      | exact grown_trans (hostVec_grown h1) (amountData_grown h2)
      | exact grown_trans (hostVec_grown h1) (hostVec_grown h2)

/-- An event as it was published. -/
def Published (objs : List HostObj) (nm : List Nat) (mux : Option Nat) (p : Nat × Nat) (e : TokEvent) : Prop :=
  Is objs p.1 (.vec (some (topics nm e))) ∧ Is objs p.2 (dataOf mux e)

theorem newEvents_grown {d : Nat} {nm : List Nat} {mux : Option Nat} : ∀ {es : List TokEvent} {objs objs' : List HostObj}
    {r : List (Nat × Nat)}, newEvents d nm mux objs es = .ok (objs', r) → ∃ e, objs' = objs ++ e
  | [], objs, objs', r, h => by cases h; exact ⟨[], by simp⟩
  | e :: es, objs, objs', r, h => by
    rw [newEvents] at h
    obtain ⟨⟨o1, t, x⟩, h1, h⟩ := bind_ok.mp h
    obtain ⟨⟨o2, r2⟩, h2, h⟩ := bind_ok.mp h
    cases h
    exact grown_trans (newEvent_grown h1) (newEvents_grown h2)

theorem newEvents_made {d : Nat} {nm : List Nat} {mux : Option Nat} (hm : ∀ i, mux = some i → i < 2 ^ 64) :
    ∀ {es : List TokEvent} {objs objs' : List HostObj} {r : List (Nat × Nat)}, ObjsOk objs → (∀ e ∈ es, EvFits e) →
    newEvents d nm mux objs es = .ok (objs', r) → objs'.length ≤ 2 ^ 31 → ObjsOk objs' ∧ List.Forall₂ (Published objs' nm mux) r es
  | [], objs, objs', r, ho, _, h, _ => by cases h; exact ⟨ho, .nil⟩
  | e :: es, objs, objs', r, ho, hf, h, hl => by
    rw [newEvents] at h
    obtain ⟨⟨o1, t, x⟩, h1, h⟩ := bind_ok.mp h
    obtain ⟨⟨o2, r2⟩, h2, h⟩ := bind_ok.mp h
    cases h
    have g := newEvents_grown h2
    obtain ⟨_, k1, k2, k3⟩ := newEvent_made ho (hf e (by simp)) hm h1 (Nat.le_trans (grown_len g) hl)
    obtain ⟨k4, k5⟩ := newEvents_made hm k1 (fun e he => hf e (by simp [he])) h2 hl
    exact ⟨k4, .cons ⟨k2.grow g, k3.grow g⟩ k5⟩

theorem newRet_grown {r : Sac.Ret} {v : Nat} (h : newRet objs r = .ok (objs', v)) : ∃ e, objs' = objs ++ e := by
  cases r <;> rw [newRet] at h <;> first | exact newLeaf_grown h | (cases h; exact ⟨[], by simp⟩)

theorem newRet_made (ho : ObjsOk objs) {r : Sac.Ret} {v : Nat} (hf : ∀ x, r = .amount x → Fits x) (h : newRet objs r = .ok (objs', v))
    (hl : objs'.length ≤ 2 ^ 31) : Made objs objs' v (retOf r) := by
  cases r with
  | unit => cases h; exact made_small ho (toSmallVal_spec (s := .void) trivial rfl) rfl
  | amount x => exact newLeaf_made ho (l := .i128 x) (hf x rfl) h hl
  | bool b => exact newLeaf_made ho (l := .bool b) trivial h hl
  | addr a => exact newLeaf_made ho (l := .addr a) trivial h hl

end Soroban.SacValues
