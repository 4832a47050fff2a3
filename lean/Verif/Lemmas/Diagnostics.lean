import Verif.Lemmas.OpaqueConvert
/-!
Executions on two hosts side by side: diagnostics do not change what contracts see.
-/
namespace Soroban.Diagnostics
open Soroban.Spec List

variable {σ : Type}

theorem Inv.append {P : Nat → Nat → Prop} {objs objs' : List HostObj} (I : Inv P objs objs') (j j' : List HostObj) :
    Inv P (objs ++ j) (objs' ++ j') where
  obj h := by
    obtain ⟨o, o', h1, h2, ho⟩ := I.obj h
    refine ⟨o, o', ?_, ?_, ho⟩
    · rw [List.getElem?_append_left (List.getElem?_eq_some_iff.mp h1).1]; exact h1
    · rw [List.getElem?_append_left (List.getElem?_eq_some_iff.mp h2).1]; exact h2
  fn := I.fn
  inj := I.inj

theorem diagnose_append (objs : List HostObj) (junk : List (List HostObj)) : ∃ j, (diagnose objs junk).1 = objs ++ j := by
  cases junk with
  | nil => exact ⟨[], (List.append_nil _).symm⟩
  | cons j js => exact ⟨j, rfl⟩

theorem diagnose_inv {P : Nat → Nat → Prop} {objs objs' : List HostObj} (I : Inv P objs objs') (junk junk' : List (List HostObj)) :
    Inv P (diagnose objs junk).1 (diagnose objs' junk').1 := by
  obtain ⟨j, h⟩ := diagnose_append objs junk
  obtain ⟨j', h'⟩ := diagnose_append objs' junk'
  rw [h, h']
  exact I.append j j'

theorem rr_caught (P : Nat → Nat → Prop) (e : Err) : RR (W P) (caught e) (caught e) := by
  refine RR.mono (R := fun a b => Val.isObject a = false ∧ b = a) ?_ fun a b h => .inl h
  unfold caught
  split
  · cases e with
    | contract u => exact ⟨isObject_error _ _, rfl⟩
    | host t c => exact ⟨isObject_error _ _, rfl⟩
  · exact rfl

section
variable {P : Nat → Nat → Prop} {objs objs' : List HostObj} (I : Inv P objs objs')
include I

theorem rr_enterCall (s : objs.length ≤ 2^31) (s' : objs'.length ≤ 2^31) {tbl tbl' : List Nat}
    (ht : Forall₂ (W P) tbl tbl') (a : Nat) :
    RR (fun p q => Forall₂ (W P) p.1 q.1 ∧ p.2 = q.2) (enterCall objs tbl a) (enterCall objs' tbl' a) := by
  unfold enterCall
  refine (rr_marshalArg I s s' ht _ a).bind fun v v' hv => ?_
  refine (rr_visitVec I s s' hv).bind fun l l' hl => ?_
  exact rr_enterFrame I s s' hl .nil

theorem rr_leaveCall (s : objs.length ≤ 2^31) (s' : objs'.length ≤ 2^31) {tbl tbl' : List Nat}
    (ht : Forall₂ (W P) tbl tbl') {r r' : Res Nat} (hr : RR (W P) r r') :
    RR (fun p q => Forall₂ (W P) p.1 q.1 ∧ p.2 = q.2) (leaveCall objs tbl r) (leaveCall objs' tbl' r') := by
  have e : ∀ objs tbl r, leaveCall objs tbl r = ((match r with | .ok v => .ok v | .error e => caught e : Res Nat) >>= fun v =>
      checkIntegrity objs v >>= fun _ => absToRel tbl v) := by
    intro objs tbl r
    cases r <;> rfl
  rw [e, e]
  refine RR.bind (R := W P) ?_ fun v v' hv => ?_
  · cases r with
    | error e =>
      cases r' with
      | error e' => cases hr; exact rr_caught P e
      | ok b => exact hr.elim
    | ok a =>
      cases r' with
      | error e' => exact hr.elim
      | ok b => exact hr
  · refine RR.bind (R := fun _ _ => True) (RR.of_eq (checkIntegrity_same I s s' hv) fun _ => trivial) fun _ _ _ => ?_
    exact rr_absToRel I s s' ht hv

end

section
variable {P : Nat → Nat → Prop} {objs objs' : List HostObj} (I : Inv P objs objs')
include I

theorem ledgerArgs_same (s : objs.length ≤ 2^31) (s' : objs'.length ≤ 2^31) (d : Nat) {tbl tbl' : List Nat}
    (ht : Forall₂ (W P) tbl tbl') (ws : List Nat) : ledgerArgs d objs tbl ws = ledgerArgs d objs' tbl' ws := by
  unfold ledgerArgs
  refine RR.eq ((rr_marshalArgs I s s' ht _ ws).bind fun vs vs' hv => ?_)
  show List.map _ _ = List.map _ _
  induction hv with
  | nil => rfl
  | cons h _ ih =>
    rw [List.map_cons, List.map_cons, ih, fromVal_same I s s' true d h, fromVal_same I s s' false d h]

theorem rr_giveBack (d : Nat) {tbl tbl' : List Nat} (ht : Forall₂ (W P) tbl tbl') (v : ScVal) (s : objs.length + nodes v ≤ 2^31)
    (s' : objs'.length + nodes v ≤ 2^31) :
    RR (fun x y => x.2.2 = y.2.2 ∧ ∃ Q : Nat → Nat → Prop, (∀ i j, P i j → Q i j) ∧ Inv Q x.1 y.1 ∧ Forall₂ (W Q) x.2.1 y.2.1)
      (giveBack d objs tbl v) (giveBack d objs' tbl' v) := by
  unfold giveBack
  refine (makes_toVal d v I s s').bind fun p q hp => ?_
  obtain ⟨l, l', Q, hq, J, hw⟩ := hp
  have z : p.1.length ≤ 2^31 := by omega
  have z' : q.1.length ≤ 2^31 := by omega
  refine RR.bind (R := fun _ _ => True) (RR.of_eq (checkIntegrity_same J z z' hw) fun _ => trivial) fun _ _ _ => ?_
  refine (rr_absToRel J z z' (ht.imp fun _ _ => W.mono hq) hw).bind fun a b hab => ?_
  exact ⟨hab.2, Q, hq, J, hab.1⟩

end

/-- The same event. -/
def E (P : Nat → Nat → Prop) (x y : Ev × Bool) : Prop :=
  W P x.1.cid y.1.cid ∧ W P x.1.topics y.1.topics ∧ W P x.1.data y.1.data ∧ x.2 = y.2

theorem E.mono {P Q : Nat → Nat → Prop} (h : ∀ i j, P i j → Q i j) {x y : Ev × Bool} (e : E P x y) : E Q x y :=
  ⟨e.1.mono h, e.2.1.mono h, e.2.2.1.mono h, e.2.2.2⟩

theorem rollEvents_same {P : Nat → Nat → Prop} {evs evs' : List (Ev × Bool)} (h : Forall₂ (E P) evs evs') (n : Nat) :
    Forall₂ (E P) (rollEvents evs n) (rollEvents evs' n) := by
  unfold rollEvents
  refine rel_append (forall₂_take n h) ?_
  rw [forall₂_map_left_iff, forall₂_map_right_iff]
  exact (forall₂_drop n h).imp fun x y e => ⟨e.1, e.2.1, e.2.2.1, rfl⟩

theorem keepEvents_same {P : Nat → Nat → Prop} (n : Nat) {r r' : Out σ} (h : Forall₂ (E P) r.events r'.events)
    (hr : RR (W P) r.res r'.res) : Forall₂ (E P) (keepEvents n r) (keepEvents n r') := by
  unfold keepEvents
  cases hx : r.res with
  | error e =>
    cases hy : r'.res with
    | error e' => exact rollEvents_same h n
    | ok b => rw [hx, hy] at hr; exact hr.elim
  | ok a =>
    cases hy : r'.res with
    | error e' => rw [hx, hy] at hr; exact hr.elim
    | ok b => exact h

theorem getLastD_same {R : Nat → Nat → Prop} {l l' : List Nat} (h : Forall₂ R l l') : ∀ {a b : Nat}, R a b →
    R (l.getLastD a) (l'.getLastD b) := by
  induction h with
  | nil => exact fun h => h
  | cons h _ ih => intro a b _; rw [List.getLastD_cons, List.getLastD_cons]; exact ih h

theorem rr_makeEvent {P : Nat → Nat → Prop} {objs objs' : List HostObj} (I : Inv P objs objs') (s : objs.length + 1 ≤ 2^31)
    (s' : objs'.length + 1 ≤ 2^31) {tbl tbl' : List Nat} (ht : Forall₂ (W P) tbl tbl') (cid ws : List Nat) :
    RR (fun x y => ∃ Q : Nat → Nat → Prop, (∀ i j, P i j → Q i j) ∧ Inv Q x.1 y.1 ∧ E Q (x.2, false) (y.2, false))
      (makeEvent objs tbl cid ws) (makeEvent objs' tbl' cid ws) := by
  unfold makeEvent
  refine (rr_marshalArgs I (by omega) (by omega) ht _ ws).bind fun vs vs' hv => ?_
  refine (rr_addObj I s s' (O.same (by intro l h; cases h) (by intro l h; cases h))).bind fun p q hp => ?_
  obtain ⟨Q, hq, J, hw⟩ := hp
  have z : W P 0 0 := .inl ⟨by decide, rfl⟩
  refine ⟨Q, hq, J, hw, ?_, ?_, rfl⟩
  · refine W.mono hq ?_
    cases hv with
    | nil => exact z
    | cons h _ => exact h
  · refine W.mono hq ?_
    show W P (vs.getLastD 0) (vs'.getLastD 0)
    exact getLastD_same hv z

theorem eventsXdr_same {P : Nat → Nat → Prop} {objs objs' : List HostObj} (I : Inv P objs objs') (s : objs.length ≤ 2^31)
    (s' : objs'.length ≤ 2^31) (d : Nat) {evs evs' : List (Ev × Bool)} (h : Forall₂ (E P) evs evs') :
    eventsXdr d objs evs = eventsXdr d objs' evs' := by
  induction h with
  | nil => rfl
  | @cons e e' _ _ h _ ih =>
    have h1 : eventXdr d objs e.1 = eventXdr d objs' e'.1 := by
      unfold eventXdr
      rw [fromVal_same I s s' false d h.2.2.1, visitBytes_same I s s' h.1]
      refine RR.eq ((rr_visitVec I s s' h.2.1).bind fun l l' hl => ?_)
      rw [fromVals_same I s s' (fun v v' hv => fromVal_same I s s' false d hv) hl]
      exact RR.of_eq rfl fun _ => rfl
    unfold eventsXdr
    rw [h1, ih, h.2.2.2]

/-- The two executions agree. -/
def Agree (P : Nat → Nat → Prop) (r r' : Out σ) : Prop :=
  r.log = r'.log ∧ r.state = r'.state ∧ ∃ Q : Nat → Nat → Prop, (∀ i j, P i j → Q i j) ∧ Inv Q r.objs r'.objs ∧
    RR (W Q) r.res r'.res ∧ Forall₂ (E Q) r.events r'.events

abbrev Pairs (P : Nat → Nat → Prop) : List (Nat × Nat) → List (Nat × Nat) → Prop := Forall₂ fun p q => W P p.1 q.1 ∧ W P p.2 q.2

/-- The same instance. -/
inductive InstRel (P : Nat → Nat → Prop) : Inst σ → Inst σ → Prop
  | fresh (base : List (ScVal × ScVal)) (save : σ → List (ScVal × ScVal) → Res σ) : InstRel P ⟨base, save, none⟩ ⟨base, save, none⟩
  | used (base : List (ScVal × ScVal)) (save : σ → List (ScVal × ScVal) → Res σ) (b : Bool) {m m' : List (Nat × Nat)}
    (h : Pairs P m m') : InstRel P ⟨base, save, some (m, b)⟩ ⟨base, save, some (m', b)⟩

theorem InstRel.mono {P Q : Nat → Nat → Prop} (h : ∀ i j, P i j → Q i j) {i i' : Inst σ} (r : InstRel P i i') : InstRel Q i i' := by
  cases r with
  | fresh base save => exact .fresh base save
  | used base save b hm => exact .used base save b (hm.imp fun _ _ e => ⟨e.1.mono h, e.2.mono h⟩)

theorem InstRel.opened {P : Nat → Nat → Prop} (h : Home σ) (st : σ) : InstRel P (h.open st) (h.open st) :=
  .fresh _ _

theorem InstRel.base {P : Nat → Nat → Prop} {i i' : Inst σ} (r : InstRel P i i') : i.base = i'.base := by
  cases r <;> rfl

section
variable {P : Nat → Nat → Prop}

theorem rr_instStep {cmp cmp' : Nat → Nat → Res Ordering} (hc : CmpOk P cmp cmp') {m m' : List (Nat × Nat)} (hm : Pairs P m m')
    (op : InstOp) {vs vs' : List Nat} (hv : Forall₂ (W P) vs vs') :
    RR (fun x y => Pairs P x.1 y.1 ∧ W P x.2 y.2) (instStep cmp m op vs) (instStep cmp' m' op vs') := by
  obtain ⟨L, rfl, rfl⟩ := lift_pairs hm
  have e := hc.lift
  have z : W P valVoid valVoid := .inl ⟨notObject_void, rfl⟩
  have has : ∀ k : Rel P, mapHas cmp (L.map (renPair Rel.fst)) k.fst = mapHas cmp' (L.map (renPair Rel.snd)) k.snd := by
    intro k
    rw [nat_mapHas, nat_mapHas, e]
  cases op with
  | put =>
    rcases hv with _ | ⟨hk, _ | ⟨hw, _ | ⟨_, _⟩⟩⟩
    · exact rfl
    · exact rfl
    · obtain ⟨k, rfl, rfl⟩ := lift_word hk
      obtain ⟨v, rfl, rfl⟩ := lift_word hw
      refine RR.bind (RR.nat (nat_mapPut Rel.fst cmp L k v) (by rw [e]; exact nat_mapPut Rel.snd cmp' L k v) down_pairs)
        fun r r' hr => ⟨hr, z⟩
    · exact rfl
  | get =>
    rcases hv with _ | ⟨hk, _ | ⟨_, _⟩⟩
    · exact rfl
    · obtain ⟨k, rfl, rfl⟩ := lift_word hk
      simp only [instStep]
      rw [has k]
      refine RR.bind (R := Eq) (RR.of_eq rfl fun _ => rfl) fun b b' hb => ?_
      subst hb
      split
      · exact RR.bind (RR.nat (nat_mapGet Rel.fst cmp L k) (by rw [e]; exact nat_mapGet Rel.snd cmp' L k) fun r => r.2)
          fun r r' hr => ⟨hm, hr⟩
      · exact rfl
    · exact rfl
  | has =>
    rcases hv with _ | ⟨hk, _ | ⟨_, _⟩⟩
    · exact rfl
    · obtain ⟨k, rfl, rfl⟩ := lift_word hk
      simp only [instStep]
      rw [has k]
      refine RR.bind (R := Eq) (RR.of_eq rfl fun _ => rfl) fun b b' hb => ?_
      subst hb
      exact ⟨hm, .inl ⟨notObject_valBool _, rfl⟩⟩
    · exact rfl
  | del =>
    rcases hv with _ | ⟨hk, _ | ⟨_, _⟩⟩
    · exact rfl
    · obtain ⟨k, rfl, rfl⟩ := lift_word hk
      simp only [instStep]
      rw [has k]
      refine RR.bind (R := Eq) (RR.of_eq rfl fun _ => rfl) fun b b' hb => ?_
      subst hb
      split
      · exact RR.bind (RR.nat (nat_mapDel Rel.fst cmp L k) (by rw [e]; exact nat_mapDel Rel.snd cmp' L k) down_pairs)
          fun r r' hr => ⟨hr, z⟩
      · exact ⟨hm, z⟩
    · exact rfl

variable {objs objs' : List HostObj} (I : Inv P objs objs')
include I

theorem instCheck_same (s : objs.length ≤ 2^31) (s' : objs'.length ≤ 2^31) (op : InstOp) {vs vs' : List Nat}
    (hv : Forall₂ (W P) vs vs') : instCheck op vs = instCheck op vs' := by
  have h : W P (vs.headD 0) (vs'.headD 0) := by
    cases hv with
    | nil => exact .inl ⟨by decide, rfl⟩
    | cons h _ => exact h
  unfold instCheck
  rw [w_tag I s s' h]

theorem rr_instMap (d : Nat) {i i' : Inst σ} (hi : InstRel P i i') (s : objs.length + nodesEntries i.base ≤ 2^31)
    (s' : objs'.length + nodesEntries i.base ≤ 2^31) :
    RR (fun x y => x.1.length ≤ 2^31 ∧ y.1.length ≤ 2^31 ∧ ∃ Q : Nat → Nat → Prop, (∀ i j, P i j → Q i j) ∧ Inv Q x.1 y.1 ∧
      Pairs Q x.2 y.2) (instMap d objs i) (instMap d objs' i') := by
  cases hi with
  | used base save b hm =>
    exact ⟨Nat.le_trans (Nat.le_add_right _ _) s, Nat.le_trans (Nat.le_add_right _ _) s', P, fun _ _ h => h, I, hm⟩
  | fresh base save =>
    refine (makes_toEntries (makes_toVal d) base I s s').bind fun p q hp => ?_
    obtain ⟨l, l', Q, hq, J, hw⟩ := hp
    simp only at s s'
    refine (rr_fromMap (valCmp_same J (by omega) (by omega) d) hw).bind fun r r' hr => ?_
    exact ⟨by show p.1.length ≤ _; omega, by show q.1.length ≤ _; omega, Q, hq, J, hr⟩

theorem rr_callInst (d : Nat) {tbl tbl' : List Nat} (ht : Forall₂ (W P) tbl tbl') {i i' : Inst σ} (hi : InstRel P i i')
    (s : objs.length + nodesEntries i.base ≤ 2^31) (s' : objs'.length + nodesEntries i.base ≤ 2^31) (op : InstOp) (ws : List Nat) :
    RR (fun x y => x.2.2.2 = y.2.2.2 ∧ ∃ Q : Nat → Nat → Prop, (∀ i j, P i j → Q i j) ∧ Inv Q x.1 y.1 ∧
      Forall₂ (W Q) x.2.1 y.2.1 ∧ InstRel Q x.2.2.1 y.2.2.1)
      (callInst d objs tbl i op ws) (callInst d objs' tbl' i' op ws) := by
  unfold callInst
  refine (rr_marshalArgs I (by omega) (by omega) ht _ ws).bind fun vs vs' hv => ?_
  refine RR.bind (R := fun _ _ => True) (RR.of_eq (instCheck_same I (by omega) (by omega) op hv) fun _ => trivial) fun _ _ _ => ?_
  refine (rr_instMap I d hi s s').bind fun p q hp => ?_
  obtain ⟨l, l', Q, hq, J, hm⟩ := hp
  refine (rr_instStep (valCmp_same J l l' d) hm op (hv.imp fun _ _ => W.mono hq)).bind fun a b hab => ?_
  refine RR.bind (R := fun _ _ => True) (RR.of_eq (checkIntegrity_same J l l' hab.2) fun _ => trivial) fun _ _ _ => ?_
  refine (rr_absToRel J l l' (ht.imp fun _ _ => W.mono hq) hab.2).bind fun x y hxy => ?_
  refine ⟨hxy.2, Q, hq, J, hxy.1, ?_⟩
  cases hi with
  | fresh base save => exact .used base save _ hab.1
  | used base save b _ => exact .used base save _ hab.1

theorem persist_same (s : objs.length ≤ 2^31) (s' : objs'.length ≤ 2^31) (d : Nat) {i i' : Inst σ} (hi : InstRel P i i') (st : σ) :
    persist d objs i st = persist d objs' i' st := by
  cases hi with
  | fresh base save => rfl
  | used base save b hm =>
    cases b with
    | false => rfl
    | true =>
      rename_i m m'
      have h : toScMap d objs m = toScMap d objs' m' := by
        induction hm with
        | nil => rfl
        | cons h _ ih =>
          unfold toScMap
          rw [fromVal_same I s s' true d h.1, fromVal_same I s s' false d h.2, ih]
      unfold persist
      simp only
      rw [h]

theorem rr_leave (s : objs.length ≤ 2^31) (s' : objs'.length ≤ 2^31) (d : Nat) {tbl tbl' : List Nat}
    (ht : Forall₂ (W P) tbl tbl') {i i' : Inst σ} (hi : InstRel P i i') (st : σ) (w : Nat) :
    RR (fun x y => W P x.1 y.1 ∧ x.2 = y.2) (leave d objs tbl i st w) (leave d objs' tbl' i' st w) := by
  unfold leave
  refine RR.bind (R := W P) ?_ fun v v' hv => ?_
  · unfold VmCall.takeResult
    split
    · exact rr_relToAbs I s s' ht w
    · exact rfl
  · rw [persist_same I s s' d hi st]
    refine RR.bind (R := Eq) (RR.of_eq rfl fun _ => rfl) fun a b hab => ?_
    exact ⟨hv, hab⟩

end

theorem keep_same {P : Nat → Nat → Prop} (st : σ) {r r' : Out σ} (h : r.state = r'.state) (hr : RR (W P) r.res r'.res) :
    keep st r = keep st r' := by
  unfold keep
  cases hx : r.res with
  | error e =>
    cases hy : r'.res with
    | error e' => rfl
    | ok b => rw [hx, hy] at hr; exact hr.elim
  | ok a =>
    cases hy : r'.res with
    | error e' => rw [hx, hy] at hr; exact hr.elim
    | ok b => exact h

theorem run_peak (d : Nat) (c : Code σ) : ∀ (i : Inst σ) (st : σ) (evs : List (Ev × Bool)) (objs : List HostObj) (junk : List (List HostObj))
    (tbl : List Nat), (run d c i st evs objs junk tbl).objs.length ≤ (run d c i st evs objs junk tbl).peak := by
  induction c with
  | ret w =>
    intro i st evs objs junk tbl
    simp only [run]
    cases leave d objs tbl i st w <;> exact Nat.le_refl _
  | trap e => intro i st evs objs junk tbl; exact Nat.le_refl _
  | call f ws mem k ih =>
    intro i st evs objs junk tbl
    simp only [run]
    cases dispatchH (fun o => valCmp o d) ⟨mem, (diagnose objs junk).1, tbl⟩ f ws with
    | error e => simp only; omega
    | ok x => exact Nat.le_trans (ih _ _ _ _ _ _ _ _) (Nat.le_max_right _ _)
  | ledger ws g k ih =>
    intro i st evs objs junk tbl
    simp only [run]
    cases ledgerArgs d (diagnose objs junk).1 tbl ws >>= g st with
    | error e => exact Nat.le_refl _
    | ok x =>
      simp only
      cases giveBack d (diagnose objs junk).1 tbl x.2 with
      | error e => simp only; omega
      | ok y => exact Nat.le_trans (ih _ _ _ _ _ _ _) (Nat.le_max_right _ _)
  | log ws k ih =>
    intro i st evs objs junk tbl
    simp only [run]
    cases marshalArgs (diagnose objs junk).1 tbl [.u32, .u32, .u32, .u32] ws with
    | error e => exact Nat.le_refl _
    | ok x => exact Nat.le_trans (ih _ _ _ _ _ _ _) (Nat.le_max_right _ _)
  | event cid ws k ih =>
    intro i st evs objs junk tbl
    simp only [run]
    cases makeEvent (diagnose objs junk).1 tbl cid ws with
    | error e => simp only; omega
    | ok x => exact Nat.le_trans (ih _ _ _ _ _ _ _) (Nat.le_max_right _ _)
  | inst op ws k ih =>
    intro i st evs objs junk tbl
    simp only [run]
    cases callInst d (diagnose objs junk).1 tbl i op ws with
    | error e => simp only; omega
    | ok x => exact Nat.le_trans (ih _ _ _ _ _ _ _) (Nat.le_max_right _ _)
  | tryCall a home callee k ih1 ih2 =>
    intro i st evs objs junk tbl
    simp only [run]
    cases enterCall (diagnose objs junk).1 tbl a with
    | error e => exact Nat.le_refl _
    | ok x =>
      simp only
      generalize run d (callee x.2) (home.open st) st evs (diagnose objs junk).1 (diagnose objs junk).2 x.1 = r
      generalize diagnose r.objs r.junk = g
      cases leaveCall g.1 tbl r.res with
      | error e => simp only; omega
      | ok x =>
        simp only
        have := ih2 (x.2 : Int) i (keep st r) (keepEvents evs.length r) g.1 g.2 x.1
        omega

theorem run_start (d : Nat) (c : Code σ) (i : Inst σ) (st : σ) (evs : List (Ev × Bool)) (objs : List HostObj)
    (junk : List (List HostObj)) (tbl : List Nat) :
    objs.length ≤ (run d c i st evs objs junk tbl).peak := by
  obtain ⟨j, hj⟩ := diagnose_append objs junk
  have h0 : objs.length ≤ (diagnose objs junk).1.length := by rw [hj, List.length_append]; omega
  cases c with
  | ret w =>
    simp only [run]
    cases leave d objs tbl i st w <;> exact Nat.le_refl _
  | trap e => exact Nat.le_refl _
  | call f ws mem k =>
    simp only [run]
    cases dispatchH (fun o => valCmp o d) ⟨mem, (diagnose objs junk).1, tbl⟩ f ws <;> simp only <;> omega
  | ledger ws g k =>
    simp only [run]
    cases ledgerArgs d (diagnose objs junk).1 tbl ws >>= g st with
    | error e => exact h0
    | ok x =>
      simp only
      cases giveBack d (diagnose objs junk).1 tbl x.2 <;> simp only <;> omega
  | log ws k =>
    obtain ⟨j2, hj2⟩ := diagnose_append (diagnose objs junk).1 (diagnose objs junk).2
    have h1 : (diagnose objs junk).1.length ≤ (diagnose (diagnose objs junk).1 (diagnose objs junk).2).1.length := by
      rw [hj2, List.length_append]; omega
    simp only [run]
    cases marshalArgs (diagnose objs junk).1 tbl [.u32, .u32, .u32, .u32] ws <;> simp only <;> omega
  | event cid ws k =>
    simp only [run]
    cases makeEvent (diagnose objs junk).1 tbl cid ws <;> simp only <;> omega
  | inst op ws k =>
    simp only [run]
    cases callInst d (diagnose objs junk).1 tbl i op ws <;> simp only <;> omega
  | tryCall a home callee k =>
    simp only [run]
    cases enterCall (diagnose objs junk).1 tbl a with
    | error e => exact h0
    | ok x =>
      simp only
      generalize run d (callee x.2) (home.open st) st evs (diagnose objs junk).1 (diagnose objs junk).2 x.1 = r
      generalize diagnose r.objs r.junk = g
      cases leaveCall g.1 tbl r.res <;> simp only <;> omega

theorem run_agree (d : Nat) (c : Code σ) : ∀ (st : σ) {i i' : Inst σ}
    {evs evs' : List (Ev × Bool)} {P : Nat → Nat → Prop} {objs objs' : List HostObj}
    (_ : Inv P objs objs') (junk junk' : List (List HostObj)) {tbl tbl' : List Nat} (_ : Forall₂ (W P) tbl tbl')
    (_ : InstRel P i i') (_ : Forall₂ (E P) evs evs')
    (_ : (run d c i st evs objs junk tbl).peak ≤ 2^31) (_ : (run d c i' st evs' objs' junk' tbl').peak ≤ 2^31),
    Agree P (run d c i st evs objs junk tbl) (run d c i' st evs' objs' junk' tbl') := by
  induction c with
  | ret w =>
    intro st i i' evs evs' P objs objs' I junk junk' tbl tbl' ht hi hE s s'
    have key : objs.length ≤ 2^31 := by
      simp only [run] at s
      cases hd : leave d objs tbl i st w <;> rw [hd] at s <;> exact s
    have key' : objs'.length ≤ 2^31 := by
      simp only [run] at s'
      cases hd : leave d objs' tbl' i' st w <;> rw [hd] at s' <;> exact s'
    have hr := rr_leave I key key' d ht hi st w
    simp only [run]
    generalize leave d objs tbl i st w = x at hr ⊢
    generalize leave d objs' tbl' i' st w = y at hr ⊢
    cases x with
    | error e =>
      cases y with
      | error e' => cases hr; exact ⟨rfl, rfl, P, fun _ _ h => h, I, rfl, hE⟩
      | ok b => exact hr.elim
    | ok a =>
      cases y with
      | error e' => exact hr.elim
      | ok b => exact ⟨rfl, hr.2, P, fun _ _ h => h, I, hr.1, hE⟩
  | trap e =>
    intro st i i' evs evs' P objs objs' I junk junk' tbl tbl' ht hi hE s s'
    exact ⟨rfl, rfl, P, fun _ _ h => h, I, rfl, hE⟩
  | call f ws mem k ih =>
    intro st i i' evs evs' P objs objs' I junk junk' tbl tbl' ht hi hE s s'
    have J := diagnose_inv I junk junk'
    simp only [run] at s s' ⊢
    generalize diagnose objs junk = h at J s ⊢
    generalize diagnose objs' junk' = h' at J s' ⊢
    have key : h.1.length + mem.length / 8 < 2^31 := by
      cases hd : dispatchH (fun o => valCmp o d) ⟨mem, h.1, tbl⟩ f ws with
      | error e => rw [hd] at s; exact s
      | ok x => rw [hd] at s; exact Nat.le_trans (Nat.le_max_left _ _) s
    have key' : h'.1.length + mem.length / 8 < 2^31 := by
      cases hd : dispatchH (fun o => valCmp o d) ⟨mem, h'.1, tbl'⟩ f ws with
      | error e => rw [hd] at s'; exact s'
      | ok x => rw [hd] at s'; exact Nat.le_trans (Nat.le_max_left _ _) s'
    have hr := rr_dispatch J ht key key' d f ws
    generalize dispatchH (fun o => valCmp o d) ⟨mem, h.1, tbl⟩ f ws = x at hr s ⊢
    generalize dispatchH (fun o => valCmp o d) ⟨mem, h'.1, tbl'⟩ f ws = y at hr s' ⊢
    cases x with
    | error e =>
      cases y with
      | error e' => cases hr; exact ⟨rfl, rfl, P, fun _ _ h => h, J, rfl, hE⟩
      | ok b => exact hr.elim
    | ok a =>
      cases y with
      | error e' => exact hr.elim
      | ok b =>
        obtain ⟨⟨m, o, t⟩, n⟩ := a
        obtain ⟨⟨m', o', t'⟩, n'⟩ := b
        obtain ⟨hn, hm, Q, hq, K, hT⟩ := hr
        cases hn
        cases hm
        obtain ⟨hlog, hst, Q', hq', K', hres⟩ := ih n m st K h.2 h'.2 hT (hi.mono hq)
          (hE.imp fun _ _ => E.mono hq) (Nat.le_trans (Nat.le_max_right _ _) s)
          (Nat.le_trans (Nat.le_max_right _ _) s')
        exact ⟨congrArg (Seen.after n m :: ·) hlog, hst, Q', fun i j h => hq' _ _ (hq _ _ h), K', hres⟩
  | ledger ws g k ih =>
    intro st i i' evs evs' P objs objs' I junk junk' tbl tbl' ht hi hE s s'
    have J := diagnose_inv I junk junk'
    simp only [run] at s s' ⊢
    generalize diagnose objs junk = h at J s ⊢
    generalize diagnose objs' junk' = h' at J s' ⊢
    have key : h.1.length ≤ 2^31 := by
      cases hd : ledgerArgs d h.1 tbl ws >>= g st with
      | error e => rw [hd] at s; exact s
      | ok x =>
        rw [hd] at s
        simp only at s
        cases hl : giveBack d h.1 tbl x.2 <;> rw [hl] at s <;> simp only at s <;> omega
    have key' : h'.1.length ≤ 2^31 := by
      cases hd : ledgerArgs d h'.1 tbl' ws >>= g st with
      | error e => rw [hd] at s'; exact s'
      | ok x =>
        rw [hd] at s'
        simp only at s'
        cases hl : giveBack d h'.1 tbl' x.2 <;> rw [hl] at s' <;> simp only at s' <;> omega
    rw [← ledgerArgs_same J key key' d ht ws] at s' ⊢
    cases hx : ledgerArgs d h.1 tbl ws >>= g st with
    | error e => exact ⟨rfl, rfl, P, fun _ _ h => h, J, rfl, hE⟩
    | ok x =>
      rw [hx] at s s'
      simp only at s s' ⊢
      have room : h.1.length + nodes x.2 ≤ 2^31 := by
        cases hl : giveBack d h.1 tbl x.2 <;> rw [hl] at s <;> simp only at s <;> omega
      have room' : h'.1.length + nodes x.2 ≤ 2^31 := by
        cases hl : giveBack d h'.1 tbl' x.2 <;> rw [hl] at s' <;> simp only at s' <;> omega
      have hr := rr_giveBack J d ht x.2 room room'
      generalize giveBack d h.1 tbl x.2 = y at hr s ⊢
      generalize giveBack d h'.1 tbl' x.2 = y' at hr s' ⊢
      cases y with
      | error e =>
        cases y' with
        | error e' => cases hr; exact ⟨rfl, rfl, P, fun _ _ h => h, J, rfl, hE⟩
        | ok b => exact hr.elim
      | ok a =>
        cases y' with
        | error e' => exact hr.elim
        | ok b =>
          obtain ⟨o, t, n⟩ := a
          obtain ⟨o', t', n'⟩ := b
          obtain ⟨hn, Q, hq, K, hT⟩ := hr
          cases hn
          obtain ⟨hlog, hst, Q', hq', K', hres⟩ := ih n x.1 K h.2 h'.2 hT (hi.mono hq)
            (hE.imp fun _ _ => E.mono hq) (Nat.le_trans (Nat.le_max_right _ _) s)
            (Nat.le_trans (Nat.le_max_right _ _) s')
          exact ⟨congrArg (Seen.word n :: ·) hlog, hst, Q', fun i j h => hq' _ _ (hq _ _ h), K', hres⟩
  | log ws k ih =>
    intro st i i' evs evs' P objs objs' I junk junk' tbl tbl' ht hi hE s s'
    have J := diagnose_inv I junk junk'
    simp only [run] at s s' ⊢
    generalize diagnose objs junk = h at J s ⊢
    generalize diagnose objs' junk' = h' at J s' ⊢
    have G := diagnose_inv J h.2 h'.2
    obtain ⟨j, hj⟩ := diagnose_append h.1 h.2
    obtain ⟨j', hj'⟩ := diagnose_append h'.1 h'.2
    have l0 : h.1.length ≤ (diagnose h.1 h.2).1.length := by rw [hj, List.length_append]; omega
    have l0' : h'.1.length ≤ (diagnose h'.1 h'.2).1.length := by rw [hj', List.length_append]; omega
    clear hj hj'
    generalize diagnose h.1 h.2 = g at G s l0 ⊢
    generalize diagnose h'.1 h'.2 = g' at G s' l0' ⊢
    have key : h.1.length ≤ 2^31 := by
      cases hd : marshalArgs h.1 tbl [.u32, .u32, .u32, .u32] ws <;> rw [hd] at s <;> simp only at s <;> omega
    have key' : h'.1.length ≤ 2^31 := by
      cases hd : marshalArgs h'.1 tbl' [.u32, .u32, .u32, .u32] ws <;> rw [hd] at s' <;> simp only at s' <;> omega
    have hr := rr_marshalArgs J key key' ht [.u32, .u32, .u32, .u32] ws
    generalize marshalArgs h.1 tbl [.u32, .u32, .u32, .u32] ws = x at hr s ⊢
    generalize marshalArgs h'.1 tbl' [.u32, .u32, .u32, .u32] ws = y at hr s' ⊢
    cases x with
    | error e =>
      cases y with
      | error e' => cases hr; exact ⟨rfl, rfl, P, fun _ _ h => h, G, rfl, hE⟩
      | ok b => exact hr.elim
    | ok a =>
      cases y with
      | error e' => exact hr.elim
      | ok b =>
        obtain ⟨hlog, hst, Q', hq', K', hres⟩ := ih valVoid st G g.2 g'.2 ht hi hE (Nat.le_trans (Nat.le_max_right _ _) s)
          (Nat.le_trans (Nat.le_max_right _ _) s')
        exact ⟨congrArg (Seen.word valVoid :: ·) hlog, hst, Q', hq', K', hres⟩
  | event cid ws k ih =>
    intro st i i' evs evs' P objs objs' I junk junk' tbl tbl' ht hi hE s s'
    have J := diagnose_inv I junk junk'
    simp only [run] at s s' ⊢
    generalize diagnose objs junk = h at J s ⊢
    generalize diagnose objs' junk' = h' at J s' ⊢
    have key : h.1.length + 1 ≤ 2^31 := by
      cases hd : makeEvent h.1 tbl cid ws <;> rw [hd] at s <;> simp only at s <;> omega
    have key' : h'.1.length + 1 ≤ 2^31 := by
      cases hd : makeEvent h'.1 tbl' cid ws <;> rw [hd] at s' <;> simp only at s' <;> omega
    have hr := rr_makeEvent J key key' ht cid ws
    generalize makeEvent h.1 tbl cid ws = x at hr s ⊢
    generalize makeEvent h'.1 tbl' cid ws = y at hr s' ⊢
    cases x with
    | error e =>
      cases y with
      | error e' => cases hr; exact ⟨rfl, rfl, P, fun _ _ h => h, J, rfl, hE⟩
      | ok b => exact hr.elim
    | ok a =>
      cases y with
      | error e' => exact hr.elim
      | ok b =>
        obtain ⟨Q, hq, K, he⟩ := hr
        obtain ⟨hlog, hst, Q', hq', K', hres⟩ := ih valVoid st K h.2 h'.2 (ht.imp fun _ _ => W.mono hq) (hi.mono hq)
          (rel_append (hE.imp fun _ _ => E.mono hq) (.cons he .nil)) (Nat.le_trans (Nat.le_max_right _ _) s)
          (Nat.le_trans (Nat.le_max_right _ _) s')
        exact ⟨congrArg (Seen.word valVoid :: ·) hlog, hst, Q', fun i j h => hq' _ _ (hq _ _ h), K', hres⟩
  | inst op ws k ih =>
    intro st i i' evs evs' P objs objs' I junk junk' tbl tbl' ht hi hE s s'
    have J := diagnose_inv I junk junk'
    simp only [run] at s s' ⊢
    rw [← hi.base] at s' ⊢
    generalize diagnose objs junk = h at J s ⊢
    generalize diagnose objs' junk' = h' at J s' ⊢
    have key : h.1.length + nodesEntries i.base ≤ 2^31 := by
      cases hd : callInst d h.1 tbl i op ws <;> rw [hd] at s <;> simp only at s <;> omega
    have key' : h'.1.length + nodesEntries i.base ≤ 2^31 := by
      cases hd : callInst d h'.1 tbl' i' op ws <;> rw [hd] at s' <;> simp only at s' <;> omega
    have hr := rr_callInst J d ht hi key key' op ws
    generalize callInst d h.1 tbl i op ws = x at hr s ⊢
    generalize callInst d h'.1 tbl' i' op ws = y at hr s' ⊢
    cases x with
    | error e =>
      cases y with
      | error e' => cases hr; exact ⟨rfl, rfl, P, fun _ _ h => h, J, rfl, hE⟩
      | ok b => exact hr.elim
    | ok a =>
      cases y with
      | error e' => exact hr.elim
      | ok b =>
        obtain ⟨o, t, j, n⟩ := a
        obtain ⟨o', t', j', n'⟩ := b
        obtain ⟨hn, Q, hq, K, hT, hj⟩ := hr
        cases hn
        obtain ⟨hlog, hst, Q', hq', K', hres⟩ := ih n st K h.2 h'.2 hT hj (hE.imp fun _ _ => E.mono hq)
          (Nat.le_trans (Nat.le_max_right _ _) s) (Nat.le_trans (Nat.le_max_right _ _) s')
        exact ⟨congrArg (Seen.word n :: ·) hlog, hst, Q', fun i j h => hq' _ _ (hq _ _ h), K', hres⟩
  | tryCall a home callee k ih1 ih2 =>
    intro st i i' evs evs' P objs objs' I junk junk' tbl tbl' ht hi hE s s'
    have J := diagnose_inv I junk junk'
    simp only [run] at s s' ⊢
    generalize diagnose objs junk = h at J s ⊢
    generalize diagnose objs' junk' = h' at J s' ⊢
    have key : h.1.length ≤ 2^31 := by
      cases hd : enterCall h.1 tbl a with
      | error e => rw [hd] at s; exact s
      | ok x =>
        rw [hd] at s
        simp only at s
        generalize run d (callee x.2) (home.open st) st evs h.1 h.2 x.1 = r at s
        generalize diagnose r.objs r.junk = g at s
        cases hl : leaveCall g.1 tbl r.res <;> rw [hl] at s <;> simp only at s <;> omega
    have key' : h'.1.length ≤ 2^31 := by
      cases hd : enterCall h'.1 tbl' a with
      | error e => rw [hd] at s'; exact s'
      | ok x =>
        rw [hd] at s'
        simp only at s'
        generalize run d (callee x.2) (home.open st) st evs' h'.1 h'.2 x.1 = r at s'
        generalize diagnose r.objs r.junk = g at s'
        cases hl : leaveCall g.1 tbl' r.res <;> rw [hl] at s' <;> simp only at s' <;> omega
    have hr := rr_enterCall J key key' ht a
    generalize enterCall h.1 tbl a = x at hr s ⊢
    generalize enterCall h'.1 tbl' a = y at hr s' ⊢
    cases x with
    | error e =>
      cases y with
      | error e' => cases hr; exact ⟨rfl, rfl, P, fun _ _ h => h, J, rfl, hE⟩
      | ok b => exact hr.elim
    | ok x =>
      cases y with
      | error e' => exact hr.elim
      | ok y =>
        obtain ⟨t, rs⟩ := x
        obtain ⟨t', rs'⟩ := y
        obtain ⟨hT, hrs⟩ := hr
        cases hrs
        simp only at s s' ⊢
        have ih1 := ih1 rs st J h.2 h'.2 hT (InstRel.opened home st) hE
        generalize run d (callee rs) (home.open st) st evs h.1 h.2 t = r at *
        generalize run d (callee rs) (home.open st) st evs' h'.1 h'.2 t' = r' at *
        have l : r.peak ≤ 2^31 ∧ (diagnose r.objs r.junk).1.length ≤ 2^31 := by
          generalize diagnose r.objs r.junk = g at s
          cases hl : leaveCall g.1 tbl r.res <;> rw [hl] at s <;> simp only at s <;> omega
        have l' : r'.peak ≤ 2^31 ∧ (diagnose r'.objs r'.junk).1.length ≤ 2^31 := by
          generalize diagnose r'.objs r'.junk = g at s'
          cases hl : leaveCall g.1 tbl' r'.res <;> rw [hl] at s' <;> simp only at s' <;> omega
        obtain ⟨hlog, hst, Q, hq, K, hres, hev⟩ := ih1 l.1 l'.1
        have hE' := keepEvents_same evs.length hev hres
        rw [← hE.length_eq] at s' ⊢
        have hk := keep_same st hst hres
        rw [← hk] at s' ⊢
        clear hk
        have K' := diagnose_inv K r.junk r'.junk
        have l := l.2
        have l' := l'.2
        generalize diagnose r.objs r.junk = g at *
        generalize diagnose r'.objs r'.junk = g' at *
        have hr := rr_leaveCall K' l l' (ht.imp fun _ _ => W.mono hq) hres
        generalize leaveCall g.1 tbl r.res = x at *
        generalize leaveCall g'.1 tbl' r'.res = y at *
        cases x with
        | error e =>
          cases y with
          | error e' => cases hr; exact ⟨by rw [hlog], rfl, Q, hq, K', rfl, hE'⟩
          | ok b => exact hr.elim
        | ok x =>
          cases y with
          | error e' => exact hr.elim
          | ok y =>
            obtain ⟨t, w⟩ := x
            obtain ⟨t', w'⟩ := y
            obtain ⟨hT, hw⟩ := hr
            cases hw
            simp only at s s' ⊢
            obtain ⟨hlog', hst', Q', hq', K'', hres'⟩ := ih2 w (keep st r) K' g.2 g'.2 hT (hi.mono hq) hE'
              (Nat.le_trans (Nat.le_max_right _ _) (Nat.le_trans (Nat.le_max_right _ _) (Nat.le_trans (Nat.le_max_right _ _) s)))
              (Nat.le_trans (Nat.le_max_right _ _) (Nat.le_trans (Nat.le_max_right _ _) (Nat.le_trans (Nat.le_max_right _ _) s')))
            refine ⟨?_, hst', Q', fun i j h => hq' _ _ (hq _ _ h), K'', hres'⟩
            simp only
            rw [hlog, hlog']

end Soroban.Diagnostics
