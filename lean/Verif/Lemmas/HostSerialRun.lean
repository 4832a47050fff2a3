import Verif.Lemmas.HostSerial
import Verif.Lemmas.HostCreate
/-! The functions of a contract run as if they were alone, for C98: induction over the code. -/
namespace Soroban.Host
open Soroban Soroban.Auth Soroban.Host.Spec
open Soroban.Storage Soroban.Storage.Spec

private theorem removeKey_get (m : FMap Nat Nat) (k k' : Nat) : (removeKey m k).get k' = if k' = k then none else m.get k' := by
  unfold removeKey
  induction m with
  | nil => split <;> rfl
  | cons x m ih =>
    obtain ⟨a, v⟩ := x
    by_cases ha : a = k
    · rw [List.filter_cons_of_neg (by simpa using ha), ih]
      by_cases hk : k' = k
      · rw [if_pos hk, if_pos hk]
      · rw [if_neg hk, if_neg hk]
        rw [FMap.get, if_neg (by omega)]
    · rw [List.filter_cons_of_pos (by simpa using ha)]
      rw [FMap.get, FMap.get]
      by_cases hak : a = k'
      · rw [if_pos hak, if_pos hak, if_neg (by omega)]
      · rw [if_neg hak, if_neg hak]; exact ih


section
variable {E : HEnv} {orig : List Acct} {L0 B : Ledger LKey LVal} {N : Prop} {c : Nat} {Code : Name → Prog → Prop}

theorem onStack_top {s : Host} (h : topContract s.ctx = some c) : OnStack c s := top_onStack h

theorem _root_.Soroban.Host.Spec.OneByOne.trans {d d1 d2 : Own} (h : OneByOne c Code d d1) (h' : OneByOne c Code d1 d2) : OneByOne c Code d d2 := by
  induction h with
  | nil => exact h'
  | cons hc ha _ ih => exact .cons hc ha (ih h')

/-- What a host function does to the data of a contract that did not call it. -/
structure Outer (E : HEnv) (B : Ledger LKey LVal) (N : Prop) (c : Nat) (Code : Name → Prog → Prop) (s s' : Host) : Prop where
  exist : Here E B N c s'
  on : OnStack c s → own E B s' c = own E B s c
  off : ¬ OnStack c s → OneByOne c Code (own E B s c) (own E B s' c)

theorem Sees.outer {s s' : Host} (h : Sees E c s s') (hx : Here E B N c s) : Outer E B N c Code s s' :=
  ⟨h.exist hx, fun _ => h.same hx, fun _ => by rw [h.same hx]; exact .nil⟩

theorem Outer.trans {s s1 s' : Host} (h : Outer E B N c Code s s1) (hs : OnStack c s1 ↔ OnStack c s) (h' : Outer E B N c Code s1 s') :
    Outer E B N c Code s s' :=
  ⟨h'.exist, fun ho => (h'.on (hs.mpr ho)).trans (h.on ho), fun ho => (h.off ho).trans (h'.off (fun hx => ho (hs.mp hx)))⟩

/-- What code does to the data of contract `c`: its own, or that of another contract. -/
structure Eff (E : HEnv) (B : Ledger LKey LVal) (N : Prop) (c : Nat) (Code : Name → Prog → Prop) (p : Prog) (s s' : Host) : Prop where
  exist : Here E B N c s'
  top : topContract s.ctx = some c → Alone c p (own E B s c) (own E B s' c)
  outer : topContract s.ctx ≠ some c → Outer E B N c Code s s'

/-- To be proved by induction for every code. -/
def Main (E : HEnv) (orig : List Acct) (L0 B : Ledger LKey LVal) (N : Prop) (c : Nat) (Code : Name → Prog → Prop) (p : Prog) : Prop :=
  ∀ s s' v, Apt E orig L0 s → Here E B N c s → run E p s = (s', .ok v) → Eff E B N c Code p s s'

theorem seq {α : Type} {r : Host × Res α} {k : α → Host → Host × Res RVal} {s' : Host} {v : RVal} (h : andThen r k = (s', .ok v)) :
    ∃ s1 x, r = (s1, .ok x) ∧ k x s1 = (s', .ok v) := by
  obtain ⟨s1, r⟩ := r
  cases r with
  | error e => cases h
  | ok x => exact ⟨s1, x, rfl, h⟩

/-- Host functions that leave the data of the contract alone. -/
theorem eff_sees {p next : Prog} {α : Type} {s s1 s' : Host} {x : α} {v : RVal} (hf : Apt E orig L0 s) (hx : Here E B N c s)
    (hg : Good E orig s (s1, Except.ok x)) (hs : Sees E c s s1) (hn : run E next s1 = (s', .ok v)) (ih : Main E orig L0 B N c Code next)
    (ha : ∀ d d', Alone c next d d' → Alone c p d d') : Eff E B N c Code p s s' := by
  have h1 := ih s1 s' v (hf.next hg) (hs.exist hx) hn
  have ht : topContract s1.ctx = topContract s.ctx := topContract_same hg.le.ctx.same
  refine ⟨h1.exist, fun h => ?_, fun h => ?_⟩
  · rw [← hs.same hx]; exact ha _ _ (h1.top (by rw [ht]; exact h))
  · exact (hs.outer hx).trans (onStack_same hg.le.ctx.same) (h1.outer (by rw [ht]; exact h))

/-- Host functions of which the effects are known in both cases. -/
theorem eff_step {p next : Prog} {α : Type} {s s1 s' : Host} {x : α} {v : RVal} (hf : Apt E orig L0 s)
    (hg : Good E orig s (s1, Except.ok x)) (hx1 : Here E B N c s1) (hn : run E next s1 = (s', .ok v))
    (ih : Main E orig L0 B N c Code next) (ho : topContract s.ctx ≠ some c → Outer E B N c Code s s1)
    (ha : topContract s.ctx = some c → ∀ d', Alone c next (own E B s1 c) d' → Alone c p (own E B s c) d') : Eff E B N c Code p s s' := by
  have h1 := ih s1 s' v (hf.next hg) hx1 hn
  have ht : topContract s1.ctx = topContract s.ctx := topContract_same hg.le.ctx.same
  refine ⟨h1.exist, fun h => ?_, fun h => ?_⟩
  · exact ha h _ (h1.top (by rw [ht]; exact h))
  · exact (ho h).trans (onStack_same hg.le.ctx.same) (h1.outer (by rw [ht]; exact h))

/-! ### storage functions -/

theorem write_val {s : Host} (h : StOk E s.st) {k : LKey} (u : LVal) (hr : ∃ x, (Storage.write E.sto s.st k (fun _ => u)).2 = .ok x) :
    (∃ l, ledger E (Storage.write E.sto s.st k (fun _ => u)).1 = (ledger E s.st).set k (some (u, l))) ∧ perm s k = true := by
  obtain ⟨s', hm, hp, _⟩ := write_spec h.mode h.map k (fun _ => u)
  obtain ⟨x, hr⟩ := hr
  rw [hp] at hr ⊢
  rw [show ledger E s' = _ from hm.abs]
  cases hL : updateAt E.sto (permOf s.st.mode s.st.footprint) (absMap E.sto s.st.mode s.st.map) k (fun _ => u) with
  | error e => rw [hL] at hr; cases hr
  | ok L' =>
    refine ⟨?_, ?_⟩
    · show ∃ l, L' = _
      have aux : ∀ e, writeAt E.sto (permOf s.st.mode s.st.footprint) (absMap E.sto s.st.mode s.st.map) k (some e) = .ok L' →
          L' = (absMap E.sto s.st.mode s.st.map).set k (some e) := by
        intro e hw
        unfold writeAt at hw
        split at hw
        · split at hw
          · cases hw
          · split at hw
            · cases hw; rfl
            · cases hw
        · cases hw
      unfold updateAt at hL
      split at hL
      · cases hL
      · exact ⟨_, aux _ hL⟩
      · split at hL
        · cases hL
        · exact ⟨_, aux _ hL⟩
    · unfold perm
      by_cases hx : permOf s.st.mode s.st.footprint k .readOnly = true
      · exact hx
      · unfold updateAt at hL
        have hrd : ∀ y, readAt E.sto (permOf s.st.mode s.st.footprint) (absMap E.sto s.st.mode s.st.map) k ≠ .ok y := by
          intro y hy
          unfold readAt at hy
          simp only [hx] at hy
          split at hy <;> cases hy
        split at hL
        · cases hL
        · rename_i hy; exact absurd hy (hrd _)
        · rename_i hy; exact absurd hy (hrd _)

theorem putOpt_perm {s : Host} (h : StOk E s.st) {k : LKey} {e : Option (Entry LVal)} (he : LiveEntry E.sto k e) {x : Unit}
    (hr : (putOpt E.sto s.st k e).2 = .ok x) : perm s k = true := by
  obtain ⟨s', _, hp, _⟩ := putOpt_spec h.map k he
  rw [hp] at hr
  have hw : permOf s.st.mode s.st.footprint k .readWrite = true := by
    cases hL : writeAt E.sto (permOf s.st.mode s.st.footprint) (absMap E.sto s.st.mode s.st.map) k e with
    | error e => rw [hL] at hr; cases hr
    | ok L' =>
      unfold writeAt at hL
      split at hL
      · split at hL
        · cases hL
        · split at hL
          · assumption
          · cases hL
      · cases hL
  unfold perm
  unfold permOf at hw ⊢
  cases hmo : s.st.mode with
  | recording src => rfl
  | enforcing => rw [hmo] at hw; exact allows_rw_ro hw

theorem own_entry {s : Host} {k : DKey} {u : Durability} (h : perm s (.data (.contract c) k u) = true) :
    (own E B s c).entries k u = (ledger E s.st (.data (.contract c) k u)).map Prod.fst := by
  unfold own
  simp only [declared_eq, h, if_true]
  rfl

theorem own_set {s s1 : Host} {k : DKey} {u : Durability} {e : Option (Entry LVal)} {m : FMap Nat Nat} (hm : instView E s c = some m)
    (hm1 : instView E s1 c = some m) (hp : perm s1 = perm s) (hk : perm s (.data (.contract c) k u) = true)
    (hl : ledger E s1.st = (ledger E s.st).set (.data (.contract c) k u) e) :
    own E B s1 c = { own E B s c with entries := fun k' u' => if k' = k ∧ u' = u then e.map Prod.fst else (own E B s c).entries k' u' } := by
  unfold own
  rw [hm, hm1]
  congr 1
  funext k' u'
  simp only [declared_eq, hp]
  show (if perm s _ = true then ledger E s1.st _ else _).map Prod.fst = _
  rw [hl]
  unfold Ledger.set
  by_cases hx : k' = k ∧ u' = u
  · obtain ⟨rfl, rfl⟩ := hx
    rw [if_pos hk, if_pos rfl, if_pos ⟨rfl, rfl⟩]
  · rw [if_neg hx]
    by_cases hy : perm s (.data (.contract c) k' u') = true
    · rw [if_pos hy, if_pos hy, if_neg (fun he => by cases he; exact hx ⟨rfl, rfl⟩)]; rfl
    · rw [if_neg hy, if_neg hy]

theorem dataOp_step {s s1 : Host} (h : StOk E s.st) (ht : topContract s.ctx = some c) {o : DataOp} {r : Out LVal} {m : FMap Nat Nat}
    (hm : instView E s c = some m) (hd : dataOp E s c o = (s1, .ok r)) : DataStep (own E B s c) o (own E B s1 c) r := by
  have hon := dataOp_only (E := E) h c ht o
  rw [hd] at hon
  have hm1 := hon.unchanged c m hm
  have same : HDV E s s1 → own E B s1 c = own E B s c := fun hv => (sees_of hon hv c).same (B := B) (N := False) (Or.inl (by rw [hm]; rfl))
  have hp1 : perm s1 = perm s := perm_le hon.st
  cases o with
  | get k u =>
    have h1 := getEntry_read (E := E) h (.data (.contract c) k u)
    simp only [dataOp] at hd
    rcases hx : liftSt s (fun st => getEntry E.sto st (.data (.contract c) k u)) with ⟨s2, r2⟩
    rw [hx] at hd h1
    cases r2 with
    | error e => cases hd
    | ok e =>
      cases hd
      rw [same h1.dv]
      have hv := (getEntry_val h (k := .data (.contract c) k u) (e := e) (congrArg Prod.snd hx)).1
      exact .get (v := e.1) (l := e.2) (by rw [own_entry (getEntry_perm h (congrArg Prod.snd hx)), hv]; rfl)
  | has k u =>
    have h1 := has_read (E := E) h (.data (.contract c) k u)
    simp only [dataOp] at hd
    rcases hx : liftSt s (fun st => Storage.has E.sto st (.data (.contract c) k u)) with ⟨s2, r2⟩
    rw [hx] at hd h1
    cases r2 with
    | error e => cases hd
    | ok b =>
      cases hd
      rw [same h1.dv]
      have hv := has_val h (k := .data (.contract c) k u) (b := b) (congrArg Prod.snd hx)
      have : ((own E B s c).entries k u).isSome = b := by
        rw [own_entry (has_perm h (congrArg Prod.snd hx)), Option.isSome_map]; exact hv
      rw [← this]
      exact .has
  | put k v u =>
    have h1 := validatePut_read (E := E) h k v u
    simp only [dataOp] at hd
    rcases hx : validatePut E s k v u with ⟨s2, r2⟩
    rw [hx] at hd h1
    cases r2 with
    | error e => cases hd
    | ok y =>
      simp only at hd
      rcases hw : liftSt s2 (fun st => Storage.write E.sto st (.data (.contract c) k u) (fun _ => .data v)) with ⟨s3, r3⟩
      rw [hw] at hd
      cases r3 with
      | error e => cases hd
      | ok z =>
        cases hd
        obtain ⟨⟨l, hl⟩, hpk⟩ := write_val (E := E) h1.ok (k := .data (.contract c) k u) (.data v) ⟨z, congrArg Prod.snd hw⟩
        have hl3 : ledger E s3.st = (ledger E s.st).set (.data (.contract c) k u) (some (.data v, l)) := by
          have := congrArg (fun r => ledger E r.1.st) hw
          exact (this.symm.trans hl).trans (by rw [h1.ledger])
        rw [own_set hm hm1 hp1 (by rw [← perm_le h1.only.st]; exact hpk) hl3]
        exact .put
  | del k u =>
    cases k with
    | tag n => cases hd
    | val n =>
      simp only [dataOp] at hd
      rcases hw : liftSt s (fun st => putOpt E.sto st (.data (.contract c) (.val n) u) none) with ⟨s3, r3⟩
      rw [hw] at hd
      cases r3 with
      | error e => cases hd
      | ok z =>
        cases hd
        have hpk : perm s (.data (.contract c) (.val n) u) = true :=
          putOpt_perm h (e := none) (fun v l d h => by cases h) (x := z) (congrArg Prod.snd hw)
        have hl3 : ledger E s3.st = (ledger E s.st).set (.data (.contract c) (.val n) u) none := by
          have hz : (putOpt E.sto s.st (.data (.contract c) (.val n) u) none).2 = .ok z := congrArg Prod.snd hw
          have h3 := congrArg (fun r => ledger E r.1.st) hw
          rcases putOpt_ledger (E := E) h (k := .data (.contract c) (.val n) u) (e := none) (fun v l d h => by cases h) with ⟨_, hL⟩ | ⟨⟨e, he⟩, _⟩
          · exact h3.symm.trans hL
          · rw [he] at hz; cases hz
        rw [own_set hm hm1 hp1 hpk hl3]
        exact .del
  | extend k u t x =>
    have h1 := extendTtl_dv (E := E) h (.data (.contract c) k u) t x
    have h2 : HDV E s s1 := by
      have := congrArg (fun r => ledger E r.1.st) hd
      exact h1.trans (DV.of_eq this.symm)
    rw [same h2]; exact .other (fun hx => hx)
  | extendV2 k u x a b =>
    have h1 := extendTtlV2_dv (E := E) h (.data (.contract c) k u) x a b
    have h2 : HDV E s s1 := by
      have := congrArg (fun r => ledger E r.1.st) hd
      exact h1.trans (DV.of_eq this.symm)
    rw [same h2]; exact .other (fun hx => hx)
  | extendContract c' scope x =>
    have h1 := extendContract_dv (E := E) h (c'.getD c) scope x
    have h2 : HDV E s s1 := by
      have := congrArg (fun r => ledger E r.1.st) hd
      exact h1.trans (DV.of_eq this.symm)
    rw [same h2]; exact .other (fun hx => hx)
  | getClassic n =>
    have h1 := getEntry_read (E := E) h (.classic n)
    simp only [dataOp] at hd
    rcases hx : liftSt s (fun st => getEntry E.sto st (.classic n)) with ⟨s2, r2⟩
    rw [hx] at hd h1
    cases r2 with
    | error e => cases hd
    | ok e => cases hd; rw [same h1.dv]; exact .other (fun hx => hx)
  | putClassic n v =>
    simp only [dataOp] at hd
    rcases hw : liftSt s (fun st => Storage.write E.sto st (.classic n) (fun _ => .classic v)) with ⟨s3, r3⟩
    rw [hw] at hd
    cases r3 with
    | error e => cases hd
    | ok z =>
      cases hd
      obtain ⟨⟨l, hl⟩, _⟩ := write_val (E := E) h (k := .classic n) (.classic v) ⟨z, congrArg Prod.snd hw⟩
      have h2 : HDV E s s3 := by
        have h3 := congrArg (fun r => ledger E r.1.st) hw
        intro a k d
        rw [show ledger E s3.st = _ from h3.symm.trans hl]
        unfold Ledger.set
        rw [if_neg (fun he => by cases he)]
      rw [same h2]; exact .other (fun hx => hx)

theorem instOp_step {s s1 : Host} (h : HOk E orig s) (ht : topContract s.ctx = some c) {o : InstOp} {r : Out LVal}
    (hd : instOp s o = (s1, .ok r)) : InstStep (own E B s c) o (own E B s1 c) r ∧ Here E B N c s1 := by
  obtain ⟨d, cs, hcs, hid⟩ := h.stack.top ht
  have hload : ∃ b, d.load = .ok (Spec.Ctx.contents d, b) := by
    unfold Ctx.load Spec.Ctx.contents
    cases hs : d.storage with
    | some x => exact ⟨x.2, rfl⟩
    | none => rw [hid]; exact ⟨false, rfl⟩
  obtain ⟨b, hload⟩ := hload
  have hop : instOp s o = ({ s with ctx := { d with storage := some (instStep (Spec.Ctx.contents d, b) o).1 } :: cs }, (instStep (Spec.Ctx.contents d, b) o).2) := by
    unfold instOp; rw [hcs]; simp only [hload]
  have hv : instView E s c = some (Spec.Ctx.contents d) := by rw [instView_eq, hcs]; exact viewOf_top hid
  have hv1 : instView E (instOp s o).1 c = some (instStep (Spec.Ctx.contents d, b) o).1.1 := by
    rw [hop, instView_eq]; exact viewOf_top (by exact hid)
  have hent : (own E B (instOp s o).1 c).entries = (own E B s c).entries := by rw [hop]; rfl
  have hin : ∀ k, (own E B s c).inst k = (Spec.Ctx.contents d).get k := fun k => by unfold own; rw [hv]; rfl
  have hin1 : ∀ k, (own E B (instOp s o).1 c).inst k = (instStep (Spec.Ctx.contents d, b) o).1.1.get k := fun k => by
    unfold own; rw [hv1]; rfl
  have hres : (instStep (Spec.Ctx.contents d, b) o).2 = .ok r := by rw [hop] at hd; exact congrArg Prod.snd hd
  have ext : ∀ x y : Own, x.entries = y.entries → (∀ k, x.inst k = y.inst k) → x = y := by
    intro x y h1 h2
    obtain ⟨xe, xi⟩ := x
    obtain ⟨ye, yi⟩ := y
    have h3 : xe = ye := h1
    have h4 : xi = yi := funext h2
    rw [h3, h4]
  rw [hd] at hv1 hent hin1
  refine ⟨?_, Or.inl (by rw [hv1]; rfl)⟩
  cases o with
  | get k =>
    have : own E B s1 c = own E B s c := ext _ _ hent (fun k => by rw [hin1, hin]; rfl)
    rw [this]
    simp only [instStep] at hres
    cases hg : (Spec.Ctx.contents d).get k with
    | none => rw [hg] at hres; cases hres
    | some v => rw [hg] at hres; cases hres; exact .get (by rw [hin]; exact hg)
  | has k =>
    have : own E B s1 c = own E B s c := ext _ _ hent (fun k => by rw [hin1, hin]; rfl)
    rw [this]
    simp only [instStep] at hres
    cases hres
    rw [← hin]
    exact .has
  | put k v =>
    cases hres
    have : own E B s1 c = { own E B s c with inst := fun k' => if k' = k then some v else (own E B s c).inst k' } :=
      ext _ _ hent (fun k' => by rw [hin1]; simp only [hin]; exact FMap.get_insert _ k k' v)
    rw [this]; exact .put
  | del k =>
    cases hres
    have : own E B s1 c = { own E B s c with inst := fun k' => if k' = k then none else (own E B s c).inst k' } :=
      ext _ _ hent (fun k' => by rw [hin1]; simp only [hin]; exact removeKey_get _ k k')
    rw [this]; exact .del

theorem instOp_other {s s1 : Host} (ht : topContract s.ctx ≠ some c) {o : InstOp} {r : Res (Out LVal)}
    (hd : instOp s o = (s1, r)) : Sees E c s s1 := by
  unfold instOp at hd
  cases hcs : s.ctx with
  | nil => rw [hcs] at hd; cases hd; exact Sees.refl E c s
  | cons d cs =>
    rw [hcs] at hd
    simp only at hd
    cases hl : d.load with
    | error e => rw [hl] at hd; cases hd; exact Sees.refl E c s
    | ok m =>
      rw [hl] at hd
      cases hd
      have h1 : d.cid ≠ some c := by
        intro hx
        apply ht
        rw [hcs]; unfold topContract; rw [List.filterMap_cons_some hx]; rfl
      have hv : instView E { s with ctx := { d with storage := some (instStep m o).1 } :: cs } c = instView E s c := by
        rw [instView_eq, instView_eq, hcs]
        unfold viewOf
        rw [framesOf_cons_ne h1, framesOf_cons_ne (by exact h1)]
      refine sees_mk (fun m hm => by rw [← hv] at hm; exact hm) (fun _ _ => rfl) rfl (fun _ hn => by rw [← hv] at hn; exact hn)
        (fun ha => ?_) (fun hn _ => Or.inl hn)
      rintro ⟨x, hx, hxc⟩
      have hx : x ∈ { d with storage := some (instStep m o).1 } :: cs := hx
      rcases List.mem_cons.mp hx with rfl | hx
      · exact h1 hxc
      · exact ha.1 ⟨x, by rw [hcs]; exact List.mem_cons_of_mem _ hx, hxc⟩

/-! ### calls -/

theorem onStack_push {s sp : Host} {d : Ctx} {id : Nat} (h : sp.ctx = d :: s.ctx) (hd : d.cid = some id) (hne : id ≠ c) :
    OnStack c sp ↔ OnStack c s := by
  unfold OnStack
  rw [h]
  constructor
  · rintro ⟨x, hx, hc⟩
    rcases List.mem_cons.mp hx with rfl | hx
    · rw [hd] at hc; cases hc; exact absurd rfl hne
    · exact ⟨x, hx, hc⟩
  · rintro ⟨x, hx, hc⟩
    exact ⟨x, List.mem_cons_of_mem _ hx, hc⟩

theorem top_push {s sp : Host} {d : Ctx} {id : Nat} (h : sp.ctx = d :: s.ctx) (hd : d.cid = some id) : topContract sp.ctx = some id := by
  rw [h]; unfold topContract; rw [List.filterMap_cons_some hd]; rfl

theorem call_outer {s s' : Host} (hf : Apt E orig L0 s) (hx : Here E B N c s) {id : Nat} {fn : Name} {internal : Bool}
    (hfn : internal = true → fn = constructorName) {p : Prog} {v : RVal} (hm : Main E orig L0 B N c Code p)
    (hcode : id = c → ¬ OnStack c s → Code fn p) (hc : callN E s id fn .prohibited internal (run E p) = (s', .ok v)) :
    Outer E B N c Code s s' ∧ (id = c → ¬ OnStack c s) := by
  obtain ⟨sp, b, w, d, hsp, hctx, hd, hrun, hn, hse, hse'⟩ := call_enters hf hfn p hc
  have hoff : id = c → ¬ OnStack c s := fun he ⟨x, hx, hxc⟩ => hn x hx (by rw [he]; exact hxc)
  refine ⟨?_, hoff⟩
  have h1 := hm sp b w hsp ((hse c).exist hx) hrun
  have hb := (hse' c).same h1.exist
  have ha := (hse c).same hx
  by_cases he : id = c
  · refine ⟨(hse' c).exist h1.exist, fun ho => absurd ho (hoff he), fun ho => ?_⟩
    have := h1.top (by rw [top_push hctx hd, he])
    rw [ha, ← hb] at this
    exact .cons (hcode he ho) this .nil
  · have h2 := h1.outer (by rw [top_push hctx hd]; intro hx; cases hx; exact he rfl)
    have hst := onStack_push (c := c) hctx hd he
    refine ⟨(hse' c).exist h1.exist, fun ho => ?_, fun ho => ?_⟩
    · rw [hb, h2.on (hst.mpr ho), ha]
    · have := h2.off (fun hx => ho (hst.mp hx))
      rw [ha] at this; rw [hb]; exact this

/-! ### authorizations -/

/-- What asking for an authorization does to the data of contract `c`; `mine` says that it is asked of the contract. -/
structure AuthEff (E : HEnv) (B : Ledger LKey LVal) (N : Prop) (c : Nat) (Code : Name → Prog → Prop) (mine : Prop) (check : Nat → Prog) (s s' : Host) : Prop where
  exist : Here E B N c s'
  top : topContract s.ctx = some c → own E B s' c = own E B s c ∨ (mine ∧ ∃ i, Alone c (check i) (own E B s c) (own E B s' c))
  outer : topContract s.ctx ≠ some c → Outer E B N c Code s s'

section
variable {mine : Prop} {check : Nat → Prog}

theorem Sees.authEff {s s' : Host} (h : Sees E c s s') (hx : Here E B N c s) : AuthEff E B N c Code mine check s s' :=
  ⟨h.exist hx, fun _ => Or.inl (h.same hx), fun _ => h.outer hx⟩

theorem AuthEff.before {s s1 s' : Host} (hx : Here E B N c s) (hs : Sees E c s s1) (hc : s1.ctx = s.ctx)
    (h : AuthEff E B N c Code mine check s1 s') : AuthEff E B N c Code mine check s s' := by
  have hon : OnStack c s1 ↔ OnStack c s := by unfold OnStack; rw [hc]
  refine ⟨h.exist, fun ht => ?_, fun ht => (hs.outer hx).trans hon (h.outer (by rw [hc]; exact ht))⟩
  have := h.top (by rw [hc]; exact ht)
  rw [hs.same hx] at this; exact this

theorem AuthEff.andOuter {s s1 s' : Host} (h : AuthEff E B N c Code mine check s s1) (hon : OnStack c s1 ↔ OnStack c s)
    (ho : Outer E B N c Code s1 s') : AuthEff E B N c Code mine check s s' := by
  refine ⟨ho.exist, fun ht => ?_, fun ht => (h.outer ht).trans hon ho⟩
  rw [ho.on (hon.mpr (onStack_top ht))]
  exact h.top ht

theorem AuthEff.after {s s1 s' : Host} (h : AuthEff E B N c Code mine check s s1) (hs : Sees E c s1 s') : AuthEff E B N c Code mine check s s' := by
  refine ⟨hs.exist h.exist, fun ht => by rw [hs.same h.exist]; exact h.top ht, fun ht => ?_⟩
  have h1 := h.outer ht
  exact ⟨hs.exist h.exist, fun ho => (hs.same h.exist).trans (h1.on ho), fun ho => by rw [hs.same h.exist]; exact h1.off ho⟩

theorem sees_auth (s : Host) (m : Mgr) : Sees E c s { s with auth := m } := ⟨fun h => h, fun _ => rfl⟩
theorem sees_auth' (s : Host) (m : Mgr) : Sees E c { s with auth := m } s := ⟨fun h => h, fun _ => rfl⟩

variable {a : Addr} (hm : ∀ i, Main E orig L0 B N c Code (check i)) (hcode : a = .contract c → ∀ i, Code checkAuthName (check i))
include hm hcode

theorem authenticate_eff {s s' : Host} (hf : Apt E orig L0 s) (hx : Here E B N c s) {i : Nat} {t : Acct} (ha : t.addr = a)
    (h : authenticate E s i t (run E (check i)) = (s', .ok ())) : AuthEff E B N c Code (a = .contract c) check s s' := by
  unfold authenticate at h
  by_cases hso : t.source = true
  · rw [if_pos hso] at h; cases h; exact (Sees.refl E c s).authEff hx
  rw [if_neg hso] at h
  cases hta : t.addr with
  | account n =>
    rw [hta] at h
    simp only at h
    have h1 := getEntry_read (E := E) hf.ok.st (.account n)
    rcases hg : liftSt s (fun st => getEntry E.sto st (.account n)) with ⟨s1, r⟩
    rw [hg] at h h1
    cases r with
    | error e => cases h
    | ok e =>
      obtain ⟨v, l⟩ := e
      have hs' : s1 = s' := congrArg Prod.fst h
      rw [← hs']
      exact (sees_of h1.only h1.dv c).authEff hx
  | contract id =>
    rw [hta] at h
    simp only at h
    rcases hc : callN E s id checkAuthName .selfAllowed true (run E (check i)) with ⟨s1, r⟩
    rw [hc] at h
    have hs' : s1 = s' := congrArg Prod.fst h
    have hr : expectVoid r = .ok () := congrArg Prod.snd h
    subst hs'
    cases r with
    | error e => cases hr
    | ok v =>
      obtain ⟨sp, b, w, d, hsp, hctx, hd, hrun, hn, hse, hse'⟩ := check_enters hf (check i) hc
      have h1 := hm i sp b w hsp ((hse c).exist hx) hrun
      have hb := (hse' c).same h1.exist
      have ha' := (hse c).same hx
      by_cases he : id = c
      · have hal := h1.top (by rw [top_push hctx hd, he])
        rw [ha', ← hb] at hal
        have hself : a = .contract c := by rw [← ha, hta, he]
        refine ⟨(hse' c).exist h1.exist, fun _ => Or.inr ⟨hself, i, hal⟩, fun ht => ?_⟩
        rcases hn with hn | hn
        · exact ⟨(hse' c).exist h1.exist, fun ⟨x, hxm, hxc⟩ => absurd (by rw [he]; exact hxc) (hn x hxm),
            fun _ => .cons (hcode hself i) hal .nil⟩
        · exact absurd (by rw [hn, he]) ht
      · have h2 := h1.outer (by rw [top_push hctx hd]; intro hx; cases hx; exact he rfl)
        have hst := onStack_push (c := c) hctx hd he
        have hout : Outer E B N c Code s s1 := by
          refine ⟨(hse' c).exist h1.exist, fun ho => ?_, fun ho => ?_⟩
          · rw [hb, h2.on (hst.mpr ho), ha']
          · have := h2.off (fun hx => ho (hst.mp hx))
            rw [ha'] at this; rw [hb]; exact this
        exact ⟨hout.exist, fun ht => Or.inl (hout.on (onStack_top ht)), fun _ => hout⟩

theorem verifyEntry_eff {s s' : Host} (hf : Apt E orig L0 s) (hx : Here E B N c s) {i : Nat} {t : Acct} (ha : t.addr = a)
    (h : verifyEntry E s i t (run E (check i)) = (s', .ok ())) : AuthEff E B N c Code (a = .contract c) check s s' := by
  unfold verifyEntry at h
  by_cases hv : t.verified = true
  · rw [if_pos hv] at h; cases h; exact (Sees.refl E c s).authEff hx
  rw [if_neg hv] at h
  have hg := (authenticate_spec (E := E) hf.ok i t (run_good (check i))).1
  rcases hau : authenticate E s i t (run E (check i)) with ⟨s1, r⟩
  rw [hau] at h hg
  cases r with
  | error e => cases h
  | ok u =>
    simp only at h
    have h1 := authenticate_eff hm hcode hf hx ha hau
    have h2 := sees_of (verifyNonce_spec (E := E) hg.ok.st t).1 (verifyNonce_dv (E := E) hg.ok.st t) c
    rcases hn : verifyNonce E s1 t with ⟨s2, r⟩
    rw [hn] at h h2
    cases r with
    | error e => cases h
    | ok u => cases h; exact (h1.after h2).after (sees_auth s2 _)

theorem requireEnforcing_eff {s s' : Host} (hf : Apt E orig L0 s) (hx : Here E B N c s) {f : AuthFn}
    (h : requireEnforcing E s a f (fun i => run E (check i)) = (s', .ok ())) : AuthEff E B N c Code (a = .contract c) check s s' := by
  unfold requireEnforcing at h
  cases hl : acctLoop a f (!s.auth.hasActive a) s.auth.accts 0 with
  | error e => rw [hl] at h; cases h
  | ok o =>
    rw [hl] at h
    cases o with
    | none => cases h
    | some x =>
      obtain ⟨i, tr, p⟩ := x
      obtain ⟨j, t, hj, ht, hb, hta, hext⟩ := acctLoop_spec hl
      rw [Nat.zero_add] at hj
      subst hj
      simp only [ht] at h
      have hf1 : Apt E orig L0 { s with auth := s.auth.recordMatch i tr p a f } := by
        rw [← hta]; exact ⟨match_hok hf.ok ht hb hext, match_strong hf.strong ht⟩
      rcases hv : verifyEntry E { s with auth := s.auth.recordMatch i tr p a f } i t (run E (check i)) with ⟨s2, r⟩
      rw [hv] at h
      have hs' : setAcct s2 i (fun t => { t with borrowed := false }) = s' := congrArg Prod.fst h
      have hr : r = .ok () := congrArg Prod.snd h
      subst hr
      rw [← hs']
      exact ((verifyEntry_eff hm hcode hf1 hx hta hv).before hx (sees_auth s (s.auth.recordMatch i tr p a f)) rfl).after (sees_auth s2 _)

theorem requireAuth_eff {s s' : Host} (hf : Apt E orig L0 s) (hx : Here E B N c s) {args : List Nat}
    (h : requireAuth E s a args (fun i => run E (check i)) = (s', .ok ())) : AuthEff E B N c Code (a = .contract c) check s s' := by
  unfold requireAuth at h
  split at h
  · cases h
  · rename_i fr _ _
    unfold requireInternal at h
    have h1 := checkInvoker_good hf.ok a (fr.toFn args)
    rcases hc : s.auth.checkInvoker a (fr.toFn args) with ⟨m, r⟩
    rw [hc] at h h1
    cases r with
    | error e => cases h
    | ok b =>
      cases b with
      | true => cases h; exact (sees_auth s m).authEff hx
      | false => exact (requireEnforcing_eff hm hcode (hf.next h1) hx h).before hx (sees_auth s m) rfl

end

/-! ### creation of contracts -/

theorem createWithId_new {s s1 : Host} (h : StOk E s.st) (hx : Here E B N c s) (ho : ¬ OnStack c s) {ex : Exec}
    (hc : createWithId E s c ex = (s1, .ok ())) : N := by
  obtain ⟨hnone, _⟩ := createWithId_ok h hc
  rcases hx with hx | ⟨_, hp⟩ | hx
  · have : instView E s c = none := view_none.mpr ⟨ho, by unfold instOf; rw [hnone]⟩
    rw [this] at hx; cases hx
  · unfold createWithId at hc
    rcases hg : liftSt s (fun st => Storage.has E.sto st (.inst c)) with ⟨s2, r⟩
    rw [hg] at hc
    cases r with
    | error e => cases hc
    | ok b =>
      have := has_perm (E := E) h (k := .inst c) (b := b) (congrArg Prod.snd hg)
      rw [hp] at this; cases this
  · exact hx.1

theorem createInstance_eff {s s' : Host} (hf : Apt E orig L0 s) (hx : Here E B N c s) {id : Nat} {args : CreateArgs}
    {ctor : Prog} (hm : Main E orig L0 B N c Code ctor) (hnew : N → id = c → Code (ctorNameOf args) ctor) (h : createInstance E s id args (run E ctor) = (s', .ok ())) : Outer E B N c Code s s' := by
  unfold createInstance at h
  rcases hc : createWithId E s id args.exec with ⟨s1, r⟩
  rw [hc] at h
  cases r with
  | error e => cases h
  | ok u =>
    simp only at h
    have hon := createWithId_only (E := E) hf.ok.st id args.exec
    have hdv := createWithId_dv (E := E) hf.ok.st id args.exec
    rw [hc] at hon hdv
    have h1 : Sees E c s s1 := sees_of hon hdv c
    have hx1 := h1.exist hx
    have hf1 : Apt E orig L0 s1 := hf.next (hon.good hf.ok (.ok ()))
    have hst1 : OnStack c s1 ↔ OnStack c s := by unfold OnStack; rw [hon.ctx]
    have hno : id = c → ¬ OnStack c s → Code (ctorNameOf args) ctor := fun he ho =>
      hnew (createWithId_new hf.ok.st hx ho (by rw [← he]; exact hc)) he
    refine (h1.outer hx).trans hst1 ?_
    by_cases hfa : args.fromAsset = true
    · rw [if_pos hfa] at h
      unfold initAsset at h
      rcases hcl : callN E s1 id initAssetName .prohibited false (run E ctor) with ⟨s2, r⟩
      rw [hcl] at h
      cases r with
      | error e => cases h
      | ok v =>
        cases h
        exact (call_outer hf1 hx1 (fun h => by cases h) hm (fun he ho => by
          have := hno he (fun hx => ho (hst1.mpr hx))
          rw [show ctorNameOf args = initAssetName from if_pos hfa] at this; exact this) hcl).1
    · rw [if_neg hfa] at h
      unfold callConstructor at h
      have hrd := supportsCtor_read (E := E) hf1.ok.st id
      rcases hsc : supportsCtor E s1 id with ⟨s2, r⟩
      rw [hsc] at h hrd
      cases r with
      | error e => cases h
      | ok b =>
        have h2 : Sees E c s1 s2 := sees_of hrd.only hrd.dv c
        have hst2 : OnStack c s2 ↔ OnStack c s1 := by unfold OnStack; rw [hrd.only.ctx]
        have hf2 : Apt E orig L0 s2 := hf1.next (hrd.only.good hf1.ok (.ok ()))
        refine (h2.outer hx1).trans hst2 ?_
        cases b with
        | false =>
          simp only at h
          by_cases ha : args.ctorArgs = []
          · rw [if_pos ha] at h; cases h; exact (Sees.refl E c _).outer (h2.exist hx1)
          · rw [if_neg ha] at h; cases h
        | true =>
          simp only at h
          rcases hcl : callN E s2 id constructorName .prohibited true (run E ctor) with ⟨s3, r⟩
          rw [hcl] at h
          have hs' : s3 = s' := congrArg Prod.fst h
          have hr : ctorResult r = .ok () := congrArg Prod.snd h
          subst hs'
          cases r with
          | error e =>
            unfold ctorResult at hr
            simp only at hr
            split at hr <;> cases hr
          | ok v =>
            exact (call_outer hf2 (h2.exist hx1) (fun _ => rfl) hm
              (fun he ho => by
                have := hno he (fun hx => ho (hst2.mpr (hst1.mpr hx)))
                rw [show ctorNameOf args = constructorName from if_neg hfa] at this; exact this) hcl).1

section
variable {check : Nat → Prog} {ctor : Prog} {dep : Option Addr}

theorem createWithAuth_eff (hm : ∀ i, Main E orig L0 B N c Code (check i)) (hcode : dep = some (.contract c) → ∀ i, Code checkAuthName (check i))
    (hmc : Main E orig L0 B N c Code ctor) {s s' : Host} {v : RVal} (hf : Apt E orig L0 s) (hx : Here E B N c s)
    {args : CreateArgs} (hnew : N → newOf E args = c → Code (ctorNameOf args) ctor) (h : createWithAuth E s dep args (fun i => run E (check i)) (run E ctor) = (s', .ok v)) :
    AuthEff E B N c Code (dep = some (.contract c)) check s s' := by
  unfold createWithAuth at h
  have hg := requireDeployer_good hf.ok dep (fun i => run_good (E := E) (check i))
  rcases hr : requireDeployer E s dep (fun i => run E (check i)) with ⟨s1, r⟩
  rw [hr] at h hg
  cases r with
  | error e => cases h
  | ok u =>
    simp only at h
    have h1 : AuthEff E B N c Code (dep = some (.contract c)) check s s1 := by
      cases dep with
      | none => cases hr; exact (Sees.refl E c s).authEff hx
      | some d =>
        have := requireAuth_eff (a := d) hm (fun he => hcode (by rw [he])) hf hx hr
        refine ⟨this.exist, fun ht => (this.top ht).imp id (fun ⟨ha, hb⟩ => ⟨by rw [ha], hb⟩), this.outer⟩
    by_cases hp : preimageMatches args = true
    · rw [if_pos hp] at h
      rcases hc : createInstance E s1 (E.newId args.preimage args.fromAsset) args (run E ctor) with ⟨s2, r⟩
      rw [hc] at h
      cases r with
      | error e => cases h
      | ok u =>
        cases h
        exact h1.andOuter (onStack_same hg.le.ctx.same) (createInstance_eff (hf.next hg) h1.exist hmc hnew hc)
    · rw [if_neg hp] at h; cases h

theorem createContract_eff (hm : ∀ i, Main E orig L0 B N c Code (check i)) (hcode : dep = some (.contract c) → ∀ i, Code checkAuthName (check i))
    (hmc : Main E orig L0 B N c Code ctor) {s s' : Host} {v : RVal} (hf : Apt E orig L0 s) (hx : Here E B N c s)
    {args : CreateArgs} (hnew : N → newOf E args = c → Code (ctorNameOf args) ctor) (h : createContract E s dep args (fun i => run E (check i)) (run E ctor) = (s', .ok v)) :
    AuthEff E B N c Code (dep = some (.contract c)) check s s' := by
  unfold createContract at h
  cases dep with
  | none => exact createWithAuth_eff hm hcode hmc hf hx hnew h
  | some d =>
    simp only at h
    have hf1 : Apt E orig L0 { s with auth := s.auth.push (.create args) } := ⟨authPush_hok hf.ok args, authPush_strong hf.strong _⟩
    rcases hc : createWithAuth E { s with auth := s.auth.push (.create args) } (some d) args (fun i => run E (check i)) (run E ctor) with ⟨s1, r⟩
    rw [hc] at h
    have hs' : { s1 with auth := s1.auth.popOnly } = s' := congrArg Prod.fst h
    have hr : r = .ok v := congrArg Prod.snd h
    subst hr
    rw [← hs']
    exact ((createWithAuth_eff hm hcode hmc hf1 hx hnew hc).before hx (sees_auth s (s.auth.push (.create args))) rfl).after (sees_auth s1 _)

end

/-! ### the other functions -/

theorem updateExec_sees {s : Host} (hok : HOk E orig s) (ex : Exec) : Sees E c s (updateExec E s ex).1 := by
  suffices h : Unchanged E s (updateExec E s ex).1 ∧ Born E c s (updateExec E s ex).1 from
    sees_le h.1 (updateExec_dv hok.st ex) (updateExec_good hok ex).le h.2
  have h1 := verifyExec_only (E := E) hok.st ex
  have hv := fun s' => verifyExec_ok (E := E) (s' := s') hok.st (ex := ex)
  unfold updateExec
  generalize verifyExec E s ex = q at h1 hv
  obtain ⟨s1, r⟩ := q
  cases r with
  | error e => exact ⟨h1.unchanged, born_only h1.toOnlySt0 c⟩
  | ok u =>
    simp only
    split
    · exact ⟨h1.unchanged, born_only h1.toOnlySt0 c⟩
    · rename_i id hid
      have h2 := getInstance_only (E := E) h1.ok id
      generalize getInstance E s1 id = q at h2
      obtain ⟨s2, r⟩ := q
      cases r with
      | error e => exact ⟨(h1.trans h2).unchanged, born_only (h1.trans h2).toOnlySt0 c⟩
      | ok u =>
        simp only
        have h3 := storeInstance_exec (E := E) (s := recordEvent s2 ⟨id, .updated u.1 ex⟩) h2.ok (some ex) id (by
          show topContract s2.ctx = some id
          rw [show s2.ctx = s1.ctx from h2.ctx]; exact top_of_current hid)
          (fun x hx => by cases hx; exact (hv s1 rfl).mono h2.st.ledger.lasting)
        have h12 := (h1.trans h2).toOnlySt0
        have hc2 : s2.ctx = s.ctx := (h1.trans h2).ctx
        refine ⟨unchangedTrans (h1.trans h2).unchanged (h3.1.unchanged h3.2), fun hn ho => ?_⟩
        have ht : topContract s.ctx ≠ some c := fun ht => ho (top_onStack ht)
        exact (keptTrans (h12.iso c ht) (h3.1.iso c (by show topContract s2.ctx ≠ some c; rw [hc2]; exact ht))).none hn

theorem rolledBack_sees {s s' : Host} (h : RolledBack E s s') (hl : SLe E s.st s'.st) (hc : s'.ctx = s.ctx) : Sees E c s s' := by
  have hv : instView E s' c = instView E s c := by rw [instView_eq, instView_eq, hc, h.ledger]
  exact sees_mk (fun m hm => by rw [hv]; exact hm) (fun _ _ => by rw [h.ledger]) (perm_le hl) (fun _ hn => by rw [hv]; exact hn)
    (fun ha ⟨x, hx, hxc⟩ => ha.1 ⟨x, by rw [hc] at hx; exact hx, hxc⟩) (fun hn _ => Or.inl (by rw [h.ledger]; exact hn))

theorem tryCall_outer {s s' : Host} (hf : Apt E orig L0 s) (hx : Here E B N c s) {id : Nat} {fn : Name} {p : Prog} {v : RVal}
    (hm : Main E orig L0 B N c Code p) (hcode : id = c → Code fn p) (h : tryCall E s id fn (run E p) = (s', .ok v)) :
    Outer E B N c Code s s' ∧ (id = c → OnStack c s → ∃ e, v = .err e) := by
  unfold tryCall at h
  simp only at h
  have hc := callN_prohibited hf.ok (id := id) (fn := fn) (internal := false) (fun h => by cases h) (run_good (E := E) p)
  have hctx := callN_ctx hf.ok (id := id) (fn := fn) (internal := false) (fun h => by cases h) (run_good (E := E) p)
  rcases hcl : callN E s id fn .prohibited false (run E p) with ⟨s1, r⟩
  rw [hcl] at h hc hctx
  have hs' : s1 = s' := congrArg Prod.fst h
  have hr : tryResult r = .ok v := congrArg Prod.snd h
  subst hs'
  cases r with
  | ok w =>
    obtain ⟨h1, h2⟩ := call_outer hf hx (fun h => by cases h) hm (fun he _ => hcode he) hcl
    exact ⟨h1, fun he ho => absurd ho (h2 he)⟩
  | error e =>
    refine ⟨(rolledBack_sees (hc.failed e rfl) hc.good.le.st hctx).outer hx, fun _ _ => ?_⟩
    cases e with
    | contract n => cases hr; exact ⟨_, rfl⟩
    | host t k =>
      simp only [tryResult] at hr
      split at hr
      · cases hr; exact ⟨_, rfl⟩
      · cases hr

/-! ### all code -/

theorem main_eff : ∀ p : Prog, Calls c Code p → (N → Births (fun args => newOf E args = c) Code p) → Main E orig L0 B N c Code p := by
  intro p
  induction p with
  | ret v =>
    intro _ _ s s' w hf hx h
    rw [run] at h; cases h
    exact ⟨hx, fun _ => .ret, fun _ => (Sees.refl E c s).outer hx⟩
  | fail e => intro _ _ s s' w hf hx h; rw [run] at h; cases h
  | data o next ih =>
    intro hc hb s s' w hf hx h
    rw [run] at h
    obtain ⟨s1, r, hr, hn⟩ := seq h
    unfold withContract at hr
    cases hcu : currentContract s with
    | error e => rw [hcu] at hr; cases hr
    | ok id =>
      rw [hcu] at hr
      simp only at hr
      have ht := top_of_current hcu
      have hon := dataOp_only (E := E) hf.ok.st id ht o
      rw [hr] at hon
      have hg := hon.good hf.ok (.ok r)
      have hs1 : topContract s.ctx = some c → ∃ m, instView E s c = some m := fun he => by
        obtain ⟨d, cs, hcs, hid⟩ := hf.ok.stack.top he
        exact ⟨_, by rw [instView_eq, hcs]; exact viewOf_top hid⟩
      have hx1 : Here E B N c s1 := by
        by_cases he : topContract s.ctx = some c
        · obtain ⟨m, hm⟩ := hs1 he
          exact Or.inl (by rw [hon.unchanged c m hm]; rfl)
        · exact (sees_kept hon (hon.iso c he)).exist hx
      refine eff_step hf hg hx1 hn (ih r (hc r) (fun n => hb n r)) (fun hne => ?_) (fun he d' ha => ?_)
      · exact (sees_kept hon (hon.iso c hne)).outer hx
      · obtain ⟨m, hm⟩ := hs1 he
        have : id = c := by rw [ht] at he; exact Option.some.inj he
        subst this
        exact .data (dataOp_step hf.ok.st ht hm hr) ha
  | inst o next ih =>
    intro hc hb s s' w hf hx h
    rw [run] at h
    obtain ⟨s1, r, hr, hn⟩ := seq h
    have hg := instOp_good hf.ok o
    rw [hr] at hg
    by_cases he : topContract s.ctx = some c
    · have h1 := instOp_step (B := B) (N := N) hf.ok he hr
      exact eff_step hf hg h1.2 hn (ih r (hc r) (fun n => hb n r)) (fun hne => absurd he hne) (fun _ d' ha => .inst h1.1 ha)
    · have h1 := instOp_other (E := E) he hr
      exact eff_step hf hg (h1.exist hx) hn (ih r (hc r) (fun n => hb n r)) (fun _ => h1.outer hx) (fun hx => absurd hx he)
  | event e next ih =>
    intro hc hb s s' w hf hx h
    rw [run] at h
    have hg := withContract_good hf.ok (f := fun id => (recordEvent s ⟨id, .contract e⟩, (.ok () : Res Unit)))
      (fun id _ => recordEvent_good hf.ok _ _ (.ok ()))
    obtain ⟨s1, r, hr, hn⟩ := seq h
    rw [hr] at hg
    unfold withContract at hr
    cases hcu : currentContract s with
    | error e => rw [hcu] at hr; cases hr
    | ok id =>
      rw [hcu] at hr
      cases hr
      exact eff_sees hf hx hg ⟨fun h => h, fun _ => rfl⟩ hn (ih hc hb) (fun _ _ ha => .event ha)
  | auth a args check next ihc ihn =>
    intro hc hb s s' w hf hx h
    rw [run] at h
    have hg := requireAuth_good hf.ok a args (fun i => run_good (E := E) (check i))
    obtain ⟨s1, r, hr, hn⟩ := seq h
    rw [hr] at hg
    have h1 := requireAuth_eff (fun i => ihc i (hc.1 i).1 (fun n => (hb n).1 i)) (fun he i => (hc.1 i).2 he) hf hx hr
    refine eff_step hf hg h1.exist hn (ihn hc.2 (fun n => (hb n).2)) h1.outer (fun he d' ha => ?_)
    rcases h1.top he with h2 | ⟨rfl, i, h2⟩
    · rw [h2] at ha; exact .auth ha
    · exact .selfAuth h2 ha
  | authAs es next ih =>
    intro hc hb s s' w hf hx h
    rw [run] at h
    have hg := withContract_good hf.ok (f := fun id => ({ s with auth := s.auth.addInvoker (.contract id) es }, (.ok () : Res Unit)))
      (fun id hid => addInvoker_good hf.ok _ (by rw [hid]; rfl) es (.ok ()))
    obtain ⟨s1, r, hr, hn⟩ := seq h
    rw [hr] at hg
    unfold withContract at hr
    cases hcu : currentContract s with
    | error e => rw [hcu] at hr; cases hr
    | ok id =>
      rw [hcu] at hr
      cases hr
      exact eff_sees hf hx hg (sees_auth s _) hn (ih hc hb) (fun _ _ ha => .authAs ha)
  | call id fn body next ihb ihn =>
    intro hc hb s s' w hf hx h
    rw [run] at h
    unfold call at h
    have hg := (callN_prohibited hf.ok (id := id) (fn := fn) (internal := false) (fun h => by cases h) (run_good (E := E) body)).good
    obtain ⟨s1, r, hr, hn⟩ := seq h
    rw [hr] at hg
    obtain ⟨h1, h2⟩ := call_outer hf hx (fun h => by cases h) (ihb hc.1 (fun n => (hb n).1)) (fun he _ => hc.2.1 he) hr
    refine eff_step hf hg h1.exist hn (ihn r (hc.2.2 r) (fun n => (hb n).2 r)) (fun _ => h1) (fun he d' ha => ?_)
    have ho := onStack_top he
    rw [h1.on ho] at ha
    exact .call (fun hi => h2 hi ho) ha
  | tryCall id fn body next ihb ihn =>
    intro hc hb s s' w hf hx h
    rw [run] at h
    have hg := tryCall_good hf.ok (id := id) (fn := fn) (run_good (E := E) body)
    obtain ⟨s1, r, hr, hn⟩ := seq h
    rw [hr] at hg
    obtain ⟨h1, h2⟩ := tryCall_outer hf hx (ihb hc.1 (fun n => (hb n).1)) hc.2.1 hr
    refine eff_step hf hg h1.exist hn (ihn r (hc.2.2 r) (fun n => (hb n).2 r)) (fun _ => h1) (fun he d' ha => ?_)
    have ho := onStack_top he
    rw [h1.on ho] at ha
    exact .tryCall (fun hi => h2 hi ho) ha
  | create dep args check ctor next ihc ihb ihn =>
    intro hc hb s s' w hf hx h
    rw [run] at h
    have hg := createContract_good hf.ok dep args (fun i => run_good (E := E) (check i)) (run_good (E := E) ctor)
    obtain ⟨s1, r, hr, hn⟩ := seq h
    rw [hr] at hg
    have h1 := createContract_eff (fun i => ihc i (hc.1 i).1 (fun n => (hb n).1 i)) (fun he i => (hc.1 i).2 he) (ihb hc.2.1 (fun n => (hb n).2.2.1)) hf hx
      (fun n => (hb n).2.1) hr
    refine eff_step hf hg h1.exist hn (ihn r (hc.2.2 r) (fun n => (hb n).2.2.2 r)) h1.outer (fun he d' ha => ?_)
    rcases h1.top he with h2 | ⟨rfl, i, h2⟩
    · rw [h2] at ha; exact .create ha
    · exact .selfCreate h2 ha
  | update ex next ih =>
    intro hc hb s s' w hf hx h
    rw [run] at h
    have hg := updateExec_good hf.ok ex
    have h1 := updateExec_sees (c := c) hf.ok ex
    obtain ⟨s1, r, hr, hn⟩ := seq h
    rw [hr] at hg h1
    exact eff_sees hf hx hg h1 hn (ih hc hb) (fun _ _ ha => .update ha)
  | upload k x next ih =>
    intro hc hb s s' w hf hx h
    rw [run] at h
    have ho := uploadWasm_only (E := E) hf.ok.st k x
    have hg := ho.good hf.ok (uploadWasm E s k x).2
    have h1 := sees_of ho (uploadWasm_dv (E := E) hf.ok.st k x) c
    obtain ⟨s1, r, hr, hn⟩ := seq h
    rw [hr] at hg h1
    exact eff_sees hf hx hg h1 hn (ih hc hb) (fun _ _ ha => .upload ha)

/-! ### whole transactions -/

theorem hostFn_outer {s b : Host} (hf : Apt E orig L0 s) (hx : Here E B N c s) (ht : topContract s.ctx ≠ some c)
    {f : HostFn} (ha : Asks c Code f) (hb : N → Bears (fun args => newOf E args = c) Code f) {v : RVal} (h : hostFnBody E f s = (b, .ok v)) : Outer E B N c Code s b := by
  cases f with
  | invoke id fn body => exact (call_outer hf hx (fun h => by cases h) (main_eff body ha.1 hb) (fun he _ => ha.2 he) h).1
  | create dep args check ctor =>
    exact (createContract_eff (fun i => main_eff _ (ha.1 i).1 (fun n => (hb n).1 i)) (fun he i => (ha.1 i).2 he)
      (main_eff ctor ha.2 (fun n => (hb n).2.2)) hf hx (fun n => (hb n).2.1) h).outer ht
  | upload k x =>
    have ho := uploadWasm_only (E := E) hf.ok.st k x
    have h1 := sees_of ho (uploadWasm_dv (E := E) hf.ok.st k x) c
    simp only [hostFnBody] at h
    rcases hu : uploadWasm E s k x with ⟨s1, r⟩
    rw [hu] at h h1
    cases r with
    | error e => cases h
    | ok u => cases h; exact h1.outer hx

end

end Soroban.Host
