import Verif.Lemmas.HostStore
/-! Instance storage: the copies that frames have of it agree with the ledger and with each other. -/
namespace Soroban.Host
open Soroban Soroban.Auth Soroban.Storage Soroban.Storage.Spec
export Soroban.Host.Spec (Ctx.contents Ctx.changed framesOf)

/-- From the top frame down to the first one with changes, all the frames have the contents of the ledger. -/
def Clean (m : FMap Nat Nat) : List Ctx → Prop
  | [] => True
  | f :: rest => Spec.Ctx.contents f = m ∧ (Spec.Ctx.changed f = true ∨ Clean m rest)

/-- The same, unless the top frame has changes. -/
def Chain (m : FMap Nat Nat) : List Ctx → Prop
  | [] => True
  | f :: rest => Spec.Ctx.changed f = true ∨ Clean m (f :: rest)

theorem Clean.chain {m : FMap Nat Nat} {fs : List Ctx} (h : Clean m fs) : Chain m fs := by
  cases fs with
  | nil => trivial
  | cons f rest => exact Or.inr h

/-- The contracts on the stack exist, and their frames agree with the ledger. -/
def Coh (L : Ledger LKey LVal) (cs : List Ctx) : Prop :=
  ∀ c, framesOf c cs ≠ [] → ∃ ex m l, L (.inst c) = some (.inst ex m, l) ∧ Chain m (framesOf c cs)

theorem Coh.msame {L L' : Ledger LKey LVal} {cs : List Ctx} (h : Coh L cs) (hm : MWeak L L') : Coh L' cs := fun c hc => by
  obtain ⟨ex, m, l, h1, h2⟩ := h c hc
  obtain ⟨ex', l', h3⟩ := hm c ex m l h1
  exact ⟨ex', m, l', h3, h2⟩

theorem framesOf_cons_ne {c : Nat} {d : Ctx} {cs : List Ctx} (h : d.cid ≠ some c) : framesOf c (d :: cs) = framesOf c cs := by
  unfold framesOf; rw [List.filter_cons_of_neg]; simpa using h

theorem framesOf_cons_eq {c : Nat} {d : Ctx} {cs : List Ctx} (h : d.cid = some c) : framesOf c (d :: cs) = d :: framesOf c cs := by
  unfold framesOf; rw [List.filter_cons_of_pos]; simpa using h

theorem framesOf_nil {c : Nat} {cs : List Ctx} (h : ∀ d ∈ cs, d.cid ≠ some c) : framesOf c cs = [] := by
  unfold framesOf; rw [List.filter_eq_nil_iff]; intro d hd; simpa using h d hd

/-- The frame of the host does not matter. -/
theorem coh_host {L : Ledger LKey LVal} {d : Ctx} {cs : List Ctx} (hd : d.cid = none) : Coh L (d :: cs) ↔ Coh L cs := by
  unfold Coh
  simp only [framesOf_cons_ne (c := _) (d := d) (cs := cs) (by rw [hd]; intro h; cases h)]

/-- A new frame, if the frames of the same contract agree with the ledger. -/
theorem Coh.push {L : Ledger LKey LVal} {cs : List Ctx} {d : Ctx} {id : Nat} {ex : Exec} {m : FMap Nat Nat} {l : Option Nat} (h : Coh L cs)
    (hid : d.cid = some id) (hL : L (.inst id) = some (.inst ex m, l)) (hi : d.inst = m) (hst : d.storage = none)
    (hcl : Clean m (framesOf id cs)) : Coh L (d :: cs) := fun c hc => by
  by_cases hcid : c = id
  · subst hcid
    refine ⟨ex, m, l, hL, ?_⟩
    rw [framesOf_cons_eq hid]
    refine Or.inr ⟨?_, Or.inr hcl⟩
    unfold Spec.Ctx.contents; rw [hst]; exact hi
  · have : d.cid ≠ some c := by rw [hid]; intro h; cases h; exact hcid rfl
    rw [framesOf_cons_ne this] at hc ⊢
    exact h c hc

/-- An operation on the instance storage of the top frame. -/
theorem Coh.top {L : Ledger LKey LVal} {cs : List Ctx} {d d' : Ctx} (h : Coh L (d :: cs)) (hid : d'.cid = d.cid)
    (hs : Spec.Ctx.changed d' = true ∨ Spec.Ctx.contents d' = Spec.Ctx.contents d ∧ Spec.Ctx.changed d' = Spec.Ctx.changed d) : Coh L (d' :: cs) := fun c hc => by
  by_cases hcid : d.cid = some c
  · have hcid' : d'.cid = some c := by rw [hid]; exact hcid
    obtain ⟨ex, m, l, h1, h2⟩ := h c (by rw [framesOf_cons_eq hcid]; simp)
    refine ⟨ex, m, l, h1, ?_⟩
    rw [framesOf_cons_eq hcid] at h2
    rw [framesOf_cons_eq hcid']
    rcases hs with hs | ⟨hs1, hs2⟩
    · exact Or.inl hs
    · rw [Chain, Clean] at h2 ⊢; rw [hs1, hs2]; exact h2
  · have hcid' : d'.cid ≠ some c := by rw [hid]; exact hcid
    rw [framesOf_cons_ne hcid'] at hc ⊢
    have := h c (by rw [framesOf_cons_ne hcid]; exact hc)
    rw [framesOf_cons_ne hcid] at this
    exact this

/-- What the frames have below a frame that ends without changes. -/
theorem Coh.pop {L : Ledger LKey LVal} {cs : List Ctx} {d : Ctx} (h : Coh L (d :: cs)) (hd : Spec.Ctx.changed d = false) : Coh L cs := fun c hc => by
  by_cases hcid : d.cid = some c
  · obtain ⟨ex, m, l, h1, h2⟩ := h c (by rw [framesOf_cons_eq hcid]; simp)
    refine ⟨ex, m, l, h1, ?_⟩
    rw [framesOf_cons_eq hcid] at h2
    rcases h2 with h2 | ⟨_, h2 | h2⟩
    · rw [hd] at h2; cases h2
    · rw [hd] at h2; cases h2
    · exact h2.chain
  · have := h c (by rw [framesOf_cons_ne hcid]; exact hc)
    rw [framesOf_cons_ne hcid] at this
    exact this

theorem not_changed {d : Ctx} (h : ∀ m, d.storage ≠ some (m, true)) : Spec.Ctx.changed d = false := by
  unfold Spec.Ctx.changed
  cases hs : d.storage with
  | none => rfl
  | some x =>
    obtain ⟨m, b⟩ := x
    cases b with
    | true => exact absurd hs (h m)
    | false => rfl

/-- After the storage of the top frame has been stored, all the frames of that contract agree with the ledger. -/
theorem persist_clean {E : HEnv} {s s' : Host} {b : Bool} (h : StOk E s.st) (hc : Coh (ledger E s.st) s.ctx) (hp : persist E s = (s', .ok b)) :
    Coh (ledger E s'.st) s.ctx ∧
    (∀ d cs id, s.ctx = d :: cs → d.cid = some id → ∃ ex m l, ledger E s'.st (.inst id) = some (.inst ex m, l) ∧ Clean m (framesOf id (d :: cs))) := by
  rcases persist_inst h hp with ⟨rfl, d, cs, m, id, hcs, hm, hid, h1, h2, _⟩ | ⟨rfl, rfl, d, cs, hcs, hm⟩
  · have hch : Spec.Ctx.changed d = true := by unfold Spec.Ctx.changed; rw [hm]
    have hco : Spec.Ctx.contents d = m := by unfold Spec.Ctx.contents; rw [hm]
    rw [hcs] at hc ⊢
    refine ⟨fun c hcc => ?_, fun d' cs' id' he hid' => ?_⟩
    · obtain ⟨ex, m0, l, h3, h4⟩ := hc c hcc
      by_cases hcid : c = id
      · subst hcid
        obtain ⟨l', h5⟩ := h2 ex m0 l h3
        refine ⟨ex, m, l', h5, ?_⟩
        rw [framesOf_cons_eq hid]; exact Or.inl hch
      · obtain ⟨l', h5⟩ := h1 c ex m0 l hcid h3
        exact ⟨ex, m0, l', h5, h4⟩
    · cases he
      rw [hid] at hid'; cases hid'
      obtain ⟨ex, m0, l, h3, h4⟩ := hc id (by rw [framesOf_cons_eq hid]; simp)
      obtain ⟨l', h5⟩ := h2 ex m0 l h3
      refine ⟨ex, m, l', h5, ?_⟩
      rw [framesOf_cons_eq hid]; exact ⟨hco, Or.inl hch⟩
  · refine ⟨hc, fun d' cs' id he hid => ?_⟩
    rw [hcs] at hc he
    cases he
    obtain ⟨ex, m, l, h3, h4⟩ := hc id (by rw [framesOf_cons_eq hid]; simp)
    refine ⟨ex, m, l, h3, ?_⟩
    rw [framesOf_cons_eq hid] at h4 ⊢
    rcases h4 with h4 | h4
    · rw [not_changed hm] at h4; cases h4
    · exact h4

/-- Whatever was the case before, the frames of the contract of the top frame agree with the ledger if they were coherent. -/
theorem persist_top {E : HEnv} {s s' : Host} {b : Bool} {d : Ctx} {cs : List Ctx} {id : Nat} (h : StOk E s.st) (hp : persist E s = (s', .ok b))
    (hcs : s.ctx = d :: cs) (hid : d.cid = some id) (hc : Coh (ledger E s'.st) s.ctx) {ex : Exec} {m : FMap Nat Nat} {l : Option Nat}
    (hl : ledger E s'.st (.inst id) = some (.inst ex m, l)) : Clean m (framesOf id s.ctx) := by
  rcases persist_inst h hp with ⟨rfl, d', cs', m', id', hcs', hm, hid', h1, _, h2⟩ | ⟨rfl, rfl, d', cs', hcs', hm⟩
  · rw [hcs] at hcs' ⊢
    cases hcs'
    rw [hid] at hid'; cases hid'
    obtain ⟨ex', l', h3⟩ := h2 m' rfl
    rw [hl] at h3; cases h3
    rw [framesOf_cons_eq hid]
    exact ⟨by unfold Spec.Ctx.contents; rw [hm], Or.inl (by unfold Spec.Ctx.changed; rw [hm])⟩
  · rw [hcs] at hcs' hc ⊢
    cases hcs'
    obtain ⟨ex', m', l', h3, h4⟩ := hc id (by rw [framesOf_cons_eq hid]; simp)
    rw [hl] at h3; cases h3
    rw [framesOf_cons_eq hid] at h4 ⊢
    rcases h4 with h4 | h4
    · rw [not_changed hm] at h4; cases h4
    · exact h4

theorem getInstance_val {E : HEnv} {s s' : Host} {c : Nat} {ex : Exec} {m : FMap Nat Nat} (h : StOk E s.st) (hg : getInstance E s c = (s', .ok (ex, m))) :
    ∃ l, ledger E s'.st (.inst c) = some (.inst ex m, l) ∧ ledger E s'.st = ledger E s.st := by
  have hL := getInstance_ledger (E := E) h c
  rw [hg] at hL
  unfold getInstance at hg
  rcases hr : liftSt s (fun st => getEntry E.sto st (.inst c)) with ⟨s1, r⟩
  rw [hr] at hg
  cases r with
  | error e => cases hg
  | ok e =>
    obtain ⟨v, l⟩ := e
    cases v with
    | inst ex' m' =>
      cases hg
      have h4 := getEntry_val h (k := .inst c) (e := (.inst ex m, l)) (congrArg Prod.snd hr)
      refine ⟨l, ?_, hL⟩
      simp only at hL
      rw [hL]; exact h4.1
    | _ => cases hg

/-- Reloading. -/
theorem reloadBelow_coh {E : HEnv} {s : Host} (h : StOk E s.st) (id : Nat) (cs : List Ctx) {s' : Host} {cs' : List Ctx}
    (hr : reloadBelow E s id cs = (s', .ok cs')) :
    (∀ c, c ≠ id → framesOf c cs' = framesOf c cs) ∧
    (∀ ex m l, ledger E s.st (.inst id) = some (.inst ex m, l) → ∀ f ∈ framesOf id cs', f.storage = some (m, false)) := by
  induction cs generalizing s' cs' with
  | nil => cases hr; exact ⟨fun _ _ => rfl, fun _ _ _ _ f hf => by cases hf⟩
  | cons d cs ih =>
    simp only [reloadBelow] at hr
    rcases hr1 : reloadBelow E s id cs with ⟨s1, r1⟩
    rw [hr1] at hr
    have hon : OnlySt E s s1 ∧ ledger E s1.st = ledger E s.st := by
      have := reloadBelow_ledger (E := E) h id cs
      rw [hr1] at this; exact this
    cases r1 with
    | error e => cases hr
    | ok cs1 =>
      simp only at hr
      obtain ⟨ih1, ih2⟩ := ih hr1
      by_cases hd : d.cid = some id
      · rw [if_pos hd] at hr
        rcases hg : getInstance E s1 id with ⟨s2, r2⟩
        rw [hg] at hr
        cases r2 with
        | error e => cases hr
        | ok x =>
          obtain ⟨ex1, m1⟩ := x
          cases hr
          obtain ⟨l1, hl1, hl2⟩ := getInstance_val hon.1.ok hg
          refine ⟨fun c hc => ?_, fun ex m l hl f hf => ?_⟩
          · have hd' : d.cid ≠ some c := by rw [hd]; intro h; cases h; exact hc rfl
            rw [framesOf_cons_ne hd', framesOf_cons_ne (by exact hd')]; exact ih1 c hc
          · rw [framesOf_cons_eq (by exact hd)] at hf
            rcases List.mem_cons.1 hf with rfl | hf
            · rw [hl2, hon.2, hl] at hl1
              cases hl1; rfl
            · exact ih2 ex m l hl f hf
      · rw [if_neg hd] at hr
        cases hr
        refine ⟨fun c hc => ?_, fun ex m l hl f hf => ?_⟩
        · by_cases hd' : d.cid = some c
          · rw [framesOf_cons_eq hd', framesOf_cons_eq hd', ih1 c hc]
          · rw [framesOf_cons_ne hd', framesOf_cons_ne hd']; exact ih1 c hc
        · rw [framesOf_cons_ne hd] at hf; exact ih2 ex m l hl f hf
where
  reloadBelow_ledger {E : HEnv} {s : Host} (h : StOk E s.st) (id : Nat) (cs : List Ctx) :
      OnlySt E s (reloadBelow E s id cs).1 ∧ ledger E (reloadBelow E s id cs).1.st = ledger E s.st := by
    induction cs with
    | nil => exact ⟨OnlySt.refl h, rfl⟩
    | cons c cs ih =>
      simp only [reloadBelow]
      split
      · rename_i heq; rw [heq] at ih; exact ih
      · rename_i s1 cs1 heq
        rw [heq] at ih
        split
        · have h2 := getInstance_only ih.1.ok id
          have h3 := getInstance_ledger ih.1.ok id
          split
          all_goals (rename_i heq2; rw [heq2] at h2 h3; exact ⟨ih.1.trans h2, h3.trans ih.2⟩)
        · exact ih

theorem clean_reloaded {m : FMap Nat Nat} {fs : List Ctx} (h : ∀ f ∈ fs, f.storage = some (m, false)) : Clean m fs := by
  induction fs with
  | nil => trivial
  | cons f fs ih =>
    refine ⟨?_, Or.inr (ih (fun g hg => h g (List.mem_cons_of_mem _ hg)))⟩
    unfold Spec.Ctx.contents; rw [h f List.mem_cons_self]

/-- Reloading leaves the frames in agreement with the ledger, with the top frame and without it. -/
theorem reload_coh {E : HEnv} {s s' : Host} (h : StOk E s.st) (hc : Coh (ledger E s.st) s.ctx) (hr : reload E s = (s', .ok ())) :
    ledger E s'.st = ledger E s.st ∧ Coh (ledger E s'.st) s'.ctx ∧ Coh (ledger E s'.st) s'.ctx.tail := by
  unfold reload at hr
  cases hcs : s.ctx with
  | nil => rw [hcs] at hr; cases hr
  | cons d cs =>
    rw [hcs] at hr hc
    simp only at hr
    cases hd : d.cid with
    | none => rw [hd] at hr; cases hr
    | some id =>
      rw [hd] at hr
      simp only at hr
      have hled := (reloadBelow_coh.reloadBelow_ledger (E := E) h id cs).2
      rcases hr1 : reloadBelow E s id cs with ⟨s1, r1⟩
      rw [hr1] at hr hled
      cases r1 with
      | error e => cases hr
      | ok cs1 =>
        cases hr
        obtain ⟨h1, h2⟩ := reloadBelow_coh h id cs hr1
        simp only at hled ⊢
        rw [hled]
        obtain ⟨ex, m, l, h3, h4⟩ := hc id (by rw [framesOf_cons_eq hd]; simp)
        have hcl := clean_reloaded (h2 ex m l h3)
        refine ⟨rfl, fun c hcc => ?_, fun c hcc => ?_⟩
        · by_cases hcid : c = id
          · subst hcid
            refine ⟨ex, m, l, h3, ?_⟩
            rw [framesOf_cons_eq hd] at h4 ⊢
            rcases h4 with h4 | h4
            · exact Or.inl h4
            · exact Or.inr ⟨h4.1, Or.inr hcl⟩
          · have hd' : d.cid ≠ some c := by rw [hd]; intro h; cases h; exact hcid rfl
            rw [framesOf_cons_ne hd', h1 c hcid] at hcc ⊢
            have := hc c (by rw [framesOf_cons_ne hd']; exact hcc)
            rw [framesOf_cons_ne hd'] at this; exact this
        · simp only [List.tail_cons] at hcc ⊢
          by_cases hcid : c = id
          · subst hcid; exact ⟨ex, m, l, h3, hcl.chain⟩
          · have hd' : d.cid ≠ some c := by rw [hd]; intro h; cases h; exact hcid rfl
            rw [h1 c hcid] at hcc ⊢
            have := hc c (by rw [framesOf_cons_ne hd']; exact hcc)
            rw [framesOf_cons_ne hd'] at this; exact this

/-- At the end of a frame. -/
theorem finish_coh {E : HEnv} {s s' : Host} {r : Res RVal} {v : RVal} (h : StOk E s.st) (hc : Coh (ledger E s.st) s.ctx)
    (hf : finish E s r = (s', .ok v)) : Coh (ledger E s'.st) s'.ctx ∧ Coh (ledger E s'.st) s'.ctx.tail := by
  unfold finish at hf
  cases r with
  | error e => cases hf
  | ok w =>
    simp only at hf
    rcases hp : persist E s with ⟨s1, r1⟩
    have hon := persist_only (E := E) h
    rw [hp] at hf hon
    cases r1 with
    | error e => cases hf
    | ok b =>
      obtain ⟨h1, h2⟩ := persist_clean h hc hp
      have hctx : s1.ctx = s.ctx := hon.ctx
      cases b with
      | false =>
        cases hf
        rw [← hctx] at h1
        refine ⟨h1, ?_⟩
        rcases persist_inst h hp with ⟨hb, _⟩ | ⟨_, rfl, d, cs, hcs, hm⟩
        · cases hb
        · rw [hcs] at h1 ⊢; exact h1.pop (not_changed hm)
      | true =>
        simp only at hf
        rcases hr : reload E s1 with ⟨s2, r2⟩
        rw [hr] at hf
        cases r2 with
        | error e => cases hf
        | ok u =>
          cases hf
          exact (reload_coh hon.ok (by rw [hctx]; exact h1) hr).2

end Soroban.Host
