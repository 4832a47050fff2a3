import Verif.Lemmas.HostReach
/-! The instance storage of contracts as seen by their code, and what happens to it when frames start and end. -/
namespace Soroban.Host
open Soroban Soroban.Auth Soroban.Storage Soroban.Storage.Spec
open Soroban.Host.Spec (Fresh TxStart Reach Loads hostFrame instView Unchanged)

/-- `instView`, from the ledger and the contexts. -/
def viewOf (L : Ledger LKey LVal) (cs : List Ctx) (c : Nat) : Option (FMap Nat Nat) :=
  match framesOf c cs with
  | f :: _ => some (Spec.Ctx.contents f)
  | [] => match L (.inst c) with
    | some (.inst _ m, _) => some m
    | _ => none

theorem instView_eq (E : HEnv) (s : Host) (c : Nat) : instView E s c = viewOf (ledger E s.st) s.ctx c := rfl

theorem viewOf_clean {L : Ledger LKey LVal} {cs : List Ctx} {c : Nat} {ex : Exec} {m : FMap Nat Nat} {l : Option Nat}
    (hL : L (.inst c) = some (.inst ex m, l)) (h : Clean m (framesOf c cs)) : viewOf L cs c = some m := by
  unfold viewOf
  cases hf : framesOf c cs with
  | nil => simp only [hL]
  | cons f fs => rw [hf] at h; simp only [h.1]

theorem viewOf_top {L : Ledger LKey LVal} {cs : List Ctx} {d : Ctx} {c : Nat} (h : d.cid = some c) :
    viewOf L (d :: cs) c = some (Spec.Ctx.contents d) := by
  unfold viewOf; rw [framesOf_cons_eq h]

theorem viewOf_same {L L' : Ledger LKey LVal} {cs cs' : List Ctx} {c : Nat} {m : FMap Nat Nat} (hf : framesOf c cs' = framesOf c cs)
    (hL : ∀ ex m l, L (.inst c) = some (.inst ex m, l) → ∃ ex' l', L' (.inst c) = some (.inst ex' m, l')) (h : viewOf L cs c = some m) :
    viewOf L' cs' c = some m := by
  unfold viewOf at h ⊢
  rw [hf]
  cases hfs : framesOf c cs with
  | cons f fs => rw [hfs] at h; exact h
  | nil =>
    rw [hfs] at h
    simp only at h ⊢
    cases hl : L (.inst c) with
    | none => rw [hl] at h; cases h
    | some e =>
      obtain ⟨v, l⟩ := e
      rw [hl] at h
      cases v with
      | inst ex m0 =>
        cases h
        obtain ⟨ex', l', hl'⟩ := hL ex m l hl
        rw [hl']
      | _ => cases h

theorem viewOf_msame {L L' : Ledger LKey LVal} {cs : List Ctx} {c : Nat} {m : FMap Nat Nat} (hm : MWeak L L') (h : viewOf L cs c = some m) :
    viewOf L' cs c = some m := viewOf_same rfl (hm c) h

theorem unchangedRefl (E : HEnv) (s : Host) : Unchanged E s s := fun _ _ h => h
theorem unchangedTrans {E : HEnv} {a b c : Host} (h : Unchanged E a b) (h' : Unchanged E b c) : Unchanged E a c :=
  fun d m hm => h' d m (h d m hm)

theorem OnlySt0.unchanged {E : HEnv} {s s' : Host} (h : OnlySt0 E s s') (hm : MWeak (ledger E s.st) (ledger E s'.st)) :
    Unchanged E s s' := fun c m hc => by
  rw [instView_eq, h.ctx]; exact viewOf_msame hm hc

theorem OnlySt.unchanged {E : HEnv} {s s' : Host} (h : OnlySt E s s') : Unchanged E s s' := fun c m hm => by
  rw [instView_eq, h.ctx]; exact viewOf_msame h.same.weak hm

/-- Storing the storage of the top frame does not change what its code sees. -/
theorem persist_view {E : HEnv} {s s' : Host} {b : Bool} (h : StOk E s.st) (hp : persist E s = (s', .ok b)) : Unchanged E s s' := by
  have hctx : s'.ctx = s.ctx := by have := (persist_only (E := E) h).ctx; rw [hp] at this; exact this
  intro c m hm
  rw [instView_eq] at hm ⊢
  rw [hctx]
  rcases persist_inst h hp with ⟨rfl, d, cs, m', id, hcs, hmm, hid, h1, h2, _⟩ | ⟨rfl, rfl, _⟩
  · by_cases hc : c = id
    · subst hc
      rw [hcs] at hm ⊢
      rw [viewOf_top hid] at hm ⊢; exact hm
    · exact viewOf_same rfl (fun ex m l hl => ⟨_, h1 c ex m l hc hl⟩) hm
  · exact hm

/-- A new frame. -/
theorem push_view {E : HEnv} {s : Host} {d : Ctx} {id : Nat} {ex : Exec} {m : FMap Nat Nat} {l : Option Nat} (hid : d.cid = some id)
    (hL : ledger E s.st (.inst id) = some (.inst ex m, l)) (hi : d.inst = m) (hst : d.storage = none) (hcl : Clean m (framesOf id s.ctx)) :
    Unchanged E s (pushContext s d).1 := by
  have h1 : (pushContext s d).1.st = s.st ∧ (pushContext s d).1.ctx = d :: s.ctx := by
    unfold pushContext; rw [hid]; exact ⟨rfl, rfl⟩
  intro c m' hm
  rw [instView_eq] at hm ⊢
  rw [h1.1, h1.2]
  by_cases hc : c = id
  · subst hc
    rw [viewOf_clean hL hcl] at hm
    rw [viewOf_top hid, ← hm]
    unfold Spec.Ctx.contents; rw [hst, hi]
  · refine viewOf_same (framesOf_cons_ne ?_) (fun ex m l h => ⟨ex, l, h⟩) hm
    rw [hid]; intro h; cases h; exact hc rfl

/-- The end of a frame: the views without the frame are those with it before its end. -/
theorem finish_view {E : HEnv} {s s' : Host} {r : Res RVal} {v : RVal} {d : Ctx} {cs : List Ctx} (h : StOk E s.st)
    (hc : Coh (ledger E s.st) s.ctx) (hcs : s.ctx = d :: cs) (hf : finish E s r = (s', .ok v)) :
    ∀ c m, viewOf (ledger E s.st) s.ctx c = some m → viewOf (ledger E s'.st) s'.ctx.tail c = some m := by
  unfold finish at hf
  cases r with
  | error e => cases hf
  | ok w =>
    simp only at hf
    rcases hp : persist E s with ⟨s1, r1⟩
    have hon := persist_only (E := E) h
    rw [hp] at hf hon
    cases r1 with
    | error e => cases hf
    | ok b =>
      obtain ⟨h1, h2⟩ := persist_clean h hc hp
      have hctx : s1.ctx = s.ctx := hon.ctx
      have hview := persist_view h hp
      cases b with
      | false =>
        cases hf
        rcases persist_inst h hp with ⟨hb, _⟩ | ⟨_, rfl, d', cs', hcs', hm⟩
        · cases hb
        · intro c m hv
          rw [hcs] at hcs' hv hc ⊢
          cases hcs'
          simp only [List.tail_cons]
          by_cases hd : d.cid = some c
          · obtain ⟨ex, m0, l, h3, h4⟩ := hc c (by rw [framesOf_cons_eq hd]; simp)
            rw [framesOf_cons_eq hd] at h4
            rw [viewOf_top hd] at hv
            rcases h4 with h4 | ⟨h4, h5 | h5⟩
            · rw [not_changed hm] at h4; cases h4
            · rw [not_changed hm] at h5; cases h5
            · rw [viewOf_clean h3 h5, ← hv, h4]
          · exact viewOf_same (framesOf_cons_ne hd).symm (fun ex m l h => ⟨ex, l, h⟩) hv
      | true =>
        simp only at hf
        rcases hr : reload E s1 with ⟨s2, r2⟩
        rw [hr] at hf
        cases r2 with
        | error e => cases hf
        | ok u =>
          cases hf
          intro c m hv
          have hv1 : viewOf (ledger E s1.st) s1.ctx c = some m := hview c m hv
          rw [hctx, hcs] at hv1
          unfold reload at hr
          rw [hctx, hcs] at hr
          simp only at hr
          cases hd : d.cid with
          | none => rw [hd] at hr; cases hr
          | some id =>
            rw [hd] at hr
            simp only at hr
            have hled := (reloadBelow_coh.reloadBelow_ledger (E := E) hon.ok id cs).2
            rcases hr1 : reloadBelow E s1 id cs with ⟨s3, r3⟩
            simp only at hled
            rw [hr1] at hr hled
            cases r3 with
            | error e => cases hr
            | ok cs1 =>
              cases hr
              obtain ⟨h3, h4⟩ := reloadBelow_coh hon.ok id cs hr1
              simp only [List.tail_cons] at hled ⊢
              rw [hled]
              by_cases hcid : c = id
              · subst hcid
                obtain ⟨ex, m0, l, h5, h6⟩ := h2 d cs c hcs hd
                rw [framesOf_cons_eq hd] at h6
                rw [viewOf_top hd, h6.1] at hv1
                cases hv1
                exact viewOf_clean h5 (clean_reloaded (h4 ex m l h5))
              · have hd' : d.cid ≠ some c := by rw [hd]; intro h; cases h; exact hcid rfl
                exact viewOf_same (by rw [h3 c hcid, framesOf_cons_ne hd']) (fun ex m l h => ⟨ex, l, h⟩) hv1

/-- A frame that ends without failing. -/
theorem withFrame_view {E : HEnv} {s s' : Host} {c : Ctx} {f : Host → Host × Res RVal} {v : RVal}
    (hw : withFrame E s c f = (s', .ok v)) (hok : StOk E (f (pushContext s c).1).1.st)
    (hcoh : (∃ w, (f (pushContext s c).1).2 = .ok w) → Coh (ledger E (f (pushContext s c).1).1.st) (f (pushContext s c).1).1.ctx)
    (hne : (f (pushContext s c).1).1.ctx ≠ []) :
    s.ctx.length < depthLimit ∧ (∃ w, (f (pushContext s c).1).2 = .ok w) ∧ Unchanged E (f (pushContext s c).1).1 s' := by
  unfold withFrame at hw
  by_cases hd : s.ctx.length ≥ depthLimit
  · rw [if_pos hd] at hw; cases hw
  rw [if_neg hd] at hw
  simp only at hw
  generalize f (pushContext s c).1 = b at hw hok hcoh hne
  generalize (pushContext s c).2 = rp at hw
  obtain ⟨b, rb⟩ := b
  simp only at hw hok hcoh hne ⊢
  rcases hfin : finish E b (escalate rb) with ⟨s2, r2⟩
  rw [hfin] at hw
  simp only at hw
  have hr2 : r2 = .ok v := by
    revert hw
    generalize popContext s2 (rollbackIf r2 rp) = q
    obtain ⟨q, rq⟩ := q
    cases rq with
    | error e => intro h; cases h
    | ok u =>
      simp only
      split
      · intro h; cases h
      · intro h; cases h; rfl
  subst hr2
  have hrb : ∃ w, rb = .ok w := by
    cases rb with
    | ok w => exact ⟨w, rfl⟩
    | error e => simp only [escalate, finish] at hfin; cases hfin
  refine ⟨by omega, hrb, ?_⟩
  obtain ⟨d, cs, hcs⟩ : ∃ d cs, b.ctx = d :: cs := by
    cases hc : b.ctx with
    | nil => exact absurd hc hne
    | cons d cs => exact ⟨d, cs, rfl⟩
  have hv := finish_view hok (hcoh hrb) hcs hfin
  have hs' : s'.st = s2.st ∧ s'.ctx = s2.ctx.tail := by
    have hq : popContext s2 (rollbackIf (.ok v) rp) = (s', .ok ()) := by
      revert hw
      generalize popContext s2 (rollbackIf (.ok v) rp) = q
      obtain ⟨q, rq⟩ := q
      cases rq with
      | error e => intro h; cases h
      | ok u =>
        simp only
        split
        · intro h; cases h
        · intro h; cases h; rfl
    unfold popContext at hq
    cases hx : s2.ctx with
    | nil => rw [hx] at hq; cases hq
    | cons d2 cs2 => rw [hx] at hq; simp only [rollbackIf, Mgr.pop] at hq; cases hq; exact ⟨rfl, rfl⟩
  intro c m hm
  rw [instView_eq, hs'.1, hs'.2]
  exact hv c m hm

/-- A call finds the contract, then runs in a new frame. -/
theorem callContractFn_loads {E : HEnv} {s s' : Host} {id : Nat} {fn : Name} {f : Host → Host × Res RVal} {v : RVal}
    (h : callContractFn E s id fn f = (s', .ok v)) :
    ∃ s1 inst, Loads E s id inst s1 ∧ withFrame E s1 { cid := some id, fn := fn, inst := inst, storage := none } f = (s', .ok v) := by
  unfold callContractFn at h
  rcases h1 : getInstance E s id with ⟨s1, r1⟩
  rw [h1] at h
  cases r1 with
  | error e => cases h
  | ok x =>
    obtain ⟨ex, m⟩ := x
    simp only at h
    rcases h2 : wasmHash E s1 ex with ⟨s2, r2⟩
    rw [h2] at h
    cases r2 with
    | error e => cases h
    | ok o =>
      cases o with
      | none => exact ⟨s2, m, .builtin h1 h2, h⟩
      | some hh =>
        simp only at h
        rcases h3 : loadCode E s2 hh with ⟨s3, r3⟩
        rw [h3] at h
        cases r3 with
        | error e => cases h
        | ok u => exact ⟨s3, m, .wasm h1 h2 h3, h⟩

end Soroban.Host
