import Verif.Spec.HostHistory
import Verif.Props.HostSerial
import Verif.Props.HostDeploy
/-!
C99: what every function of a contract keeps true of its data, whole histories keep true. The data of a contract in the ledger
changes only by running functions of the contract, each as if it was alone, and by temporary entries that disappear (`Life` in
`Spec/HostHistory.lean`), whatever transactions with whatever contracts succeed or fail.
-/
namespace Soroban.Props
open Soroban Soroban.Auth Soroban.Host Soroban.Host.Spec
open Soroban.Storage (Store Entry Access Out Durability)
open Soroban.Storage.Spec (Ledger)

section
variable {c : Nat} {Code : Name → Prog → Prop}

private theorem life_trans {d d1 d2 : Own} (h : Life c Code d d1) (h' : Life c Code d1 d2) : Life c Code d d2 := by
  induction h with
  | nil => exact h'
  | run hc ha _ ih => exact .run hc ha (ih h')
  | fade hf _ ih => exact .fade hf (ih h')

private theorem life_serial {d d' : Own} (h : OneByOne c Code d d') : Life c Code d d' := by
  induction h with
  | nil => exact .nil
  | cons hc ha _ ih => exact .run hc ha ih

/-- What a transaction sees of an instance is what is in the ledger, but for the lifetime. -/
private theorem view_inst {E : Storage.Env LKey LVal} (hk : E.keys = keysOf) (e : Option (Entry LVal)) :
    (Storage.Spec.view E (.inst c) e).map Prod.fst = e.map Prod.fst := by
  unfold Storage.Spec.view
  rw [hk]
  rcases e with _ | ⟨v, _ | l⟩
  · rfl
  · rfl
  · simp only [keysOf]; split <;> rfl

private theorem instOf_map {L L' : Ledger LKey LVal} (h : (L' (.inst c)).map Prod.fst = (L (.inst c)).map Prod.fst) :
    instOf L' c = instOf L c := by
  unfold instOf
  rcases h1 : L (.inst c) with _ | ⟨v, l⟩ <;> rcases h2 : L' (.inst c) with _ | ⟨v', l'⟩ <;> rw [h1, h2] at h <;> cases h
  cases v <;> rfl

private theorem viewOf_nil (L : Ledger LKey LVal) : viewOf L [] c = instOf L c := rfl

/-- At the start of a transaction. -/
private theorem own_start {t : Tx} {L : Ledger LKey LVal} (h : t.On L) :
    Faded (dataOf L c) (own t.E L (Host.init t.st t.orig) c) := by
  have hv : ∀ k, declared (Host.init t.st t.orig) k = true →
      visible t.E (Host.init t.st t.orig) k = Storage.Spec.view t.E.sto k (L k) := by
    intro k hd
    unfold declared at hd
    rw [show (Host.init t.st t.orig).st.mode = .enforcing from h.mode] at hd
    have hcov := (stOk_start h.start).map.cover h.mode k hd
    obtain ⟨e, he⟩ := Option.isSome_iff_exists.mp hcov
    unfold visible Storage.Spec.absMap
    rw [show (Host.init t.st t.orig).st.map.get k = some e from he]
    exact h.reads k e he
  refine ⟨?_, fun k => ?_, fun k => ?_⟩
  · funext x
    unfold own dataOf
    simp only
    rw [instView_eq, show (Host.init t.st t.orig).ctx = [] from rfl, viewOf_nil]
    congr 1
    cases hm : t.st.map.get (.inst c) with
    | none =>
      have : instOf (ledger t.E (Host.init t.st t.orig).st) c = none := by
        unfold instOf ledger Storage.Spec.absMap
        rw [show (Host.init t.st t.orig).st.map.get (.inst c) = none from hm, show (Host.init t.st t.orig).st.mode = .enforcing from h.mode]
      rw [this]; rfl
    | some e =>
      have : instOf (ledger t.E (Host.init t.st t.orig).st) c = instOf L c := by
        apply instOf_map
        unfold ledger Storage.Spec.absMap
        rw [show (Host.init t.st t.orig).st.map.get (.inst c) = some e from hm, h.reads _ _ hm]
        exact view_inst h.start.keys _
      rw [this]
      cases instOf L c <;> rfl
  · unfold own dataOf
    simp only
    split
    · rename_i hd
      rw [hv _ hd]
      unfold Storage.Spec.view
      rw [h.start.keys]
      rcases L (.data (.contract c) k .persistent) with _ | ⟨v, _ | l⟩
      · rfl
      · rfl
      · simp only [keysOf]; split <;> rfl
    · rfl
  · unfold own dataOf
    simp only
    split
    · rename_i hd
      rw [hv _ hd]
      unfold Storage.Spec.view
      rw [h.start.keys]
      rcases L (.data (.contract c) k .temporary) with _ | ⟨v, _ | l⟩
      · exact .inl rfl
      · exact .inl rfl
      · simp only [keysOf]
        split
        · exact .inl rfl
        · exact .inr rfl
    · exact .inl rfl

/-- What the ledger has after the changes of a transaction. -/
private theorem commit_value {st : Store LKey LVal} {L L' : Ledger LKey LVal} (h : CommitTo st L L') {k : LKey} {e : Option (Entry LVal)}
    (hf : st.footprint.get k ≠ none) (hm : st.map.get k = some e) : (L' k).map Prod.fst = e.map Prod.fst := by
  have := h k
  rw [if_neg hf, hm] at this
  rcases e with _ | ⟨v, _ | l⟩
  · rw [show L' k = none from this]
  · rw [show L' k = some (v, none) from this]
  · obtain ⟨l', h1, _⟩ := this
    rw [h1]; rfl

/-- A transaction that succeeds. -/
private theorem history_tx {t : Tx} {L L' : Ledger LKey LVal} {v : RVal} (h : t.On L) (hok : t.result.2 = .ok v)
    (hcm : CommitTo t.result.1.st L L') (ha : Asks c Code t.hf) (hx : (instOf L c).isSome = true) :
    Life c Code (dataOf L c) (dataOf L' c) ∧ (instOf L' c).isSome = true := by
  have hspec := invoke_spec (stOk_start h.start) h.start.auth t.hf
  obtain ⟨_, _, hsle', _⟩ := hspec.strong v hok
  have hsle : SLe t.E t.st t.result.1.st := hsle'
  have hmode : t.result.1.st.mode = .enforcing := hsle.mode.trans h.mode
  have hfp : t.result.1.st.footprint = t.st.footprint := hsle.fpE h.mode
  have hok0 := stOk_start h.start
  have hcov0 : ∀ k, t.st.footprint.get k ≠ none → ∃ e, t.st.map.get k = some e := fun k hk =>
    Option.isSome_iff_exists.mp (hok0.map.cover h.mode k (by simp only [Storage.Spec.allows]; exact Option.isSome_iff_ne_none.mpr hk))
  have hcov : ∀ k, t.st.footprint.get k ≠ none → ∃ e, t.result.1.st.map.get k = some e := fun k hk =>
    Option.isSome_iff_exists.mp (hsle.ok.map.cover hmode k (by
      simp only [Storage.Spec.allows]; rw [hfp]; exact Option.isSome_iff_ne_none.mpr hk))
  have hdecl : ∀ s : Host, s.st.mode = .enforcing → s.st.footprint = t.st.footprint → ∀ k, declared s k = (t.st.footprint.get k).isSome := by
    intro s h1 h2 k; unfold declared; rw [h1, h2]
  have hL : ∃ ex m l, L (.inst c) = some (.inst ex m, l) := by
    unfold instOf at hx
    split at hx
    · rename_i ex m l he; exact ⟨ex, m, l, he⟩
    · cases hx
  obtain ⟨ex, m, l, hL⟩ := hL
  -- what the transaction sees of the instance at its start
  have hseen : ∀ e, t.st.map.get (.inst c) = some e → ∃ l', e = some (.inst ex m, l') := by
    intro e he
    have := h.reads _ _ he
    have hv := view_inst (c := c) h.start.keys (L (.inst c))
    rw [← this, hL] at hv
    rcases e with _ | ⟨v, l'⟩
    · cases hv
    · cases hv; exact ⟨l', rfl⟩
  have hthere : There t.E t.st t.orig c := by
    cases hm : t.st.map.get (.inst c) with
    | some e =>
      obtain ⟨l', rfl⟩ := hseen e hm
      refine Or.inl ⟨ex, m, l', ?_⟩
      unfold visible Storage.Spec.absMap
      rw [show (Host.init t.st t.orig).st.map.get (.inst c) = _ from hm]
    | none =>
      refine Or.inr ⟨?_, ?_⟩
      · unfold visible Storage.Spec.absMap
        rw [show (Host.init t.st t.orig).st.map.get (.inst c) = _ from hm, show (Host.init t.st t.orig).st.mode = .enforcing from h.mode]
      · rw [hdecl _ h.mode rfl]
        cases hf : t.st.footprint.get (.inst c) with
        | none => rfl
        | some a =>
          obtain ⟨e, he⟩ := hcov0 (.inst c) (by rw [hf]; simp)
          rw [hm] at he; cases he
  -- the instance at the end
  have hinst : (instOf L' c).isSome = true ∧ (instView t.E t.result.1 c).or (instOf L c) = instOf L' c := by
    have hview : instView t.E t.result.1 c = instOf (ledger t.E t.result.1.st) c := by
      rw [instView_eq, show t.result.1.ctx = [] from hspec.ctx, viewOf_nil]
    rw [hview]
    by_cases hf : t.st.footprint.get (.inst c) = none
    · have hc := hcm (.inst c)
      rw [hfp, if_pos hf] at hc
      have he : instOf L' c = instOf L c := by unfold instOf; rw [hc]
      refine ⟨by rw [he]; exact hx, ?_⟩
      have hal := (hsle.allowed (.inst c)).1 (by rw [h.mode]; simp [Storage.permOf, Storage.Spec.allows, hf])
      rw [he]
      cases hm : t.st.map.get (.inst c) with
      | none =>
        have : instOf (ledger t.E t.result.1.st) c = none := by
          unfold instOf
          rw [hal]
          unfold ledger Storage.Spec.absMap
          rw [hm, h.mode]
        rw [this]; rfl
      | some e =>
        obtain ⟨l', rfl⟩ := hseen e hm
        have : instOf (ledger t.E t.result.1.st) c = some m := by
          unfold instOf
          rw [hal]
          unfold ledger Storage.Spec.absMap
          rw [hm]
        rw [this]
        unfold instOf
        rw [hL]; rfl
    · obtain ⟨e, he⟩ := hcov0 _ hf
      obtain ⟨l', rfl⟩ := hseen e he
      obtain ⟨ex', m', l1, h1, _⟩ := hsle.ledger.inst c ex m l' (by unfold ledger Storage.Spec.absMap; rw [he])
      obtain ⟨e1, he1⟩ := hcov _ hf
      have : e1 = some (.inst ex' m', l1) := by
        unfold ledger Storage.Spec.absMap at h1
        rw [he1] at h1; exact h1
      subst this
      have hv := commit_value hcm (by rw [hfp]; exact hf) he1
      have hi : instOf L' c = some m' := by
        unfold instOf
        rcases hl : L' (.inst c) with _ | ⟨v, l2⟩
        · rw [hl] at hv; cases hv
        · rw [hl] at hv; cases hv; rfl
      refine ⟨by rw [hi]; rfl, ?_⟩
      have : instOf (ledger t.E t.result.1.st) c = some m' := by unfold instOf; rw [h1]
      rw [this, hi]; rfl
  -- the data at the end
  have hend : own t.E L t.result.1 c = dataOf L' c := by
    unfold own dataOf
    rw [hinst.2]
    congr 1
    funext k u
    rw [hdecl _ hmode hfp]
    cases hf : t.st.footprint.get (.data (.contract c) k u) with
    | none =>
      have hc := hcm (.data (.contract c) k u)
      rw [hfp, if_pos hf] at hc
      rw [hc]; rfl
    | some a =>
      have hf' : t.st.footprint.get (.data (.contract c) k u) ≠ none := by rw [hf]; simp
      obtain ⟨e, he⟩ := hcov _ hf'
      rw [commit_value hcm (by rw [hfp]; exact hf') he]
      show (visible t.E t.result.1 _).map Prod.fst = _
      unfold visible Storage.Spec.absMap
      rw [he]
  refine ⟨?_, hinst.1⟩
  have hser := C98_serial L h.start t.hf ha hthere
  rw [show own t.E L (invoke t.E (Host.init t.st t.orig) t.hf).1 c = dataOf L' c from hend] at hser
  exact .fade (own_start h) (life_serial hser)

private theorem history_step {seq : Nat} {t : Option Tx} {L L' : Ledger LKey LVal} (h : Step seq t L L')
    (ha : ∀ x, t = some x → Asks c Code x.hf) (hx : (instOf L c).isSome = true) :
    Life c Code (dataOf L c) (dataOf L' c) ∧ (instOf L' c).isSome = true := by
  cases h with
  | success hon _ hok hcm => exact history_tx hon hok hcm (ha _ rfl) hx
  | failure => exact ⟨.nil, hx⟩
  | @expire _ k v l hk _ _ =>
    have hi : instOf (L.set k none) c = instOf L c := by
      unfold instOf Storage.Spec.Ledger.set
      rw [if_neg (fun he => by rw [← he] at hk; cases hk)]
    refine ⟨.fade ⟨?_, fun x => ?_, fun x => ?_⟩ .nil, by rw [hi]; exact hx⟩
    · unfold dataOf; rw [hi]
    · unfold dataOf Storage.Spec.Ledger.set
      simp only
      rw [if_neg (fun he => by rw [← he] at hk; cases hk)]
    · unfold dataOf Storage.Spec.Ledger.set
      simp only
      by_cases he : LKey.data (.contract c) x .temporary = k
      · right; rw [if_pos he]; rfl
      · left; rw [if_neg he]

/-- C99: in every history of the ledger, all that happens to the data of a contract is that functions with its code are run, one after
the other and each as if it was alone, and that temporary entries disappear. The contract stays. -/
theorem C99_history {h : List (Nat × Option Tx)} {L L' : Ledger LKey LVal} (hh : History h L L')
    (ha : ∀ n t, (n, some t) ∈ h → Asks c Code t.hf) (hx : (instOf L c).isSome = true) :
    Life c Code (dataOf L c) (dataOf L' c) ∧ (instOf L' c).isSome = true := by
  induction hh with
  | nil => exact ⟨.nil, hx⟩
  | cons hst _ _ ih =>
    obtain ⟨h1, h2⟩ := history_step hst (fun x he => ha _ x (by rw [he]; exact List.mem_cons_self)) hx
    obtain ⟨h3, h4⟩ := ih (fun n t hm => ha n t (List.mem_cons_of_mem _ hm)) h2
    exact ⟨life_trans h1 h3, h4⟩

/-- C99: so what each function of a contract, read by itself, keeps true of its data, and the end of temporary entries does not make
false, is true after every history. -/
theorem C99_invariant {h : List (Nat × Option Tx)} {L L' : Ledger LKey LVal} (hh : History h L L')
    (ha : ∀ n t, (n, some t) ∈ h → Asks c Code t.hf) (hx : (instOf L c).isSome = true) (I : Own → Prop)
    (hI : ∀ fn p d d', Code fn p → Alone c p d d' → I d → I d') (hF : ∀ d d', Faded d d' → I d → I d') (h0 : I (dataOf L c)) :
    I (dataOf L' c) := by
  have := (C99_history hh ha hx).1
  generalize dataOf L c = d at this h0
  generalize dataOf L' c = d' at this
  induction this with
  | nil => exact h0
  | run hc hal _ ih => exact ih (hI _ _ _ _ hc hal h0)
  | fade hf _ ih => exact ih (hF _ _ hf h0)

/-! ### from the creation on -/

/-- A transaction that succeeds, on a ledger in which the contract does not exist. -/
private theorem birth_tx {t : Tx} {L L' : Ledger LKey LVal} {v : RVal} (h : t.On L) (hok : t.result.2 = .ok v)
    (hcm : CommitTo t.result.1.st L L') (ha : Asks c Code t.hf) (hb : Bears (fun args => newOf t.E args = c) Code t.hf)
    (hx : L (.inst c) = none) :
    Life c Code (dataOf L c) (dataOf L' c) ∧ (L' (.inst c) = none ∨ (instOf L' c).isSome = true) := by
  have hspec := invoke_spec (stOk_start h.start) h.start.auth t.hf
  obtain ⟨_, _, hsle', _⟩ := hspec.strong v hok
  have hsle : SLe t.E t.st t.result.1.st := hsle'
  have hmode : t.result.1.st.mode = .enforcing := hsle.mode.trans h.mode
  have hfp : t.result.1.st.footprint = t.st.footprint := hsle.fpE h.mode
  have hcov : ∀ k, t.st.footprint.get k ≠ none → ∃ e, t.result.1.st.map.get k = some e := fun k hk =>
    Option.isSome_iff_exists.mp (hsle.ok.map.cover hmode k (by
      simp only [Storage.Spec.allows]; rw [hfp]; exact Option.isSome_iff_ne_none.mpr hk))
  have hdecl : ∀ k, declared t.result.1 k = (t.st.footprint.get k).isSome := by
    intro k; unfold declared; rw [hmode, hfp]
  have hL : instOf L c = none := by unfold instOf; rw [hx]
  have h0 : ledger t.E t.st (.inst c) = none := by
    unfold ledger Storage.Spec.absMap
    cases hm : t.st.map.get (.inst c) with
    | none => rw [h.mode]
    | some e => exact (h.reads _ _ hm).trans (by rw [hx]; unfold Storage.Spec.view; rfl)
  obtain ⟨hser, hhere⟩ := serial_any (N := True) L h.start t.hf ha (fun _ => hb)
    (Or.inr (Or.inr ⟨trivial, ⟨fun ⟨d, hd, _⟩ => (by cases hd), h0⟩, hL⟩))
  have hhere : Here t.E L True c t.result.1 := hhere v hok
  have hview : instView t.E t.result.1 c = instOf (ledger t.E t.result.1.st) c := by
    rw [instView_eq, show t.result.1.ctx = [] from hspec.ctx, viewOf_nil]
  have hval : (L' (.inst c)).map Prod.fst = (ledger t.E t.result.1.st (.inst c)).map Prod.fst := by
    by_cases hf : t.st.footprint.get (.inst c) = none
    · have hc := hcm (.inst c)
      rw [hfp, if_pos hf, hx] at hc
      have hal := (hsle.allowed (.inst c)).1 (by rw [h.mode]; simp [Storage.permOf, Storage.Spec.allows, hf])
      rw [hc, hal, h0]
    · obtain ⟨e, he⟩ := hcov _ hf
      rw [commit_value hcm (by rw [hfp]; exact hf) he]
      unfold ledger Storage.Spec.absMap
      rw [he]
  have hi : instOf L' c = instOf (ledger t.E t.result.1.st) c := instOf_map hval
  have hend : own t.E L t.result.1 c = dataOf L' c := by
    unfold own dataOf
    rw [hview, hL, hi, Option.or_none]
    congr 1
    funext k u
    rw [hdecl]
    cases hf : t.st.footprint.get (.data (.contract c) k u) with
    | none =>
      have hc := hcm (.data (.contract c) k u)
      rw [hfp, if_pos hf] at hc
      rw [hc]; rfl
    | some a =>
      have hf' : t.st.footprint.get (.data (.contract c) k u) ≠ none := by rw [hf]; simp
      obtain ⟨e, he⟩ := hcov _ hf'
      rw [commit_value hcm (by rw [hfp]; exact hf') he]
      show (visible t.E t.result.1 _).map Prod.fst = _
      unfold visible Storage.Spec.absMap
      rw [he]
  rw [show own t.E L (invoke t.E (Host.init t.st t.orig) t.hf).1 c = dataOf L' c from hend] at hser
  refine ⟨.fade (own_start h) (life_serial hser), ?_⟩
  rcases hhere with h1 | ⟨_, h2⟩ | ⟨_, h2, _⟩
  · right; rw [hi, ← hview]; exact h1
  · left
    rw [← declared_eq, hdecl] at h2
    have hc := hcm (.inst c)
    rw [hfp, if_pos (by cases hg : t.st.footprint.get (.inst c) with | none => rfl | some a => rw [hg] at h2; cases h2)] at hc
    rw [hc, hx]
  · left
    rw [h2.2] at hval
    cases hg : L' (.inst c) with
    | none => rfl
    | some e => rw [hg] at hval; cases hval

/-- C99: a contract that does not exist yet. Over every history all that happens to its data is that functions with its code are run,
one after the other and each as if it was alone, if it has been created with a constructor that is part of its code; and that
temporary entries disappear. -/
theorem C99_from_creation {h : List (Nat × Option Tx)} {L L' : Ledger LKey LVal} (hh : History h L L')
    (ha : ∀ n t, (n, some t) ∈ h → Asks c Code t.hf) (hb : ∀ n t, (n, some t) ∈ h → Bears (fun args => newOf t.E args = c) Code t.hf)
    (hx : L (.inst c) = none) : Life c Code (dataOf L c) (dataOf L' c) := by
  induction hh with
  | nil => exact .nil
  | @cons seq t rest L L1 L2 hst hle hrest ih =>
    have ha' : ∀ n t, (n, some t) ∈ rest → Asks c Code t.hf := fun n t hm => ha n t (List.mem_cons_of_mem _ hm)
    have hstep : Life c Code (dataOf L c) (dataOf L1 c) ∧ (L1 (.inst c) = none ∨ (instOf L1 c).isSome = true) := by
      cases hst with
      | success hon _ hok hcm => exact birth_tx hon hok hcm (ha _ _ List.mem_cons_self) (hb _ _ List.mem_cons_self) hx
      | failure => exact ⟨.nil, Or.inl hx⟩
      | @expire _ k v l hk _ _ =>
        have hi : (L.set k none) (.inst c) = none := by
          unfold Storage.Spec.Ledger.set
          split
          · rfl
          · exact hx
        refine ⟨.fade ⟨?_, fun x => ?_, fun x => ?_⟩ .nil, Or.inl hi⟩
        · unfold dataOf
          rw [show instOf (L.set k none) c = none by unfold instOf; rw [hi], show instOf L c = none by unfold instOf; rw [hx]]
        · unfold dataOf Storage.Spec.Ledger.set
          simp only
          rw [if_neg (fun he => by rw [← he] at hk; cases hk)]
        · unfold dataOf Storage.Spec.Ledger.set
          simp only
          by_cases he : LKey.data (.contract c) x .temporary = k
          · right; rw [if_pos he]; rfl
          · left; rw [if_neg he]
    rcases hstep.2 with h1 | h1
    · exact life_trans hstep.1 (ih ha' (fun n t hm => hb n t (List.mem_cons_of_mem _ hm)) h1)
    · exact life_trans hstep.1 (C99_history hrest ha' h1).1

/-- C99: so what is true of no data at all, what each function of a contract, its constructor included, read by itself, keeps true, and
what the end of temporary entries does not make false, is true of the data of the contract after every history that starts before
the contract exists. -/
theorem C99_always {h : List (Nat × Option Tx)} {L L' : Ledger LKey LVal} (hh : History h L L')
    (ha : ∀ n t, (n, some t) ∈ h → Asks c Code t.hf) (hb : ∀ n t, (n, some t) ∈ h → Bears (fun args => newOf t.E args = c) Code t.hf)
    (hx : L (.inst c) = none) (hd : ∀ k u, L (.data (.contract c) k u) = none) (I : Own → Prop)
    (hI : ∀ fn p d d', Code fn p → Alone c p d d' → I d → I d') (hF : ∀ d d', Faded d d' → I d → I d')
    (h0 : I ⟨fun _ _ => none, fun _ => none⟩) : I (dataOf L' c) := by
  have := C99_from_creation hh ha hb hx
  have he : dataOf L c = ⟨fun _ _ => none, fun _ => none⟩ := by
    unfold dataOf
    congr 1
    · funext k u; rw [hd]; rfl
    · funext k; rw [show instOf L c = none by unfold instOf; rw [hx]]; rfl
  rw [he] at this
  generalize (⟨fun _ _ => none, fun _ => none⟩ : Own) = d at this h0
  generalize dataOf L' c = d' at this
  induction this with
  | nil => exact h0
  | run hc hal _ ih => exact ih (hI _ _ _ _ hc hal h0)
  | fade hf _ ih => exact ih (hF _ _ hf h0)

end

/-! ### the counter of `SerialCase` -/

namespace HistoryCase
open HostCase SerialCase

/-- Whatever happens, the count of the counter never gets smaller. -/
theorem counts_ever {h : List (Nat × Option Tx)} {L L' : Ledger LKey LVal} {c : Nat} (hh : History h L L')
    (ha : ∀ n t, (n, some t) ∈ h → Asks c Counter t.hf) (hx : (instOf L c).isSome = true) :
    count (dataOf L c) ≤ count (dataOf L' c) :=
  C99_invariant hh ha hx (fun d => count (dataOf L c) ≤ count d)
    (fun _ _ _ _ ⟨_, _, _, hp⟩ hal hd => by subst hp; rw [incr_adds hal]; omega)
    (fun d d' hf hd => by unfold count at hd ⊢; rw [hf.persistent]; exact hd) (Nat.le_refl _)

/-- A ledger in which the counter also has a temporary entry, which has expired and which the transaction has not declared. -/
def L0 : Ledger LKey LVal := fun k => match map.get k with
  | some e => e
  | none => if k = .data (.contract 2) (.val 4) .temporary then some (.data 1, some 50) else none

/-- The transaction of `SerialCase`, in which the counter is called three times. -/
def tx : Tx := ⟨env, st, [entry], .invoke 1 fnA caller⟩

/-- The ledger after it. -/
def L1 : Ledger LKey LVal := fun k => if tx.result.1.st.footprint.get k = none then L0 k else match tx.result.1.st.map.get k with
  | none => L0 k
  | some e => e

/-- And after the temporary entry has been removed. -/
def L2 : Ledger LKey LVal := L1.set (.data (.contract 2) (.val 4) .temporary) none

theorem tx_on : tx.On L0 := by
  refine ⟨start, rfl, fun k e he => ?_⟩
  have h : ∀ x ∈ map, x.2 = Storage.Spec.view env.sto x.1 x.2 := by decide
  have he' : map.get k = some e := he
  have := h (k, e) (get_mem he')
  unfold L0
  rw [he']; exact this

theorem commits : CommitTo tx.result.1.st L0 L1 := by
  intro k
  unfold L1
  split
  · rfl
  · rename_i hf
    cases tx.result.1.st.map.get k with
    | none => rfl
    | some e =>
      rcases e with _ | ⟨v, _ | l⟩
      · rfl
      · rfl
      · exact ⟨l, rfl, Nat.le_refl _⟩

theorem history : History [(100, some tx), (100, none), (101, none)] L0 L2 :=
  .cons (.success (v := .void) tx_on rfl rfl commits) (by decide)
    (.cons (.expire (v := .data 1) (l := 50) rfl (by decide) (by decide)) (by decide) (.cons .failure (by simp) .nil))

example : (instOf L0 2).isSome = true := by decide
example : count (dataOf L0 2) = 0 ∧ count (dataOf L2 2) = 3 := by decide
example : (dataOf L0 2).entries (.val 4) .temporary = some (.data 1) ∧ (dataOf L1 2).entries (.val 4) .temporary = some (.data 1) ∧
    (dataOf L2 2).entries (.val 4) .temporary = none := by decide
example : ∀ n t, (n, some t) ∈ [(100, some tx), (100, none), (101, (none : Option Tx))] → Asks 2 Counter t.hf := by
  intro n t hm
  simp only [List.mem_cons, Prod.mk.injEq, reduceCtorEq, and_false, List.not_mem_nil, or_false, Option.some.injEq] at hm
  rw [hm.2]; exact caller_asks

/-! A contract whose constructor stores 2, and which has a function that doubles what is stored: what is stored is always even. -/

def double : Prog := .inst (.get 1) (fun r => match r with
  | .entry (.data n, _) => .inst (.put 1 (2 * n)) (fun _ => .ret .void)
  | _ => .fail (.contract 1))

/-- All the code that the contract has. -/
def Doubler (fn : Name) (p : Prog) : Prop := (fn = constructorName ∧ p = DeployCase.ctor .void) ∨ p = double

def Even (d : Own) : Prop := ∀ v, d.inst 1 = some v → v % 2 = 0

/-- Whatever happens, it is even. -/
theorem even_ever {h : List (Nat × Option Tx)} {L L' : Ledger LKey LVal} {c : Nat} (hh : History h L L')
    (ha : ∀ n t, (n, some t) ∈ h → Asks c Doubler t.hf) (hb : ∀ n t, (n, some t) ∈ h → Bears (fun args => newOf t.E args = c) Doubler t.hf)
    (hx : L (.inst c) = none) (hd : ∀ k u, L (.data (.contract c) k u) = none) : Even (dataOf L' c) := by
  refine C99_always hh ha hb hx hd Even ?_ (fun d d' hf hd v => by rw [hf.inst]; exact hd v) (fun v hv => by cases hv)
  rintro fn p d d' (⟨_, rfl⟩ | rfl) hal hd v hv
  · cases hal with
    | inst hs ha =>
      cases ha
      cases hs with
      | put => simp only [if_true, Option.some.injEq] at hv; omega
  · cases hal with
    | inst hs ha =>
      cases hs with
      | get hg =>
        cases ha with
        | inst hs ha =>
          cases ha
          cases hs with
          | put => simp only [if_true, Option.some.injEq] at hv; omega

/-- Contract 1 creates it as contract 3 and calls it twice. -/
def maker : Prog := .create (some (.contract 1)) EntriesCase.create (fun _ => .ret .void) (DeployCase.ctor .void) (fun _ =>
  .call 3 fnB double (fun _ => .call 3 fnB double (fun _ => .ret .void)))

def txU : Tx := ⟨env, EntriesCase.stU, [], .invoke 1 fnA maker⟩

def U0 : Ledger LKey LVal := fun k => (EntriesCase.stU.map.get k).join
def U1 : Ledger LKey LVal := fun k => if txU.result.1.st.footprint.get k = none then U0 k else match txU.result.1.st.map.get k with
  | none => U0 k
  | some e => e

theorem historyU : History [(100, some txU)] U0 U1 := by
  refine .cons (.success (v := .void) ⟨EntriesCase.startU, rfl, fun k e he => ?_⟩ rfl rfl (fun k => ?_)) (by simp) .nil
  · have h : ∀ x ∈ EntriesCase.stU.map, x.2 = Storage.Spec.view env.sto x.1 x.2 := by decide
    have he' : EntriesCase.stU.map.get k = some e := he
    have := h (k, e) (get_mem he')
    unfold U0
    rw [he']; exact this
  · unfold U1
    split
    · rfl
    · cases txU.result.1.st.map.get k with
      | none => rfl
      | some e =>
        rcases e with _ | ⟨v, _ | l⟩
        · rfl
        · rfl
        · exact ⟨l, rfl, Nat.le_refl _⟩

example : U0 (.inst 3) = none ∧ (dataOf U1 3).inst 1 = some 8 := by decide
example : ∀ k u, U0 (.data (.contract 3) k u) = none := by
  intro k u
  have h : ∀ x ∈ EntriesCase.stU.map, (match x.1 with | .data (.contract 3) _ _ => x.2.isNone | _ => true) = true := by decide
  unfold U0
  cases hg : EntriesCase.stU.map.get (.data (.contract 3) k u) with
  | none => rfl
  | some e =>
    have := h _ (get_mem hg)
    simp only [Option.isNone_iff_eq_none] at this
    rw [this]; rfl
example : Asks 3 Doubler txU.hf ∧ Bears (fun args => newOf txU.E args = 3) Doubler txU.hf := by
  have hd : Calls 3 Doubler double := by intro r; dsimp only; split <;> first | exact fun _ => trivial | trivial
  have hb : Births (fun args => newOf env args = 3) Doubler double := by
    intro r; dsimp only; split <;> first | exact fun _ => trivial | trivial
  exact ⟨⟨⟨fun _ => ⟨trivial, fun h => (by cases h)⟩, fun _ => trivial, fun _ => ⟨hd, fun _ => Or.inr rfl, fun _ => ⟨hd, fun _ => Or.inr rfl,
    fun _ => trivial⟩⟩⟩, fun h => (by cases h)⟩, fun _ => trivial, fun _ => Or.inl ⟨rfl, rfl⟩, fun _ => trivial,
    fun _ => ⟨hb, fun _ => ⟨hb, fun _ => trivial⟩⟩⟩

end HistoryCase
end Soroban.Props
