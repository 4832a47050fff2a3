import Verif.Props.HostEntries
import Verif.Spec.HostExec
/-!
C81: the code of contracts does not get lost. C82: who decides which code a contract runs.
-/
namespace Soroban.Props
open Soroban Soroban.Auth Soroban.Host Soroban.Host.Spec
open Soroban.Storage (Store Entry Access getEntry tryGet permOf has)
open Soroban.Storage.Spec (Ledger readAt getAt)

section
variable {E : HEnv} {st : Store LKey LVal} {orig : List Acct}

/-! ### C81 -/

private theorem some_iff {α : Type} {o : Option α} : o.isSome = true ↔ ∃ e, o = some e := Option.isSome_iff_exists

private theorem sourced {L L' : Ledger LKey LVal} (h : LLe E L L') : Sourced E L L' := by
  refine ⟨fun c ex m l hl => (h.exec c ex m l hl).imp id (fun hr => ?_), fun o t v l hl => (h.tag o t v l hl).imp id ?_⟩
  · cases ex with
    | wasm c => exact some_iff.mp hr
    | asset => trivial
    | ref o t => exact some_iff.mp hr
  · rintro ⟨b, c, rfl, hc, hs⟩
    exact ⟨c, by unfold tagged; rw [hl]; exact hc, some_iff.mp hs⟩

private theorem present_lasts {L L' : Ledger LKey LVal} (h : LLe E L L') {x : Code} (hx : Present L x) : Present L' x := by
  cases x with
  | wasm c => exact some_iff.mp (h.lasting (.code c) rfl (some_iff.mpr hx))
  | asset => trivial

private theorem loadable {L L' : Ledger LKey LVal} (h : LLe E L L') (hL : Loadable E L) : Loadable E L' := by
  have htag : ∀ o t e, L' (.data o (.tag t) .persistent) = some e → ∃ h, tagged E L' o t = some h ∧ Present L' (.wasm h) := by
    intro o t e he
    obtain ⟨v, l⟩ := e
    rcases (sourced h).tag o t v l he with ⟨l0, h0⟩ | hr
    · obtain ⟨c, hc, hp⟩ := hL.tag o t _ h0
      refine ⟨c, ?_, present_lasts h hp⟩
      unfold tagged at hc ⊢
      rw [h0] at hc
      rw [he]
      cases v <;> first | exact hc | (cases hc; done)
    · exact hr
  refine ⟨htag, fun c ex m l hl => ?_⟩
  have hr : RefersTo L' ex := by
    rcases (sourced h).inst c ex m l hl with ⟨m0, l0, h0⟩ | hr
    · obtain ⟨x, hx, hp⟩ := hL.inst c ex m0 l0 h0
      cases ex with
      | wasm c => cases hx; exact present_lasts h hp
      | asset => trivial
      | ref o t =>
        have : (L (.data o (.tag t) .persistent)).isSome = true := by
          cases hh : L (.data o (.tag t) .persistent) with
          | some e => rfl
          | none =>
            exfalso
            simp only [code, tagged, hh, Option.map_none] at hx
            cases hx
        exact some_iff.mp (h.lasting (.data o (.tag t) .persistent) rfl this)
    · exact hr
  cases ex with
  | wasm c => exact ⟨_, rfl, hr⟩
  | asset => exact ⟨_, rfl, trivial⟩
  | ref o t =>
    obtain ⟨e, he⟩ := hr
    obtain ⟨c, hc, hp⟩ := htag o t e he
    exact ⟨.wasm c, by simp only [code, hc, Option.map_some], hp⟩

/-- **C81**. Whatever code runs, an executable that a contract did not have before refers to code, or to a tag, that is there, and
new contents of a tag are the hash of code that is there. -/
theorem C81_sourced (h : TxStart E st orig) {s s' : Host} (hr : Reach E st orig s) (p : Prog) {r : Res RVal}
    (hp : run E p s = (s', r)) : Sourced E (visible E s) (visible E s') := by
  have := (run_good (E := E) p s (reach_hok h hr)).le.st.ledger
  rw [hp] at this
  exact sourced this

/-- **C81**. If all contracts have code at some moment, they have after whatever code has run. -/
theorem C81_loadable (h : TxStart E st orig) {s s' : Host} (hr : Reach E st orig s) (p : Prog) {r : Res RVal}
    (hp : run E p s = (s', r)) (hl : Loadable E (visible E s)) : Loadable E (visible E s') := by
  have := (run_good (E := E) p s (reach_hok h hr)).le.st.ledger
  rw [hp] at this
  exact loadable this hl

private theorem tx_lle (h : TxStart E st orig) (hf : HostFn) {s' : Host} {r : Res RVal}
    (hi : invoke E (Host.init st orig) hf = (s', r)) : LLe E (visible E (Host.init st orig)) (visible E s') := by
  have hv := invoke_spec (stOk_start h) h.auth hf
  cases r with
  | ok v =>
    have := (hv.strong v (by rw [hi])).2.2.1.ledger
    rw [hi] at this
    exact this
  | error e =>
    have h1 := hv.failed e (by rw [hi])
    rw [hi] at h1
    have : visible E s' = visible E (Host.init st orig) := by
      unfold visible; rw [h1.1, h1.2.1]; rfl
    rw [this]
    exact LLe.refl _

/-- **C81** for a transaction: if all contracts have code before, they have after it. -/
theorem C81_transaction (h : TxStart E st orig) (hf : HostFn) {s' : Host} {r : Res RVal}
    (hi : invoke E (Host.init st orig) hf = (s', r)) (hl : Loadable E (visible E (Host.init st orig))) :
    Loadable E (visible E s') := loadable (tx_lle h hf hi) hl

theorem read_fails (hk : E.sto.keys = keysOf) {p : LKey → Access → Bool} {L : Ledger LKey LVal} {k : LKey} {v : Entry LVal}
    (hv : L k = some v) {e : Err} (h : getAt E.sto p L k = .error e) : e = .host .storage .exceededLimit := by
  unfold getAt readAt at h
  rw [hk] at h
  rw [if_pos (by rfl)] at h
  by_cases hp : p k .readOnly = true
  · rw [if_pos hp, hv] at h
    cases h
  · rw [if_neg hp] at h
    cases h
    rfl

/-- **C81**. Where all contracts have code, the code of a contract can be loaded: finding its hash, and reading it, fail only if the
footprint does not have the tag or the code. -/
theorem C81_loads (h : TxStart E st orig) {s : Host} (hr : Reach E st orig s) (hl : Loadable E (visible E s)) {c : Nat} {ex : Exec}
    {m : FMap Nat Nat} {l : Option Nat} (hc : visible E s (.inst c) = some (.inst ex m, l)) :
    (∀ e, (wasmHash E s ex).2 = .error e → e = .host .storage .exceededLimit) ∧
    (∀ h' e, (wasmHash E s ex).2 = .ok (some h') → (loadCode E (wasmHash E s ex).1 h').2 = .error e →
      e = .host .storage .exceededLimit) := by
  have hok := (reach_hok h hr).st
  obtain ⟨x, hx, hp⟩ := hl.inst c ex m l hc
  have load : ∀ {s1 : Host}, StOk E s1.st → ledger E s1.st = visible E s → ∀ h' e, x = .wasm h' →
      (loadCode E s1 h').2 = .error e → e = .host .storage .exceededLimit := by
    intro s1 hs1 hled h' e hxx he
    subst hxx
    obtain ⟨ce, hce⟩ := hp
    obtain ⟨s2, -, h2, -⟩ := Storage.getEntry_spec hs1.mode hs1.map (.code h')
    unfold loadCode liftSt at he
    dsimp only at he
    rw [h2] at he
    dsimp only at he
    have hce' : Storage.Spec.absMap E.sto s1.st.mode s1.st.map (.code h') = some ce :=
      (congrFun (show Storage.Spec.absMap E.sto s1.st.mode s1.st.map = _ from hled) _).trans hce
    refine read_fails (p := permOf s1.st.mode s1.st.footprint) hs1.keys hce' (e := e) ?_
    split at he
    · rename_i heq
      cases he
      exact congrArg Prod.snd heq
    · cases he
  cases ex with
  | wasm h' =>
    cases hx
    refine ⟨fun e he => (by cases he), fun h1 e h2 h3 => load hok rfl h1 e ?_ h3⟩
    simp only [wasmHash, Except.ok.injEq, Option.some.injEq] at h2
    rw [h2]
  | asset => exact ⟨fun e he => (by cases he), fun h1 e h2 _ => by cases h2⟩
  | ref o t =>
    have htag : ∃ v l', visible E s (.data o (.tag t) .persistent) = some (.data v, l') ∧ ∃ h', E.hashOf v = some h' ∧ x = .wasm h' := by
      simp only [code, tagged] at hx
      split at hx
      · rename_i v l' hv
        cases hh : E.hashOf v with
        | none => rw [hh] at hx; cases hx
        | some h' => rw [hh] at hx; cases hx; exact ⟨v, l', hv, h', hh, rfl⟩
      · cases hx
    obtain ⟨v, l', hv, h', hh, hxx⟩ := htag
    obtain ⟨s2, hsame, h2, -⟩ := Storage.getEntry_spec hok.mode hok.map (.data o (.tag t) .persistent)
    have hres : wasmHash E s (.ref o t) =
        match getAt E.sto (permOf s.st.mode s.st.footprint) (visible E s) (.data o (.tag t) .persistent) with
        | .error e => ({ s with st := s2 }, .error e)
        | .ok (.data v, _) => match E.hashOf v with
          | some h => ({ s with st := s2 }, .ok (some h))
          | none => ({ s with st := s2 }, .error (.host .storage .internalError))
        | .ok _ => ({ s with st := s2 }, .error (.host .storage .internalError)) := by
      unfold wasmHash resolveRef liftSt
      dsimp only
      rw [h2]
      unfold visible
      generalize getAt E.sto (permOf s.st.mode s.st.footprint) (Storage.Spec.absMap E.sto s.st.mode s.st.map) _ = g
      rcases g with e | ⟨v, l⟩
      · rfl
      · cases v with
        | data v => dsimp only; cases E.hashOf v <;> rfl
        | _ => rfl
    rw [hres]
    cases hg : getAt E.sto (permOf s.st.mode s.st.footprint) (visible E s) (.data o (.tag t) .persistent) with
    | error e0 =>
      refine ⟨fun e he => ?_, fun h1 e h3 _ => by cases h3⟩
      cases he
      exact read_fails hok.keys hv hg
    | ok en =>
      have := (Storage.getAt_ok hg).1
      rw [hv] at this
      cases this
      dsimp only
      rw [hh]
      refine ⟨fun e he => (by cases he), fun h1 e h3 h4 => ?_⟩
      cases h3
      exact load (s1 := { s with st := s2 }) (SLe.ofSame hok hsame).ok hsame.abs h' e hxx h4

/-! ### C82 -/

/-- A function of contract `c` was entered in the transaction. -/
def Entered (c : Nat) (s : Host) : Prop := ∃ fr ∈ s.trace, ∃ fn, fr.head? = some (some c, fn)

private theorem notEntered {c : Nat} {s : Host} (h : ¬ Entered c s) : ∀ t ∈ s.trace, ∀ fn, t.head? ≠ some (some c, fn) :=
  fun t ht fn he => h ⟨t, ht, fn, he⟩

private theorem code_longer {L L' : Storage.Spec.Ledger LKey LVal} {o : Addr} {t : Nat}
    (h : Longer (L (.data o (.tag t) .persistent)) (L' (.data o (.tag t) .persistent))) : code E L' (.ref o t) = code E L (.ref o t) := by
  rcases h with ⟨h1, h2⟩ | ⟨v, l, l', h1, h2, -⟩
  · simp only [code, tagged, h1, h2]
  · simp only [code, tagged, h1, h2]; cases v <;> rfl

/-- **C82**. If a contract runs other code after a transaction than before it, one of its own functions was entered, or it refers to
the tag of another contract, and a function of that contract was entered. -/
theorem C82_transaction (h : TxStart E st orig) (hf : HostFn) {s' : Host} {r : Res RVal}
    (hi : invoke E (Host.init st orig) hf = (s', r)) {c : Nat} {x : Code} (hx : codeOf E (visible E (Host.init st orig)) c = some x)
    (hne : codeOf E (visible E s') c ≠ some x) :
    Entered c s' ∨ ∃ o t m l, visible E (Host.init st orig) (.inst c) = some (.inst (.ref (.contract o) t) m, l) ∧ Entered o s' := by
  by_cases hc : Entered c s'
  · exact .inl hc
  have hk := C45_transaction h hf hi (notEntered hc)
  refine .inr ?_
  cases hL : visible E (Host.init st orig) (.inst c) with
  | none => simp only [codeOf, hL] at hx; cases hx
  | some e =>
    obtain ⟨v, l⟩ := e
    cases v with
    | inst ex m =>
      obtain ⟨l', hL', -⟩ := hk.inst ex m l hL
      simp only [codeOf, hL] at hx
      simp only [codeOf, hL'] at hne
      cases ex with
      | wasm w => exact absurd hx hne
      | asset => exact absurd hx hne
      | ref o t =>
        have hdiff : ¬ Longer (visible E (Host.init st orig) (.data o (.tag t) .persistent))
            (visible E s' (.data o (.tag t) .persistent)) := by
          intro he
          apply hne
          rw [← hx]
          exact code_longer he
        cases o with
        | account a => exact absurd ((tx_lle h hf hi).account a _ _) hdiff
        | contract o =>
          refine ⟨o, t, m, l, rfl, ?_⟩
          by_cases ho : Entered o s'
          · exact ho
          · exact absurd ((C45_transaction h hf hi (notEntered ho)).tag _ _) hdiff
    | _ => simp only [codeOf, hL] at hx; cases hx

/-- **C82** for what runs within a transaction: the code of a contract that is not running and is not entered stays the same, if it
is its own or that of an account, or the owner of the tag is not running and not entered either. -/
theorem C82_isolated (h : TxStart E st orig) {s s' : Host} (hr : Reach E st orig s) (p : Prog) {r : Res RVal}
    (hp : run E p s = (s', r)) {c : Nat} {x : Code} (hx : codeOf E (visible E s) c = some x)
    (hc : topContract s.ctx ≠ some c) (hn : NotEntered c s s')
    (ho : ∀ o t m l, visible E s (.inst c) = some (.inst (.ref (.contract o) t) m, l) → topContract s.ctx ≠ some o ∧ NotEntered o s s') :
    codeOf E (visible E s') c = some x := by
  have hk := C45_isolation h hr p hp hc hn
  have hle := (run_good (E := E) p s (reach_hok h hr)).le.st.ledger
  rw [hp] at hle
  cases hL : visible E s (.inst c) with
  | none => simp only [codeOf, hL] at hx; cases hx
  | some e =>
    obtain ⟨v, l⟩ := e
    cases v with
    | inst ex m =>
      obtain ⟨l', hL', -⟩ := hk.inst ex m l hL
      simp only [codeOf, hL] at hx
      simp only [codeOf, hL']
      rw [← hx]
      cases ex with
      | wasm w => rfl
      | asset => rfl
      | ref o t =>
        have he : Longer (visible E s (.data o (.tag t) .persistent)) (visible E s' (.data o (.tag t) .persistent)) := by
          cases o with
          | account a => exact hle.account a _ _
          | contract o =>
            obtain ⟨h1, h2⟩ := ho o t m l hL
            exact (C45_isolation h hr p hp h1 h2).tag _ _
        exact code_longer he
    | _ => simp only [codeOf, hL] at hx; cases hx

/-- **C82**. `get_address_executable` gives what the ledger has: for an account that it is an account, if it exists; for a contract
the code it runs, with the reference resolved; nothing for an address without entry. The ledger stays as it is. -/
theorem C82_lookup (h : TxStart E st orig) {s : Host} (hr : Reach E st orig s) (a : Addr) {x : Option AddrExec}
    (hx : (addressExecutable E s a).2 = .ok x) :
    visible E (addressExecutable E s a).1 = visible E s ∧
    match a with
    | .account n => x = if (visible E s (.account n)).isSome then some .account else none
    | .contract c => (visible E s (.inst c) = none ∧ x = none) ∨
        ∃ y, codeOf E (visible E s) c = some y ∧ x = some y.shown := by
  have hok := (reach_hok h hr).st
  cases a with
  | account n =>
    have hv := has_ledger hok (.account n)
    unfold addressExecutable at hx ⊢
    cases hh : (has E.sto s.st (.account n)) with
    | mk s1 b =>
      rw [hh] at hv
      simp only [liftSt, hh] at hx ⊢
      cases b with
      | error e => cases hx
      | ok b =>
        have := has_val hok (b := b) (k := .account n) (by rw [hh])
        have hvis : visible E s (.account n) = ledger E s.st (.account n) := rfl
        rw [hvis, this]
        cases b <;> (cases hx; exact ⟨hv, rfl⟩)
  | contract c =>
    obtain ⟨s1, hsame, h1, -⟩ := Storage.tryGet_spec hok.mode hok.map (.inst c)
    unfold addressExecutable at hx ⊢
    simp only [liftSt, h1] at hx ⊢
    cases hg : readAt E.sto (permOf s.st.mode s.st.footprint) (Storage.Spec.absMap E.sto s.st.mode s.st.map) (.inst c) with
    | error e => rw [hg] at hx; cases hx
    | ok en =>
      have hL : visible E s (.inst c) = en := by
        unfold readAt at hg
        split at hg
        · split at hg
          · cases hg; rfl
          · cases hg
        · cases hg
      rw [hg] at hx
      cases en with
      | none => cases hx; exact ⟨hsame.abs, .inl ⟨hL, rfl⟩⟩
      | some en =>
        obtain ⟨v, l⟩ := en
        cases v with
        | inst ex m =>
          dsimp only at hx ⊢
          have hok1 : StOk E s1 := (SLe.ofSame hok hsame).ok
          have hco : codeOf E (visible E s) c = code E (visible E s) ex := by simp only [codeOf, hL]
          cases ex with
          | wasm w => cases hx; exact ⟨hsame.abs, .inr ⟨.wasm w, hco, rfl⟩⟩
          | asset => cases hx; exact ⟨hsame.abs, .inr ⟨.asset, hco, rfl⟩⟩
          | ref o t =>
            obtain ⟨s2, hsame2, h2, -⟩ := Storage.getEntry_spec hok1.mode hok1.map (.data o (.tag t) .persistent)
            simp only [wasmHash, resolveRef, liftSt, h2] at hx ⊢
            cases hg2 : getAt E.sto (permOf s1.mode s1.footprint) (Storage.Spec.absMap E.sto s1.mode s1.map)
                (.data o (.tag t) .persistent) with
            | error e => rw [hg2] at hx; cases hx
            | ok en2 =>
              have hv2 : visible E s (.data o (.tag t) .persistent) = some en2 :=
                (congrFun hsame.abs _).symm.trans (Storage.getAt_ok hg2).1
              rw [hg2] at hx
              obtain ⟨v2, l2⟩ := en2
              cases v2 with
              | data v2 =>
                dsimp only at hx ⊢
                cases hh : E.hashOf v2 with
                | none => rw [hh] at hx; cases hx
                | some w =>
                  rw [hh] at hx
                  cases hx
                  refine ⟨hsame2.abs.trans hsame.abs, .inr ⟨.wasm w, ?_, rfl⟩⟩
                  rw [hco]
                  simp only [code, tagged, hv2, hh, Option.map_some]
              | _ => cases hx
        | _ => cases hx

/-- **C82**. Where all contracts have code, the lookup fails only if the footprint does not have what it reads. -/
theorem C82_lookup_fails (h : TxStart E st orig) {s : Host} (hr : Reach E st orig s) (hl : Loadable E (visible E s)) (a : Addr)
    (ht : ∀ c e, a = .contract c → visible E s (.inst c) = some e → ∃ ex m l, e = (.inst ex m, l)) {e : Err}
    (he : (addressExecutable E s a).2 = .error e) : e = .host .storage .exceededLimit := by
  have hok := (reach_hok h hr).st
  have hread : ∀ {k : LKey} {e : Err},
      readAt E.sto (permOf s.st.mode s.st.footprint) (Storage.Spec.absMap E.sto s.st.mode s.st.map) k = .error e →
      e = .host .storage .exceededLimit := by
    intro k e hg
    unfold readAt at hg
    rw [hok.keys, if_pos (by rfl)] at hg
    split at hg
    · cases hg
    · cases hg; rfl
  cases a with
  | account n =>
    obtain ⟨s1, -, h1, -⟩ := Storage.has_spec hok.mode hok.map (.account n)
    unfold addressExecutable at he
    simp only [liftSt, h1] at he
    cases hg : readAt E.sto (permOf s.st.mode s.st.footprint) (Storage.Spec.absMap E.sto s.st.mode s.st.map) (.account n) with
    | error e1 => rw [hg] at he; cases he; exact hread hg
    | ok o => rw [hg] at he; cases o <;> cases he
  | contract c =>
    obtain ⟨s1, hsame, h1, -⟩ := Storage.tryGet_spec hok.mode hok.map (.inst c)
    unfold addressExecutable at he
    simp only [liftSt, h1] at he
    cases hg : readAt E.sto (permOf s.st.mode s.st.footprint) (Storage.Spec.absMap E.sto s.st.mode s.st.map) (.inst c) with
    | error e1 => rw [hg] at he; cases he; exact hread hg
    | ok en =>
      have hL : visible E s (.inst c) = en := by
        unfold readAt at hg
        split at hg
        · split at hg
          · cases hg; rfl
          · cases hg
        · cases hg
      rw [hg] at he
      cases en with
      | none => cases he
      | some en =>
        obtain ⟨ex, m, l, rfl⟩ := ht c en rfl hL
        dsimp only at he
        have hok1 : StOk E s1 := (SLe.ofSame hok hsame).ok
        obtain ⟨y, hy, -⟩ := hl.inst c ex m l hL
        cases ex with
        | wasm w => cases he
        | asset => cases he
        | ref o t =>
          obtain ⟨s2, hsame2, h2, -⟩ := Storage.getEntry_spec hok1.mode hok1.map (.data o (.tag t) .persistent)
          simp only [wasmHash, resolveRef, liftSt, h2] at he
          cases hT : visible E s (.data o (.tag t) .persistent) with
          | none => simp only [code, tagged, hT] at hy; cases hy
          | some te =>
            have hT1 : Storage.Spec.absMap E.sto s1.mode s1.map (.data o (.tag t) .persistent) = some te :=
              (congrFun hsame.abs _).trans hT
            cases hg2 : getAt E.sto (permOf s1.mode s1.footprint) (Storage.Spec.absMap E.sto s1.mode s1.map)
                (.data o (.tag t) .persistent) with
            | error e1 => rw [hg2] at he; cases he; exact read_fails hok1.keys hT1 hg2
            | ok en2 =>
              have := (Storage.getAt_ok hg2).1
              rw [hT1] at this
              cases this
              rw [hg2] at he
              obtain ⟨v, tl⟩ := te
              cases v with
              | data v =>
                cases hh : E.hashOf v with
                | none => simp only [code, tagged, hT, hh] at hy; cases hy
                | some w => simp only [hh] at he; cases he
              | _ => simp only [code, tagged, hT] at hy; cases hy

end

/-! ### A transaction in which contract 1 sets its tag 5, to which contract 2 refers, to other code. -/

namespace ExecCase
open HostCase (env fnA)

def fp : FMap LKey Access :=
  [(.inst 1, .readWrite), (.inst 2, .readOnly), (.code 7, .readOnly), (.code 8, .readOnly),
   (.data (.contract 1) (.tag 5) .persistent, .readWrite), (.account 9, .readOnly), (.inst 4, .readOnly)]
def map : FMap LKey (Option (Entry LVal)) :=
  [(.inst 1, some (.inst (.wasm 7) [], some 200)), (.inst 2, some (.inst (.ref (.contract 1) 5) [], some 200)),
   (.code 7, some (.code 1, some 200)), (.code 8, some (.code 2, some 200)),
   (.data (.contract 1) (.tag 5) .persistent, some (.data 7, some 200)), (.account 9, some (.classic 0, none)), (.inst 4, none)]
def st : Store LKey LVal := { footprint := fp, mode := .enforcing, map := map }

theorem start : TxStart env st [] := by
  refine ⟨rfl, ⟨_, .enforcing (fp := fp) (map := map) ⟨?_, ?_⟩, rfl⟩, ⟨?_, ?_, ?_⟩⟩
  · have : ∀ x ∈ fp, (map.get x.1).isSome = true := by decide
    intro k hk
    obtain ⟨v, hv⟩ := Option.isSome_iff_exists.mp hk
    exact this (k, v) (HostCase.get_mem hv)
  · have : ∀ x ∈ map, (match x.2 with | some (_, some l) => decide (100 ≤ l) | some (_, none) => (keysOf.durability x.1).isNone | none => true) = true := by
      decide
    intro k e he v l d h hd
    have hx := this (k, e) (HostCase.get_mem he)
    subst h
    cases l with
    | none =>
      simp only at hx
      have hd' : keysOf.durability k = some d := hd
      rw [hd'] at hx; cases hx
    | some l => exact ⟨l, rfl, of_decide_eq_true hx⟩
  · intro a ha; cases ha
  · intro a ha; cases ha
  · intro a ha; cases ha

/-- All contracts have code. -/
theorem loadable : Loadable env (visible env (Host.init st [])) := by
  have hm : ∀ k e, visible env (Host.init st []) k = some e → (k, some e) ∈ map := by
    intro k e he
    have he' : Storage.Spec.absMap env.sto .enforcing map k = some e := he
    unfold Storage.Spec.absMap at he'
    cases hg : map.get k with
    | none => rw [hg] at he'; cases he'
    | some x => rw [hg] at he'; cases he'; exact HostCase.get_mem hg
  refine ⟨fun o t e he => ?_, fun c ex m l hl => ?_⟩
  · have := hm _ _ he
    simp only [map, List.mem_cons, Prod.mk.injEq, LKey.data.injEq, DKey.tag.injEq, Option.some.injEq, reduceCtorEq, false_and, and_false,
      false_or, or_false, List.not_mem_nil] at this
    obtain ⟨⟨rfl, rfl, -⟩, -⟩ := this
    exact ⟨7, rfl, _, rfl⟩
  · have := hm _ _ hl
    simp only [map, List.mem_cons, Prod.mk.injEq, LKey.inst.injEq, LVal.inst.injEq, Option.some.injEq, reduceCtorEq, false_and, and_false,
      false_or, or_false, List.not_mem_nil] at this
    rcases this with ⟨-, ⟨rfl, -⟩, -⟩ | ⟨-, ⟨rfl, -⟩, -⟩
    · exact ⟨.wasm 7, rfl, _, rfl⟩
    · exact ⟨.wasm 7, rfl, _, rfl⟩

/-- What contract 1 does. -/
def prog (h : Nat) : Prog := .data (.put (.tag 5) h .persistent) (fun _ => .ret .void)
def result (h : Nat) : Host × Res RVal := invoke env (Host.init st []) (.invoke 1 fnA (prog h))

/-- Contract 2 has code 8 afterwards, though only contract 1 was entered. -/
example : (result 8).2 = .ok .void := rfl
example : codeOf env (visible env (Host.init st [])) 2 = some (.wasm 7) ∧ codeOf env (visible env (result 8).1) 2 = some (.wasm 8) := by decide
example : (result 8).1.trace = [[(some 1, fnA), (none, [])], [(none, [])]] := by decide
/-- A tag for code that is not there is refused. -/
example : (result 6).2 = .error (.host .storage .exceededLimit) := rfl

/-- The state in which contract 1 runs. -/
def s0 : Host := (pushContext (pushContext (Host.init st []) hostFrame).1 { cid := some 1, fn := fnA, inst := [], storage := none }).1
theorem reach : Reach env st [] s0 :=
  .called (s := (pushContext (Host.init st []) hostFrame).1) .start (by decide) (by decide) (by decide)
    (.wasm (ex := .wasm 7) (h := 7) rfl rfl rfl)

example : (addressExecutable env s0 (.contract 2)).2 = .ok (some (.wasm 7)) := rfl
example : (addressExecutable env s0 (.contract 1)).2 = .ok (some (.wasm 7)) := rfl
example : (addressExecutable env s0 (.contract 4)).2 = .ok none := rfl
example : (addressExecutable env s0 (.account 9)).2 = .ok (some .account) := rfl
/-- The lookup needs the footprint. -/
example : (addressExecutable env s0 (.contract 3)).2 = .error (.host .storage .exceededLimit) := rfl
/-- C81 and C82 for this transaction. -/
example : Loadable env (visible env (result 8).1) := C81_transaction start (.invoke 1 fnA (prog 8)) (r := (result 8).2) rfl loadable
example : Entered 2 (result 8).1 ∨ ∃ o t m l, visible env (Host.init st []) (.inst 2) = some (.inst (.ref (.contract o) t) m, l) ∧
    Entered o (result 8).1 := 
  C82_transaction start (.invoke 1 fnA (prog 8)) (r := (result 8).2) rfl (x := .wasm 7) (by decide) (by decide)
example : Sourced env (visible env s0) (visible env (run env (prog 8) s0).1) := C81_sourced start reach (prog 8) rfl

end ExecCase
end Soroban.Props
