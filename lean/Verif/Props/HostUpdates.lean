import Verif.Props.HostExec
import Verif.Spec.HostUpdates
/-!
C93: the events of a transaction tell of every change of the executable of a contract.
-/
namespace Soroban.Props
open Soroban Soroban.Auth Soroban.Host Soroban.Host.Spec
open Soroban.Storage (Store Entry Access getEntry tryGet permOf has)
open Soroban.Storage.Spec (Ledger readAt getAt)

section
variable {E : HEnv} {st : Store LKey LVal} {orig : List Acct}

private theorem set_other {L : Ledger LKey LVal} {c d : Nat} (e : Option (Entry LVal)) (h : d ≠ c) : L.set (.inst c) e (.inst d) = L (.inst d) := by
  unfold Ledger.set; rw [if_neg (fun he => by cases he; exact h rfl)]

private theorem storeInstance_others {s : Host} (h : StOk E s.st) {ex : Option Exec} {m : Option (FMap Nat Nat)} {c d : Nat} (hd : d ≠ c) :
    Host.ledger E (storeInstance E s ex m c).1.st (.inst d) = Host.ledger E s.st (.inst d) := by
  have h1 : OnlySt E s (liftSt s (fun st => has E.sto st (.inst c))).1 := liftSt_read (has_sle h _) (has_ledger h _)
  have hl1 : Host.ledger E (liftSt s (fun st => has E.sto st (.inst c))).1.st = Host.ledger E s.st := has_ledger h _
  have hput : ∀ {s1 : Host} (h1 : StOk E s1.st) {e : Option (Entry LVal)}, Storage.Spec.LiveEntry E.sto (.inst c) e →
      Host.ledger E (liftSt s1 (fun st => Storage.putOpt E.sto st (.inst c) e)).1.st (.inst d) = Host.ledger E s1.st (.inst d) := by
    intro s1 h1 e he
    show Host.ledger E (Storage.putOpt E.sto s1.st (.inst c) e).1 (.inst d) = _
    rcases putOpt_ledger h1 he with ⟨_, hL⟩ | ⟨_, hL⟩
    · rw [hL]; exact set_other e hd
    · rw [hL]
  unfold storeInstance
  rcases hh : liftSt s (fun st => has E.sto st (.inst c)) with ⟨s1, e | b⟩
  · rw [hh] at hl1; exact congrFun hl1 _
  · rw [hh] at h1 hl1
    have hl1' : Host.ledger E s1.st = Host.ledger E s.st := hl1
    cases b with
    | true =>
      simp only
      have hl2 : Host.ledger E (liftSt s1 (fun st => getEntry E.sto st (.inst c))).1.st = Host.ledger E s1.st := getEntry_ledger h1.ok _
      have h2 : OnlySt E s1 (liftSt s1 (fun st => getEntry E.sto st (.inst c))).1 := liftSt_read (getEntry_sle h1.ok _) (getEntry_ledger h1.ok _)
      have hlv := fun v l => getEntry_live (E := E) h1.ok (k := .inst c) (e := (v, l))
      have hval : ∀ x, (liftSt s1 (fun st => getEntry E.sto st (.inst c))).2 = .ok x → (getEntry E.sto s1.st (.inst c)).2 = .ok x := fun x hx => hx
      rcases hg : liftSt s1 (fun st => getEntry E.sto st (.inst c)) with ⟨s2, e | ⟨v, l⟩⟩
      · rw [hg] at hl2; simp only; rw [show Host.ledger E s2.st = _ from hl2, hl1']
      · rw [hg] at hl2 h2 hval
        have hlive : Storage.Spec.LiveEntry E.sto (.inst c) (some (v, l)) := hlv v l (hval _ rfl)
        simp only
        cases hu : updInstance ex m v with
        | error e => simp only; rw [show Host.ledger E s2.st = _ from hl2, hl1']
        | ok v' =>
          simp only
          rw [hput h2.ok (e := some (v', l)) (by
            intro v'' l' d' hv hd'
            simp only [Option.some.injEq, Prod.mk.injEq] at hv
            exact hlive v l' d' (by rw [hv.2]) hd'), show Host.ledger E s2.st = _ from hl2, hl1']
    | false =>
      simp only
      cases ex with
      | none => simp only; rw [hl1']
      | some x =>
        simp only
        cases hn : Storage.newLiveUntil E.sto (.inst c) with
        | error e => simp only; rw [hl1']
        | ok l => simp only; rw [hput h1.ok (Storage.newLive_live hn _), hl1']

/-- **C93**. An update of the executable that succeeds adds one event, with the contract that is running, the executable it had and
the one it has now. The executables of the others stay. -/
theorem C93_update (h : TxStart E st orig) {s s' : Host} (hr : Reach E st orig s) {ex : Exec}
    (hu : updateExec E s ex = (s', .ok ())) :
    ∃ c old, topContract s.ctx = some c ∧ execAt (visible E s) c = some old ∧ execAt (visible E s') c = some ex ∧
      s'.events = s.events ++ [(⟨c, .updated old ex⟩, false)] ∧
      ∀ d, d ≠ c → execAt (visible E s') d = execAt (visible E s) d := by
  have hok := reach_hok h hr
  have h1 := verifyExec_only (E := E) hok.st ex
  have hL1 := verifyExec_ledger (E := E) hok.st ex
  have hv := fun s' => verifyExec_ok (E := E) (s' := s') hok.st (ex := ex)
  unfold updateExec at hu
  generalize verifyExec E s ex = c at h1 hv hu hL1
  obtain ⟨s1, r⟩ := c
  cases r with
  | error e => cases hu
  | ok u =>
    simp only at hu
    cases hcc : currentContract s1 with
    | error e => rw [hcc] at hu; cases hu
    | ok id =>
      rw [hcc] at hu
      simp only at hu
      rcases hg : getInstance E s1 id with ⟨s2, r⟩
      have h2 := getInstance_only (E := E) h1.ok id
      rw [hg] at hu h2
      cases r with
      | error e => cases hu
      | ok old =>
        obtain ⟨x, m⟩ := old
        obtain ⟨l, hl, hL2⟩ := getInstance_val h1.ok hg
        simp only at hu
        have htop : topContract s2.ctx = some id := by rw [show s2.ctx = s1.ctx from h2.ctx]; exact top_of_current hcc
        have hex : ∀ y, some ex = some y → Refers (Host.ledger E s2.st) y :=
          fun y hy => by cases hy; exact (hv s1 rfl).mono h2.st.ledger.lasting
        obtain ⟨h3, h4, -⟩ := storeInstance_only0 (E := E) (s := recordEvent s2 ⟨id, .updated x ex⟩) h2.ok (some ex) none id
          (Or.inl htop) hex
        have hst := fun d hd => storeInstance_others (E := E) (s := recordEvent s2 ⟨id, .updated x ex⟩) h2.ok (ex := some ex) (m := none) (c := id)
          (d := d) hd
        rw [hu] at h3 h4 hst
        have hL : Host.ledger E s2.st = Host.ledger E s.st := hL2.trans hL1
        refine ⟨id, x, ?_, ?_, ?_, ?_, fun d hd => ?_⟩
        · rw [← htop, show s2.ctx = s1.ctx from h2.ctx, show s1.ctx = s.ctx from h1.ctx]
        · show execAt (Host.ledger E s.st) id = some x
          rw [← hL]; unfold execAt; rw [hl]
        · obtain ⟨l', h5⟩ := (h4 rfl).2.1 x m l hl
          show execAt (Host.ledger E s'.st) id = some ex
          unfold execAt; rw [h5]; rfl
        · rw [show s'.events = s2.events ++ [(⟨id, .updated x ex⟩, false)] from h3.events,
            show s2.events = s1.events from h2.events, show s1.events = s.events from h1.events]
        · show execAt (Host.ledger E s'.st) d = execAt (Host.ledger E s.st) d
          have h6 : Host.ledger E s'.st (.inst d) = Host.ledger E s2.st (.inst d) := hst d hd
          unfold execAt; rw [h6, hL]

/-- **C93**. In every state in which code runs, the updates among the events that have not been rolled back lead from the executable
a contract had at the beginning of the transaction to the one it has now. -/
theorem C93_history (h : TxStart E st orig) {s : Host} (hr : Reach E st orig s) (c : Nat) :
    Leads (execAt (visible E (Host.init st orig)) c) (updatesOf c (successfulEvents s.events)) (execAt (visible E s) c) :=
  (reach_strong h hr).updates c

/-- **C93**. After a transaction, whether it succeeds or fails, the updates among the events that count lead from the executable a
contract had before it to the one it has after it. -/
theorem C93_transaction (h : TxStart E st orig) (hf : HostFn) {s' : Host} {r : Res RVal}
    (hi : invoke E (Host.init st orig) hf = (s', r)) (c : Nat) :
    Leads (execAt (visible E (Host.init st orig)) c) (updatesOf c (successfulEvents s'.events)) (execAt (visible E s') c) := by
  have hv := invoke_spec (stOk_start h) h.auth hf
  cases r with
  | ok v =>
    have := (hv.strong v (by rw [hi])).1.updates c
    rw [hi] at this; exact this
  | error e =>
    have h1 := hv.failed e (by rw [hi])
    rw [hi] at h1
    have : visible E s' = visible E (Host.init st orig) := by
      unfold visible; rw [h1.1, h1.2.1]; rfl
    rw [this, h1.2.2]
    cases execAt (visible E (Host.init st orig)) c with
    | none => trivial
    | some x => rfl

private theorem leads_last : ∀ {us : List (Exec × Exec)} {x : Exec} {y : Option Exec}, Leads (some x) us y →
    (us = [] ∧ y = some x) ∨ ∃ n us' o n', us = (x, n) :: us' ∧ us.getLast? = some (o, n') ∧ y = some n'
  | [], _, _, h => Or.inl ⟨rfl, h⟩
  | (o, n) :: us, x, y, h => by
    obtain ⟨h1, h2⟩ := h
    have ho : x = o := by rcases h1 with h1 | h1 <;> cases h1; rfl
    subst ho
    refine Or.inr ⟨n, us, ?_⟩
    rcases leads_last h2 with ⟨rfl, hy⟩ | ⟨n2, us2, o2, n3, -, h5, h6⟩
    · exact ⟨x, n, rfl, rfl, hy⟩
    · refine ⟨o2, n3, rfl, ?_, h6⟩
      rw [List.getLast?_cons, h5]; rfl

/-- **C93**. So who reads the events knows: if the executable of a contract is not the one it was before the transaction, there is an
event that says that it was replaced, and the last such event has the one it has now; and if there is no such event, it is the same. -/
theorem C93_announced (h : TxStart E st orig) (hf : HostFn) {s' : Host} {r : Res RVal}
    (hi : invoke E (Host.init st orig) hf = (s', r)) {c : Nat} {x : Exec} (hx : execAt (visible E (Host.init st orig)) c = some x) :
    (updatesOf c (successfulEvents s'.events) = [] ∧ execAt (visible E s') c = some x) ∨
    ∃ n us o n', updatesOf c (successfulEvents s'.events) = (x, n) :: us ∧
      (updatesOf c (successfulEvents s'.events)).getLast? = some (o, n') ∧ execAt (visible E s') c = some n' := by
  have := C93_transaction h hf hi c
  rw [hx] at this
  exact leads_last this

end

/-! ### a contract that replaces its code -/

namespace EntriesCase
open HostCase (env fnA)

example : successfulEvents upgraded.1.events = [⟨1, .updated (.wasm 7) (.wasm 8)⟩] := by decide
example : updatesOf 1 (successfulEvents upgraded.1.events) = [(.wasm 7, .wasm 8)] ∧
    execAt (visible env (Host.init stU [])) 1 = some (.wasm 7) ∧ execAt (visible env upgraded.1) 1 = some (.wasm 8) := by decide

/-- Two updates, and one whose effects are undone because the frame it is in fails. -/
def twice : Host × Res RVal :=
  invoke env (Host.init stU []) (.invoke 1 fnA (.upload 8 2 (.update (.wasm 8) (.event 3 (.update (.wasm 7) (.ret .void))))))
def undone : Host × Res RVal :=
  invoke env (Host.init stU []) (.invoke 1 fnA (.upload 8 2 (.update (.wasm 8) (.fail (.contract 5)))))
example : updatesOf 1 (successfulEvents twice.1.events) = [(.wasm 7, .wasm 8), (.wasm 8, .wasm 7)] ∧
    execAt (visible env twice.1) 1 = some (.wasm 7) := by decide
example : undone.1.events = [(⟨1, .updated (.wasm 7) (.wasm 8)⟩, true)] ∧ updatesOf 1 (successfulEvents undone.1.events) = [] ∧
    execAt (visible env undone.1) 1 = some (.wasm 7) := by decide

end EntriesCase
end Soroban.Props
