import Verif.Lemmas.Emulation
import Verif.Lemmas.HostAuthExact
import Verif.Props.HostCase
/-! C101: what a simulation declares for its signers. -/
namespace Soroban.Props
open Soroban Soroban.Auth Soroban.Host Soroban.Host.Spec
open Soroban.Storage (Store Entry Access Op tryGet getEntry)
open Soroban.Storage.Spec (allows runOps recording)
open Soroban.E2e.Spec (archived)

variable {E : HEnv} {src : LKey → Option (Entry LVal)}

namespace EmulationAux

theorem allows_reads {st st' : Store LKey LVal} {ks : List LKey} (h : Reads E src st st' ks) (hr : Rs E src st) (k : LKey) :
    (allows st'.footprint k .readOnly = true ↔ allows st.footprint k .readOnly = true ∨ k ∈ ks) ∧
    (allows st'.footprint k .readWrite = true ↔ allows st.footprint k .readWrite = true ∨ (k ∈ ks ∧ archived E.sto src k = true)) := by
  simp only [allows, h.fp k]
  by_cases hk : k ∈ ks
  · simp only [if_pos hk, hk, true_and]
    refine ⟨by simp, ?_⟩
    by_cases ha : archived E.sto src k = true
    · simp [ha]
    · simp only [ha, Bool.false_eq_true, if_false, or_false]
      cases hg : st.footprint.get k <;> simp
  · simp [hk]

end EmulationAux
open EmulationAux

/-- **C101**. At the end of a simulation the host declares, besides what the call has used, exactly what is needed to authenticate the recorded
signers: for reading, and for writing what has to come from the archive. It does not fail, and changes nothing of what is seen of the ledger. -/
theorem C101_footprint {st : Store LKey LVal} (h : Simulated E src st) (signers : List Acct) :
    ∃ st', emulateAll E signers st = (st', .ok ()) ∧ seen E st' = seen E st ∧
      ∀ k, (allows st'.footprint k .readOnly = true ↔ allows st.footprint k .readOnly = true ∨ NeededFor E (seen E st) signers k) ∧
        (allows st'.footprint k .readWrite = true ↔
          allows st.footprint k .readWrite = true ∨ (NeededFor E (seen E st) signers k ∧ archived E.sto src k = true)) := by
  obtain ⟨st', ks, h1, h2, h3⟩ := emulateAll_reads (signers := signers) h.rs
  refine ⟨st', h1, h2.seen, fun k => ?_⟩
  rw [← h3 k]
  exact allows_reads h2 h.rs k

/-- **C101**. This happens when the outermost call ends, whether it has failed or not, and makes no difference to anything but the footprint:
not to the result, nor to the ledger, the events or the authorizations. What a failed call has declared stays, with what its signers need. -/
theorem C101_outermost {s : Host} (h : Simulated E src s.st) (signers : List Acct) (rp : Option RollbackPoint) :
    let r := popOutermost E signers s rp
    let q := popContext s rp
    r.2 = q.2 ∧ r.1 = { q.1 with st := r.1.st } ∧ seen E r.1.st = seen E q.1.st ∧
      (∀ k, allows r.1.st.footprint k .readOnly = true ↔ allows s.st.footprint k .readOnly = true ∨ NeededFor E (seen E s.st) signers k) ∧
      ∀ k, allows q.1.st.footprint k .readOnly = true ↔ allows s.st.footprint k .readOnly = true := by
  obtain ⟨st', h1, h2, h3⟩ := C101_footprint h signers
  have hmode : st'.mode = s.st.mode := by
    obtain ⟨st'', ks, h1', h2', _⟩ := emulateAll_reads (signers := signers) h.rs
    rw [h1] at h1'
    cases h1'
    rw [h2'.rs.inv.mode, h.rs.inv.mode]
  intro r q
  have hr : r = popContext { s with st := st' } rp := by
    show popOutermost E signers s rp = _
    unfold popOutermost
    rw [h1]
  have hq : q = popContext s rp := rfl
  rw [hr, hq]
  obtain ⟨sst, ev, au, ctx, tr, fa⟩ := s
  cases ctx with
  | nil => exact ⟨rfl, rfl, h2, fun k => (h3 k).1, fun k => Iff.rfl⟩
  | cons c cs =>
    cases rp with
    | none => exact ⟨rfl, rfl, h2, fun k => (h3 k).1, fun k => Iff.rfl⟩
    | some p =>
      refine ⟨rfl, rfl, ?_, fun k => (h3 k).1, fun k => Iff.rfl⟩
      simp only [seen, popContext, hmode]

/-- **C101**. A transaction that declares what the simulation has recorded can read all that the authentication of a signer looks for,
as long as that is still what it was at the end of the simulation: the account, or the contract and its code. -/
theorem C101_enough {st st' : Store LKey LVal} (h : Simulated E src st) {signers : List Acct} (he : emulateAll E signers st = (st', .ok ()))
    {t : Acct} (ht : t ∈ signers) (hn : t.source = false) {s : Host} (hd : Declares st' s)
    (hL : signerKeys E (visible E s) t.addr = signerKeys E (seen E st) t.addr) :
    (∀ id, t.addr = .account id → CanAccess s (.account id) .readOnly) ∧
    ∀ c, t.addr = .contract c → ∀ m, Callable E s c m ↔ Spec.Exists E (visible E s) c m := by
  obtain ⟨st'', h1, -, h3⟩ := C101_footprint h signers
  rw [he] at h1
  cases h1
  have acc : ∀ k ∈ signerKeys E (visible E s) t.addr, CanAccess s k .readOnly := by
    intro k hk _
    refine hd.2 k _ ((h3 k).1.mpr (Or.inr ⟨t, ht, hn, ?_⟩))
    rw [← hL]; exact hk
  refine ⟨fun id ha => acc _ (by rw [ha]; exact List.mem_singleton_self _), fun c ha m => ⟨fun hc => ?_, fun hc => ?_⟩⟩
  · obtain ⟨ex, l, h1, h2, h3⟩ := hc.code
    exact ⟨ex, l, h1, h2, fun k hk => (h3 k hk).2⟩
  · obtain ⟨ex, l, h1, h2, h3⟩ := hc
    rw [ha] at acc
    refine ⟨acc _ List.mem_cons_self, ex, l, h1, h2, fun k hk => ⟨acc k (List.mem_cons_of_mem _ ?_), h3 k hk⟩⟩
    rw [h1]; exact hk

/-- **C101**. So the footprint is never what makes the authentication of a signer fail before its code runs: an account is authenticated exactly if
it exists and accepts the signatures, and a contract that is not running exactly if it exists with its code, there are not too many calls, and
`__check_auth` returns nothing. -/
theorem C101_authentication {st st' : Store LKey LVal} (h : Simulated E src st) {signers : List Acct}
    (he : emulateAll E signers st = (st', .ok ())) {t : Acct} (ht : t ∈ signers) (hn : t.source = false)
    {st0 : Store LKey LVal} {orig : List Acct} (h0 : TxStart E st0 orig) {s : Host} (hr : Reach E st0 orig s) (hd : Declares st' s)
    (hL : signerKeys E (visible E s) t.addr = signerKeys E (seen E st) t.addr) (i : Nat) (p : Host.Prog) :
    (∀ id, t.addr = .account id → ((authenticate E s i t (run E p)).2 = .ok () ↔
      ∃ v l, visible E s (.account id) = some (v, l) ∧ E.accountCheck i v = .ok ())) ∧
    ∀ c, t.addr = .contract c → (∀ d ∈ s.ctx, d.cid ≠ some c) → ((authenticate E s i t (run E p)).2 = .ok () ↔
      s.ctx.length < 100 ∧ ∃ m, Spec.Exists E (visible E s) c m ∧
        Returns c (run E p (inside s c checkName m)).1 (run E p (inside s c checkName m)).2 .void) := by
  obtain ⟨hacc, hcon⟩ := C101_enough h he ht hn hd hL
  have hok := reach_hok h0 hr
  have hname : checkName = checkAuthName := by decide
  rw [hname]
  constructor
  · intro id ha
    unfold authenticate
    rw [if_neg (by rw [hn]; decide), ha]
    dsimp only
    have hg := fun e => getEntry_iff (s := s) hok.st (k := .account id) e
    rcases hq : liftSt s (fun st => getEntry E.sto st (.account id)) with ⟨s1, e | ⟨v, l⟩⟩
    · dsimp only
      refine ⟨fun hx => (by cases hx), fun hx => ?_⟩
      obtain ⟨v, l, hv, _⟩ := hx
      have := (hg (v, l)).mpr ⟨hacc id ha, hv⟩
      rw [hq] at this; cases this
    · dsimp only
      have hv := ((hg (v, l)).mp (by rw [hq])).2
      refine ⟨fun hx => ⟨v, l, hv, hx⟩, fun hx => ?_⟩
      obtain ⟨v', l', hv', hx⟩ := hx
      rw [hv] at hv'
      cases hv'
      exact hx
  · intro c ha hnr
    have hre : reentryDistance c s.ctx = none := by
      unfold reentryDistance
      rw [List.idxOf?_eq_none_iff]
      intro hx
      obtain ⟨d, hd1, hd2⟩ := List.mem_filterMap.mp hx
      exact hnr d hd1 hd2
    have hcall : callN E s c checkAuthName .selfAllowed true (run E p) = callN E s c checkAuthName .prohibited true (run E p) := by
      unfold callN
      rw [hre]
    have hiff := callN_ok_iff hok hd.1 (c := c) (fn := checkAuthName) (internal := true) (Or.inl rfl) (fun _ => Or.inl rfl) (run_good p) .void
    unfold authenticate
    rw [if_neg (by rw [hn]; decide), ha]
    dsimp only
    rw [hcall]
    have hexp : expectVoid (callN E s c checkAuthName .prohibited true (run E p)).2 = .ok () ↔
        (callN E s c checkAuthName .prohibited true (run E p)).2 = .ok .void := by
      cases (callN E s c checkAuthName .prohibited true (run E p)).2 with
      | error e => exact ⟨fun hx => (by cases hx), fun hx => (by cases hx)⟩
      | ok v =>
        cases v <;> first | exact ⟨fun _ => rfl, fun _ => rfl⟩ | exact ⟨fun hx => (by cases hx), fun hx => (by cases hx)⟩
    rw [hexp, hiff]
    constructor
    · rintro ⟨m, hm, hret⟩
      exact ⟨hm.depth, m, (hcon c ha m).mp hm.callable, hret⟩
    · rintro ⟨hdep, m, hm, hret⟩
      exact ⟨m, ⟨hnr, hdep, (hcon c ha m).mpr hm⟩, hret⟩

/-! ### A case, and what the emulation cannot know -/

namespace EmulationCase
open Soroban.Storage.Spec (OpOk)

/-- Contract 2 is an account with the code that contract 1 names; contract 3 is one with archived code; 9 is a classic account. -/
def ledger : LKey → Option (Entry LVal)
  | .inst 2 => some (.inst (.ref (.contract 1) 5) [], some 200)
  | .data (.contract 1) (.tag 5) .persistent => some (.data 70, some 200)
  | .inst 3 => some (.inst (.wasm 72) [], some 200)
  | .code 70 => some (.code 0, some 200)
  | .code 71 => some (.code 0, some 200)
  | .code 72 => some (.code 0, some 50)
  | .account 9 => some (.classic 4, none)
  | _ => none

def signer (a : Addr) : Acct :=
  { addr := a, tr := Tracker.new (.mk (.call (.contract 1) [102] []) [] false), source := false, verified := false, nonce := some (5, 120), borrowed := false }

/-- The call names other code. -/
def ops : List (Op LKey LVal) := [.put (.data (.contract 1) (.tag 5) .persistent) (.data 71) (some 200)]

/-- The storage after these operations. -/
def after (os : List (Op LKey LVal)) : Store LKey LVal := (runOps HostCase.env.sto os (recording ledger)).1.st

theorem simulated {os : List (Op LKey LVal)} (h : ∀ o ∈ os, OpOk HostCase.env.sto o) : Simulated HostCase.env ledger (after os) where
  keys := rfl
  feature := rfl
  snapshot := by
    refine ⟨fun k v d hs hd => ?_, rfl⟩
    unfold ledger at hs
    split at hs <;> first | (cases hs; done) | (cases hs; cases hd)
  ops := ⟨os, h, rfl⟩

theorem ops_ok : ∀ o ∈ ops, OpOk HostCase.env.sto o := by
  intro o ho
  cases List.mem_singleton.mp ho
  intro v l d hs _
  cases hs
  exact ⟨200, rfl, by decide⟩

/-- Three signers: the footprint has the account, the contracts, the reference and the codes; the archived one is to be written. -/
example : (emulateAll HostCase.env [signer (.account 9), signer (.contract 2), signer (.contract 3)] (after [])).1.footprint =
    [(.account 9, .readOnly), (.inst 2, .readOnly), (.data (.contract 1) (.tag 5) .persistent, .readOnly), (.code 70, .readOnly),
     (.inst 3, .readOnly), (.code 72, .readWrite)] := by decide +kernel

example : Simulated HostCase.env ledger (after ops) ∧ NeededFor HostCase.env (seen HostCase.env (after ops)) [signer (.contract 2)] (.code 71) :=
  ⟨simulated ops_ok, signer (.contract 2), List.mem_singleton_self _, rfl, by decide +kernel⟩

/-- The transaction with the footprint of the simulation, before the call. -/
def tx (st : Store LKey LVal) : Host :=
  (pushContext (Host.init { footprint := st.footprint, mode := .enforcing, map := st.footprint.keys.map (fun k => (k, ledger k)) } [])
    { cid := none, fn := [], inst := [], storage := none }).1

end EmulationCase

/-- **C101**, what is missing: the emulation reads references as the call has left them. If a call changes the reference of a signer that it does not
call itself, the code the signer has when it is asked is not declared, and the transaction with the footprint of the simulation fails. -/
theorem C101_changed_reference : ∃ (E : HEnv) (src : LKey → Option (Entry LVal)) (st st' : Store LKey LVal) (t : Acct) (s : Host),
    Simulated E src st ∧ emulateAll E [t] st = (st', .ok ()) ∧ t.source = false ∧ Declares st' s ∧
    (∀ k ∈ st'.footprint.keys, visible E s k = src k) ∧ (∃ c m, t.addr = .contract c ∧ Spec.Exists E src c m) ∧
    ∀ i f, (authenticate E s i t f).2 = .error (.host .storage .exceededLimit) := by
  refine ⟨HostCase.env, EmulationCase.ledger, EmulationCase.after EmulationCase.ops,
    (emulateAll HostCase.env [EmulationCase.signer (.contract 2)] (EmulationCase.after EmulationCase.ops)).1, EmulationCase.signer (.contract 2),
    EmulationCase.tx (emulateAll HostCase.env [EmulationCase.signer (.contract 2)] (EmulationCase.after EmulationCase.ops)).1,
    EmulationCase.simulated EmulationCase.ops_ok, ?_, rfl, ⟨rfl, fun _ _ h => h⟩, by decide +kernel, ⟨2, [], rfl, ?_⟩, fun i f => rfl⟩
  · obtain ⟨st', h, -⟩ := C101_footprint (EmulationCase.simulated EmulationCase.ops_ok) [EmulationCase.signer (.contract 2)]
    rw [h]
  · refine ⟨.ref (.contract 1) 5, some 200, rfl, rfl, fun k hk => ?_⟩
    have : codeKeys HostCase.env EmulationCase.ledger (.ref (.contract 1) 5) = [.data (.contract 1) (.tag 5) .persistent, .code 70] := rfl
    rw [this] at hk
    rcases List.mem_cons.mp hk with rfl | hk
    · rfl
    · cases List.mem_singleton.mp hk; rfl

end Soroban.Props
