import Verif.Lemmas.HostCreate
import Verif.Props.Auth
import Mathlib.Tactic.FinCases
/-!
C45-C48: the ledger entries of contracts: who can change them (C45), that deployed contracts and uploaded code do not go away
(C46), how contracts come into being (C47), and uploads of code (C48). The theorems hold in every state `s` of every
transaction (`Reach E st orig s`, in enforcing and in recording mode) for every code `p` of the running contract, which may call
others.
-/
namespace Soroban.Props
open Soroban Soroban.Auth Soroban.Host Soroban.Host.Spec
open Soroban.Storage (Store Entry Access newLiveUntil getEntry)
open Soroban.Storage.Spec (Ledger)

section
variable {E : HEnv} {st : Store LKey LVal} {orig : List Acct}

/-! ### C45 -/

/-- C45: whatever code runs, with whatever result, the data entries of a contract that is not the running contract and of which no
function is entered (by a call, as a constructor, or as `__check_auth`) are exactly as before, and its instance has the same
executable and storage. (Anyone can extend the lifetime of an instance, and of a tag that a contract uses. If the contract did not exist, it may have been
created, with empty storage.) -/
theorem C45_isolation (h : TxStart E st orig) {s s' : Host} (hr : Reach E st orig s) (p : Prog) {r : Res RVal}
    (hp : run E p s = (s', r)) {c : Nat} (hc : topContract s.ctx ≠ some c) (hn : NotEntered c s s') :
    Kept c (visible E s) (visible E s') := by
  have := (run_good (E := E) p s (reach_hok h hr)).le.iso c (by rw [hp]; exact hn) hc
  rw [hp] at this; exact this

/-- C45 for a transaction: only the contracts that are entered can have their entries changed. -/
theorem C45_transaction (h : TxStart E st orig) (hf : HostFn) {s' : Host} {r : Res RVal}
    (hi : invoke E (Host.init st orig) hf = (s', r)) {c : Nat} (hn : ∀ t ∈ s'.trace, ∀ fn, t.head? ≠ some (some c, fn)) :
    Kept c (visible E (Host.init st orig)) (visible E s') := by
  have hv := invoke_spec (stOk_start h) h.auth hf
  cases r with
  | ok v =>
    have := hv.iso v c (by rw [hi]) (by rw [hi]; exact hn)
    rw [hi] at this; exact this
  | error e =>
    have h1 := hv.failed e (by rw [hi])
    rw [hi] at h1
    have : visible E s' = visible E (Host.init st orig) := by
      unfold visible; rw [h1.1, h1.2.1]; rfl
    rw [this]; exact keptRefl c _

/-- C45: so the executable of a contract is changed only while one of its own functions is running. -/
theorem C45_only_itself_upgrades (h : TxStart E st orig) (hf : HostFn) {s' : Host} {r : Res RVal}
    (hi : invoke E (Host.init st orig) hf = (s', r)) {c : Nat} {ex ex' : Exec} {m m' : FMap Nat Nat} {l l' : Option Nat}
    (h0 : visible E (Host.init st orig) (.inst c) = some (.inst ex m, l)) (h1 : visible E s' (.inst c) = some (.inst ex' m', l'))
    (hne : ex' ≠ ex) : ∃ t ∈ s'.trace, ∃ fn, t.head? = some (some c, fn) := by
  by_contra hx
  have hk := C45_transaction h hf hi (c := c) (fun t ht fn he => hx ⟨t, ht, fn, he⟩)
  obtain ⟨l2, h2, _⟩ := hk.inst ex m l h0
  rw [h1] at h2
  cases h2
  exact hne rfl

/-! ### C46 -/

/-- What does not go away: contract instances, with a lifetime that is not shorter; uploaded code; executable tags. -/
structure Lasts (L L' : Ledger LKey LVal) : Prop where
  inst : ∀ c ex m l, L (.inst c) = some (.inst ex m, l) →
    ∃ ex' m' l', L' (.inst c) = some (.inst ex' m', l') ∧ ∀ n, l = some n → ∃ n', l' = some n' ∧ n ≤ n'
  code : ∀ h e, L (.code h) = some e → ∃ e', L' (.code h) = some e'
  tag : ∀ a n e, L (.data a (.tag n) .persistent) = some e → ∃ e', L' (.data a (.tag n) .persistent) = some e'

private theorem lasts {L L' : Ledger LKey LVal} (h : LLe E L L') : Lasts L L' :=
  ⟨h.inst, fun c e he => Option.isSome_iff_exists.mp (h.lasting (.code c) rfl (by rw [he]; rfl)),
    fun a n e he => Option.isSome_iff_exists.mp (h.lasting (.data a (.tag n) .persistent) rfl (by rw [he]; rfl))⟩

/-- C46: no code can delete a contract, uploaded code, or an executable tag, or shorten the lifetime of a contract. -/
theorem C46_nothing_goes_away (h : TxStart E st orig) {s s' : Host} (hr : Reach E st orig s) (p : Prog) {r : Res RVal}
    (hp : run E p s = (s', r)) : Lasts (visible E s) (visible E s') := by
  have := (run_good (E := E) p s (reach_hok h hr)).le.st.ledger
  rw [hp] at this; exact lasts this

/-- C46 for a transaction. -/
theorem C46_transaction (h : TxStart E st orig) (hf : HostFn) {s' : Host} {r : Res RVal}
    (hi : invoke E (Host.init st orig) hf = (s', r)) : Lasts (visible E (Host.init st orig)) (visible E s') := by
  have hv := invoke_spec (stOk_start h) h.auth hf
  cases r with
  | ok v =>
    have := (hv.strong v (by rw [hi])).2.2.1.ledger
    rw [hi] at this; exact lasts this
  | error e =>
    have h1 := hv.failed e (by rw [hi])
    rw [hi] at h1
    have : visible E s' = visible E (Host.init st orig) := by
      unfold visible; rw [h1.1, h1.2.1]; rfl
    rw [this]; exact lasts (E := E) (LLe.refl _)

/-! ### C47 -/

/-- C47: a contract is created only under an identifier that is not in use, and the identifier is the one derived from what was
asked for. -/
theorem C47_create_is_new (h : TxStart E st orig) {s s' : Host} (hr : Reach E st orig s) {d : Option Addr} {args : CreateArgs}
    {check : Nat → Prog} {ctor : Prog} {v : RVal}
    (hc : createContract E s d args (fun i => run E (check i)) (run E ctor) = (s', .ok v)) :
    v = .other (E.newId args.preimage args.fromAsset) ∧
    visible E s (.inst (E.newId args.preimage args.fromAsset)) = none ∧
    ∃ ex m l, visible E s' (.inst (E.newId args.preimage args.fromAsset)) = some (.inst ex m, l) := by
  have hs := reach_hok h hr
  obtain ⟨hv, _, s1, s2, s3, h1, h2, hok, hle, hst, htr, _⟩ := createContract_ok hs (fun i => run_good (check i)) (run_good ctor) hc
  refine ⟨hv, ?_, ?_⟩
  · have hd := deployer_le hs (fun i => run_good (check i)) h1
    obtain ⟨hn, _⟩ := createWithId_ok hd.1.st h2
    cases hx : visible E s (.inst (E.newId args.preimage args.fromAsset)) with
    | none => rfl
    | some e =>
      have := hd.2.2.2.lasting (.inst (E.newId args.preimage args.fromAsset)) rfl
        (by rw [show ledger E s.st (.inst (E.newId args.preimage args.fromAsset)) = some e from hx]; rfl)
      rw [hn] at this; cases this
  · have hok1 := (deployer_le hs (fun i => run_good (check i)) h1).1.st
    obtain ⟨_, l, _, hl⟩ := createWithId_ok hok1 h2
    have h4 : ledger E s2.st (.inst (E.newId args.preimage args.fromAsset)) = some (.inst args.exec [], l) := by
      rw [hl]; unfold Ledger.set; rw [if_pos rfl]
    obtain ⟨ex', m', l', h5, _⟩ := hle.st.ledger.inst _ _ _ _ h4
    exact ⟨ex', m', l', by unfold visible; rw [hst]; exact h5⟩

/-- C47: the new contract starts with the executable that was asked for and an empty storage: if none of its functions has run
(there is no constructor), that is what it has; otherwise only its own functions can have changed it (C45). -/
theorem C47_created_as_asked (h : TxStart E st orig) {s s' : Host} (hr : Reach E st orig s) {d : Option Addr} {args : CreateArgs}
    {check : Nat → Prog} {ctor : Prog} {v : RVal} {id : Nat}
    (hc : createContract E s d args (fun i => run E (check i)) (run E ctor) = (s', .ok v)) (hid : v = .other id)
    (hn : NotEntered id s s') (hcur : topContract s.ctx ≠ some id) :
    ∃ l, visible E s' (.inst id) = some (.inst args.exec [], l) := by
  have hs := reach_hok h hr
  obtain ⟨hv, _, s1, s2, s3, h1, h2, hok, hle, hst, htr, _⟩ := createContract_ok hs (fun i => run_good (check i)) (run_good ctor) hc
  have hvid : id = E.newId args.preimage args.fromAsset := by rw [hid] at hv; cases hv; rfl
  have hd := deployer_le hs (fun i => run_good (check i)) h1
  obtain ⟨_, l, _, hl⟩ := createWithId_ok hd.1.st h2
  have ho := createWithId_ctx hd.1.st h2
  have h4 : ledger E s2.st (.inst id) = some (.inst args.exec [], l) := by
    rw [hl, hvid]; unfold Ledger.set; rw [if_pos rfl]
  have hn3 : NotEntered id s s3 := by obtain ⟨n, hn, hq⟩ := hn; exact ⟨n, by rw [← htr]; exact hn, hq⟩
  have htr2 : s.trace <:+ s2.trace := by rw [ho.trace]; exact hd.2.2.1
  have hq := (notEntered_split htr2 hle.trace hn3).2
  have htop : topContract s2.ctx ≠ some id := by
    rw [ho.ctx]; unfold topContract; rw [cids_same hd.2.1.same]; exact hcur
  obtain ⟨l', h5, _⟩ := (hle.iso id hq htop).inst _ _ _ h4
  exact ⟨l', by unfold visible; rw [hst]; exact h5⟩

/-- C47: a contract is created under the identifier of a deployer only if the deployer has authorized exactly this creation (its
arguments, including those for the constructor): it is the running contract, or a contract has authorized it in advance, or a
node of an authorization entry of the deployer that matches the creation has been used. -/
theorem C47_deployer_authorized (h : TxStart E st orig) {s s' : Host} (hr : Reach E st orig s) {d : Addr} {args : CreateArgs}
    {check : Nat → Prog} {ctor : Prog} {v : RVal}
    (hc : createContract E s (some d) args (fun i => run E (check i)) (run E ctor) = (s', .ok v)) :
    s.auth.stack.head?.bind Frame.contract? = some d ∨
    (∃ after, InvokerMatch d (.create args) (s.auth.push (.create args)).invokers after) ∨
    ∃ u extra, s'.auth.uses = extra ++ u :: s.auth.uses ∧ UsesOk orig s'.auth.uses ∧
      u.addr = d ∧ u.fn = .create args ∧ u.frames = (s.auth.push (.create args)).ids := by
  have hs := reach_hok h hr
  obtain ⟨hv, _, s1, s2, s3, h1, h2, hok, hle, hst, htr, hu⟩ := createContract_ok hs (fun i => run_good (check i)) (run_good ctor) hc
  have hq : requireAuth E { s with auth := s.auth.push (.create args) } d [] (fun i => run E (check i)) = (s1, .ok ()) := h1
  have hgood := deployer_le hs (fun i => run_good (check i)) h1
  obtain ⟨fr, rest, hst', hcase⟩ := C27_require_auth h (.creating (args := args) hr) hq
  have hfr : fr = .create args ∧ rest = s.auth.stack := by
    have : (Frame.create args) :: s.auth.stack = fr :: rest := hst'
    cases this; exact ⟨rfl, rfl⟩
  obtain ⟨rfl, rfl⟩ := hfr
  rcases hcase with hc1 | hc2 | ⟨u, extra, hc3, hok3, ha, hfn, hids⟩
  · exact Or.inl hc1
  · exact Or.inr (Or.inl ⟨_, hc2⟩)
  · right; right
    have ho := createWithId_ctx hgood.1.st h2
    obtain ⟨ex2, hex2⟩ := hle.auth.uses
    rw [ho.auth] at hex2
    refine ⟨u, ex2 ++ extra, ?_, ?_, ha, hfn, hids⟩
    · rw [hu, ← hex2, hc3, List.append_assoc]
      have : ({ s with auth := s.auth.push (.create args) } : Host).auth.uses = s.auth.uses := rfl
      rw [this]
    · have hg := createContract_good hs (some d) args (fun i => run_good (E := E) (check i)) (run_good ctor)
      rw [hc] at hg
      exact usesOk hg.ok.uok

/-- The state after the authorization frame of a creation has been popped, if there was one. -/
private theorem created_same {E : HEnv} {s s' : Host} {d : Option Addr} {args : CreateArgs} {run : Nat → Host → Host × Res RVal}
    {f : Host → Host × Res RVal} {v : RVal} (hc : createContract E s d args run f = (s', .ok v)) :
    ∃ s0 s1, createWithAuth E s0 d args run f = (s1, .ok v) ∧ s0 = createState s d args ∧
      s'.st = s1.st ∧ s'.events = s1.events ∧ s'.trace = s1.trace := by
  cases d with
  | none => exact ⟨s, s', hc, rfl, rfl, rfl, rfl⟩
  | some d =>
    simp only [createContract, Prod.mk.injEq] at hc
    obtain ⟨h1, h2⟩ := hc
    refine ⟨_, (createWithAuth E { s with auth := s.auth.push (.create args) } (some d) args run f).1, ?_, rfl, ?_, ?_, ?_⟩
    · exact Prod.ext rfl h2
    · rw [← h1]
    · rw [← h1]
    · rw [← h1]

/-- C47: a contract whose code supports constructors is created only if its constructor has run, with the call allowed to enter a
reserved function, and has returned no value; a contract whose code does not support them only if no constructor arguments were
given. -/
theorem C47_constructor (h : TxStart E st orig) {s s' : Host} (hr : Reach E st orig s) {d : Option Addr} {args : CreateArgs}
    {check : Nat → Prog} {ctor : Prog} {v : RVal} {c : Nat} (hx : args.exec = .wasm c)
    (hc : createContract E s d args (fun i => run E (check i)) (run E ctor) = (s', .ok v)) :
    (E.hasCtor c = false → args.ctorArgs = []) ∧
    (E.hasCtor c = true → ∃ s2 s3, callN E s2 (E.newId args.preimage args.fromAsset) constructorName .prohibited true (run E ctor) =
        (s3, .ok .void) ∧ (∃ l, visible E s2 (.inst (E.newId args.preimage args.fromAsset)) = some (.inst args.exec [], l)) ∧
        s'.st = s3.st ∧ s'.events = s3.events ∧ s'.trace = s3.trace) := by
  have hs := reach_hok h hr
  obtain ⟨-, hpm, t1, t2, -, h1', h2', -⟩ := createContract_ok hs (fun i => run_good (check i)) (run_good ctor) hc
  have hd := deployer_le hs (fun i => run_good (check i)) h1'
  obtain ⟨s0, s1, hw, rfl, e1, e2, e3⟩ := created_same hc
  have hfa : args.fromAsset = false := by
    cases hb : args.fromAsset with
    | false => rfl
    | true => unfold preimageMatches at hpm; rw [hb, hx] at hpm; cases hpm
  unfold createWithAuth at hw
  rw [h1'] at hw
  dsimp only at hw
  rw [if_pos hpm] at hw
  unfold createInstance at hw
  rw [h2'] at hw
  dsimp only at hw
  rw [if_neg (by rw [hfa]; simp)] at hw
  obtain ⟨_, l, _, hl⟩ := createWithId_ok hd.1.st h2'
  have ho := createWithId_only (E := E) hd.1.st (E.newId args.preimage args.fromAsset) args.exec
  rw [h2'] at ho
  have hst2 := ho.ok
  have h4 : ledger E t2.st (.inst (E.newId args.preimage args.fromAsset)) = some (.inst args.exec [], l) := by
    rw [hl]; unfold Ledger.set; rw [if_pos rfl]
  generalize E.newId args.preimage args.fromAsset = id at *
  unfold callConstructor at hw
  cases hq : supportsCtor E t2 id with
  | mk t3 r3 =>
    rw [hq] at hw
    cases r3 with
    | error e => dsimp only at hw; cases hw
    | ok b =>
      have hb : b = E.hasCtor c ∧ ledger E t3.st = ledger E t2.st := by
        unfold supportsCtor at hq
        cases hg : getInstance E t2 id with
        | mk t4 r4 =>
          rw [hg] at hq
          cases r4 with
          | error e => cases hq
          | ok exm =>
            obtain ⟨ex, m⟩ := exm
            have hgv := getInstance_val hst2 hg
            have hgl := getInstance_ledger hst2 id
            have hgo := getInstance_only hst2 id
            rw [hg] at hgl hgo
            obtain ⟨l', hgv, hgs⟩ := hgv
            rw [hgs, h4] at hgv
            have hex : ex = .wasm c := by cases hgv; exact hx
            subst hex
            dsimp only [wasmHash] at hq
            cases hlc : loadCode E t4 c with
            | mk t5 r5 =>
              rw [hlc] at hq
              cases r5 with
              | error e => cases hq
              | ok u =>
                cases hq
                refine ⟨rfl, ?_⟩
                unfold loadCode at hlc
                have hcl := getEntry_ledger (E := E) hgo.ok (.code c)
                have : ledger E (liftSt t4 (fun st => getEntry E.sto st (.code c))).1.st = ledger E t4.st := hcl
                cases hz : liftSt t4 (fun st => getEntry E.sto st (.code c)) with
                | mk t6 r6 =>
                  rw [hz] at hlc this
                  cases r6 with
                  | error e => cases hlc
                  | ok y => cases hlc; rw [this, hgl]
      obtain ⟨rfl, hled⟩ := hb
      constructor
      · intro hcf
        rw [hcf] at hw
        dsimp only at hw
        by_cases ha : args.ctorArgs = []
        · exact ha
        · rw [if_neg ha] at hw; dsimp only at hw; cases hw
      · intro hct
        rw [hct] at hw
        dsimp only at hw
        refine ⟨t3, (callN E t3 id constructorName .prohibited true (run E ctor)).1, ?_, ⟨l, ?_⟩, ?_⟩
        · cases hcall : callN E t3 id constructorName .prohibited true (run E ctor) with
          | mk t7 r7 =>
            rw [hcall] at hw
            cases r7 with
            | error e =>
              exfalso
              dsimp only [ctorResult] at hw
              split at hw <;> rename_i hxx <;> simp only [Prod.mk.injEq] at hxx hw
              · obtain ⟨-, hxx⟩ := hw; cases hxx
              · split at hxx <;> cases hxx.2
            | ok w =>
              cases w with
              | void => rfl
              | _ => dsimp only [ctorResult] at hw; cases hw
        · show ledger E t3.st _ = _
          rw [hled, h4]
        · rw [e1, e2, e3]
          cases hcall : callN E t3 id constructorName .prohibited true (run E ctor) with
          | mk t7 r7 =>
            rw [hcall] at hw
            dsimp only at hw ⊢
            cases hcr : ctorResult r7 with
            | error e => rw [hcr] at hw; cases hw
            | ok u => rw [hcr] at hw; cases hw; exact ⟨rfl, rfl, rfl⟩

/-! ### C48 -/

/-- C48: after a successful upload the code is in the ledger, and no other entry has changed; if the same code was there already,
nothing has changed, and otherwise the entry has the minimum lifetime of a persistent entry. -/
theorem C48_upload (h : TxStart E st orig) {s s' : Host} (hr : Reach E st orig s) {c w : Nat}
    (hu : uploadWasm E s c w = (s', .ok ())) :
    (∀ k, k ≠ .code c → visible E s' k = visible E s k) ∧
    (∃ l, visible E s' (.code c) = some (.code w, l) ∧
      (visible E s (.code c) = some (.code w, l) ∨
       (∀ l0, visible E s (.code c) ≠ some (.code w, l0)) ∧ ∃ m, E.sto.li.minLiveUntil .persistent = some m ∧ l = some m)) := by
  rcases uploadWasm_ok (reach_hok h hr).st hu with ⟨l, h1, h2⟩ | ⟨h1, l, h2, h3⟩
  · refine ⟨fun k _ => congrFun h2 k, l, ?_, Or.inl h1⟩
    exact (congrFun h2 _).trans h1
  · refine ⟨fun k hk => ?_, l, ?_, Or.inr ⟨h1, ?_⟩⟩
    · have := congrFun h3 k
      unfold Ledger.set at this; rw [if_neg hk] at this; exact this
    · have := congrFun h3 (.code c)
      unfold Ledger.set at this; rw [if_pos rfl] at this; exact this
    · unfold newLiveUntil at h2
      rw [h.keys] at h2
      simp only [keysOf] at h2
      cases hm : E.sto.li.minLiveUntil .persistent with
      | none => rw [hm] at h2; cases h2
      | some m => rw [hm] at h2; cases h2; exact ⟨m, rfl, rfl⟩

/-- C48: uploading twice is the same as uploading once. -/
theorem C48_upload_twice (h : TxStart E st orig) {s s1 s2 : Host} (hr : Reach E st orig s) {c w : Nat}
    (hu : uploadWasm E s c w = (s1, .ok ())) (hu2 : uploadWasm E s1 c w = (s2, .ok ())) : visible E s2 = visible E s1 := by
  have ho := uploadWasm_only (E := E) (reach_hok h hr).st c w
  rw [hu] at ho
  obtain ⟨l, h1, _⟩ := (C48_upload h hr hu).2
  rcases uploadWasm_ok ho.ok hu2 with ⟨l, _, h2⟩ | ⟨h2, _⟩
  · exact h2
  · exact absurd h1 (h2 l)

end

/-! ### these cases occur -/

namespace EntriesCase
open HostCase

/-- Contract 1 extends the lifetime of contract 2, which does not run. -/
def prog : Prog := .data (.extendContract (some 2) .inst (.upTo 100 500)) (fun _ => .ret .void)

example : (run env prog s2).2 = .ok .void ∧ topContract s2.ctx = some 1 := ⟨rfl, rfl⟩
example : NotEntered 2 s2 (run env prog s2).1 := ⟨[], rfl, fun t h => by cases h⟩
example : visible env s2 (.inst 2) = some (.inst (.wasm 7) [], some 200) := by decide
example : visible env (run env prog s2).1 (.inst 2) = some (.inst (.wasm 7) [], some 600) := by decide

/-- The same as a transaction. -/
def txResult : Host × Res RVal := invoke env (Host.init st [entry]) (.invoke 1 fnA prog)
example : txResult.2 = .ok .void ∧ visible env txResult.1 (.inst 2) = some (.inst (.wasm 7) [], some 600) := ⟨rfl, by decide⟩
example : ∀ t ∈ txResult.1.trace, ∀ fn, t.head? ≠ some (some 2, fn) := by
  have : txResult.1.trace = [[(some 1, fnA), (none, [])], [(none, [])]] := by decide
  rw [this]
  intro t ht fn
  fin_cases ht <;> simp

/-- A contract upgrades itself (to the code it has a tag for): the executable has changed, and it has run. -/
def fpU : FMap LKey Access := [(.inst 1, .readWrite), (.inst 3, .readWrite), (.code 7, .readOnly), (.code 8, .readWrite)]
def mapU : FMap LKey (Option (Entry LVal)) :=
  [(.inst 1, some (.inst (.wasm 7) [(4, 5)], some 200)), (.inst 3, none), (.code 7, some (.code 1, some 200)), (.code 8, none)]
def stU : Store LKey LVal := { footprint := fpU, mode := .enforcing, map := mapU }

theorem startU : TxStart env stU [] := by
  refine ⟨rfl, ⟨_, .enforcing (fp := fpU) (map := mapU) ⟨?_, ?_⟩, rfl⟩, ⟨?_, ?_, ?_⟩⟩
  · have : ∀ x ∈ fpU, (mapU.get x.1).isSome = true := by decide
    intro k hk
    obtain ⟨v, hv⟩ := Option.isSome_iff_exists.mp hk
    exact this (k, v) (get_mem hv)
  · have : ∀ x ∈ mapU, (match x.2 with | some (_, some l) => decide (100 ≤ l) | some (_, none) => (keysOf.durability x.1).isNone | none => true) = true := by
      decide
    intro k e he v l d h hd
    have hx := this (k, e) (get_mem he)
    subst h
    cases l with
    | none =>
      simp only at hx
      have hd' : keysOf.durability k = some d := hd
      rw [hd'] at hx; cases hx
    | some l => exact ⟨l, rfl, of_decide_eq_true hx⟩
  · intro a ha; cases ha
  · intro a ha; cases ha
  · intro a ha; cases ha

def upgraded : Host × Res RVal :=
  invoke env (Host.init stU []) (.invoke 1 fnA (.upload 8 2 (.update (.wasm 8) (.ret .void))))
example : upgraded.2 = .ok .void := rfl
example : visible env upgraded.1 (.inst 1) = some (.inst (.wasm 8) [(4, 5)], some 200) ∧
    visible env upgraded.1 (.code 8) = some (.code 2, some 149) := by decide

/-- The state in which contract 1 runs, and a contract without constructor that it creates. -/
def sU : Host := (pushContext (pushContext (Host.init stU []) hostFrame).1 { cid := some 1, fn := fnA, inst := [(4, 5)], storage := none }).1

theorem reachU : Reach env stU [] sU :=
  .called (s := (pushContext (Host.init stU []) hostFrame).1) .start (by decide) (by decide) (by decide)
    (.wasm (ex := .wasm 7) (h := 7) rfl rfl rfl)

def envU : HEnv := { env with hasCtor := fun _ => false }

def create : CreateArgs := { preimage := 3, fromAsset := false, exec := .wasm 7, ctorArgs := [] }

example : (createContract envU sU (some (.contract 1)) create (fun _ => run envU (.ret .void)) (run envU (.ret .void))).2 = .ok (.other 3) := rfl
example : visible envU (createContract envU sU (some (.contract 1)) create (fun _ => run envU (.ret .void)) (run envU (.ret .void))).1 (.inst 3) =
    some (.inst (.wasm 7) [], some 149) := by decide
example : NotEntered 3 sU (createContract envU sU (some (.contract 1)) create (fun _ => run envU (.ret .void)) (run envU (.ret .void))).1 :=
  ⟨[], rfl, fun t h => by cases h⟩
/-- Creating it again fails. -/
example : (createContract envU (createContract envU sU (some (.contract 1)) create (fun _ => run envU (.ret .void)) (run envU (.ret .void))).1
    (some (.contract 1)) create (fun _ => run envU (.ret .void)) (run envU (.ret .void))).2 = .error (.host .storage .existingValue) := rfl
/-- Another deployer would have to authorize it. -/
example : (createContract envU sU (some (.contract 2)) create (fun _ => run envU (.ret .void)) (run envU (.ret .void))).2 =
    .error (.host .auth .invalidAction) := rfl

end EntriesCase
end Soroban.Props
