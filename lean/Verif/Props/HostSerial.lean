import Verif.Lemmas.HostSerialRun
import Verif.Props.HostInst
/-!
C98: contracts run as if they were alone. Contracts call each other, failed calls are rolled back, accounts run code of contracts to
check authorizations and contracts are created and upgraded in the middle of the calls of others; still the data of a contract (its
entries and its instance storage, `own`) ends as if some of its functions had been run one after the other, each from its first to
its last line with nobody else touching this data (`Alone`, `OneByOne` in `Spec/HostSerial.lean`). So what every function of a
contract keeps true of its data, read by itself, every transaction keeps true.
-/
namespace Soroban.Props
open Soroban Soroban.Auth Soroban.Host Soroban.Host.Spec
open Soroban.Storage (Store Entry Access Out Durability)
open Soroban.Storage.Spec (Ledger)

section
variable {E : HEnv} {st : Store LKey LVal} {orig : List Acct} (B : Ledger LKey LVal)

/-- Whatever code is called, it is code. -/
private theorem calls_any (c : Nat) (p : Prog) : Calls c (fun _ _ => True) p := by
  induction p with
  | ret v => trivial
  | fail e => trivial
  | data o next ih => exact fun r => ih r
  | inst o next ih => exact fun r => ih r
  | event e next ih => exact ih
  | auth a args check next ihc ihn => exact ⟨fun i => ⟨ihc i, fun _ => trivial⟩, ihn⟩
  | authAs es next ih => exact ih
  | call id fn body next ihb ihn => exact ⟨ihb, fun _ => trivial, fun v => ihn v⟩
  | tryCall id fn body next ihb ihn => exact ⟨ihb, fun _ => trivial, fun v => ihn v⟩
  | create d args check ctor next ihc ihb ihn => exact ⟨fun i => ⟨ihc i, fun _ => trivial⟩, ihb, fun v => ihn v⟩
  | update ex next ih => exact ih
  | upload h w next ih => exact ih

private theorem serial_fit (h : TxStart E st orig) {s : Host} (hr : Reach E st orig s) : Apt E orig (ledger E st) s :=
  ⟨reach_hok h hr, reach_strong h hr⟩

/-- C98: the code of a contract that runs to its end has changed the data of the contract as it would have by itself: whatever other
contracts have done in between, it has read what it has written, and nothing else has been written. -/
theorem C98_alone (h : TxStart E st orig) {s s' : Host} (hr : Reach E st orig s) {c : Nat} (ht : topContract s.ctx = some c) (p : Prog)
    {v : RVal} (hp : run E p s = (s', .ok v)) : Alone c p (own E B s c) (own E B s' c) := by
  obtain ⟨d, cs, hcs, hid⟩ := (reach_hok h hr).stack.top ht
  have hx : (instView E s c).isSome = true := by rw [instView_eq, hcs, viewOf_top hid]; rfl
  exact (main_eff (N := False) (Code := fun _ _ => True) p (calls_any c p) (fun h => h.elim) s s' v (serial_fit h hr) (Or.inl hx) hp).top ht

/-- C98: while a contract waits for the end of a call, its data does not change. -/
theorem C98_undisturbed (h : TxStart E st orig) {s s' : Host} (hr : Reach E st orig s) {c : Nat} (ht : topContract s.ctx ≠ some c)
    (hon : ∃ d ∈ s.ctx, d.cid = some c) (p : Prog) {v : RVal} (hp : run E p s = (s', .ok v)) : own E B s' c = own E B s c := by
  have hx : (instView E s c).isSome = true := by
    obtain ⟨d, hd, hc⟩ := hon
    rw [instView_eq]
    unfold viewOf
    have hm : d ∈ framesOf c s.ctx := by unfold framesOf; rw [List.mem_filter]; exact ⟨hd, by rw [hc]; simp⟩
    cases hfr : framesOf c s.ctx with
    | nil => rw [hfr] at hm; cases hm
    | cons f fs => rfl
  exact ((main_eff (N := False) (Code := fun _ _ => True) p (calls_any c p) (fun h => h.elim) s s' v (serial_fit h hr) (Or.inl hx) hp).outer ht).on hon

/-- The data of a contract that exists, or that may be created, at the end of a transaction. -/
theorem serial_any {N : Prop} (h : TxStart E st orig) (f : HostFn) {c : Nat} {Code : Name → Prog → Prop} (ha : Asks c Code f)
    (hb : N → Bears (fun args => newOf E args = c) Code f) (hx : Here E B N c (Host.init st orig)) :
    OneByOne c Code (own E B (Host.init st orig) c) (own E B (invoke E (Host.init st orig) f).1 c) ∧
      ∀ v, (invoke E (Host.init st orig) f).2 = .ok v → Here E B N c (invoke E (Host.init st orig) f).1 := by
  have hspec := invoke_spec (stOk_start h) h.auth f
  rcases hi : invoke E (Host.init st orig) f with ⟨s', r⟩
  rw [hi] at hspec
  cases r with
  | error e =>
    obtain ⟨h1, h2, _⟩ := hspec.failed e rfl
    have hl : visible E s' = visible E (Host.init st orig) := by
      unfold visible
      rw [show s'.st.map = st.map from h1, show s'.st.mode = st.mode from h2]; rfl
    have : own E B s' c = own E B (Host.init st orig) c := by
      have hd : declared s' = declared (Host.init st orig) := by
        unfold declared
        rw [show s'.st.mode = st.mode from h2]
        show (fun k => match st.mode with | .recording _ => true | .enforcing => (s'.st.footprint.get k).isSome) = _
        cases hm : st.mode with
        | recording src => funext k; show _ = (match st.mode with | .recording _ => true | .enforcing => _); rw [hm]
        | enforcing =>
          funext k
          show _ = (match st.mode with | .recording _ => true | .enforcing => _)
          rw [hm, show s'.st.footprint = st.footprint from hspec.fpE hm]; rfl
      unfold own instView
      rw [hl, hd, show s'.ctx = [] from hspec.ctx]; rfl
    refine ⟨?_, fun v hv => by cases hv⟩
    show OneByOne c Code _ (own E B s' c)
    rw [this]; exact .nil
  | ok v =>
    have hok := entered_hok (E := E) (stOk_start h) h.auth
    have hfit : Apt E orig (ledger E st) (entered st orig) := ⟨hok, entered_strong h.auth⟩
    have hse : Sees E c (Host.init st orig) (entered st orig) := by
      refine sees_mk (fun m hm => hm) (fun _ _ => rfl) rfl (fun _ hn => hn) (fun _ ⟨d, hd, hc⟩ => ?_) (fun hn _ => Or.inl hn)
      have hd' : d ∈ [hostFrame] := hd
      have : d = hostFrame := by simpa using hd'
      rw [this] at hc; cases hc
    have hg := hostFnBody_good (E := E) f hok
    have hne : (hostFnBody E f (pushContext (Host.init st orig) hostFrame).1).1.ctx ≠ [] := by
      intro hx
      have := hg.le.ctx.same.length_eq
      rw [show (hostFnBody E f (entered st orig)).1.ctx = [] from hx] at this; cases this
    obtain ⟨_, ⟨w, hw⟩, hun⟩ := withFrame_view (f := hostFnBody E f) (c := hostFrame) hi hg.ok.st
      (fun hv => (hg.strong (entered_strong h.auth) hv).coh) hne
    have hdv := withFrame_dv (f := hostFnBody E f) (c := hostFrame) hi hg.ok.st
    have ho : Outer E B N c Code (entered st orig) (hostFnBody E f (entered st orig)).1 :=
      hostFn_outer hfit (hse.exist hx) (fun hx => by cases hx) ha hb (Prod.ext rfl hw)
    have h1 := ho.off (fun ⟨d, hd, hc⟩ => by
      have : d = hostFrame := by
        have hd' : d ∈ [hostFrame] := hd
        simpa using hd'
      rw [this] at hc; cases hc)
    rw [hse.same hx] at h1
    obtain ⟨_, _, hsle, _⟩ := hspec.strong v rfl
    have hle : SLe E st (hostFnBody E f (entered st orig)).1.st := hg.le.st
    have hend : Sees E c (hostFnBody E f (entered st orig)).1 s' := by
      have hp1 : perm s' = perm (Host.init st orig) := perm_le (s := Host.init st orig) hsle
      have hp2 : perm (hostFnBody E f (entered st orig)).1 = perm (Host.init st orig) := perm_le (s := Host.init st orig) hle
      refine sees_mk (hun c) (fun k d => hdv _ _ _) (hp1.trans hp2.symm) (fun hp hn => ?_)
        (fun _ ⟨d, hd, _⟩ => by rw [show s'.ctx = [] from hspec.ctx] at hd; cases hd) (withFrame_born (f := hostFnBody E f) (c := hostFrame) hi hg.ok.st c)
      rw [hp2] at hp
      rw [view_none] at hn ⊢
      refine ⟨fun ⟨d, hd, _⟩ => ?_, ?_⟩
      · rw [show s'.ctx = [] from hspec.ctx] at hd; cases hd
      · rw [instOf_le (s := Host.init st orig) hsle hp, ← instOf_le (s := Host.init st orig) hle hp]; exact hn.2
    refine ⟨?_, fun _ _ => hend.exist ho.exist⟩
    show OneByOne c Code _ (own E B s' c)
    rw [hend.same ho.exist]
    exact h1

/-- C98: if contract `c` exists when a transaction starts (`There`), and whenever it is called code in `Code` is run, then whatever happens in
the transaction, the data of the contract is at the end as if functions with code in `Code` had been run on it one after the other. -/
theorem C98_serial (h : TxStart E st orig) (f : HostFn) {c : Nat} {Code : Name → Prog → Prop} (ha : Asks c Code f)
    (hx : There E st orig c) :
    OneByOne c Code (own E B (Host.init st orig) c) (own E B (invoke E (Host.init st orig) f).1 c) := by
  refine (serial_any (N := False) B h f ha (fun h => h.elim) ?_).1
  rcases hx with ⟨ex, m, l, hm⟩ | ⟨hm, hd⟩
  · left
    unfold instView
    rw [show (Host.init st orig).ctx = [] from rfl]
    simp only [framesOf, List.filter_nil, hm]; rfl
  · right; left
    refine ⟨?_, by rw [← declared_eq]; exact hd⟩
    unfold instView
    rw [show (Host.init st orig).ctx = [] from rfl]
    simp only [framesOf, List.filter_nil, hm]

/-- C98: what every function of a contract keeps true of its data, read by itself, every transaction keeps true, whatever the other
contracts are and whatever they do. -/
theorem C98_invariant (h : TxStart E st orig) (f : HostFn) {c : Nat} {Code : Name → Prog → Prop} (ha : Asks c Code f)
    (hx : There E st orig c) (I : Own → Prop)
    (hI : ∀ fn p d d', Code fn p → Alone c p d d' → I d → I d') (h0 : I (own E B (Host.init st orig) c)) :
    I (own E B (invoke E (Host.init st orig) f).1 c) := by
  have := C98_serial B h f ha hx
  generalize own E B (Host.init st orig) c = d at this h0
  generalize own E B (invoke E (Host.init st orig) f).1 c = d' at this
  induction this with
  | nil => exact h0
  | cons hc hal _ ih => exact ih (hI _ _ _ _ hc hal h0)

end

/-! ### a counter -/

namespace SerialCase
open HostCase

/-- A function that counts how often it has been called, and calls some other contract between reading and writing the count. -/
def incr (id : Nat) (fn : Name) (other : Prog) : Prog :=
  .data (.has (.val 3) .persistent) (fun h => match h with
    | .bool true => .data (.get (.val 3) .persistent) (fun r => match r with
      | .entry (.data n, _) => .tryCall id fn other (fun _ => .data (.put (.val 3) (n + 1) .persistent) (fun _ => .ret .void))
      | _ => .fail (.contract 1))
    | _ => .data (.put (.val 3) 1 .persistent) (fun _ => .ret .void))

def count (d : Own) : Nat := match d.entries (.val 3) .persistent with | some (.data n) => n | _ => 0

/-- All the code that the counter has. -/
def Counter (_ : Name) (p : Prog) : Prop := ∃ id fn other, p = incr id fn other

/-- Read by itself, the function adds one. -/
theorem incr_adds {c id : Nat} {fn : Name} {other : Prog} {d d' : Own} (h : Alone c (incr id fn other) d d') : count d' = count d + 1 := by
  unfold incr at h
  cases h with
  | data hs ha =>
    cases hs with
    | other hn => exact absurd trivial hn
    | has =>
      cases he : d.entries (.val 3) .persistent with
      | none =>
        rw [he] at ha
        cases ha with
        | data hs ha =>
          cases ha
          cases hs with
          | other hn => exact absurd trivial hn
          | put => unfold count; simp [he]
      | some x =>
        rw [he] at ha
        simp only [Option.isSome_some] at ha
        cases ha with
        | data hs ha =>
          cases hs with
          | other hn => exact absurd trivial hn
          | @get _ _ v l hv =>
            rw [he] at hv
            cases hv
            cases x with
            | data n =>
              simp only at ha
              cases ha with
              | tryCall _ ha =>
                cases ha with
                | data hs ha =>
                  cases ha
                  cases hs with
                  | other hn => exact absurd trivial hn
                  | put => unfold count; simp [he]
            | _ => cases ha

/-- No transaction makes the count smaller, whatever the contracts are that the counter calls in the middle of counting. -/
theorem counts {E : HEnv} {st : Store LKey LVal} {orig : List Acct} (B : Ledger LKey LVal) (h : TxStart E st orig) (f : HostFn) {c : Nat} (ha : Asks c Counter f)
    (hx : There E st orig c) :
    count (own E B (Host.init st orig) c) ≤ count (own E B (invoke E (Host.init st orig) f).1 c) :=
  C98_invariant B h f ha hx (fun d => count (own E B (Host.init st orig) c) ≤ count d)
    (fun _ _ _ _ ⟨_, _, _, hp⟩ hal hd => by subst hp; rw [incr_adds hal]; omega) (Nat.le_refl _)

/-- Contract 1 calls the counter, which is contract 2, twice. The second time the counter calls itself, which fails. It then calls it
a third time. -/
def caller : Prog :=
  .call 2 fnB (incr 1 fnA (.ret .void)) (fun _ => .call 2 fnB (incr 2 fnB (incr 1 fnA (.ret .void))) (fun _ =>
    .tryCall 2 fnB (incr 1 fnA (.ret .void)) (fun _ => .ret .void)))

def whole : Host × Res RVal := invoke env (Host.init st [entry]) (.invoke 1 fnA caller)

example : whole.2 = .ok .void := rfl
example : count (own env (fun _ => none) (Host.init st [entry]) 2) = 0 ∧ count (own env (fun _ => none) whole.1 2) = 3 := by decide
theorem caller_asks : Asks 2 Counter (.invoke 1 fnA caller) := by
  have hi : ∀ (id : Nat) (fn : Name) (other : Prog), Calls 2 Counter other → (id = 2 → Counter fn other) → Calls 2 Counter (incr id fn other) := by
    intro id fn other ho hc r
    dsimp only
    split
    · intro r
      dsimp only
      split
      · exact ⟨ho, hc, fun _ _ => trivial⟩
      · trivial
    · intro _; trivial
  have h1 : Calls 2 Counter (incr 1 fnA (.ret .void)) := hi 1 fnA _ trivial (fun h => (by cases h))
  have k1 : Counter fnB (incr 1 fnA (.ret .void)) := ⟨1, fnA, _, rfl⟩
  exact ⟨⟨h1, fun _ => k1, fun _ => ⟨hi 2 fnB _ h1 (fun _ => k1), fun _ => ⟨2, fnB, _, rfl⟩, fun _ => ⟨h1, fun _ => k1, fun _ => trivial⟩⟩⟩,
    fun h => (by cases h)⟩
example : There env st [entry] 2 := Or.inl ⟨.wasm 7, [], some 200, by decide⟩

/-- In state `s3` of `HostCase` contract 2 runs, and contract 1 waits for it. -/
example : topContract s3.ctx = some 2 ∧ (∃ d ∈ s3.ctx, d.cid = some 1) ∧ topContract s3.ctx ≠ some 1 := by decide
example : (run env (incr 1 fnA (.ret .void)) s3).2 = .ok .void ∧ count (own env (fun _ => none) (run env (incr 1 fnA (.ret .void)) s3).1 2) = 1 :=
  ⟨rfl, by decide⟩

end SerialCase
end Soroban.Props
