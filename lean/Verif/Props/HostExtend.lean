import Verif.Lemmas.HostExtend
import Verif.Props.HostExec
/-!
C90: extending the lifetime of a contract.
-/
namespace Soroban.Props
open Soroban Soroban.Auth Soroban.Host Soroban.Host.Spec
open Soroban.Storage (Store Entry Access permOf)

section
variable {E : HEnv} {st : Store LKey LVal} {orig : List Acct}

/-- The footprint has a key, if there is one. -/
def InFootprint (s : Host) (k : LKey) : Prop := s.st.mode = .enforcing → (s.st.footprint.get k).isSome = true

private theorem may_iff (s : Host) (k : LKey) : May s k ↔ InFootprint s k := by
  unfold May InFootprint permOf
  cases s.st.mode with
  | enforcing =>
    simp only [true_implies, Storage.Spec.allows]
  | recording src => simp

private theorem asUnit_ok {s' : Host} {o : Storage.Out LVal} {r : Host × Res Unit} (h : asUnit r = (s', .ok o)) : r = (s', .ok ()) := by
  obtain ⟨s1, r1⟩ := r
  cases r1 with
  | error e => cases h
  | ok u => cases h; rfl

private theorem scope_durable {L : Storage.Spec.Ledger LKey LVal} {c : Nat} {scope : Scope} {k : LKey} (hk : k ∈ scopeKeys E L c scope) :
    keysOf.durability k = some .persistent := by
  unfold scopeKeys at hk
  rcases List.mem_append.mp hk with hk | hk
  · split_ifs at hk
    · cases hk
    · simp only [List.mem_singleton] at hk; subst hk; rfl
  · split_ifs at hk
    · cases hk
    · split at hk
      · rename_i ex m l' heq
        cases ex with
        | wasm w => simp only [codeKeys, List.mem_singleton] at hk; subst hk; rfl
        | asset => cases hk
        | ref o t =>
          simp only [codeKeys, List.mem_cons, List.mem_map] at hk
          rcases hk with rfl | ⟨w, -, rfl⟩ <;> rfl
      · cases hk

/-- **C90**. An extension that succeeds raises the lifetimes of exactly the entries in its scope, each as the rule says for the time it
had left, and changes nothing else. All these entries exist. -/
theorem C90_extends (h : TxStart E st orig) {s s' : Host} (hr : Reach E st orig s) {id M : Nat} (hM : E.sto.li.maxLiveUntil = some M)
    {c : Option Nat} {scope : Scope} {x : Ext} {o : Storage.Out LVal} (he : dataOp E s id (.extendContract c scope x) = (s', .ok o)) :
    visible E s' = extendedLedger (visible E s) (scopeKeys E (visible E s) (c.getD id) scope) (x.lifetime E.sto.li.seq M) ∧
    ∀ k ∈ scopeKeys E (visible E s) (c.getD id) scope, ∃ v l, visible E s k = some (v, some l) ∧ E.sto.li.seq ≤ l := by
  have hok := (reach_hok h hr).st
  obtain ⟨h1, h2, h3, -⟩ := extendContract_does hok hM (asUnit_ok he)
  refine ⟨h1, fun k hk => ?_⟩
  obtain ⟨⟨-, ⟨v, l⟩, hL⟩, -⟩ := h3 k hk
  have hd := scope_durable hk
  obtain ⟨l', h4, h5⟩ := live_some hok hd hL
  simp only at h4
  subst h4
  exact ⟨v, l', hL, h5⟩

/-- **C90**. A proper request succeeds exactly if the instance and the entries in its scope exist and are in the footprint, and the
contract has code, unless only its instance is meant. -/
theorem C90_exactly (h : TxStart E st orig) {s : Host} (hr : Reach E st orig s) {id M : Nat} (hM : E.sto.li.maxLiveUntil = some M)
    {c : Option Nat} {scope : Scope} {x : Ext} (hv : x.Valid E.sto.li.seq)
    (hu : ∀ k v l, visible E s k = some (v, some l) → l ≤ u32Max) :
    (dataOp E s id (.extendContract c scope x)).2 = .ok .unit ↔
      (∀ k ∈ .inst (c.getD id) :: scopeKeys E (visible E s) (c.getD id) scope, InFootprint s k ∧ (visible E s k).isSome = true) ∧
      (scope ≠ .inst → (codeOf E (visible E s) (c.getD id)).isSome = true) := by
  have hok := (reach_hok h hr).st
  constructor
  · intro he
    have he' : dataOp E s id (.extendContract c scope x) = ((dataOp E s id (.extendContract c scope x)).1, .ok .unit) := Prod.ext rfl he
    obtain ⟨-, h2, h3, h4⟩ := extendContract_does hok hM (asUnit_ok he')
    refine ⟨fun k hk => ?_, h4⟩
    rcases List.mem_cons.mp hk with rfl | hk
    · exact ⟨(may_iff _ _).mp h2.1, Option.isSome_iff_exists.mpr h2.2⟩
    · exact ⟨(may_iff _ _).mp (h3 k hk).1.1, Option.isSome_iff_exists.mpr (h3 k hk).1.2⟩
  · rintro ⟨h1, h2⟩
    have hfit : ∀ k ∈ scopeKeys E (visible E s) (c.getD id) scope, May s k ∧ Extendable (visible E s) k := by
      intro k hk
      obtain ⟨h3, h4⟩ := h1 k (List.mem_cons_of_mem _ hk)
      obtain ⟨⟨v, l⟩, h5⟩ := Option.isSome_iff_exists.mp h4
      have hd := scope_durable hk
      obtain ⟨l', h6, -⟩ := live_some hok hd h5
      simp only at h6
      subst h6
      exact ⟨(may_iff _ _).mpr h3, v, l', h5, hu k v l' h5⟩
    obtain ⟨s', hs⟩ := extendContract_succeeds hok hM hv ((may_iff _ _).mpr (h1 _ (List.mem_cons_self ..)).1) hfit h2
    show (asUnit (extendContract E s (c.getD id) scope x)).2 = _
    rw [hs]; rfl

/-- **C90**. After a request for `n` ledgers whatever the time left, for all of a contract, everything the contract is made of lives for
`n` more ledgers, or as long as an entry can. The contract has the same code. -/
theorem C90_alive (h : TxStart E st orig) {s s' : Host} (hr : Reach E st orig s) {id M : Nat} (hM : E.sto.li.maxLiveUntil = some M)
    {c : Option Nat} {n : Nat} {o : Storage.Out LVal} (he : dataOp E s id (.extendContract c .both (.upTo n n)) = (s', .ok o)) :
    codeOf E (visible E s') (c.getD id) = codeOf E (visible E s) (c.getD id) ∧
    scopeKeys E (visible E s') (c.getD id) .both = scopeKeys E (visible E s) (c.getD id) .both ∧
    ∀ k ∈ scopeKeys E (visible E s') (c.getD id) .both, ∃ v l, visible E s' k = some (v, some l) ∧ min (E.sto.li.seq + n) M ≤ l := by
  obtain ⟨h1, h2⟩ := C90_extends h hr hM he
  rw [h1, scopeKeys_extended]
  refine ⟨?_, rfl, fun k hk => ?_⟩
  · obtain ⟨v, l, h3, -⟩ := h2 (.inst (c.getD id)) (by simp [scopeKeys])
    unfold codeOf
    have h4 : extendedLedger (visible E s) (scopeKeys E (visible E s) (c.getD id) .both)
        (Ext.lifetime E.sto.li.seq M (.upTo n n)) (.inst (c.getD id)) = some (v, some (Ext.lifetime E.sto.li.seq M (.upTo n n) l)) := by
      unfold extendedLedger
      rw [if_pos (by simp [scopeKeys]), h3]; rfl
    rw [h4, h3]
    cases v <;> simp only [code_extended]
  · obtain ⟨v, l, h3, h4⟩ := h2 k hk
    refine ⟨v, _, by unfold extendedLedger; rw [if_pos hk, h3]; rfl, ?_⟩
    simp only [Ext.lifetime]
    split_ifs <;> omega

end

/-! ### these cases occur -/

namespace ExtendCase
open HostCase (env fnA)
open ExecCase

/-- Contract 1 extends the lifetime of contract 2, which refers to its tag 5, which stands for code 7. -/
def op (scope : Scope) : DataOp := .extendContract (some 2) scope (.upTo 300 300)
def op2 (scope : Scope) : DataOp := .extendContract (some 2) scope (.between 300 10 50)

example : scopeKeys env (visible env s0) 2 .both = [.inst 2, .data (.contract 1) (.tag 5) .persistent, .code 7] := by decide
example : scopeKeys env (visible env s0) 1 .code = [.code 7] := by decide
example : (dataOp env s0 1 (op .both)).2 = .ok .unit := rfl
example : (dataOp env s0 1 (op2 .both)).2 = .ok .unit := rfl
theorem maxLive : env.sto.li.maxLiveUntil = some 1099 := by decide

/-- The instance of contract 2, the tag of contract 1 and the code then live until ledger 400, and nothing else does. -/
example : visible env (dataOp env s0 1 (op .both)).1 (.inst 2) = some (.inst (.ref (.contract 1) 5) [], some 400) ∧
    visible env (dataOp env s0 1 (op .both)).1 (.data (.contract 1) (.tag 5) .persistent) = some (.data 7, some 400) ∧
    visible env (dataOp env s0 1 (op .both)).1 (.code 7) = some (.code 1, some 400) ∧
    visible env (dataOp env s0 1 (op .both)).1 (.inst 1) = some (.inst (.wasm 7) [], some 200) := by decide
/-- At most 50 ledgers more. -/
example : visible env (dataOp env s0 1 (op2 .code)).1 (.code 7) = some (.code 1, some 250) ∧
    visible env (dataOp env s0 1 (op2 .code)).1 (.inst 2) = some (.inst (.ref (.contract 1) 5) [], some 200) := by decide

example : ∀ k ∈ scopeKeys env (visible env (dataOp env s0 1 (op .both)).1) 2 .both,
    ∃ v l, visible env (dataOp env s0 1 (op .both)).1 k = some (v, some l) ∧ min 400 1099 ≤ l :=
  (C90_alive start reach maxLive (c := some 2) (n := 300) (o := .unit) (s' := (dataOp env s0 1 (op .both)).1) rfl).2.2

example : (op2 .both = .extendContract (some 2) .both (.between 300 10 50)) ∧ (Ext.between 300 10 50).Valid 100 := ⟨rfl, (by show 10 ≤ 50; decide)⟩
/-- Contract 3 is not in the footprint. -/
example : (dataOp env s0 1 (.extendContract (some 3) .both (.upTo 300 300))).2 = .error (.host .storage .exceededLimit) := rfl
example : ¬ InFootprint s0 (.inst 3) := fun h => absurd (h rfl) (by decide)

end ExtendCase
end Soroban.Props
