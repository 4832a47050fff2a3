import Verif.Model.ContractTypes
import Verif.Spec.Preimage
/-!
What a value says about authorized invocations, in terms of ledger values.
-/
namespace Soroban.ContractTypes.Spec
open Soroban Soroban.Preimage Soroban.Preimage.Spec Soroban.ContractTypes

/-- The ASCII codes of a text. -/
def txt (s : String) : List Nat := s.toList.map Char.toNat

/-- A map from names to values. -/
def struct (l : List (List Nat × ScVal)) : ScVal := .map (some (l.map fun p => (.symbol p.1, p.2)))

/-- A case of an enum with the value it carries. -/
def tagged (c : List Nat) (x : ScVal) : ScVal := .vec (some [.symbol c, x])

/-- An account or a contract. -/
def Plain (a : ScAddr) : Prop := (∃ k, a = .account k) ∨ ∃ k, a = .contract k

/-! ### What `__check_auth` is shown -/

/-- How an executable is shown; asset contracts are not. -/
def execOf : Exec → Option ScVal
  | .wasm h => some (tagged (txt "Wasm") (.bytes h))
  | .asset => none
  | .ref o t => some (tagged (txt "ExternalRef") (struct [(txt "owner", .address o), (txt "tag", .string t)]))

/-- How a creation is shown: what is made of, the salt, the arguments of the constructor if there are any; not the deployer. -/
def creationOf : IdPre → Exec → List ScVal → Option ScVal
  | .asset _, _, _ => none
  | .address _ salt, e, args => (execOf e).map fun x =>
    match args with
    | [] => tagged (txt "CreateContractHostFn") (struct [(txt "executable", x), (txt "salt", .bytes salt)])
    | a :: as => tagged (txt "CreateContractWithCtorHostFn")
        (struct [(txt "constructor_args", .vec (some (a :: as))), (txt "executable", x), (txt "salt", .bytes salt)])

/-- How a function is shown. -/
def contextOf : XFn → Option ScVal
  | .call c f as => some (tagged (txt "Contract")
      (struct [(txt "args", .vec (some as)), (txt "contract", .address c), (txt "fn_name", .symbol f)]))
  | .create id e => creationOf id e []
  | .createV2 a => creationOf a.id a.exec a.args

mutual
/-- The functions of a tree: each before those of its sub-invocations. -/
def fns : XInv → List XFn
  | .mk f subs => f :: fnsAll subs
/-- The functions of several trees. -/
def fnsAll : List XInv → List XFn
  | [] => []
  | x :: xs => fns x ++ fnsAll xs
end

/-- The functions are shown one by one, in this order. -/
def Shows (fs : List XFn) (l : List ScVal) : Prop := List.Forall₂ (fun f s => contextOf f = some s) fs l

/-- The same function, whoever deploys it, and whichever of the two ways to write a creation without arguments is used. -/
def Alike : XFn → XFn → Prop
  | .call c f as, .call c' f' as' => c = c' ∧ f = f' ∧ as = as'
  | .call _ _ _, _ | _, .call _ _ _ => False
  | f, g => ∃ d d' salt e as, plainFn f = .createV2 ⟨.address d salt, e, as⟩ ∧ plainFn g = .createV2 ⟨.address d' salt, e, as⟩

/-- The owner of an external reference is an account or a contract. -/
def OwnerOk : XFn → Prop
  | .create _ (.ref o _) => Plain o
  | .createV2 ⟨_, .ref o _, _⟩ => Plain o
  | _ => True

/-! ### What `authorize_as_curr_contract` takes -/

/-- The value describes the executable. Elements after the carried value do not count. -/
inductive ExecIs : ScVal → Exec → Prop
  | wasm {h : List Nat} {rest : List ScVal} : h.length = 32 →
    ExecIs (.vec (some (.symbol (txt "Wasm") :: .bytes h :: rest))) (.wasm h)
  | ref {o : ScAddr} {t : List Nat} {rest : List ScVal} : Plain o →
    ExecIs (.vec (some (.symbol (txt "ExternalRef") :: struct [(txt "owner", .address o), (txt "tag", .string t)] :: rest))) (.ref o t)

/-- The value lists the invocation, for the contract `self`: creations are by `self`. -/
inductive Lists (self : ScAddr) : ScVal → XInv → Prop
  | call {c : ScAddr} {f : List Nat} {as ss rest : List ScVal} {xs : List XInv} : Plain c → List.Forall₂ (Lists self) ss xs →
    Lists self (.vec (some (.symbol (txt "Contract") :: struct
      [(txt "context", struct [(txt "args", .vec (some as)), (txt "contract", .address c), (txt "fn_name", .symbol f)]),
       (txt "sub_invocations", .vec (some ss))] :: rest))) (.mk (.call c f as) xs)
  | create {s : ScVal} {e : Exec} {salt : List Nat} {rest : List ScVal} : ExecIs s e → salt.length = 32 →
    Lists self (.vec (some (.symbol (txt "CreateContractHostFn") :: struct [(txt "executable", s), (txt "salt", .bytes salt)] :: rest)))
      (.mk (.createV2 ⟨.address self salt, e, []⟩) [])
  | createWith {s : ScVal} {e : Exec} {salt : List Nat} {as rest : List ScVal} : ExecIs s e → salt.length = 32 →
    Lists self (.vec (some (.symbol (txt "CreateContractWithCtorHostFn") :: struct
      [(txt "constructor_args", .vec (some as)), (txt "executable", s), (txt "salt", .bytes salt)] :: rest)))
      (.mk (.createV2 ⟨.address self salt, e, as⟩) [])

mutual
/-- No function of the tree is used up. -/
def Unused : AInv → Prop
  | .mk _ subs used => used = false ∧ UnusedAll subs
/-- No function of the trees is used up. -/
def UnusedAll : List AInv → Prop
  | [] => True
  | i :: is => Unused i ∧ UnusedAll is
end

end Soroban.ContractTypes.Spec
