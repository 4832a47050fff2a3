import Verif.Model.Wasm
/-!
Specification vocabulary for the admission of Wasm code: which code a host accepts, and the interleavings of the threads that
share a module cache.
-/
namespace Soroban.Wasm.Spec

/-- The value of four bytes in big-endian order. -/
def be32 (a b c d : Nat) : Nat := ((a * 256 + b) * 256 + c) * 256 + d

/-- The name of the custom section with the interface version. -/
def metaName : Name := "contractenvmetav0".toList.map Char.toNat

/-- The interface version a module declares: its first custom section "contractenvmetav0" begins with the XDR encoding of an
interface version entry, four zero bytes and the two numbers in big-endian order. -/
def Declares (m : Module) (v : Version) : Prop :=
  ∃ before after a b c d e f g h rest,
    m.customs = before ++ (metaName, 0 :: 0 :: 0 :: 0 :: a :: b :: c :: d :: e :: f :: g :: h :: rest) :: after ∧
    (∀ s ∈ before, s.1 ≠ metaName) ∧
    v.protocol = be32 a b c d ∧ v.pre = be32 e f g h

/-- A declared version can run on a ledger: it is not from the future, a version of an old protocol is a final one, and one of
the current protocol is exactly the host's. -/
def Runs (env : Version) (ledger : Nat) (v : Version) : Prop :=
  v.protocol ≤ ledger ∧ v.pre = if v.protocol = ledger then env.pre else 0

/-- A host function is available in a protocol. -/
def AvailableIn (f : HostFn) (p : Nat) : Prop := (∀ lo, f.minProto = some lo → lo ≤ p) ∧ ∀ hi, f.maxProto = some hi → p ≤ hi

/-- An import is of that host function, with its type: 64-bit integers only. -/
def ImportOf (f : HostFn) (i : Import) : Prop :=
  f.modName = i.modName ∧ f.name = i.name ∧ i.ty = .func (List.replicate f.arity .i64) [.i64]

/-- No exported function has more than 32 arguments or results. -/
def FewArgs (m : Module) : Prop := ∀ n ps rs, (n, ExternTy.func ps rs) ∈ m.exports → ps.length ≤ 32 ∧ rs.length ≤ 32

/-- Code a host accepts on a ledger of protocol `ledger`: `m` is the decoded module and `v` the version it declares. -/
structure Admitted {W : Type} (X : Ext W) (H : HostVer) (ledger : Nat) (w : W) (m : Module) (v : Version) : Prop where
  valid : X.valid w = true
  parses : X.parse w = .ok m
  fewArgs : FewArgs m
  declares : Declares m v
  supported : ledger = H.env.protocol
  runs : Runs H.env ledger v
  imports : ∀ i ∈ m.imports, ∃ f ∈ H.fns, ImportOf f i ∧ AvailableIn f v.protocol ∧ AvailableIn f ledger
  noStart : m.start = false
  allocates : X.alloc m = .ok ()

/-- A table of host functions: no two have the same names, and names have fewer than ten bytes. -/
def TableOk (fns : List HostFn) : Prop :=
  fns.Pairwise (fun f g => ¬ (f.modName = g.modName ∧ f.name = g.name)) ∧ ∀ f ∈ fns, f.modName.length < 10 ∧ f.name.length < 10

/-- What two attempts to start a contract have in common whatever they charge: both start the same module, built for the same
protocol, for the same contract, or both fail with the same error. -/
def SameOutcome : Res Vm → Res Vm → Prop
  | .ok a, .ok b => a.contract = b.contract ∧ a.module.module = b.module.module ∧ a.module.proto = b.module.proto
  | .error e, .error e' => e = e'
  | _, _ => False

/-- A request to add code to the cache, checked for a ledger of protocol `ledger`. -/
structure Job (W : Type) where
  ledger : Nat
  code : W

/-- The atomic steps of the threads sharing a module cache. Adding a module takes two: `look` extracts the cost inputs and
finds the module missing (a request that finds it there, or fails, is over), and `store` parses the code and inserts the
result. Other threads may act in between. The list holds the requests between their two steps, with their cost inputs. -/
inductive Step {W : Type} (X : Ext W) (H : HostVer) :
    Cache × List (Job W × CostInputs) → Cache × List (Job W × CostInputs) → Prop
  | look {c : Cache} {js : List (Job W × CostInputs)} (j : Job W) (ci : CostInputs) : extractCosts X j.code = .ok ci →
      c.modules (X.sha j.code) = none → Step X H (c, js) (c, (j, ci) :: js)
  | store {c : Cache} {l r : List (Job W × CostInputs)} (j : Job W) (ci : CostInputs) :
      Step X H (c, l ++ (j, ci) :: r) ((c.finishAdd X H j.ledger (X.sha j.code) j.code (.v1 ci)).1, l ++ r)
  | remove {c : Cache} {js : List (Job W × CostInputs)} (hash : Nat) : Step X H (c, js) (c.remove hash, js)
  | clear {c : Cache} {js : List (Job W × CostInputs)} : Step X H (c, js) (c.clear, js)

/-- The states a new cache of a host can get to. -/
inductive Reach {W : Type} (X : Ext W) (H : HostVer) : Cache × List (Job W × CostInputs) → Prop
  | new {c : Cache} : Cache.new H = .ok c → Reach X H (c, [])
  | step {s s' : Cache × List (Job W × CostInputs)} : Reach X H s → Step X H s s' → Reach X H s'

/-- Code is stored under its hash, and hashes do not collide. -/
def ContentAddressed {W : Type} (X : Ext W) (code : Nat → Res (Option (W × Option CostInputs))) : Prop :=
  (∀ h w ci, code h = .ok (some (w, ci)) → X.sha w = h) ∧ ∀ w w', X.sha w = X.sha w' → w = w'

/-! ### What a module contains -/

/-- Sum of two tallies. -/
def plus (a b : Acc) : Acc :=
  ⟨⟨a.costs.nInstructions + b.costs.nInstructions, a.costs.nFunctions + b.costs.nFunctions, a.costs.nGlobals + b.costs.nGlobals,
    a.costs.nTableEntries + b.costs.nTableEntries, a.costs.nTypes + b.costs.nTypes,
    a.costs.nDataSegments + b.costs.nDataSegments, a.costs.nElemSegments + b.costs.nElemSegments,
    a.costs.nImports + b.costs.nImports, a.costs.nExports + b.costs.nExports,
    a.costs.nDataSegmentBytes + b.costs.nDataSegmentBytes⟩, a.elements + b.elements, a.memory + b.memory⟩

/-- Nothing. -/
def nothing : Acc := ⟨⟨0, 0, 0, 0, 0, 0, 0, 0, 0, 0⟩, 0, 0⟩

/-- Sum of tallies. -/
def sumOf {α : Type} (f : α → Acc) : List α → Acc
  | [] => nothing
  | x :: xs => plus (f x) (sumOf f xs)

/-- A number of items of an element segment. -/
def itemsOf (e : Elem) : Nat :=
  match e.items with
  | .inl n => n
  | .inr l => l.length

/-- What a section contributes: numbers of things, and bytes of data and of initial memory. -/
def contents : Payload → Acc
  | .ignored | .unsupported => nothing
  | .memories l => sumOf (fun m => { nothing with memory := m.initial * 65536 }) (l.filterMap id)
  | .types n => { nothing with costs.nTypes := n }
  | .imports n => { nothing with costs.nImports := n }
  | .functions n => { nothing with costs.nFunctions := n }
  | .tables l => sumOf (fun t => { nothing with costs.nTableEntries := t.initial }) (l.filterMap id)
  | .globals l => { nothing with costs.nGlobals := l.length }
  | .exports n => { nothing with costs.nExports := n }
  | .elems l => sumOf (fun e => { nothing with costs.nElemSegments := 1, elements := itemsOf e }) (l.filterMap id)
  | .datas l => sumOf (fun d => { nothing with costs.nDataSegments := 1, costs.nDataSegmentBytes := d.len }) (l.filterMap id)
  | .code ops => { nothing with costs.nInstructions := ops.getD 0 }

/-- The tally in 32-bit counters that stop at their maximum. -/
def capped (a : Acc) : Acc :=
  ⟨⟨min a.costs.nInstructions u32Max, min a.costs.nFunctions u32Max, min a.costs.nGlobals u32Max,
    min a.costs.nTableEntries u32Max, min a.costs.nTypes u32Max, min a.costs.nDataSegments u32Max,
    min a.costs.nElemSegments u32Max, min a.costs.nImports u32Max, min a.costs.nExports u32Max,
    min a.costs.nDataSegmentBytes u32Max⟩, min a.elements u32Max, min a.memory u32Max⟩

/-- A constant expression of constants and references only. -/
def Simple (e : ConstExpr) : Prop := ∀ o ∈ e, o = some .simple

/-- All items are decodable and satisfy `P`. -/
def All {α : Type} (P : α → Prop) (l : List (Option α)) : Prop := ∀ x ∈ l, ∃ a, x = some a ∧ P a

/-- A section contracts may have: no start function and nothing of the component model, 32-bit unshared memories that fit in
the address space, and initializers that are simple constants. -/
def Allowed : Payload → Prop
  | .unsupported => False
  | .memories l => All (fun m => m.memory64 = false ∧ m.shared = false ∧ m.initial * 65536 ≤ u32Max) l
  | .tables l => All (fun t => ∀ e, t.init = some e → Simple e) l
  | .globals l => All Simple l
  | .elems l => All (fun e => (∀ o, e.offset = some o → Simple o) ∧ ∀ x, e.items = .inr x → All Simple x) l
  | .datas l => All (fun d => d.len ≤ u32Max ∧ ∀ o, d.offset = some o → Simple o) l
  | .code ops => ops ≠ none
  | _ => True

/-- What parsing code is charged for: each part by its number. -/
def parsing (c : CostInputs) : List Charge :=
  [.cost .parseInstructions (some c.nInstructions), .cost .parseFunctions (some c.nFunctions), .cost .parseGlobals (some c.nGlobals),
   .cost .parseTableEntries (some c.nTableEntries), .cost .parseTypes (some c.nTypes),
   .cost .parseDataSegments (some c.nDataSegments), .cost .parseElemSegments (some c.nElemSegments),
   .cost .parseImports (some c.nImports), .cost .parseExports (some c.nExports),
   .cost .parseDataSegmentBytes (some c.nDataSegmentBytes)]

/-- What starting parsed code is charged for: each part by its number, and a constant for instructions and for types. -/
def starting (c : CostInputs) : List Charge :=
  [.cost .instInstructions none, .cost .instFunctions (some c.nFunctions), .cost .instGlobals (some c.nGlobals),
   .cost .instTableEntries (some c.nTableEntries), .cost .instTypes none, .cost .instDataSegments (some c.nDataSegments),
   .cost .instElemSegments (some c.nElemSegments), .cost .instImports (some c.nImports), .cost .instExports (some c.nExports),
   .cost .instDataSegmentBytes (some c.nDataSegmentBytes)]

end Soroban.Wasm.Spec
