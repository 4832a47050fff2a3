import Verif.Model.HostFunctions
import Verif.Model.Budget
/-!
Admission of Wasm code: parsing and checking of modules, linking with the host functions, the module cache, the cost inputs
extracted at upload (soroban-env-host/src/vm/parsed_module.rs, vm/module_cache.rs, vm.rs, host/frame.rs, host/lifecycle.rs).

The decoders of the Wasm format (wasmparser, wasmi) are parameters: `Ext`. A module is what the code asks wasmi for: its
imports, exports, custom sections and whether it has a start function.

Charges are recorded in the order they are made and never refused: the functions below describe the runs in which the budget
suffices. The charges of storage accesses, clones and key construction are left out; those of parsing, instantiation and
symbol sets are kept. The build modelled is the production one (no `test`, no `next`).
-/
namespace Soroban.Wasm

/-- Wasm value types (`wasmi::core::ValueType`). -/
inductive ValTy where
  | i32 | i64 | f32 | f64 | funcRef | externRef
  deriving DecidableEq, Repr

/-- `wasmi::ExternType`: only function types are looked into. -/
inductive ExternTy where
  | func (params results : List ValTy)
  | table | memory | global
  deriving DecidableEq, Repr

/-- `wasmi::ImportType`. -/
structure Import where
  modName : Name
  name : Name
  ty : ExternTy
  deriving DecidableEq, Repr

/-- `wasmi::Module`, as far as the host looks into it; `body` stands for everything else. -/
structure Module where
  imports : List Import
  exports : List (Name × ExternTy)
  customs : List (Name × List Nat)
  start : Bool
  body : Nat
  deriving DecidableEq, Repr

/-- XDR `ScEnvMetaEntryInterfaceVersion` (built in soroban-env-common/src/meta.rs:47-64). -/
structure Version where
  protocol : Nat
  pre : Nat
  deriving DecidableEq, Repr

/-- XDR `ContractCodeCostInputs` (vm/parsed_module.rs:542-555). -/
structure CostInputs where
  nInstructions : Nat
  nFunctions : Nat
  nGlobals : Nat
  nTableEntries : Nat
  nTypes : Nat
  nDataSegments : Nat
  nElemSegments : Nat
  nImports : Nat
  nExports : Nat
  nDataSegmentBytes : Nat
  deriving DecidableEq, Repr

/-- vm/parsed_module.rs:16-19 `VersionedContractCodeCostInputs`. -/
inductive Costs where
  | v0 (wasmBytes : Nat)
  | v1 (inputs : CostInputs)
  deriving DecidableEq, Repr

/-- The cost types charged by the functions below (XDR `ContractCostType`). -/
inductive CostTy where
  | vmInstantiation | vmCachedInstantiation
  | parseInstructions | parseFunctions | parseGlobals | parseTableEntries | parseTypes | parseDataSegments | parseElemSegments
  | parseImports | parseExports | parseDataSegmentBytes
  | instInstructions | instFunctions | instGlobals | instTableEntries | instTypes | instDataSegments | instElemSegments
  | instImports | instExports | instDataSegmentBytes
  deriving DecidableEq, Repr

/-- One charge: a cost type with its input, or the set of imported symbols of vm/parsed_module.rs:261. -/
inductive Charge where
  | cost (ty : CostTy) (input : Option Nat)
  | symbols (n : Nat)
  deriving DecidableEq, Repr

/-- A computation that charges the budget and may fail. -/
structure M (α : Type) where
  charges : List Charge
  res : Res α

namespace M

/-- Rust `Ok`. -/
def ok {α : Type} (a : α) : M α := ⟨[], .ok a⟩

/-- A fallible step without charges. -/
def lift {α : Type} (r : Res α) : M α := ⟨[], r⟩

/-- `budget.charge`. -/
def charge (l : List Charge) : M Unit := ⟨l, .ok ()⟩

/-- The `?` operator. -/
def bind {α β : Type} (m : M α) (f : α → M β) : M β :=
  match m.res with
  | .ok a => ⟨m.charges ++ (f a).charges, (f a).res⟩
  | .error e => ⟨m.charges, .error e⟩

/-- budget/util.rs:190-215 `with_observable_shadow_mode`: the charges go to the shadow budget, an error is passed on. -/
def shadow {α : Type} (m : M α) : M α := ⟨[], m.res⟩

end M

/-- vm/parsed_module.rs:29-79 `charge_for_parsing`. -/
def chargeParsing : Costs → List Charge
  | .v0 n => [.cost .vmInstantiation (some n)]
  | .v1 c => [.cost .parseInstructions (some c.nInstructions), .cost .parseFunctions (some c.nFunctions),
      .cost .parseGlobals (some c.nGlobals), .cost .parseTableEntries (some c.nTableEntries), .cost .parseTypes (some c.nTypes),
      .cost .parseDataSegments (some c.nDataSegments), .cost .parseElemSegments (some c.nElemSegments),
      .cost .parseImports (some c.nImports), .cost .parseExports (some c.nExports),
      .cost .parseDataSegmentBytes (some c.nDataSegmentBytes)]

/-- vm/parsed_module.rs:81-135 `charge_for_instantiation`. -/
def chargeInst : Costs → List Charge
  | .v0 n => [.cost .vmCachedInstantiation (some n)]
  | .v1 c => [.cost .instInstructions none, .cost .instFunctions (some c.nFunctions), .cost .instGlobals (some c.nGlobals),
      .cost .instTableEntries (some c.nTableEntries), .cost .instTypes none, .cost .instDataSegments (some c.nDataSegments),
      .cost .instElemSegments (some c.nElemSegments), .cost .instImports (some c.nImports),
      .cost .instExports (some c.nExports), .cost .instDataSegmentBytes (some c.nDataSegmentBytes)]

/-- Rust `u32::saturating_add`. -/
def satAdd (a b : Nat) : Nat := min (a + b) u32Max

/-- vm.rs:48 `WASM_STD_MEM_PAGE_SIZE_IN_BYTES`. -/
def pageSize : Nat := 65536

/-- vm.rs:134 `MAX_VM_ARGS`. -/
def maxVmArgs : Nat := 32

/-! ### What the second parser reports -/

/-- An operator of a constant expression: one of those accepted at vm/parsed_module.rs:722, or another. -/
inductive ConstOp where
  | simple | complex
  deriving DecidableEq, Repr

/-- `wasmparser::ConstExpr`: its operators; `none` is one that cannot be decoded. -/
abbrev ConstExpr := List (Option ConstOp)

/-- `wasmparser::MemoryType`. -/
structure MemTy where
  memory64 : Bool
  shared : Bool
  initial : Nat

/-- `wasmparser::Table`: initial size and initializer. -/
structure TableTy where
  initial : Nat
  init : Option ConstExpr

/-- `wasmparser::Element`: the offset of an active segment, and its items: a number of functions or expressions. -/
structure Elem where
  offset : Option ConstExpr
  items : Nat ⊕ List (Option ConstExpr)

/-- `wasmparser::Data`: length and the offset of an active segment. -/
structure Data where
  len : Nat
  offset : Option ConstExpr

/-- `wasmparser::Payload`, grouped as vm/parsed_module.rs:562-686 does. In a list of items `none` is one that cannot be
decoded; the count a section declares is the number of items its reader yields. `code ops` is one function body. -/
inductive Payload where
  | ignored
  | unsupported
  | memories (l : List (Option MemTy))
  | types (n : Nat)
  | imports (n : Nat)
  | functions (n : Nat)
  | tables (l : List (Option TableTy))
  | globals (l : List (Option ConstExpr))
  | exports (n : Nat)
  | elems (l : List (Option Elem))
  | datas (l : List (Option Data))
  | code (ops : Option Nat)

/-- The decoders of the Wasm format and the allocation of an instance's memories and tables: `valid` is
`wasmparser::validate`, `parse` is `wasmi::Module::new`, `isCore` and `payloads` are `Parser::is_core_wasm` and `parse_all`,
`sha` is SHA-256, `alloc` is what is left of `wasmi::Linker::instantiate` when all imports are resolved. -/
structure Ext (W : Type) where
  len : W → Nat
  sha : W → Nat
  valid : W → Bool
  parse : W → Res Module
  isCore : W → Bool
  payloads : W → List (Option Payload)
  alloc : Module → Res Unit

/-- A host: its interface version (soroban-env-common/src/meta.rs:47-64 `INTERFACE_VERSION`) and its table of functions. -/
structure HostVer where
  env : Version
  fns : List HostFn

/-- The host of this commit: soroban-env-common/src/meta.rs:60-64 (without the `next` feature) and env.json. -/
def thisHost : HostVer := ⟨⟨28, 0⟩, hostFunctions⟩

/-- vm/parsed_module.rs:149-153 `ParsedModule`. -/
structure Parsed where
  module : Module
  proto : Nat
  costs : Costs
  deriving DecidableEq, Repr

/-! ### Parsing and checking -/

/-- vm/parsed_module.rs:322-401 `check_contract_interface_version`. -/
def checkVersion (env : Version) (ledger : Nat) (v : Version) : Res Unit :=
  if ledger ≤ env.protocol then
    if v.protocol < ledger then
      if v.pre ≠ 0 then .error (.host .wasmVm .invalidInput) else .ok ()
    else if v.protocol = ledger then
      if env.pre ≠ v.pre then .error (.host .wasmVm .invalidInput) else .ok ()
    else .error (.host .wasmVm .invalidInput)
  else .error (.host .context .internalError)

/-- A big-endian 32-bit number at the front of a list of bytes; reading past the end hits the length limit set at
vm/parsed_module.rs:478. -/
def readU32 : List Nat → Res (Nat × List Nat)
  | a :: b :: c :: d :: rest => .ok (((a * 256 + b) * 256 + c) * 256 + d, rest)
  | _ => .error (.host .context .exceededLimit)

/-- The first item of `ScEnvMetaEntry::read_xdr_iter` (vm/parsed_module.rs:480): nothing at the end of the data, otherwise the
union's discriminant, which must be zero, and the two numbers of the interface version. What follows is not read. -/
def readMeta : List Nat → Option (Res Version)
  | [] => none
  | bs => some (do
      let (kind, bs) ← readU32 bs
      if kind = 0 then
        let (p, bs) ← readU32 bs
        let (q, _) ← readU32 bs
        .ok ⟨p, q⟩
      else .error (.host .value .invalidInput))

/-- soroban-env-common/src/meta.rs:43 `ENV_META_V0_SECTION_NAME`: "contractenvmetav0". -/
def metaSection : Name := [99, 111, 110, 116, 114, 97, 99, 116, 101, 110, 118, 109, 101, 116, 97, 118, 48]

/-- vm/parsed_module.rs:456-464 `module_custom_section`: the first section of that name. -/
def customSection (m : Module) (name : Name) : Option (List Nat) :=
  m.customs.findSome? (fun s => if s.1 = name then some s.2 else none)

/-- vm/parsed_module.rs:472-500 `check_meta_section`. -/
def checkMeta (env : Version) (ledger : Nat) (m : Module) : Res Version :=
  match customSection m metaSection with
  | some data =>
    match readMeta data with
    | some r => do
      let v ← r
      checkVersion env ledger v
      .ok v
    | none => .error (.host .wasmVm .invalidInput)
  | none => .error (.host .wasmVm .invalidInput)

/-- vm/parsed_module.rs:502-525 `check_max_args`. -/
def checkMaxArgs : List (Name × ExternTy) → Res Unit
  | [] => .ok ()
  | (_, .func ps rs) :: rest =>
    if rs.length > maxVmArgs then .error (.host .wasmVm .invalidInput)
    else if ps.length > maxVmArgs then .error (.host .wasmVm .invalidInput)
    else checkMaxArgs rest
  | _ :: rest => checkMaxArgs rest

/-- vm/parsed_module.rs:290-320 `parse_wasm`. -/
def parseWasm {W : Type} (X : Ext W) (env : Version) (ledger : Nat) (w : W) : Res (Module × Nat) :=
  if X.valid w then do
    let m ← X.parse w
    checkMaxArgs m.exports
    let v ← checkMeta env ledger m
    .ok (m, v.protocol)
  else .error (.host .wasmVm .invalidAction)

/-- vm/parsed_module.rs:213-228 `ParsedModule::new`. -/
def parsedNew {W : Type} (X : Ext W) (env : Version) (ledger : Nat) (w : W) (c : Costs) : M Parsed :=
  .bind (.charge (chargeParsing c)) fun _ =>
  .bind (.lift (parseWasm X env ledger w)) fun (m, p) =>
  .ok ⟨m, p, c⟩

/-! ### Linking -/

/-- vm/parsed_module.rs:242-258 in `with_import_symbols`: the function imports with short names, as a set. -/
def importSymbols (m : Module) : List (Name × Name) :=
  (m.imports.filterMap fun i =>
    match i.ty with
    | .func _ _ => if i.modName.length < 10 ∧ i.name.length < 10 then some (i.modName, i.name) else none
    | _ => none).eraseDups

/-- vm/parsed_module.rs:403-454 `check_contract_imports_match_host_protocol`, the check of one host function. -/
def checkHostFn (proto ledger : Nat) (f : HostFn) : Res Unit := do
  match f.minProto with
  | some lo => if proto < lo ∨ ledger < lo then .error (.host .wasmVm .invalidAction) else .ok ()
  | none => .ok ()
  match f.maxProto with
  | some hi => if proto > hi ∨ ledger > hi then .error (.host .wasmVm .invalidAction) else .ok ()
  | none => .ok ()

/-- vm/parsed_module.rs:427-451, the loop over the host functions. -/
def checkFns (proto ledger : Nat) (syms : List (Name × Name)) : List HostFn → Res Unit
  | [] => .ok ()
  | f :: rest => do
    if (f.modName, f.name) ∈ syms then checkHostFn proto ledger f else .ok ()
    checkFns proto ledger syms rest

/-- vm/parsed_module.rs:403-454 `check_contract_imports_match_host_protocol`. -/
def checkImports (H : HostVer) (ledger : Nat) (p : Parsed) : M Unit :=
  .bind (.charge [.symbols (importSymbols p.module).length]) fun _ =>
  .lift (checkFns p.proto ledger (importSymbols p.module) H.fns)

/-- `wasmi::Linker`: the functions defined so far. -/
abbrev Linker := List HostFn

/-- `Linker::func_wrap`, called through `HostFuncInfo::wrap` (vm/func_info.rs:48): a name can be defined once. -/
def define (l : Linker) (f : HostFn) : Res Linker :=
  if l.any (fun g => g.modName = f.modName ∧ g.name = f.name) then .error (.host .wasmVm .invalidAction) else .ok (f :: l)

/-- vm.rs:103-115 and 118-127: the loop over the host functions. -/
def defineAll (keep : HostFn → Bool) : List HostFn → Linker → Res Linker
  | [], l => .ok l
  | f :: rest, l => do
    let l ← if keep f then define l f else .ok l
    defineAll keep rest l

/-- vm.rs:105-117 `make_minimal_wasmi_linker_for_symbols`, called from vm/parsed_module.rs:265-269 `make_wasmi_linker`. -/
def minimalLinker (H : HostVer) (m : Module) : M Linker :=
  .bind (.charge [.symbols (importSymbols m).length]) fun _ =>
  .lift (defineAll (fun f => (f.modName, f.name) ∈ importSymbols m) H.fns [])

/-- vm.rs:120-129 `make_maximal_wasmi_linker`. -/
def maximalLinker (H : HostVer) : Res Linker := defineAll (fun _ => true) H.fns []

/-- The type a host function is defined with (vm/dispatch.rs:207-208). -/
def fnTy (f : HostFn) : ExternTy := .func (List.replicate f.arity .i64) [.i64]

/-- `wasmi::Linker::instantiate`, the resolution of the imports: each must be defined, with its type. Both errors become
(WasmVm, InvalidAction) in soroban-env-common/src/error.rs:271. -/
def resolve (l : Linker) : List Import → Res Unit
  | [] => .ok ()
  | i :: rest =>
    match l.find? (fun f => f.modName = i.modName ∧ f.name = i.name) with
    | some f => if fnTy f = i.ty then resolve l rest else .error (.host .wasmVm .invalidAction)
    | none => .error (.host .wasmVm .invalidAction)

/-- vm.rs:87-94 `Vm`: the contract it runs for and its module. -/
structure Vm where
  contract : Nat
  module : Parsed
  deriving DecidableEq, Repr

/-- vm.rs:155-187 `instantiate_wasmi`; the fuel and the memory export are left out. -/
def instantiateWasmi {W : Type} (X : Ext W) (H : HostVer) (ledger : Nat) (p : Parsed) (l : Linker) : M Unit :=
  .bind (.charge (chargeInst p.costs)) fun _ =>
  .bind (checkImports H ledger p) fun _ =>
  .bind (.lift (resolve l p.module.imports)) fun _ =>
  .bind (.lift (X.alloc p.module)) fun _ =>
  if p.module.start then .lift (.error (.host .wasmVm .invalidAction)) else .ok ()

/-- host.rs:572-605 `check_ledger_protocol_supported`. -/
def checkLedger (H : HostVer) (ledger : Nat) : Res Unit :=
  if ledger < H.env.protocol then .error (.host .context .internalError)
  else if ledger > H.env.protocol then .error (.host .context .internalError)
  else .ok ()

/-- vm.rs:191-218 `from_parsed_module_and_wasmi_linker`. -/
def fromParsed {W : Type} (X : Ext W) (H : HostVer) (ledger contract : Nat) (p : Parsed) (l : Linker) : M Vm :=
  .bind (.lift (checkLedger H ledger)) fun _ =>
  .bind (instantiateWasmi X H ledger p l) fun _ =>
  .ok ⟨contract, p⟩

/-- vm.rs:246-257 `new_with_cost_inputs`. -/
def newWithCosts {W : Type} (X : Ext W) (H : HostVer) (ledger contract : Nat) (w : W) (c : Costs) : M Vm :=
  .bind (parsedNew X H.env ledger w c) fun p =>
  .bind (minimalLinker H p.module) fun l =>
  fromParsed X H ledger contract p l

/-- vm.rs:239-244 `Vm::new`. -/
def newVm {W : Type} (X : Ext W) (H : HostVer) (ledger contract : Nat) (w : W) : M Vm :=
  newWithCosts X H ledger contract w (.v0 (X.len w))

/-! ### Cost inputs -/

/-- The accumulators of vm/parsed_module.rs:542-559. -/
structure Acc where
  costs : CostInputs
  elements : Nat
  memory : Nat
  deriving DecidableEq, Repr

/-- vm/parsed_module.rs:542-559. -/
def Acc.zero : Acc := ⟨⟨0, 0, 0, 0, 0, 0, 0, 0, 0, 0⟩, 0, 0⟩

/-- (WasmVm, InvalidInput): `invalid_input` of vm/parsed_module.rs:535, and what soroban-env-common/src/error.rs:276-280 makes
of an error of the reader. -/
def invalidInput {α : Type} : Res α := .error (.host .wasmVm .invalidInput)

/-- `ctx.map_err` on an item of a reader. -/
def item {α : Type} : Option α → Res α
  | some a => .ok a
  | none => invalidInput

/-- vm/parsed_module.rs:714-736 `check_const_expr_simple`. -/
def checkConst : ConstExpr → Res Unit
  | [] => .ok ()
  | some .simple :: rest => checkConst rest
  | _ :: _ => invalidInput

/-- The same for an optional expression. -/
def checkConst? : Option ConstExpr → Res Unit
  | some e => checkConst e
  | none => .ok ()

/-- A loop over the items of a section. -/
def forItems {α β : Type} (f : β → α → Res β) : List (Option α) → β → Res β
  | [], b => .ok b
  | x :: rest, b => do
    let a ← item x
    let b ← f b a
    forItems f rest b

/-- vm/parsed_module.rs:590-612, one memory. -/
def addMemory (a : Acc) (m : MemTy) : Res Acc :=
  if m.memory64 then invalidInput
  else if m.shared then invalidInput
  else if m.initial * pageSize > u32Max then invalidInput
  else .ok { a with memory := satAdd a.memory (m.initial * pageSize) }

/-- vm/parsed_module.rs:620-631, one table. -/
def addTable (a : Acc) (t : TableTy) : Res Acc := do
  checkConst? t.init
  .ok { a with costs := { a.costs with nTableEntries := satAdd a.costs.nTableEntries t.initial } }

/-- vm/parsed_module.rs:633-637, one global. -/
def addGlobal (a : Acc) (e : ConstExpr) : Res Acc := do
  checkConst e
  .ok a

/-- vm/parsed_module.rs:642-663, one element segment. -/
def addElem (a : Acc) (e : Elem) : Res Acc := do
  checkConst? e.offset
  match e.items with
  | .inl n => .ok { a with elements := satAdd a.elements n }
  | .inr l => forItems addGlobal l { a with elements := satAdd a.elements l.length }

/-- vm/parsed_module.rs:667-685, one data segment. -/
def addData (a : Acc) (d : Data) : Res Acc :=
  if d.len > u32Max then invalidInput
  else do
    checkConst? d.offset
    .ok { a with costs := { a.costs with nDataSegmentBytes := satAdd a.costs.nDataSegmentBytes d.len } }

/-- vm/parsed_module.rs:562-694, one section. -/
def addSection (a : Acc) : Payload → Res Acc
  | .ignored => .ok a
  | .unsupported => invalidInput
  | .memories l => forItems addMemory l a
  | .types n => .ok { a with costs := { a.costs with nTypes := satAdd a.costs.nTypes n } }
  | .imports n => .ok { a with costs := { a.costs with nImports := satAdd a.costs.nImports n } }
  | .functions n => .ok { a with costs := { a.costs with nFunctions := satAdd a.costs.nFunctions n } }
  | .tables l => forItems addTable l a
  | .globals l => forItems addGlobal l { a with costs := { a.costs with nGlobals := satAdd a.costs.nGlobals l.length } }
  | .exports n => .ok { a with costs := { a.costs with nExports := satAdd a.costs.nExports n } }
  | .elems l =>
    forItems addElem l { a with costs := { a.costs with nElemSegments := satAdd a.costs.nElemSegments l.length } }
  | .datas l =>
    forItems addData l { a with costs := { a.costs with nDataSegments := satAdd a.costs.nDataSegments l.length } }
  | .code ops => do
    let n ← item ops
    .ok { a with costs := { a.costs with nInstructions := satAdd a.costs.nInstructions n } }

/-- vm/parsed_module.rs:529-712 `extract_refined_contract_cost_inputs`. -/
def extractCosts {W : Type} (X : Ext W) (w : W) : Res CostInputs :=
  if X.isCore w then do
    let a ← forItems addSection (X.payloads w) .zero
    if a.costs.nDataSegmentBytes > a.memory then invalidInput
    else if a.elements > a.costs.nTableEntries then invalidInput
    else .ok a.costs
  else invalidInput

/-! ### Memory a module takes -/

/-- budget.rs:1325-1333 and 226-233 `get_memory_cost`, with budget/dimension.rs:212-219 `get_cost`. -/
def getMemoryCost (d : Budget.Dim) (ty : Nat) (input : Option Nat) : Res Nat := do
  let m ← d.costModel ty
  .ok (m.evaluate 1 input)

/-- vm/parsed_module.rs:165-205: the repeated step of `wasm_module_memory_cost`. `ix` numbers the cost types as the XDR enum
does. -/
def addMemoryCosts (ix : CostTy → Nat) (d : Budget.Dim) : Nat → List (CostTy × Nat) → Res Nat
  | res, [] => .ok res
  | res, (ty, n) :: rest => do
    let c ← getMemoryCost d (ix ty) (some n)
    addMemoryCosts ix d (satAddU64 res c) rest

/-- vm/parsed_module.rs:155-210 `wasm_module_memory_cost`. -/
def moduleMemoryCost (ix : CostTy → Nat) (d : Budget.Dim) : Costs → Res Nat
  | .v0 len => getMemoryCost d (ix .vmInstantiation) (some len)
  | .v1 c => addMemoryCosts ix d 0
      [(.parseInstructions, c.nInstructions), (.parseFunctions, c.nFunctions), (.parseGlobals, c.nGlobals),
       (.parseTableEntries, c.nTableEntries), (.parseTypes, c.nTypes), (.parseDataSegments, c.nDataSegments),
       (.parseElemSegments, c.nElemSegments), (.parseImports, c.nImports), (.parseExports, c.nExports),
       (.parseDataSegmentBytes, c.nDataSegmentBytes)]

/-- e2e_invoke.rs:427-443 `entry_size_for_rent`: `code` is given for a code entry. -/
def entrySizeForRent (ix : CostTy → Nat) (d : Budget.Dim) (code : Option Costs) (xdrSize : Nat) : Res Nat := do
  let mem ← match code with
    | some c => do
      let m ← moduleMemoryCost ix d c
      .ok (min m u32Max)
    | none => .ok 0
  .ok (satAdd xdrSize mem)

/-- A list of charges put to a budget, stopping at the first that fails; the charge for a set of symbols is not among them. -/
def chargeAll (ix : CostTy → Nat) : Budget.B → List Charge → Budget.B × Res Unit
  | b, [] => (b, .ok ())
  | b, .cost ty n :: rest =>
    match b.charge (ix ty) 1 n with
    | (b, .ok ()) => chargeAll ix b rest
    | (b, .error e) => (b, .error e)
  | b, .symbols _ :: rest => chargeAll ix b rest

/-! ### Upload -/

/-- host/lifecycle.rs:329-364 in `upload_contract_wasm`: the checks made before the code is stored, and the cost inputs stored
with it. -/
def uploadCheck {W : Type} (X : Ext W) (H : HostVer) (ledger : Nat) (w : W) : M CostInputs :=
  if X.len w > u32Max then .lift (.error (.host .value .exceededLimit))
  else
    .bind (newVm X H ledger (X.sha w) w) fun vm =>
    .bind (.charge (chargeParsing vm.module.costs)) fun _ =>
    .lift (extractCosts X w)

/-! ### The module cache -/

/-- vm/module_cache.rs:21-25 `ModuleCache`: its linker, and its modules by hash. -/
structure Cache where
  linker : Linker
  modules : Nat → Option Parsed

/-- vm/module_cache.rs:86-96 `ModuleCache::new`. -/
def Cache.new (H : HostVer) : Res Cache := do
  let l ← maximalLinker H
  .ok ⟨l, fun _ => none⟩

/-- vm/module_cache.rs:175-177 in `parse_and_cache_module`: whether the module has to be parsed. -/
def Cache.startAdd (c : Cache) (hash : Nat) : Bool := (c.modules hash).isNone

/-- vm/module_cache.rs:178-189 in `parse_and_cache_module`: the lock is not held between this and the check. -/
def Cache.finishAdd {W : Type} (X : Ext W) (H : HostVer) (c : Cache) (ledger hash : Nat) (w : W) (costs : Costs) :
    Cache × Res Unit :=
  match (parsedNew X H.env ledger w costs).res with
  | .ok p => ({ c with modules := fun k => if k = hash then some p else c.modules k }, .ok ())
  | .error e => (c, .error e)

/-- vm/module_cache.rs:167-190 `parse_and_cache_module`, run without interruption. -/
def Cache.add {W : Type} (X : Ext W) (H : HostVer) (c : Cache) (ledger hash : Nat) (w : W) (costs : Costs) : Cache × Res Unit :=
  if c.startAdd hash then c.finishAdd X H ledger hash w costs else (c, .ok ())

/-- vm/module_cache.rs:147-165 `parse_and_cache_module_simple`. -/
def Cache.addSimple {W : Type} (X : Ext W) (H : HostVer) (c : Cache) (ledger : Nat) (w : W) : Cache × Res Unit :=
  match extractCosts X w with
  | .ok ci => c.add X H ledger (X.sha w) w (.v1 ci)
  | .error e => (c, .error e)

/-- vm/module_cache.rs:204-206 `remove_module`. -/
def Cache.remove (c : Cache) (hash : Nat) : Cache := { c with modules := fun k => if k = hash then none else c.modules k }

/-- vm/module_cache.rs:208-210 `clear`. -/
def Cache.clear (c : Cache) : Cache := { c with modules := fun _ => none }

/-- host/data_helper.rs:139-166 `retrieve_wasm_from_storage`: a stored code entry has its cost inputs or, if it was stored by
an old protocol, none. -/
def retrieve {W : Type} (X : Ext W) (code : Nat → Res (Option (W × Option CostInputs))) (hash : Nat) : Res (W × Costs) := do
  match ← code hash with
  | some (w, some ci) => .ok (w, .v1 ci)
  | some (w, none) => .ok (w, .v0 (X.len w))
  | none => .error (.host .storage .missingValue)

/-- host/frame.rs:981-1091 `instantiate_vm`. `cache` is the module cache, if one is set; `live` is given in recording mode and
says whether the code entry is live in the snapshot (storage.rs:705-734); `code` reads a code entry from the storage. -/
def instantiateVm {W : Type} (X : Ext W) (H : HostVer) (ledger : Nat) (cache : Option Cache) (live : Option (Nat → Bool))
    (code : Nat → Res (Option (W × Option CostInputs))) (contract hash : Nat) : M Vm :=
  let direct : M Vm :=
    .bind (.lift (retrieve X code hash)) fun (w, c) => newWithCosts X H ledger contract w c
  let recording : M Vm :=
    match live with
    | some lv =>
      if lv hash then
        .bind (.shadow (.bind (.lift (retrieve X code hash)) fun (w, _) =>
          .bind (.lift (extractCosts X w)) fun ci =>
          .bind (parsedNew X H.env ledger w (.v1 ci)) fun p =>
          .bind (minimalLinker H p.module) fun l => .ok (p, l))) fun (p, l) =>
        fromParsed X H ledger contract p l
      else direct
    | none => direct
  match cache with
  | some ch =>
    .bind (.lift (code hash)) fun e =>
    match e with
    | some _ =>
      match ch.modules hash with
      | some p => fromParsed X H ledger contract p ch.linker
      | none => recording
    | none => recording
  | none => recording

/-- vm/dispatch.rs:219-220: the guards at the start of every dispatch function, with host.rs:1113-1143. -/
def dispatchGuard (ledger : Nat) (f : HostFn) : Res Unit := do
  match f.minProto with
  | some lo => if ledger < lo then .error (.host .context .indexBounds) else .ok ()
  | none => .ok ()
  match f.maxProto with
  | some hi => if ledger > hi then .error (.host .context .indexBounds) else .ok ()
  | none => .ok ()

end Soroban.Wasm
