import Verif.Spec.Host
/-!
What a contract can rely on for C98: its functions run as if nothing else had access to its data while they run.

`Own` is the data of one contract. `Alone c p d d'` says what the code `p` of contract `c` does to this data when it is read by
itself, one host function after the other: functions of other contracts can return anything and do not touch the data.
`OneByOne` is any number of runs of functions of the contract, one after the other.
-/
namespace Soroban.Host.Spec
open Soroban Soroban.Auth Soroban.Host
open Soroban.Storage (Durability Out)
open Soroban.Storage.Spec (Ledger)

/-- The data of a contract: the values of its temporary and persistent entries, and its instance storage. -/
structure Own where
  entries : DKey → Durability → Option LVal
  inst : Nat → Option Nat

/-- The transaction can read the entry: it has declared it, or is being recorded. -/
def declared (s : Host) (k : LKey) : Bool :=
  match s.st.mode with
  | .recording _ => true
  | .enforcing => (s.st.footprint.get k).isSome

/-- The instance storage of a contract in a ledger. -/
def instOf (L : Ledger LKey LVal) (c : Nat) : Option (FMap Nat Nat) :=
  match L (.inst c) with
  | some (.inst _ m, _) => some m
  | _ => none

/-- The data of contract `c` at some point of a transaction. What the transaction has not declared, it neither sees nor changes:
there the data is that of the ledger `B`. -/
def own (E : HEnv) (B : Ledger LKey LVal) (s : Host) (c : Nat) : Own :=
  { entries := fun k d =>
      (if declared s (.data (.contract c) k d) then visible E s (.data (.contract c) k d) else B (.data (.contract c) k d)).map Prod.fst
    inst := fun k => ((instView E s c).or (instOf B c)).bind (fun m => m.get k) }

/-- At the start of a transaction contract `c` exists, or its instance is not among what the transaction sees, so that it cannot be
called. -/
def There (E : HEnv) (st : Storage.Store LKey LVal) (orig : List Acct) (c : Nat) : Prop :=
  (∃ ex m l, visible E (Host.init st orig) (.inst c) = some (.inst ex m, l)) ∨
  (visible E (Host.init st orig) (.inst c) = none ∧ declared (Host.init st orig) (.inst c) = false)

/-- The functions that read, write and delete contract data. -/
def Touches : DataOp → Prop
  | .get _ _ | .has _ _ | .put _ _ _ | .del _ _ => True
  | _ => False

/-- What the storage functions do to the data of the contract that uses them, and what they return. The lifetime that comes with an
entry, and the results of the functions that do not look at this data, are left open. -/
inductive DataStep (d : Own) : DataOp → Own → Out LVal → Prop
  | get {k : DKey} {u : Durability} {v : LVal} {l : Option Nat} : d.entries k u = some v → DataStep d (.get k u) d (.entry (v, l))
  | has {k : DKey} {u : Durability} : DataStep d (.has k u) d (.bool (d.entries k u).isSome)
  | put {k : DKey} {v : Nat} {u : Durability} : DataStep d (.put k v u)
      { d with entries := fun k' u' => if k' = k ∧ u' = u then some (.data v) else d.entries k' u' } .unit
  | del {k : DKey} {u : Durability} : DataStep d (.del k u)
      { d with entries := fun k' u' => if k' = k ∧ u' = u then none else d.entries k' u' } .unit
  | other {o : DataOp} {r : Out LVal} : ¬ Touches o → DataStep d o d r

/-- The same for instance storage. -/
inductive InstStep (d : Own) : InstOp → Own → Out LVal → Prop
  | get {k v : Nat} : d.inst k = some v → InstStep d (.get k) d (.entry (.data v, none))
  | has {k : Nat} : InstStep d (.has k) d (.bool (d.inst k).isSome)
  | put {k v : Nat} : InstStep d (.put k v) { d with inst := fun k' => if k' = k then some v else d.inst k' } .unit
  | del {k : Nat} : InstStep d (.del k) { d with inst := fun k' => if k' = k then none else d.inst k' } .unit

/-- The code `p` of contract `c`, read by itself, can take the data of the contract from the first to the second and end without
failing. Its own `__check_auth` is the only other code that can run on its data meanwhile, and only where it asks for an
authorization by its own address. -/
inductive Alone (c : Nat) : Prog → Own → Own → Prop
  | ret {v : RVal} {d : Own} : Alone c (.ret v) d d
  | data {o : DataOp} {next : Out LVal → Prog} {d d1 d2 : Own} {r : Out LVal} : DataStep d o d1 r → Alone c (next r) d1 d2 →
      Alone c (.data o next) d d2
  | inst {o : InstOp} {next : Out LVal → Prog} {d d1 d2 : Own} {r : Out LVal} : InstStep d o d1 r → Alone c (next r) d1 d2 →
      Alone c (.inst o next) d d2
  | event {e : Nat} {next : Prog} {d d' : Own} : Alone c next d d' → Alone c (.event e next) d d'
  | auth {a : Addr} {args : List Nat} {check : Nat → Prog} {next : Prog} {d d' : Own} : Alone c next d d' →
      Alone c (.auth a args check next) d d'
  | selfAuth {args : List Nat} {check : Nat → Prog} {next : Prog} {i : Nat} {d d1 d2 : Own} : Alone c (check i) d d1 →
      Alone c next d1 d2 → Alone c (.auth (.contract c) args check next) d d2
  | authAs {es : List Inv} {next : Prog} {d d' : Own} : Alone c next d d' → Alone c (.authAs es next) d d'
  | call {id : Nat} {fn : Name} {body : Prog} {next : RVal → Prog} {v : RVal} {d d' : Own} : id ≠ c → Alone c (next v) d d' →
      Alone c (.call id fn body next) d d'
  | tryCall {id : Nat} {fn : Name} {body : Prog} {next : RVal → Prog} {v : RVal} {d d' : Own} :
      (id = c → ∃ e, v = .err e) → Alone c (next v) d d' → Alone c (.tryCall id fn body next) d d'
  | create {dep : Option Addr} {args : CreateArgs} {check : Nat → Prog} {ctor : Prog} {next : RVal → Prog} {v : RVal}
      {d d' : Own} : Alone c (next v) d d' → Alone c (.create dep args check ctor next) d d'
  | selfCreate {args : CreateArgs} {check : Nat → Prog} {ctor : Prog} {next : RVal → Prog} {v : RVal} {i : Nat} {d d1 d2 : Own} :
      Alone c (check i) d d1 → Alone c (next v) d1 d2 → Alone c (.create (some (.contract c)) args check ctor next) d d2
  | update {ex : Exec} {next : Prog} {d d' : Own} : Alone c next d d' → Alone c (.update ex next) d d'
  | upload {h w : Nat} {next : Prog} {d d' : Own} : Alone c next d d' → Alone c (.upload h w next) d d'

/-- Functions of contract `c`, with code in `Code`, have been run one after the other, each to its end. -/
inductive OneByOne (c : Nat) (Code : Name → Prog → Prop) : Own → Own → Prop
  | nil {d : Own} : OneByOne c Code d d
  | cons {fn : Name} {p : Prog} {d d1 d2 : Own} : Code fn p → Alone c p d d1 → OneByOne c Code d1 d2 → OneByOne c Code d d2

/-- Wherever contract `c` is called in the code `p`, or in the code that `p` calls, the code that is run is some of its code. -/
def Calls (c : Nat) (Code : Name → Prog → Prop) : Prog → Prop
  | .ret _ => True
  | .fail _ => True
  | .data _ next => ∀ r, Calls c Code (next r)
  | .inst _ next => ∀ r, Calls c Code (next r)
  | .event _ next => Calls c Code next
  | .auth a _ check next => (∀ i, Calls c Code (check i) ∧ (a = .contract c → Code checkAuthName (check i))) ∧ Calls c Code next
  | .authAs _ next => Calls c Code next
  | .call id fn body next => Calls c Code body ∧ (id = c → Code fn body) ∧ ∀ v, Calls c Code (next v)
  | .tryCall id fn body next => Calls c Code body ∧ (id = c → Code fn body) ∧ ∀ v, Calls c Code (next v)
  | .create dep _ check ctor next => (∀ i, Calls c Code (check i) ∧ (dep = some (.contract c) → Code checkAuthName (check i))) ∧
      Calls c Code ctor ∧ ∀ v, Calls c Code (next v)
  | .update _ next => Calls c Code next
  | .upload _ _ next => Calls c Code next

/-- The same for what a transaction asks for. -/
def Asks (c : Nat) (Code : Name → Prog → Prop) : HostFn → Prop
  | .invoke id fn body => Calls c Code body ∧ (id = c → Code fn body)
  | .create dep _ check ctor => (∀ i, Calls c Code (check i) ∧ (dep = some (.contract c) → Code checkAuthName (check i))) ∧ Calls c Code ctor
  | .upload _ _ => True

/-- The function that is called when a contract has been created. -/
def ctorNameOf (args : CreateArgs) : Name := if args.fromAsset then initAssetName else constructorName

/-- The contract that is created. -/
def newOf (E : HEnv) (args : CreateArgs) : Nat := E.newId args.preimage args.fromAsset

/-- Wherever the contract is created in the code `p`, or in the code that `p` calls (with arguments in `new`), the code that is run first
is some of its code. -/
def Births (new : CreateArgs → Prop) (Code : Name → Prog → Prop) : Prog → Prop
  | .ret _ => True
  | .fail _ => True
  | .data _ next => ∀ r, Births new Code (next r)
  | .inst _ next => ∀ r, Births new Code (next r)
  | .event _ next => Births new Code next
  | .auth _ _ check next => (∀ i, Births new Code (check i)) ∧ Births new Code next
  | .authAs _ next => Births new Code next
  | .call _ _ body next => Births new Code body ∧ ∀ v, Births new Code (next v)
  | .tryCall _ _ body next => Births new Code body ∧ ∀ v, Births new Code (next v)
  | .create _ args check ctor next => (∀ i, Births new Code (check i)) ∧ (new args → Code (ctorNameOf args) ctor) ∧
      Births new Code ctor ∧ ∀ v, Births new Code (next v)
  | .update _ next => Births new Code next
  | .upload _ _ next => Births new Code next

/-- The same for what a transaction asks for. -/
def Bears (new : CreateArgs → Prop) (Code : Name → Prog → Prop) : HostFn → Prop
  | .invoke _ _ body => Births new Code body
  | .create _ args check ctor => (∀ i, Births new Code (check i)) ∧ (new args → Code (ctorNameOf args) ctor) ∧ Births new Code ctor
  | .upload _ _ => True

end Soroban.Host.Spec
