import Verif.Model.Host
import Verif.Spec.Storage
/-!
What calls and authorizations should do (C22-C29): the states in which code runs during a transaction, which errors end a
transaction, what re-entrancy is, and how the ledger goes from one transaction to the next.
-/
namespace Soroban.Host.Spec
open Soroban Soroban.Auth Soroban.Host
open Soroban.Storage (Store Entry)
open Soroban.Storage.Spec (Start Ledger absMap)

/-- Authorization entries as a transaction has them: nothing matched, nothing verified. -/
structure Fresh (orig : List Acct) : Prop where
  tr : ∀ a ∈ orig, ∃ r : Inv, a.tr = Tracker.new r ∧ ∀ p n, r.at? p = some n → n.used = false
  unverified : ∀ a ∈ orig, a.verified = false
  unborrowed : ∀ a ∈ orig, a.borrowed = false

/-- The inputs of a transaction: storage about to be used (in enforcing or in recording mode) and fresh authorization entries. -/
structure TxStart (E : HEnv) (st : Store LKey LVal) (orig : List Acct) : Prop where
  keys : E.sto.keys = keysOf
  store : ∃ m, Start E.sto m ∧ m.st = st
  auth : Fresh orig

/-- The ledger as contracts see it in a state of the host. -/
def visible (E : HEnv) (s : Host) : Ledger LKey LVal := absMap E.sto s.st.mode s.st.map

/-- The contract whose code is running. -/
def topContract (cs : List Ctx) : Option Nat := (cs.filterMap Ctx.cid).head?

/-- The same entry, with a lifetime that may be longer. -/
def Longer (e e' : Option (Entry LVal)) : Prop :=
  (e = none ∧ e' = none) ∨ ∃ v l l', e = some (v, l) ∧ e' = some (v, l') ∧ ∀ n, l = some n → ∃ n', l' = some n' ∧ n ≤ n'

/-- The entries of contract `c` are as they were: its data entries exactly; its executable tags and its instance up to a longer
lifetime; and if it had no instance, it has none, or a new one with an empty storage. -/
structure Kept (c : Nat) (L L' : Ledger LKey LVal) : Prop where
  data : ∀ n d, L' (.data (.contract c) (.val n) d) = L (.data (.contract c) (.val n) d)
  tag : ∀ n d, Longer (L (.data (.contract c) (.tag n) d)) (L' (.data (.contract c) (.tag n) d))
  inst : ∀ ex m l, L (.inst c) = some (.inst ex m, l) →
    ∃ l', L' (.inst c) = some (.inst ex m, l') ∧ ∀ n, l = some n → ∃ n', l' = some n' ∧ n ≤ n'
  none : L (.inst c) = none → L' (.inst c) = none ∨ ∃ ex l, L' (.inst c) = some (.inst ex [], l)

/-- No frame of contract `c` was entered between the states `s` and `s'` (`trace` has the stack after each frame was entered). -/
def NotEntered (c : Nat) (s s' : Host) : Prop :=
  ∃ new, s'.trace = new ++ s.trace ∧ ∀ t ∈ new, ∀ fn, t.head? ≠ some (some c, fn)

/-- The instance storage as a frame has it: its own copy once it has been used in that frame, what was in the ledger when the
frame was added otherwise. -/
def Ctx.contents (c : Ctx) : FMap Nat Nat :=
  match c.storage with
  | some (m, _) => m
  | none => c.inst

/-- Whether the copy has changes that may not be in the ledger. -/
def Ctx.changed (c : Ctx) : Bool :=
  match c.storage with
  | some (_, b) => b
  | none => false

/-- The frames of a contract, the top one first. -/
def framesOf (c : Nat) (cs : List Ctx) : List Ctx := cs.filter (fun d => d.cid == some c)

/-- The instance storage of contract `c` at some point of a transaction: that of its topmost frame if it is on the stack, that of
the ledger otherwise. -/
def instView (E : HEnv) (s : Host) (c : Nat) : Option (FMap Nat Nat) :=
  match framesOf c s.ctx with
  | f :: _ => some (Ctx.contents f)
  | [] => match visible E s (.inst c) with
    | some (.inst _ m, _) => some m
    | _ => none

/-- Contracts that exist have the same instance storage. -/
def Unchanged (E : HEnv) (s s' : Host) : Prop := ∀ c m, instView E s c = some m → instView E s' c = some m

/-- The bottom frame of a transaction, which belongs to no contract. -/
def hostFrame : Ctx := { cid := none, fn := [], inst := [], storage := none }

/-- The contract has been found and its code loaded (see `callContractFn`). -/
inductive Loads (E : HEnv) (s : Host) (id : Nat) (inst : FMap Nat Nat) : Host → Prop
  | builtin {ex s1 s2} : getInstance E s id = (s1, .ok (ex, inst)) → wasmHash E s1 ex = (s2, .ok none) → Loads E s id inst s2
  | wasm {ex s1 s2 h s3} : getInstance E s id = (s1, .ok (ex, inst)) → wasmHash E s1 ex = (s2, .ok (some h)) →
      loadCode E s2 h = (s3, .ok ()) → Loads E s id inst s3

/-- The states in which the code of contracts runs during a transaction, and the states of the host in between. This allows
more states than can occur, for example calls at any time while a contract is being created. -/
inductive Reach (E : HEnv) (st : Store LKey LVal) (orig : List Acct) : Host → Prop
  /-- the transaction starts in the host function frame -/
  | start : Reach E st orig (pushContext (Host.init st orig) hostFrame).1
  /-- some code has been run in the current frame, without failing -/
  | ran {s s' : Host} {p : Prog} {v : RVal} : Reach E st orig s → run E p s = (s', .ok v) → Reach E st orig s'
  /-- a contract is called, or its constructor by the host -/
  | called {s s1 : Host} {id : Nat} {fn : Name} {inst : FMap Nat Nat} : Reach E st orig s → s.ctx.length < depthLimit →
      (∀ c ∈ s.ctx, c.cid ≠ some id) → (reserved fn = true → fn = constructorName) → Loads E s id inst s1 →
      Reach E st orig (pushContext s1 { cid := some id, fn := fn, inst := inst, storage := none }).1
  /-- `require_auth` has found a match in an entry and is about to authenticate its address -/
  | matched {s : Host} {a : Addr} {f : AuthFn} {root : Bool} {i : Nat} {tr : Tracker} {p : List Nat} : Reach E st orig s →
      acctLoop a f root s.auth.accts 0 = .ok (some (i, tr, p)) →
      Reach E st orig { s with auth := s.auth.recordMatch i tr p a f }
  /-- the host calls `__check_auth` of an account contract, which may be the current contract but not one below it -/
  | checking {s s1 s2 : Host} {id : Nat} {inst : FMap Nat Nat} {b : Bool} : Reach E st orig s → s.ctx.length < depthLimit →
      ((∀ c ∈ s.ctx, c.cid ≠ some id) ∧ s1 = s ∨ (s.ctx.filterMap Ctx.cid).head? = some id ∧ persist E s = (s1, .ok b)) →
      Loads E s1 id inst s2 →
      Reach E st orig (pushContext s2 { cid := some id, fn := checkAuthName, inst := inst, storage := none }).1
  /-- a contract is being created -/
  | creating {s : Host} {args : CreateArgs} : Reach E st orig s → Reach E st orig { s with auth := s.auth.push (.create args) }
  /-- its instance has been stored: its constructor has not been called yet -/
  | created {s s1 : Host} {id : Nat} {ex : Exec} : Reach E st orig s → createWithId E s id ex = (s1, .ok ()) → Reach E st orig s1
  /-- the host has looked up whether it can have a constructor -/
  | examined {s s1 : Host} {id : Nat} {b : Bool} : Reach E st orig s → supportsCtor E s id = (s1, .ok b) → Reach E st orig s1

/-- Errors that end the transaction: internal errors, exhausted budget, storage access outside of the footprint. -/
def Fatal : Err → Prop
  | .contract _ => False
  | .host t c => c = .internalError ∨ (c = .exceededLimit ∧ (t = .budget ∨ t = .storage))

/-- The stack, top first, never has a frame of a contract above another one of the same contract, with one exception: a frame
that the host has added to run `__check_auth` of the contract that was running. -/
def NoReentry (stack : List (Option Nat × Name)) : Prop :=
  ∀ above id fn below, stack = above ++ (some id, fn) :: below → some id ∈ below.map Prod.fst →
    fn = checkAuthName ∧ (below.filterMap Prod.fst).head? = some id

/-- Reserved functions on the stack are those that only the host calls. -/
def ReservedOk (stack : List (Option Nat × Name)) : Prop :=
  ∀ f ∈ stack, reserved f.2 = true → f.2 = checkAuthName ∨ f.2 = constructorName

/-- The node at path `p` of a tracker can be matched in the current frame: it is the root, and no enclosing frame has been
matched, or the node above it is the one matched by the closest enclosing frame. -/
def Matchable (t : Tracker) (p : List Nat) : Prop :=
  (p = [] ∧ walk t.stack.reverse t.root = .ok none) ∨ ∃ q i, p = q ++ [i] ∧ walk t.stack.reverse t.root = .ok (some q)

/-- Exactly one of the authorizations given by contracts has changed: it is for this address, and a node of it for this function,
which was unused and could be matched, is now used. -/
def InvokerMatch (a : Addr) (f : AuthFn) (before after : List Invoker) : Prop :=
  ∃ (k : Nat) (t t' : Invoker) (p : List Nat), before[k]? = some t ∧ after[k]? = some t' ∧ (∀ j, j ≠ k → after[j]? = before[j]?) ∧
    t.addr = a ∧ t'.addr = a ∧ Matchable t.tr p ∧ (∃ n : Inv, t.tr.root.at? p = some n ∧ n.used = false ∧ n.fn = f) ∧
    t'.tr.root = t.tr.root.use p

/-- An authorization entry whose address has been authenticated and whose nonce has been used. -/
structure Authenticated (E : HEnv) (before after : Ledger LKey LVal) (frames : List (List (Option Nat × Name))) (i : Nat) (a : Acct) : Prop where
  /-- the nonce was not in the ledger, and is there now until the signature expires or longer -/
  nonce : ∃ n l m, a.nonce = some (n, l) ∧ before (.nonce a.addr n) = none ∧ after (.nonce a.addr n) = some (.void, some m) ∧ l ≤ m
  /-- the signature has not expired, and does not last longer than the maximum lifetime of entries -/
  expiration : ∃ n l mx, a.nonce = some (n, l) ∧ E.sto.li.seq ≤ l ∧ E.sto.li.maxLiveUntil = some mx ∧ l ≤ mx
  /-- the check of the signatures of the account has succeeded -/
  account : ∀ id, a.addr = .account id → ∃ v, E.accountCheck i v = .ok ()
  /-- `__check_auth` of the contract has been run -/
  contract : ∀ id, a.addr = .contract id → ∃ t ∈ frames, t.head? = some (some id, checkAuthName)

/-! ### histories -/

/-- The ledger after the changes of a transaction: the entries of the footprint are replaced by those of the final storage map,
except that lifetimes may end up longer (`C39`). -/
def CommitTo (st : Store LKey LVal) (L L' : Ledger LKey LVal) : Prop :=
  ∀ k, if st.footprint.get k = none then L' k = L k else match st.map.get k with
    | none => L' k = L k
    | some none => L' k = none
    | some (some (v, none)) => L' k = some (v, none)
    | some (some (v, some l)) => ∃ l', L' k = some (v, some l') ∧ l ≤ l'

/-- A transaction in enforcing mode that is part of a history, with the ledger it runs on: the entries that are loaded are those
of the ledger as seen at that time. -/
structure Tx where
  E : HEnv
  st : Store LKey LVal
  orig : List Acct
  hf : HostFn

/-- What the transaction results in. -/
def Tx.result (t : Tx) : Host × Res RVal := invoke t.E (Host.init t.st t.orig) t.hf

structure Tx.On (t : Tx) (L : Ledger LKey LVal) : Prop where
  start : TxStart t.E t.st t.orig
  mode : t.st.mode = .enforcing
  reads : ∀ k e, t.st.map.get k = some e → e = Storage.Spec.view t.E.sto k (L k)

/-- Steps from ledger to ledger: transactions that succeed or fail, and temporary entries that are removed after they have
expired. -/
inductive Step (seq : Nat) : Option Tx → Ledger LKey LVal → Ledger LKey LVal → Prop
  | success {t : Tx} {L L' : Ledger LKey LVal} {v : RVal} : t.On L → t.E.sto.li.seq = seq → t.result.2 = .ok v →
      CommitTo t.result.1.st L L' → Step seq (some t) L L'
  | failure {L : Ledger LKey LVal} : Step seq none L L
  | expire {L : Ledger LKey LVal} {k : LKey} {v : LVal} {l : Nat} : keysOf.durability k = some .temporary → L k = some (v, some l) →
      l < seq → Step seq none L (L.set k none)

/-- A history: the sequence numbers of its steps do not decrease. -/
inductive History : List (Nat × Option Tx) → Ledger LKey LVal → Ledger LKey LVal → Prop
  | nil {L : Ledger LKey LVal} : History [] L L
  | cons {seq : Nat} {t : Option Tx} {rest : List (Nat × Option Tx)} {L L' L'' : Ledger LKey LVal} :
      Step seq t L L' → (∀ x ∈ rest, seq ≤ x.1) → History rest L' L'' → History ((seq, t) :: rest) L L''

/-- The transaction has used entry `i`, which is for address credentials with this address, nonce and expiration. -/
def Tx.Consumes (t : Tx) (i : Nat) (a : Addr) (n : Int) (l : Nat) : Prop :=
  ∃ o, t.orig[i]? = some o ∧ o.addr = a ∧ o.source = false ∧ o.nonce = some (n, l) ∧ ∃ u ∈ t.result.1.auth.uses, u.entry = i

end Soroban.Host.Spec
