import Verif.Spec.Host
/-!
Specification of C92: when `require_auth` succeeds. `uses` is the record of the nodes of the signed trees that were used so far and not
given back by a failed call; `frames` are the numbers of the frames that are running, the current one first (see C27).
-/
namespace Soroban.Host.Spec
open Soroban Soroban.Auth Soroban.Storage Soroban.Host

/-- The node of an entry at a path was used. -/
def Taken (uses : List Use) (i : Nat) (p : List Nat) : Prop := ∃ u ∈ uses, u.entry = i ∧ u.path = p

/-- A node of the entry was used by the current frame itself. -/
def Done (uses : List Use) (frames : List Nat) (i : Nat) : Prop := ∃ u ∈ uses, u.entry = i ∧ u.frames = frames

/-- The root of the entry was used by a frame that is still running. -/
def InUse (uses : List Use) (frames : List Nat) (i : Nat) : Prop := ∃ u ∈ uses, u.entry = i ∧ u.path = [] ∧ u.frames <:+ frames

/-- The use of a node of the entry by the innermost frame that is still running and has used one. -/
def Nearest (uses : List Use) (frames : List Nat) (i : Nat) (u : Use) : Prop :=
  u ∈ uses ∧ u.entry = i ∧ u.frames <:+ frames ∧ ∀ v ∈ uses, v.entry = i → v.frames <:+ frames → v.frames <:+ u.frames

/-- The node of entry `i` that is next for a function: the root if nothing of the entry was used; or the first child, for this function and
not used, of the node that was used by the innermost frame. A frame uses one node of an entry. -/
inductive Offers (o : Acct) (uses : List Use) (frames : List Nat) (i : Nat) (f : AuthFn) : List Nat → Prop
  | root : (∀ u ∈ uses, u.entry ≠ i) → o.tr.root.fn = f → Offers o uses frames i f []
  | below {u : Use} {j : Nat} {n : Inv} : Nearest uses frames i u → ¬ Done uses frames i → o.tr.root.at? (u.path ++ [j]) = some n →
      n.fn = f → ¬ Taken uses i (u.path ++ [j]) →
      (∀ k < j, ∀ n', o.tr.root.at? (u.path ++ [k]) = some n' → n'.fn = f → Taken uses i (u.path ++ [k])) →
      Offers o uses frames i f (u.path ++ [j])

/-- `o` is the signed entry at index `i`, for address `a`, and is not just now being authenticated. -/
def Stands (orig : List Acct) (s : Host) (a : Addr) (i : Nat) (o : Acct) : Prop :=
  orig[i]? = some o ∧ o.addr = a ∧ ∀ t, s.auth.accts[i]? = some t → t.borrowed = false

/-- No entry of the address is in use, except by the current frame itself; otherwise no new entry of the address is begun. -/
def RootsOpen (orig : List Acct) (s : Host) (a : Addr) : Prop :=
  ∀ i o, Stands orig s a i o → InUse s.auth.uses s.auth.ids i → Done s.auth.uses s.auth.ids i

/-- Entry `i` has a node for a call of function `f`. -/
def Candidate (orig : List Acct) (s : Host) (a : Addr) (f : AuthFn) (i : Nat) (p : List Nat) : Prop :=
  ∃ o, Stands orig s a i o ∧ Offers o s.auth.uses s.auth.ids i f p ∧ (p = [] → RootsOpen orig s a)

/-- The first entry that has one. -/
def Chosen (orig : List Acct) (s : Host) (a : Addr) (f : AuthFn) (i : Nat) (p : List Nat) : Prop :=
  Candidate orig s a f i p ∧ ∀ j < i, ∀ q, ¬ Candidate orig s a f j q

/-- The contract that called the current frame is the address. -/
def CalledBy (s : Host) (a : Addr) : Prop := s.auth.stack.tail.head?.bind Frame.contract? = some a

/-- A contract below on the stack, which is not the current one, has authorized this function in its own name for the calls of the frame
it called: a node of what it listed is for this function, is not used, can be matched, and the frame has not used another one. -/
def ContractGrant (s : Host) (a : Addr) (f : AuthFn) : Prop :=
  2 ≤ s.auth.stack.length ∧ s.auth.stack.head?.bind Frame.contract? ≠ some a ∧ ∃ t ∈ s.auth.invokers, t.addr = a ∧
    t.tr.topMatched = false ∧ ∃ p n, Matchable t.tr p ∧ t.tr.root.at? p = some n ∧ n.used = false ∧ n.fn = f

/-- A transaction can access a key: it has declared it, or the footprint is being recorded. -/
def CanAccess (s : Host) (k : LKey) (ty : Access) : Prop := s.st.mode = .enforcing → Storage.Spec.allows s.st.footprint k ty = true

/-- A nonce can be used until ledger `l`: that is not over, and not beyond the maximum lifetime of entries; nobody has used it; and the
transaction may write it. -/
structure NonceFree (E : HEnv) (s : Host) (a : Addr) (n : Int) (l : Nat) : Prop where
  started : E.sto.li.seq ≤ l
  bounded : ∃ mx, E.sto.li.maxLiveUntil = some mx ∧ l ≤ mx
  temporary : (E.sto.li.minLiveUntil .temporary).isSome = true
  unused : visible E s (.nonce a n) = none
  declared : CanAccess s (.nonce a n) .readWrite

/-- The entry at index `i` is authentic, `s` being the host once the node has been marked as used, and `check` the code of `__check_auth`:
it has been found to be so before; or it is the one of the source account of the transaction; or the account there is accepts its
signatures, or `__check_auth` of the contract returns nothing, and then its nonce can be used. -/
inductive Authentic (E : HEnv) (s : Host) (i : Nat) (t : Acct) (check : Host → Host × Res RVal) : Prop
  | before : t.verified = true → Authentic E s i t check
  | source : t.source = true → Authentic E s i t check
  | account {id : Nat} {v : LVal} {lu : Option Nat} {n : Int} {l : Nat} : t.addr = .account id → CanAccess s (.account id) .readOnly →
      visible E s (.account id) = some (v, lu) → E.accountCheck i v = .ok () → t.nonce = some (n, l) → NonceFree E s t.addr n l →
      Authentic E s i t check
  | contract {id : Nat} {s' : Host} {n : Int} {l : Nat} : t.addr = .contract id →
      callN E s id checkAuthName .selfAllowed true check = (s', .ok .void) → t.nonce = some (n, l) → NonceFree E s' t.addr n l →
      Authentic E s i t check

/-- The host once the node at path `p` of the entry at index `i`, which is `t`, has been marked as used, and the entry as being
authenticated. -/
def matched (s : Host) (i : Nat) (t : Acct) (p : List Nat) (a : Addr) (f : AuthFn) : Host :=
  { s with auth := s.auth.recordMatch i (t.tr.extend f true).1 p a f }

/-- An authorization entry authorizes the call. -/
def EntryGrant (E : HEnv) (orig : List Acct) (s : Host) (a : Addr) (f : AuthFn) (check : Nat → Host → Host × Res RVal) : Prop :=
  ∃ i p t, Chosen orig s a f i p ∧ s.auth.accts[i]? = some t ∧ Authentic E (matched s i t p a f) i t (check i)

end Soroban.Host.Spec
