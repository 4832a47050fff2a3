import Verif.Model.Delegates
import Mathlib.Data.List.Forall2
/-!
The delegated signers of an authorization entry as they are in the transaction, and what a history of delegated authentications
has to look like.
-/
namespace Soroban.Delegates.Spec
open Soroban Soroban.Auth Soroban.Delegates

/-- The address and signature at a path in a list of trees of signers: `[2, 0]` is the first signer nested in the third one. -/
def signerAt : List XDelegate → List Nat → Option (Addr × Nat)
  | _, [] => none
  | xs, i :: p =>
    match xs[i]? with
    | none => none
    | some (.mk a s n) => if p = [] then some (a, s) else signerAt n p

/-- The signers nested in the one at a path; those of the entry itself for the empty path. -/
def nestedAt : List XDelegate → List Nat → Option (List XDelegate)
  | xs, [] => some xs
  | xs, i :: p =>
    match xs[i]? with
    | none => none
    | some (.mk _ _ n) => nestedAt n p

/-- A history of delegated authentications, latest first, is right for the entries `orig` of a transaction if
- no signer of an entry is used twice,
- every one is a signer of the entry, with the address and the signature that are at its place in the tree,
- a signer nested in another one comes after that one, and
- accounts have authenticated the payload of the entry with that signature. -/
structure Right (E : DEnv) (orig : List (Option (List XDelegate))) (log : List Deleg) : Prop where
  once : log.Pairwise (fun l m => ¬ (l.entry = m.entry ∧ l.path = m.path))
  signer : ∀ l ∈ log, ∃ xs, orig[l.entry]? = some (some xs) ∧ signerAt xs l.path = some (l.addr, l.sig)
  nested : ∀ pre l post, log = pre ++ l :: post → ∀ q j, q ≠ [] → l.path = q ++ [j] →
    ∃ m ∈ post, m.entry = l.entry ∧ m.path = q
  accounts : ∀ l ∈ log, ∀ id, l.addr = .account id → E.account id (E.entry l.entry).payload l.sig = .ok ()

/-- The state at the start of a transaction with these entries. -/
structure Fresh (lt : Addr → Addr → Bool) (orig : List (Option (List XDelegate))) (s : DSt) : Prop where
  trackers : List.Forall₂ (fun o t => match o with
    | none => t = none
    | some xs => ∃ d, t = some d ∧ trackerFromXdr lt xs = .ok d) orig s.trackers
  verified : s.verified = orig.map (fun _ => false)
  frames : s.frames = []
  log : s.log = []

/-- An error that no contract can handle: one inside the host, or a limit of the budget or of the footprint. -/
inductive Final : Err → Prop where
  | internal (t : ErrTy) : Final (.host t .internalError)
  | budget : Final (.host .budget .exceededLimit)
  | storage : Final (.host .storage .exceededLimit)

end Soroban.Delegates.Spec
