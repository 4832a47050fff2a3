import Verif.Model.Budget
import Verif.Model.LedgerKey
/-!
Model of metered copies: soroban-env-host/src/host/metered_clone.rs with the sizes of host/declared_size.rs. A copy is a metered
computation (`Budget.Work`): it charges, then `Clone::clone` makes the copy. What is modelled is what is charged, in which order, and
when the copy is refused.

Simplifications: the tag of the executable in a contract instance is not part of `ScVal`, so its length comes from the parameter `tag`
(`none`: the executable is not an external reference). Of ledger entries only the parts with pointers to owned data are kept.
-/
namespace Soroban.Clone
open Soroban.Budget (Work)
open Soroban.Keys (LKey)
open Soroban.Preimage (Exec CreateArgs XFn XInv)

/-- XDR `ContractCostType::MemAlloc` -/
def memAlloc : Nat := 1
/-- XDR `ContractCostType::MemCpy` -/
def memCpy : Nat := 2

/-- host/metered_clone.rs:53-73 `charge_shallow_copy`, for a type of declared size `size`. -/
def shallowCopy (size n : Nat) : Work := .charge memCpy 1 (some (satMulU64 n size))

/-- host/metered_clone.rs:77-95 `charge_heap_alloc` -/
def heapAlloc (size n : Nat) : Work := .charge memAlloc 1 (some (satMulU64 n size))

/-- host/metered_clone.rs:117-121 `charge_bulk_init_cpy` for `Vec<T>` (declared size 24, host/declared_size.rs:324-326) -/
def bulkInitCpy (size len : Nat) : Work := .seq (shallowCopy 24 1) (.seq (heapAlloc size len) (shallowCopy size len))

/-- host/metered_clone.rs:161-171 `metered_collect` into a `Vec<T>`; `upper` is the upper bound of the iterator's size hint. -/
def meteredCollect (size : Nat) : Option Nat → Work
  | some n => bulkInitCpy size n
  | none => .fail (.host .object .internalError)

/-- host/metered_clone.rs:415-422 `charge_for_substructure` of `Vec<C>`; `elts` charges for the substructure of the elements. -/
def vecSub (size len : Nat) (elts : Work) : Work := .seq (heapAlloc size len) (.seq (shallowCopy size len) elts)

/-- host/metered_clone.rs:530-576 `charge_for_substructure` of `BytesM`, `StringM` and the types made of them: a `Vec<u8>` each. -/
def bytesSub (b : List Nat) : Work := vecSub 1 b.length .skip

/-- host/metered_clone.rs:332-343 `charge_for_substructure` of `ContractExecutable`, by the length of the tag. -/
def tagSub : Option Nat → Work
  | none => .skip
  | some n => vecSub 1 n .skip

/-- The tag of an executable, if it is an external reference. -/
def tagLen : Exec → Option Nat
  | .wasm _ | .asset => none
  | .ref _ t => some t.length

/-- host/metered_clone.rs:234-241 `charge_deep_clone`, and host/metered_clone.rs:251-255 `metered_clone` without the `clone` itself, of a
type of declared size `size`. -/
def deepClone (size : Nat) (sub : Work) : Work := .seq (shallowCopy size 1) sub

mutual
/-- host/metered_clone.rs:458-494 `charge_for_substructure` of `ScVal`, with host/metered_clone.rs:581-584
`charge_for_substructure` of `ScContractInstance`. -/
def valSub (tag : Nat → Option Nat) : ScVal → Work
  | .vec (some v) => .limited (vecSub 96 v.length (valsSub tag v))
  | .map (some m) => .limited (vecSub 192 m.length (pairsSub tag m))
  | .vec none | .map none => .limited (.fail (.host .value .invalidInput))
  | .bytes b | .string b | .symbol b | .executableTag b => .limited (bytesSub b)
  | .contractInstance ex (some m) => .limited (.seq (tagSub (tag ex)) (vecSub 192 m.length (pairsSub tag m)))
  | .contractInstance ex none => .limited (.seq (tagSub (tag ex)) .skip)
  | _ => .limited .skip
/-- host/metered_clone.rs:217-230 `bulk_charge_for_substructure` of `ScVal` -/
def valsSub (tag : Nat → Option Nat) : List ScVal → Work
  | [] => .skip
  | v :: vs => .seq (valSub tag v) (valsSub tag vs)
/-- host/metered_clone.rs:217-230 `bulk_charge_for_substructure` of `ScMapEntry`, with host/metered_clone.rs:508-511
`charge_for_substructure`. -/
def pairsSub (tag : Nat → Option Nat) : List (ScVal × ScVal) → Work
  | [] => .skip
  | (k, v) :: m => .seq (.seq (valSub tag k) (valSub tag v)) (pairsSub tag m)
end

/-- host/metered_clone.rs:251-255 `metered_clone` of an `ScVal` (declared size 96, host/declared_size.rs:145) -/
def cloneVal (tag : Nat → Option Nat) (v : ScVal) : Work := deepClone 96 (valSub tag v)

/-- host/metered_vector.rs:102-125 `from_exact_iter` for values: `charge_deep_clone` of a `Vec<Val>`. -/
def cloneHostVec (len : Nat) : Work := deepClone 24 (vecSub 8 len .skip)

/-- host/metered_map.rs:143-168 `from_exact_iter` for values: `charge_deep_clone` of a `Vec<(Val, Val)>`. -/
def cloneHostMap (len : Nat) : Work := deepClone 24 (vecSub 16 len .skip)

/-- host/metered_clone.rs:590-599 `charge_for_substructure` of `LedgerKey` -/
def keySub (tag : Nat → Option Nat) : LKey → Work
  | .contractData _ k _ => valSub tag k
  | .contractCode _ | .account _ | .trustline _ _ => .skip
  | .offer _ | .data _ | .claimableBalance _ | .liquidityPool _ | .configSetting _ | .ttl _ => .fail (.host .value .internalError)

/-- `metered_clone` of a `LedgerKey` (declared size 152, host/declared_size.rs:179) -/
def cloneKey (tag : Nat → Option Nat) (k : LKey) : Work := deepClone 152 (keySub tag k)

/-- XDR `LedgerEntryData`: the parts with owned data. A signer is the payload of its key, if it has one; `sponsors` is the number of
sponsoring ids, if the account has the extension with them. -/
inductive LedgerData where
  | contractData (key val : ScVal)
  | contractCode (code : List Nat)
  | account (homeDomain : List Nat) (signers : List (Option (List Nat))) (sponsors : Option Nat)
  | trustline
  | other

/-- host/metered_clone.rs:638-644 `charge_for_substructure` of `Signer` -/
def signerSub : Option (List Nat) → Work
  | none => .skip
  | some payload => bytesSub payload

/-- host/metered_clone.rs:217-230 `bulk_charge_for_substructure` of `Signer` -/
def signersSub : List (Option (List Nat)) → Work
  | [] => .skip
  | x :: xs => .seq (signerSub x) (signersSub xs)

/-- host/metered_clone.rs:653-661, the part of `charge_for_substructure` of `AccountEntry` for the sponsoring ids -/
def sponsorsSub : Option Nat → Work
  | none => .skip
  | some n => vecSub 33 n .skip

/-- host/metered_clone.rs:650-662 `charge_for_substructure` of `AccountEntry` -/
def accountSub (homeDomain : List Nat) (signers : List (Option (List Nat))) (sponsors : Option Nat) : Work :=
  .seq (bytesSub homeDomain) (.seq (vecSub 72 signers.length (signersSub signers))
    (sponsorsSub sponsors))

/-- host/metered_clone.rs:618-632 `charge_for_substructure` of `LedgerEntry`, with host/metered_clone.rs:605-612
`charge_for_substructure` of `ContractCodeEntry`. -/
def entrySub (tag : Nat → Option Nat) : LedgerData → Work
  | .contractData k v => .seq (valSub tag v) (valSub tag k)
  | .contractCode c => bytesSub c
  | .account h s p => accountSub h s p
  | .trustline => .skip
  | .other => .fail (.host .value .internalError)

/-- `metered_clone` of a `LedgerEntry` (declared size 288, host/declared_size.rs:180) -/
def cloneEntry (tag : Nat → Option Nat) (e : LedgerData) : Work := deepClone 288 (entrySub tag e)

/-- host/metered_clone.rs:685-695 `charge_for_substructure` of `SorobanAuthorizedFunction`, with host/metered_clone.rs:701-704
and host/metered_clone.rs:710-715 `charge_for_substructure` of the arguments. -/
def fnSub (tag : Nat → Option Nat) : XFn → Work
  | .call _ f as => .seq (bytesSub f) (vecSub 96 as.length (valsSub tag as))
  | .create _ _ => .skip
  | .createV2 a => .seq .skip (.seq (tagSub (tagLen a.exec)) (vecSub 96 a.args.length (valsSub tag a.args)))

mutual
/-- host/metered_clone.rs:668-671 `charge_for_substructure` of `SorobanAuthorizedInvocation` (declared size 200,
host/declared_size.rs:268) -/
def invSub (tag : Nat → Option Nat) : XInv → Work
  | .mk f subs => .seq (fnSub tag f) (vecSub 200 subs.length (invsSub tag subs))
/-- host/metered_clone.rs:217-230 `bulk_charge_for_substructure` of `SorobanAuthorizedInvocation` -/
def invsSub (tag : Nat → Option Nat) : List XInv → Work
  | [] => .skip
  | x :: xs => .seq (invSub tag x) (invsSub tag xs)
end

/-- `metered_clone` of a `SorobanAuthorizedInvocation` -/
def cloneInv (tag : Nat → Option Nat) (x : XInv) : Work := deepClone 200 (invSub tag x)

/-- host/metered_clone.rs:677-679 `charge_for_substructure` and `metered_clone` of a `SorobanAuthorizationEntry` (declared size 384,
host/declared_size.rs:267). Of the credentials, the signature is the part with owned data. -/
def cloneAuthEntry (tag : Nat → Option Nat) (_signature : Option ScVal) (x : XInv) : Work := deepClone 384 (invSub tag x)

end Soroban.Clone
