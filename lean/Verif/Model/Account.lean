import Verif.Model.Auth
/-!
Model of soroban-env-host/src/builtin_contracts/account_contract.rs (authentication of Stellar accounts and the contexts given to
account contracts) and of the signature payloads of soroban-env-host/src/auth.rs.

Simplifications: 32-byte public keys are the numbers they encode (the order of `BytesN<32>` is the order of these numbers);
signatures and payloads are opaque; the verification of ed25519 signatures, the XDR encoding and SHA-256 are parameters; the
conversion of arguments between `ScVal` and `Val` is the identity (it is the subject of C04); the budget is not modelled.
-/
namespace Soroban.Account
open Soroban Soroban.Auth

/-- XDR `SignerKey`. -/
inductive SignerKey where
  | ed25519 (key : Nat)
  | preAuthTx (hash : Nat)
  | hashX (hash : Nat)
  | signedPayload (key : Nat) (payload : List Nat)
  deriving DecidableEq, Repr

/-- XDR `AccountEntry`: the account's key, the four bytes of `thresholds` and the additional signers with their `u32` weights. -/
structure AccountEntry where
  id : Nat
  masterWeight : Nat
  low : Nat
  med : Nat
  high : Nat
  signers : List (SignerKey × Nat)
  deriving DecidableEq, Repr

/-- account_contract.rs:64-67 `AccountEd25519Signature` -/
structure Sig where
  publicKey : Nat
  signature : Nat
  deriving DecidableEq, Repr

/-- account_contract.rs:25 `MAX_ACCOUNT_SIGNATURES` -/
def maxSignatures : Nat := 20

/-- `ContractError::AuthenticationError` (builtin_contracts/contract_error.rs:17) -/
def authenticationError : Err := .contract 5

/-- host/data_helper.rs:536-556, the search of `get_signer_weight_from_account` among the additional signers. -/
def signerWeight (k : Nat) : List (SignerKey × Nat) → Nat
  | [] => 0
  | (.ed25519 k', w) :: rest => if k = k' then min w 255 else signerWeight k rest
  | _ :: rest => signerWeight k rest

/-- host/data_helper.rs:513-562 `get_signer_weight_from_account` -/
def weightFromAccount (k : Nat) (a : AccountEntry) : Nat :=
  if a.id = k then a.masterWeight else signerWeight k a.signers

/-- account_contract.rs:201-206, the comparison with the key of the previous signature. -/
def keyAfter (prev : Option Nat) (k : Nat) : Bool :=
  match prev with
  | none => true
  | some p => decide (p < k)

/-- account_contract.rs:198-240, the loop of `check_account_authentication`. An element of the list is an error if the value at
that position is not a signature; `verify k p s` is the verification of an ed25519 signature (crypto/mod.rs:78-97). -/
def sigLoop (verify : Nat → Nat → Nat → Bool) (a : AccountEntry) (payload : Nat) :
    Option Nat → Nat → List (Res Sig) → Res Nat
  | _, weight, [] => .ok weight
  | _, _, .error e :: _ => .error e
  | prev, weight, .ok s :: rest =>
    if !keyAfter prev s.publicKey then .error authenticationError
    else if !verify s.publicKey payload s.signature then .error (.host .crypto .invalidInput)
    else
      let w := weightFromAccount s.publicKey a
      if w = 0 then .error authenticationError
      else sigLoop verify a payload (some s.publicKey) (min (weight + w) 4294967295) rest

/-- account_contract.rs:175-263 `check_account_authentication`; `account` is the result of `load_account`, `signatures` the
result of the conversion of the signature value to a vector. -/
def checkAccount (verify : Nat → Nat → Nat → Bool) (account : Res AccountEntry) (payload : Nat)
    (signatures : Res (List (Res Sig))) : Res Unit :=
  match signatures with
  | .error e => .error e
  | .ok sigs =>
    if sigs.length > maxSignatures then .error authenticationError
    else if sigs.length = 0 then .error authenticationError
    else match account with
      | .error e => .error e
      | .ok a => match sigLoop verify a payload none 0 sigs with
        | .error e => .error e
        | .ok weight => if weight < a.med then .error authenticationError else .ok ()

/-! ### the signature payload -/

/-- XDR `SorobanAuthorizedFunction` -/
inductive XFn where
  | call (contract : Addr) (fn : Name) (args : List Nat)
  | create (preimage : Nat) (fromAsset : Bool) (exec : Exec)
  | createV2 (args : CreateArgs)
  deriving DecidableEq, Repr

/-- XDR `SorobanAuthorizedInvocation` -/
inductive XInv where
  | mk (fn : XFn) (subs : List XInv)
  deriving Repr

/-- auth.rs:769-789 `from_xdr` of `AuthorizedFunction` -/
def fnFromXdr : XFn → AuthFn
  | .call c f as => .call c f as
  | .create p a e => .create { preimage := p, fromAsset := a, exec := e, ctorArgs := [] }
  | .createV2 as => .create as

/-- auth.rs:792-808 `to_xdr` of `AuthorizedFunction` -/
def fnToXdr : AuthFn → XFn
  | .call c f as => .call c f as
  | .create as => .createV2 as

mutual
/-- auth.rs:813-827 `from_xdr` of `AuthorizedInvocation` -/
def invFromXdr : XInv → Inv
  | .mk f subs => .mk (fnFromXdr f) (invsFromXdr subs) false
/-- auth.rs:818-821, the children. -/
def invsFromXdr : List XInv → List Inv
  | [] => []
  | x :: xs => invFromXdr x :: invsFromXdr xs
end

mutual
/-- auth.rs:852-867 `to_xdr` of `AuthorizedInvocation` -/
def invToXdr (exhaustedOnly : Bool) : Inv → XInv
  | .mk f subs _ => .mk (fnToXdr f) (invsToXdr exhaustedOnly subs)
/-- auth.rs:859-865, the children. -/
def invsToXdr (exhaustedOnly : Bool) : List Inv → List XInv
  | [] => []
  | i :: is => if i.used || !exhaustedOnly then invToXdr exhaustedOnly i :: invsToXdr exhaustedOnly is else invsToXdr exhaustedOnly is
end

/-- auth.rs:559-564 `AccountAuthorizationCredentials`, without the tracker of delegated signers. -/
inductive CredKind where
  | source
  | address
  | addressV2
  | withDelegates
  deriving DecidableEq, Repr

/-- auth.rs:592-594 `uses_preimage_with_address` -/
def CredKind.withAddress : CredKind → Bool
  | .addressV2 => true
  | .withDelegates => true
  | _ => false

/-- XDR `HashIdPreimage`, the two cases used for authorization. -/
inductive Preimage where
  | plain (network : Nat) (nonce : Int) (expiration : Nat) (inv : XInv)
  | withAddress (network : Nat) (addr : Addr) (nonce : Int) (expiration : Nat) (inv : XInv)

/-- The part of auth.rs:617-638 `AccountAuthorizationTracker` the payload depends on. -/
structure Entry where
  addr : Addr
  kind : CredKind
  nonce : Option (Int × Nat)
  root : Inv

/-- auth.rs:2631-2662 `get_signature_payload`, before hashing. -/
def signaturePreimage (network : Nat) (t : Entry) : Res Preimage :=
  match t.nonce with
  | none => .error (.host .auth .internalError)
  | some (n, l) =>
    .ok (if t.kind.withAddress then .withAddress network t.addr n l (invToXdr false t.root)
      else .plain network n l (invToXdr false t.root))

/-- auth.rs:2631-2662 `get_signature_payload`; `hash` is SHA-256 of the XDR encoding. -/
def signaturePayload {D : Type} (hash : Preimage → D) (network : Nat) (t : Entry) : Res D :=
  match signaturePreimage network t with
  | .error e => .error e
  | .ok p => .ok (hash p)

/-! ### the contexts given to account contracts -/

/-- account_contract.rs:56-60 `AuthorizationContext`; `salt` is the salt of the contract ID preimage. -/
inductive AuthContext where
  | contract (contract : Addr) (fn : Name) (args : List Nat)
  | create (exec : Exec) (salt : Nat)
  | createWithCtor (exec : Exec) (salt : Nat) (args : List Nat)
  deriving DecidableEq, Repr

/-- account_contract.rs:70-122 `from_authorized_fn`; `saltOf` is the salt in the contents of a contract ID preimage. -/
def contextOf (saltOf : Nat → Nat) : AuthFn → Res AuthContext
  | .call c f as => .ok (.contract c f as)
  | .create as =>
    if as.exec = .asset then .error (.host .auth .invalidInput)
    else if as.fromAsset then .error (.host .auth .invalidInput)
    else if as.ctorArgs = [] then .ok (.create as.exec (saltOf as.preimage))
    else .ok (.createWithCtor as.exec (saltOf as.preimage) as.ctorArgs)

mutual
/-- account_contract.rs:126-139 `invocation_tree_to_auth_contexts`; `out` are the contexts pushed before. -/
def pushContexts (saltOf : Nat → Nat) : Inv → List AuthContext → Res (List AuthContext)
  | .mk f subs _, out =>
    match contextOf saltOf f with
    | .error e => .error e
    | .ok c => pushContextsAll saltOf subs (out ++ [c])
/-- account_contract.rs:133-135, the loop over the children. -/
def pushContextsAll (saltOf : Nat → Nat) : List Inv → List AuthContext → Res (List AuthContext)
  | [], out => .ok out
  | i :: is, out =>
    match pushContexts saltOf i out with
    | .error e => .error e
    | .ok out => pushContextsAll saltOf is out
end

/-- account_contract.rs:141-148 `convert_to_auth_context_val` -/
def authContexts (saltOf : Nat → Nat) (i : Inv) : Res (List AuthContext) := pushContexts saltOf i []

end Soroban.Account
