import Verif.Model.Auth
import Verif.Model.Storage
/-!
Model of the Stellar Asset Contract, soroban-env-host/src/builtin_contracts/stellar_asset_contract/
(balance.rs, allowance.rs, contract.rs, event.rs, admin.rs).

The contract runs in a frame of the host, so a failed call leaves no trace (C22): an operation here is a function that either
fails or returns its new state. Storage operations are those of `Verif/Model/Storage.lean`. `require_auth` is a parameter of
the environment: it may run other contracts (`__check_auth` of an account contract) and so may change the storage.

Not modelled here: the values of arguments, results and events, `name`, `symbol` and `decimals` and the muxed identifier of
transfer events (these are in `SacValues`), conversions of what is stored (so every key is a constructor), and `init_asset`. The
asset is fixed by `init_asset` and is part of the environment. The instance storage of the contract holds the administrator
only; it is written to the instance entry at once instead of at the end of the frame.
-/
namespace Soroban.Sac
open Soroban Soroban.Storage Soroban.Auth

/-- XDR `Asset`: asset codes only tell different contracts apart. -/
inductive Asset where
  | native
  | credit (issuer : Nat)
  deriving DecidableEq, Repr

/-- Ledger keys used by one asset contract: accounts, trustlines for the asset, and storage_types.rs:32-35 `DataKey` and the
contract instance. -/
inductive SKey where
  | account (id : Nat)
  | trust (id : Nat)
  | balance (c : Nat)
  | allowance (sender spender : Addr)
  | inst
  deriving DecidableEq, Repr

/-- XDR `AccountEntryExtensionV1`: liabilities, and the numbers of sponsored and sponsoring entries of its extension. -/
structure AccountExt where
  buying : Int
  selling : Int
  sponsor : Option (Nat × Nat)
  deriving DecidableEq, Repr

/-- XDR `AccountEntry`, the fields used by the contract. -/
structure AccountE where
  balance : Int
  numSub : Nat
  required : Bool
  revocable : Bool
  clawback : Bool
  ext : Option AccountExt
  deriving DecidableEq, Repr

/-- XDR `TrustLineEntry`, the fields used by the contract; `liab` is (buying, selling). -/
structure TrustE where
  balance : Int
  limit : Int
  authorized : Bool
  maintain : Bool
  clawback : Bool
  liab : Option (Int × Int)
  deriving DecidableEq, Repr

/-- storage_types.rs:24-28 `BalanceValue`. -/
structure BalanceV where
  amount : Int
  authorized : Bool
  clawback : Bool
  deriving DecidableEq, Repr

/-- storage_types.rs:18-21 `AllowanceValue`. -/
structure AllowanceV where
  amount : Int
  liveUntil : Nat
  deriving DecidableEq, Repr

/-- Ledger entries under the keys of the contract. -/
inductive SVal where
  | account (a : AccountE)
  | trust (t : TrustE)
  | balance (b : BalanceV)
  | allowance (a : AllowanceV)
  | inst (admin : Option Addr)
  deriving DecidableEq, Repr

/-- Lifetimes: classic entries have none, balances and the instance are persistent, allowances temporary
(balance.rs:60-80, allowance.rs:30-110). -/
def sacKeys : Keys SKey SVal where
  supported _ := true
  entrySupported _ := true
  durability
    | .account _ => none
    | .trust _ => none
    | .balance _ => some .persistent
    | .allowance _ _ => some .temporary
    | .inst => some .persistent

/-- Events of the contract, event.rs:29-190. -/
inductive TokEvent where
  | approve (sender spender : Addr) (amount : Int) (liveUntil : Nat)
  | transfer (sender receiver : Addr) (amount : Int)
  | mint (receiver : Addr) (amount : Int)
  | burn (sender : Addr) (amount : Int)
  | clawback (sender : Addr) (amount : Int)
  | setAuthorized (addr : Addr) (authorize : Bool)
  | setAdmin (admin newAdmin : Addr)
  deriving DecidableEq, Repr

/-- What the contract runs in. `auth a st` is `a.require_auth()` (host/frame.rs, auth.rs): it fails, or returns the storage
after verifying the authorization. `li` is ledger_info.rs `LedgerInfo`. -/
structure SEnv where
  li : LedgerInfo
  feature : Bool
  baseReserve : Nat
  asset : Asset
  auth : Addr → Store SKey SVal → Res (Store SKey SVal)

/-- The storage environment of the contract. -/
def SEnv.sto (E : SEnv) : Storage.Env SKey SVal := { keys := sacKeys, li := E.li, feature := E.feature }

/-- State of a call: the storage, the events emitted so far, newest first, and the addresses that have authorized the call,
newest first. (The last is a ghost: it only records for which addresses `require_auth` has returned.) -/
structure Tok where
  st : Store SKey SVal
  events : List TokEvent := []
  auths : List Addr := []

/-- A computation of the contract. -/
def M (α : Type) := Tok → Res (α × Tok)

instance : Monad M where
  pure a := fun s => .ok (a, s)
  bind x f := fun s => match x s with
    | .error e => .error e
    | .ok (a, s') => f a s'

/-- Return an error. -/
def fail {α : Type} (e : Err) : M α := fun _ => .error e

/-- Errors of the contract, contract_error.rs:9-30 `ContractError`. -/
def opNotSupported : Err := .contract 2
def accountMissing : Err := .contract 6
def negativeAmount : Err := .contract 8
def allowanceError : Err := .contract 9
def balanceError : Err := .contract 10
def balanceDeauthorized : Err := .contract 11
def overflowError : Err := .contract 12
def trustlineMissing : Err := .contract 13
def insufficientReserve : Err := .contract 14
def tooManySubentries : Err := .contract 15

/-- A storage operation. -/
def onStore {α : Type} (f : Store SKey SVal → Store SKey SVal × Res α) : M α := fun s =>
  match f s.st with
  | (_, .error e) => .error e
  | (st, .ok a) => .ok (a, { s with st := st })

/-- base_types.rs `Address::require_auth`. -/
def requireAuth (E : SEnv) (a : Addr) : M Unit := fun s =>
  match E.auth a s.st with
  | .error e => .error e
  | .ok st => .ok ((), { s with st := st, auths := a :: s.auths })

/-- host.rs `contract_event`. -/
def emit (e : TokEvent) : M Unit := fun s => .ok ((), { s with events := e :: s.events })

/-- builtin_contracts/storage_utils.rs:4-14 `try_get_contract_data`: has, then get. -/
def tryGetData (E : SEnv) (k : SKey) : M (Option SVal) := do
  if (← onStore fun st => has E.sto st k) then
    let e ← onStore fun st => getEntry E.sto st k
    pure (some e.1)
  else pure none

/-- host.rs `put_contract_data` for persistent and temporary data. -/
def putData (E : SEnv) (k : SKey) (v : SVal) : M Unit := onStore fun st => write E.sto st k (fun _ => v)

/-- host.rs `extend_contract_data_ttl`. -/
def extendData (E : SEnv) (k : SKey) (threshold extendTo : Nat) : M Unit :=
  onStore fun st => extendTtl E.sto st k threshold extendTo

/-- storage.rs `try_get` of a classic entry, without its (absent) lifetime. -/
def tryGetClassic (E : SEnv) (k : SKey) : M (Option SVal) := do
  let e ← onStore fun st => tryGet E.sto st k
  pure (e.map Prod.fst)

/-- storage.rs `put` of a classic entry. -/
def putClassic (E : SEnv) (k : SKey) (v : SVal) : M Unit := onStore fun st => putOpt E.sto st k (some (v, none))

/-- Result of a conversion: the type of an entry is as expected. (Classic: balance.rs "unexpected entry found".) -/
def asAccount : SVal → M AccountE
  | .account a => pure a
  | _ => fail (.host .storage .internalError)
def asTrust : SVal → M TrustE
  | .trust t => pure t
  | _ => fail (.host .storage .internalError)
/-- `TryIntoVal` of contract data: balance.rs, allowance.rs, admin.rs. -/
def asBalance : SVal → M BalanceV
  | .balance b => pure b
  | _ => fail (.host .value .unexpectedType)
def asAllowance : SVal → M AllowanceV
  | .allowance a => pure a
  | _ => fail (.host .value .unexpectedType)

/-- `i64` and `i128`. -/
def inI64 (x : Int) : Bool := decide (-(2 ^ 63) ≤ x) && decide (x < 2 ^ 63)
def inI128 (x : Int) : Bool := decide (-(2 ^ 127) ≤ x) && decide (x < 2 ^ 127)
/-- `i64::MAX`. -/
def i64Max : Int := 2 ^ 63 - 1

/-- A computation that does not use the state. -/
def lift {α : Type} (r : Res α) : M α := fun s => match r with
  | .error e => .error e
  | .ok a => .ok (a, s)

/-- Checked arithmetic. -/
def checked64 (x : Int) (e : Err) : Res Int := if inI64 x then .ok x else .error e
def checked128 (x : Int) (e : Err) : Res Int := if inI128 x then .ok x else .error e

/-- `err_arith_overflow`, host/error.rs. -/
def arithOverflow : Err := .host .value .arithDomain

/-! ### balance.rs -/

/-- data_helper.rs:469-480 `load_account`. -/
def loadAccount (E : SEnv) (id : Nat) : M AccountE := do
  let e ← onStore fun st => getEntry E.sto st (.account id)
  asAccount e.1

/-- balance.rs:929-935 `is_asset_issuer_flag_set`. -/
def issuerFlag (E : SEnv) (f : AccountE → Bool) : M Bool :=
  match E.asset with
  | .native => pure false
  | .credit i => do
    let a ← loadAccount E i
    pure (f a)

/-- balance.rs:74-97 `write_contract_balance`; storage_types.rs:4-9 for the amounts. -/
def writeContractBalance (E : SEnv) (c : Nat) (b : BalanceV) : M Unit := do
  putData E (.balance c) (.balance b)
  extendData E (.balance c) (29 * 17280) (30 * 17280)

/-- balance.rs:700-720, the number of reserves in `get_min_max_account_balance` beside those of subentries. -/
def addSponsoring (n : Int) : Option (Nat × Nat) → Res Int
  | some (sponsored, sponsoring) => do
    let m ← checked64 (n + (sponsoring : Int)) arithOverflow
    checked64 (m - (sponsored : Int)) arithOverflow
  | none => pure n

/-- balance.rs:673-712 `get_min_max_account_balance`. -/
def accountRange (E : SEnv) (a : AccountE) : Res (Int × Int) :=
  if a.balance < 0 then .error (.host .storage .internalError)
  else match a.ext with
    | some x => do
      let n ← checked64 (2 + (a.numSub : Int)) arithOverflow
      let net ← addSponsoring n x.sponsor
      let p ← checked64 (net * (E.baseReserve : Int)) arithOverflow
      let lo ← checked64 (p + x.selling) arithOverflow
      let hi ← checked64 (i64Max - x.buying) arithOverflow
      pure (lo, hi)
    | none => do
      let net ← checked64 (2 + (a.numSub : Int)) arithOverflow
      let lo ← checked64 (net * (E.baseReserve : Int)) arithOverflow
      pure (lo, i64Max)

/-- balance.rs:756-783 `get_min_max_trustline_balance`. -/
def trustRange (t : TrustE) : Res (Int × Int) :=
  if t.balance < 0 then .error (.host .storage .internalError)
  else match t.liab with
    | some (buying, selling) =>
      if t.limit < buying then .error (.host .storage .internalError) else pure (selling, t.limit - buying)
    | none => pure (0, t.limit)

/-- balance.rs:433-548 `transfer_account_balance`. -/
def transferAccountBalance (E : SEnv) (id : Nat) (amount : Int) : M Unit := do
  match ← tryGetClassic E (.account id) with
  | some v =>
    let a ← asAccount v
    let r ← lift (accountRange E a)
    let new ← lift <| checked64 (a.balance + amount) balanceError
    if r.1 ≤ new ∧ new ≤ r.2 then putClassic E (.account id) (.account { a with balance := new })
    else fail balanceError
  | none =>
    if amount ≤ 0 then fail accountMissing
    else if amount < 2 * (E.baseReserve : Int) then fail insufficientReserve
    else if E.li.seq > 2 ^ 31 - 1 then fail (.host .context .internalError)
    else putClassic E (.account id) (.account
      { balance := amount, numSub := 0, required := false, revocable := false, clawback := false, ext := none })

/-- balance.rs:565-581 `read_trustline_entry`, with the match on the entry type that follows it everywhere. -/
def readTrustline (E : SEnv) (id : Nat) : M TrustE := do
  match ← tryGetClassic E (.trust id) with
  | some v => asTrust v
  | none => fail trustlineMissing

/-- balance.rs:584-628 `transfer_trustline_balance`. -/
def transferTrustlineBalance (E : SEnv) (id : Nat) (amount : Int) : M Unit := do
  let t ← readTrustline E id
  let r ← lift (trustRange t)
  let new ← lift <| checked64 (t.balance + amount) balanceError
  if r.1 ≤ new ∧ new ≤ r.2 then putClassic E (.trust id) (.trust { t with balance := new })
  else fail balanceError

/-- balance.rs:376-404 `transfer_classic_balance`. -/
def transferClassicBalance (E : SEnv) (id : Nat) (amount : Int) : M Unit :=
  match E.asset with
  | .native => transferAccountBalance E id amount
  | .credit i => if i = id then pure () else transferTrustlineBalance E id amount

/-- balance.rs:631-670 `get_account_balance`. -/
def getAccountBalance (E : SEnv) (id : Nat) : M Int := do
  match ← tryGetClassic E (.account id) with
  | none => fail accountMissing
  | some v =>
    let a ← asAccount v
    let r ← lift (accountRange E a)
    if a.balance < r.1 then fail (.host .storage .internalError)
    else if a.balance > r.2 then fail (.host .storage .internalError)
    else pure a.balance

/-- balance.rs:715-753 `get_trustline_balance`. -/
def getTrustlineBalance (E : SEnv) (id : Nat) : M Int := do
  let t ← readTrustline E id
  let r ← lift (trustRange t)
  if t.balance < r.1 then fail (.host .storage .internalError)
  else if t.balance > r.2 then fail (.host .storage .internalError)
  else pure t.balance

/-- balance.rs:407-430 `get_classic_balance`. -/
def getClassicBalance (E : SEnv) (id : Nat) : M Int :=
  match E.asset with
  | .native => getAccountBalance E id
  | .credit i => if i = id then pure i64Max else getTrustlineBalance E id

/-- balance.rs:44-71 `read_balance`. -/
def readBalance (E : SEnv) (addr : Addr) : M Int :=
  match addr with
  | .account id => getClassicBalance E id
  | .contract c => do
    match ← tryGetData E (.balance c) with
    | some raw =>
      extendData E (.balance c) (29 * 17280) (30 * 17280)
      let b ← asBalance raw
      pure b.amount
    | none => pure 0

/-- balance.rs:786-808 `is_account_authorized`, `get_trustline_flags` and `is_trustline_authorized`. -/
def isAccountAuthorized (E : SEnv) (id : Nat) : M Bool :=
  match E.asset with
  | .native => pure true
  | .credit i => if i = id then pure true else do
    let t ← readTrustline E id
    pure t.authorized

/-- balance.rs:233-254 `is_authorized`. -/
def isAuthorized (E : SEnv) (addr : Addr) : M Bool :=
  match addr with
  | .account id => isAccountAuthorized E id
  | .contract c => do
    match ← tryGetData E (.balance c) with
    | some raw =>
      let b ← asBalance raw
      pure b.authorized
    | none =>
      let r ← issuerFlag E (·.required)
      pure (!r)

/-- balance.rs:110-125, the balance of a contract in `receive_balance`: a new one is authorized. -/
def balanceToReceive (E : SEnv) (c : Nat) : M BalanceV := do
  match ← tryGetData E (.balance c) with
  | some raw => asBalance raw
  | none =>
    let cl ← issuerFlag E (·.clawback)
    pure { amount := 0, authorized := true, clawback := cl }

/-- balance.rs:100-153 `receive_balance`. -/
def receiveBalance (E : SEnv) (addr : Addr) (amount : Int) : M Unit := do
  if (← isAuthorized E addr) then
    match addr with
    | .account id =>
      let a ← lift <| checked64 amount overflowError
      transferClassicBalance E id a
    | .contract c =>
      let b ← balanceToReceive E c
      let new ← lift <| checked128 (b.amount + amount) overflowError
      writeContractBalance E c { b with amount := new }
  else fail balanceDeauthorized

/-- balance.rs:156-217 `spend_balance_no_authorization_check`. -/
def spendNoCheck (E : SEnv) (addr : Addr) (amount : Int) : M Unit :=
  match addr with
  | .account id => do
    let a ← lift <| checked64 amount overflowError
    transferClassicBalance E id (-a)
  | .contract c => do
    match ← tryGetData E (.balance c) with
    | some raw =>
      let b ← asBalance raw
      if b.amount < amount then fail balanceError
      else
        let new ← lift <| checked128 (b.amount - amount) overflowError
        writeContractBalance E c { b with amount := new }
    | none => if amount > 0 then fail balanceError else pure ()

/-- balance.rs:220-230 `spend_balance`. -/
def spendBalance (E : SEnv) (addr : Addr) (amount : Int) : M Unit := do
  if (← isAuthorized E addr) then spendNoCheck E addr amount else fail balanceDeauthorized

/-- balance.rs:878-915 `set_trustline_authorization`. -/
def setTrustlineAuthorization (E : SEnv) (id : Nat) (authorize : Bool) : M Unit := do
  let t ← readTrustline E id
  if t.authorized = authorize then pure ()
  else putClassic E (.trust id) (.trust { t with authorized := authorize, maintain := !authorize })

/-- balance.rs:844-875 `set_authorization`. -/
def setAuthorization (E : SEnv) (id : Nat) (authorize : Bool) : M Unit :=
  match E.asset with
  | .native => fail opNotSupported
  | .credit i => if i = id then fail opNotSupported else setTrustlineAuthorization E id authorize

/-- balance.rs:240-250, the first check of `write_authorization`: a revocation needs an issuer that can revoke. -/
def mayAuthorize (E : SEnv) (authorize : Bool) : M Bool := if authorize then pure true else issuerFlag E (·.revocable)

/-- balance.rs:257-298 `write_authorization`. -/
def writeAuthorization (E : SEnv) (addr : Addr) (authorize : Bool) : M Unit := do
  if (← mayAuthorize E authorize) then
    match addr with
    | .account id => setAuthorization E id authorize
    | .contract c =>
      match ← tryGetData E (.balance c) with
      | some raw =>
        let b ← asBalance raw
        writeContractBalance E c { b with authorized := authorize }
      | none =>
        let cl ← issuerFlag E (·.clawback)
        writeContractBalance E c { amount := 0, authorized := authorize, clawback := cl }
  else fail opNotSupported

/-- balance.rs:301-373 `check_clawbackable`. -/
def checkClawbackable (E : SEnv) (addr : Addr) : M Unit :=
  match addr with
  | .account id =>
    match E.asset with
    | .native => fail opNotSupported
    | .credit i =>
      if i = id then fail opNotSupported
      else do
        let t ← readTrustline E id
        if t.clawback then pure () else fail balanceError
  | .contract c => do
    match ← tryGetData E (.balance c) with
    | some raw =>
      let b ← asBalance raw
      if b.clawback then pure () else fail balanceError
    | none => fail balanceError

/-- balance.rs:951-1089 `create_trustline_if_needed`. (`current_min_balance + base_reserve` panics on overflow: release builds
have overflow checks, Cargo.toml:58.) -/
def createTrustlineIfNeeded (E : SEnv) (addr : Addr) : M Unit :=
  match addr with
  | .contract _ => pure ()
  | .account id =>
    match E.asset with
    | .native => fail opNotSupported
    | .credit i =>
      if id = i then fail opNotSupported
      else do
        match ← tryGetClassic E (.trust id) with
        | some _ => pure ()
        | none =>
          requireAuth E addr
          let issuer ← loadAccount E i
          match ← tryGetClassic E (.account id) with
          | none => fail accountMissing
          | some v =>
            let a ← asAccount v
            if 1000 ≤ a.numSub then fail tooManySubentries
            else
              let r ← lift (accountRange E a)
              let need ← lift <| checked64 (r.1 + (E.baseReserve : Int)) (.host .context .internalError)
              if a.balance < need then fail insufficientReserve
              else
                putClassic E (.trust id) (.trust
                  { balance := 0, limit := i64Max, authorized := !issuer.required, maintain := false,
                    clawback := issuer.clawback, liab := none })
                putClassic E (.account id) (.account { a with numSub := a.numSub + 1 })

/-! ### allowance.rs -/

/-- allowance.rs:15-29 `read_allowance`. -/
def readAllowance (E : SEnv) (sender spender : Addr) : M Int := do
  match ← tryGetData E (.allowance sender spender) with
  | some raw =>
    let a ← asAllowance raw
    if a.liveUntil < E.li.seq then pure 0 else pure a.amount
  | none => pure 0

/-- allowance.rs:65-90, the allowance that `write_allowance` stores, with the previous expiration ledger. -/
def nextAllowance (amount : Int) (liveUntil : Nat) : Option SVal → M (Option (AllowanceV × Option Nat))
  | some raw => do
    let a ← asAllowance raw
    pure (some ({ amount := amount, liveUntil := liveUntil }, some a.liveUntil))
  | none =>
    if amount > 0 then pure (some ({ amount := amount, liveUntil := liveUntil }, none)) else pure none

/-- allowance.rs:32-114 `write_allowance`. -/
def writeAllowance (E : SEnv) (sender spender : Addr) (amount : Int) (liveUntil : Nat) : M Unit := do
  match E.li.maxLiveUntil with
  | none => fail (.host .context .internalError)
  | some maxLive =>
    if liveUntil > maxLive then fail allowanceError
    else if amount > 0 ∧ liveUntil < E.li.seq then fail allowanceError
    else
      let old ← tryGetData E (.allowance sender spender)
      match ← nextAllowance amount liveUntil old with
      | some (v, oldLive) =>
        putData E (.allowance sender spender) (.allowance v)
        if v.amount > 0 ∧ oldLive.getD 0 < liveUntil then
          extendData E (.allowance sender spender) (liveUntil - E.li.seq) (liveUntil - E.li.seq)
        else pure ()
      | none => pure ()

/-- allowance.rs:117-132 `write_allowance_amount`. -/
def writeAllowanceAmount (E : SEnv) (sender spender : Addr) (amount : Int) : M Unit := do
  let e ← onStore fun st => getEntry E.sto st (.allowance sender spender)
  let a ← asAllowance e.1
  writeAllowance E sender spender amount a.liveUntil

/-- allowance.rs:135-161 `spend_allowance`. -/
def spendAllowance (E : SEnv) (sender spender : Addr) (amount : Int) : M Unit := do
  let al ← readAllowance E sender spender
  if al < amount then fail allowanceError
  else if amount > 0 then
    let new ← lift <| checked128 (al - amount) overflowError
    writeAllowanceAmount E sender spender new
  else pure ()

/-! ### contract.rs -/

/-- contract.rs:32-43 `check_nonnegative_amount`. -/
def checkNonnegative (amount : Int) : M Unit := if amount < 0 then fail negativeAmount else pure ()

/-- contract.rs:45-54 `check_non_native`. -/
def checkNonNative (E : SEnv) : M Unit :=
  match E.asset with
  | .native => fail opNotSupported
  | .credit _ => pure ()

/-- event.rs:13-26 `is_issuer`. -/
def isIssuer (asset : Asset) (addr : Addr) : Bool :=
  match asset with
  | .native => false
  | .credit i => decide (addr = .account i)

/-- contract.rs:56-76 `check_not_issuer`. -/
def checkNotIssuer (E : SEnv) (addr : Addr) : M Unit := if isIssuer E.asset addr then fail opNotSupported else pure ()

/-- admin.rs:7-11 `read_administrator`. -/
def readAdministrator (E : SEnv) : M Addr := do
  let e ← onStore fun st => getEntry E.sto st .inst
  match e.1 with
  | .inst (some a) => pure a
  | _ => fail (.host .storage .missingValue)

/-- admin.rs:14-22 `write_administrator`. -/
def writeAdministrator (E : SEnv) (a : Addr) : M Unit := putData E .inst (.inst (some a))

/-- host.rs `extend_current_contract_instance_and_code_ttl`, as called at the start of every operation; storage_types.rs:4-9
for the amounts. -/
def bumpInstance (E : SEnv) : M Unit := extendData E .inst (6 * 17280) (7 * 17280)

/-- event.rs:47-65 `transfer_maybe_with_issuer`. -/
def emitTransfer (E : SEnv) (sender receiver : Addr) (amount : Int) : M Unit :=
  if sender = receiver then emit (.transfer sender receiver amount)
  else if isIssuer E.asset sender then emit (.mint receiver amount)
  else if isIssuer E.asset receiver then emit (.burn sender amount)
  else emit (.transfer sender receiver amount)

/-- contract.rs:148-155 `allowance`. -/
def allowance (E : SEnv) (sender spender : Addr) : M Int := do
  bumpInstance E
  readAllowance E sender spender

/-- contract.rs:158-183 `approve`. -/
def approve (E : SEnv) (sender spender : Addr) (amount : Int) (liveUntil : Nat) : M Unit := do
  checkNonnegative amount
  requireAuth E sender
  bumpInstance E
  writeAllowance E sender spender amount liveUntil
  emit (.approve sender spender amount liveUntil)

/-- contract.rs:186-193 `balance`. -/
def balance (E : SEnv) (addr : Addr) : M Int := do
  bumpInstance E
  readBalance E addr

/-- contract.rs:196-203 `authorized`. -/
def authorized (E : SEnv) (addr : Addr) : M Bool := do
  bumpInstance E
  isAuthorized E addr

/-- contract.rs:206-226 `transfer`. -/
def transfer (E : SEnv) (sender receiver : Addr) (amount : Int) : M Unit := do
  checkNonnegative amount
  requireAuth E sender
  bumpInstance E
  spendBalance E sender amount
  receiveBalance E receiver amount
  emitTransfer E sender receiver amount

/-- contract.rs:229-250 `transfer_from`. -/
def transferFrom (E : SEnv) (spender sender receiver : Addr) (amount : Int) : M Unit := do
  checkNonnegative amount
  requireAuth E spender
  bumpInstance E
  spendAllowance E sender spender amount
  spendBalance E sender amount
  receiveBalance E receiver amount
  emitTransfer E sender receiver amount

/-- contract.rs:253-269 `burn`. -/
def burn (E : SEnv) (sender : Addr) (amount : Int) : M Unit := do
  checkNonnegative amount
  checkNonNative E
  checkNotIssuer E sender
  requireAuth E sender
  bumpInstance E
  spendBalance E sender amount
  emit (.burn sender amount)

/-- contract.rs:272-294 `burn_from`. -/
def burnFrom (E : SEnv) (spender sender : Addr) (amount : Int) : M Unit := do
  checkNonnegative amount
  checkNonNative E
  checkNotIssuer E sender
  requireAuth E spender
  bumpInstance E
  spendAllowance E sender spender amount
  spendBalance E sender amount
  emit (.burn sender amount)

/-- contract.rs:297-314 `clawback`. -/
def clawback (E : SEnv) (sender : Addr) (amount : Int) : M Unit := do
  checkNonnegative amount
  checkClawbackable E sender
  checkNotIssuer E sender
  let admin ← readAdministrator E
  requireAuth E admin
  bumpInstance E
  spendNoCheck E sender amount
  emit (.clawback sender amount)

/-- contract.rs:317-334 `set_authorized`. -/
def setAuthorized (E : SEnv) (addr : Addr) (authorize : Bool) : M Unit := do
  let admin ← readAdministrator E
  requireAuth E admin
  bumpInstance E
  writeAuthorization E addr authorize
  emit (.setAuthorized addr authorize)

/-- contract.rs:337-353 `mint`. -/
def mint (E : SEnv) (receiver : Addr) (amount : Int) : M Unit := do
  checkNonnegative amount
  checkNotIssuer E receiver
  let admin ← readAdministrator E
  requireAuth E admin
  bumpInstance E
  receiveBalance E receiver amount
  emit (.mint receiver amount)

/-- contract.rs:356-369 `set_admin`. -/
def setAdmin (E : SEnv) (newAdmin : Addr) : M Unit := do
  let admin ← readAdministrator E
  requireAuth E admin
  bumpInstance E
  writeAdministrator E newAdmin
  emit (.setAdmin admin newAdmin)

/-- contract.rs:403-412 `trust`. -/
def trust (E : SEnv) (addr : Addr) : M Unit := do
  bumpInstance E
  createTrustlineIfNeeded E addr

/-- The functions of the contract, contract.rs:92-410. -/
inductive Op where
  | allowance (sender spender : Addr)
  | approve (sender spender : Addr) (amount : Int) (liveUntil : Nat)
  | balance (addr : Addr)
  | authorized (addr : Addr)
  | transfer (sender receiver : Addr) (amount : Int)
  | transferFrom (spender sender receiver : Addr) (amount : Int)
  | burn (sender : Addr) (amount : Int)
  | burnFrom (spender sender : Addr) (amount : Int)
  | clawback (sender : Addr) (amount : Int)
  | setAuthorized (addr : Addr) (authorize : Bool)
  | mint (receiver : Addr) (amount : Int)
  | setAdmin (newAdmin : Addr)
  | admin
  | trust (addr : Addr)
  deriving DecidableEq, Repr

/-- What a function of the contract returns. -/
inductive Ret where
  | unit
  | amount (x : Int)
  | bool (b : Bool)
  | addr (a : Addr)
  deriving DecidableEq, Repr

/-- Call a function of the contract (contract.rs:92-93, the dispatch generated by `contractimpl`). -/
def exec (E : SEnv) : Op → M Ret
  | .allowance f s => do let x ← allowance E f s; pure (.amount x)
  | .approve f s a l => do approve E f s a l; pure .unit
  | .balance a => do let x ← balance E a; pure (.amount x)
  | .authorized a => do let x ← authorized E a; pure (.bool x)
  | .transfer f t a => do transfer E f t a; pure .unit
  | .transferFrom s f t a => do transferFrom E s f t a; pure .unit
  | .burn f a => do burn E f a; pure .unit
  | .burnFrom s f a => do burnFrom E s f a; pure .unit
  | .clawback f a => do clawback E f a; pure .unit
  | .setAuthorized a b => do setAuthorized E a b; pure .unit
  | .mint t a => do mint E t a; pure .unit
  | .setAdmin a => do setAdmin E a; pure .unit
  | .admin => do let a ← readAdministrator E; pure (.addr a)
  | .trust a => do trust E a; pure .unit

/-- One call of the contract on a storage: on failure the storage is as before (`C22_failed_call_has_no_effect`). -/
def call (E : SEnv) (op : Op) (st : Store SKey SVal) : Store SKey SVal × Res Ret :=
  match exec E op { st := st } with
  | .error e => (st, .error e)
  | .ok (r, s) => (s.st, .ok r)

end Soroban.Sac
