import Verif.Spec.Sac
/-!
When a call of an asset contract is refused (C89): the reasons, each with the number of the contract error that reports it
(contract_error.rs `ContractError`), in terms of what the ledger holds.
-/
namespace Soroban.Sac.Spec
open Soroban Soroban.Storage Soroban.Storage.Spec Soroban.Auth Soroban.Sac

/-- The issuer of the asset. -/
def Issues (asset : Asset) (a : Addr) : Prop :=
  match asset with | .native => False | .credit i => a = .account i

instance (asset : Asset) (a : Addr) : Decidable (Issues asset a) := by unfold Issues; split <;> infer_instance

/-- An account. -/
def IsAccount (a : Addr) : Prop := ∃ id, a = .account id

/-- An account that would have to have a trustline for the asset and has none. -/
def NoTrustline (asset : Asset) (L : Led) (a : Addr) : Prop :=
  ¬ Issues asset a ∧ ∃ i id, asset = .credit i ∧ a = .account id ∧ valueOf (L (.trust id)) = none

/-- An account, asked for its native balance, that does not exist. -/
def NoAccount (asset : Asset) (L : Led) (a : Addr) : Prop :=
  asset = .native ∧ ∃ id, a = .account id ∧ valueOf (L (.account id)) = none

/-- The least that must stay in a holding: the reserve of an account and what is offered for sale. -/
def leastIn (reserve : Nat) : Option SVal → Int
  | some (.account a) => minBalance reserve a
  | some (.trust t) => match t.liab with | none => 0 | some (_, selling) => selling
  | _ => 0

/-- The most that a holding can come to: the limit of a trustline, less what is asked for in offers. -/
def mostIn : Option SVal → Int
  | some (.account a) => maxBalance a
  | some (.trust t) => match t.liab with | none => t.limit | some (buying, _) => t.limit - buying
  | some (.balance _) => 2 ^ 127 - 1
  | _ => 2 ^ 63 - 1

/-- The entry that holds what an address has of the asset. -/
def holding (asset : Asset) (L : Led) (a : Addr) : Option SVal := valueOf (L (holdingKey asset a))

/-- Why an amount cannot be taken from an address, whoever asks for it. -/
inductive CannotTake (asset : Asset) (reserve : Nat) (L : Led) (a : Addr) (d : Int) : Nat → Prop
  | noAccount : NoAccount asset L a → CannotTake asset reserve L a d 6
  | noTrustline : NoTrustline asset L a → CannotTake asset reserve L a d 13
  | tooLarge : IsAccount a → 2 ^ 63 ≤ d → CannotTake asset reserve L a d 12
  | notEnough : ¬ Issues asset a → balanceOf asset L a - d < leastIn reserve (holding asset L a) →
      CannotTake asset reserve L a d 10

/-- Why an address cannot pay an amount. -/
inductive CannotPay (asset : Asset) (reserve : Nat) (L : Led) (a : Addr) (d : Int) : Nat → Prop
  | taking {n : Nat} : CannotTake asset reserve L a d n → CannotPay asset reserve L a d n
  | unauthorized : authorizedToHold asset L a = false → CannotPay asset reserve L a d 11

/-- Why an address cannot be given an amount. -/
inductive CannotReceive (asset : Asset) (reserve : Nat) (L : Led) (a : Addr) (d : Int) : Nat → Prop
  | unauthorized : authorizedToHold asset L a = false → CannotReceive asset reserve L a d 11
  | noTrustline : NoTrustline asset L a → CannotReceive asset reserve L a d 13
  | noAccount : NoAccount asset L a → d = 0 → CannotReceive asset reserve L a d 6
  | lowStart : NoAccount asset L a → d < 2 * (reserve : Int) → CannotReceive asset reserve L a d 14
  | tooLarge : IsAccount a → 2 ^ 63 ≤ d → CannotReceive asset reserve L a d 12
  | tooMuch : IsAccount a → ¬ Issues asset a → mostIn (holding asset L a) < balanceOf asset L a + d →
      CannotReceive asset reserve L a d 10
  | overflow : ¬ IsAccount a → 2 ^ 127 ≤ balanceOf asset L a + d → CannotReceive asset reserve L a d 12

/-- An entry with its amount changed. -/
def withAmount (d : Int) : SVal → SVal
  | .account a => .account { a with balance := a.balance + d }
  | .trust t => .trust { t with balance := t.balance + d }
  | .balance b => .balance { b with amount := b.amount + d }
  | v => v

/-- The ledger after an amount is taken from an address. -/
def taken (asset : Asset) (L : Led) (a : Addr) (d : Int) : Led := fun k =>
  if k = holdingKey asset a ∧ ¬ Issues asset a then (L k).map (fun e => (withAmount (-d) e.1, e.2)) else L k

/-- What an allowance says about when it ends. -/
def allowanceEnd (L : Led) (sender spender : Addr) : Option Nat :=
  match valueOf (L (.allowance sender spender)) with | some (.allowance a) => some a.liveUntil | _ => none

/-- Why an allowance does not cover an amount: it is too low, or it was given for a time that is now longer than the network
allows. -/
inductive NotAllowed (li : LedgerInfo) (L : Led) (sender spender : Addr) (d : Int) : Nat → Prop
  | low : allowanceOf li.seq L sender spender < d → NotAllowed li L sender spender d 9
  | tooLong {m e : Nat} : 0 < d → li.maxLiveUntil = some m → allowanceEnd L sender spender = some e → m < e →
      NotAllowed li L sender spender d 9

/-- The flag of a holding that lets the administrator claw it back. -/
def canClawBack : Option SVal → Bool
  | some (.trust t) => t.clawback
  | some (.balance b) => b.clawback
  | _ => false

/-- The account an entry is of. -/
def accountIn : Option SVal → Option AccountE
  | some (.account a) => some a
  | _ => none

/-- The amount named in a call. -/
def namedAmount : Op → Option Int
  | .approve _ _ a _ => some a
  | .transfer _ _ a => some a
  | .transferFrom _ _ _ a => some a
  | .burn _ a => some a
  | .burnFrom _ _ a => some a
  | .clawback _ a => some a
  | .mint _ a => some a
  | _ => none

/-- Whom a call burns from. -/
def burntFrom : Op → Option Addr
  | .burn f _ => some f
  | .burnFrom _ f _ => some f
  | _ => none

/-- The reasons for which a call may be refused. -/
inductive Refused (asset : Asset) (reserve : Nat) (li : LedgerInfo) (L : Led) : Op → Nat → Prop
  | negative {op d} : namedAmount op = some d → d < 0 → Refused asset reserve li L op 8
  | burnNative {op a} : burntFrom op = some a → asset = .native → Refused asset reserve li L op 2
  | burnIssuer {op a} : burntFrom op = some a → Issues asset a → Refused asset reserve li L op 2
  | mintIssuer {a d} : Issues asset a → Refused asset reserve li L (.mint a d) 2
  | clawNative {a d} : asset = .native → IsAccount a → Refused asset reserve li L (.clawback a d) 2
  | clawIssuer {a d} : Issues asset a → Refused asset reserve li L (.clawback a d) 2
  | clawForbidden {a d} : canClawBack (holding asset L a) = false → Refused asset reserve li L (.clawback a d) 10
  | clawTake {a d n} : CannotTake asset reserve L a d n → Refused asset reserve li L (.clawback a d) n
  | expired {f s d lu} : 0 < d → lu < li.seq → Refused asset reserve li L (.approve f s d lu) 9
  | tooLong {f s d lu m} : li.maxLiveUntil = some m → m < lu → Refused asset reserve li L (.approve f s d lu) 9
  | pay {f t d n} : CannotPay asset reserve L f d n → Refused asset reserve li L (.transfer f t d) n
  | receive {f t d n} : CannotReceive asset reserve (taken asset L f d) t d n → Refused asset reserve li L (.transfer f t d) n
  | fromAllowance {s f t d n} : NotAllowed li L f s d n → Refused asset reserve li L (.transferFrom s f t d) n
  | fromPay {s f t d n} : CannotPay asset reserve L f d n → Refused asset reserve li L (.transferFrom s f t d) n
  | fromReceive {s f t d n} : CannotReceive asset reserve (taken asset L f d) t d n →
      Refused asset reserve li L (.transferFrom s f t d) n
  | burnPay {f d n} : CannotPay asset reserve L f d n → Refused asset reserve li L (.burn f d) n
  | burnAllowance {s f d n} : NotAllowed li L f s d n → Refused asset reserve li L (.burnFrom s f d) n
  | burnFromPay {s f d n} : CannotPay asset reserve L f d n → Refused asset reserve li L (.burnFrom s f d) n
  | mintReceive {t d n} : CannotReceive asset reserve L t d n → Refused asset reserve li L (.mint t d) n
  | balanceTrustline {a} : NoTrustline asset L a → Refused asset reserve li L (.balance a) 13
  | balanceAccount {a} : NoAccount asset L a → Refused asset reserve li L (.balance a) 6
  | authorizedTrustline {a} : NoTrustline asset L a → Refused asset reserve li L (.authorized a) 13
  | notRevocable {a} : (∀ i, asset = .credit i → (flagsOf L i).2.1 = false) →
      Refused asset reserve li L (.setAuthorized a false) 2
  | setNative {a b} : asset = .native → IsAccount a → Refused asset reserve li L (.setAuthorized a b) 2
  | setIssuer {a b} : Issues asset a → Refused asset reserve li L (.setAuthorized a b) 2
  | setTrustline {a b} : NoTrustline asset L a → Refused asset reserve li L (.setAuthorized a b) 13
  | trustNative {a} : asset = .native → IsAccount a → Refused asset reserve li L (.trust a) 2
  | trustIssuer {a} : Issues asset a → Refused asset reserve li L (.trust a) 2
  | trustAccount {id} : NoTrustline asset L (.account id) → valueOf (L (.account id)) = none →
      Refused asset reserve li L (.trust (.account id)) 6
  | trustFull {id a} : NoTrustline asset L (.account id) → accountIn (valueOf (L (.account id))) = some a →
      1000 ≤ a.numSub → Refused asset reserve li L (.trust (.account id)) 15
  | trustReserve {id a} : NoTrustline asset L (.account id) → accountIn (valueOf (L (.account id))) = some a →
      a.balance < minBalance reserve a + reserve → Refused asset reserve li L (.trust (.account id)) 14

/-! ### What a call needs of its surroundings -/

/-- The kind of entry kept under a key. -/
def kindOk : SKey → SVal → Prop
  | .account _, .account _ => True
  | .trust _, .trust _ => True
  | .balance _, .balance _ => True
  | .allowance _ _, .allowance _ => True
  | .inst, .inst _ => True
  | _, _ => False

/-- The amounts in an entry fit the types of their fields, and the reserves of an account do not overflow them. -/
def fits (reserve : Nat) : SVal → Prop
  | .account a => a.balance < 2 ^ 63 ∧ a.numSub < 2 ^ 32 ∧ minBalance reserve a + reserve < 2 ^ 63 ∧
      (match a.ext with
        | none => True
        | some x => 0 ≤ x.selling ∧ x.selling < 2 ^ 63 ∧ 0 ≤ x.buying ∧ x.buying < 2 ^ 63 ∧
          (match x.sponsor with | none => True | some (p, q) => p < 2 ^ 32 ∧ q < 2 ^ 32))
  | .trust t => t.balance < 2 ^ 63 ∧ t.limit < 2 ^ 63 ∧
      (match t.liab with | none => True | some (buying, selling) => 0 ≤ buying ∧ 0 ≤ selling)
  | .allowance a => a.amount < 2 ^ 127
  | _ => True

/-- The keys of a holding, and of what decides about it: the issuer's account. -/
def holdingReads (asset : Asset) (a : Addr) : List SKey :=
  holdingKey asset a :: (match asset with | .native => [] | .credit i => [.account i])

/-- The keys a call reads. -/
def readKeys (asset : Asset) (op : Op) : List SKey :=
  .inst :: (match op with
    | .allowance f s => [.allowance f s]
    | .approve f s _ _ => [.allowance f s]
    | .balance a => holdingReads asset a
    | .authorized a => holdingReads asset a
    | .transfer f t _ => holdingReads asset f ++ holdingReads asset t
    | .transferFrom s f t _ => .allowance f s :: (holdingReads asset f ++ holdingReads asset t)
    | .burn f _ => holdingReads asset f
    | .burnFrom s f _ => .allowance f s :: holdingReads asset f
    | .clawback f _ => holdingReads asset f
    | .setAuthorized a _ => holdingReads asset a
    | .mint t _ => holdingReads asset t
    | .setAdmin _ => []
    | .admin => []
    | .trust a => holdingReads asset a ++ (match a with | .account id => [.account id] | .contract _ => []))

/-- The keys a call writes. -/
def writeKeys (asset : Asset) : Op → List SKey
  | .approve f s _ _ => [.allowance f s]
  | .transfer f t _ => [holdingKey asset f, holdingKey asset t]
  | .transferFrom s f t _ => [.allowance f s, holdingKey asset f, holdingKey asset t]
  | .burn f _ => [holdingKey asset f]
  | .burnFrom s f _ => [.allowance f s, holdingKey asset f]
  | .clawback f _ => [holdingKey asset f]
  | .setAuthorized a _ => [holdingKey asset a]
  | .mint t _ => [holdingKey asset t]
  | .setAdmin _ => [.inst]
  | .trust a => holdingKey asset a :: (match a with | .account id => [.account id] | .contract _ => [])
  | _ => []

/-- Calls for the administrator only. -/
def adminOnly : Op → Bool
  | .clawback _ _ => true
  | .setAuthorized _ _ => true
  | .mint _ _ => true
  | .setAdmin _ => true
  | .admin => true
  | _ => false

/-- Whom a call asks for authorization: those of `needsAuth`, and whoever gets a new trustline. -/
def asked (L : Led) : Op → Option Addr
  | .trust a => some a
  | op => needsAuth L op

/-- The entries a call meets are those of a deployed contract: its instance with, where needed, an administrator; the account
of the issuer; entries of the right kinds, within their bounds. -/
structure Deployed (asset : Asset) (reserve : Nat) (L : Led) (op : Op) : Prop where
  kinds : ∀ k v, valueOf (L k) = some v → kindOk k v
  bounds : Bounded reserve L
  fits : ∀ k v, valueOf (L k) = some v → fits reserve v
  inst : valueOf (L .inst) ≠ none
  admin : adminOnly op = true → adminOf L ≠ none
  issuer : ∀ i, asset = .credit i → valueOf (L (.account i)) ≠ none

/-- The network is not at the end of its ledger numbers. -/
structure Running (li : LedgerInfo) : Prop where
  seq : li.seq + 30 * 17280 ≤ 2 ^ 31
  maxTtl : li.seq + li.maxTtl < 2 ^ 32
  minTemp : li.seq + li.minTemp < 2 ^ 32
  minPersistent : li.seq + li.minPersistent < 2 ^ 32

end Soroban.Sac.Spec
