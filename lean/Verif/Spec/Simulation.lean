import Verif.Model.Simulation
import Verif.Spec.Fees
/-!
What the simulation of an operation should declare (C58, C59).
-/
namespace Soroban.Simulation.Spec
open Soroban Soroban.Storage Soroban.E2e Soroban.Simulation
variable {K V : Type}

/-- What the network charges for a transaction: the fee for its resources and the rent. -/
def charged (n : NetConfig) (r : Fees.TransactionResources) (rentFee : Int) : Int :=
  satI64 ((Fees.computeTransactionResourceFee r n.fees).1 + satI64 ((Fees.computeTransactionResourceFee r n.fees).2 + rentFee))

/-- The limits of the protocol on the parts of a transaction: at most 20 signatures of at most 64 bytes, at most two extra signers with
payloads of at most 64 bytes, a memo text of at most 28 bytes. -/
def Valid (e : Envelope K) : Prop :=
  e.signatures.length ≤ 20 ∧ (∀ n ∈ e.signatures, n ≤ 64) ∧
  (∀ len, e.memo = .text len → len ≤ 28) ∧
  (∀ tb lb ms signers, e.cond = .v2 tb lb ms signers →
    signers.length ≤ 2 ∧ ∀ len, SignerKey.signedPayload len ∈ signers → len ≤ 64)

/-- The bytes of a string of bytes in XDR: its length in four bytes, and the bytes with zeroes up to a multiple of four. -/
def stringBytes (len : Nat) : Nat := 4 + (len + (4 - len % 4) % 4)

/-- The bytes of an account, alone or with an identifier. -/
def accountBytes (withId : Bool) : Nat := 36 + if withId then 8 else 0

def signerBytes : SignerKey → Nat
  | .plain => 36
  | .signedPayload len => 36 + stringBytes len

def memoBytes : Memo → Nat
  | .none => 4
  | .text len => 4 + stringBytes len
  | .id => 12
  | .hash => 36

/-- Time bounds are two times, ledger bounds two ledger numbers; the general form also has the age and the gap of the sequence number. -/
def condBytes : Precond → Nat
  | .none => 4
  | .time => 20
  | .v2 tb lb ms signers =>
    32 + (if tb then 16 else 0) + (if lb then 8 else 0) + (if ms then 8 else 0) + (signers.map signerBytes).sum

/-- The bytes of a transaction of one operation in XDR, with the sizes of XDR's fields spelled out. -/
def txBytes (keySize : K → Nat) (e : Envelope K) : Nat :=
  accountBytes e.sourceHasId + 12 + condBytes e.cond + memoBytes e.memo
  + 8 + (match e.opSource with | none => 0 | some withId => accountBytes withId) + e.opBodySize
  + 36 + (match e.archived with | none => 0 | some l => 4 + 4 * l.length)
  + (e.footprint.readOnly.map keySize).sum + (e.footprint.readWrite.map keySize).sum
  + 4 + (e.signatures.map (fun n => 4 + stringBytes n)).sum

/-- A transaction that carries an operation of this size with this transaction data. -/
def Carries (e : Envelope K) (opSize : Nat) (d : TxData K) : Prop :=
  e.opBodySize = opSize ∧ e.footprint = d.resources.footprint ∧ e.archived = d.archived

/-- The resources the network finds in a transaction with data `d` of the given size: what the data declares, the entries that are read from
disk, the entries that may be written, and the events. -/
def resourcesOf (P : Kinds K V) (d : TxData K) (txSize events : Nat) : Fees.TransactionResources :=
  { instructions := d.resources.instructions
    diskReadEntries := ((d.resources.footprint.readOnly ++ d.resources.footprint.readWrite).filter (fun k => !P.isSoroban k)).length
      + (d.archived.getD []).length
    writeEntries := d.resources.footprint.readWrite.length
    diskReadBytes := d.resources.diskReadBytes
    writeBytes := d.resources.writeBytes
    contractEventsSizeBytes := events
    transactionSizeBytes := txSize }

/-- The rates are those of a sane network. -/
def Sane (n : NetConfig) : Prop := Fees.Spec.FeeConfiguration.Sane n.fees ∧ Fees.Spec.RentSane n.rent

/-- The extension of the entry at `k` to the ledger `target`, if there is such an entry and it does not live that long. -/
def extension (P : Kinds K V) (src : K → Option (Entry V)) (target : Nat) (k : K) : Option Fees.RentChange :=
  match src k with
  | some (v, some l) =>
    if l < target then
      some { isPersistent := P.durability k == some .persistent, isCodeEntry := P.isCode k,
             oldSizeBytes := P.rentSize v, newSizeBytes := P.rentSize v, oldLiveUntilLedger := l, newLiveUntilLedger := target }
    else none
  | _ => none

/-- The archived entry at `k`: it exists and its lifetime has ended. -/
def archivedAt (src : K → Option (Entry V)) (seq : Nat) (k : K) : Option V :=
  match src k with
  | some (v, some l) => if l < seq then some v else none
  | _ => none

/-- A new persistent entry `v` at `k` that lives until `target`. -/
def asNew (P : Kinds K V) (target : Nat) (k : K) (v : V) : Fees.RentChange :=
  { isPersistent := true, isCodeEntry := P.isCode k, oldSizeBytes := 0, newSizeBytes := P.rentSize v,
    oldLiveUntilLedger := 0, newLiveUntilLedger := target }

/-- The restoration of the entry at `k`, if it is archived: it is charged as a new entry. -/
def restoration (P : Kinds K V) (src : K → Option (Entry V)) (seq target : Nat) (k : K) : Option Fees.RentChange :=
  (archivedAt src seq k).map (asNew P target k)

/-- The order of keys is a total order. -/
def Ordered (P : Kinds K V) : Prop :=
  (∀ a b c, P.le a b = true → P.le b c = true → P.le a c = true) ∧ (∀ a b, (P.le a b || P.le b a) = true)

/-- `l` lists the keys of `ks` that pass the test, each as often as `ks` does, in the order of keys. -/
def Lists (P : Kinds K V) (l ks : List K) (test : K → Bool) : Prop :=
  l.Perm (ks.filter test) ∧ l.Pairwise (fun a b => P.le a b = true)

/-- The keys read from a source since it was last reset. -/
def readSince (os : List (SrcOp K)) : List K :=
  os.foldl (fun acc o => match o with | .get k => acc ++ [k] | .reset => []) []

/-- What an account entry says, whatever extensions it has: liabilities, sponsorship counts, the sponsor of each signer, and when its sequence
number was last changed. -/
def liabilities {C S : Type} (a : AccountEntry C S) : Int × Int := match a.v1 with | none => (0, 0) | some x => (x.buying, x.selling)
def v2 {C S : Type} (a : AccountEntry C S) : Option AccountV2 := a.v1.bind (·.v2)
def sponsorships {C S : Type} (a : AccountEntry C S) : Nat × Nat := match v2 a with | none => (0, 0) | some x => (x.numSponsored, x.numSponsoring)
def sponsor {C S : Type} (a : AccountEntry C S) (i : Nat) : Option Nat := match v2 a with | none => none | some x => (x.sponsors[i]?).join
def seqInfo {C S : Type} (a : AccountEntry C S) : Nat × Nat :=
  match (v2 a).bind (·.v3) with | none => (0, 0) | some x => (x.seqLedger, x.seqTime)
/-- All extensions are there. -/
def full {C S : Type} (a : AccountEntry C S) : Prop := ((v2 a).bind (·.v3)).isSome

/-- The ledger with accounts brought up to date. -/
def updated {K C S O : Type} (src : K → Option (Entry (LEntry C S O))) (k : K) : Option (Entry (LEntry C S O)) :=
  (src k).map fun e => (match e.1 with | .account a => .account (updateAccount a) | .other o => .other o, e.2)

end Soroban.Simulation.Spec
