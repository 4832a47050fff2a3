import Verif.Model.E2e
/-!
Model of the crate soroban-simulation: what the simulation of an operation declares for the transaction, and the snapshot sources
it reads through.

Simplifications: snapshots do not fail; the product of a value with a floating-point factor is a parameter; sizes of XDR
encodings of keys, entries and operations are parameters; diagnostics and budgets are left out (the resources of an invocation are those
the host reports). The loops read the snapshot as the function it is (see `SimSrc.get`, whose reads are shown to be those of a function).
-/
namespace Soroban.Simulation
open Soroban Soroban.Storage Soroban.E2e

/-- Ways a simulation fails. -/
inductive SimErr where
  | noTtl | missingTtl | expired | notPersistent | missing | misconfigured | addOverflow | tooLarge
  deriving DecidableEq, Repr

/-- simulation.rs:27-30 `SimulationAdjustmentFactor`. The multiplicative factor is given by what it does: the floor of the product of a
value with it, for values of type `u32` and of type `i64`. -/
structure Factor where
  mulU32 : Nat → Nat
  mulI64 : Int → Nat
  add : Nat

/-- simulation.rs:34-40 `SimulationAdjustmentConfig`. -/
structure Adjust where
  instructions : Factor
  readBytes : Factor
  writeBytes : Factor
  txSize : Factor
  refundableFee : Factor

/-- resources.rs:35-47 `adjust_u32`. -/
def Factor.adjustU32 (f : Factor) (v : Nat) : Nat :=
  if v = 0 then 0 else max (satAddU32 v f.add) (min (f.mulU32 v) u32Max)

/-- resources.rs:49-61 `adjust_i64`. -/
def Factor.adjustI64 (f : Factor) (v : Int) : Int :=
  if v = 0 then 0 else max (satI64 (v + f.add)) (min (f.mulI64 v : Int) i64Max)

/-- XDR `SorobanResources`. -/
structure Resources (K : Type) where
  footprint : LedgerFootprint K
  instructions : Nat
  diskReadBytes : Nat
  writeBytes : Nat

/-- XDR `SorobanTransactionData`; the extension is absent or the list of archived entries. -/
structure TxData (K : Type) where
  resources : Resources K
  resourceFee : Int
  archived : Option (List Nat)

section
variable {K : Type}

/-- resources.rs:27-31 `adjust_resources`. -/
def Adjust.resources (a : Adjust) (r : Resources K) : Resources K :=
  { r with
    instructions := a.instructions.adjustU32 r.instructions
    diskReadBytes := a.readBytes.adjustU32 r.diskReadBytes
    writeBytes := a.writeBytes.adjustU32 r.writeBytes }

/-- network_config.rs:22-33 `NetworkConfig`, the fee rates. -/
structure NetConfig where
  fees : Fees.FeeConfiguration
  rent : Fees.RentFeeConfiguration

/-- resources.rs:64-82 `compute_resource_fee`. -/
def resourceFee (n : NetConfig) (seq : Nat) (r : Fees.TransactionResources) (rent : List Fees.RentChange) (a : Adjust) : Int :=
  let f := Fees.computeTransactionResourceFee r n.fees
  let rentFee := Fees.computeRentFee rent n.rent seq
  satI64 (f.1 + a.refundableFee.adjustI64 (satI64 (f.2 + rentFee)))

/-! ### Size of the largest transaction -/

/-- XDR `opaque<n>` and `string<n>`: the length and the bytes, padded to a multiple of four. -/
def varOpaqueSize (len : Nat) : Nat := 4 + (len + 3) / 4 * 4

/-- XDR `MuxedAccount`: an account, with an identifier or without. -/
def muxedSize (withId : Bool) : Nat := if withId then 4 + 8 + 32 else 4 + 32

/-- The source account of an operation: absent, or an account. -/
def opSourceSize : Option Bool → Nat
  | none => 4
  | some b => 4 + muxedSize b

/-- XDR `SignerKey`: a signed payload carries up to 64 bytes; the other kinds are 32 bytes. -/
inductive SignerKey where
  | plain
  | signedPayload (len : Nat)

def SignerKey.size : SignerKey → Nat
  | .plain => 4 + 32
  | .signedPayload len => 4 + 32 + varOpaqueSize len

/-- XDR `Memo`. -/
inductive Memo where
  | none
  | text (len : Nat)
  | id
  | hash

def Memo.size : Memo → Nat
  | .none => 4
  | .text len => 4 + varOpaqueSize len
  | .id => 4 + 8
  | .hash => 4 + 32

/-- budget/limits.rs:12-32 `DEFAULT_XDR_RW_LIMITS`, the limit on the length of an encoding: 16 MiB. -/
def maxXdrLen : Nat := 16777216

/-- XDR optional value: a flag and, if present, the value. -/
def optSize (present : Bool) (size : Nat) : Nat := if present then 4 + size else 4

/-- XDR `Preconditions`: only the parts whose presence changes the size. -/
inductive Precond where
  | none
  | time
  | v2 (timeBounds ledgerBounds minSeqNum : Bool) (extraSigners : List SignerKey)

def Precond.size : Precond → Nat
  | .none => 4
  | .time => 4 + 16
  | .v2 tb lb ms signers => 4 + optSize tb 16 + optSize lb 8 + optSize ms 8 + 8 + 4 + (4 + (signers.map SignerKey.size).sum)

/-- XDR `SorobanTransactionData`, its size for a footprint of keys of these sizes: extension, footprint (two lists), instructions, read and
written bytes, fee. -/
def sorobanDataSize (keySize : K → Nat) (f : LedgerFootprint K) (archived : Option (List Nat)) : Nat :=
  (match archived with | none => 4 | some l => 4 + (4 + 4 * l.length))
  + (4 + (f.readOnly.map keySize).sum) + (4 + (f.readWrite.map keySize).sum) + 4 + 4 + 4 + 8

/-- XDR `TransactionV1Envelope` with one operation, the parts that decide its size. -/
structure Envelope (K : Type) where
  sourceHasId : Bool
  cond : Precond
  memo : Memo
  /-- Whether the operation has its own source account, and whether that has an identifier. -/
  opSource : Option Bool
  opBodySize : Nat
  footprint : LedgerFootprint K
  archived : Option (List Nat)
  /-- The lengths of the signatures. -/
  signatures : List Nat

/-- The size of the encoding: source, fee, sequence number, preconditions, memo, the list of one operation, the Soroban data, signatures (a
hint of four bytes and the signature). -/
def Envelope.size (keySize : K → Nat) (e : Envelope K) : Nat :=
  muxedSize e.sourceHasId + 4 + 8 + e.cond.size + e.memo.size
  + (4 + (opSourceSize e.opSource + e.opBodySize))
  + (4 + sorobanDataSize keySize e.footprint e.archived)
  + (4 + (e.signatures.map (fun n => 4 + varOpaqueSize n)).sum)

/-- resources.rs:241-306 `estimate_max_transaction_size_for_operation`: the transaction it builds. -/
def maxEnvelope (opBodySize : Nat) (f : LedgerFootprint K) (restored : List Nat) : Envelope K :=
  { sourceHasId := true
    cond := .v2 true true true [.signedPayload 64, .signedPayload 64]
    memo := .hash
    opSource := some true
    opBodySize := opBodySize
    footprint := f
    archived := some restored
    signatures := List.replicate 20 64 }

/-- resources.rs:241-306 `estimate_max_transaction_size_for_operation` -/
def estimateMaxSize (keySize : K → Nat) (opBodySize : Nat) (f : LedgerFootprint K) (restored : List Nat) : Except SimErr Nat :=
  let n := (maxEnvelope opBodySize f restored).size keySize
  if n ≤ maxXdrLen then .ok n else .error .tooLarge

/-- What the simulation asks of keys and entries: durability (ledger_info.rs:33-39 `get_key_durability`), whether a key is a contract data
or contract code key and whether it is a contract code key, the order of keys, the sizes of encoded keys and entries, and
e2e_invoke.rs:427-443 `entry_size_for_rent`. -/
structure Kinds (K V : Type) where
  durability : K → Option Durability
  isSoroban : K → Bool
  isCode : K → Bool
  le : K → K → Bool
  keySize : K → Nat
  xdrSize : V → Nat
  rentSize : V → Nat

variable {V : Type}

/-- resources.rs:84-126 `compute_adjusted_transaction_resources`: the adjusted resources and those of the transaction. -/
def adjustedResources (P : Kinds K V) (opBodySize : Nat) (r : Resources K) (restored : List Nat) (a : Adjust) (eventsSize : Nat) :
    Except SimErr (Resources K × Fees.TransactionResources) := do
  let r := a.resources r
  let size ← estimateMaxSize P.keySize opBodySize r.footprint restored
  return (r,
    { instructions := r.instructions
      diskReadEntries := (r.footprint.readOnly.filter (fun k => !P.isSoroban k)).length
        + (r.footprint.readWrite.filter (fun k => !P.isSoroban k)).length + restored.length
      writeEntries := r.footprint.readWrite.length
      diskReadBytes := r.diskReadBytes
      writeBytes := r.writeBytes
      transactionSizeBytes := a.txSize.adjustU32 size
      contractEventsSizeBytes := eventsSize })

/-- simulation.rs:355-371 `create_transaction_data`. -/
def createTransactionData (r : Resources K) (restored : List Nat) (fee : Int) : TxData K :=
  { resources := r, resourceFee := fee, archived := if restored.isEmpty then none else some restored }

/-- simulation.rs:182-204, simulation.rs:240-260 and simulation.rs:293-312, what the three simulations do with the resources and the rent changes. -/
def finish (P : Kinds K V) (n : NetConfig) (seq : Nat) (a : Adjust) (opBodySize : Nat) (r : Resources K) (restored : List Nat)
    (eventsSize : Nat) (rent : List Fees.RentChange) : Except SimErr (TxData K) := do
  let x ← adjustedResources P opBodySize r restored a eventsSize
  return createTransactionData x.1 restored (resourceFee n seq x.2 rent a)

/-! ### Extension and restoration -/

/-- resources.rs:138-167, one round of the loop of `simulate_extend_ttl_op_resources`. -/
def extendKey (P : Kinds K V) (src : K → Option (Entry V)) (seq newLive : Nat) (k : K) : Except SimErr (Option Fees.RentChange) :=
  match P.durability k with
  | none => .error .noTtl
  | some d =>
    match src k with
    | none => .ok none
    | some (_, none) => .error .missingTtl
    | some (v, some cur) =>
      if newLive ≤ cur then .ok none
      else if cur < seq then .error .expired
      else .ok (some
        { isPersistent := d == .persistent
          isCodeEntry := P.isCode k
          oldSizeBytes := P.rentSize v
          newSizeBytes := P.rentSize v
          oldLiveUntilLedger := cur
          newLiveUntilLedger := newLive })

/-- resources.rs:195-227, one round of the loop of `simulate_restore_op_resources`: the size of the entry and the rent change. -/
def restoreKey (P : Kinds K V) (src : K → Option (Entry V)) (seq newLive : Nat) (k : K) :
    Except SimErr (Option (Nat × Fees.RentChange)) :=
  if P.durability k = some .persistent then
    match src k with
    | none => .error .missing
    | some (_, none) => .error .missingTtl
    | some (v, some cur) =>
      if seq ≤ cur then .ok none
      else .ok (some (P.xdrSize v,
        { isPersistent := true
          isCodeEntry := P.isCode k
          oldSizeBytes := 0
          newSizeBytes := P.rentSize v
          oldLiveUntilLedger := 0
          newLiveUntilLedger := newLive }))
  else .error .notPersistent

/-- The loops: what each key gives, with the key. -/
def collect {α : Type} (f : K → Except SimErr (Option α)) : List K → Except SimErr (List (K × α))
  | [] => .ok []
  | k :: ks => do
    let x ← f k
    let r ← collect f ks
    return match x with | none => r | some a => (k, a) :: r

/-- resources.rs:128-179 `simulate_extend_ttl_op_resources`. The addition of ledgers panics if it overflows. -/
def extendResources (P : Kinds K V) (src : K → Option (Entry V)) (seq extendTo : Nat) (keys : List K) :
    Except SimErr (Resources K × List Fees.RentChange) :=
  if u32Max < seq + extendTo then .error .addOverflow
  else do
    let l ← collect (extendKey P src seq (seq + extendTo)) keys
    return ({ footprint := { readOnly := (l.map Prod.fst).mergeSort P.le, readWrite := [] },
              instructions := 0, diskReadBytes := 0, writeBytes := 0 }, l.map Prod.snd)

/-- resources.rs:181-239 `simulate_restore_op_resources`. -/
def restoreResources (P : Kinds K V) (src : K → Option (Entry V)) (li : LedgerInfo) (keys : List K) :
    Except SimErr (Resources K × List Fees.RentChange) :=
  match li.minLiveUntil .persistent with
  | none => .error .misconfigured
  | some newLive => do
    let l ← collect (restoreKey P src li.seq newLive) keys
    let bytes := l.foldl (fun n x => satAddU32 n x.2.1) 0
    return ({ footprint := { readOnly := [], readWrite := (l.map Prod.fst).mergeSort P.le },
              instructions := 0, diskReadBytes := bytes, writeBytes := bytes }, l.map (fun x => x.2.2))

/-- XDR size of the body of `ExtendFootprintTtlOp`: the type of the operation, the extension point, the ledgers. -/
def extendOpSize : Nat := 4 + 4 + 4

/-- XDR size of the body of `RestoreFootprintOp`: the type of the operation, the extension point. -/
def restoreOpSize : Nat := 4 + 4

/-- simulation.rs:224-261 `simulate_extend_ttl_op`. -/
def simulateExtend (P : Kinds K V) (src : K → Option (Entry V)) (n : NetConfig) (a : Adjust) (li : LedgerInfo) (keys : List K)
    (extendTo : Nat) : Except SimErr (TxData K) := do
  let x ← extendResources P src li.seq extendTo keys
  finish P n li.seq a extendOpSize x.1 [] 0 x.2

/-- simulation.rs:279-313 `simulate_restore_op`. -/
def simulateRestore (P : Kinds K V) (src : K → Option (Entry V)) (n : NetConfig) (a : Adjust) (li : LedgerInfo) (keys : List K) :
    Except SimErr (TxData K) := do
  let x ← restoreResources P src li keys
  finish P n li.seq a restoreOpSize x.1 [] 0 x.2

/-! ### Invocation -/

/-- What running the host function in recording mode gives (e2e_invoke.rs:752-1004), as far as the simulation uses it; entries of the ledger
changes are decoded. `Auth`: authorization entries. -/
structure Recorded (K V Auth : Type) where
  resources : Resources K
  restored : List Nat
  auth : List Auth
  changes : List (Change K V)
  eventsSize : Nat

/-- simulation.rs:46-49 `LedgerEntryDiff`. -/
structure Diff (V : Type) where
  before : Option V
  after : Option V
  deriving DecidableEq, Repr

/-- simulation.rs:373-407 `extract_modified_entries`. -/
def modifiedEntries (src : K → Option (Entry V)) (seq : Nat) (cs : List (Change K V)) : List (Diff V) :=
  cs.filterMap fun c =>
    if c.readOnly then none
    else some
      { before := match src c.key with
          | some (v, some l) => if l < seq then none else some v
          | some (v, none) => some v
          | none => none
        after := c.newValue }

/-- simulation.rs:53-82 `InvokeHostFunctionSimulationResult`, without results, events and measurements. -/
structure InvokeSim (K V Auth : Type) where
  auth : List Auth
  txData : Option (TxData K)
  modified : List (Diff V)

/-- simulation.rs:150-207, the end of `simulate_invoke_host_function_op`: `rec` is what running the host function gave, if it succeeded;
`opSize` is the size of the operation with these authorization entries. -/
def simulateInvoke {Auth : Type} (P : Kinds K V) (src : K → Option (Entry V)) (n : NetConfig) (a : Adjust) (li : LedgerInfo)
    (opSize : List Auth → Nat) (rec : Option (Recorded K V Auth)) : Except SimErr (InvokeSim K V Auth) :=
  match rec with
  | none => .ok { auth := [], txData := none, modified := [] }
  | some r => do
    let d ← finish P n li.seq a (opSize r.auth) r.resources r.restored r.eventsSize (extractRentChanges r.changes)
    return { auth := r.auth, txData := some d, modified := modifiedEntries src li.seq r.changes }

/-! ### Snapshot sources -/

variable [DecidableEq K]

/-- snapshot_source.rs:36-41 `AutoRestoringSnapshotSource`; the set of restored keys is a list without repetitions. -/
structure AutoRestoring (K V : Type) where
  src : K → Option (Entry V)
  minLive : Nat
  seq : Nat
  restored : List K

/-- snapshot_source.rs:44-51 `new`. -/
def AutoRestoring.new (src : K → Option (Entry V)) (li : LedgerInfo) : Except SimErr (AutoRestoring K V) :=
  match li.minLiveUntil .persistent with
  | none => .error .misconfigured
  | some m => .ok { src := src, minLive := m, seq := li.seq, restored := [] }

/-- snapshot_source.rs:86-115 `get`. -/
def AutoRestoring.get (P : Kinds K V) (s : AutoRestoring K V) (k : K) : AutoRestoring K V × Res (Option (Entry V)) :=
  match s.src k with
  | none => (s, .ok none)
  | some (v, l) =>
    match P.durability k with
    | none => (s, .ok (some (v, l)))
    | some d =>
      match l with
      | none => (s, .error (.host .storage .internalError))
      | some l =>
        if l < s.seq then
          match d with
          | .temporary => (s, .ok none)
          | .persistent =>
            ({ s with restored := if k ∈ s.restored then s.restored else k :: s.restored }, .ok (some (v, some s.minLive)))
        else (s, .ok (some (v, some l)))

/-- snapshot_source.rs:54-56 `reset_restored_keys`. -/
def AutoRestoring.reset (s : AutoRestoring K V) : AutoRestoring K V := { s with restored := [] }

/-- A user of the source: reads and resets. -/
inductive SrcOp (K : Type) where
  | get (k : K)
  | reset

/-- One use of the source. -/
def AutoRestoring.step (P : Kinds K V) (s : AutoRestoring K V) : SrcOp K → AutoRestoring K V
  | .get k => (s.get P k).1
  | .reset => s.reset

/-- Uses one after the other. -/
def AutoRestoring.run (P : Kinds K V) (s : AutoRestoring K V) (os : List (SrcOp K)) : AutoRestoring K V :=
  os.foldl (AutoRestoring.step P) s

/-- snapshot_source.rs:60-82 `simulate_restore_keys_op`; the set of keys is read in the order of keys. -/
def AutoRestoring.simulateRestoreKeys (P : Kinds K V) (s : AutoRestoring K V) (n : NetConfig) (a : Adjust) (li : LedgerInfo) :
    Except SimErr (Option (TxData K)) :=
  if s.restored.isEmpty then .ok none
  else do
    let d ← simulateRestore P s.src n a li (s.restored.mergeSort P.le)
    return some d

end

/-! ### Account extensions -/

/-- XDR `AccountEntryExtensionV3`. -/
structure AccountV3 where
  seqLedger : Nat
  seqTime : Nat
  deriving DecidableEq, Repr

/-- XDR `AccountEntryExtensionV2`; sponsors are numbers. -/
structure AccountV2 where
  numSponsored : Nat
  numSponsoring : Nat
  sponsors : List (Option Nat)
  v3 : Option AccountV3
  deriving DecidableEq, Repr

/-- XDR `AccountEntryExtensionV1`. -/
structure AccountV1 where
  buying : Int
  selling : Int
  v2 : Option AccountV2
  deriving DecidableEq, Repr

/-- XDR `AccountEntry`: the signers, the extensions and the rest. -/
structure AccountEntry (C S : Type) where
  core : C
  signers : List S
  v1 : Option AccountV1
  deriving DecidableEq, Repr

/-- snapshot_source.rs:240-251 `fill_account_ext_v3`. -/
def fillV3 (x : AccountV2) : AccountV2 :=
  match x.v3 with
  | none => { x with v3 := some { seqLedger := 0, seqTime := 0 } }
  | some _ => x

/-- snapshot_source.rs:222-238 `fill_account_ext_v2`. The list of sponsors holds at most twenty; a longer one would become empty. -/
def fillV2 (x : AccountV1) (signers : Nat) : AccountV1 :=
  match x.v2 with
  | none =>
    { x with
      v2 := some (fillV3
        { numSponsored := 0, numSponsoring := 0, sponsors := if signers ≤ 20 then List.replicate signers none else [], v3 := none }) }
  | some y => { x with v2 := some (fillV3 y) }

/-- snapshot_source.rs:203-220 `update_account_entry`. -/
def updateAccount {C S : Type} (a : AccountEntry C S) : AccountEntry C S :=
  match a.v1 with
  | none => { a with v1 := some (fillV2 { buying := 0, selling := 0, v2 := none } a.signers.length) }
  | some x => { a with v1 := some (fillV2 x a.signers.length) }

/-- XDR `LedgerEntry`: an account or something else. -/
inductive LEntry (C S O : Type) where
  | account (a : AccountEntry C S)
  | other (o : O)
  deriving DecidableEq, Repr

section
variable {K C S O : Type} [DecidableEq K]

/-- snapshot_source.rs:173-176 `SimulationSnapshotSource` with snapshot_source.rs:119-121 `LedgerEntryUpdater`. -/
structure SimSrc (K C S O : Type) where
  src : K → Option (Entry (LEntry C S O))
  cache : FMap K (Option (Entry (LEntry C S O)))

/-- snapshot_source.rs:179-184 `new`. -/
def SimSrc.new (src : K → Option (Entry (LEntry C S O))) : SimSrc K C S O := { src := src, cache := [] }

/-- snapshot_source.rs:124-151 `maybe_update_entry` and snapshot_source.rs:195-200 `get`. -/
def SimSrc.get (s : SimSrc K C S O) (k : K) : SimSrc K C S O × Option (Entry (LEntry C S O)) :=
  let entry := s.src k
  match s.cache.get k with
  | some e => (s, e)
  | none =>
    match entry with
    | some (.account a, l) =>
      let e := some (.account (updateAccount a), l)
      ({ s with cache := s.cache.insert k e }, e)
    | e => (s, e)

/-- Reads one after the other. -/
def SimSrc.gets (s : SimSrc K C S O) : List K → SimSrc K C S O × List (Option (Entry (LEntry C S O)))
  | [] => (s, [])
  | k :: ks =>
    let r := s.get k
    let r' := r.1.gets ks
    (r'.1, r.2 :: r'.2)

end
end Soroban.Simulation
