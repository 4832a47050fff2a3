import Verif.Model.Fees
import Verif.Model.ScVal
/-!
Model of `soroban-env-host/src/host/invocation_metering.rs`: the resources of invocations, measured call by call, and the fees
estimated from them.
-/
namespace Soroban.Metering
open Soroban Soroban.Fees

/-- invocation_metering.rs:88-140 `SubInvocationResources`: `i64` and `i32` fields. -/
structure Resources where
  instructions : Int
  memBytes : Int
  diskReadEntries : Int
  memoryReadEntries : Int
  writeEntries : Int
  diskReadBytes : Int
  writeBytes : Int
  contractEventsSizeBytes : Int
  persistentRentLedgerBytes : Int
  persistentEntryRentBumps : Int
  temporaryRentLedgerBytes : Int
  temporaryEntryRentBumps : Int
deriving DecidableEq

/-- `i32::saturating_sub`. -/
def satI32 (x : Int) : Int := if x < -2147483648 then -2147483648 else if 2147483647 < x then 2147483647 else x

/-- invocation_metering.rs:199-227 `subtract` -/
def Resources.subtract (a b : Resources) : Resources :=
  { instructions := satI64 (a.instructions - b.instructions)
    memBytes := satI64 (a.memBytes - b.memBytes)
    diskReadEntries := satI32 (a.diskReadEntries - b.diskReadEntries)
    memoryReadEntries := satI32 (a.memoryReadEntries - b.memoryReadEntries)
    writeEntries := satI32 (a.writeEntries - b.writeEntries)
    diskReadBytes := satI32 (a.diskReadBytes - b.diskReadBytes)
    writeBytes := satI32 (a.writeBytes - b.writeBytes)
    contractEventsSizeBytes := satI32 (a.contractEventsSizeBytes - b.contractEventsSizeBytes)
    persistentRentLedgerBytes := satI64 (a.persistentRentLedgerBytes - b.persistentRentLedgerBytes)
    persistentEntryRentBumps := satI32 (a.persistentEntryRentBumps - b.persistentEntryRentBumps)
    temporaryRentLedgerBytes := satI64 (a.temporaryRentLedgerBytes - b.temporaryRentLedgerBytes)
    temporaryEntryRentBumps := satI32 (a.temporaryEntryRentBumps - b.temporaryEntryRentBumps) }

/-- invocation_metering.rs:594-606 `MeteringInvocation` -/
inductive Invocation where
  | call (contract : ScAddr) (fn : List Nat)
  | upload
  | create
deriving DecidableEq

/-- invocation_metering.rs:779-781, whether an invocation is a contract call. -/
def Invocation.isCall : Invocation → Bool
  | .call _ _ => true
  | _ => false

/-- invocation_metering.rs:231-239 `DetailedInvocationResources` -/
inductive Node where
  | mk (inv : Invocation) (res : Resources) (subs : List Node)

def Node.inv : Node → Invocation
  | .mk i _ _ => i
def Node.res : Node → Resources
  | .mk _ r _ => r
def Node.subs : Node → List Node
  | .mk _ _ s => s

/-- invocation_metering.rs:756-769 and 810-823: the last sub-call of the last sub-call ..., the given number of levels down. -/
def Node.get : Nat → Node → Option Node
  | 0, t => some t
  | n + 1, .mk _ _ subs => match subs.getLast? with
    | none => none
    | some t => t.get n

/-- A change, through the reference found by the same loop. -/
def Node.set : Nat → (Node → Node) → Node → Option Node
  | 0, f, t => some (f t)
  | n + 1, f, .mk i r subs => match subs.getLast? with
    | none => none
    | some t => match t.set n f with
      | none => none
      | some t' => some (.mk i r (subs.dropLast ++ [t']))

/-- What the meter needs of the host, whose states are `H`: invocation_metering.rs:733-737, what is reset before the root
invocation (budget, events, footprint), and invocation_metering.rs:937-960 `snapshot_current_resources`, from the state at the
beginning of the root invocation and the current one (see `measure`). -/
structure View (H : Type) where
  reset : H → H
  read : H → H → Resources

/-- invocation_metering.rs:581-590 `InvocationMeter`, without the limits. The snapshot of the storage is in the state `base`. -/
structure Meter (H : Type) where
  enabled : Bool
  depth : Nat
  base : H
  root : Option Node

/-- invocation_metering.rs:723-795 `push_invocation`: the meter, the host and whether a scope has been started. `none` is an
error. -/
def Meter.push {H : Type} (V : View H) (m : Meter H) (h : H) (inv : Invocation) : Option (Meter H × H × Bool) :=
  if m.enabled = false then some (m, h, false)
  else if m.depth = 0 then
    let h' := V.reset h
    some ({ m with base := h', depth := 1, root := some (.mk inv (V.read h' h') []) }, h', true)
  else match m.root with
    | none => none
    | some t => match t.get (m.depth - 1) with
      | none => none
      | some p =>
        if p.inv = inv then some (m, h, false)
        else if inv.isCall = false then some (m, h, false)
        else match t.set (m.depth - 1) (fun p => .mk p.inv p.res (p.subs ++ [.mk inv (V.read m.base h) []])) with
          | none => none
          | some t' => some ({ m with root := some t', depth := m.depth + 1 }, h, true)

/-- invocation_metering.rs:797-864 `pop_invocation`, without the module cache and the check of limits. -/
def Meter.pop {H : Type} (V : View H) (m : Meter H) (h : H) : Option (Meter H) :=
  if m.depth = 0 then some m
  else match m.root with
    | none => none
    | some t => match t.set (m.depth - 1) (fun p => .mk p.inv ((V.read m.base h).subtract p.res) p.subs) with
      | none => none
      | some t' => some { m with root := some t', depth := m.depth - 1 }

/-- What is executed: something that changes the host, or a block in the scope of
invocation_metering.rs:873-895 `maybe_meter_invocation`. However the block ends, the scope is dropped at its end, see
invocation_metering.rs:696-706 `drop`. -/
inductive Tr (H : Type) where
  | work (f : H → H)
  | scope (inv : Invocation) (body : List (Tr H))

mutual
/-- Executes with the meter. -/
def Tr.run {H : Type} (V : View H) : Tr H → Meter H → H → Option (Meter H × H)
  | .work f, m, h => some (m, f h)
  | .scope inv body, m, h => match m.push V h inv with
    | none => none
    | some (m1, h1, started) => match runTrs V body m1 h1 with
      | none => none
      | some (m2, h2) => if started then (m2.pop V h2).map (fun m3 => (m3, h2)) else some (m2, h2)
/-- One after the other. -/
def runTrs {H : Type} (V : View H) : List (Tr H) → Meter H → H → Option (Meter H × H)
  | [], m, h => some (m, h)
  | t :: ts, m, h => match t.run V m h with
    | none => none
    | some (m', h') => runTrs V ts m' h'
end

/-! ### the resources at one moment -/

/-- The kinds of ledger keys that storage.rs:988-996 `is_persistent_key` and ledger_info.rs:33-39 `get_key_durability` tell
apart. -/
inductive KeyKind where
  | persistent
  | temporary
  | code
  | classic
deriving DecidableEq

/-- storage.rs:988-996 `is_persistent_key` -/
def KeyKind.isPersistent : KeyKind → Bool
  | .persistent | .code => true
  | _ => false

/-- An entry: the size of its XDR, its size for rent and the ledger until which it lives (none for classic entries). -/
structure Sized where
  size : Nat
  rentSize : Nat
  liveUntil : Option Nat

/-- What the meter reads about a key of the footprint: the entry at the beginning and the current one. -/
structure Access where
  key : KeyKind
  readWrite : Bool
  init : Option Sized
  cur : Option Sized

def Resources.zero : Resources := ⟨0, 0, 0, 0, 0, 0, 0, 0, 0, 0, 0, 0⟩

/-- invocation_metering.rs:975-991, whether the entry is read from disk. -/
def Access.isDiskRead (seq : Nat) (a : Access) : Bool :=
  let d := decide (a.key = .classic)
  match a.init with
  | some ⟨_, _, some l⟩ => if l ≥ seq then d else a.key.isPersistent
  | _ => d

/-- invocation_metering.rs:974-987, `init_live_until_ledger`. -/
def Access.initLiveUntil (seq : Nat) (a : Access) : Nat :=
  match a.init with
  | some ⟨_, _, some l⟩ => if l ≥ seq then l else seq
  | _ => seq

/-- invocation_metering.rs:1025-1033, `rent_ledger_bytes`. The subtraction of `u32` panics if the entry now lives shorter than at the
beginning: `none`. -/
def Access.rent (seq : Nat) (a : Access) : Option Int :=
  match a.cur with
  | some ⟨_, newSize, some new⟩ =>
    if new < a.initLiveUntil seq then none
    else
      let extension : Int := new - a.initLiveUntil seq
      let initSize := match a.init with
        | some e => e.rentSize
        | none => 0
      let delta : Int := if newSize > initSize then (newSize : Int) - initSize else 0
      let existing : Int := (a.initLiveUntil seq : Int) - seq
      some (existing * delta + extension * newSize)
  | _ => some 0

/-- invocation_metering.rs:971-1047, one iteration. Sums of `i32` and `i64` do not overflow here. -/
def addAccess (seq : Nat) (r : Resources) (a : Access) : Option Resources :=
  let disk := a.isDiskRead seq
  let initSize : Int := match a.init with
    | some e => e.size
    | none => 0
  let curSize : Int := match a.cur with
    | some e => e.size
    | none => 0
  let r := if disk then { r with diskReadBytes := r.diskReadBytes + initSize, diskReadEntries := r.diskReadEntries + 1 }
    else { r with memoryReadEntries := r.memoryReadEntries + 1 }
  let r := if a.readWrite then { r with writeEntries := r.writeEntries + 1, writeBytes := r.writeBytes + curSize } else r
  match a.rent seq with
  | none => none
  | some rent =>
    if rent > 0 then
      match a.key with
      | .temporary => some { r with temporaryRentLedgerBytes := r.temporaryRentLedgerBytes + rent,
                                    temporaryEntryRentBumps := r.temporaryEntryRentBumps + 1 }
      | .persistent | .code => some { r with persistentRentLedgerBytes := r.persistentRentLedgerBytes + rent,
                                             persistentEntryRentBumps := r.persistentEntryRentBumps + 1 }
      | .classic => some r
    else some r

/-- invocation_metering.rs:971-1047, the loop over the footprint. -/
def addAccesses (seq : Nat) : List Access → Resources → Option Resources
  | [], r => some r
  | a :: as, r => match addAccess seq r a with
    | none => none
    | some r' => addAccesses seq as r'

/-- invocation_metering.rs:937-960 `snapshot_current_resources` and 962-1054 `try_snapshot_storage_and_event_resources`: from the
consumed budget, the footprint and the sizes of the contract events. -/
def measure (seq cpu mem : Nat) (footprint : List Access) (events : List Nat) : Option Resources :=
  match addAccesses seq footprint { Resources.zero with instructions := cpu, memBytes := mem } with
  | none => none
  | some r => some { r with contractEventsSizeBytes := events.foldl (fun (s : Int) (n : Nat) => s + (n : Int)) r.contractEventsSizeBytes }

/-! ### fees -/

/-- invocation_metering.rs:179-196 `from`: negative counts become 0. The result has the same fields, `u32` instead of `i32`. -/
def Resources.unsigned (r : Resources) : Resources :=
  { instructions := r.instructions
    memBytes := r.memBytes
    diskReadEntries := max r.diskReadEntries 0
    memoryReadEntries := max r.memoryReadEntries 0
    writeEntries := max r.writeEntries 0
    diskReadBytes := max r.diskReadBytes 0
    writeBytes := max r.writeBytes 0
    contractEventsSizeBytes := max r.contractEventsSizeBytes 0
    persistentRentLedgerBytes := r.persistentRentLedgerBytes
    persistentEntryRentBumps := max r.persistentEntryRentBumps 0
    temporaryRentLedgerBytes := r.temporaryRentLedgerBytes
    temporaryEntryRentBumps := max r.temporaryEntryRentBumps 0 }

/-- invocation_metering.rs:247-266 `FeeEstimate` -/
structure FeeEstimate where
  total : Int
  instructions : Int
  diskReadEntries : Int
  writeEntries : Int
  diskReadBytes : Int
  writeBytes : Int
  contractEvents : Int
  persistentEntryRent : Int
  temporaryEntryRent : Int
deriving DecidableEq

/-- invocation_metering.rs:1057-1059 `compute_fee_per_increment` -/
def feePerIncrement (value rate increment : Int) : Int := divCeil (satI64 (value * rate)) (max increment 1)

/-- The sum of `u32` in invocation_metering.rs:299-303, saturating. -/
def satU32 (x : Int) : Int := if x > 4294967295 then 4294967295 else x

/-- invocation_metering.rs:321-340, the fee for writing the entries with the new ledgers. -/
def ttlWrites (c : FeeConfiguration) (bumps : Int) : Int :=
  satI64 (satI64 (c.feePerWriteEntry * bumps) +
    feePerIncrement (satI64 ((ttlEntrySize : Int) * bumps)) c.feePerWrite1Kb dataSize1KbIncrement)

/-- invocation_metering.rs:287-373 `estimate_fees` -/
def estimateFees (r : Resources) (c : FeeConfiguration) (feePerRent1Kb persistentDenom temporaryDenom : Int) : FeeEstimate :=
  let instructions := feePerIncrement r.instructions c.feePerInstructionIncrement instructionsIncrement
  let diskReadEntries := satI64 (c.feePerDiskReadEntry * satU32 (r.diskReadEntries + r.writeEntries))
  let writeEntries := satI64 (c.feePerWriteEntry * r.writeEntries)
  let diskReadBytes := feePerIncrement r.diskReadBytes c.feePerDiskRead1Kb dataSize1KbIncrement
  let writeBytes := feePerIncrement r.writeBytes c.feePerWrite1Kb dataSize1KbIncrement
  let contractEvents := feePerIncrement r.contractEventsSizeBytes c.feePerContractEvent1Kb dataSize1KbIncrement
  let persistentEntryRent := satI64 (feePerIncrement r.persistentRentLedgerBytes feePerRent1Kb
    (satI64 (dataSize1KbIncrement * persistentDenom)) + ttlWrites c r.persistentEntryRentBumps)
  let temporaryEntryRent := satI64 (feePerIncrement r.temporaryRentLedgerBytes feePerRent1Kb
    (satI64 (dataSize1KbIncrement * temporaryDenom)) + ttlWrites c r.temporaryEntryRentBumps)
  { total := satI64 (satI64 (satI64 (satI64 (satI64 (satI64 (satI64 (instructions + diskReadEntries) + writeEntries) + diskReadBytes)
      + writeBytes) + contractEvents) + persistentEntryRent) + temporaryEntryRent)
    instructions, diskReadEntries, writeEntries, diskReadBytes, writeBytes, contractEvents, persistentEntryRent, temporaryEntryRent }

/-- invocation_metering.rs:269-276 `DetailedFeeEstimate` -/
inductive FeeNode where
  | mk (inv : Invocation) (fee : FeeEstimate) (subs : List FeeNode)

mutual
/-- invocation_metering.rs:540-571 `estimate_fees`, of a call and the calls in it. -/
def Node.estimate (c : FeeConfiguration) (rent pd td : Int) : Node → FeeNode
  | .mk i r subs => .mk i (estimateFees r.unsigned c rent pd td) (estimateAll c rent pd td subs)
def estimateAll (c : FeeConfiguration) (rent pd td : Int) : List Node → List FeeNode
  | [] => []
  | t :: ts => t.estimate c rent pd td :: estimateAll c rent pd td ts
end

/-- invocation_metering.rs:145-177 `InvocationResourceLimits`, the limits of whole invocations. -/
structure Limits where
  instructions : Int
  memBytes : Int
  diskReadEntries : Int
  writeEntries : Int
  ledgerEntries : Int
  diskReadBytes : Int
  writeBytes : Int
  contractEventsSizeBytes : Int

/-- invocation_metering.rs:379-445, the part of `verify_limits` about the whole invocation: whether it panics. -/
def exceeds (r : Resources) (l : Limits) : Bool :=
  decide (r.instructions > l.instructions) || decide (r.memBytes > l.memBytes) ||
  decide (satU32 (satU32 (r.diskReadEntries + r.memoryReadEntries) + r.writeEntries) > l.ledgerEntries) ||
  decide (r.diskReadEntries > l.diskReadEntries) || decide (r.diskReadBytes > l.diskReadBytes) ||
  decide (r.writeEntries > l.writeEntries) || decide (r.writeBytes > l.writeBytes) ||
  decide (r.contractEventsSizeBytes > l.contractEventsSizeBytes)

/-- invocation_metering.rs:171-176, the limits of single entries. -/
structure EntryLimits where
  dataKey : Nat
  dataEntry : Nat
  codeEntry : Nat

/-- The types of entries that `verify_limits` tells apart. -/
inductive EntryKind where
  | data | code | other
  deriving DecidableEq

/-- A key of the footprint with its entry in the storage, if there is one: their types and the sizes of their encodings. A size is `none`
if the budget does not allow to encode (invocation_metering.rs:456, 477: the encoding is charged to the budget of the invocation). -/
structure FootprintEntry where
  keyKind : EntryKind
  keySize : Option Nat
  entry : Option (EntryKind × Option Nat)

/-- invocation_metering.rs:451-505: a key of the footprint exceeds the limits of single entries. Sizes are cast to `u32`. -/
def FootprintEntry.exceeds (l : EntryLimits) (e : FootprintEntry) : Bool :=
  (match e.keySize with
    | some n => decide (e.keyKind = .data) && decide (n % 2^32 > l.dataKey)
    | none => false) ||
  (match e.entry with
    | some (.data, some n) => decide (n % 2^32 > l.dataEntry)
    | some (.code, some n) => decide (n % 2^32 > l.codeEntry)
    | _ => false)

/-- invocation_metering.rs:379-531 `verify_limits`: whether it panics. `es` are the entries of the footprint, `none` if the budget does not
allow to go through them (450). -/
def verifyFails (r : Resources) (l : Limits) (le : EntryLimits) (es : Option (List FootprintEntry)) : Bool :=
  exceeds r l || (match es with | some es => es.any (·.exceeds le) | none => false)

end Soroban.Metering
