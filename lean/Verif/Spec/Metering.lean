import Verif.Model.Metering
/-! What the measured resources of invocations mean. -/
namespace Soroban.Metering.Spec
open Soroban Soroban.Metering

/-- Values that a host can have: not negative, and in the range of the type. -/
structure Sane (r : Resources) : Prop where
  instructions : 0 ≤ r.instructions ∧ r.instructions ≤ i64Max
  memBytes : 0 ≤ r.memBytes ∧ r.memBytes ≤ i64Max
  diskReadEntries : 0 ≤ r.diskReadEntries ∧ r.diskReadEntries ≤ 2147483647
  memoryReadEntries : 0 ≤ r.memoryReadEntries ∧ r.memoryReadEntries ≤ 2147483647
  writeEntries : 0 ≤ r.writeEntries ∧ r.writeEntries ≤ 2147483647
  diskReadBytes : 0 ≤ r.diskReadBytes ∧ r.diskReadBytes ≤ 2147483647
  writeBytes : 0 ≤ r.writeBytes ∧ r.writeBytes ≤ 2147483647
  contractEventsSizeBytes : 0 ≤ r.contractEventsSizeBytes ∧ r.contractEventsSizeBytes ≤ 2147483647
  persistentRentLedgerBytes : 0 ≤ r.persistentRentLedgerBytes ∧ r.persistentRentLedgerBytes ≤ i64Max
  persistentEntryRentBumps : 0 ≤ r.persistentEntryRentBumps ∧ r.persistentEntryRentBumps ≤ 2147483647
  temporaryRentLedgerBytes : 0 ≤ r.temporaryRentLedgerBytes ∧ r.temporaryRentLedgerBytes ≤ i64Max
  temporaryEntryRentBumps : 0 ≤ r.temporaryEntryRentBumps ∧ r.temporaryEntryRentBumps ≤ 2147483647

/-- The difference of two measurements. -/
def used (atEnd atStart : Resources) : Resources :=
  { instructions := atEnd.instructions - atStart.instructions
    memBytes := atEnd.memBytes - atStart.memBytes
    diskReadEntries := atEnd.diskReadEntries - atStart.diskReadEntries
    memoryReadEntries := atEnd.memoryReadEntries - atStart.memoryReadEntries
    writeEntries := atEnd.writeEntries - atStart.writeEntries
    diskReadBytes := atEnd.diskReadBytes - atStart.diskReadBytes
    writeBytes := atEnd.writeBytes - atStart.writeBytes
    contractEventsSizeBytes := atEnd.contractEventsSizeBytes - atStart.contractEventsSizeBytes
    persistentRentLedgerBytes := atEnd.persistentRentLedgerBytes - atStart.persistentRentLedgerBytes
    persistentEntryRentBumps := atEnd.persistentEntryRentBumps - atStart.persistentEntryRentBumps
    temporaryRentLedgerBytes := atEnd.temporaryRentLedgerBytes - atStart.temporaryRentLedgerBytes
    temporaryEntryRentBumps := atEnd.temporaryEntryRentBumps - atStart.temporaryEntryRentBumps }

instance (inv : Invocation) : Decidable (∃ c f, inv = .call c f) :=
  match inv with
  | .call c f => isTrue ⟨c, f, rfl⟩
  | .upload => isFalse (fun ⟨_, _, h⟩ => by cases h)
  | .create => isFalse (fun ⟨_, _, h⟩ => by cases h)

mutual
/-- The calls made by something executed in an invocation, with what was used from the beginning of each to its end, and the host
after it. A contract call other than that of the invocation itself is a call of its own; the rest belongs to the invocation. -/
def calls {H : Type} (V : View H) (base : H) (within : Invocation) : Tr H → H → List Node × H
  | .work f, h => ([], f h)
  | .scope inv body, h =>
    if inv ≠ within ∧ (∃ c f, inv = .call c f) then
      ([.mk inv (used (V.read base (callsAll V base inv body h).2) (V.read base h)) (callsAll V base inv body h).1],
        (callsAll V base inv body h).2)
    else callsAll V base within body h
def callsAll {H : Type} (V : View H) (base : H) (within : Invocation) : List (Tr H) → H → List Node × H
  | [], h => ([], h)
  | t :: ts, h =>
    ((calls V base within t h).1 ++ (callsAll V base within ts (calls V base within t h).2).1,
      (callsAll V base within ts (calls V base within t h).2).2)
end

/-- An outermost invocation: it begins with the host reset. -/
def outermost {H : Type} (V : View H) (inv : Invocation) (body : List (Tr H)) (h : H) : Node × H :=
  let h0 := V.reset h
  let r := callsAll V h0 inv body h0
  (.mk inv (used (V.read h0 r.2) (V.read h0 h0)) r.1, r.2)

/-- What the meter shows after something that is not inside an invocation: the last outermost invocation, if any. -/
def topLevel {H : Type} (V : View H) : List (Tr H) → Option Node → H → Option Node × H
  | [], last, h => (last, h)
  | .work f :: ts, last, h => topLevel V ts last (f h)
  | .scope inv body :: ts, _, h => topLevel V ts (some (outermost V inv body h).1) (outermost V inv body h).2

mutual
/-- The host after something, if nothing is measured. -/
def after {H : Type} : Tr H → H → H
  | .work f, h => f h
  | .scope _ body, h => afterAll body h
def afterAll {H : Type} : List (Tr H) → H → H
  | [], h => h
  | t :: ts, h => afterAll ts (after t h)
end

/-- Something holds of a measured call and of all calls in it. -/
inductive Everywhere (P : Node → Prop) : Node → Prop where
  | mk {i r subs} (h : P (.mk i r subs)) (hs : ∀ t ∈ subs, Everywhere P t) : Everywhere P (.mk i r subs)

mutual
/-- A quantity that nothing that is executed makes smaller. -/
def Grows {H : Type} (q : H → Int) : Tr H → Prop
  | .work f => ∀ h, q h ≤ q (f h)
  | .scope _ body => GrowsAll q body
def GrowsAll {H : Type} (q : H → Int) : List (Tr H) → Prop
  | [] => True
  | t :: ts => Grows q t ∧ GrowsAll q ts
end

/-! ### at one moment -/

/-- An entry that is not held in memory: those of classic accounts and trustlines, and those that have been archived. -/
def onDisk (seq : Nat) (a : Access) : Prop :=
  a.key = .classic ∨ ((a.key = .persistent ∨ a.key = .code) ∧ (a.init.bind Sized.liveUntil).any (fun l => decide (l < seq)) = true)

instance (seq : Nat) : DecidablePred (onDisk seq) := fun a => by unfold onDisk; infer_instance

/-- The ledgers that the entry has been paid for at the beginning: none if it is new or archived. -/
def paidUntil (seq : Nat) (a : Access) : Nat :=
  max seq ((a.init.bind Sized.liveUntil).getD 0)

/-- Bytes at the beginning and now. -/
def oldBytes (a : Access) : Int := (a.init.map (fun e => (e.size : Int))).getD 0
def newBytes (a : Access) : Int := (a.cur.map (fun e => (e.size : Int))).getD 0

/-- The rent of an entry that lives until `new`, in bytes times ledgers: the bytes that are new for the ledgers paid for, and all
bytes for the ledgers that are new. -/
def rentOf (seq : Nat) (a : Access) : Int :=
  match a.cur with
  | some ⟨_, size, some new⟩ =>
    ((paidUntil seq a : Int) - seq) * max ((size : Int) - (a.init.map (fun e => (e.rentSize : Int))).getD 0) 0 +
      ((new : Int) - paidUntil seq a) * size
  | _ => 0

/-- No entry lives shorter than it has been paid for. -/
def Longer (seq : Nat) (a : Access) : Prop := ∀ e l, a.cur = some e → e.liveUntil = some l → paidUntil seq a ≤ l

/-- A sum over the accesses that have a property. -/
def sumOf (p : Access → Prop) [DecidablePred p] (f : Access → Int) (as : List Access) : Int :=
  ((as.filter (fun a => decide (p a))).map f).sum

end Soroban.Metering.Spec
