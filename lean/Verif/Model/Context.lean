import Verif.Model.Memory
import Verif.Model.Storage
/-!
The functions of the "context" module that tell a contract about the ledger and about itself (host.rs:1262-1321 without
`fail_with_error`, which is in `Model/HostFail`). Charges are not modelled here.
-/
namespace Soroban.Context
open Soroban

/-- ledger_info.rs:4-13 `LedgerInfo`: `live` has the fields that storage uses, with the sequence number. -/
structure Ledger where
  protocol : Nat
  timestamp : Nat
  network : List Nat
  live : Storage.LedgerInfo
  deriving DecidableEq, Repr

/-- soroban-env-common/env.json, the functions of module `context` without arguments. -/
inductive CFn where
  | version | sequence | timestamp | network | current | maxLive
  deriving DecidableEq, Repr

/-- host.rs:612-617, frame.rs:670-675 and ledger_info_helper.rs:32-35: the error if there is no answer. -/
def internalError : Err := .host .context .internalError

/-- host.rs:607-620 `with_ledger_info` -/
def withLedger {α : Type} (li : Option Ledger) (f : Ledger → Res α) : Res α :=
  match li with
  | none => .error internalError
  | some li => f li

/-- soroban-env-common/src/convert.rs:143-154 and num.rs:394-396, `U64Val::try_from_val` of a `u64`: inline if it has 56 bits, and an
object otherwise. -/
def u64Val (objs : List HostObj) (n : Nat) : Res (List HostObj × Nat) :=
  if isSmallU64 n then .ok (objs, Val.fromBodyAndTag n .U64Small) else addObj objs (.u64 n)

/-- host/frame.rs:646-677 `get_current_contract_id_internal`: `frames` are the contracts of the frames, innermost first; the frame
of a host function has none. -/
def currentId (frames : List (Option Nat)) : Res Nat :=
  match frames with
  | some id :: _ => .ok id
  | _ => .error internalError

/-- host/ledger_info_helper.rs:25-38 `max_live_until_ledger` -/
def maxLive (li : Ledger) : Res Nat :=
  match li.live.maxLiveUntil with
  | some n => .ok n
  | none => .error internalError

/-- host.rs:1262-1272 and 1295-1321, the bodies of the functions. -/
def runC (li : Option Ledger) (frames : List (Option Nat)) (objs : List HostObj) : CFn → Res (List HostObj × Nat)
  | .version => withLedger li fun li => .ok (objs, valU32 li.protocol)
  | .sequence => withLedger li fun li => .ok (objs, valU32 li.live.seq)
  | .timestamp => withLedger li fun li => u64Val objs li.timestamp
  | .network => withLedger li fun li => addObj objs (.bytes li.network)
  | .current => do
    let id ← currentId frames
    addObj objs (.address (.contract id))
  | .maxLive => withLedger li fun li => do
    let n ← maxLive li
    .ok (objs, valU32 n)

/-- vm/dispatch.rs:206-300, one call made by the VM of a frame: what the frame has then, and the word handed back. -/
def dispatchC (li : Option Ledger) (frames : List (Option Nat)) (l : Lin) (f : CFn) : Res (Lin × Int) := do
  let p ← runC li frames l.objs f
  checkIntegrity p.1 p.2
  let q ← absToRel l.tbl p.2
  .ok ({ l with objs := p.1, tbl := q.1 }, (q.2 : Int))

end Soroban.Context
