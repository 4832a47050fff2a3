import Verif.Model.Auth
import Verif.Model.ScVal
/-!
The authorization entries a simulation returns: soroban-env-host/src/auth.rs in recording mode, where it makes new trackers, and
soroban-env-host/src/e2e_invoke.rs, where it makes entries of them.

Simplifications: when a request makes a new tracker, and how its tree grows, is in `Verif/Model/Recording.lean`; here both are part of the
history, which is arbitrary, and trees are of any type `X`. The ledger is the set of nonces in it (`consumeNonce` in
`Verif/Model/Host.lean` is the function on storage). The XDR of the entries, which are written and read before they are used, is left out.
-/
namespace Soroban.RecordedAuth
open Soroban Soroban.Auth

variable {X D : Type}

/-- auth.rs:617-638 `AccountAuthorizationTracker`, the parts that become part of an entry. `source` is `is_transaction_source_account` of the
credentials. -/
structure Tracker (X : Type) where
  addr : Addr
  source : Bool
  nonce : Option (Int × Nat)
  tree : X

/-- The trackers (auth.rs:201-224) and the nonces the simulation has put into the ledger. -/
structure State (X : Type) where
  trackers : List (Tracker X)
  nonces : List (Addr × Int)

/-- auth.rs:2958-3014 `consume_nonce`: `live` says which nonces the ledger has at the start. -/
def consume (live : Addr → Int → Bool) (nonces : List (Addr × Int)) (a : Addr) (n : Int) : Res (List (Addr × Int)) :=
  if live a n || nonces.contains (a, n) then .error (.host .auth .existingValue) else .ok ((a, n) :: nonces)

/-- auth.rs:2414-2463 `new_recording` of a tracker and auth.rs:1417-1433, where it is added. `src` is the source account, `draw` the random
number, of which `gen_range` makes one from 0 to the largest 64-bit one. -/
def newTracker (src : Option Addr) (live : Addr → Int → Bool) (st : State X) (a : Addr) (draw : Nat) (x : X) : Res (State X) :=
  if src = some a then .ok { st with trackers := st.trackers ++ [⟨a, true, none, x⟩] }
  else
    let n : Int := (draw % 2 ^ 63 : Nat)
    match consume live st.nonces a n with
    | .error e => .error e
    | .ok ns => .ok { trackers := st.trackers ++ [⟨a, false, some (n, 0), x⟩], nonces := ns }

/-- What happens to the trackers in a simulation: a request makes a new one; a request makes the tree of one grow; a call begins, returns or
fails. -/
inductive Step (X : Type) where
  | ask (a : Addr) (draw : Nat) (x : X)
  | grow (i : Nat) (g : X → X)
  | enter
  | leave
  | fail

/-- The state, and the snapshots of the calls in progress (auth.rs:1460-1511 `snapshot`; the snapshot of storage is
host/frame.rs:233-249). -/
abbrev Sim (X : Type) := State X × List (State X)

/-- One step. A request that fails changes nothing (the call it is made in fails, too, which is another step); a call that fails brings its
snapshot back: auth.rs:1515-1595 `rollback`. -/
def step (src : Option Addr) (live : Addr → Int → Bool) (s : Sim X) : Step X → Sim X
  | .ask a draw x => match newTracker src live s.1 a draw x with
    | .ok st => (st, s.2)
    | .error _ => s
  | .grow i g => ({ s.1 with trackers := s.1.trackers.modify i (fun t => { t with tree := g t.tree }) }, s.2)
  | .enter => (s.1, s.1 :: s.2)
  | .leave => (s.1, s.2.tail)
  | .fail => match s.2 with
    | [] => s
    | st :: rest => (st, rest)

/-- A whole simulation, up to its end. -/
def run (src : Option Addr) (live : Addr → Int → Bool) (h : List (Step X)) : State X :=
  (h.foldl (step src live) (⟨[], []⟩, [])).1

/-- auth.rs:1731-1746 and 2540-2555 `RecordedAuthPayload`, `get_recorded_auth_payload` -/
structure Payload (X : Type) where
  addr : Option Addr
  nonce : Option Int
  tree : X

/-- auth.rs:2540-2555 `get_recorded_auth_payload` -/
def payload (t : Tracker X) : Payload X :=
  { addr := if t.source then none else some t.addr, nonce := t.nonce.map Prod.fst, tree := t.tree }

/-- XDR `SorobanAddressCredentials` -/
structure AddrCreds where
  addr : Addr
  nonce : Int
  expiration : Nat
  signature : ScVal

/-- XDR `SorobanCredentials`; delegates are of any type. -/
inductive Creds (D : Type) where
  | source
  | address (c : AddrCreds)
  | addressV2 (c : AddrCreds)
  | withDelegates (c : AddrCreds) (ds : D)

/-- XDR `SorobanAuthorizationEntry` -/
structure Entry (X D : Type) where
  creds : Creds D
  tree : X

/-- e2e_invoke.rs:623-658 `into_auth_entry_with_emulated_signature` -/
def toEntry (v2 : Bool) (p : Payload X) : Res (Entry X D) :=
  match p.addr, p.nonce with
  | some a, some n =>
    let c : AddrCreds := ⟨a, n, 0, .bytes (List.replicate 512 0)⟩
    .ok ⟨if v2 then .addressV2 c else .address c, p.tree⟩
  | none, none => .ok ⟨.source, p.tree⟩
  | _, _ => .error (.host .auth .internalError)

/-- e2e_invoke.rs:662-673 `clear_signature` -/
def clearSignature (e : Entry X D) : Entry X D :=
  { e with creds := match e.creds with
    | .address c => .address { c with signature := .void }
    | .addressV2 c => .addressV2 { c with signature := .void }
    | .source => .source
    | .withDelegates c ds => .withDelegates { c with signature := .void } ds }

/-- e2e_invoke.rs:807-823, the entries of all payloads. -/
def toEntries (v2 : Bool) : List (Payload X) → Res (List (Entry X D))
  | [] => .ok []
  | p :: ps => do
    let e ← toEntry v2 p
    let es ← toEntries v2 ps
    .ok (e :: es)

/-- e2e_invoke.rs:694-701 `RecordingInvocationAuthMode` -/
inductive Mode (X D : Type) where
  | enforcing (entries : List (Entry X D))
  | recording (v2 : Bool)

/-- What is done with the entries. -/
structure Output (X D : Type) where
  /-- the entries the authorization manager is given, so that reading them is metered, if there are new ones -/
  installed : Option (List (Entry X D))
  /-- the entries in the result of the simulation -/
  returned : List (Entry X D)

/-- e2e_invoke.rs:801-834: the entries the simulation returns. -/
def outputAuth (mode : Mode X D) (st : State X) : Res (Output X D) :=
  match mode with
  | .enforcing es => .ok ⟨none, es⟩
  | .recording v2 => do
    let es ← toEntries v2 (st.trackers.map payload)
    .ok ⟨some es, es.map clearSignature⟩

end Soroban.RecordedAuth
