import Verif.Model.RecordedAuth
/-!
What the authorization entries returned by a simulation are.
-/
namespace Soroban.RecordedAuth.Spec
open Soroban Soroban.Auth

variable {X D : Type}

/-- Whose authorization an entry is, in a transaction of the source account `src`. -/
def owner (src : Addr) : Creds D → Addr
  | .source => src
  | .address c | .addressV2 c | .withDelegates c _ => c.addr

/-- An entry left for the user to sign: the source account need not; others have a nonce that is not negative and fits 64 bits, no
expiration and no signature yet, in the version of credentials asked for. -/
def ToSign (src : Addr) (v2 : Bool) : Creds D → Prop
  | .source => True
  | .address c => v2 = false ∧ c.addr ≠ src ∧ 0 ≤ c.nonce ∧ c.nonce < 2 ^ 63 ∧ c.expiration = 0 ∧ c.signature = .void
  | .addressV2 c => v2 = true ∧ c.addr ≠ src ∧ 0 ≤ c.nonce ∧ c.nonce < 2 ^ 63 ∧ c.expiration = 0 ∧ c.signature = .void
  | .withDelegates _ _ => False

/-- The address and nonce of an entry, which can be used only once. -/
def ticket : Creds D → Option (Addr × Int)
  | .source => none
  | .address c | .addressV2 c | .withDelegates c _ => some (c.addr, c.nonce)

/-- An entry signed. -/
def sign (sig : ScVal) : Creds D → Creds D
  | .source => .source
  | .address c => .address { c with signature := sig }
  | .addressV2 c => .addressV2 { c with signature := sig }
  | .withDelegates c ds => .withDelegates { c with signature := sig } ds

/-- What happens between the beginning and the end of a call: requests, calls that return and calls that fail. -/
inductive Body : List (Step X) → Prop where
  | nothing : Body []
  | ask (a : Addr) (draw : Nat) (x : X) : Body [.ask a draw x]
  | grow (i : Nat) (g : X → X) : Body [.grow i g]
  | call {b : List (Step X)} : Body b → Body (.enter :: b ++ [.leave])
  | failed {b : List (Step X)} : Body b → Body (.enter :: b ++ [.fail])
  | andThen {b c : List (Step X)} : Body b → Body c → Body (b ++ c)

end Soroban.RecordedAuth.Spec
