import Verif.Model.Convert
import Verif.Spec.Val
import Verif.Spec.Objects
/-!
Specification side of C04 and C05: the order of ledger values, which values are legal XDR, which of them the host accepts, and
what the host's objects look like.
-/
namespace Soroban.Spec

/-- Lexicographic order, a proper prefix being smaller. -/
def lexInts : List Int → List Int → Ordering
  | [], [] => .eq
  | [], _ :: _ => .lt
  | _ :: _, [] => .gt
  | a :: as, b :: bs => (compare a b).then (lexInts as bs)

/-- An address as numbers: its kind, then its content. -/
def addrContent : ScAddr → List Int
  | .account k => [0, k]
  | .contract k => [1, k]
  | .muxedAccount i k => [2, i, k]
  | .claimableBalance k => [3, k]
  | .liquidityPool k => [4, k]

/-- What a value that is not a container holds, as numbers. Integers of every width are one number. For containers, only
whether the optional part is present. -/
def content : ScVal → List Int
  | .bool b => [if b then 1 else 0]
  | .void => []
  | .error t c => [t, c]
  | .u32 n => [n]
  | .i32 i => [i]
  | .u64 n => [n]
  | .i64 i => [i]
  | .timepoint n => [n]
  | .duration n => [n]
  | .u128 hi lo => [hi * 2^64 + lo]
  | .i128 hi lo => [hi * 2^64 + lo]
  | .u256 a b c d => [a * 2^192 + b * 2^128 + c * 2^64 + d]
  | .i256 a b c d => [a * 2^192 + b * 2^128 + c * 2^64 + d]
  | .bytes b => b.map Int.ofNat
  | .string b => b.map Int.ofNat
  | .symbol b => b.map Int.ofNat
  | .vec none => [0]
  | .vec (some _) => [1]
  | .map none => [0]
  | .map (some _) => [1]
  | .address a => addrContent a
  | .contractInstance e none => [e, 0]
  | .contractInstance e (some _) => [e, 1]
  | .ledgerKeyContractInstance => []
  | .ledgerKeyNonce n => [n]
  | .executableTag b => b.map Int.ofNat

mutual
/-- The order of ledger values: by type, then numbers by value, byte strings and texts lexicographically, vectors and maps
lexicographically by element and by entry. -/
def scOrd : ScVal → ScVal → Ordering
  | .vec (some a), .vec (some b) => scOrdList a b
  | .map (some a), .map (some b) => scOrdEntries a b
  | .contractInstance e (some a), .contractInstance e' (some b) => (compare e e').then (scOrdEntries a b)
  | a, b => (compare a.discriminant b.discriminant).then (lexInts (content a) (content b))

/-- Elements in order, a proper prefix being smaller. -/
def scOrdList : List ScVal → List ScVal → Ordering
  | [], [] => .eq
  | [], _ :: _ => .lt
  | _ :: _, [] => .gt
  | a :: as, b :: bs => (scOrd a b).then (scOrdList as bs)

/-- Entries in order, each by key and then value. -/
def scOrdEntries : List (ScVal × ScVal) → List (ScVal × ScVal) → Ordering
  | [], [] => .eq
  | [], _ :: _ => .lt
  | _ :: _, [] => .gt
  | (k, v) :: as, (k', v') :: bs => ((scOrd k k').then (scOrd v v')).then (scOrdEntries as bs)
end

/-- The values directly inside a value. -/
def children : ScVal → List ScVal
  | .vec (some l) => l
  | .map (some m) => m.flatMap fun p => [p.1, p.2]
  | .contractInstance _ (some m) => m.flatMap fun p => [p.1, p.2]
  | _ => []

/-- The numbers a value holds directly fit their XDR types. -/
def InRange : ScVal → Prop
  | .error t c => t < 10 ∧ c < 2^32 ∧ (t = 0 ∨ c < 10)
  | .u32 n => n < 2^32
  | .i32 i => -2^31 ≤ i ∧ i < 2^31
  | .u64 n | .timepoint n | .duration n => n < 2^64
  | .i64 i => -2^63 ≤ i ∧ i < 2^63
  | .u128 hi lo => hi < 2^64 ∧ lo < 2^64
  | .i128 hi lo => (-2^63 ≤ hi ∧ hi < 2^63) ∧ lo < 2^64
  | .u256 a b c d => a < 2^64 ∧ b < 2^64 ∧ c < 2^64 ∧ d < 2^64
  | .i256 a b c d => (-2^63 ≤ a ∧ a < 2^63) ∧ b < 2^64 ∧ c < 2^64 ∧ d < 2^64
  | _ => True

/-- A legal XDR value: all numbers in it fit their types. -/
inductive XdrOk : ScVal → Prop
  | mk {s : ScVal} : InRange s → (∀ x ∈ children s, XdrOk x) → XdrOk s

/-- The values the host accepts when `d` levels of nesting are allowed: no missing vector or map body, no value reserved for
the ledger (contract instances, instance and nonce keys), symbols of at most 32 allowed characters, addresses of accounts,
contracts and muxed accounts, maps with strictly increasing keys. -/
def Accepted : Nat → ScVal → Prop
  | 0, _ => False
  | d + 1, .vec (some l) => l.length ≤ u32Max ∧ ∀ x ∈ l, Accepted d x
  | d + 1, .map (some m) => m.length ≤ u32Max ∧ (∀ p ∈ m, Accepted d p.1 ∧ Accepted d p.2) ∧
      m.Pairwise (fun p q => scOrd p.1 q.1 = .lt)
  | _ + 1, .vec none => False
  | _ + 1, .map none => False
  | _ + 1, .contractInstance _ _ => False
  | _ + 1, .ledgerKeyContractInstance => False
  | _ + 1, .ledgerKeyNonce _ => False
  | _ + 1, .symbol s => s.length ≤ 32 ∧ ∀ c ∈ s, isSymbolChar c
  | _ + 1, .address (.claimableBalance _) => False
  | _ + 1, .address (.liquidityPool _) => False
  | _ + 1, _ => True

mutual
/-- How many values a value consists of, itself included. -/
def nodes : ScVal → Nat
  | .vec (some l) => 1 + nodesList l
  | .map (some m) => 1 + nodesEntries m
  | _ => 1

def nodesList : List ScVal → Nat
  | [] => 0
  | s :: ss => nodes s + nodesList ss

def nodesEntries : List (ScVal × ScVal) → Nat
  | [] => 0
  | (k, v) :: es => nodes k + nodes v + nodesEntries es
end

/-- What the types and constructors of host objects guarantee: numbers fit their types, plain addresses are accounts or
contracts, muxed ones are muxed accounts. -/
def ObjOk : HostObj → Prop
  | .u64 n | .timepoint n | .duration n => n < 2^64
  | .i64 i => -2^63 ≤ i ∧ i < 2^63
  | .u128 n => n < 2^128
  | .i128 i => -2^127 ≤ i ∧ i < 2^127
  | .u256 n => n < 2^256
  | .i256 i => -2^255 ≤ i ∧ i < 2^255
  | .address a => (∃ k, a = .account k) ∨ ∃ k, a = .contract k
  | .muxedAddress a => ∃ i k, a = .muxedAccount i k
  | _ => True

/-- A 64-bit word that passes the host's integrity check: a legal word, and a handle's tag is the type of its object. -/
def Sound (objs : List HostObj) (v : Nat) : Prop := v < 2^64 ∧ checkIntegrity objs v = .ok ()

/-- Every object of the table is well-formed, and every value inside one passed the integrity check when the object was
made, so it refers to older objects only. -/
def ObjsOk (objs : List HostObj) : Prop :=
  ∀ i o, objs[i]? = some o → ObjOk o ∧ ∀ v ∈ elems o, Sound (objs.take i) v

/-- The ledger value that a host value stands for: the result of converting it, however deep it is nested. -/
def Denotes (objs : List HostObj) (v : Nat) (s : ScVal) : Prop := ∃ d, fromVal false objs d v = .ok s

/-- Nesting at most `d`, and no missing vector or map body. -/
def Comparable : Nat → ScVal → Prop
  | 0, _ => False
  | _ + 1, .vec none => False
  | _ + 1, .map none => False
  | d + 1, s => ∀ x ∈ children s, Comparable d x

end Soroban.Spec
