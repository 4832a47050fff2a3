import Verif.Model.Objects
/-!
Model of XDR `ScVal` and of the comparison of `ScVal`s and of host values:
soroban-env-common/src/{val,compare,error,object,num}.rs, soroban-env-host/src/{host,host_object}.rs and
soroban-env-host/src/host/{comparison,metered_map,metered_vector}.rs.

Simplifications: budget charges are dropped, except for the depth limit (`DepthLimiter`), which is the first argument of the
recursive functions. XDR types come from the `stellar-xdr` crate, which is not part of the repository; their derived `Ord`
instances (field by field, cases in the order of their discriminants) are written out here.
-/
namespace Soroban

/-- XDR `SCVal` (Stellar-contract.x; its cases are listed in soroban-env-common/src/val.rs:601-629). 128- and 256-bit integers
are held in 64-bit pieces, as in XDR. An error is its type and code (`ScErrorType` 0 is `Contract`, whose code is any `u32`).
The executable of an instance is an opaque number; byte strings are lists of bytes. -/
inductive ScVal where
  | bool (b : Bool)
  | void
  | error (type code : Nat)
  | u32 (n : Nat)
  | i32 (i : Int)
  | u64 (n : Nat)
  | i64 (i : Int)
  | timepoint (n : Nat)
  | duration (n : Nat)
  | u128 (hi lo : Nat)
  | i128 (hi : Int) (lo : Nat)
  | u256 (hihi hilo lohi lolo : Nat)
  | i256 (hihi : Int) (hilo lohi lolo : Nat)
  | bytes (b : List Nat)
  | string (b : List Nat)
  | symbol (b : List Nat)
  | vec (v : Option (List ScVal))
  | map (m : Option (List (ScVal × ScVal)))
  | address (a : ScAddr)
  | contractInstance (executable : Nat) (storage : Option (List (ScVal × ScVal)))
  | ledgerKeyContractInstance
  | ledgerKeyNonce (n : Int)
  | executableTag (b : List Nat)

/-- XDR `ScValType`, the discriminant of `ScVal`; val.rs:214-252 relies on its order. -/
def ScVal.discriminant : ScVal → Nat
  | .bool _ => 0 | .void => 1 | .error _ _ => 2 | .u32 _ => 3 | .i32 _ => 4 | .u64 _ => 5 | .i64 _ => 6
  | .timepoint _ => 7 | .duration _ => 8 | .u128 _ _ => 9 | .i128 _ _ => 10 | .u256 _ _ _ _ => 11 | .i256 _ _ _ _ => 12
  | .bytes _ => 13 | .string _ => 14 | .symbol _ => 15 | .vec _ => 16 | .map _ => 17 | .address _ => 18
  | .contractInstance _ _ => 19 | .ledgerKeyContractInstance => 20 | .ledgerKeyNonce _ => 21 | .executableTag _ => 22

/-- val.rs:214-252 `get_scval_type`. -/
def Tag.scValType : Tag → Option Nat
  | .False | .True => some 0
  | .Void => some 1
  | .Error => some 2
  | .U32Val => some 3
  | .I32Val => some 4
  | .U64Small | .U64Object => some 5
  | .I64Small | .I64Object => some 6
  | .TimepointSmall | .TimepointObject => some 7
  | .DurationSmall | .DurationObject => some 8
  | .U128Small | .U128Object => some 9
  | .I128Small | .I128Object => some 10
  | .U256Small | .U256Object => some 11
  | .I256Small | .I256Object => some 12
  | .BytesObject => some 13
  | .StringObject => some 14
  | .SymbolSmall | .SymbolObject => some 15
  | .VecObject => some 16
  | .MapObject => some 17
  | .AddressObject | .MuxedAddressObject => some 18
  | .ExecutableTagObject => some 22
  | .SmallCodeUpperBound | .ObjectCodeLowerBound | .ObjectCodeUpperBound | .Bad => none

/-! ### integers in pieces -/

/-- `int128_helpers::u128_from_pieces` (stellar-xdr). -/
def u128FromPieces (hi lo : Nat) : Nat := hi * 2^64 + lo

/-- `int128_helpers::i128_from_pieces` (stellar-xdr): the high word is signed. -/
def i128FromPieces (hi : Int) (lo : Nat) : Int := hi * 2^64 + (lo : Int)

/-- `int128_helpers::{u128_hi, u128_lo}` (stellar-xdr). -/
def u128Hi (u : Nat) : Nat := u / 2^64 % 2^64
def u128Lo (u : Nat) : Nat := u % 2^64

/-- `int128_helpers::{i128_hi, i128_lo}` (stellar-xdr): an arithmetic shift and a truncation. -/
def i128Hi (i : Int) : Int := asI64 (asU64 (i / 2^64))
def i128Lo (i : Int) : Nat := asU64 i

/-- soroban-env-common/src/num.rs:431-435 `u256_from_pieces`. -/
def u256FromPieces (hihi hilo lohi lolo : Nat) : Nat := (hihi * 2^64 + hilo) * 2^128 + (lohi * 2^64 + lolo)

/-- num.rs:437-442 `u256_into_pieces`. -/
def u256IntoPieces (u : Nat) : Nat × Nat × Nat × Nat :=
  (u / 2^192 % 2^64, u / 2^128 % 2^64, u / 2^64 % 2^64, u % 2^64)

/-- num.rs:444-448 `i256_from_pieces`. -/
def i256FromPieces (hihi : Int) (hilo lohi lolo : Nat) : Int := (hihi * 2^64 + (hilo : Int)) * 2^128 + ((lohi : Int) * 2^64 + (lolo : Int))

/-- num.rs:450-455 `i256_into_pieces`. -/
def i256IntoPieces (i : Int) : Int × Nat × Nat × Nat :=
  (asI64 (asU64 (i / 2^192)), asU64 (i / 2^128), asU64 (i / 2^64), asU64 i)

/-! ### comparison of `ScVal`s -/

/-- The error of the depth limiter: soroban-env-host/src/budget/limits.rs:83-94 `enter`. -/
def depthErr : Err := .host .context .exceededLimit

/-- The derived `Ord` of XDR `ScAddress`: by case, then by content (muxed accounts by id, then key). -/
def ScAddr.cmp : ScAddr → ScAddr → Ordering
  | .account a, .account b => compare a b
  | .contract a, .contract b => compare a b
  | .muxedAccount i k, .muxedAccount i' k' => (compare i i').then (compare k k')
  | .claimableBalance a, .claimableBalance b => compare a b
  | .liquidityPool a, .liquidityPool b => compare a b
  | a, b => compare (rank a) (rank b)
where
  rank : ScAddr → Nat
    | .account _ => 0 | .contract _ => 1 | .muxedAccount _ _ => 2 | .claimableBalance _ => 3 | .liquidityPool _ => 4

/-- soroban-env-common/src/compare.rs:74-90 `Compare<Vec<T>>`: the first unequal position decides, a proper prefix is
smaller. -/
def cmpVec {A : Type} (cmp : A → A → Res Ordering) : List A → List A → Res Ordering
  | [], [] => .ok .eq
  | [], _ :: _ => .ok .lt
  | _ :: _, [] => .ok .gt
  | a :: as, b :: bs => do
    match ← cmp a b with
    | .eq => cmpVec cmp as bs
    | o => .ok o

/-- compare.rs:47-68 `Compare<(T, U)>`: used for map entries. -/
def cmpPair {A : Type} (cmp : A → A → Res Ordering) (a b : A × A) : Res Ordering := do
  match ← cmp a.1 b.1 with
  | .eq => cmp a.2 b.2
  | o => .ok o

/-- compare.rs:35-46 `Compare<Option<T>>`. -/
def cmpOption {A : Type} (cmp : A → A → Res Ordering) : Option A → Option A → Res Ordering
  | some a, some b => cmp a b
  | none, none => .ok .eq
  | none, some _ => .ok .lt
  | some _, none => .ok .gt

/-- soroban-env-host/src/host/comparison.rs:299-378, the body of `Compare<ScVal>` after the depth check; `cmp` compares the
nested values. Derived `Ord` of the parts: pieces from the highest down, errors by type then code. Map entries are compared
as pairs (comparison.rs:255-270). -/
def scValCmpBody (cmp : ScVal → ScVal → Res Ordering) : ScVal → ScVal → Res Ordering
  | .vec none, _ => .error (.host .value .invalidInput)
  | .map none, _ => .error (.host .value .invalidInput)
  | _, .vec none => .error (.host .value .invalidInput)
  | _, .map none => .error (.host .value .invalidInput)
  | .vec (some a), .vec (some b) => cmpVec cmp a b
  | .map (some a), .map (some b) => cmpVec (cmpPair cmp) a b
  | .bytes a, .bytes b => .ok (lexCmp a b)
  | .string a, .string b => .ok (lexCmp a b)
  | .symbol a, .symbol b => .ok (lexCmp a b)
  | .executableTag a, .executableTag b => .ok (lexCmp a b)
  | .contractInstance e s, .contractInstance e' s' => do
    match compare e e' with
    | .eq => cmpOption (cmpVec (cmpPair cmp)) s s'
    | o => .ok o
  | .bool a, .bool b => .ok (compare a.toNat b.toNat)
  | .error t c, .error t' c' => .ok ((compare t t').then (compare c c'))
  | .u32 a, .u32 b => .ok (compare a b)
  | .i32 a, .i32 b => .ok (compare a b)
  | .u64 a, .u64 b => .ok (compare a b)
  | .i64 a, .i64 b => .ok (compare a b)
  | .timepoint a, .timepoint b => .ok (compare a b)
  | .duration a, .duration b => .ok (compare a b)
  | .u128 h l, .u128 h' l' => .ok ((compare h h').then (compare l l'))
  | .i128 h l, .i128 h' l' => .ok ((compare h h').then (compare l l'))
  | .u256 a b c d, .u256 a' b' c' d' =>
    .ok ((compare a a').then ((compare b b').then ((compare c c').then (compare d d'))))
  | .i256 a b c d, .i256 a' b' c' d' =>
    .ok ((compare a a').then ((compare b b').then ((compare c c').then (compare d d'))))
  | .address a, .address b => .ok (a.cmp b)
  | .ledgerKeyNonce a, .ledgerKeyNonce b => .ok (compare a b)
  | a, b => .ok (compare a.discriminant b.discriminant)

/-- host/comparison.rs:294-379 `Compare<ScVal> for Budget`, with `depth` levels left. -/
def scValCmp : (depth : Nat) → ScVal → ScVal → Res Ordering
  | 0, _, _ => .error depthErr
  | d + 1, a, b => scValCmpBody (scValCmp d) a b

/-! ### comparison of host values -/

/-- host/comparison.rs:26-45 `host_obj_discriminant`. -/
def HostObj.discriminant : HostObj → Nat
  | .u64 _ => 0 | .i64 _ => 1 | .timepoint _ => 2 | .duration _ => 3 | .u128 _ => 4 | .i128 _ => 5 | .u256 _ => 6
  | .i256 _ => 7 | .bytes _ => 8 | .string _ => 9 | .symbol _ => 10 | .vec _ => 11 | .map _ => 12 | .address _ => 13
  | .muxedAddress _ => 14 | .executableTag _ => 15

/-- host/comparison.rs:54-101, the body of `Compare<HostObject>` after the depth check; `cmp` compares the nested values.
Vectors and maps: host/metered_vector.rs:366-395 and host/metered_map.rs:368-392, elementwise as `cmpVec`. -/
def hostObjCmpBody (cmp : Nat → Nat → Res Ordering) : HostObj → HostObj → Res Ordering
  | .u64 a, .u64 b => .ok (compare a b)
  | .i64 a, .i64 b => .ok (compare a b)
  | .timepoint a, .timepoint b => .ok (compare a b)
  | .duration a, .duration b => .ok (compare a b)
  | .u128 a, .u128 b => .ok (compare a b)
  | .i128 a, .i128 b => .ok (compare a b)
  | .u256 a, .u256 b => .ok (compare a b)
  | .i256 a, .i256 b => .ok (compare a b)
  | .vec a, .vec b => cmpVec cmp a b
  | .map a, .map b => cmpVec (cmpPair cmp) a b
  | .bytes a, .bytes b => .ok (lexCmp a b)
  | .string a, .string b => .ok (lexCmp a b)
  | .symbol a, .symbol b => .ok (lexCmp a b)
  | .address a, .address b => .ok (a.cmp b)
  | .muxedAddress a, .muxedAddress b => .ok (a.cmp b)
  | .executableTag a, .executableTag b => .ok (lexCmp a b)
  | a, b => .ok (compare a.discriminant b.discriminant)

/-- symbol.rs:286-293 `SymbolSmall::to_str` and 325-329 `as_ref`: the characters written to a zeroed array, cut at the first
zero. No character is zero and there are at most ten, so nothing is cut. -/
def symbolStrBytes (v : Nat) : List Nat := (symbolChars v).takeWhile (· ≠ 0)

/-- soroban-env-host/src/host_object.rs:69-149 `try_compare_to_small`; `none` when the word is not of the small type of the
object. -/
def tryCompareToSmall (o : HostObj) (v : Nat) : Option Ordering :=
  match o with
  | .u64 n => (ofSmall .u64 v).map fun s => compare (n : Int) s
  | .i64 i => (ofSmall .i64 v).map fun s => compare i s
  | .timepoint n => (ofSmall .timepoint v).map fun s => compare (n : Int) s
  | .duration n => (ofSmall .duration v).map fun s => compare (n : Int) s
  | .u128 n => (ofSmall .u128 v).map fun s => compare (n : Int) s
  | .i128 i => (ofSmall .i128 v).map fun s => compare i s
  | .u256 n => (ofSmall .u256 v).map fun s => compare (n : Int) s
  | .i256 i => (ofSmall .i256 v).map fun s => compare i s
  | .symbol s => if Val.hasTag v .SymbolSmall then some (lexCmp s (symbolStrBytes v)) else none
  | .vec _ | .map _ | .bytes _ | .string _ | .address _ | .muxedAddress _ | .executableTag _ => none

/-- `Option<ScValType>::cmp`: `None` first. -/
def optTypeCmp : Option Nat → Option Nat → Ordering
  | none, none => .eq
  | none, some _ => .lt
  | some _, none => .gt
  | some a, some b => compare a b

/-- soroban-env-host/src/host.rs:1225-1240, the fallback of `obj_cmp` to the order of types. -/
def objCmpByType (a b : Nat) : Res Ordering :=
  if (Val.tag a).scValType = (Val.tag b).scValType then .error (.host .value .internalError)
  else .ok (optTypeCmp (Val.tag a).scValType (Val.tag b).scValType)

/-- host.rs:1192-1250 `obj_cmp`; `ocmp` is `Compare<HostObject>`. -/
def objCmp (ocmp : HostObj → HostObj → Res Ordering) (objs : List HostObj) (a b : Nat) : Res Int :=
  match Val.isObject a, Val.isObject b with
  | true, true => do
    let ao ← visitObj objs a
    let bo ← visitObj objs b
    let o ← ocmp ao bo
    .ok (ordToInt o)
  | true, false => do
    let ao ← visitObj objs a
    let o ← match tryCompareToSmall ao b with
      | some o => .ok o
      | none => objCmpByType a b
    .ok (ordToInt o)
  | false, true => do
    let bo ← visitObj objs b
    let o ← match tryCompareToSmall bo a with
      | some o => .ok o.swap
      | none => objCmpByType a b
    .ok (ordToInt o)
  | false, false => .error (.host .value .unexpectedType)

/-- compare.rs:158-202, the comparison of two non-objects with equal tags. -/
def sameTagCmp (t : Tag) (a b : Nat) : Res Ordering :=
  match t with
  | .False | .True | .Void | .SmallCodeUpperBound | .ObjectCodeLowerBound | .ObjectCodeUpperBound | .Bad => .ok .eq
  | .Error => .ok ((compare (Val.minor a) (Val.minor b)).then (compare (Val.major a) (Val.major b)))
  | .U32Val => .ok (compare (Val.major a) (Val.major b))
  | .I32Val => .ok (compare (asI32 (Val.major a)) (asI32 (Val.major b)))
  | .U64Small | .TimepointSmall | .DurationSmall | .U128Small | .U256Small => .ok (compare (Val.body a) (Val.body b))
  | .I64Small | .I128Small | .I256Small => .ok (compare (Val.signedBody a) (Val.signedBody b))
  | .SymbolSmall => .ok (symbolSmallCmp a b)
  | _ => .error (.host .context .internalError)

/-- compare.rs:127-208 `Compare<Val>`; `ocmp` is `Compare<HostObject>`. -/
def valCmpBody (ocmp : HostObj → HostObj → Res Ordering) (objs : List HostObj) (a b : Nat) : Res Ordering :=
  if a = b then .ok .eq
  else if Val.isObject a || Val.isObject b then do
    let v ← objCmp ocmp objs a b
    if v = 0 then .ok .eq else if v < 0 then .ok .lt else .ok .gt
  else
    let ta := (Val.tag a).code
    let tb := (Val.tag b).code
    if ta < tb then .ok .lt
    else if tb < ta then .ok .gt
    else sameTagCmp (Val.tag a) a b

/-- compare.rs:127-208 `Compare<Val>` of the host, with `depth` levels left; the depth is taken by
host/comparison.rs:47-104 `Compare<HostObject>`. -/
def valCmp (objs : List HostObj) : (depth : Nat) → Nat → Nat → Res Ordering
  | 0 => valCmpBody (fun _ _ => .error depthErr) objs
  | d + 1 => valCmpBody (hostObjCmpBody (valCmp objs d)) objs

/-- host/comparison.rs:47-104 `Compare<HostObject>`, with `depth` levels left. -/
def hostObjCmp (objs : List HostObj) : (depth : Nat) → HostObj → HostObj → Res Ordering
  | 0 => fun _ _ => .error depthErr
  | d + 1 => hostObjCmpBody (valCmp objs d)

end Soroban
