import Verif.Model.ScVal
/-!
Model of the conversions between ledger values (`ScVal`) and host values (`Val`): soroban-env-common/src/{convert,object,val}.rs
and soroban-env-host/src/host/conversion.rs.

Simplifications: budget charges are dropped except for the depth limit, which is an argument. Host vectors and maps have at
most `u32::MAX` elements, as do XDR arrays, so the length checks of `try_into` in `from_host_obj` cannot fail and are dropped.
-/
namespace Soroban

/-- `ConversionError` as an error: soroban-env-common/src/error.rs:148-152. -/
def conversionErr : Err := .host .value .unexpectedType

/-! ### from host values -/

/-- soroban-env-common/src/convert.rs:438-508, `ScVal::try_from_val` of a word that is not an object. -/
def fromSmallVal (v : Nat) : Res ScVal :=
  match Val.tag v with
  | .False => .ok (.bool false)
  | .True => .ok (.bool true)
  | .Void => .ok .void
  | .Error => if errorIsValid v then .ok (.error (Val.minor v) (Val.major v)) else .error (.host .value .invalidInput)
  | .U32Val => .ok (.u32 (Val.major v))
  | .I32Val => .ok (.i32 (asI32 (Val.major v)))
  | .U64Small => .ok (.u64 (Val.body v))
  | .I64Small => .ok (.i64 (Val.signedBody v))
  | .TimepointSmall => .ok (.timepoint (Val.body v))
  | .DurationSmall => .ok (.duration (Val.body v))
  | .U128Small => .ok (.u128 0 (Val.body v))
  | .I128Small => .ok (.i128 (i128Hi (Val.signedBody v)) (i128Lo (Val.signedBody v)))
  | .U256Small => .ok (.u256 0 0 0 (Val.body v))
  | .I256Small =>
    let p := i256IntoPieces (Val.signedBody v)
    .ok (.i256 p.1 p.2.1 p.2.2.1 p.2.2.2)
  | .SymbolSmall => .ok (.symbol (symbolChars v))
  | _ => .error conversionErr

/-- Convert the elements of a vector in order. -/
def fromVals (rec : Nat → Res ScVal) : List Nat → Res (List ScVal)
  | [] => .ok []
  | v :: vs => do
    let s ← rec v
    let ss ← fromVals rec vs
    .ok (s :: ss)

/-- soroban-env-host/src/host/conversion.rs:263-271 `host_map_to_scmap`. -/
def fromEntries (rec : Nat → Res ScVal) : List (Nat × Nat) → Res (List (ScVal × ScVal))
  | [] => .ok []
  | (k, v) :: es => do
    let k' ← rec k
    let v' ← rec v
    let es' ← fromEntries rec es
    .ok ((k', v') :: es')

/-- host/conversion.rs:460-541 `from_host_obj`; `rec` is `from_host_val`, `forStorage` the flag
`storage_key_conversion_active`. -/
def fromHostObj (rec : Nat → Res ScVal) (forStorage : Bool) : HostObj → Res ScVal
  | .vec vv => do let sv ← fromVals rec vv; .ok (.vec (some sv))
  | .map mm => do let sm ← fromEntries rec mm; .ok (.map (some sm))
  | .u64 u => .ok (.u64 u)
  | .i64 i => .ok (.i64 i)
  | .timepoint t => .ok (.timepoint t)
  | .duration d => .ok (.duration d)
  | .u128 u => .ok (.u128 (u128Hi u) (u128Lo u))
  | .i128 i => .ok (.i128 (i128Hi i) (i128Lo i))
  | .u256 u => let p := u256IntoPieces u; .ok (.u256 p.1 p.2.1 p.2.2.1 p.2.2.2)
  | .i256 i => let p := i256IntoPieces i; .ok (.i256 p.1 p.2.1 p.2.2.1 p.2.2.2)
  | .bytes b => .ok (.bytes b)
  | .string s => .ok (.string s)
  | .symbol s => .ok (.symbol s)
  | .address a => .ok (.address a)
  | .muxedAddress a => if forStorage then .error (.host .storage .invalidInput) else .ok (.address a)
  | .executableTag t => .ok (.executableTag t)

/-- convert.rs:426-509 `ScVal::try_from_val`. -/
def scValTryFromVal (rec : Nat → Res ScVal) (forStorage : Bool) (objs : List HostObj) (v : Nat) : Res ScVal :=
  if Val.isObject v then do
    let o ← visitObj objs v
    fromHostObj rec forStorage o
  else fromSmallVal v

/-- val.rs:633-641 `can_represent_scval` (with 601-629 `can_represent_scval_type`). -/
def canRepresent : ScVal → Bool
  | .vec none | .map none | .contractInstance _ _ | .ledgerKeyContractInstance | .ledgerKeyNonce _ => false
  | _ => true

/-- host/conversion.rs:391-402 `check_val_representable_scval`. -/
def checkRepresentable (s : ScVal) : Res ScVal := if canRepresent s then .ok s else .error (.host .value .internalError)

/-- host/conversion.rs:404-417 `from_host_val` (`forStorage = false`) and 419-430 `from_host_val_for_storage`, with `depth`
levels left. The nested calls of the storage variant are `from_host_val` with the flag still set. -/
def fromVal (forStorage : Bool) (objs : List HostObj) : (depth : Nat) → Nat → Res ScVal
  | 0, _ => .error depthErr
  | d + 1, v => do
    let s ← scValTryFromVal (fromVal forStorage objs d) forStorage objs v
    checkRepresentable s

/-! ### to host values -/

/-- object.rs:127-200 `ScValObjRef::classify`: whether the value needs an object. -/
def needsObject : ScVal → Bool
  | .bool _ | .void | .error _ _ | .u32 _ | .i32 _ | .ledgerKeyContractInstance | .ledgerKeyNonce _
  | .contractInstance _ _ => false
  | .bytes _ | .string _ | .vec _ | .map _ | .address _ | .executableTag _ => true
  | .u64 n | .timepoint n | .duration n => !isSmallU64 n
  | .i64 i => !isSmallI64 i
  | .u128 hi lo => !isSmallUWide (u128FromPieces hi lo)
  | .i128 hi lo => !isSmallIWide (i128FromPieces hi lo)
  | .u256 a b c d => !isSmallUWide (u256FromPieces a b c d)
  | .i256 a b c d => !isSmallIWide (i256FromPieces a b c d)
  | .symbol s => !decide (s.length ≤ 9)

/-- convert.rs:513-519 `require_or_conversion_error`, then the word. -/
def smallOr (ok : Bool) (v : Nat) : Res Nat := if ok then .ok v else .error conversionErr

/-- convert.rs:545-603, `Val::try_from_val` of a value that needs no object. -/
def toSmallVal : ScVal → Res Nat
  | .bool b => .ok (valBool b)
  | .void => .ok valVoid
  | .error t c => .ok (valError t c)
  | .u32 n => .ok (valU32 n)
  | .i32 i => .ok (Val.fromMajorMinorAndTag (asU32 i) 0 .I32Val)
  | .u64 n => smallOr (isSmallU64 n) (Val.fromBodyAndTag n .U64Small)
  | .i64 i => smallOr (isSmallI64 i) (Val.fromBodyAndTag (asU64 i) .I64Small)
  | .timepoint n => smallOr (isSmallU64 n) (Val.fromBodyAndTag n .TimepointSmall)
  | .duration n => smallOr (isSmallU64 n) (Val.fromBodyAndTag n .DurationSmall)
  | .u128 hi lo => smallOr (isSmallUWide (u128FromPieces hi lo)) (Val.fromBodyAndTag (u128FromPieces hi lo % 2^64) .U128Small)
  | .i128 hi lo =>
    smallOr (isSmallIWide (i128FromPieces hi lo)) (Val.fromBodyAndTag (asU64 (asI64 (asU64 (i128FromPieces hi lo)))) .I128Small)
  | .u256 a b c d => smallOr (isSmallUWide (u256FromPieces a b c d)) (Val.fromBodyAndTag d .U256Small)
  | .i256 a b c d => smallOr (isSmallIWide (i256FromPieces a b c d)) (Val.fromBodyAndTag d .I256Small)
  | .symbol s => match symbolTryFromBytes s with | some v => .ok v | none => .error (.host .value .invalidInput)
  | _ => .error conversionErr

/-- Convert the elements of a vector in order, each adding its objects to the table. -/
def toVals (rec : List HostObj → ScVal → Res (List HostObj × Nat)) (objs : List HostObj) :
    List ScVal → Res (List HostObj × List Nat)
  | [] => .ok (objs, [])
  | s :: ss => do
    let (objs₁, v) ← rec objs s
    let (objs₂, vs) ← toVals rec objs₁ ss
    .ok (objs₂, v :: vs)

/-- host/conversion.rs:555-564, the entries of a map in order, key before value. -/
def toEntries (rec : List HostObj → ScVal → Res (List HostObj × Nat)) (objs : List HostObj) :
    List (ScVal × ScVal) → Res (List HostObj × List (Nat × Nat))
  | [] => .ok (objs, [])
  | (k, v) :: es => do
    let (objs₁, k') ← rec objs k
    let (objs₂, v') ← rec objs₁ v
    let (objs₃, es') ← toEntries rec objs₂ es
    .ok (objs₃, (k', v') :: es')

/-- soroban-env-host/src/host_object.rs:294-314 `ScSymbol::try_from_bytes`. -/
def symbolObject (b : List Nat) : Res HostObj :=
  if b.length > 32 then .error (.host .value .invalidInput)
  else if b.all (fun c => (encodeByte c).isSome) then .ok (.symbol b)
  else .error (.host .value .invalidInput)

/-- host/conversion.rs:543-662 `to_host_obj`; `rec` is `to_host_val` and `cmp` the comparison of values, both with the depth
left here. -/
def toHostObj (rec : List HostObj → ScVal → Res (List HostObj × Nat)) (cmp : List HostObj → Nat → Nat → Res Ordering)
    (objs : List HostObj) : ScVal → Res (List HostObj × Nat)
  | .vec (some v) => do
    let (objs₁, vv) ← toVals rec objs v
    let hv ← vecFromIter vv
    addObj objs₁ (.vec hv)
  | .map (some m) => do
    let (objs₁, mm) ← toEntries rec objs m
    let hm ← fromMap (cmp objs₁) mm
    addObj objs₁ (.map hm)
  | .vec none | .map none => .error (.host .value .invalidInput)
  | .u64 u => addObj objs (.u64 u)
  | .i64 i => addObj objs (.i64 i)
  | .timepoint t => addObj objs (.timepoint t)
  | .duration d => addObj objs (.duration d)
  | .u128 hi lo => addObj objs (.u128 (u128FromPieces hi lo))
  | .i128 hi lo => addObj objs (.i128 (i128FromPieces hi lo))
  | .u256 a b c d => addObj objs (.u256 (u256FromPieces a b c d))
  | .i256 a b c d => addObj objs (.i256 (i256FromPieces a b c d))
  | .bytes b => addObj objs (.bytes b)
  | .string s => addObj objs (.string s)
  | .symbol s => do let o ← symbolObject s; addObj objs o
  | .address (.account k) => addObj objs (.address (.account k))
  | .address (.contract k) => addObj objs (.address (.contract k))
  | .address (.muxedAccount i k) => addObj objs (.muxedAddress (.muxedAccount i k))
  | .address _ => .error (.host .object .unexpectedType)
  | .executableTag t => addObj objs (.executableTag t)
  | _ => .error (.host .value .internalError)

/-- convert.rs:528-602 `Val::try_from_val`. -/
def valTryFromScVal (rec : List HostObj → ScVal → Res (List HostObj × Nat)) (cmp : List HostObj → Nat → Nat → Res Ordering)
    (objs : List HostObj) (s : ScVal) : Res (List HostObj × Nat) :=
  if !canRepresent s then .error conversionErr
  else if needsObject s then toHostObj rec cmp objs s
  else do let v ← toSmallVal s; .ok (objs, v)

/-- host/conversion.rs:432-441 `to_host_val`, with `depth` levels left: the new object table and the value. -/
def toVal : (depth : Nat) → List HostObj → ScVal → Res (List HostObj × Nat)
  | 0, _, _ => .error depthErr
  | d + 1, objs, s => valTryFromScVal (toVal d) (fun os => valCmp os d) objs s

end Soroban
