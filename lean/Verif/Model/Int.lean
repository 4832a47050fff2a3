import Verif.Model.Memory
/-!
Model of the host functions of module "int" (soroban-env-host/src/host.rs:1327-1658, host/num.rs:1-69): numbers as objects, in pieces,
as bytes, and 256-bit arithmetic. The arithmetic of crate `ethnum` (`checked_*`, `from_be_bytes`, `to_be_bytes`) is not in the
repository; here it is that of the mathematical integers with the ranges of the types, see `checkedOp`.
-/
namespace Soroban

/-- The number types that fit one word (host.rs:1327-1334). -/
inductive WTy where
  | u64 | i64 | timepoint | duration
  deriving DecidableEq, Repr

/-- The number types given in pieces (host.rs:1336-1396, 1445-1549). -/
inductive BTy where
  | u128 | i128 | u256 | i256
  deriving DecidableEq, Repr

/-- The operations of `impl_bignum_host_fns` (host.rs:1552-1592). -/
inductive AOp where
  | add | sub | mul | div | remEuclid | pow | shl | shr
  deriving DecidableEq, Repr

/-- The operations that also have a variant that gives void (host.rs:1594-1656). -/
inductive COp where
  | add | sub | mul | pow
  deriving DecidableEq, Repr

/-- The operation of a variant. -/
def COp.op : COp → AOp
  | .add => .add | .sub => .sub | .mul => .mul | .pow => .pow

/-- The host functions of module "int". `signed` chooses between `I256` and `U256`. -/
inductive IFn where
  | fromWord (t : WTy)
  | toWord (t : WTy)
  | fromPieces (t : BTy)
  | piece (t : BTy) (i : Nat)
  | fromBe (signed : Bool)
  | toBe (signed : Bool)
  | arith (signed : Bool) (op : AOp)
  | checked (signed : Bool) (op : COp)
  deriving DecidableEq, Repr

/-- host.rs:1327-1334 `impl_wrapping_obj_from_num` (host/num.rs:2-8): the object of a word. -/
def wordObj : WTy → Nat → HostObj
  | .u64, w => .u64 w
  | .i64, w => .i64 (asI64 w)
  | .timepoint, w => .timepoint w
  | .duration, w => .duration w

/-- host/num.rs:11-17 `impl_wrapping_obj_to_num`: the number in an object, if it has the type. -/
def objWord : WTy → HostObj → Option Int
  | .u64, .u64 n => some n
  | .i64, .i64 i => some i
  | .timepoint, .timepoint n => some n
  | .duration, .duration n => some n
  | _, _ => none

/-- host.rs:1336-1343 `obj_from_u128_pieces`, 1361-1367 `obj_from_i128_pieces`, 1386-1394 `obj_from_u256_pieces`, 1466-1474
`obj_from_i256_pieces`: the object made of words, the most significant first. -/
def piecesObj : BTy → List Nat → Res HostObj
  | .u128, [hi, lo] => .ok (.u128 (u128FromPieces hi lo))
  | .i128, [hi, lo] => .ok (.i128 (i128FromPieces (asI64 hi) lo))
  | .u256, [a, b, c, d] => .ok (.u256 (u256FromPieces a b c d))
  | .i256, [a, b, c, d] => .ok (.i256 (i256FromPieces (asI64 a) b c d))
  | _, _ => .error (.host .context .internalError)

/-- host.rs:1344-1358, 1369-1383, 1426-1463, 1504-1541: the pieces of a number, the most significant first, if it has the type. -/
def objPieces : BTy → HostObj → Option (List Int)
  | .u128, .u128 n => some [(u128Hi n : Int), (u128Lo n : Int)]
  | .i128, .i128 i => some [i128Hi i, (i128Lo i : Int)]
  | .u256, .u256 n => let p := u256IntoPieces n; some [(p.1 : Int), (p.2.1 : Int), (p.2.2.1 : Int), (p.2.2.2 : Int)]
  | .i256, .i256 i => let p := i256IntoPieces i; some [p.1, (p.2.1 : Int), (p.2.2.1 : Int), (p.2.2.2 : Int)]
  | _, _ => none

/-- `U256` or `I256`. -/
def wideTy (signed : Bool) : IntTy := if signed then .i256 else .u256

/-- The object of a 256-bit number (`obj_from_u256_pieces`, `obj_from_i256_pieces` of the pieces of the number). -/
def wideObj (signed : Bool) (i : Int) : HostObj :=
  if signed then let p := i256IntoPieces i; .i256 (i256FromPieces p.1 p.2.1 p.2.2.1 p.2.2.2)
  else let p := u256IntoPieces i.toNat; .u256 (u256FromPieces p.1 p.2.1 p.2.2.1 p.2.2.2)

/-- soroban-env-common/src/convert.rs:339-358, 396-415 `TryFromVal<I256>`, `TryFromVal<U256>`: a small value if the number fits, otherwise
a new object. -/
def wideVal (objs : List HostObj) (signed : Bool) (i : Int) : Res (List HostObj × Nat) :=
  match toSmall (wideTy signed) i with
  | some v => .ok (objs, v)
  | none => addObj objs (wideObj signed i)

/-- soroban-env-common/src/convert.rs:313-330, 370-387 `TryFromVal<Val>` for `I256` and `U256`: a small value or the pieces of an
object. -/
def wideOf (objs : List HostObj) (signed : Bool) (v : Nat) : Res Int :=
  match ofSmall (wideTy signed) v with
  | some i => .ok i
  | none => do
    let o ← visitObj objs v
    match signed, o with
    | true, .i256 i => let p := i256IntoPieces i; .ok (i256FromPieces p.1 p.2.1 p.2.2.1 p.2.2.2)
    | false, .u256 n => let p := u256IntoPieces n; .ok (u256FromPieces p.1 p.2.1 p.2.2.1 p.2.2.2 : Nat)
    | _, _ => .error (.host .object .internalError)

/-- The numbers of a 256-bit type. -/
def fits (signed : Bool) (r : Int) : Bool :=
  if signed then decide (-2^255 ≤ r) && decide (r < 2^255) else decide (0 ≤ r) && decide (r < 2^256)

/-- A number that is a result only if it is in range. -/
def ifFits (signed : Bool) (r : Int) : Option Int := if fits signed r then some r else none

/-- The bits of a number that are left after it was shifted out of its type. -/
def wrap (signed : Bool) (r : Int) : Int :=
  let u := r % 2^256
  if signed && decide (2^255 ≤ u) then u - 2^256 else u

/-- `checked_add`, `checked_sub`, `checked_mul`, `checked_div`, `checked_rem_euclid`, `checked_pow`, `checked_shl` and `checked_shr` of
crate `ethnum`, which are not in the repository: those of Rust's integers. `checked_rem_euclid` fails where `checked_div` does. A shift
fails only if it is by the size of the type or more; a shift to the left loses bits. -/
def checkedOp (signed : Bool) (op : AOp) (a b : Int) : Option Int :=
  match op with
  | .add => ifFits signed (a + b)
  | .sub => ifFits signed (a - b)
  | .mul => ifFits signed (a * b)
  | .div => if b = 0 then none else ifFits signed (a.tdiv b)
  | .remEuclid => if b = 0 || !fits signed (a.tdiv b) then none else some (a % b)
  | .pow => ifFits signed (a ^ b.toNat)
  | .shl => if b < 256 then some (wrap signed (a * 2 ^ b.toNat)) else none
  | .shr => if b < 256 then some (a / 2 ^ b.toNat) else none

/-- The right operand (host/num.rs:25): a `u32` for powers and shifts (host.rs:1566-1568, 1584-1586). -/
def rhsOf (objs : List HostObj) (signed : Bool) (op : AOp) (v : Nat) : Res Int :=
  match op with
  | .pow | .shl | .shr => .ok (Val.major v : Int)
  | _ => wideOf objs signed v

/-- host/num.rs:21-27, the core of `impl_bignum_host_fns`. -/
def bignumCore (objs : List HostObj) (signed : Bool) (op : AOp) (l r : Nat) : Res (Option Int) := do
  let a ← wideOf objs signed l
  let b ← rhsOf objs signed op r
  .ok (checkedOp signed op a b)

/-- host.rs:1397-1409 `u256_val_from_be_bytes`, 1478-1489 `i256_val_from_be_bytes`: the number of exactly 32 bytes, the most significant
first. -/
def ofBe (signed : Bool) (b : List Nat) : Res Int :=
  if b.length = 32 then .ok (wrap signed (fromLe b.reverse)) else .error (.host .object .unexpectedSize)

/-- host.rs:1411-1423 `u256_val_to_be_bytes`, 1491-1503 `i256_val_to_be_bytes`: the 32 bytes of a number. -/
def beBytes (i : Int) : List Nat := (toLe 32 (i % 2^256).toNat).reverse

/-- A word given back as it is, if there is one. -/
def rawOf (o : Option Int) : Res Ret := match o with | some i => .ok (.raw i) | none => .error (.host .object .internalError)

/-- host.rs:1327-1658, the bodies of the host functions of module "int", on arguments that are already absolute. -/
def runI (objs : List HostObj) : IFn → List Nat → Res (List HostObj × Ret)
  | .fromWord t, [w] => retObj objs (.ok (wordObj t w))
  | .toWord t, [v] => do
    let o ← visitObj objs v
    let r ← rawOf (objWord t o)
    .ok (objs, r)
  | .fromPieces t, ws => retObj objs (piecesObj t ws)
  | .piece t i, [v] => do
    let o ← visitObj objs v
    let r ← rawOf ((objPieces t o).bind (·[i]?))
    .ok (objs, r)
  | .fromBe s, [b] => do
    let hb ← visitBytes objs b
    let i ← ofBe s hb
    let (objs', v) ← wideVal objs s i
    .ok (objs', .val v)
  | .toBe s, [v] => do
    let i ← wideOf objs s v
    retObj objs (.ok (.bytes (beBytes i)))
  | .arith s op, [a, b] => do
    let r ← bignumCore objs s op a b
    match r with
    | some i => do
      let (objs', v) ← wideVal objs s i
      .ok (objs', .val v)
    | none => .error (.host .object .arithDomain)
  | .checked s op, [a, b] => do
    let r ← bignumCore objs s op.op a b
    match r with
    | some i => do
      let (objs', v) ← wideVal objs s i
      .ok (objs', .val v)
    | none => .ok (objs, .val valVoid)
  | _, _ => .error (.host .context .internalError)

/-- The kinds of arguments: a raw word, a value of one of the types of `ArgTy`, or a 256-bit number, small or an object. -/
inductive IArg where
  | raw
  | arg (t : ArgTy)
  | wide (signed : Bool)
  deriving DecidableEq, Repr

/-- The tag of an object of a type. -/
def WTy.tag : WTy → Tag
  | .u64 => .U64Object | .i64 => .I64Object | .timepoint => .TimepointObject | .duration => .DurationObject

/-- The tag of an object of a type. -/
def BTy.tag : BTy → Tag
  | .u128 => .U128Object | .i128 => .I128Object | .u256 => .U256Object | .i256 => .I256Object

/-- The tag of a 256-bit object. -/
def wideTag (signed : Bool) : Tag := if signed then .I256Object else .U256Object

/-- env.json, the kind of the right operand. -/
def AOp.rhs (signed : Bool) : AOp → IArg
  | .pow | .shl | .shr => .arg .u32
  | _ => .wide signed

/-- env.json, the signatures of the functions of module "int". -/
def IFn.args : IFn → List IArg
  | .fromWord _ => [.raw]
  | .toWord t => [.arg (.obj t.tag)]
  | .fromPieces t => match t with | .u128 | .i128 => [.raw, .raw] | .u256 | .i256 => [.raw, .raw, .raw, .raw]
  | .piece t _ => [.arg (.obj t.tag)]
  | .fromBe _ => [.arg (.obj .BytesObject)]
  | .toBe s => [.wide s]
  | .arith s op => [.wide s, op.rhs s]
  | .checked s op => [.wide s, op.op.rhs s]

/-- vm/dispatch.rs:26-53: raw words pass unchanged, values as in `marshalArg`. -/
def marshalI (objs : List HostObj) (tbl : List Nat) : IArg → Nat → Res Nat
  | .raw, w => .ok w
  | .arg t, w => marshalArg objs tbl t w
  | .wide s, w =>
    if Val.tag w = (wideTy s).smallTag ∨ Val.tag w = wideTag s then marshalArg objs tbl .val w
    else .error (.host .value .invalidInput)

/-- The arguments of a call, in order. -/
def marshalIs (objs : List HostObj) (tbl : List Nat) : List IArg → List Nat → Res (List Nat)
  | [], [] => .ok []
  | t :: ts, w :: ws => do
    let a ← marshalI objs tbl t w
    let as ← marshalIs objs tbl ts ws
    .ok (a :: as)
  | _, _ => .error (.host .context .internalError)

/-- vm/dispatch.rs:206-300, one call of a host function of module "int" made by the VM of a frame. -/
def dispatchI (l : Lin) (f : IFn) (ws : List Nat) : Res (Lin × Int) := do
  let as ← marshalIs l.objs l.tbl f.args ws
  let (objs, r) ← runI l.objs f as
  match r with
  | .raw n => .ok ({ l with objs := objs }, n)
  | .val v => do
    checkIntegrity objs v
    let (tbl, w) ← absToRel l.tbl v
    .ok ({ l with objs := objs, tbl := tbl }, (w : Int))

end Soroban
