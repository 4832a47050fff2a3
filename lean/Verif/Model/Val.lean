/-!
Model of the 64-bit tagged word `Val` (soroban-env-common/src/val.rs), its small-integer cases (num.rs) and small symbols
(symbol.rs). A `Val` (val.rs:39, `struct Val(u64)`) is its payload, a natural number below `2^64`; machine shifts and casts are written out with the
wrap-around they have in Rust.
-/
namespace Soroban




/-- Rust `x << k` on `u64`: bits shifted out at the top are lost. -/
def shl64 (x k : Nat) : Nat := (x <<< k) % 2^64

/-- Rust `x as i64` for an unsigned `x`: the low 64 bits read in two's complement. -/
def asI64 (x : Nat) : Int := let w : Nat := x % 2^64; if w < 2^63 then (w : Int) else (w : Int) - 2^64

/-- Rust `i as u64` for a signed `i` of any width: the low 64 bits. -/
def asU64 (i : Int) : Nat := (i % 2^64).toNat

/-- Rust `x as i32` for a `u32`. -/
def asI32 (x : Nat) : Int := let w : Nat := x % 2^32; if w < 2^31 then (w : Int) else (w : Int) - 2^32

/-- Rust `i as u32` for an `i32`. -/
def asU32 (i : Int) : Nat := (i % 2^32).toNat

/-- val.rs:49-163 `enum Tag`. -/
inductive Tag where
  | False | True | Void | Error | U32Val | I32Val | U64Small | I64Small | TimepointSmall | DurationSmall | U128Small
  | I128Small | U256Small | I256Small | SymbolSmall | SmallCodeUpperBound | ObjectCodeLowerBound | U64Object | I64Object
  | TimepointObject | DurationObject | U128Object | I128Object | U256Object | I256Object | BytesObject | StringObject
  | SymbolObject | VecObject | MapObject | AddressObject | MuxedAddressObject | ExecutableTagObject
  | ObjectCodeUpperBound | Bad
  deriving DecidableEq, Repr

namespace Tag

/-- val.rs:49-163, the discriminants of `enum Tag` (`repr(u8)`). -/
def code : Tag → Nat
  | False => 0 | True => 1 | Void => 2 | Error => 3 | U32Val => 4 | I32Val => 5 | U64Small => 6 | I64Small => 7
  | TimepointSmall => 8 | DurationSmall => 9 | U128Small => 10 | I128Small => 11 | U256Small => 12 | I256Small => 13
  | SymbolSmall => 14 | SmallCodeUpperBound => 15 | ObjectCodeLowerBound => 63 | U64Object => 64 | I64Object => 65
  | TimepointObject => 66 | DurationObject => 67 | U128Object => 68 | I128Object => 69 | U256Object => 70
  | I256Object => 71 | BytesObject => 72 | StringObject => 73 | SymbolObject => 74 | VecObject => 75 | MapObject => 76
  | AddressObject => 77 | MuxedAddressObject => 78 | ExecutableTagObject => 79 | ObjectCodeUpperBound => 80 | Bad => 127

/-- val.rs:49-163, all the cases of `enum Tag`, used for the integer-to-enum transmute in `fromU8`. -/
def all : List Tag :=
  [False, True, Void, Error, U32Val, I32Val, U64Small, I64Small, TimepointSmall, DurationSmall, U128Small, I128Small,
   U256Small, I256Small, SymbolSmall, SmallCodeUpperBound, ObjectCodeLowerBound, U64Object, I64Object, TimepointObject,
   DurationObject, U128Object, I128Object, U256Object, I256Object, BytesObject, StringObject, SymbolObject, VecObject,
   MapObject, AddressObject, MuxedAddressObject, ExecutableTagObject, ObjectCodeUpperBound, Bad]

/-- val.rs:177-179 `u8_is_object`. -/
def u8IsObject (x : Nat) : Bool := x > ObjectCodeLowerBound.code && x < ObjectCodeUpperBound.code

/-- val.rs:187-204 `Tag::from_u8`; the transmute is a lookup of the discriminant. -/
def fromU8 (t : Nat) : Tag :=
  let a := SmallCodeUpperBound.code
  let b := ObjectCodeLowerBound.code
  let c := ObjectCodeUpperBound.code
  if !((t < a) || (b < t && t < c)) then Bad
  else (all.find? fun x => x.code == t).getD Bad

end Tag

namespace Val

/-- val.rs:721-723 `get_tag_u8`: `(payload & 0xff) as u8`. -/
def tagU8 (v : Nat) : Nat := v &&& 255

/-- val.rs:726-729 `get_tag`. -/
def tag (v : Nat) : Tag := Tag.fromU8 (tagU8 v)

/-- val.rs:732-734 `get_body`: `payload >> 8`. -/
def body (v : Nat) : Nat := v >>> 8

/-- val.rs:742-744 `get_signed_body`: `(payload as i64) >> 8`, an arithmetic shift. -/
def signedBody (v : Nat) : Int := asI64 v / 256

/-- val.rs:747-749 `has_tag`. -/
def hasTag (v : Nat) (t : Tag) : Bool := tagU8 v == t.code

/-- val.rs:754-756 `from_body_and_tag`. -/
def fromBodyAndTag (b : Nat) (t : Tag) : Nat := shl64 b 8 ||| t.code

/-- val.rs:760-764 `from_major_minor_and_tag`. -/
def fromMajorMinorAndTag (major minor : Nat) (t : Tag) : Nat := fromBodyAndTag (shl64 major 24 ||| minor) t

/-- val.rs:777-779 `get_minor`: `(body & 0xffffff) as u32`. -/
def minor (v : Nat) : Nat := body v &&& (2^24 - 1)

/-- val.rs:782-784 `get_major`: `(body >> 24) as u32`. -/
def major (v : Nat) : Nat := (body v >>> 24) % 2^32

/-- val.rs:787-789 `is_object`. -/
def isObject (v : Nat) : Bool := Tag.u8IsObject (tagU8 v)

end Val

/-! ### small integers -/

/-- The integer types a `Val` can hold (num.rs:12-27 and val.rs:49-163). -/
inductive IntTy where
  | u32 | i32 | u64 | i64 | timepoint | duration | u128 | i128 | u256 | i256
  deriving DecidableEq, Repr

/-- The tag of the inline representation (num.rs:12-55). -/
def IntTy.smallTag : IntTy → Tag
  | u32 => .U32Val | i32 => .I32Val | u64 => .U64Small | i64 => .I64Small | timepoint => .TimepointSmall
  | duration => .DurationSmall | u128 => .U128Small | i128 => .I128Small | u256 => .U256Small | i256 => .I256Small

/-- num.rs:394-396 `is_small_u64`. -/
def isSmallU64 (u : Nat) : Bool := u == (shl64 u 8 >>> 8)

/-- num.rs:398-400 `is_small_i64`: `i == (i << 8) >> 8` on `i64` (wrapping left shift, arithmetic right shift). -/
def isSmallI64 (i : Int) : Bool := i == asI64 (asU64 (i * 256)) / 256

/-- num.rs:402-405, 412-415 `is_small_u128`, `is_small_u256`: the low word is small and equals the whole. -/
def isSmallUWide (u : Nat) : Bool := let word := u % 2^64; isSmallU64 word && u == word

/-- num.rs:407-410, 417-420 `is_small_i128`, `is_small_i256`. -/
def isSmallIWide (i : Int) : Bool := let word := asI64 (asU64 i); isSmallI64 word && i == word

/-- The environment-free integer-to-`Val` conversions: num.rs:17-24 (`from_u32`, `from_i32`), 126-260 (`TryFrom` for the
`*Small` types). -/
def toSmall (t : IntTy) (i : Int) : Option Nat :=
  match t with
  | .u32 => some (Val.fromMajorMinorAndTag i.toNat 0 .U32Val)
  | .i32 => some (Val.fromMajorMinorAndTag (asU32 i) 0 .I32Val)
  | .u64 => if isSmallU64 i.toNat then some (Val.fromBodyAndTag i.toNat .U64Small) else none
  | .timepoint => if isSmallU64 i.toNat then some (Val.fromBodyAndTag i.toNat .TimepointSmall) else none
  | .duration => if isSmallU64 i.toNat then some (Val.fromBodyAndTag i.toNat .DurationSmall) else none
  | .i64 => if isSmallI64 i then some (Val.fromBodyAndTag (asU64 i) .I64Small) else none
  | .u128 => if isSmallUWide i.toNat then some (Val.fromBodyAndTag (i.toNat % 2^64) .U128Small) else none
  | .i128 => if isSmallIWide i then some (Val.fromBodyAndTag (asU64 i) .I128Small) else none
  | .u256 => if isSmallUWide i.toNat then some (Val.fromBodyAndTag (i.toNat % 2^64) .U256Small) else none
  | .i256 => if isSmallIWide i then some (Val.fromBodyAndTag (asU64 (asI64 (asU64 i))) .I256Small) else none

/-- num.rs:61-125, the tag-unchecked reads of the inline representations. -/
def readSmall (t : IntTy) (v : Nat) : Int :=
  match t with
  | .u32 => (Val.major v : Int)
  | .i32 => asI32 (Val.major v)
  | .u64 | .timepoint | .duration | .u128 | .u256 => (Val.body v : Int)
  | .i64 | .i128 | .i256 => Val.signedBody v

/-- The `Val`-to-integer conversions: the tag test of `ValConvert::try_convert` (val.rs:407-414), then the read. -/
def ofSmall (t : IntTy) (v : Nat) : Option Int :=
  if Val.hasTag v t.smallTag then some (readSmall t v) else none

/-! ### small symbols -/

/-- symbol.rs:237-246 `encode_byte`. -/
def encodeByte (b : Nat) : Option Nat :=
  if b = 95 then some 1
  else if 48 ≤ b ∧ b ≤ 57 then some (2 + (b - 48))
  else if 65 ≤ b ∧ b ≤ 90 then some (12 + (b - 65))
  else if 97 ≤ b ∧ b ≤ 122 then some (38 + (b - 97))
  else none

/-- symbol.rs:252-262, the loop of `try_from_bytes`. -/
def encodeLoop (accum : Nat) : List Nat → Option Nat
  | [] => some accum
  | b :: bs => match encodeByte b with
    | some v => encodeLoop (shl64 accum 6 ||| v) bs
    | none => none

/-- symbol.rs:248-264 `SymbolSmall::try_from_bytes`. -/
def symbolTryFromBytes (bytes : List Nat) : Option Nat :=
  if bytes.length > 9 then none
  else (encodeLoop 0 bytes).map fun a => Val.fromBodyAndTag a .SymbolSmall

/-- symbol.rs:164-173 `SymbolSmall::try_from_body`. -/
def symbolTryFromBody (b : Nat) : Option Nat :=
  if b &&& (2^54 - 1) ≠ b then none else some (Val.fromBodyAndTag b .SymbolSmall)

/-- symbol.rs:423-429: the character of a 6-bit code, `0` for none. -/
def decodeCode (n : Nat) : Nat :=
  if n = 1 then 95
  else if 2 ≤ n ∧ n ≤ 11 then 48 + n - 2
  else if 12 ≤ n ∧ n ≤ 37 then 65 + n - 12
  else if 38 ≤ n ∧ n ≤ 63 then 97 + n - 38
  else 0

/-- symbol.rs:421-436 `SymbolSmallIter::next`, run to exhaustion from state `s`. Eleven shifts by 6 empty a 64-bit word,
so `fuel = 11` never cuts the loop short (`symbolChars_fuel` below). -/
def symbolIter : Nat → Nat → List Nat
  | 0, _ => []
  | fuel + 1, s =>
    if s = 0 then []
    else
      let res := decodeCode ((s >>> 48) &&& 63)
      if res ≠ 0 then res :: symbolIter fuel (shl64 s 6) else symbolIter fuel (shl64 s 6)

/-- symbol.rs:407-409 `SymbolSmall::into_iter`, collected. -/
def symbolChars (v : Nat) : List Nat := symbolIter 11 (Val.body v)

/-- Rust `Iterator::cmp`: lexicographic comparison, a proper prefix being smaller. -/
def lexCmp : List Nat → List Nat → Ordering
  | [], [] => .eq
  | [], _ :: _ => .lt
  | _ :: _, [] => .gt
  | a :: as, b :: bs => if a < b then .lt else if b < a then .gt else lexCmp as bs

/-- symbol.rs:195-199 `Ord for SymbolSmall`. -/
def symbolSmallCmp (a b : Nat) : Ordering := lexCmp (symbolChars a) (symbolChars b)

/-! ### integrity check -/

/-- error.rs:95-112 `TryFrom<Error> for ScError`, success only: the minor is one of the ten error types; for contract
errors any major, otherwise the major is one of the ten error codes. -/
def errorIsValid (v : Nat) : Bool :=
  if Val.minor v = 0 then true
  else if Val.minor v < 10 then Val.major v < 10
  else false

/-- val.rs:667-702, the match of `is_good` for a word `v` whose tag is `t`. -/
def Val.goodFor (t : Tag) (v : Nat) : Bool :=
  match t with
  | .Bad | .SmallCodeUpperBound | .ObjectCodeLowerBound | .ObjectCodeUpperBound => false
  | .True | .False | .Void => Val.body v == 0
  | .I32Val | .U32Val => Val.minor v == 0
  | .Error => errorIsValid v
  | .SymbolSmall => (symbolTryFromBody (Val.body v)).isSome
  | .U64Small | .I64Small | .TimepointSmall | .DurationSmall | .U128Small | .I128Small | .U256Small | .I256Small => true
  | .U64Object | .I64Object | .TimepointObject | .DurationObject | .U128Object | .I128Object | .U256Object | .I256Object
  | .BytesObject | .StringObject | .SymbolObject | .VecObject | .MapObject | .AddressObject | .MuxedAddressObject
  | .ExecutableTagObject => Val.minor v == 0

/-- val.rs:666-703 `is_good`. -/
def Val.isGood (v : Nat) : Bool := Val.goodFor (Val.tag v) v

/-- val.rs:481-483, 500-508 and 808-818: `Val::VOID`, `Val::TRUE`, `Val::FALSE`. -/
def valVoid : Nat := Val.fromBodyAndTag 0 .Void
def valBool (b : Bool) : Nat := Val.fromBodyAndTag 0 (if b then .True else .False)

/-- error.rs:306-308 `from_contract_error`, `from_type_and_code`. -/
def valError (type code : Nat) : Nat := Val.fromMajorMinorAndTag code type .Error

/-- object.rs:32-35 `Object::from_handle_and_tag`. -/
def valObject (handle : Nat) (t : Tag) : Nat := Val.fromMajorMinorAndTag handle 0 t

end Soroban
