import Verif.Model.Objects
import Verif.Model.Convert
/-!
Model of the linear memory of a contract and of the host functions that read or write it, and of the host functions on byte
strings: soroban-env-host/src/host/mem_helper.rs, host/data_helper.rs and host.rs (module "buf" and the `..._linear_memory`
functions of modules "map" and "vec").

Simplifications: budget charges and tracing are dropped. A VM without a memory, for which all these functions fail
(vm.rs:259-269 `get_memory`), is not modelled. A failing function may have written a part of what it was going to write; as its
failure traps the VM, whose memory is then dropped, the model gives no memory back in that case. Serialization
(`serialize_to_bytes`, `deserialize_from_bytes`) is in Model/Xdr.lean.
-/
namespace Soroban

/-! ### linear memory -/

/-- host/error.rs:353-360 `err_oob_linear_memory`; soroban-env-common/src/error.rs:224-227 for errors of wasmi's memory. -/
def oobMem : Err := .host .wasmVm .indexBounds

/-- host/error.rs:344-351 `err_arith_overflow` -/
def overflow : Err := .host .value .arithDomain

/-- A range of memory, `slice::get(pos..pos + len)`. -/
def readBytes (mem : List Nat) (pos len : Nat) : Res (List Nat) :=
  if pos + len ≤ mem.length then .ok ((mem.drop pos).take len) else .error oobMem

/-- Overwrites a range of memory (host/mem_helper.rs:76-89 `metered_vm_write_bytes_to_linear_memory`). -/
def writeBytes (mem : List Nat) (pos : Nat) (bs : List Nat) : Res (List Nat) :=
  if pos + bs.length ≤ mem.length then .ok (mem.take pos ++ bs ++ mem.drop (pos + bs.length)) else .error oobMem

/-- `to_le_bytes` of a number of `n` bytes. -/
def toLe : Nat → Nat → List Nat
  | 0, _ => []
  | n + 1, w => w % 256 :: toLe n (w / 256)

/-- `from_le_bytes` -/
def fromLe : List Nat → Nat
  | [] => 0
  | b :: bs => b + 256 * fromLe bs

/-- host/mem_helper.rs:119-127 and 164-172: the size in bytes of `n` values, if they and their end have 32-bit addresses. -/
def valsSize (pos n : Nat) : Res Nat :=
  if n > u32Max then .error overflow
  else if n * 8 > u32Max then .error overflow
  else if pos + n * 8 > u32Max then .error overflow
  else .ok (n * 8)

/-- The 64-bit words in a list of bytes, eight bytes each (`chunks(8)`). -/
def words : Nat → List Nat → List Nat
  | 0, _ => []
  | n + 1, bs => fromLe (bs.take 8) :: words n (bs.drop 8)

/-- `relative_to_absolute` of all words, in order. -/
def relToAbsAll (tbl : List Nat) : List Nat → Res (List Nat)
  | [] => .ok []
  | w :: ws => do
    let a ← relToAbs tbl w
    let as ← relToAbsAll tbl ws
    .ok (a :: as)

/-- host/mem_helper.rs:153-159 `metered_vm_read_vals_from_linear_memory` at type `Val`, with the translation of handles its
callers pass (host.rs:2031, host/data_helper.rs:841). -/
def readVals (mem tbl : List Nat) (pos n : Nat) : Res (List Nat) := do
  let size ← valsSize pos n
  let bs ← readBytes mem pos size
  relToAbsAll tbl (words n bs)

/-- The bytes of words. -/
def unwords (ws : List Nat) : List Nat := ws.flatMap (toLe 8)

/-- host/mem_helper.rs:109-115 `metered_vm_write_vals_to_linear_memory` at type `Val`, with the translation of handles its callers
pass (host.rs:2061-2065, host/data_helper.rs:1013-1017): the new memory and relative table. The range is checked before any handle
is made. -/
def writeVals (mem tbl : List Nat) (pos : Nat) (vs : List Nat) : Res (List Nat × List Nat) := do
  let size ← valsSize pos vs.length
  let _ ← readBytes mem pos size
  let (tbl', rs) ← enterFrame tbl vs
  let mem' ← writeBytes mem pos (unwords rs)
  .ok (mem', tbl')

/-- host/mem_helper.rs:200-239 `scan_linear_memory_slice`: the slice that the `i`-th pointer and length say. The addition of `index` to
the position is in 64 bits and cannot overflow. -/
def scanSlice (mem : List Nat) (pos i : Nat) : Res (Nat × Nat) := do
  let bs ← readBytes mem (pos + 8 * i) 8
  let ptr := fromLe (bs.take 4)
  let len := fromLe (bs.drop 4)
  if ptr + len > u32Max then .error overflow else .ok (ptr, len)

/-- host/mem_helper.rs:258-284 `metered_vm_scan_slices_in_linear_memory`: what the slices number `i` to `i + n - 1` hold. -/
def scanSlices (mem : List Nat) (pos : Nat) : Nat → Nat → Res (List (List Nat))
  | _, 0 => .ok []
  | i, n + 1 => do
    let s ← scanSlice mem pos i
    let b ← readBytes mem s.1 s.2
    let bs ← scanSlices mem pos (i + 1) n
    .ok (b :: bs)

/-! ### objects that hold bytes -/

/-- host_object.rs:521-540 `visit_obj` at type `ScBytes`. -/
def visitBytes (objs : List HostObj) (v : Nat) : Res (List Nat) :=
  match visitObj objs v with
  | .error e => .error e
  | .ok (.bytes b) => .ok b
  | .ok _ => .error (.host .object .internalError)

/-- host_object.rs:521-540 `visit_obj` at type `ScString`. -/
def visitString (objs : List HostObj) (v : Nat) : Res (List Nat) :=
  match visitObj objs v with
  | .error e => .error e
  | .ok (.string b) => .ok b
  | .ok _ => .error (.host .object .internalError)

/-- host_object.rs:521-540 `visit_obj` at type `ScSymbol`. -/
def visitSymbol (objs : List HostObj) (v : Nat) : Res (List Nat) :=
  match visitObj objs v with
  | .error e => .error e
  | .ok (.symbol b) => .ok b
  | .ok _ => .error (.host .object .internalError)

/-- host/mem_helper.rs:432-446 `compare_symbol_to_bytes`: the text of a symbol. -/
def symbolText (objs : List HostObj) (v : Nat) : Res (List Nat) :=
  if Val.tag v = .SymbolSmall then .ok (symbolChars v)
  else if Val.tag v = .SymbolObject then visitSymbol objs v
  else .error conversionErr

/-- soroban-env-common/src/symbol.rs:110-121 `Symbol::try_from_val` of bytes, with host.rs:990-1009 `symbol_new_from_slice`. The
characters are checked before the length there; the error is the same. -/
def symbolFromSlice (objs : List HostObj) (b : List Nat) : Res (List HostObj × Nat) :=
  match symbolTryFromBytes b with
  | some v => .ok (objs, v)
  | none => do
    let o ← symbolObject b
    addObj objs o

/-- host/data_helper.rs:816-824, the symbols of the keys, in order. -/
def symbolsFromSlices (objs : List HostObj) : List (List Nat) → Res (List HostObj × List Nat)
  | [] => .ok (objs, [])
  | b :: bs => do
    let (objs₁, v) ← symbolFromSlice objs b
    let (objs₂, vs) ← symbolsFromSlices objs₁ bs
    .ok (objs₂, v :: vs)

/-- host/mem_helper.rs:307-330 `memobj_visit_and_copy_bytes_out` -/
def bytesOut (b : List Nat) (pos len : Nat) : Res (List Nat) :=
  if pos + len > u32Max then .error overflow
  else if pos + len ≤ b.length then .ok ((b.drop pos).take len)
  else .error oob

/-- host/mem_helper.rs:359-391 `memobj_clone_resize_and_copy_bytes_in`, and host/mem_helper.rs:405-417
`memobj_copy_from_linear_memory`: the bytes with the range replaced by bytes of the memory, after zeroes have been appended if the
range ends beyond the end. -/
def bytesIn (mem b : List Nat) (pos lmPos len : Nat) : Res (List Nat) :=
  if pos + len > u32Max then .error overflow
  else do
    let b' := if b.length < pos + len then b ++ List.replicate (pos + len - b.length) 0 else b
    let bs ← readBytes mem lmPos len
    .ok (b'.take pos ++ bs ++ b'.drop (pos + len))

/-! ### module "buf" without linear memory -/

/-- Host functions of module "buf" that do not use linear memory (host.rs:2729-3008). -/
inductive BFn where
  | bytesNew | bytesPut | bytesGet | bytesDel | bytesLen | bytesPush | bytesPop | bytesFront | bytesBack | bytesInsert
  | bytesAppend | bytesSlice | stringToBytes | bytesToString | createExecutableTag | stringLen | symbolLen
  deriving DecidableEq, Repr

/-- env.json, their signatures. -/
def BFn.args : BFn → List ArgTy
  | .bytesNew => []
  | .bytesPut | .bytesInsert => [.obj .BytesObject, .u32, .u32]
  | .bytesGet | .bytesDel | .bytesPush => [.obj .BytesObject, .u32]
  | .bytesLen | .bytesPop | .bytesFront | .bytesBack | .bytesToString => [.obj .BytesObject]
  | .bytesAppend => [.obj .BytesObject, .obj .BytesObject]
  | .bytesSlice => [.obj .BytesObject, .u32, .u32]
  | .stringToBytes | .createExecutableTag | .stringLen => [.obj .StringObject]
  | .symbolLen => [.obj .SymbolObject]

/-- host/conversion.rs:51-66 `u8_from_u32val_input` -/
def u8Input (u : Nat) : Res Nat := if u ≤ 255 then .ok u else .error overflow

/-- validity.rs:56-66 `validate_usize_sum_fits_in_u32` -/
def sumFits (a b : Nat) : Res Unit := if a + b > u32Max then .error overflow else .ok ()

/-- host.rs:2737-2762 `bytes_put` -/
def bytesPut (b : List Nat) (i u : Nat) : Res (List Nat) := do
  let u ← u8Input u
  if i < b.length then .ok (b.set i u) else .error oob

/-- host.rs:2765-2784 `bytes_get` -/
def bytesGet (b : List Nat) (i : Nat) : Res Nat := match b[i]? with | some x => .ok x | none => .error oob

/-- host.rs:2786-2807 `bytes_del` -/
def bytesDel (b : List Nat) (i : Nat) : Res (List Nat) := do
  indexLt i b.length
  .ok (b.eraseIdx i)

/-- host.rs:2840-2857 `bytes_push` -/
def bytesPush (b : List Nat) (u : Nat) : Res (List Nat) := do
  let u ← u8Input u
  sumFits b.length 1
  .ok (b ++ [u])

/-- host.rs:2860-2880 `bytes_pop` -/
def bytesPop (b : List Nat) : Res (List Nat) := if b.isEmpty then .error oob else .ok b.dropLast

/-- host.rs:2883-2900 `bytes_front` -/
def bytesFront (b : List Nat) : Res Nat := match b.head? with | some x => .ok x | none => .error oob

/-- host.rs:2903-2920 `bytes_back` -/
def bytesBack (b : List Nat) : Res Nat := match b.getLast? with | some x => .ok x | none => .error oob

/-- host.rs:2922-2942 `bytes_insert` -/
def bytesInsert (b : List Nat) (i u : Nat) : Res (List Nat) := do
  let u ← u8Input u
  indexLe i b.length
  sumFits b.length 1
  .ok (b.take i ++ u :: b.drop i)

/-- host.rs:2944-2962 `bytes_append` -/
def bytesAppend (a b : List Nat) : Res (List Nat) := do
  sumFits a.length b.length
  .ok (a ++ b)

/-- host.rs:2964-2982 `bytes_slice` -/
def bytesSlice (b : List Nat) (s e : Nat) : Res (List Nat) := do
  let r ← validRange s e b.length
  .ok ((b.take r.2).drop r.1)

/-- host.rs:2729-3008, the bodies of the host functions. -/
def runB (objs : List HostObj) : BFn → List Nat → Res (List HostObj × Ret)
  | .bytesNew, [] => retObj objs (.ok (.bytes []))
  | .bytesPut, [b, i, u] => retObj objs (do let hb ← visitBytes objs b; let r ← bytesPut hb (Val.major i) (Val.major u); .ok (.bytes r))
  | .bytesGet, [b, i] => retVal objs (do let hb ← visitBytes objs b; let n ← bytesGet hb (Val.major i); .ok (valU32 n))
  | .bytesDel, [b, i] => retObj objs (do let hb ← visitBytes objs b; let r ← bytesDel hb (Val.major i); .ok (.bytes r))
  | .bytesLen, [b] => retVal objs (do let hb ← visitBytes objs b; let n ← usizeToU32 hb.length; .ok (valU32 n))
  | .bytesPush, [b, u] => retObj objs (do let hb ← visitBytes objs b; let r ← bytesPush hb (Val.major u); .ok (.bytes r))
  | .bytesPop, [b] => retObj objs (do let hb ← visitBytes objs b; let r ← bytesPop hb; .ok (.bytes r))
  | .bytesFront, [b] => retVal objs (do let hb ← visitBytes objs b; let n ← bytesFront hb; .ok (valU32 n))
  | .bytesBack, [b] => retVal objs (do let hb ← visitBytes objs b; let n ← bytesBack hb; .ok (valU32 n))
  | .bytesInsert, [b, i, u] =>
    retObj objs (do let hb ← visitBytes objs b; let r ← bytesInsert hb (Val.major i) (Val.major u); .ok (.bytes r))
  | .bytesAppend, [a, b] =>
    retObj objs (do let ha ← visitBytes objs a; let hb ← visitBytes objs b; let r ← bytesAppend ha hb; .ok (.bytes r))
  | .bytesSlice, [b, s, e] =>
    retObj objs (do let hb ← visitBytes objs b; let r ← bytesSlice hb (Val.major s) (Val.major e); .ok (.bytes r))
  | .stringToBytes, [s] => retObj objs (do let b ← visitString objs s; .ok (.bytes b))
  | .bytesToString, [b] => retObj objs (do let b ← visitBytes objs b; .ok (.string b))
  | .createExecutableTag, [s] => retObj objs (do let b ← visitString objs s; .ok (.executableTag b))
  | .stringLen, [s] => retVal objs (do let b ← visitString objs s; let n ← usizeToU32 b.length; .ok (valU32 n))
  | .symbolLen, [s] => retVal objs (do let b ← visitSymbol objs s; let n ← usizeToU32 b.length; .ok (valU32 n))
  | _, _ => .error (.host .context .internalError)

/-! ### functions on linear memory -/

/-- What a host call of a contract can see and change: the memory of its VM, the host objects and the relative object table of its
frame. -/
structure Lin where
  mem : List Nat
  objs : List HostObj
  tbl : List Nat
  deriving DecidableEq, Repr

/-- Host functions that use linear memory (host.rs:1771-1811, 2011-2071 and 2622-2726). -/
inductive MFn where
  | bytesCopyTo | stringCopyTo | symbolCopyTo | bytesCopyFrom | bytesNewFrom | stringNewFrom | symbolNewFrom | symbolIndex
  | vecNewFrom | vecUnpackTo | mapNewFrom (sparse : Bool) | mapUnpackTo (sparse : Bool)
  deriving DecidableEq, Repr

/-- env.json, their signatures. -/
def MFn.args : MFn → List ArgTy
  | .bytesCopyTo | .bytesCopyFrom => [.obj .BytesObject, .u32, .u32, .u32]
  | .stringCopyTo => [.obj .StringObject, .u32, .u32, .u32]
  | .symbolCopyTo => [.obj .SymbolObject, .u32, .u32, .u32]
  | .bytesNewFrom | .stringNewFrom | .symbolNewFrom | .vecNewFrom => [.u32, .u32]
  | .symbolIndex => [.symbol, .u32, .u32]
  | .vecUnpackTo => [.obj .VecObject, .u32, .u32]
  | .mapNewFrom _ => [.u32, .u32, .u32]
  | .mapUnpackTo _ => [.obj .MapObject, .u32, .u32, .u32]

/-- `memobj_copy_to_linear_memory` (host/mem_helper.rs:345-357) of an object's bytes. -/
def copyTo (l : Lin) (b : Res (List Nat)) (pos lmPos len : Nat) : Res (Lin × Ret) := do
  let b ← b
  let bs ← bytesOut b pos len
  let mem ← writeBytes l.mem lmPos bs
  .ok ({ l with mem := mem }, .val valVoid)

/-- `memobj_new_from_linear_memory` (host/mem_helper.rs:408-419): `mk` is `try_from_bytes` of the type. -/
def newFrom (l : Lin) (mk : List Nat → Res HostObj) (pos len : Nat) : Res (Lin × Ret) := do
  let bs ← readBytes l.mem pos len
  let o ← mk bs
  let (objs, v) ← addObj l.objs o
  .ok ({ l with objs := objs }, .val v)

/-- All values pass `check_val_integrity`. -/
def checkAll (objs : List HostObj) : List Nat → Res Unit
  | [] => .ok ()
  | v :: vs => do checkIntegrity objs v; checkAll objs vs

/-- host.rs:2010-2036 `vec_new_from_linear_memory` -/
def vecNewFrom (l : Lin) (pos len : Nat) : Res (Lin × Ret) := do
  let vs ← readVals l.mem l.tbl pos len
  checkAll l.objs vs
  let hv ← vecFromIter vs
  let (objs, v) ← addObj l.objs (.vec hv)
  .ok ({ l with objs := objs }, .val v)

/-- host.rs:2038-2070 `vec_unpack_to_linear_memory` -/
def vecUnpackTo (l : Lin) (v pos len : Nat) : Res (Lin × Ret) := do
  let hv ← visitVec l.objs v
  if hv.length = len then do
    let (mem, tbl) ← writeVals l.mem l.tbl pos hv
    .ok ({ l with mem := mem, tbl := tbl }, .val valVoid)
  else .error (.host .object .unexpectedSize)

/-- Whether a value passes `check_val_integrity`. -/
def isSoundVal (objs : List HostObj) (v : Nat) : Bool := match checkIntegrity objs v with | .ok _ => true | .error _ => false

/-- host/data_helper.rs:799-845 `map_new_from_linear_memory_impl`. An ill-formed value is reported as an invalid input, whatever
`check_val_integrity` says is wrong with it. -/
def mapNewFromMem (cmp : List HostObj → Nat → Nat → Res Ordering) (l : Lin) (sparse : Bool) (keysPos valsPos len : Nat) :
    Res (Lin × Ret) := do
  let bs ← scanSlices l.mem keysPos 0 len
  let (objs, keys) ← symbolsFromSlices l.objs bs
  let vals ← readVals l.mem l.tbl valsPos len
  let m ← mapFromSlices (cmp objs) (isSoundVal objs) (fun v => v == valVoid) sparse keys vals
  let (objs, v) ← addObj objs (.map m)
  .ok ({ l with objs := objs }, .val v)

/-- The text of a key of a map, on the left, or of a key that is looked for, on the right. -/
def keyText (objs : List HostObj) : Nat ⊕ List Nat → Res (List Nat)
  | .inl k => symbolText objs k
  | .inr t => .ok t

/-- host/data_helper.rs:853-960, the comparisons of `map_unpack_impl`, of texts. -/
def unpackCmp (objs : List HostObj) (a b : Nat ⊕ List Nat) : Res Ordering := do
  let s ← keyText objs a
  let t ← keyText objs b
  .ok (lexCmp s t)

/-- Whether a key of a map is a symbol (`Symbol::try_from_val` at host/data_helper.rs:957). -/
def isSymbolKey : Nat ⊕ List Nat → Bool
  | .inl k => Val.tag k == .SymbolSmall || Val.tag k == .SymbolObject
  | .inr _ => false

/-- host/data_helper.rs:853-960 `map_unpack_impl` on the texts of keys. -/
def unpackTexts (objs : List HostObj) (sparse : Bool) (m : List (Nat × Nat)) (texts : List (List Nat)) : Res (List Nat) :=
  mapUnpack (unpackCmp objs) isSymbolKey valVoid sparse (m.map (fun p => (.inl p.1, p.2))) (texts.map .inr)

/-- host/data_helper.rs:986-1033 `map_unpack_to_linear_memory_impl`. Here all keys are read before they are compared with the keys of
the map, in the code each is read just before; this can only change which error a failing call has. -/
def mapUnpackToMem (l : Lin) (sparse : Bool) (m keysPos valsPos len : Nat) : Res (Lin × Ret) := do
  let hm ← visitMap l.objs m
  let bs ← scanSlices l.mem keysPos 0 len
  let vals ← unpackTexts l.objs sparse hm bs
  let (mem, tbl) ← writeVals l.mem l.tbl valsPos vals
  .ok ({ l with mem := mem, tbl := tbl }, .val valVoid)

/-- host.rs:2691-2726, the first slice whose bytes are the text. -/
def firstMatch (t : List Nat) : Nat → List (List Nat) → Option Nat
  | _, [] => none
  | i, b :: bs => if lexCmp t b = .eq then some i else firstMatch t (i + 1) bs

/-- host.rs:2697-2729 `symbol_index_in_linear_memory` -/
def symbolIndex (l : Lin) (sym pos len : Nat) : Res (Lin × Ret) := do
  let t ← symbolText l.objs sym
  let bs ← scanSlices l.mem pos 0 len
  match firstMatch t 0 bs with
  | some i => .ok (l, .val (valU32 i))
  | none => .error (.host .value .missingValue)

/-- The bodies of the host functions on linear memory, on arguments that are already absolute. -/
def runM (cmp : List HostObj → Nat → Nat → Res Ordering) (l : Lin) : MFn → List Nat → Res (Lin × Ret)
  | .bytesCopyTo, [b, p, q, n] => copyTo l (visitBytes l.objs b) (Val.major p) (Val.major q) (Val.major n)
  | .stringCopyTo, [b, p, q, n] => copyTo l (visitString l.objs b) (Val.major p) (Val.major q) (Val.major n)
  | .symbolCopyTo, [b, p, q, n] => copyTo l (visitSymbol l.objs b) (Val.major p) (Val.major q) (Val.major n)
  | .bytesCopyFrom, [b, p, q, n] => do
    let hb ← visitBytes l.objs b
    let r ← bytesIn l.mem hb (Val.major p) (Val.major q) (Val.major n)
    let (objs, v) ← addObj l.objs (.bytes r)
    .ok ({ l with objs := objs }, .val v)
  | .bytesNewFrom, [p, n] => newFrom l (fun b => .ok (.bytes b)) (Val.major p) (Val.major n)
  | .stringNewFrom, [p, n] => newFrom l (fun b => .ok (.string b)) (Val.major p) (Val.major n)
  | .symbolNewFrom, [p, n] => newFrom l symbolObject (Val.major p) (Val.major n)
  | .symbolIndex, [s, p, n] => symbolIndex l s (Val.major p) (Val.major n)
  | .vecNewFrom, [p, n] => vecNewFrom l (Val.major p) (Val.major n)
  | .vecUnpackTo, [v, p, n] => vecUnpackTo l v (Val.major p) (Val.major n)
  | .mapNewFrom sparse, [k, v, n] => mapNewFromMem cmp l sparse (Val.major k) (Val.major v) (Val.major n)
  | .mapUnpackTo sparse, [m, k, v, n] => mapUnpackToMem l sparse m (Val.major k) (Val.major v) (Val.major n)
  | _, _ => .error (.host .context .internalError)

/-! ### calls -/

/-- The modelled host functions that work on objects and memory. -/
inductive HFn where
  | obj (f : Fn)
  | buf (f : BFn)
  | mem (f : MFn)
  deriving DecidableEq, Repr

/-- env.json, their signatures. -/
def HFn.args : HFn → List ArgTy
  | .obj f => f.args
  | .buf f => f.args
  | .mem f => f.args

/-- The bodies of the host functions. -/
def runH (cmp : List HostObj → Nat → Nat → Res Ordering) (l : Lin) : HFn → List Nat → Res (Lin × Ret)
  | .obj f, as => do let (objs, r) ← runFn cmp l.objs f as; .ok ({ l with objs := objs }, r)
  | .buf f, as => do let (objs, r) ← runB l.objs f as; .ok ({ l with objs := objs }, r)
  | .mem f, as => runM cmp l f as

/-- vm/dispatch.rs:206-300, one host call made by the VM of a frame, with raw words as arguments: what the frame has then, and the
word handed back. -/
def dispatchH (cmp : List HostObj → Nat → Nat → Res Ordering) (l : Lin) (f : HFn) (ws : List Nat) : Res (Lin × Int) := do
  let as ← marshalArgs l.objs l.tbl f.args ws
  let (l', r) ← runH cmp l f as
  match r with
  | .raw n => .ok (l', n)
  | .val v => do
    checkIntegrity l'.objs v
    let (tbl, w) ← absToRel l'.tbl v
    .ok ({ l' with tbl := tbl }, (w : Int))

end Soroban
