import Verif.Model.Memory

/-!
Symbols as Rust code of the host and of its embedders sees them: soroban-env-common/src/symbol.rs. A symbol is a word with up to nine
characters or the handle of a symbol object; `SymbolStr` is an array of 32 bytes with its text, padded with zeros.
-/

namespace Soroban.Symbols

/-- symbol.rs:289-291 (`zip`) and host/mem_helper.rs:286-304: bytes are written over the start of an array. -/
def overwrite : List Nat → List Nat → List Nat
  | _ :: ds, s :: ss => s :: overwrite ds ss
  | ds, _ => ds

/-- symbol.rs:286-293 `SymbolSmall::to_str`. -/
def smallToStr (v : Nat) : List Nat := overwrite (List.replicate 32 0) (symbolChars v)

/-- symbol.rs:307-315 `SymbolStr::len`. -/
def strLen : List Nat → Nat
  | [] => 0
  | x :: xs => if x = 0 then 0 else strLen xs + 1

/-- symbol.rs:304-306 `SymbolStr::is_empty`. -/
def strIsEmpty (s : List Nat) : Bool := s[0]? == some 0

/-- symbol.rs:325-330 `AsRef<[u8]> for SymbolStr`. -/
def strBytes (s : List Nat) : List Nat := s.take (strLen s)

/-- symbol.rs:354-376 `TryFromVal<Symbol> for SymbolStr`, with host.rs `symbol_len` and 964-974 `symbol_copy_to_slice`. -/
def toStr (objs : List HostObj) (v : Nat) : Res (List Nat) :=
  if Val.tag v = .SymbolSmall then .ok (smallToStr v)
  else do
    let b ← visitSymbol objs v
    if b.length ≤ 32 then do
      let s ← bytesOut b 0 b.length
      .ok (overwrite (List.replicate 32 0) s)
    else .error (.host .value .internalError)

/-- symbol.rs:299 `derive(Ord)` on the array. -/
def strCmp (s t : List Nat) : Ordering := lexCmp s t

/-- host/comparison.rs:208-217 `Compare<SymbolStr> for Budget`. -/
def strHostCmp (s t : List Nat) : Ordering := lexCmp (strBytes s) (strBytes t)

/-- symbol.rs:545-560 `TryFromVal<Symbol>` for `ScSymbol` and `ScVal`: at most 32 bytes always fit. -/
def toScVal (objs : List HostObj) (v : Nat) : Res ScVal := do
  let s ← toStr objs v
  .ok (.symbol (s.take (strLen s)))

/-- symbol.rs:483-519 `TryFromVal<ScVal> for Symbol`. -/
def ofScVal (objs : List HostObj) : ScVal → Res (List HostObj × Nat)
  | .symbol b => symbolFromSlice objs b
  | _ => .error conversionErr

/-- host/mem_helper.rs:432-446 `compare_symbol_to_bytes`. -/
def compareToBytes (objs : List HostObj) (v : Nat) (b : List Nat) : Res Ordering :=
  if Val.tag v = .SymbolSmall then .ok (lexCmp (strBytes (smallToStr v)) b)
  else if Val.tag v = .SymbolObject then do
    let t ← visitSymbol objs v
    .ok (lexCmp t b)
  else .error conversionErr

/-- host/mem_helper.rs:448-450 `symbol_matches`. -/
def symbolMatches (objs : List HostObj) (b : List Nat) (v : Nat) : Res Bool := do
  let o ← compareToBytes objs v b
  .ok (o == .eq)

/-- symbol.rs:140-161 `Compare<Symbol>`, with `depth` levels left for the comparison of objects (object.rs:38-44). -/
def symbolCmp (objs : List HostObj) (depth : Nat) (a b : Nat) : Res Ordering :=
  match compare (Val.tag a).code (Val.tag b).code with
  | .eq => if Val.tag a = .SymbolSmall then .ok (symbolSmallCmp a b) else valCmp objs depth a b
  | o => .ok o

end Soroban.Symbols
