import Verif.Model.Memory
/-!
What the host functions on byte strings, strings and symbols mean, on sequences of bytes.
-/
namespace Soroban.Spec

/-- What a function gives back: a new object or a number. -/
inductive BufOut where
  | obj (o : HostObj)
  | num (n : Nat)

/-- The meaning of a function on objects `os` and numbers `us`. A function fails if there is no result with this property. -/
inductive BufMeans : BFn → List HostObj → List Nat → BufOut → Prop
  | new : BufMeans .bytesNew [] [] (.obj (.bytes []))
  /-- One byte is replaced. -/
  | put (x y : List Nat) (c u : Nat) : u < 256 → BufMeans .bytesPut [.bytes (x ++ c :: y)] [x.length, u] (.obj (.bytes (x ++ u :: y)))
  | get (x y : List Nat) (c : Nat) : BufMeans .bytesGet [.bytes (x ++ c :: y)] [x.length] (.num c)
  | del (x y : List Nat) (c : Nat) : BufMeans .bytesDel [.bytes (x ++ c :: y)] [x.length] (.obj (.bytes (x ++ y)))
  | len (b : List Nat) : b.length < 2^32 → BufMeans .bytesLen [.bytes b] [] (.num b.length)
  | push (b : List Nat) (u : Nat) : u < 256 → b.length + 1 < 2^32 → BufMeans .bytesPush [.bytes b] [u] (.obj (.bytes (b ++ [u])))
  | pop (b : List Nat) (c : Nat) : BufMeans .bytesPop [.bytes (b ++ [c])] [] (.obj (.bytes b))
  | front (b : List Nat) (c : Nat) : BufMeans .bytesFront [.bytes (c :: b)] [] (.num c)
  | back (b : List Nat) (c : Nat) : BufMeans .bytesBack [.bytes (b ++ [c])] [] (.num c)
  /-- One byte is put in between, or before or behind all. -/
  | insert (x y : List Nat) (u : Nat) : u < 256 → (x ++ y).length + 1 < 2^32 →
      BufMeans .bytesInsert [.bytes (x ++ y)] [x.length, u] (.obj (.bytes (x ++ u :: y)))
  | append (a b : List Nat) : a.length + b.length < 2^32 → BufMeans .bytesAppend [.bytes a, .bytes b] [] (.obj (.bytes (a ++ b)))
  /-- The part from a start up to, and without, an end. -/
  | slice (x y z : List Nat) : BufMeans .bytesSlice [.bytes (x ++ y ++ z)] [x.length, x.length + y.length] (.obj (.bytes y))
  | toBytes (b : List Nat) : BufMeans .stringToBytes [.string b] [] (.obj (.bytes b))
  | toString (b : List Nat) : BufMeans .bytesToString [.bytes b] [] (.obj (.string b))
  | tag (b : List Nat) : BufMeans .createExecutableTag [.string b] [] (.obj (.executableTag b))
  | stringLen (b : List Nat) : b.length < 2^32 → BufMeans .stringLen [.string b] [] (.num b.length)
  | symbolLen (b : List Nat) : b.length < 2^32 → BufMeans .symbolLen [.symbol b] [] (.num b.length)

/-- How a result is handed back: a number as a value without any new object, an object as the handle of a new object. -/
def HandsBack (objs objs' : List HostObj) (r : Ret) : BufOut → Prop
  | .num n => objs' = objs ∧ r = .val (valU32 n)
  | .obj o => objs' = objs ++ [o] ∧ ∃ w, r = .val w ∧ addObj objs o = .ok (objs', w) ∧ visitObj objs' w = .ok o

end Soroban.Spec
