import Verif.Props.MemoryMaps
/-!
C54: what host calls can change in the memory, and cases in which the theorems of C54 apply.
-/
namespace Soroban.Spec

/-- The bytes of the memory that a host call may write, from the raw words it is called with: the place that its arguments give. -/
def MayWrite : HFn → List Nat → Nat → Prop
  | .mem .bytesCopyTo, [_, _, q, n], i => Val.major q ≤ i ∧ i < Val.major q + Val.major n
  | .mem .stringCopyTo, [_, _, q, n], i => Val.major q ≤ i ∧ i < Val.major q + Val.major n
  | .mem .symbolCopyTo, [_, _, q, n], i => Val.major q ≤ i ∧ i < Val.major q + Val.major n
  | .mem .vecUnpackTo, [_, q, n], i => Val.major q ≤ i ∧ i < Val.major q + Val.major n * 8
  | .mem (.mapUnpackTo _), [_, _, q, n], i => Val.major q ≤ i ∧ i < Val.major q + Val.major n * 8
  | _, _, _ => False

end Soroban.Spec

namespace Soroban.Props
open Soroban Soroban.Spec

variable {cmp : List HostObj → Nat → Nat → Res Ordering} {l l' : Lin}

theorem marshalArg_u32 {objs : List HostObj} {tbl : List Nat} {w a : Nat} (h : marshalArg objs tbl .u32 w = .ok a) : a = w := by
  unfold marshalArg at h
  split at h
  · rename_i hacc
    obtain ⟨a', h1, h⟩ := bind_ok.mp h
    obtain ⟨_, _, h⟩ := bind_ok.mp h
    cases h
    unfold ArgTy.accepts at hacc
    simp only [Bool.and_eq_true, beq_iff_eq] at hacc
    have hf : Val.isObject w = false := by
      cases hob : Val.isObject w
      · rfl
      · have := u8IsObject_tag hob
        rw [hacc.2] at this
        cases this
    unfold relToAbs at h1
    rw [hf] at h1
    cases h1
    rfl
  · cases h

theorem marshal_cons {objs : List HostObj} {tbl : List Nat} {t : ArgTy} {ts : List ArgTy} {ws as : List Nat}
    (h : marshalArgs objs tbl (t :: ts) ws = .ok as) :
    ∃ w ws' a as', ws = w :: ws' ∧ as = a :: as' ∧ marshalArg objs tbl t w = .ok a ∧ marshalArgs objs tbl ts ws' = .ok as' := by
  cases ws with
  | nil => cases h
  | cons w ws =>
    unfold marshalArgs at h
    obtain ⟨a, h1, h⟩ := bind_ok.mp h
    obtain ⟨as', h2, h⟩ := bind_ok.mp h
    cases h
    exact ⟨w, ws, a, as', rfl, rfl, h1, h2⟩

theorem marshal_nil {objs : List HostObj} {tbl : List Nat} {ws as : List Nat} (h : marshalArgs objs tbl [] ws = .ok as) : ws = [] ∧ as = [] := by
  cases ws with
  | nil => cases h; exact ⟨rfl, rfl⟩
  | cons w ws => cases h

theorem scanSlices_len {mem : List Nat} {pos : Nat} : ∀ {n i : Nat} {bs : List (List Nat)}, scanSlices mem pos i n = .ok bs → bs.length = n
  | 0, i, bs, h => by cases h; rfl
  | n + 1, i, bs, h => by
    unfold scanSlices at h
    obtain ⟨_, _, h⟩ := bind_ok.mp h
    obtain ⟨_, _, h⟩ := bind_ok.mp h
    obtain ⟨bs', h2, h⟩ := bind_ok.mp h
    cases h
    rw [List.length_cons, scanSlices_len h2]

theorem copyTo_frame {x : Res (List Nat)} {p q n : Nat} {r : Ret} (h : copyTo l x p q n = .ok (l', r)) :
    l'.mem.length = l.mem.length ∧ ∀ i, l'.mem[i]? ≠ l.mem[i]? → q ≤ i ∧ i < q + n := by
  unfold copyTo at h
  obtain ⟨b, _, h⟩ := bind_ok.mp h
  obtain ⟨bs, h1, h⟩ := bind_ok.mp h
  obtain ⟨mem, h2, h⟩ := bind_ok.mp h
  cases h
  have ho := writeBytes_ok h2
  refine ⟨ho.1, fun i hi => ?_⟩
  have hbs : bs.length ≤ n := by
    unfold bytesOut at h1
    split at h1
    · cases h1
    · split at h1
      · cases h1; rw [List.length_take]; exact Nat.min_le_left _ _
      · cases h1
  by_cases hc : i < q ∨ q + bs.length ≤ i
  · exact absurd (ho.2.2.2 i hc) hi
  · omega

theorem writeVals_frame {mem tbl vs : List Nat} {q : Nat} (h : writeVals l.mem l.tbl q vs = .ok (mem, tbl)) :
    mem.length = l.mem.length ∧ ∀ i, mem[i]? ≠ l.mem[i]? → q ≤ i ∧ i < q + vs.length * 8 := by
  obtain ⟨rs, _, h2, _, h4⟩ := writeVals_ok h
  have ho := writeBytes_ok h4
  refine ⟨ho.1, fun i hi => ?_⟩
  by_cases hc : i < q ∨ q + (unwords rs).length ≤ i
  · exact absurd (ho.2.2.2 i hc) hi
  · rw [unwords_length, h2] at hc; omega

/-- C54: a host call never changes the size of the memory, and changes only bytes at the place that its arguments give, if it is one of
the functions that write to memory; all other functions leave the memory as it is. -/
theorem C54_memory_frame {f : HFn} {ws : List Nat} {w : Int} (h : dispatchH cmp l f ws = .ok (l', w)) :
    l'.mem.length = l.mem.length ∧ ∀ i, l'.mem[i]? ≠ l.mem[i]? → MayWrite f ws i := by
  obtain ⟨as, l₁, r, hm, hr, hmem, _, _⟩ := dispatchH_cases h
  rw [hmem]
  cases f with
  | obj f =>
    obtain ⟨⟨o, r'⟩, _, hr⟩ := bind_ok.mp hr
    cases hr
    exact ⟨rfl, fun i hi => absurd rfl hi⟩
  | buf f =>
    obtain ⟨⟨o, r'⟩, _, hr⟩ := bind_ok.mp hr
    cases hr
    exact ⟨rfl, fun i hi => absurd rfl hi⟩
  | mem f =>
    have four : ∀ {t : ArgTy}, marshalArgs l.objs l.tbl [t, .u32, .u32, .u32] ws = .ok as →
        ∃ w0 w1 w2 w3 a0, ws = [w0, w1, w2, w3] ∧ as = [a0, w1, w2, w3] := by
      intro t hm
      obtain ⟨w0, ws', a0, as', rfl, rfl, _, hm⟩ := marshal_cons hm
      obtain ⟨w1, ws', a1, as', rfl, rfl, h1, hm⟩ := marshal_cons hm
      obtain ⟨w2, ws', a2, as', rfl, rfl, h2, hm⟩ := marshal_cons hm
      obtain ⟨w3, ws', a3, as', rfl, rfl, h3, hm⟩ := marshal_cons hm
      obtain ⟨rfl, rfl⟩ := marshal_nil hm
      cases marshalArg_u32 h1; cases marshalArg_u32 h2; cases marshalArg_u32 h3
      exact ⟨_, _, _, _, _, rfl, rfl⟩
    have three : ∀ {t : ArgTy}, marshalArgs l.objs l.tbl [t, .u32, .u32] ws = .ok as →
        ∃ w0 w1 w2 a0, ws = [w0, w1, w2] ∧ as = [a0, w1, w2] := by
      intro t hm
      obtain ⟨w0, ws', a0, as', rfl, rfl, _, hm⟩ := marshal_cons hm
      obtain ⟨w1, ws', a1, as', rfl, rfl, h1, hm⟩ := marshal_cons hm
      obtain ⟨w2, ws', a2, as', rfl, rfl, h2, hm⟩ := marshal_cons hm
      obtain ⟨rfl, rfl⟩ := marshal_nil hm
      cases marshalArg_u32 h1; cases marshalArg_u32 h2
      exact ⟨_, _, _, _, rfl, rfl⟩
    have two : marshalArgs l.objs l.tbl [.u32, .u32] ws = .ok as → ∃ w0 w1, as = [w0, w1] := by
      intro hm
      obtain ⟨w0, ws', a0, as', rfl, rfl, _, hm⟩ := marshal_cons hm
      obtain ⟨w1, ws', a1, as', rfl, rfl, h1, hm⟩ := marshal_cons hm
      obtain ⟨rfl, rfl⟩ := marshal_nil hm
      exact ⟨_, _, rfl⟩
    change runM cmp l f as = .ok (l₁, r) at hr
    cases f with
    | bytesCopyTo | stringCopyTo | symbolCopyTo =>
      obtain ⟨w0, w1, w2, w3, a0, rfl, rfl⟩ := four hm
      exact copyTo_frame hr
    | bytesCopyFrom =>
      obtain ⟨w0, w1, w2, w3, a0, rfl, rfl⟩ := four hm
      obtain ⟨_, _, hr⟩ := bind_ok.mp hr
      obtain ⟨_, _, hr⟩ := bind_ok.mp hr
      obtain ⟨_, _, hr⟩ := bind_ok.mp hr
      cases hr
      exact ⟨rfl, fun i hi => absurd rfl hi⟩
    | bytesNewFrom | stringNewFrom | symbolNewFrom =>
      obtain ⟨w0, w1, rfl⟩ := two hm
      obtain ⟨_, _, hr⟩ := bind_ok.mp hr
      obtain ⟨_, _, hr⟩ := bind_ok.mp hr
      obtain ⟨_, _, hr⟩ := bind_ok.mp hr
      cases hr
      exact ⟨rfl, fun i hi => absurd rfl hi⟩
    | vecNewFrom =>
      obtain ⟨w0, w1, rfl⟩ := two hm
      obtain ⟨_, _, hr⟩ := bind_ok.mp hr
      obtain ⟨_, _, hr⟩ := bind_ok.mp hr
      obtain ⟨_, _, hr⟩ := bind_ok.mp hr
      obtain ⟨_, _, hr⟩ := bind_ok.mp hr
      cases hr
      exact ⟨rfl, fun i hi => absurd rfl hi⟩
    | symbolIndex =>
      obtain ⟨w0, w1, w2, a0, rfl, rfl⟩ := three hm
      obtain ⟨_, _, hr⟩ := bind_ok.mp hr
      obtain ⟨_, _, hr⟩ := bind_ok.mp hr
      split at hr
      · cases hr; exact ⟨rfl, fun i hi => absurd rfl hi⟩
      · cases hr
    | mapNewFrom sparse =>
      obtain ⟨w0, w1, w2, a0, rfl, rfl⟩ := three hm
      obtain ⟨_, _, hr⟩ := bind_ok.mp hr
      obtain ⟨_, _, hr⟩ := bind_ok.mp hr
      obtain ⟨_, _, hr⟩ := bind_ok.mp hr
      obtain ⟨_, _, hr⟩ := bind_ok.mp hr
      obtain ⟨_, _, hr⟩ := bind_ok.mp hr
      cases hr
      exact ⟨rfl, fun i hi => absurd rfl hi⟩
    | vecUnpackTo =>
      obtain ⟨w0, w1, w2, a0, rfl, rfl⟩ := three hm
      obtain ⟨hv, _, hr⟩ := bind_ok.mp hr
      split at hr
      · rename_i hlen
        obtain ⟨⟨mem, tbl⟩, h1, hr⟩ := bind_ok.mp hr
        cases hr
        have := writeVals_frame h1
        rw [hlen] at this
        exact this
      · cases hr
    | mapUnpackTo sparse =>
      obtain ⟨w0, w1, w2, w3, a0, rfl, rfl⟩ := four hm
      obtain ⟨_, _, hr⟩ := bind_ok.mp hr
      obtain ⟨ts, h1, hr⟩ := bind_ok.mp hr
      obtain ⟨vs, h2, hr⟩ := bind_ok.mp hr
      obtain ⟨⟨mem, tbl⟩, h3, hr⟩ := bind_ok.mp hr
      cases hr
      have := writeVals_frame h3
      rw [(unpackTexts_sub h2).2, scanSlices_len h1] at this
      exact this

/-! ### a case

A memory that holds two slices `(32, 1)` and `(33, 2)`, the words of the number 7 and of void, and the text `"abc"`. The frame has no
objects at first. -/

def caseMem : List Nat :=
  [32, 0, 0, 0, 1, 0, 0, 0, 33, 0, 0, 0, 2, 0, 0, 0] ++ toLe 8 (valU32 7) ++ toLe 8 valVoid ++ [97, 98, 99, 0, 0, 0, 0, 0] ++ List.replicate 16 255

def caseLin : Lin := { mem := caseMem, objs := [], tbl := [] }

/-- A map is made of the two keys and values, and unpacked behind them; then the memory there holds the same two words. -/
example : (match dispatchH (fun o => valCmp o 5) caseLin (.mem (.mapNewFrom false)) [valU32 0, valU32 16, valU32 2] with
    | .ok (l, w) => l.tbl.length == 1 && (match dispatchH (fun o => valCmp o 5) l (.mem (.mapUnpackTo false)) [w.toNat, valU32 0, valU32 40, valU32 2] with
      | .ok (l', _) => (l'.mem.drop 40).take 16 == (l.mem.drop 16).take 16 && l'.mem.take 40 == l.mem.take 40
      | .error _ => false)
    | .error _ => false) = true := by decide +kernel

/-- The memory is one of bytes, and the keys and values in it can be made a map, so the hypotheses of the theorems hold. -/
example : (∀ b ∈ caseLin.mem, b < 256) ∧ Buildable caseLin 0 16 2 [[97], [98, 99]] [valU32 7, valVoid] := by
  have hm : ∀ b ∈ caseLin.mem, b < 256 := by decide
  have h1 := (scanSlices_iff (pos := 0) (n := 2) (bs := [[97], [98, 99]]) hm).1 (by rfl)
  have h2 := (readVals_iff (tbl := []) (pos := 16) (n := 2) (vs := [valU32 7, valVoid]) hm).1 (by rfl)
  obtain ⟨g1, g2, ws, g3, g4, g5⟩ := h2
  exact ⟨hm, h1.1, h1.2, by simp [isSymbolChar], by decide, g1, g2, ws, g3, g4, g5, by decide +kernel⟩

/-- The empty table is well-formed, and so is all that a frame gets from here (`C10_values_stay_sound_memory`). -/
example : ObjsOk caseLin.objs ∧ MapsSorted caseLin.objs ∧ (∀ o ∈ caseLin.objs, TextOk o) ∧ ∀ a ∈ caseLin.tbl, Sound caseLin.objs a :=
  ⟨fun i o h => by simp [caseLin] at h, fun m h => by simp [caseLin] at h, by simp [caseLin], by simp [caseLin]⟩

/-- Copying from the memory to an object and back, and searching a symbol among the slices. -/
example : (match dispatchH (fun o => valCmp o 5) caseLin (.mem .bytesNewFrom) [valU32 32, valU32 3] with
    | .ok (l, w) => (match dispatchH (fun o => valCmp o 5) l (.mem .bytesCopyTo) [w.toNat, valU32 1, valU32 40, valU32 2] with
      | .ok (l', _) => (l'.mem.drop 38).take 6 == [0, 0, 98, 99, 255, 255]
      | .error _ => false)
    | .error _ => false) = true ∧
    (match symbolTryFromBytes [98, 99] with
    | some s => (match dispatchH (fun o => valCmp o 5) caseLin (.mem .symbolIndex) [s, valU32 0, valU32 2] with
      | .ok (_, w) => w == valU32 1
      | .error _ => false)
    | none => false) = true := by decide +kernel

/-- A vector is made of the two values, and unpacked. -/
example : (match dispatchH (fun o => valCmp o 5) caseLin (.mem .vecNewFrom) [valU32 16, valU32 2] with
    | .ok (l, w) => (match dispatchH (fun o => valCmp o 5) l (.mem .vecUnpackTo) [w.toNat, valU32 40, valU32 2] with
      | .ok (l', _) => (l'.mem.drop 40).take 16 == (l.mem.drop 16).take 16 && l'.mem.take 40 == l.mem.take 40
      | .error _ => false)
    | .error _ => false) = true := by decide +kernel

/-- A run of a frame. -/
example : ∃ l', MemRun (fun o => valCmp o 5) caseLin l' ∧ l'.objs.length = 1 := by
  cases h : dispatchH (fun o => valCmp o 5) caseLin (.mem .vecNewFrom) [valU32 16, valU32 2] with
  | ok q => exact ⟨q.1, .call .refl (by decide) h, by
      have : (match dispatchH (fun o => valCmp o 5) caseLin (.mem .vecNewFrom) [valU32 16, valU32 2] with
        | .ok q => q.1.objs.length == 1 | .error _ => false) = true := by decide +kernel
      rw [h] at this
      exact beq_iff_eq.1 this⟩
  | error e =>
    have : (match dispatchH (fun o => valCmp o 5) caseLin (.mem .vecNewFrom) [valU32 16, valU32 2] with
      | .ok _ => true | .error _ => false) = true := by decide +kernel
    rw [h] at this
    cases this

end Soroban.Props
