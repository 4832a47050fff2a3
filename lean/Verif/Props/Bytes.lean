import Verif.Spec.Bytes
import Verif.Props.MemoryOps
/-!
C55: the host functions on byte strings behave as operations on finite sequences of bytes.
-/
namespace Soroban.Props
open Soroban Soroban.Spec

variable {objs objs' : List HostObj} {r : Ret}

theorem retObj_iff (hl : objs.length < 2^31) {x : Res HostObj} :
    retObj objs x = .ok (objs', r) ↔ ∃ o, x = .ok o ∧ HandsBack objs objs' r (.obj o) := by
  unfold retObj
  constructor
  · intro h
    obtain ⟨o, h1, h⟩ := bind_ok.mp h
    obtain ⟨⟨objs₁, v⟩, h2, h⟩ := bind_ok.mp h
    cases h
    exact ⟨o, h1, addObj_eq h2, v, rfl, h2, (addObj_visit hl h2).1⟩
  · rintro ⟨o, rfl, _, w, rfl, h, _⟩
    exact bind_ok.mpr ⟨o, rfl, bind_ok.mpr ⟨_, h, rfl⟩⟩

theorem retNum_iff {x : Res Nat} :
    retVal objs (do let n ← x; .ok (valU32 n)) = .ok (objs', r) ↔ ∃ n, x = .ok n ∧ HandsBack objs objs' r (.num n) := by
  unfold retVal
  constructor
  · intro h
    obtain ⟨o, h1, h⟩ := bind_ok.mp h
    obtain ⟨n, h2, h1⟩ := bind_ok.mp h1
    cases h
    cases h1
    exact ⟨n, h2, rfl, rfl⟩
  · rintro ⟨n, rfl, rfl, rfl⟩
    rfl

theorem u8Input_iff {u n : Nat} : u8Input u = .ok n ↔ u < 256 ∧ n = u := by
  unfold u8Input
  split
  · exact ⟨fun h => (by cases h; exact ⟨by omega, rfl⟩), fun ⟨_, h⟩ => (by rw [h])⟩
  · exact ⟨fun h => (by cases h), fun ⟨h, _⟩ => (by omega)⟩

theorem sumFits_iff {a b : Nat} : sumFits a b = .ok () ↔ a + b < 2^32 := by
  unfold sumFits u32Max
  split
  · exact ⟨fun h => (by cases h), fun h => (by omega)⟩
  · exact ⟨fun _ => (by omega), fun _ => rfl⟩

theorem usizeToU32_iff {a n : Nat} : usizeToU32 a = .ok n ↔ a < 2^32 ∧ n = a := by
  unfold usizeToU32 u32Max
  split
  · exact ⟨fun h => (by cases h; exact ⟨by omega, rfl⟩), fun ⟨_, h⟩ => (by rw [h])⟩
  · exact ⟨fun h => (by cases h), fun ⟨h, _⟩ => (by omega)⟩

theorem at_split {b : List Nat} {i c : Nat} (h : b[i]? = some c) : b = b.take i ++ c :: b.drop (i + 1) ∧ (b.take i).length = i := by
  obtain ⟨hi, he⟩ := List.getElem?_eq_some_iff.1 h
  constructor
  · rw [← he, List.getElem_cons_drop, List.take_append_drop]
  · rw [List.length_take]; omega

theorem bytesPut_iff {b c : List Nat} {i u : Nat} : bytesPut b i u = .ok c ↔ BufMeans .bytesPut [.bytes b] [i, u] (.obj (.bytes c)) := by
  unfold bytesPut
  constructor
  · intro h
    replace h := bind_ok.mp h
    obtain ⟨n, h1, h⟩ := h
    obtain ⟨h1, rfl⟩ := u8Input_iff.1 h1
    split at h
    · rename_i hi
      cases h
      obtain ⟨e1, e2⟩ := at_split (List.getElem?_eq_getElem hi)
      have := BufMeans.put (b.take i) (b.drop (i + 1)) b[i] n h1
      rw [← e1, e2] at this
      rwa [List.set_eq_take_append_cons_drop, if_pos hi]
    · cases h
  · intro h
    cases h with
    | put x y c u hu =>
      refine bind_ok.mpr ⟨u, u8Input_iff.2 ⟨hu, rfl⟩, ?_⟩
      rw [if_pos (by simp)]
      simp

theorem bytesGet_iff {b : List Nat} {i n : Nat} : bytesGet b i = .ok n ↔ BufMeans .bytesGet [.bytes b] [i] (.num n) := by
  unfold bytesGet
  constructor
  · intro h
    split at h
    · rename_i x hx
      cases h
      obtain ⟨e1, e2⟩ := at_split hx
      have := BufMeans.get (b.take i) (b.drop (i + 1)) n
      rwa [← e1, e2] at this
    · cases h
  · intro h
    cases h with
    | get x y c => simp

theorem bytesDel_iff {b c : List Nat} {i : Nat} : bytesDel b i = .ok c ↔ BufMeans .bytesDel [.bytes b] [i] (.obj (.bytes c)) := by
  unfold bytesDel indexLt
  constructor
  · intro h
    obtain ⟨_, h1, h⟩ := bind_ok.mp h
    cases h
    split at h1
    · cases h1
    · rename_i hi
      have hi : i < b.length := by omega
      obtain ⟨e1, e2⟩ := at_split (List.getElem?_eq_getElem hi)
      have := BufMeans.del (b.take i) (b.drop (i + 1)) b[i]
      rw [← e1, e2] at this
      rwa [List.eraseIdx_eq_take_drop_succ]
  · intro h
    cases h with
    | del x y c =>
      rw [if_neg (by simp)]
      refine bind_ok.mpr ⟨(), rfl, ?_⟩
      simp [List.eraseIdx_append_of_length_le]

theorem bytesPush_iff {b c : List Nat} {u : Nat} : bytesPush b u = .ok c ↔ BufMeans .bytesPush [.bytes b] [u] (.obj (.bytes c)) := by
  unfold bytesPush
  constructor
  · intro h
    replace h := bind_ok.mp h
    obtain ⟨n, h1, h⟩ := h
    replace h := bind_ok.mp h
    obtain ⟨_, h2, h⟩ := h
    obtain ⟨h1, rfl⟩ := u8Input_iff.1 h1
    cases h
    exact .push _ _ h1 (sumFits_iff.1 h2)
  · intro h
    cases h with
    | push _ _ h1 h2 => exact bind_ok.mpr ⟨u, u8Input_iff.2 ⟨h1, rfl⟩, bind_ok.mpr ⟨(), sumFits_iff.2 h2, rfl⟩⟩

theorem bytesPop_iff {b c : List Nat} : bytesPop b = .ok c ↔ BufMeans .bytesPop [.bytes b] [] (.obj (.bytes c)) := by
  unfold bytesPop
  constructor
  · intro h
    split at h
    · cases h
    · rename_i hb
      cases h
      have hb : b ≠ [] := by simpa using hb
      have := BufMeans.pop b.dropLast (b.getLast hb)
      rwa [List.dropLast_append_getLast] at this
  · intro h
    cases h with
    | pop b c => simp

theorem bytesFront_iff {b : List Nat} {n : Nat} : bytesFront b = .ok n ↔ BufMeans .bytesFront [.bytes b] [] (.num n) := by
  unfold bytesFront
  constructor
  · intro h
    cases b with
    | nil => cases h
    | cons x b => cases h; exact .front _ _
  · intro h
    cases h with
    | front b c => rfl

theorem bytesBack_iff {b : List Nat} {n : Nat} : bytesBack b = .ok n ↔ BufMeans .bytesBack [.bytes b] [] (.num n) := by
  unfold bytesBack
  constructor
  · intro h
    split at h
    · rename_i x hx
      cases h
      obtain ⟨ys, rfl⟩ := List.getLast?_eq_some_iff.1 hx
      exact .back _ _
    · cases h
  · intro h
    cases h with
    | back b c => simp

theorem bytesInsert_iff {b c : List Nat} {i u : Nat} :
    bytesInsert b i u = .ok c ↔ BufMeans .bytesInsert [.bytes b] [i, u] (.obj (.bytes c)) := by
  unfold bytesInsert indexLe
  constructor
  · intro h
    replace h := bind_ok.mp h
    obtain ⟨n, h1, h⟩ := h
    replace h := bind_ok.mp h
    obtain ⟨_, h2, h⟩ := h
    replace h := bind_ok.mp h
    obtain ⟨_, h3, h⟩ := h
    obtain ⟨h1, rfl⟩ := u8Input_iff.1 h1
    cases h
    split at h2
    · cases h2
    · have h3 := sumFits_iff.1 h3
      have := BufMeans.insert (b.take i) (b.drop i) n h1 (by rw [List.take_append_drop]; exact h3)
      have e : (b.take i).length = i := by rw [List.length_take]; omega
      rwa [List.take_append_drop, e] at this
  · intro h
    cases h with
    | insert x y u h1 h2 =>
      refine bind_ok.mpr ⟨u, u8Input_iff.2 ⟨h1, rfl⟩, ?_⟩
      rw [if_neg (by simp)]
      refine bind_ok.mpr ⟨(), rfl, bind_ok.mpr ⟨(), sumFits_iff.2 h2, ?_⟩⟩
      simp

theorem bytesAppend_iff {a b c : List Nat} :
    bytesAppend a b = .ok c ↔ BufMeans .bytesAppend [.bytes a, .bytes b] [] (.obj (.bytes c)) := by
  unfold bytesAppend
  constructor
  · intro h
    replace h := bind_ok.mp h
    obtain ⟨_, h2, h⟩ := h
    cases h
    exact .append _ _ (sumFits_iff.1 h2)
  · intro h
    cases h with
    | append a b h => exact bind_ok.mpr ⟨(), sumFits_iff.2 h, rfl⟩

theorem bytesSlice_iff {b c : List Nat} {s e : Nat} : bytesSlice b s e = .ok c ↔ BufMeans .bytesSlice [.bytes b] [s, e] (.obj (.bytes c)) := by
  unfold bytesSlice validRange indexLe
  constructor
  · intro h
    obtain ⟨q, h1, h⟩ := bind_ok.mp h
    obtain ⟨_, h2, h1⟩ := bind_ok.mp h1
    obtain ⟨_, h3, h1⟩ := bind_ok.mp h1
    split at h2
    · cases h2
    · split at h3
      · cases h3
      · split at h1
        · cases h1
        · cases h1
          cases h
          have := BufMeans.slice (b.take s) ((b.take e).drop s) (b.drop e)
          have e1 : b.take s ++ (b.take e).drop s = b.take e := by
            have : b.take s = (b.take e).take s := by rw [List.take_take, Nat.min_eq_left (by omega)]
            rw [this, List.take_append_drop]
          have e2 : (b.take s).length = s := by rw [List.length_take]; omega
          have e3 : ((b.take e).drop s).length = e - s := by rw [List.length_drop, List.length_take]; omega
          rw [e1, List.take_append_drop, e2, e3] at this
          have e4 : s + (e - s) = e := by omega
          rwa [e4] at this
  · intro h
    cases h with
    | slice x y z =>
      rw [if_neg (by simp), if_neg (by simp), if_neg (by simp)]
      refine bind_ok.mpr ⟨_, rfl, ?_⟩
      simp [List.take_append]

/-- The kinds of arguments a function takes. -/
inductive BufArgs : BFn → List HostObj → List Nat → Prop
  | new : BufArgs .bytesNew [] []
  | put (b i u) : BufArgs .bytesPut [.bytes b] [i, u]
  | get (b i) : BufArgs .bytesGet [.bytes b] [i]
  | del (b i) : BufArgs .bytesDel [.bytes b] [i]
  | len (b) : BufArgs .bytesLen [.bytes b] []
  | push (b u) : BufArgs .bytesPush [.bytes b] [u]
  | pop (b) : BufArgs .bytesPop [.bytes b] []
  | front (b) : BufArgs .bytesFront [.bytes b] []
  | back (b) : BufArgs .bytesBack [.bytes b] []
  | insert (b i u) : BufArgs .bytesInsert [.bytes b] [i, u]
  | append (a b) : BufArgs .bytesAppend [.bytes a, .bytes b] []
  | slice (b s e) : BufArgs .bytesSlice [.bytes b] [s, e]
  | toBytes (b) : BufArgs .stringToBytes [.string b] []
  | toString (b) : BufArgs .bytesToString [.bytes b] []
  | tag (b) : BufArgs .createExecutableTag [.string b] []
  | stringLen (b) : BufArgs .stringLen [.string b] []
  | symbolLen (b) : BufArgs .symbolLen [.symbol b] []

theorem bytes_obj (hl : objs.length < 2^31) {f : BFn} {os : List HostObj} {us : List Nat} {x : Res (List Nat)}
    (h : ∀ c, x = .ok c ↔ BufMeans f os us (.obj (.bytes c))) (h2 : ∀ out, BufMeans f os us out → ∃ c, out = .obj (.bytes c)) :
    retObj objs (do let c ← x; .ok (.bytes c)) = .ok (objs', r) ↔ ∃ out, BufMeans f os us out ∧ HandsBack objs objs' r out := by
  rw [retObj_iff hl]
  constructor
  · rintro ⟨o, ho, hb⟩
    obtain ⟨c, hc, ho⟩ := bind_ok.mp ho
    cases ho
    exact ⟨_, (h c).1 hc, hb⟩
  · rintro ⟨out, ho, hb⟩
    obtain ⟨c, rfl⟩ := h2 out ho
    exact ⟨_, bind_ok.mpr ⟨c, (h c).2 ho, rfl⟩, hb⟩

theorem bytes_num {f : BFn} {os : List HostObj} {us : List Nat} {x : Res Nat}
    (h : ∀ c, x = .ok c ↔ BufMeans f os us (.num c)) (h2 : ∀ out, BufMeans f os us out → ∃ c, out = .num c) :
    retVal objs (do let n ← x; .ok (valU32 n)) = .ok (objs', r) ↔ ∃ out, BufMeans f os us out ∧ HandsBack objs objs' r out := by
  rw [retNum_iff]
  constructor
  · rintro ⟨n, hn, hb⟩
    exact ⟨_, (h n).1 hn, hb⟩
  · rintro ⟨out, ho, hb⟩
    obtain ⟨c, rfl⟩ := h2 out ho
    exact ⟨c, (h c).2 ho, hb⟩

/-- C55: a host function on byte strings, strings or symbols, called with objects and numbers of the kinds that it takes, succeeds exactly
if its meaning on the sequences of bytes has a result, and hands back that result; the objects it was called with stay as they are. -/
theorem C55_sequences (hl : objs.length < 2^31) {f : BFn} {vs : List Nat} {os : List HostObj} {us : List Nat} (ha : BufArgs f os us)
    (hv : List.Forall₂ (fun v o => visitObj objs v = .ok o) vs os) (hu : ∀ u ∈ us, u < 2^32) :
    runB objs f (vs ++ us.map valU32) = .ok (objs', r) ↔ ∃ out, BufMeans f os us out ∧ HandsBack objs objs' r out := by
  have two : ∀ {i u : Nat}, (∀ x ∈ [i, u], x < 2^32) → i < 2^32 ∧ u < 2^32 := fun h => ⟨h _ (by simp), h _ (by simp)⟩
  have one : ∀ {i : Nat}, (∀ x ∈ [i], x < 2^32) → i < 2^32 := fun h => h _ (by simp)
  cases ha with
  | new =>
    cases hv
    change retObj objs (.ok (.bytes [])) = _ ↔ _
    rw [retObj_iff hl]
    constructor
    · rintro ⟨o, ho, hb⟩; cases ho; exact ⟨_, .new, hb⟩
    · rintro ⟨out, ho, hb⟩; cases ho; exact ⟨_, rfl, hb⟩
  | put b i u =>
    obtain ⟨v, _, h1, h2, rfl⟩ := List.forall₂_cons_right_iff.1 hv; cases h2
    change retObj objs (do let hb ← visitBytes objs v; let r ← bytesPut hb (Val.major (valU32 i)) (Val.major (valU32 u)); .ok (.bytes r)) = _ ↔ _
    rw [visitBytes_ok.2 h1, major_valU32 (two hu).1, major_valU32 (two hu).2]
    exact bytes_obj hl (fun c => bytesPut_iff) (fun out ho => by cases ho; exact ⟨_, rfl⟩)
  | get b i =>
    obtain ⟨v, _, h1, h2, rfl⟩ := List.forall₂_cons_right_iff.1 hv; cases h2
    change retVal objs (do let hb ← visitBytes objs v; let n ← bytesGet hb (Val.major (valU32 i)); .ok (valU32 n)) = _ ↔ _
    rw [visitBytes_ok.2 h1, major_valU32 (one hu)]
    exact bytes_num (fun c => bytesGet_iff) (fun out ho => by cases ho; exact ⟨_, rfl⟩)
  | del b i =>
    obtain ⟨v, _, h1, h2, rfl⟩ := List.forall₂_cons_right_iff.1 hv; cases h2
    change retObj objs (do let hb ← visitBytes objs v; let r ← bytesDel hb (Val.major (valU32 i)); .ok (.bytes r)) = _ ↔ _
    rw [visitBytes_ok.2 h1, major_valU32 (one hu)]
    exact bytes_obj hl (fun c => bytesDel_iff) (fun out ho => by cases ho; exact ⟨_, rfl⟩)
  | len b =>
    obtain ⟨v, _, h1, h2, rfl⟩ := List.forall₂_cons_right_iff.1 hv; cases h2
    change retVal objs (do let hb ← visitBytes objs v; let n ← usizeToU32 hb.length; .ok (valU32 n)) = _ ↔ _
    rw [visitBytes_ok.2 h1]
    refine bytes_num (fun c => ?_) (fun out ho => by cases ho; exact ⟨_, rfl⟩)
    rw [usizeToU32_iff]
    exact ⟨fun ⟨h, e⟩ => (by rw [e]; exact .len _ h), fun h => (by cases h with | len _ h => exact ⟨h, rfl⟩)⟩
  | push b u =>
    obtain ⟨v, _, h1, h2, rfl⟩ := List.forall₂_cons_right_iff.1 hv; cases h2
    change retObj objs (do let hb ← visitBytes objs v; let r ← bytesPush hb (Val.major (valU32 u)); .ok (.bytes r)) = _ ↔ _
    rw [visitBytes_ok.2 h1, major_valU32 (one hu)]
    exact bytes_obj hl (fun c => bytesPush_iff) (fun out ho => by cases ho; exact ⟨_, rfl⟩)
  | pop b =>
    obtain ⟨v, _, h1, h2, rfl⟩ := List.forall₂_cons_right_iff.1 hv; cases h2
    change retObj objs (do let hb ← visitBytes objs v; let r ← bytesPop hb; .ok (.bytes r)) = _ ↔ _
    rw [visitBytes_ok.2 h1]
    exact bytes_obj hl (fun c => bytesPop_iff) (fun out ho => by cases ho; exact ⟨_, rfl⟩)
  | front b =>
    obtain ⟨v, _, h1, h2, rfl⟩ := List.forall₂_cons_right_iff.1 hv; cases h2
    change retVal objs (do let hb ← visitBytes objs v; let n ← bytesFront hb; .ok (valU32 n)) = _ ↔ _
    rw [visitBytes_ok.2 h1]
    exact bytes_num (fun c => bytesFront_iff) (fun out ho => by cases ho; exact ⟨_, rfl⟩)
  | back b =>
    obtain ⟨v, _, h1, h2, rfl⟩ := List.forall₂_cons_right_iff.1 hv; cases h2
    change retVal objs (do let hb ← visitBytes objs v; let n ← bytesBack hb; .ok (valU32 n)) = _ ↔ _
    rw [visitBytes_ok.2 h1]
    exact bytes_num (fun c => bytesBack_iff) (fun out ho => by cases ho; exact ⟨_, rfl⟩)
  | insert b i u =>
    obtain ⟨v, _, h1, h2, rfl⟩ := List.forall₂_cons_right_iff.1 hv; cases h2
    change retObj objs (do let hb ← visitBytes objs v; let r ← bytesInsert hb (Val.major (valU32 i)) (Val.major (valU32 u)); .ok (.bytes r)) = _ ↔ _
    rw [visitBytes_ok.2 h1, major_valU32 (two hu).1, major_valU32 (two hu).2]
    exact bytes_obj hl (fun c => bytesInsert_iff) (fun out ho => by cases ho; exact ⟨_, rfl⟩)
  | append a b =>
    obtain ⟨v, _, h1, h2, rfl⟩ := List.forall₂_cons_right_iff.1 hv
    obtain ⟨w, _, h3, h4, rfl⟩ := List.forall₂_cons_right_iff.1 h2; cases h4
    change retObj objs (do let ha ← visitBytes objs v; let hb ← visitBytes objs w; let r ← bytesAppend ha hb; .ok (.bytes r)) = _ ↔ _
    rw [visitBytes_ok.2 h1, visitBytes_ok.2 h3]
    exact bytes_obj hl (fun c => bytesAppend_iff) (fun out ho => by cases ho; exact ⟨_, rfl⟩)
  | slice b s e =>
    obtain ⟨v, _, h1, h2, rfl⟩ := List.forall₂_cons_right_iff.1 hv; cases h2
    change retObj objs (do let hb ← visitBytes objs v; let r ← bytesSlice hb (Val.major (valU32 s)) (Val.major (valU32 e)); .ok (.bytes r)) = _ ↔ _
    rw [visitBytes_ok.2 h1, major_valU32 (two hu).1, major_valU32 (two hu).2]
    exact bytes_obj hl (fun c => bytesSlice_iff) (fun out ho => by cases ho; exact ⟨_, rfl⟩)
  | toBytes b =>
    obtain ⟨v, _, h1, h2, rfl⟩ := List.forall₂_cons_right_iff.1 hv; cases h2
    change retObj objs (do let b ← visitString objs v; .ok (.bytes b)) = _ ↔ _
    rw [visitString_ok.2 h1, retObj_iff hl]
    constructor
    · rintro ⟨o, ho, hb⟩; cases ho; exact ⟨_, .toBytes _, hb⟩
    · rintro ⟨out, ho, hb⟩; cases ho; exact ⟨_, rfl, hb⟩
  | toString b =>
    obtain ⟨v, _, h1, h2, rfl⟩ := List.forall₂_cons_right_iff.1 hv; cases h2
    change retObj objs (do let b ← visitBytes objs v; .ok (.string b)) = _ ↔ _
    rw [visitBytes_ok.2 h1, retObj_iff hl]
    constructor
    · rintro ⟨o, ho, hb⟩; cases ho; exact ⟨_, .toString _, hb⟩
    · rintro ⟨out, ho, hb⟩; cases ho; exact ⟨_, rfl, hb⟩
  | tag b =>
    obtain ⟨v, _, h1, h2, rfl⟩ := List.forall₂_cons_right_iff.1 hv; cases h2
    change retObj objs (do let b ← visitString objs v; .ok (.executableTag b)) = _ ↔ _
    rw [visitString_ok.2 h1, retObj_iff hl]
    constructor
    · rintro ⟨o, ho, hb⟩; cases ho; exact ⟨_, .tag _, hb⟩
    · rintro ⟨out, ho, hb⟩; cases ho; exact ⟨_, rfl, hb⟩
  | stringLen b =>
    obtain ⟨v, _, h1, h2, rfl⟩ := List.forall₂_cons_right_iff.1 hv; cases h2
    change retVal objs (do let hb ← visitString objs v; let n ← usizeToU32 hb.length; .ok (valU32 n)) = _ ↔ _
    rw [visitString_ok.2 h1]
    refine bytes_num (fun c => ?_) (fun out ho => by cases ho; exact ⟨_, rfl⟩)
    rw [usizeToU32_iff]
    exact ⟨fun ⟨h, e⟩ => (by rw [e]; exact .stringLen _ h), fun h => (by cases h with | stringLen _ h => exact ⟨h, rfl⟩)⟩
  | symbolLen b =>
    obtain ⟨v, _, h1, h2, rfl⟩ := List.forall₂_cons_right_iff.1 hv; cases h2
    change retVal objs (do let hb ← visitSymbol objs v; let n ← usizeToU32 hb.length; .ok (valU32 n)) = _ ↔ _
    rw [visitSymbol_ok.2 h1]
    refine bytes_num (fun c => ?_) (fun out ho => by cases ho; exact ⟨_, rfl⟩)
    rw [usizeToU32_iff]
    exact ⟨fun ⟨h, e⟩ => (by rw [e]; exact .symbolLen _ h), fun h => (by cases h with | symbolLen _ h => exact ⟨h, rfl⟩)⟩

/-- The meanings are not empty: the middle of a string of three bytes is taken. -/
example : BufMeans .bytesSlice [.bytes [1, 2, 3]] [1, 2] (.obj (.bytes [2])) := .slice [1] [2] [3]

/-- A case: the byte string is the only object; its second byte is replaced. -/
example : (match runB [.bytes [1, 2, 3]] .bytesPut [valObject 1 .BytesObject, valU32 1, valU32 255] with
    | .ok (objs, .val w) => (match visitObj objs w with | .ok (.bytes b) => b == [1, 255, 3] | _ => false) && objs.length == 2
    | _ => false) = true ∧ (visitObj [.bytes [1, 2, 3]] (valObject 1 .BytesObject)).isOk = true := by decide +kernel

end Soroban.Props
