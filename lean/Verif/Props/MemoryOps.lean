import Verif.Props.MemorySound
import Verif.Lemmas.MemorySpec
import Verif.Props.Maps
/-!
C54: what the host functions that move data between the linear memory of a contract and host objects do. Arguments are as the
function bodies see them: handles are absolute and numbers are `U32Val`s.
-/
namespace Soroban.Props
open Soroban Soroban.Spec

variable {cmp : List HostObj → Nat → Nat → Res Ordering} {l l' : Lin} {r : Ret}

theorem major_valU32 {n : Nat} (h : n < 2^32) : Val.major (valU32 n) = n := by
  unfold valU32
  have : Tag.code .U32Val = 4 := rfl
  rw [fromMajorMinorAndTag_eq _ h (by omega), major_eq]
  omega

/-! ### bytes of objects and memory -/

/-- The functions that copy bytes of an object to memory, and the objects they take. -/
def copiesTo : MFn → HostObj → Prop
  | .bytesCopyTo, .bytes _ | .stringCopyTo, .string _ | .symbolCopyTo, .symbol _ => True
  | _, _ => False

/-- C54: copying a part of a byte string, string or symbol to memory succeeds exactly if the part lies within the object and the place
within the memory. It overwrites that place with those bytes and changes nothing else. -/
theorem C54_copy_to {f : MFn} {v p q n : Nat} {o : HostObj} (hv : visitObj l.objs v = .ok o) (ho : copiesTo f o)
    (hp : p < 2^32) (hq : q < 2^32) (hn : n < 2^32) :
    runM cmp l f [v, valU32 p, valU32 q, valU32 n] = .ok (l', r) ↔
      p + n < 2^32 ∧ p + n ≤ (octets o).length ∧ Overwritten l.mem l'.mem q (((octets o).drop p).take n) ∧
      l'.objs = l.objs ∧ l'.tbl = l.tbl ∧ r = .val valVoid := by
  have key : ∀ (x : Res (List Nat)), x = .ok (octets o) → (copyTo l x p q n = .ok (l', r) ↔
      p + n < 2^32 ∧ p + n ≤ (octets o).length ∧ Overwritten l.mem l'.mem q (((octets o).drop p).take n) ∧
      l'.objs = l.objs ∧ l'.tbl = l.tbl ∧ r = .val valVoid) := by
    intro x hx
    subst hx
    unfold copyTo bytesOut
    constructor
    · intro h
      obtain ⟨_, h0, h⟩ := bind_ok.mp h
      cases h0
      obtain ⟨bs, h1, h⟩ := bind_ok.mp h
      obtain ⟨m, h2, h⟩ := bind_ok.mp h
      cases h
      split at h1
      · cases h1
      · split at h1
        · cases h1
          rename_i hc _
          unfold u32Max at hc
          exact ⟨by omega, by assumption, writeBytes_iff.1 h2, rfl, rfl, rfl⟩
        · cases h1
    · rintro ⟨h1, h2, h3, h4, h5, rfl⟩
      refine bind_ok.mpr ⟨_, rfl, ?_⟩
      refine bind_ok.mpr ⟨((octets o).drop p).take n, ?_, ?_⟩
      · rw [if_neg (by unfold u32Max; omega), if_pos h2]
      · refine bind_ok.mpr ⟨l'.mem, writeBytes_iff.2 h3, ?_⟩
        cases l'
        dsimp only at h4 h5
        subst h4 h5
        rfl
  unfold runM
  cases f <;> cases o <;> first
    | exact ho.elim
    | (dsimp only
       rw [major_valU32 hp, major_valU32 hq, major_valU32 hn]
       refine key _ ?_
       first
         | exact visitBytes_ok.2 hv
         | exact visitString_ok.2 hv
         | exact visitSymbol_ok.2 hv)

/-- The functions that make an object from bytes in memory, and the objects they make. -/
def makesFrom : MFn → HostObj → Prop
  | .bytesNewFrom, .bytes _ | .stringNewFrom, .string _ => True
  | .symbolNewFrom, .symbol s => s.length ≤ 32 ∧ ∀ c ∈ s, isSymbolChar c
  | _, _ => False

/-- C54: making a byte string, string or symbol from memory succeeds exactly if the range lies within the memory and, for a symbol, has
at most 32 characters of its alphabet. The result is a new object with exactly those bytes. -/
theorem C54_new_from {f : MFn} {q n : Nat} (hf : f = .bytesNewFrom ∨ f = .stringNewFrom ∨ f = .symbolNewFrom)
    (hq : q < 2^32) (hn : n < 2^32) (hl : l.objs.length < 2^31) :
    runM cmp l f [valU32 q, valU32 n] = .ok (l', r) ↔
      ∃ o v, makesFrom f o ∧ (octets o).length = n ∧ BytesAt l.mem q (octets o) ∧ l'.mem = l.mem ∧ l'.tbl = l.tbl ∧
        l'.objs = l.objs ++ [o] ∧ visitObj l'.objs v = .ok o ∧ CreatedSince l.objs.length v ∧ r = .val v ∧
        addObj l.objs o = .ok (l'.objs, v) := by
  have key : ∀ (mk : List Nat → Res HostObj), (∀ b o, mk b = .ok o ↔ makesFrom f o ∧ octets o = b) →
      (newFrom l mk q n = .ok (l', r) ↔
      ∃ o v, makesFrom f o ∧ (octets o).length = n ∧ BytesAt l.mem q (octets o) ∧ l'.mem = l.mem ∧ l'.tbl = l.tbl ∧
        l'.objs = l.objs ++ [o] ∧ visitObj l'.objs v = .ok o ∧ CreatedSince l.objs.length v ∧ r = .val v ∧
        addObj l.objs o = .ok (l'.objs, v)) := by
    intro mk hmk
    unfold newFrom
    constructor
    · intro h
      obtain ⟨b, h1, h⟩ := bind_ok.mp h
      obtain ⟨o, h2, h⟩ := bind_ok.mp h
      obtain ⟨⟨objs, v⟩, h3, h⟩ := bind_ok.mp h
      cases h
      obtain ⟨g1, g2⟩ := readBytes_iff.1 h1
      obtain ⟨g3, rfl⟩ := (hmk b o).1 h2
      have ha := addObj_visit hl h3
      exact ⟨o, v, g3, g1, g2, rfl, rfl, addObj_eq h3, ha.1, (by unfold CreatedSince; rw [ha.2.1]), rfl, h3⟩
    · rintro ⟨o, v, g1, g2, g3, g4, g5, g6, g7, g8, rfl, g9⟩
      refine bind_ok.mpr ⟨_, readBytes_iff.2 ⟨g2, g3⟩, ?_⟩
      refine bind_ok.mpr ⟨o, (hmk _ o).2 ⟨g1, rfl⟩, ?_⟩
      refine bind_ok.mpr ⟨_, g9, ?_⟩
      cases l'
      dsimp only at g4 g5
      subst g4 g5
      rfl
  unfold runM
  rcases hf with rfl | rfl | rfl
  · dsimp only
    rw [major_valU32 hq, major_valU32 hn]
    refine key _ ?_
    intro b o
    cases o <;> simp [makesFrom, octets, eq_comm]
  · dsimp only
    rw [major_valU32 hq, major_valU32 hn]
    refine key _ ?_
    intro b o
    cases o <;> simp [makesFrom, octets, eq_comm]
  · dsimp only
    rw [major_valU32 hq, major_valU32 hn]
    refine key _ ?_
    intro b o
    constructor
    · intro h
      obtain ⟨rfl, h1, h2⟩ := symbolObject_ok h
      exact ⟨⟨h1, fun c hc => encodeByte_some.1 (Option.isSome_iff_exists.1 (h2 c hc))⟩, rfl⟩
    · intro ⟨h1, h2⟩
      cases o <;> first | exact h1.elim | skip
      change _ = b at h2
      subst h2
      unfold symbolObject
      rw [if_neg (by have := h1.1; simp [octets]; omega), if_pos]
      · rfl
      · rw [List.all_eq_true]
        exact fun c hc => Option.isSome_iff_exists.2 (encodeByte_some.2 (h1.2 c hc))

/-- C54: copying from memory into a byte string makes a new byte string and leaves the old one alone. The new one has the bytes of the
memory at the given position, the old bytes elsewhere, and zeroes where there were none. It succeeds exactly if the range lies within
the memory and ends at a 32-bit position. -/
theorem C54_copy_from {v p q n : Nat} {b : List Nat} (hv : visitObj l.objs v = .ok (.bytes b)) (hp : p < 2^32) (hq : q < 2^32)
    (hn : n < 2^32) (hl : l.objs.length < 2^31) :
    runM cmp l .bytesCopyFrom [v, valU32 p, valU32 q, valU32 n] = .ok (l', r) ↔
      p + n < 2^32 ∧ q + n ≤ l.mem.length ∧ ∃ c v', c.length = max b.length (p + n) ∧
        (∀ i, i < c.length → c[i]? = if p ≤ i ∧ i < p + n then l.mem[q + (i - p)]? else if i < b.length then b[i]? else some 0) ∧
        l'.mem = l.mem ∧ l'.tbl = l.tbl ∧ l'.objs = l.objs ++ [.bytes c] ∧ visitObj l'.objs v' = .ok (.bytes c) ∧ r = .val v' ∧
        addObj l.objs (.bytes c) = .ok (l'.objs, v') := by
  have key : ∀ c, bytesIn l.mem b p q n = .ok c ↔ p + n < 2^32 ∧ q + n ≤ l.mem.length ∧ c.length = max b.length (p + n) ∧
      ∀ i, i < c.length → c[i]? = if p ≤ i ∧ i < p + n then l.mem[q + (i - p)]? else if i < b.length then b[i]? else some 0 := by
    have main : ∀ c, bytesIn l.mem b p q n = .ok c → p + n < 2^32 ∧ q + n ≤ l.mem.length ∧ c.length = max b.length (p + n) ∧
      ∀ i, i < c.length → c[i]? = if p ≤ i ∧ i < p + n then l.mem[q + (i - p)]? else if i < b.length then b[i]? else some 0 := by
      intro c h
      unfold bytesIn at h
      by_cases hc : p + n > u32Max
      · rw [if_pos hc] at h; cases h
      rw [if_neg hc] at h
      obtain ⟨bs, h1, h⟩ := bind_ok.mp h
      have e := (Except.ok.inj h).symm
      obtain ⟨g1, _, g3⟩ := readBytes_ok h1
      have hg := readBytes_get h1
      unfold u32Max at hc
      obtain ⟨b', hb'⟩ : ∃ b', (if b.length < p + n then b ++ List.replicate (p + n - b.length) 0 else b) = b' := ⟨_, rfl⟩
      rw [hb'] at e
      have hlen : b'.length = max b.length (p + n) := by
        rw [← hb']; split
        · rw [List.length_append, List.length_replicate]; omega
        · omega
      have hget : ∀ i, i < b'.length → b'[i]? = if i < b.length then b[i]? else some 0 := by
        intro i hi
        rw [hlen] at hi
        rw [← hb']
        split
        · by_cases hib : i < b.length
          · rw [List.getElem?_append_left hib, if_pos hib]
          · rw [List.getElem?_append_right (by omega), if_neg hib, List.getElem?_replicate, if_pos (by omega)]
        · rw [if_pos (by omega)]
      have hcl : c.length = max b.length (p + n) := by
        rw [e, List.length_append, List.length_append, List.length_take, List.length_drop, g3]; omega
      refine ⟨by omega, g1, hcl, ?_⟩
      intro i hi
      rw [e]
      by_cases h1 : i < p
      · rw [if_neg (by omega), List.append_assoc, List.getElem?_append_left (by rw [List.length_take]; omega), List.getElem?_take,
          if_pos h1, hget i (by omega)]
      · by_cases h2 : i < p + n
        · rw [if_pos (by omega), List.getElem?_append_left (by rw [List.length_append, List.length_take]; omega),
            List.getElem?_append_right (by rw [List.length_take]; omega), List.length_take, Nat.min_eq_left (by omega),
            hg (i - p) (by omega)]
        · rw [if_neg (by omega), List.getElem?_append_right (by rw [List.length_append, List.length_take]; omega), List.getElem?_drop,
            List.length_append, List.length_take, Nat.min_eq_left (by omega), g3, show p + n + (i - (p + n)) = i by omega,
            hget i (by omega)]
    intro c
    refine ⟨main c, ?_⟩
    rintro ⟨h1, h2, h3, h4⟩
    have hex : ∃ c', bytesIn l.mem b p q n = .ok c' := by
      unfold bytesIn readBytes
      rw [if_neg (by unfold u32Max; omega), if_pos h2]
      exact ⟨_, rfl⟩
    obtain ⟨c', hc'⟩ := hex
    rw [hc']
    obtain ⟨_, _, g3, g4⟩ := main c' hc'
    congr 1
    apply List.ext_getElem?
    intro i
    by_cases hi : i < c.length
    · rw [h4 i hi, g4 i (by omega)]
    · rw [List.getElem?_eq_none (by omega), List.getElem?_eq_none (by omega)]
  unfold runM
  dsimp only
  rw [major_valU32 hp, major_valU32 hq, major_valU32 hn]
  constructor
  · intro h
    obtain ⟨b', h1, h⟩ := bind_ok.mp h
    rw [visitBytes_ok.2 hv] at h1
    cases h1
    obtain ⟨c, h2, h⟩ := bind_ok.mp h
    obtain ⟨⟨objs, v'⟩, h3, h⟩ := bind_ok.mp h
    cases h
    obtain ⟨g1, g2, g3, g4⟩ := (key c).1 h2
    exact ⟨g1, g2, c, v', g3, g4, rfl, rfl, addObj_eq h3, (addObj_visit hl h3).1, rfl, h3⟩
  · rintro ⟨g1, g2, c, v', g3, g4, g5, g6, g7, g8, rfl, g9⟩
    refine bind_ok.mpr ⟨b, visitBytes_ok.2 hv, ?_⟩
    refine bind_ok.mpr ⟨c, (key c).2 ⟨g1, g2, g3, g4⟩, ?_⟩
    refine bind_ok.mpr ⟨_, g9, ?_⟩
    cases l'
    dsimp only at g5 g6
    subst g5 g6
    rfl

/-! ### vectors -/

/-- C54: making a vector from memory succeeds exactly if the words are there, every word that is a handle is one of the frame's own and
the values are well-formed. The elements are the values the words stand for, in order. -/
theorem C54_vec_new_from {q n : Nat} (hm : ∀ b ∈ l.mem, b < 256) (hq : q < 2^32) (hn : n < 2^32) (hl : l.objs.length < 2^31) :
    runM cmp l .vecNewFrom [valU32 q, valU32 n] = .ok (l', r) ↔
      q + n * 8 ≤ l.mem.length ∧ q + n * 8 < 2^32 ∧ ∃ ws vs v, ws.length = n ∧ WordsAt l.mem q ws ∧
        List.Forall₂ (fun w v => relToAbs l.tbl w = .ok v) ws vs ∧ (∀ x ∈ vs, checkIntegrity l.objs x = .ok ()) ∧
        l'.mem = l.mem ∧ l'.tbl = l.tbl ∧ l'.objs = l.objs ++ [.vec vs] ∧ visitObj l'.objs v = .ok (.vec vs) ∧ r = .val v ∧
        addObj l.objs (.vec vs) = .ok (l'.objs, v) := by
  unfold runM
  dsimp only
  rw [major_valU32 hq, major_valU32 hn]
  unfold vecNewFrom
  constructor
  · intro h
    obtain ⟨vs, h1, h⟩ := bind_ok.mp h
    obtain ⟨_, h2, h⟩ := bind_ok.mp h
    obtain ⟨hv, h3, h⟩ := bind_ok.mp h
    obtain ⟨⟨objs, v⟩, h4, h⟩ := bind_ok.mp h
    cases h
    cases vecFromIter_eq h3
    obtain ⟨g1, g2, ws, g3, g4, g5⟩ := (readVals_iff hm).1 h1
    exact ⟨g1, g2, ws, vs, v, g3, g4, g5, checkAll_ok h2, rfl, rfl, addObj_eq h4, (addObj_visit hl h4).1, rfl, h4⟩
  · rintro ⟨g1, g2, ws, vs, v, g3, g4, g5, g6, g7, g8, g9, _, rfl, g10⟩
    refine bind_ok.mpr ⟨vs, (readVals_iff hm).2 ⟨g1, g2, ws, g3, g4, g5⟩, ?_⟩
    refine bind_ok.mpr ⟨(), checkAll_all g6, ?_⟩
    refine bind_ok.mpr ⟨vs, ?_, ?_⟩
    · unfold vecFromIter
      rw [if_neg (by rw [← g5.length_eq, g3]; unfold u32Max; omega)]
    · refine bind_ok.mpr ⟨_, g10, ?_⟩
      cases l'
      dsimp only at g7 g8
      subst g7 g8
      rfl

/-- What writing values to memory does: the words at the place stand for the values, nothing else in the memory changes, and only
handles of objects among the values are added to the frame. -/
def ValsWritten (l l' : Lin) (q : Nat) (vs : List Nat) : Prop :=
  (∃ ws, WordsAt l'.mem q ws ∧ List.Forall₂ (fun w v => relToAbs l'.tbl w = .ok v ∧ Val.tag w = Val.tag v) ws vs) ∧
  l'.mem.length = l.mem.length ∧ (∀ i, i < q ∨ q + vs.length * 8 ≤ i → l'.mem[i]? = l.mem[i]?) ∧
  l'.tbl = l.tbl ++ vs.filter (Val.isObject ·) ∧ (∀ w v, relToAbs l.tbl w = .ok v → relToAbs l'.tbl w = .ok v)

theorem enterFrame_lt : ∀ {as tbl tbl' rs : List Nat}, enterFrame tbl as = .ok (tbl', rs) → tbl.length + as.length ≤ 2^31 →
    (∀ a ∈ as, a < 2^64) → ∀ r ∈ rs, r < 2^64
  | [], tbl, tbl', rs, h, _, _ => by cases h; simp
  | a :: as, tbl, tbl', rs, h, hl, ha => by
    unfold enterFrame at h
    obtain ⟨⟨tbl₁, r⟩, h1, h⟩ := bind_ok.mp h
    obtain ⟨⟨tbl₂, rs'⟩, h2, h⟩ := bind_ok.mp h
    cases h
    rw [List.length_cons] at hl
    have ht := absToRel_tbl h1
    have hlen : tbl₁.length ≤ tbl.length + 1 := by
      rw [ht, List.length_append]
      have := List.length_filter_le (Val.isObject ·) [a]
      simp only [List.length_singleton] at this
      omega
    intro x hx
    rcases List.mem_cons.1 hx with rfl | hx
    · unfold absToRel at h1
      split at h1
      · split at h1
        · cases h1
        · rw [indexToHandle_rel (by omega)] at h1
          cases h1
          have hc := (Val.tag a).code_lt
          rw [valObject_eq _ (by omega)]
          omega
      · cases h1
        exact ha _ (by simp)
    · exact enterFrame_lt h2 (by omega) (fun a h => ha a (by simp [h])) x hx

theorem enterFrame_forall {as tbl tbl' rs : List Nat} (h : enterFrame tbl as = .ok (tbl', rs)) (hl : tbl.length + as.length ≤ 2^31) :
    List.Forall₂ (fun w v => relToAbs tbl' w = .ok v ∧ Val.tag w = Val.tag v) rs as := by
  obtain ⟨_, _, h3, h4⟩ := enterFrame_aux as tbl tbl' rs h hl
  rw [List.forall₂_iff_get]
  refine ⟨h3, ?_⟩
  intro i h1 h2
  exact h4 i _ _ (by simp [h1]) (by simp [h2])

theorem writeVals_written {q : Nat} {vs mem tbl : List Nat} (h : writeVals l.mem l.tbl q vs = .ok (mem, tbl))
    (hv : ∀ v ∈ vs, v < 2^64) (hl : l.tbl.length + vs.length ≤ 2^31) :
    ValsWritten l { l with mem := mem, tbl := tbl } q vs ∧ q + vs.length * 8 ≤ l.mem.length ∧ q + vs.length * 8 < 2^32 := by
  obtain ⟨rs, h1, h2, h3, h4⟩ := writeVals_ok h
  have ho := writeBytes_ok h4
  have hlen : (unwords rs).length = vs.length * 8 := by rw [unwords_length, h2]
  refine ⟨⟨⟨rs, overwritten_words (enterFrame_lt h1 hl hv) ho, enterFrame_forall h1 hl⟩, ho.1, ?_, (enterFrame_tbl h1).1,
    (enterFrame_aux _ _ _ _ h1 hl).1⟩, ?_, ?_⟩
  · rw [← hlen]; exact ho.2.2.2
  · rw [← hlen]; exact ho.2.1
  · unfold u32Max at h3; omega

theorem absToRel_succeeds {objs : List HostObj} {tbl : List Nat} {v : Nat} (hs : Sound objs v) (hl : tbl.length < 2^31) :
    ∃ tbl' r, absToRel tbl v = .ok (tbl', r) := by
  unfold absToRel
  cases hob : Val.isObject v
  · exact ⟨_, _, rfl⟩
  · simp only [if_true]
    have h := hs.2
    unfold checkIntegrity at h
    rw [hob] at h
    split at h
    · cases h
    · simp only [if_true] at h
      cases hx : visitObj objs v with
      | error e => rw [hx] at h; cases h
      | ok o =>
        have h2 := (visitObj_ok.1 hx).2.1
        rw [if_neg (by rw [isRelative_iff]; omega), indexToHandle_rel hl]
        exact ⟨_, _, rfl⟩

theorem enterFrame_succeeds {objs : List HostObj} : ∀ {vs tbl : List Nat}, (∀ v ∈ vs, Sound objs v) → tbl.length + vs.length ≤ 2^31 →
    ∃ tbl' rs, enterFrame tbl vs = .ok (tbl', rs)
  | [], tbl, _, _ => ⟨_, _, rfl⟩
  | v :: vs, tbl, hs, hl => by
    rw [List.length_cons] at hl
    obtain ⟨tbl₁, r, h1⟩ := absToRel_succeeds (tbl := tbl) (hs v (by simp)) (by omega)
    have ht := absToRel_tbl h1
    have hlen : tbl₁.length ≤ tbl.length + 1 := by
      rw [ht, List.length_append]
      have := List.length_filter_le (Val.isObject ·) [v]
      simp only [List.length_singleton] at this
      omega
    obtain ⟨tbl₂, rs, h2⟩ := enterFrame_succeeds (vs := vs) (tbl := tbl₁) (fun x hx => hs x (by simp [hx])) (by omega)
    refine ⟨tbl₂, r :: rs, ?_⟩
    unfold enterFrame
    rw [h1]
    show (do let (tbl₂, rs) ← enterFrame tbl₁ vs; .ok (tbl₂, r :: rs) : Res (List Nat × List Nat)) = _
    rw [h2]
    rfl

theorem writeVals_succeeds {q : Nat} {vs : List Nat} (hs : ∀ v ∈ vs, Sound l.objs v) (hl : l.tbl.length + vs.length ≤ 2^31)
    (h1 : q + vs.length * 8 ≤ l.mem.length) (h2 : q + vs.length * 8 < 2^32) : ∃ mem tbl, writeVals l.mem l.tbl q vs = .ok (mem, tbl) := by
  obtain ⟨tbl, rs, he⟩ := enterFrame_succeeds hs hl
  refine ⟨l.mem.take q ++ unwords rs ++ l.mem.drop (q + (unwords rs).length), tbl, ?_⟩
  refine bind_ok.mpr ⟨_, valsSize_eq (by unfold u32Max; omega), ?_⟩
  refine bind_ok.mpr ⟨_, if_pos h1, ?_⟩
  refine bind_ok.mpr ⟨_, he, ?_⟩
  exact bind_ok.mpr ⟨_, if_pos (by rw [unwords_length, (enterFrame_tbl he).2]; exact h1), rfl⟩

/-- C54: unpacking a vector to memory. It succeeds exactly if the given length is that of the vector and the place is within the memory;
then the words at the place stand for the elements. -/
theorem C54_vec_unpack_to {v q n : Nat} {vs : List Nat} (hv : visitObj l.objs v = .ok (.vec vs)) (hq : q < 2^32) (hn : n < 2^32)
    (hs : ∀ x ∈ vs, Sound l.objs x) (hl : l.tbl.length + vs.length ≤ 2^31) :
    ((∃ l' r, runM cmp l .vecUnpackTo [v, valU32 q, valU32 n] = .ok (l', r)) ↔
      vs.length = n ∧ q + n * 8 ≤ l.mem.length ∧ q + n * 8 < 2^32) ∧
    ∀ l' r, runM cmp l .vecUnpackTo [v, valU32 q, valU32 n] = .ok (l', r) →
      ValsWritten l l' q vs ∧ l'.objs = l.objs ∧ r = .val valVoid := by
  unfold runM
  dsimp only
  rw [major_valU32 hq, major_valU32 hn]
  unfold vecUnpackTo
  have main : ∀ l' r, (do
      let hv ← visitVec l.objs v
      if hv.length = n then do
        let (mem, tbl) ← writeVals l.mem l.tbl q hv
        .ok ({ l with mem := mem, tbl := tbl }, .val valVoid)
      else .error (.host .object .unexpectedSize) : Res (Lin × Ret)) = .ok (l', r) →
      vs.length = n ∧ q + n * 8 ≤ l.mem.length ∧ q + n * 8 < 2^32 ∧ ValsWritten l l' q vs ∧ l'.objs = l.objs ∧ r = .val valVoid := by
    intro l' r h
    obtain ⟨hv', h1, h⟩ := bind_ok.mp h
    rw [visitVec_ok.2 hv] at h1
    cases h1
    by_cases hc : vs.length = n
    · rw [if_pos hc] at h
      obtain ⟨⟨mem, tbl⟩, h2, h⟩ := bind_ok.mp h
      cases h
      obtain ⟨g1, g2, g3⟩ := writeVals_written h2 (fun x hx => (hs x hx).1) hl
      rw [hc] at g2 g3
      exact ⟨hc, g2, g3, g1, rfl, rfl⟩
    · rw [if_neg hc] at h; cases h
  constructor
  · constructor
    · rintro ⟨l', r, h⟩
      obtain ⟨g1, g2, g3, _⟩ := main l' r h
      exact ⟨g1, g2, g3⟩
    · rintro ⟨rfl, h1, h2⟩
      obtain ⟨mem, tbl, hw⟩ := writeVals_succeeds hs hl h1 h2
      refine ⟨{ l with mem := mem, tbl := tbl }, .val valVoid, bind_ok.mpr ⟨vs, visitVec_ok.2 hv, ?_⟩⟩
      rw [if_pos rfl]
      exact bind_ok.mpr ⟨_, hw, rfl⟩
  · intro l' r h
    obtain ⟨_, _, _, h⟩ := main l' r h
    exact h

theorem forall₂_det {tbl : List Nat} {ws vs vs' : List Nat} (h : List.Forall₂ (fun w v => relToAbs tbl w = .ok v) ws vs)
    (h' : List.Forall₂ (fun w v => relToAbs tbl w = .ok v ∧ Val.tag w = Val.tag v) ws vs') : vs = vs' := by
  induction h generalizing vs' with
  | nil => cases h'; rfl
  | cons h _ ih =>
    cases h' with
    | cons h1 h2 =>
      have := h1.1
      rw [h] at this
      cases this
      rw [ih h2]

/-- C54: unpacking a vector to memory and making a vector from that memory gives a vector with the same elements. -/
theorem C54_vec_round_trip {v q n : Nat} {vs : List Nat} {l₁ l₂ : Lin} {r₁ r₂ : Ret} (hv : visitObj l.objs v = .ok (.vec vs)) (hq : q < 2^32)
    (hn : n < 2^32) (hm : ∀ b ∈ l.mem, b < 256) (hs : ∀ x ∈ vs, Sound l.objs x) (hl : l.tbl.length + vs.length ≤ 2^31)
    (hlo : l.objs.length < 2^31)
    (h₁ : runM cmp l .vecUnpackTo [v, valU32 q, valU32 n] = .ok (l₁, r₁))
    (h₂ : runM cmp l₁ .vecNewFrom [valU32 q, valU32 n] = .ok (l₂, r₂)) :
    ∃ v', r₂ = .val v' ∧ visitObj l₂.objs v' = .ok (.vec vs) := by
  obtain ⟨hok, hw⟩ := C54_vec_unpack_to (cmp := cmp) hv hq hn hs hl
  obtain ⟨⟨⟨ws, g1, g2⟩, _⟩, g3, _⟩ := hw l₁ r₁ h₁
  obtain ⟨rfl, hlen, _⟩ := hok.1 ⟨l₁, r₁, h₁⟩
  have hm₁ : ∀ b ∈ l₁.mem, b < 256 := by
    unfold runM at h₁
    dsimp only at h₁
    unfold vecUnpackTo at h₁
    obtain ⟨_, _, h₁⟩ := bind_ok.mp h₁
    split at h₁
    · obtain ⟨⟨mem, tbl⟩, h, h₁⟩ := bind_ok.mp h₁
      cases h₁
      obtain ⟨rs, _, _, _, hw⟩ := writeVals_ok h
      exact writeBytes_lt hw hm (unwords_lt rs)
    · cases h₁
  obtain ⟨_, _, ws', vs', v', e1, e2, e3, _, _, _, _, e4, e5, _⟩ := (C54_vec_new_from hm₁ hq hn (by rw [g3]; exact hlo)).1 h₂
  have hws : ws' = ws := by
    apply List.ext_getElem (by rw [e1, g2.length_eq])
    intro i h1 h2
    exact numAt_unique (by omega) (e2 i _ (by simp [h1])) (g1 i _ (by simp [h2]))
  subst hws
  have : vs' = vs := forall₂_det e3 g2
  subst this
  exact ⟨v', e5, e4⟩

/-! ### symbols -/

theorem firstMatch_iff {t : List Nat} : ∀ {bs : List (List Nat)} {i j : Nat}, firstMatch t i bs = some j ↔
    ∃ k, j = i + k ∧ bs[k]? = some t ∧ ∀ k', k' < k → bs[k']? ≠ some t
  | [], i, j => by simp [firstMatch]
  | b :: bs, i, j => by
    rw [firstMatch]
    have hb : lexCmp t b = .eq ↔ t = b := (lexCmp_spec t b).2.2
    by_cases hc : t = b
    · rw [if_pos (hb.2 hc)]
      subst hc
      constructor
      · intro h; cases h; exact ⟨0, rfl, rfl, by intro k hk; omega⟩
      · rintro ⟨k, rfl, h1, h2⟩
        cases k with
        | zero => rfl
        | succ k => exact absurd rfl (h2 0 (by omega))
    · rw [if_neg (fun h => hc (hb.1 h)), firstMatch_iff]
      constructor
      · rintro ⟨k, rfl, h1, h2⟩
        refine ⟨k + 1, by omega, h1, ?_⟩
        intro k' hk'
        cases k' with
        | zero => intro h; cases h; exact hc rfl
        | succ k' => exact h2 k' (by omega)
      · rintro ⟨k, rfl, h1, h2⟩
        cases k with
        | zero => cases h1; exact absurd rfl hc
        | succ k => exact ⟨k, by omega, h1, fun k' hk' => h2 (k' + 1) (by omega)⟩

/-- C54: looking up a symbol among slices of memory gives the index of the first slice that has its text, and fails if there is none. It
changes nothing. -/
theorem C54_symbol_index {s q n : Nat} {t : List Nat} (ht : symbolText l.objs s = .ok t) (hm : ∀ b ∈ l.mem, b < 256) (hq : q < 2^32)
    (hn : n < 2^32) :
    runM cmp l .symbolIndex [s, valU32 q, valU32 n] = .ok (l', r) ↔
      l' = l ∧ ∃ bs i, bs.length = n ∧ SlicesAt l.mem q bs ∧ bs[i]? = some t ∧ (∀ j, j < i → bs[j]? ≠ some t) ∧ r = .val (valU32 i) := by
  unfold runM
  dsimp only
  rw [major_valU32 hq, major_valU32 hn]
  unfold symbolIndex
  constructor
  · intro h
    obtain ⟨t', h1, h⟩ := bind_ok.mp h
    rw [ht] at h1
    cases h1
    obtain ⟨bs, h2, h⟩ := bind_ok.mp h
    obtain ⟨g1, g2⟩ := (scanSlices_iff hm).1 h2
    cases hf : firstMatch t 0 bs with
    | none => rw [hf] at h; cases h
    | some i =>
      rw [hf] at h
      cases h
      obtain ⟨k, hk, g3, g4⟩ := firstMatch_iff.1 hf
      rw [Nat.zero_add] at hk
      subst hk
      exact ⟨rfl, bs, i, g1, g2, g3, g4, rfl⟩
  · rintro ⟨rfl, bs, i, g1, g2, g3, g4, rfl⟩
    refine bind_ok.mpr ⟨t, ht, ?_⟩
    refine bind_ok.mpr ⟨bs, (scanSlices_iff hm).2 ⟨g1, g2⟩, ?_⟩
    have : firstMatch t 0 bs = some i := firstMatch_iff.2 ⟨i, by omega, g3, g4⟩
    rw [this]

end Soroban.Props
