import Verif.Props.MemoryOps
import Verif.Props.HostContainers
/-!
C54: maps made from linear memory and unpacked to it.
-/
namespace Soroban.Props
open Soroban Soroban.Spec

variable {d : Nat} {l l' : Lin} {r : Ret}

/-! ### texts of symbols -/

theorem notObject_symbolSmall {k : Nat} (h : Val.tag k = .SymbolSmall) : Val.isObject k = false := by
  cases hob : Val.isObject k
  · rfl
  · have := u8IsObject_tag hob
    rw [h] at this
    cases this

theorem symbolText_ok {objs : List HostObj} {k : Nat} {t : List Nat} : symbolText objs k = .ok t ↔
    (Val.tag k = .SymbolSmall ∧ symbolChars k = t) ∨ (Val.tag k = .SymbolObject ∧ visitObj objs k = .ok (.symbol t)) := by
  unfold symbolText
  by_cases h1 : Val.tag k = .SymbolSmall
  · rw [if_pos h1]
    constructor
    · intro h; cases h; exact Or.inl ⟨h1, rfl⟩
    · rintro (⟨_, rfl⟩ | ⟨h2, _⟩)
      · rfl
      · rw [h1] at h2; cases h2
  · rw [if_neg h1]
    by_cases h2 : Val.tag k = .SymbolObject
    · rw [if_pos h2, visitSymbol_ok]
      constructor
      · intro h; exact Or.inr ⟨h2, h⟩
      · rintro (⟨h, _⟩ | ⟨_, h⟩)
        · exact absurd h h1
        · exact h
    · rw [if_neg h2]
      constructor
      · intro h; cases h
      · rintro (⟨h, _⟩ | ⟨h, _⟩)
        · exact absurd h h1
        · exact absurd h h2

theorem symbolText_append {objs e : List HostObj} {k : Nat} {t : List Nat} (h : symbolText objs k = .ok t) :
    symbolText (objs ++ e) k = .ok t := by
  rw [symbolText_ok] at *
  rcases h with h | ⟨h1, h2⟩
  · exact Or.inl h
  · exact Or.inr ⟨h1, visitObj_append h2⟩

/-- A symbol stands for the ledger value with its text. -/
theorem symbol_reads {objs : List HostObj} {k : Nat} {t : List Nat} (h : symbolText objs k = .ok t) (d : Nat) :
    fromVal false objs (d + 1) k = .ok (.symbol t) := by
  unfold fromVal scValTryFromVal
  rw [symbolText_ok] at h
  rcases h with ⟨h1, rfl⟩ | ⟨h1, h2⟩
  · rw [notObject_symbolSmall h1]
    unfold fromSmallVal
    rw [h1]
    rfl
  · rw [(visitObj_ok.1 h2).1, h2]
    rfl

theorem scOrd_symbol (a b : List Nat) : scOrd (.symbol a) (.symbol b) = lexCmp a b := scOrd_bytes rfl rfl rfl rfl

/-- The text of a symbol, or nothing. -/
def textOf (objs : List HostObj) (k : Nat) : List Nat := match symbolText objs k with | .ok t => t | .error _ => []

theorem textOf_eq {objs : List HostObj} {k : Nat} {t : List Nat} (h : symbolText objs k = .ok t) : textOf objs k = t := by
  unfold textOf; rw [h]

theorem textOf_ok {objs : List HostObj} {k : Nat} (h : ∃ t, symbolText objs k = .ok t) : symbolText objs k = .ok (textOf objs k) := by
  obtain ⟨t, h⟩ := h
  rw [h, textOf_eq h]

/-! ### building -/

/-- The symbols made for the keys have the texts of the keys; making them fails exactly if a text is not that of a symbol. -/
theorem symbolFromSlice_text {objs objs' : List HostObj} {b : List Nat} {k : Nat} (h : symbolFromSlice objs b = .ok (objs', k))
    (hl : objs'.length ≤ 2^31) : symbolText objs' k = .ok b ∧ (b.length ≤ 32 ∧ ∀ c ∈ b, isSymbolChar c) := by
  unfold symbolFromSlice at h
  cases hx : symbolTryFromBytes b with
  | some v =>
    rw [hx] at h
    cases h
    obtain ⟨h1, h2, _⟩ := C02_symbol_round_trip b k hx
    obtain ⟨h3, h4⟩ := (C02_symbol_accepts_iff b).1 (by rw [hx]; rfl)
    exact ⟨symbolText_ok.2 (Or.inl ⟨hasTag_tag h2 (by decide) (by decide) (by decide), h1⟩), by omega, h4⟩
  | none =>
    rw [hx] at h
    obtain ⟨o, ho, h⟩ := bind_ok.mp h
    obtain ⟨rfl, h1, h2⟩ := symbolObject_ok ho
    have hlt : objs.length < 2^31 := by
      rw [addObj_eq h, List.length_append] at hl
      simp at hl
      omega
    have hv := addObj_sound hlt h
    refine ⟨symbolText_ok.2 (Or.inr ⟨?_, hv.2.2.1⟩), h1, fun c hc => encodeByte_some.1 (Option.isSome_iff_exists.1 (h2 c hc))⟩
    have hi := hv.2.1.2
    unfold checkIntegrity at hi
    rw [hv.2.2.2, hv.2.2.1] at hi
    split at hi
    · cases hi
    · simp only [if_true] at hi
      split at hi
      · rename_i e; exact e.symm
      · cases hi

theorem symbolsFromSlices_text : ∀ {bs : List (List Nat)} {objs objs' : List HostObj} {ks : List Nat},
    symbolsFromSlices objs bs = .ok (objs', ks) → objs'.length ≤ 2^31 →
    List.Forall₂ (fun k b => symbolText objs' k = .ok b) ks bs ∧ ∀ b ∈ bs, b.length ≤ 32 ∧ ∀ c ∈ b, isSymbolChar c
  | [], objs, objs', ks, h, _ => by cases h; exact ⟨.nil, by simp⟩
  | b :: bs, objs, objs', ks, h, hl => by
    unfold symbolsFromSlices at h
    obtain ⟨⟨objs₁, k⟩, h1, h⟩ := bind_ok.mp h
    obtain ⟨⟨objs₂, ks'⟩, h2, h⟩ := bind_ok.mp h
    cases h
    obtain ⟨e, he⟩ := (symbolsFromSlices_grows (d := 0) h2 hl).1.append
    obtain ⟨i1, i2⟩ := symbolsFromSlices_text h2 hl
    obtain ⟨g1, g2⟩ := symbolFromSlice_text h1 (by rw [he, List.length_append] at hl; omega)
    refine ⟨.cons (by rw [he]; exact symbolText_append g1) i1, ?_⟩
    intro x hx
    rcases List.mem_cons.1 hx with rfl | hx
    · exact g2
    · exact i2 x hx

theorem symbolsFromSlices_succeeds : ∀ {bs : List (List Nat)} {objs : List HostObj}, objs.length + bs.length ≤ 2^31 →
    (∀ b ∈ bs, b.length ≤ 32 ∧ ∀ c ∈ b, isSymbolChar c) →
    ∃ objs' ks, symbolsFromSlices objs bs = .ok (objs', ks) ∧ objs'.length ≤ objs.length + bs.length
  | [], objs, _, _ => ⟨_, _, rfl, by simp⟩
  | b :: bs, objs, hl, hb => by
    rw [List.length_cons] at hl
    have h1 : ∃ objs₁ k, symbolFromSlice objs b = .ok (objs₁, k) ∧ objs₁.length ≤ objs.length + 1 := by
      unfold symbolFromSlice
      cases hx : symbolTryFromBytes b with
      | some v => exact ⟨objs, v, rfl, by omega⟩
      | none =>
        obtain ⟨c1, c2⟩ := hb b (by simp)
        have ho : symbolObject b = .ok (.symbol b) := by
          unfold symbolObject
          rw [if_neg (by omega), if_pos]
          rw [List.all_eq_true]
          exact fun c hc => Option.isSome_iff_exists.2 (encodeByte_some.2 (c2 c hc))
        have ha : addObj objs (.symbol b) = .ok (objs ++ [.symbol b], valObject (2 * objs.length + 1) (HostObj.tag (.symbol b))) := by
          unfold addObj
          rw [indexToHandle_abs (by omega)]
        refine ⟨_, _, bind_ok.mpr ⟨_, ho, ha⟩, by simp⟩
    obtain ⟨objs₁, k, h1, h2⟩ := h1
    obtain ⟨objs₂, ks, h3, h4⟩ := symbolsFromSlices_succeeds (bs := bs) (objs := objs₁) (by omega) (fun x hx => hb x (by simp [hx]))
    refine ⟨objs₂, k :: ks, ?_, by rw [List.length_cons]; omega⟩
    unfold symbolsFromSlices
    refine bind_ok.mpr ⟨_, h1, ?_⟩
    exact bind_ok.mpr ⟨_, h3, rfl⟩

theorem symbolsFromSlices_len : ∀ {bs : List (List Nat)} {objs objs' : List HostObj} {ks : List Nat},
    symbolsFromSlices objs bs = .ok (objs', ks) → objs'.length ≤ objs.length + bs.length
  | [], objs, objs', ks, h => by cases h; simp
  | b :: bs, objs, objs', ks, h => by
    unfold symbolsFromSlices at h
    obtain ⟨⟨objs₁, k⟩, h1, h⟩ := bind_ok.mp h
    obtain ⟨⟨objs₂, ks'⟩, h2, h⟩ := bind_ok.mp h
    cases h
    have i := symbolsFromSlices_len h2
    have : objs₁.length ≤ objs.length + 1 := by
      unfold symbolFromSlice at h1
      split at h1
      · cases h1; omega
      · obtain ⟨o, _, h1⟩ := bind_ok.mp h1
        rw [addObj_eq h1]
        simp
    rw [List.length_cons]
    omega

theorem forall2_zip_filter {α β γ : Type} {R : α → β → Prop} (g : γ → Bool) : ∀ {as : List α} {bs : List β} {cs : List γ},
    List.Forall₂ R as bs → List.Forall₂ (fun p q => R p.1 q.1 ∧ p.2 = q.2) ((as.zip cs).filter (fun p => g p.2)) ((bs.zip cs).filter (fun p => g p.2))
  | _, _, _, .nil => by simp
  | a :: as, b :: bs, cs, .cons h t => by
    cases cs with
    | nil => simp
    | cons c cs =>
      rw [List.zip_cons_cons, List.zip_cons_cons, List.filter_cons, List.filter_cons]
      dsimp only
      split
      · exact .cons ⟨h, rfl⟩ (forall2_zip_filter g t)
      · exact forall2_zip_filter g t

theorem pairwise_text {objs : List HostObj} : ∀ {ks : List Nat} {ts : List (List Nat)},
    List.Forall₂ (fun k b => symbolText objs k = .ok b) ks ts →
    (ks.Pairwise (fun a b => scOrd (.symbol (textOf objs a)) (.symbol (textOf objs b)) = .lt) ↔ ts.Pairwise (· < ·))
  | _, _, .nil => by simp
  | k :: ks, t :: ts, .cons h hs => by
    rw [List.pairwise_cons, List.pairwise_cons, pairwise_text hs]
    refine and_congr_left fun _ => ⟨fun hh y hy => ?_, fun hh x hx => ?_⟩
    · obtain ⟨x, hx, e⟩ := forall₂_mem_right hs hy
      have := hh x hx
      rw [textOf_eq h, textOf_eq e, scOrd_symbol] at this
      exact (lexCmp_spec _ _).1.1 this
    · obtain ⟨y, hy, e⟩ := forall₂_mem_left hs hx
      rw [textOf_eq h, textOf_eq e, scOrd_symbol]
      exact (lexCmp_spec _ _).1.2 (hh y hy)

theorem build_iff {objs : List HostObj} (hobjs : ObjsOk objs) {sparse : Bool} {good isVoid : Nat → Bool} {keys vals : List Nat}
    {ts : List (List Nat)} (hk : ∀ k ∈ keys, Sound objs k) (ht : List.Forall₂ (fun k b => symbolText objs k = .ok b) keys ts)
    (hl : keys.length ≤ u32Max) (m : List (Nat × Nat)) :
    mapFromSlices (valCmp objs (d + 1)) good isVoid sparse keys vals = .ok m ↔
      keys.length = vals.length ∧ (∀ v ∈ vals, good v = true) ∧ ts.Pairwise (· < ·) ∧
      m = (keys.zip vals).filter (fun p => !sparse || !isVoid p.2) := by
  have hr : ∀ k ∈ keys, ReadsAs objs (d + 1) (fun k => .symbol (textOf objs k)) k := by
    intro k hkk
    obtain ⟨t, _, e⟩ := forall₂_mem_left ht hkk
    exact ⟨hk k hkk, symbol_reads (textOf_ok ⟨t, e⟩) d⟩
  obtain ⟨h1, h2⟩ := C07_host_build hobjs good isVoid keys vals hr m
  rw [pairwise_text ht] at h1 h2
  cases sparse with
  | false =>
    rw [h1]
    have e : (keys.zip vals).filter (fun p => !false || !isVoid p.2) = keys.zip vals := by simp
    rw [e]
    exact ⟨fun ⟨a, b, c, _, e⟩ => ⟨a, b, c, e⟩, fun ⟨a, b, c, e⟩ => ⟨a, b, c, hl, e⟩⟩
  | true =>
    rw [h2]
    have e : (keys.zip vals).filter (fun p => !true || !isVoid p.2) = (keys.zip vals).filter (fun p => !isVoid p.2) := by simp
    rw [e]
    refine ⟨fun ⟨a, b, c, _, e⟩ => ⟨a, b, c, e⟩, fun ⟨a, b, c, e⟩ => ⟨a, b, c, ?_, e⟩⟩
    rw [e]
    have h3 := List.length_filter_le (fun p : Nat × Nat => !isVoid p.2) (keys.zip vals)
    have h4 : (keys.zip vals).length ≤ keys.length := by rw [List.length_zip]; exact Nat.min_le_left _ _
    exact Nat.le_trans h3 (Nat.le_trans h4 hl)

theorem checkIntegrity_append' {objs e : List HostObj} {v : Nat} (h : checkIntegrity objs v = .ok ()) :
    checkIntegrity (objs ++ e) v = .ok () := by
  unfold checkIntegrity at h ⊢
  split at h
  · cases h
  · split at h
    · cases hv : visitObj objs v with
      | error e => rw [hv] at h; cases h
      | ok o =>
        rw [hv] at h
        rw [if_neg (by assumption), if_pos (by assumption), visitObj_append hv]
        exact h
    · rw [if_neg (by assumption), if_neg (by assumption)]

/-- The well-formedness of a value read from memory does not depend on objects made later. -/
theorem isSoundVal_read {objs e : List HostObj} {tbl : List Nat} {w v : Nat} (ht : ∀ a ∈ tbl, Sound objs a) (h : relToAbs tbl w = .ok v) :
    isSoundVal (objs ++ e) v = true ↔ checkIntegrity objs v = .ok () := by
  unfold relToAbs at h
  constructor
  · intro hx
    have hx := isSoundVal_ok hx
    split at h
    · split at h
      · split at h
        · rename_i he
          split at h
          · cases h
            exact (ht _ (List.mem_of_getElem? he)).2
          · cases h
        · cases h
      · cases h
    · rename_i hn
      cases h
      unfold checkIntegrity at hx ⊢
      have hf : Val.isObject w = false := by simpa using hn
      rw [hf] at hx ⊢
      exact hx
  · intro hx
    unfold isSoundVal
    rw [checkIntegrity_append' hx]

/-- The keys and values in memory from which a map can be made: the keys are symbols, strictly ascending, and the values are well-formed
values of the frame. -/
def Buildable (l : Lin) (k v n : Nat) (ts : List (List Nat)) (vs : List Nat) : Prop :=
  ts.length = n ∧ SlicesAt l.mem k ts ∧ (∀ t ∈ ts, t.length ≤ 32 ∧ ∀ c ∈ t, isSymbolChar c) ∧ ts.Pairwise (· < ·) ∧
  v + n * 8 ≤ l.mem.length ∧ v + n * 8 < 2^32 ∧
  ∃ ws, ws.length = n ∧ WordsAt l.mem v ws ∧ List.Forall₂ (fun w x => relToAbs l.tbl w = .ok x) ws vs ∧
    ∀ x ∈ vs, checkIntegrity l.objs x = .ok ()

/-- C54: making a map from memory. It succeeds exactly if the memory holds `n` symbols in strictly ascending order and `n` well-formed
values; the new map has exactly these entries, without those of value void if `sparse`. -/
theorem C54_map_new_from {sparse : Bool} {k v n : Nat} (hm : ∀ b ∈ l.mem, b < 256) (hk : k < 2^32) (hv : v < 2^32) (hn : n < 2^32)
    (hl : l.objs.length + n < 2^31) (hobjs : ObjsOk l.objs) (hsort : MapsSorted l.objs) (htext : ∀ o ∈ l.objs, TextOk o)
    (ht : ∀ a ∈ l.tbl, Sound l.objs a) :
    ((∃ l' r, runM (fun o => valCmp o (d + 1)) l (.mapNewFrom sparse) [valU32 k, valU32 v, valU32 n] = .ok (l', r)) ↔
      ∃ ts vs, Buildable l k v n ts vs) ∧
    ∀ l' r, runM (fun o => valCmp o (d + 1)) l (.mapNewFrom sparse) [valU32 k, valU32 v, valU32 n] = .ok (l', r) →
      l'.mem = l.mem ∧ l'.tbl = l.tbl ∧ ∃ ts vs m w, Buildable l k v n ts vs ∧ r = .val w ∧ visitObj l'.objs w = .ok (.map m) ∧
        List.Forall₂ (fun p q => symbolText l'.objs p.1 = .ok q.1 ∧ p.2 = q.2) m
          ((ts.zip vs).filter (fun q => !sparse || !(q.2 == valVoid))) := by
  have main : ∀ l' r, runM (fun o => valCmp o (d + 1)) l (.mapNewFrom sparse) [valU32 k, valU32 v, valU32 n] = .ok (l', r) →
      l'.mem = l.mem ∧ l'.tbl = l.tbl ∧ ∃ ts vs m w, Buildable l k v n ts vs ∧ r = .val w ∧ visitObj l'.objs w = .ok (.map m) ∧
        List.Forall₂ (fun p q => symbolText l'.objs p.1 = .ok q.1 ∧ p.2 = q.2) m
          ((ts.zip vs).filter (fun q => !sparse || !(q.2 == valVoid))) := by
    intro l' r h
    unfold runM at h
    dsimp only at h
    rw [major_valU32 hk, major_valU32 hv, major_valU32 hn] at h
    unfold mapNewFromMem at h
    obtain ⟨ts, h1, h⟩ := bind_ok.mp h
    obtain ⟨⟨objs, keys⟩, h2, h⟩ := bind_ok.mp h
    obtain ⟨vs, h3, h⟩ := bind_ok.mp h
    obtain ⟨m, h4, h⟩ := bind_ok.mp h
    obtain ⟨⟨objs', w⟩, h5, h⟩ := bind_ok.mp h
    cases h
    obtain ⟨c1, c2⟩ := (scanSlices_iff hm).1 h1
    have hlen : objs.length < 2^31 := by
      have := symbolsFromSlices_len h2
      omega
    have hgr := symbolsFromSlices_grows (d := d) h2 (by omega)
    obtain ⟨e, he⟩ := hgr.1.append
    have hok := (hgr.1.tableOk ⟨hobjs, hsort, htext⟩).wf
    obtain ⟨t1, t2⟩ := symbolsFromSlices_text h2 (by omega)
    obtain ⟨g1, g2, ws, g3, g4, g5⟩ := (readVals_iff hm).1 h3
    have hkl : keys.length ≤ u32Max := by
      rw [t1.length_eq, c1]; unfold u32Max; omega
    obtain ⟨b1, b2, b3, rfl⟩ := (build_iff hok hgr.2 t1 hkl m).1 h4
    refine ⟨rfl, rfl, ts, vs, _, w, ⟨c1, c2, t2, b3, g1, g2, ws, g3, g4, g5, ?_⟩, rfl, (addObj_visit hlen h5).1, ?_⟩
    · intro x hx
      obtain ⟨w', _, hw'⟩ := forall₂_mem_right g5 hx
      have := b2 x hx
      rw [he] at this
      exact (isSoundVal_read ht hw').1 this
    · have t3 : List.Forall₂ (fun k b => symbolText objs' k = .ok b) keys ts :=
        List.Forall₂.imp (fun a b hab => by rw [addObj_eq h5]; exact symbolText_append hab) t1
      exact forall2_zip_filter (fun x => !sparse || !(x == valVoid)) t3
  refine ⟨⟨fun ⟨l', r, h⟩ => ?_, ?_⟩, main⟩
  · obtain ⟨_, _, ts, vs, m, w, hb, _⟩ := main l' r h
    exact ⟨ts, vs, hb⟩
  · rintro ⟨ts, vs, c1, c2, t2, b3, g1, g2, ws, g3, g4, g5, g6⟩
    obtain ⟨objs, keys, h2, h3⟩ := symbolsFromSlices_succeeds (bs := ts) (objs := l.objs) (by omega) t2
    have hlen : objs.length < 2^31 := by omega
    have hgr := symbolsFromSlices_grows (d := d) h2 (by omega)
    obtain ⟨e, he⟩ := hgr.1.append
    have hok := (hgr.1.tableOk ⟨hobjs, hsort, htext⟩).wf
    obtain ⟨t1, _⟩ := symbolsFromSlices_text h2 (by omega)
    have hkl : keys.length ≤ u32Max := by
      rw [t1.length_eq, c1]; unfold u32Max; omega
    have hmap := (build_iff (d := d) (sparse := sparse) (good := isSoundVal objs) (isVoid := fun v => v == valVoid) (vals := vs) hok hgr.2 t1 hkl
      ((keys.zip vs).filter (fun p => !sparse || !(p.2 == valVoid)))).2 ⟨by rw [t1.length_eq, c1, ← g5.length_eq, g3], fun x hx => by
        obtain ⟨w', _, hw'⟩ := forall₂_mem_right g5 hx
        rw [he]
        exact (isSoundVal_read ht hw').2 (g6 x hx), b3, rfl⟩
    have ha : ∃ o w, addObj objs (.map ((keys.zip vs).filter (fun p => !sparse || !(p.2 == valVoid)))) = .ok (o, w) := by
      unfold addObj
      rw [indexToHandle_abs (by omega)]
      exact ⟨_, _, rfl⟩
    obtain ⟨o, w, ha⟩ := ha
    refine ⟨{ l with objs := o }, .val w, ?_⟩
    unfold runM
    dsimp only
    rw [major_valU32 hk, major_valU32 hv, major_valU32 hn]
    unfold mapNewFromMem
    refine bind_ok.mpr ⟨ts, (scanSlices_iff hm).2 ⟨c1, c2⟩, ?_⟩
    refine bind_ok.mpr ⟨_, h2, ?_⟩
    refine bind_ok.mpr ⟨vs, (readVals_iff hm).2 ⟨g1, g2, ws, g3, g4, g5⟩, ?_⟩
    refine bind_ok.mpr ⟨_, hmap, ?_⟩
    exact bind_ok.mpr ⟨_, ha, rfl⟩

/-! ### unpacking -/

theorem unpackOne_compared {K V : Type} {cmp : K → K → Res Ordering} {void v : V} {sparse : Bool} {k : K} :
    ∀ {m m' : List (K × V)}, unpackOne cmp void sparse k m = .ok (v, m') → ∀ p ∈ m, p ∈ m' ∨ ∃ o, cmp p.1 k = .ok o
  | [], m', h => by simp
  | (mk, mv) :: rest, m', h => by
    intro p hp
    rw [unpackOne] at h
    cases hc : cmp mk k with
    | error e => rw [hc] at h; cases h
    | ok o =>
      rw [hc] at h
      dsimp only at h
      rcases List.mem_cons.1 hp with rfl | hp'
      · exact Or.inr ⟨o, hc⟩
      · split at h
        · cases o with
          | lt => exact unpackOne_compared h p hp'
          | eq => cases h; exact Or.inl hp'
          | gt => cases h; exact Or.inl hp
        · split at h
          · cases h
          · cases h; exact Or.inl hp'

theorem unpackLoop_compared {K V : Type} {cmp : K → K → Res Ordering} {void : V} {sparse : Bool} :
    ∀ {ks : List K} {m rest : List (K × V)} {prev : Option K} {vs : List V}, unpackLoop cmp void sparse prev m ks = .ok (vs, rest) →
      ∀ p ∈ m, p ∈ rest ∨ ∃ k o, cmp p.1 k = .ok o
  | [], m, rest, prev, vs, h => by cases h; exact fun p hp => Or.inl hp
  | k :: ks, m, rest, prev, vs, h => by
    intro p hp
    rw [unpackLoop] at h
    split at h
    · cases h
    · cases ho : unpackOne cmp void sparse k m with
      | error e => rw [ho] at h; cases h
      | ok q =>
        obtain ⟨v, m'⟩ := q
        rw [ho] at h
        dsimp only at h
        rcases unpackOne_compared ho p hp with h1 | ⟨o, h1⟩
        · cases hl : unpackLoop cmp void sparse (some k) m' ks with
          | error e => rw [hl] at h; cases h
          | ok q =>
            obtain ⟨vs', rest'⟩ := q
            rw [hl] at h
            cases h
            exact unpackLoop_compared hl p h1
        · exact Or.inr ⟨k, o, h1⟩

/-- Unpacking succeeds only on maps whose keys are all symbols. -/
theorem unpackTexts_symbols {objs : List HostObj} {sparse : Bool} {m : List (Nat × Nat)} {ts : List (List Nat)} {vs : List Nat}
    (h : unpackTexts objs sparse m ts = .ok vs) (hs : ∀ p ∈ m, Sound objs p.1) : ∀ p ∈ m, ∃ t, symbolText objs p.1 = .ok t := by
  intro p hp
  unfold unpackTexts mapUnpack at h
  split at h
  · cases h
  · cases hl : unpackLoop (unpackCmp objs) valVoid sparse none (m.map (fun p => (Sum.inl p.1, p.2))) (ts.map Sum.inr) with
    | error e => rw [hl] at h; cases h
    | ok q =>
      obtain ⟨vs', rest⟩ := q
      rw [hl] at h
      dsimp only at h
      split at h
      · rename_i hall
        rcases unpackLoop_compared hl (Sum.inl p.1, p.2) (List.mem_map_of_mem hp) with hr | ⟨k, o, hc⟩
        · have := List.all_eq_true.1 hall _ hr
          unfold isSymbolKey at this
          dsimp only at this
          rw [Bool.or_eq_true, beq_iff_eq, beq_iff_eq] at this
          rcases this with h1 | h1
          · exact ⟨_, symbolText_ok.2 (Or.inl ⟨h1, rfl⟩)⟩
          · have hi := (hs p hp).2
            have hob : Val.isObject p.1 = true := by
              cases hf : Val.isObject p.1
              · have := small_tag hf
                rw [h1] at this
                cases this
              · rfl
            unfold checkIntegrity at hi
            split at hi
            · cases hi
            · try simp only [hob, if_true] at hi
              cases hv : visitObj objs p.1 with
              | error e => rw [hv] at hi; cases hi
              | ok ob =>
                rw [hv] at hi
                dsimp only at hi
                split at hi
                · rename_i htag
                  rw [h1] at htag
                  cases ob <;> first | exact ⟨_, symbolText_ok.2 (Or.inr ⟨h1, hv⟩)⟩ | cases htag
                · cases hi
        · obtain ⟨t, ht, _⟩ := bind_ok.mp hc
          exact ⟨t, ht⟩
      · cases h

theorem pairwise_of_forall2 {objs : List HostObj} : ∀ {m : List (Nat × Nat)} {ts : List (List Nat)},
    List.Forall₂ (fun p t => symbolText objs p.1 = .ok t) m ts → m.Pairwise (fun p q => textOf objs p.1 < textOf objs q.1) →
    ts.Pairwise (· < ·)
  | _, _, .nil, _ => .nil
  | p :: m, t :: ts, .cons h hs, hp => by
    rw [List.pairwise_cons] at hp ⊢
    refine ⟨fun y hy => ?_, pairwise_of_forall2 hs hp.2⟩
    obtain ⟨x, hx, e⟩ := forall₂_mem_right hs hy
    have := hp.1 x hx
    rwa [textOf_eq h, textOf_eq e] at this

/-- The text of a key of the map or of a key looked for. -/
def sumText (objs : List HostObj) : Nat ⊕ List Nat → List Nat
  | .inl k => textOf objs k
  | .inr t => t

/-- The order of the texts. -/
def byText (objs : List HostObj) (a b : Nat ⊕ List Nat) : Ordering := scOrd (.symbol (sumText objs a)) (.symbol (sumText objs b))

theorem byText_eq {objs : List HostObj} (a b : Nat ⊕ List Nat) : byText objs a b = lexCmp (sumText objs a) (sumText objs b) :=
  scOrd_symbol _ _

instance {objs : List HostObj} : Std.TransCmp (byText objs) where
  eq_swap {a b} := by
    unfold byText; exact Std.OrientedCmp.eq_swap (cmp := scOrd)
  isLE_trans {a b c} h1 h2 := by
    unfold byText at *; exact Std.TransCmp.isLE_trans (cmp := scOrd) h1 h2

theorem byText_computes {objs : List HostObj} : Computes (fun a b => .ok (byText objs a b)) (byText objs) := fun _ _ => rfl

/-- What the values delivered for the keys are: the value of the entry whose key has the text, or void if there is none. -/
def Delivered (objs : List HostObj) (m : List (Nat × Nat)) (t : List Nat) (x : Nat) : Prop :=
  (∃ p ∈ m, symbolText objs p.1 = .ok t ∧ p.2 = x) ∨ ((∀ p ∈ m, symbolText objs p.1 ≠ .ok t) ∧ x = valVoid)

theorem unpackTexts_iff {objs : List HostObj} {sparse : Bool} {m : List (Nat × Nat)} {ts : List (List Nat)}
    (hsym : ∀ p ∈ m, ∃ t, symbolText objs p.1 = .ok t)
    (hasc : m.Pairwise (fun p q => textOf objs p.1 < textOf objs q.1)) :
    ((∃ vs, unpackTexts objs sparse m ts = .ok vs) ↔
      ts.Pairwise (· < ·) ∧ (sparse = false → List.Forall₂ (fun p t => symbolText objs p.1 = .ok t) m ts)) ∧
    ∀ vs, unpackTexts objs sparse m ts = .ok vs → List.Forall₂ (Delivered objs m) ts vs := by
  have hcongr : unpackTexts objs sparse m ts = mapUnpack (fun a b => .ok (byText objs a b)) isSymbolKey valVoid sparse
      (m.map (fun p => (Sum.inl p.1, p.2))) (ts.map Sum.inr) := by
    unfold unpackTexts
    refine mapUnpack_congr (S := fun a => keyText objs a = .ok (sumText objs a)) ?_ _ _ _ ?_ ?_
    · intro a b ha hb
      unfold unpackCmp
      rw [ha, hb, byText_eq]
      rfl
    · intro p hp
      obtain ⟨q, hq, rfl⟩ := List.mem_map.1 hp
      exact textOf_ok (hsym q hq)
    · intro k hk
      obtain ⟨t, _, rfl⟩ := List.mem_map.1 hk
      rfl
  have hasc' : Ascending (byText objs) (m.map (fun p => ((Sum.inl p.1 : Nat ⊕ List Nat), p.2))) := by
    unfold Ascending
    rw [List.pairwise_map]
    refine hasc.imp ?_
    intro a b h
    rw [byText_eq]
    exact (lexCmp_spec _ _).1.2 h
  have hpw : (ts.map (Sum.inr : List Nat → Nat ⊕ List Nat)).Pairwise (fun a b => byText objs a b = .lt) ↔ ts.Pairwise (· < ·) := by
    rw [List.pairwise_map]
    constructor
    · intro h; refine h.imp ?_; intro a b h; rw [byText_eq] at h; exact (lexCmp_spec _ _).1.1 h
    · intro h; refine h.imp ?_; intro a b h; rw [byText_eq]; exact (lexCmp_spec _ _).1.2 h
  have heq : ∀ p ∈ m, ∀ t, byText objs (.inl p.1) (.inr t) = .eq ↔ symbolText objs p.1 = .ok t := by
    intro p hp t
    rw [byText_eq, (lexCmp_spec _ _).2.2, textOf_ok (hsym p hp)]
    constructor
    · intro h; exact congrArg _ h
    · intro h; cases h; rfl
  have hdel : ∀ t x, (MapsTo (byText objs) (m.map (fun p => (Sum.inl p.1, p.2))) (.inr t) x ∨
      (¬ HasKey (byText objs) (m.map (fun p => (Sum.inl p.1, p.2))) (.inr t) ∧ x = valVoid)) → Delivered objs m t x := by
    rintro t x (⟨p, hp, h1, h2⟩ | ⟨h1, h2⟩)
    · obtain ⟨q, hq, rfl⟩ := List.mem_map.1 hp
      exact Or.inl ⟨q, hq, (heq q hq t).1 h1, h2⟩
    · refine Or.inr ⟨fun p hp e => h1 ⟨_, List.mem_map_of_mem hp, (heq p hp t).2 e⟩, h2⟩
  rw [hcongr]
  cases sparse with
  | true =>
    have hsy : ∀ p ∈ m.map (fun p => ((Sum.inl p.1 : Nat ⊕ List Nat), p.2)), isSymbolKey p.1 = true := by
      intro p hp
      obtain ⟨q, hq, rfl⟩ := List.mem_map.1 hp
      obtain ⟨t, ht⟩ := hsym q hq
      rw [symbolText_ok] at ht
      unfold isSymbolKey
      rcases ht with ⟨h, _⟩ | ⟨h, _⟩ <;> simp [h]
    obtain ⟨h1, h2⟩ := C07_sparse_unpack byText_computes valVoid _ hasc' isSymbolKey hsy (ts.map Sum.inr)
    rw [hpw] at h1 h2
    by_cases hp : ts.Pairwise (· < ·)
    · obtain ⟨vs, hv, hall⟩ := h1 hp
      refine ⟨⟨fun _ => ⟨hp, by simp⟩, fun _ => ⟨vs, hv⟩⟩, ?_⟩
      intro vs' hv'
      rw [hv] at hv'
      cases hv'
      rw [List.forall₂_map_left_iff] at hall
      exact hall.imp fun t x h => hdel t x h
    · rw [h2 hp]
      exact ⟨⟨fun ⟨_, h⟩ => (by cases h), fun h => absurd h.1 hp⟩, fun vs h => (by cases h)⟩
  | false =>
    have hd := fun vs => C07_dense_unpack byText_computes valVoid _ hasc' isSymbolKey (ts.map Sum.inr) vs
    have hf : List.Forall₂ (fun p k => byText objs p.1 k = .eq) (m.map (fun p => ((Sum.inl p.1 : Nat ⊕ List Nat), p.2))) (ts.map Sum.inr) ↔
        List.Forall₂ (fun p t => symbolText objs p.1 = .ok t) m ts := by
      rw [List.forall₂_map_left_iff, List.forall₂_map_right_iff]
      constructor
      · intro h; exact forall2_mono_mem h (fun p hp t h => (heq p hp t).1 h)
      · intro h; exact forall2_mono_mem h (fun p hp t h => (heq p hp t).2 h)
    constructor
    · constructor
      · rintro ⟨vs, h⟩
        have h := hf.1 ((hd vs).1 h).1
        refine ⟨?_, fun _ => h⟩
        exact pairwise_of_forall2 h hasc
      · rintro ⟨_, h⟩
        exact ⟨_, (hd _).2 ⟨hf.2 (h rfl), rfl⟩⟩
    · intro vs h
      obtain ⟨h1, rfl⟩ := (hd vs).1 h
      have h1 := hf.1 h1
      have : ((m.map (fun p => ((Sum.inl p.1 : Nat ⊕ List Nat), p.2))).map Prod.snd) = m.map Prod.snd := by simp
      rw [this, List.forall₂_map_right_iff]
      exact (forall2_mono_mem h1 (S := fun p t => Delivered objs m t p.2) fun p hp t h => Or.inl ⟨p, hp, h, rfl⟩).flip

theorem ascending_texts {objs : List HostObj} (hsort : MapsSorted objs) {m : List (Nat × Nat)} (hm : HostObj.map m ∈ objs)
    (hsym : ∀ p ∈ m, ∃ t, symbolText objs p.1 = .ok t) : m.Pairwise (fun p q => textOf objs p.1 < textOf objs q.1) := by
  refine List.Pairwise.imp_of_mem ?_ (hsort m hm)
  intro p q hp hq h
  have := h _ _ ⟨1, symbol_reads (textOf_ok (hsym p hp)) 0⟩ ⟨1, symbol_reads (textOf_ok (hsym q hq)) 0⟩
  rw [scOrd_symbol] at this
  exact (lexCmp_spec _ _).1.1 this

/-- C54: unpacking a map to memory. It succeeds exactly if all keys of the map are symbols, the memory holds `n` keys in strictly
ascending order, these are the keys of the map unless `sparse`, and the place for the values is within the memory. Then the words there
stand for the values of the keys, void for those that the map does not have. -/
theorem C54_map_unpack_to {cmp : List HostObj → Nat → Nat → Res Ordering} {sparse : Bool} {mo k v n : Nat} {m : List (Nat × Nat)}
    (hm : ∀ b ∈ l.mem, b < 256) (hk : k < 2^32) (hv : v < 2^32) (hn : n < 2^32) (hmo : visitObj l.objs mo = .ok (.map m))
    (hobjs : ObjsOk l.objs) (hsort : MapsSorted l.objs) (hl : l.tbl.length + n ≤ 2^31) :
    ((∃ l' r, runM cmp l (.mapUnpackTo sparse) [mo, valU32 k, valU32 v, valU32 n] = .ok (l', r)) ↔
      (∀ p ∈ m, ∃ t, symbolText l.objs p.1 = .ok t) ∧ v + n * 8 ≤ l.mem.length ∧ v + n * 8 < 2^32 ∧
      ∃ ts, ts.length = n ∧ SlicesAt l.mem k ts ∧ ts.Pairwise (· < ·) ∧
        (sparse = false → List.Forall₂ (fun p t => symbolText l.objs p.1 = .ok t) m ts)) ∧
    ∀ l' r, runM cmp l (.mapUnpackTo sparse) [mo, valU32 k, valU32 v, valU32 n] = .ok (l', r) →
      ∃ ts vs, ts.length = n ∧ SlicesAt l.mem k ts ∧ List.Forall₂ (Delivered l.objs m) ts vs ∧
        ValsWritten l l' v vs ∧ l'.objs = l.objs ∧ r = .val valVoid := by
  have hmem : HostObj.map m ∈ l.objs := visitObj_mem hmo
  have hel := (hobjs.mem hmem).2
  have hsp : ∀ p ∈ m, Sound l.objs p.1 := fun p hp => hel _ (List.mem_append_left _ (List.mem_map_of_mem hp))
  have hsv : ∀ p ∈ m, Sound l.objs p.2 := fun p hp => hel _ (List.mem_append_right _ (List.mem_map_of_mem hp))
  have hvm : visitMap l.objs mo = .ok m := by unfold visitMap; rw [hmo]
  have hsd : ∀ {ts : List (List Nat)} {vs : List Nat}, List.Forall₂ (Delivered l.objs m) ts vs → ∀ x ∈ vs, Sound l.objs x := by
    intro ts vs h x hx
    obtain ⟨t, _, hd⟩ := forall₂_mem_right h hx
    rcases hd with ⟨p, hp, _, rfl⟩ | ⟨_, rfl⟩
    · exact hsv p hp
    · exact ⟨by decide, by rfl⟩
  unfold runM
  dsimp only
  rw [major_valU32 hk, major_valU32 hv, major_valU32 hn]
  unfold mapUnpackToMem
  rw [hvm]
  constructor
  · constructor
    · rintro ⟨l', r, h⟩
      obtain ⟨_, h0, h⟩ := bind_ok.mp h
      cases h0
      obtain ⟨ts, h1, h⟩ := bind_ok.mp h
      obtain ⟨vs, h2, h⟩ := bind_ok.mp h
      obtain ⟨⟨mem, tbl⟩, h3, h⟩ := bind_ok.mp h
      obtain ⟨c1, c2⟩ := (scanSlices_iff hm).1 h1
      have hsym := unpackTexts_symbols h2 hsp
      have hu := unpackTexts_iff (sparse := sparse) (ts := ts) hsym (ascending_texts hsort hmem hsym)
      obtain ⟨u1, u2⟩ := hu.1.1 ⟨vs, h2⟩
      have hd := hu.2 vs h2
      have hlen : vs.length = n := by rw [← hd.length_eq, c1]
      have hw := writeVals_written (l := l) h3 (fun x hx => (hsd hd x hx).1) (by omega)
      rw [hlen] at hw
      exact ⟨hsym, hw.2.1, hw.2.2, ts, c1, c2, u1, u2⟩
    · rintro ⟨hsym, w1, w2, ts, c1, c2, u1, u2⟩
      have hu := unpackTexts_iff (sparse := sparse) (ts := ts) hsym (ascending_texts hsort hmem hsym)
      obtain ⟨vs, h2⟩ := hu.1.2 ⟨u1, u2⟩
      have hd := hu.2 vs h2
      have hlen : vs.length = n := by rw [← hd.length_eq, c1]
      obtain ⟨mem, tbl, h3⟩ := writeVals_succeeds (l := l) (q := v) (hsd hd) (by omega) (by rw [hlen]; exact w1) (by rw [hlen]; exact w2)
      refine ⟨{ l with mem := mem, tbl := tbl }, .val valVoid, ?_⟩
      refine bind_ok.mpr ⟨m, rfl, ?_⟩
      refine bind_ok.mpr ⟨ts, (scanSlices_iff hm).2 ⟨c1, c2⟩, ?_⟩
      refine bind_ok.mpr ⟨vs, h2, ?_⟩
      exact bind_ok.mpr ⟨_, h3, rfl⟩
  · intro l' r h
    obtain ⟨_, h0, h⟩ := bind_ok.mp h
    cases h0
    obtain ⟨ts, h1, h⟩ := bind_ok.mp h
    obtain ⟨vs, h2, h⟩ := bind_ok.mp h
    obtain ⟨⟨mem, tbl⟩, h3, h⟩ := bind_ok.mp h
    cases h
    obtain ⟨c1, c2⟩ := (scanSlices_iff hm).1 h1
    have hsym := unpackTexts_symbols h2 hsp
    have hd := (unpackTexts_iff (sparse := sparse) (ts := ts) hsym (ascending_texts hsort hmem hsym)).2 vs h2
    have hlen : vs.length = n := by rw [← hd.length_eq, c1]
    have hw := writeVals_written (l := l) h3 (fun x hx => (hsd hd x hx).1) (by omega)
    exact ⟨ts, vs, c1, c2, hd, hw.1, rfl, rfl⟩

end Soroban.Props
