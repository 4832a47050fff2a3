import Verif.Props.Memory
import Verif.Props.Val
/-!
C10 and C54: values and texts stay well-formed in all executions of a contract with a memory.
-/
namespace Soroban.Props
open Soroban Soroban.Spec

/-- What a table must keep. -/
structure TableOk (objs : List HostObj) : Prop where
  wf : ObjsOk objs
  sorted : MapsSorted objs
  text : ∀ o ∈ objs, TextOk o

/-- What is needed of a new object. -/
structure NewOk (d : Nat) (objs : List HostObj) (o : HostObj) : Prop where
  ok : ObjOk o
  inner : ∀ w ∈ elems o, Sound objs w
  sorted : ∀ m, o = .map m → checkSorted (valCmp objs d) m = .ok ()
  text : TextOk o

theorem addObj_tableOk {d : Nat} {objs objs' : List HostObj} {o : HostObj} {v : Nat} (i : TableOk objs) (hn : NewOk d objs o)
    (h : addObj objs o = .ok (objs', v)) : TableOk objs' := by
  have heq := addObj_eq h
  rw [heq]
  refine ⟨ObjsOk_snoc i.wf hn.ok hn.inner, ?_, ?_⟩
  · intro m hm
    rcases List.mem_append.1 hm with hm | hm
    · exact mapsSorted_append i.wf hm (i.sorted m hm)
    · rw [List.mem_singleton] at hm
      subst hm
      have hs' : ∀ p ∈ m, Sound objs p.1 := fun p hp => hn.inner _ (elem_map_fst hp)
      have hp := sorted_of_check i.wf hs' (hn.sorted m rfl)
      refine List.Pairwise.imp_of_mem (fun {p q} hp hq hpq s t h1 h2 => ?_) hp
      have key : ∀ p ∈ m, ∀ s, Denotes (objs ++ [.map m]) p.1 s → Denotes objs p.1 s := by
        intro p hp s h
        obtain ⟨s', d', hd'⟩ := denotes_total i.wf (hs' p hp)
        have := h.unique ⟨d', fromVal_append hd'⟩
        subst this
        exact ⟨d', hd'⟩
      exact hpq s t (key p hp s h1) (key q hq t h2)
  · intro o' ho'
    rcases List.mem_append.1 ho' with ho' | ho'
    · exact i.text o' ho'
    · rw [List.mem_singleton] at ho'
      subst ho'
      exact hn.text

/-- The table grows by well-formed objects, one after the other. -/
inductive Grows (d : Nat) (objs : List HostObj) : List HostObj → Prop
  | refl : Grows d objs objs
  | add {objs₁ objs₂ o v} : Grows d objs objs₁ → addObj objs₁ o = .ok (objs₂, v) → (TableOk objs₁ → NewOk d objs₁ o) → Grows d objs objs₂

theorem Grows.tableOk {d : Nat} {objs objs' : List HostObj} (h : Grows d objs objs') (i : TableOk objs) : TableOk objs' := by
  induction h with
  | refl => exact i
  | add _ ha hn ih => exact addObj_tableOk ih (hn ih) ha

theorem Grows.trans {d : Nat} {objs objs₁ objs₂ : List HostObj} (h : Grows d objs objs₁) (h' : Grows d objs₁ objs₂) : Grows d objs objs₂ := by
  induction h' with
  | refl => exact h
  | add _ ha hn ih => exact .add ih ha hn

theorem Grows.append {d : Nat} {objs objs' : List HostObj} (h : Grows d objs objs') : ∃ e, objs' = objs ++ e := by
  induction h with
  | refl => exact ⟨[], by simp⟩
  | add _ ha _ ih => obtain ⟨e, he⟩ := ih; exact ⟨_, by rw [addObj_eq ha, he, List.append_assoc]⟩

theorem newOk_text {d : Nat} {objs : List HostObj} {o : HostObj} (h0 : ∀ m, o ≠ .map m) (h1 : elems o = []) (h2 : ObjOk o) (h3 : TextOk o) :
    NewOk d objs o := ⟨h2, by rw [h1]; simp, fun m hm => absurd hm (h0 m), h3⟩

theorem newOk_bytes {d : Nat} {objs : List HostObj} {b : List Nat} (h : ∀ x ∈ b, x < 256) : NewOk d objs (.bytes b) :=
  newOk_text (by simp) rfl trivial ⟨h, by intro s hs; cases hs⟩

theorem newOk_string {d : Nat} {objs : List HostObj} {b : List Nat} (h : ∀ x ∈ b, x < 256) : NewOk d objs (.string b) :=
  newOk_text (by simp) rfl trivial ⟨h, by intro s hs; cases hs⟩

theorem newOk_tag {d : Nat} {objs : List HostObj} {b : List Nat} (h : ∀ x ∈ b, x < 256) : NewOk d objs (.executableTag b) :=
  newOk_text (by simp) rfl trivial ⟨h, by intro s hs; cases hs⟩

theorem symbolChar_lt {c : Nat} (h : isSymbolChar c) : c < 256 := by
  unfold isSymbolChar at h
  omega

theorem newOk_symbol {d : Nat} {objs : List HostObj} {b : List Nat} {o : HostObj} (h : symbolObject b = .ok o) : NewOk d objs o := by
  obtain ⟨rfl, hl, hc⟩ := symbolObject_ok h
  have hc' : ∀ c ∈ b, isSymbolChar c := fun c hm => encodeByte_some.1 (Option.isSome_iff_exists.1 (hc c hm))
  exact newOk_text (by simp) rfl trivial ⟨fun x hx => symbolChar_lt (hc' x hx), by intro s hs; cases hs; exact ⟨hl, hc'⟩⟩

theorem visit_octets {objs : List HostObj} {v : Nat} {o : HostObj} (i : TableOk objs) (h : visitObj objs v = .ok o) :
    ∀ b ∈ octets o, b < 256 := (i.text o (visitObj_mem h)).1

theorem visitBytes_ok {objs : List HostObj} {v : Nat} {b : List Nat} : visitBytes objs v = .ok b ↔ visitObj objs v = .ok (.bytes b) := by
  unfold visitBytes
  split
  · rename_i h; rw [h]; simp
  · rename_i h; rw [h]; simp
  · rename_i h h'; rw [h']; simp; intro e; exact h _ e

theorem visitString_ok {objs : List HostObj} {v : Nat} {b : List Nat} : visitString objs v = .ok b ↔ visitObj objs v = .ok (.string b) := by
  unfold visitString
  split
  · rename_i h; rw [h]; simp
  · rename_i h; rw [h]; simp
  · rename_i h h'; rw [h']; simp; intro e; exact h _ e

theorem visitSymbol_ok {objs : List HostObj} {v : Nat} {b : List Nat} : visitSymbol objs v = .ok b ↔ visitObj objs v = .ok (.symbol b) := by
  unfold visitSymbol
  split
  · rename_i h; rw [h]; simp
  · rename_i h; rw [h]; simp
  · rename_i h h'; rw [h']; simp; intro e; exact h _ e

theorem retObj_grows {d : Nat} {objs objs' : List HostObj} {x : Res HostObj} {r : Ret} (h : retObj objs x = .ok (objs', r))
    (hx : ∀ o, x = .ok o → TableOk objs → NewOk d objs o) : Grows d objs objs' := by
  unfold retObj at h
  obtain ⟨o, ho, h⟩ := bind_ok.mp h
  obtain ⟨⟨objs₁, v⟩, ha, h⟩ := bind_ok.mp h
  cases h
  exact .add .refl ha (hx o ho)

theorem runFn_grows {d : Nat} {objs objs' : List HostObj} {f : Fn} {as : List Nat} {r : Ret}
    (h : runFn (fun o => valCmp o d) objs f as = .ok (objs', r)) (has : ∀ a ∈ as, Sound objs a) : Grows d objs objs' := by
  have hnew := runFn_new h
  have hr := runFn_result h
  clear h
  cases hr with
  | raw n h => subst h; exact .refl
  | val v h hv => subst h; exact .refl
  | obj o v h hv =>
    refine .add .refl h fun i => ?_
    have hkind : (∃ l, o = .vec l) ∨ ∃ m, o = .map m ∧ checkSorted (valCmp objs d) m = .ok () := by
      rcases hnew with e | ⟨o', e, hk⟩
      · have : (objs ++ [o]).length = objs.length := by rw [← addObj_eq h, e]
        simp at this
      · rw [addObj_eq h] at e
        have := List.append_cancel_left e
        cases this
        exact hk
    refine ⟨?_, ?_, ?_, ?_⟩
    · rcases hkind with ⟨l, rfl⟩ | ⟨m, rfl, _⟩ <;> trivial
    · intro w hw
      rcases hv w hw with h | ⟨c, hc, o', ho', hw⟩
      · exact has w h
      · exact (i.wf.mem (visitObj_mem ho')).2 w hw
    · intro m hm
      rcases hkind with ⟨l, e⟩ | ⟨m', e, hc⟩
      · rw [e] at hm; cases hm
      · rw [e] at hm; cases hm; exact hc
    · rcases hkind with ⟨l, rfl⟩ | ⟨m, rfl, _⟩ <;> exact ⟨by simp [octets], by intro s hs; cases hs⟩

theorem u8Input_ok {u x : Nat} (h : u8Input u = .ok x) : x = u ∧ u < 256 := by
  unfold u8Input at h
  split at h
  · cases h; exact ⟨rfl, by omega⟩
  · cases h

theorem runB_grows {d : Nat} {objs objs' : List HostObj} {f : BFn} {as : List Nat} {r : Ret} (h : runB objs f as = .ok (objs', r)) :
    Grows d objs objs' := by
  have hb : ∀ {v : Nat} {g : List Nat → Res (List Nat)},
      retObj objs (do let hb ← visitBytes objs v; let r ← g hb; .ok (.bytes r)) = .ok (objs', r) →
      (∀ b c, g b = .ok c → (∀ x ∈ b, x < 256) → ∀ x ∈ c, x < 256) → Grows d objs objs' := by
    intro v g h hg
    refine retObj_grows h ?_
    intro o ho i
    obtain ⟨b, h1, ho⟩ := bind_ok.mp ho
    obtain ⟨c, h2, ho⟩ := bind_ok.mp ho
    cases ho
    exact newOk_bytes (hg b c h2 (visit_octets i (visitBytes_ok.1 h1)))
  unfold runB at h
  split at h
  case h_1 => exact retObj_grows h (by intro o ho _; cases ho; exact newOk_bytes (by simp))
  case h_2 b i u =>
    refine hb h ?_
    intro b c h hx
    unfold bytesPut at h
    obtain ⟨u', h1, h⟩ := bind_ok.mp h
    obtain ⟨rfl, hu⟩ := u8Input_ok h1
    split at h
    · cases h
      intro x hm
      rcases List.mem_or_eq_of_mem_set hm with h | rfl
      · exact hx x h
      · exact hu
    · cases h
  case h_4 b i =>
    refine hb h ?_
    intro b c h hx
    unfold bytesDel at h
    obtain ⟨_, _, h⟩ := bind_ok.mp h
    cases h
    exact fun x hm => hx x (List.mem_of_mem_eraseIdx hm)
  case h_6 b u =>
    refine hb h ?_
    intro b c h hx
    unfold bytesPush at h
    obtain ⟨u', h1, h⟩ := bind_ok.mp h
    obtain ⟨_, _, h⟩ := bind_ok.mp h
    obtain ⟨rfl, hu⟩ := u8Input_ok h1
    cases h
    intro x hm
    rcases List.mem_append.1 hm with hm | hm
    · exact hx x hm
    · rw [List.mem_singleton] at hm; rw [hm]; exact hu
  case h_7 b =>
    refine hb h ?_
    intro b c h hx
    unfold bytesPop at h
    split at h
    · cases h
    · cases h
      exact fun x hm => hx x ((List.dropLast_sublist b).mem hm)
  case h_10 b i u =>
    refine hb h ?_
    intro b c h hx
    unfold bytesInsert at h
    obtain ⟨u', h1, h⟩ := bind_ok.mp h
    obtain ⟨_, _, h⟩ := bind_ok.mp h
    obtain ⟨_, _, h⟩ := bind_ok.mp h
    obtain ⟨rfl, hu⟩ := u8Input_ok h1
    cases h
    intro x hm
    rcases List.mem_append.1 hm with hm | hm
    · exact hx x (List.mem_of_mem_take hm)
    · rcases List.mem_cons.1 hm with rfl | hm
      · exact hu
      · exact hx x (List.mem_of_mem_drop hm)
  case h_11 a b =>
    refine retObj_grows h ?_
    intro o ho i
    obtain ⟨b, h1, ho⟩ := bind_ok.mp ho
    obtain ⟨b', h2, ho⟩ := bind_ok.mp ho
    obtain ⟨c, h3, ho⟩ := bind_ok.mp ho
    cases ho
    unfold bytesAppend at h3
    obtain ⟨_, _, h3⟩ := bind_ok.mp h3
    cases h3
    refine newOk_bytes ?_
    intro x hx
    rcases List.mem_append.1 hx with hx | hx
    · exact visit_octets i (visitBytes_ok.1 h1) x hx
    · exact visit_octets i (visitBytes_ok.1 h2) x hx
  case h_12 b s e =>
    refine hb h ?_
    intro b c h hx
    unfold bytesSlice at h
    obtain ⟨_, _, h⟩ := bind_ok.mp h
    cases h
    exact fun x hm => hx x (List.mem_of_mem_take (List.mem_of_mem_drop hm))
  case h_13 s =>
    refine retObj_grows h ?_
    intro o ho i
    obtain ⟨b, h1, ho⟩ := bind_ok.mp ho
    cases ho
    exact newOk_bytes (visit_octets i (visitString_ok.1 h1))
  case h_14 s =>
    refine retObj_grows h ?_
    intro o ho i
    obtain ⟨b, h1, ho⟩ := bind_ok.mp ho
    cases ho
    exact newOk_string (visit_octets i (visitBytes_ok.1 h1))
  case h_15 s =>
    refine retObj_grows h ?_
    intro o ho i
    obtain ⟨b, h1, ho⟩ := bind_ok.mp ho
    cases ho
    exact newOk_tag (visit_octets i (visitString_ok.1 h1))
  case h_18 => cases h
  all_goals
    have := retVal_same h
    subst this
    exact .refl

theorem readBytes_lt {mem b : List Nat} {pos len : Nat} (h : readBytes mem pos len = .ok b) (hm : ∀ x ∈ mem, x < 256) : ∀ x ∈ b, x < 256 := by
  obtain ⟨_, rfl, _⟩ := readBytes_ok h
  exact fun x hx => hm x (List.mem_of_mem_drop (List.mem_of_mem_take hx))

theorem writeBytes_lt {mem mem' b : List Nat} {pos : Nat} (h : writeBytes mem pos b = .ok mem') (hm : ∀ x ∈ mem, x < 256)
    (hb : ∀ x ∈ b, x < 256) : ∀ x ∈ mem', x < 256 := by
  unfold writeBytes at h
  split at h
  · cases h
    intro x hx
    rcases List.mem_append.1 hx with hx | hx
    · rcases List.mem_append.1 hx with hx | hx
      · exact hm x (List.mem_of_mem_take hx)
      · exact hb x hx
    · exact hm x (List.mem_of_mem_drop hx)
  · cases h

theorem toLe_lt (n w : Nat) : ∀ x ∈ toLe n w, x < 256 := by
  induction n generalizing w with
  | zero => simp [toLe]
  | succ n ih =>
    intro x hx
    rw [toLe] at hx
    rcases List.mem_cons.1 hx with rfl | hx
    · omega
    · exact ih _ x hx

theorem unwords_lt (ws : List Nat) : ∀ x ∈ unwords ws, x < 256 := by
  intro x hx
  obtain ⟨w, _, hw⟩ := List.mem_flatMap.1 hx
  exact toLe_lt 8 w x hw

theorem words_lt (n : Nat) (b : List Nat) (h : ∀ x ∈ b, x < 256) : ∀ w ∈ words n b, w < 2^64 := by
  induction n generalizing b with
  | zero => simp [words]
  | succ n ih =>
    intro w hw
    rw [words] at hw
    rcases List.mem_cons.1 hw with rfl | hw
    · have h1 := fromLe_lt (b.take 8) (fun x hx => h x (List.mem_of_mem_take hx))
      have h2 : 256 ^ (b.take 8).length ≤ 256 ^ 8 := Nat.pow_le_pow_right (by omega) (by simp)
      exact Nat.lt_of_lt_of_le h1 h2
    · exact ih _ (fun x hx => h x (List.mem_of_mem_drop hx)) w hw

theorem bytesIn_lt {mem b c : List Nat} {p q n : Nat} (h : bytesIn mem b p q n = .ok c) (hb : ∀ x ∈ b, x < 256) (hm : ∀ x ∈ mem, x < 256) :
    ∀ x ∈ c, x < 256 := by
  unfold bytesIn at h
  split at h
  · cases h
  · obtain ⟨bs, h3, h⟩ := bind_ok.mp h
    cases h
    have hx : ∀ x ∈ (if b.length < p + n then b ++ List.replicate (p + n - b.length) 0 else b), x < 256 := by
      intro x hx
      split at hx
      · rcases List.mem_append.1 hx with hx | hx
        · exact hb x hx
        · rw [(List.mem_replicate.1 hx).2]; omega
      · exact hb x hx
    intro x hm'
    rcases List.mem_append.1 hm' with hm' | hm'
    · rcases List.mem_append.1 hm' with hm' | hm'
      · exact hx x (List.mem_of_mem_take hm')
      · exact readBytes_lt h3 hm x hm'
    · exact hx x (List.mem_of_mem_drop hm')

/-- Values read from memory are 64-bit words. -/
theorem readVals_lt {mem tbl : List Nat} {pos n : Nat} {vs : List Nat} (h : readVals mem tbl pos n = .ok vs) (hm : ∀ x ∈ mem, x < 256)
    (ht : ∀ a ∈ tbl, a < 2^64) : ∀ v ∈ vs, v < 2^64 := by
  unfold readVals at h
  obtain ⟨_, _, h⟩ := bind_ok.mp h
  obtain ⟨b, hb, h⟩ := bind_ok.mp h
  intro v hv
  obtain ⟨w, hw, hr⟩ := forall₂_mem_right (relToAbsAll_ok h) hv
  rw [C10_resolve_iff] at hr
  rcases hr with ⟨_, rfl⟩ | ⟨_, _, hr, _⟩
  · exact words_lt _ _ (readBytes_lt hb hm) _ hw
  · exact ht v (List.mem_of_getElem? hr)

theorem checkAll_ok {objs : List HostObj} : ∀ {vs : List Nat}, checkAll objs vs = .ok () → ∀ v ∈ vs, checkIntegrity objs v = .ok ()
  | [], _ => by simp
  | v :: vs, h => by
    unfold checkAll at h
    obtain ⟨u, h1, h⟩ := bind_ok.mp h
    intro x hx
    rcases List.mem_cons.1 hx with rfl | hx
    · exact h1
    · exact checkAll_ok h x hx

theorem checkAll_all {objs : List HostObj} : ∀ {vs : List Nat}, (∀ v ∈ vs, checkIntegrity objs v = .ok ()) → checkAll objs vs = .ok ()
  | [], _ => rfl
  | v :: vs, h => bind_ok.mpr ⟨(), h v (by simp), checkAll_all fun x hx => h x (by simp [hx])⟩

theorem symbolTry_sound {objs : List HostObj} {b : List Nat} {v : Nat} (h : symbolTryFromBytes b = some v) : Sound objs v := by
  constructor
  · unfold symbolTryFromBytes at h
    split at h
    · cases h
    · obtain ⟨n, hn, rfl⟩ := Option.map_eq_some_iff.1 h
      rw [fromBodyAndTag_eq]
      have : Tag.code .SymbolSmall = 14 := rfl
      omega
  · unfold checkIntegrity
    rw [(C02_symbol_round_trip b v h).2.2, notObject_small h]
    rfl

theorem symbolsFromSlices_grows {d : Nat} : ∀ {bs : List (List Nat)} {objs objs' : List HostObj} {ks : List Nat},
    symbolsFromSlices objs bs = .ok (objs', ks) → objs'.length ≤ 2^31 → Grows d objs objs' ∧ ∀ k ∈ ks, Sound objs' k
  | [], objs, objs', ks, h, _ => by cases h; exact ⟨.refl, by simp⟩
  | b :: bs, objs, objs', ks, h, hl => by
    unfold symbolsFromSlices at h
    obtain ⟨⟨objs₁, k⟩, h1, h⟩ := bind_ok.mp h
    obtain ⟨⟨objs₂, ks'⟩, h2, h⟩ := bind_ok.mp h
    cases h
    obtain ⟨hg, hk⟩ := symbolsFromSlices_grows (d := d) h2 hl
    obtain ⟨e, he⟩ := hg.append
    unfold symbolFromSlice at h1
    cases hx : symbolTryFromBytes b with
    | some v =>
      rw [hx] at h1
      cases h1
      refine ⟨hg, ?_⟩
      intro k' hk'
      rcases List.mem_cons.1 hk' with rfl | hk'
      · exact symbolTry_sound hx
      · exact hk k' hk'
    | none =>
      rw [hx] at h1
      obtain ⟨o, ho, h1⟩ := bind_ok.mp h1
      refine ⟨Grows.trans (.add .refl h1 fun _ => newOk_symbol ho) hg, ?_⟩
      intro k' hk'
      rcases List.mem_cons.1 hk' with rfl | hk'
      · have heq := addObj_eq h1
        have hlt : objs.length < 2^31 := by
          have : objs.length + 1 ≤ objs'.length := by rw [he, heq]; simp
          omega
        rw [he]
        exact (addObj_sound hlt h1).2.1.append
      · exact hk k' hk'

theorem isSoundVal_ok {objs : List HostObj} {v : Nat} (h : isSoundVal objs v = true) : checkIntegrity objs v = .ok () := by
  unfold isSoundVal at h
  split at h
  · rename_i hx; exact hx
  · cases h

theorem runM_grows {d : Nat} {l l' : Lin} {f : MFn} {as : List Nat} {r : Ret} (h : runM (fun o => valCmp o d) l f as = .ok (l', r))
    (hl : l'.objs.length ≤ 2^31) (i : TableOk l.objs) (hm : ∀ b ∈ l.mem, b < 256) (ht : ∀ a ∈ l.tbl, Sound l.objs a) :
    Grows d l.objs l'.objs ∧ ∀ b ∈ l'.mem, b < 256 := by
  have hcopy : ∀ {b : Res (List Nat)} {p q n : Nat}, copyTo l b p q n = .ok (l', r) → (∀ c, b = .ok c → ∀ x ∈ c, x < 256) →
      Grows d l.objs l'.objs ∧ ∀ b ∈ l'.mem, b < 256 := by
    intro b p q n h hb
    unfold copyTo at h
    obtain ⟨c, hc, h⟩ := bind_ok.mp h
    obtain ⟨bs, h1, h⟩ := bind_ok.mp h
    obtain ⟨mem, h2, h⟩ := bind_ok.mp h
    cases h
    refine ⟨.refl, writeBytes_lt h2 hm ?_⟩
    unfold bytesOut at h1
    split at h1
    · cases h1
    · split at h1
      · cases h1
        exact fun x hx => hb c hc x (List.mem_of_mem_drop (List.mem_of_mem_take hx))
      · cases h1
  have hnew : ∀ {mk : List Nat → Res HostObj} {p n : Nat}, newFrom l mk p n = .ok (l', r) →
      (∀ b o, mk b = .ok o → (∀ x ∈ b, x < 256) → NewOk d l.objs o) → Grows d l.objs l'.objs ∧ ∀ b ∈ l'.mem, b < 256 := by
    intro mk p n h hmk
    unfold newFrom at h
    obtain ⟨b, hb, h⟩ := bind_ok.mp h
    obtain ⟨o, ho, h⟩ := bind_ok.mp h
    obtain ⟨⟨objs, v⟩, ha, h⟩ := bind_ok.mp h
    cases h
    exact ⟨.add .refl ha fun _ => hmk b o ho (readBytes_lt hb hm), hm⟩
  have hunp : ∀ {mem tbl : List Nat} {p : Nat} {vs : List Nat}, writeVals l.mem l.tbl p vs = .ok (mem, tbl) → ∀ b ∈ mem, b < 256 := by
    intro mem tbl p vs h
    obtain ⟨rs, _, _, _, hw⟩ := writeVals_ok h
    exact writeBytes_lt hw hm (unwords_lt rs)
  unfold runM at h
  split at h
  · exact hcopy h fun c hc => visit_octets i (visitBytes_ok.1 hc)
  · exact hcopy h fun c hc => visit_octets i (visitString_ok.1 hc)
  · exact hcopy h fun c hc => visit_octets i (visitSymbol_ok.1 hc)
  · obtain ⟨b, h1, h⟩ := bind_ok.mp h
    obtain ⟨c, h2, h⟩ := bind_ok.mp h
    obtain ⟨⟨objs, v⟩, ha, h⟩ := bind_ok.mp h
    cases h
    refine ⟨.add .refl ha fun _ => newOk_bytes ?_, hm⟩
    have hb := visit_octets i (visitBytes_ok.1 h1)
    change ∀ x ∈ b, x < 256 at hb
    exact bytesIn_lt h2 hb hm
  · exact hnew h (by intro b o ho hb; cases ho; exact newOk_bytes hb)
  · exact hnew h (by intro b o ho hb; cases ho; exact newOk_string hb)
  · exact hnew h (by intro b o ho _; exact newOk_symbol ho)
  · unfold symbolIndex at h
    obtain ⟨_, _, h⟩ := bind_ok.mp h
    obtain ⟨_, _, h⟩ := bind_ok.mp h
    split at h
    · cases h
      exact ⟨.refl, hm⟩
    · cases h
  · unfold vecNewFrom at h
    obtain ⟨vs, h1, h⟩ := bind_ok.mp h
    obtain ⟨u, hc, h⟩ := bind_ok.mp h
    obtain ⟨hv, h2, h⟩ := bind_ok.mp h
    obtain ⟨⟨objs, v⟩, ha, h⟩ := bind_ok.mp h
    cases h
    have := vecFromIter_eq h2
    subst this
    refine ⟨.add .refl ha fun _ => ⟨trivial, ?_, (by intro m hm; cases hm), (by simp [octets]), (by intro s hs; cases hs)⟩, hm⟩
    exact fun w hw => ⟨readVals_lt h1 hm (fun a ha => (ht a ha).1) w hw, checkAll_ok hc w hw⟩
  · unfold vecUnpackTo at h
    obtain ⟨_, _, h⟩ := bind_ok.mp h
    split at h
    · obtain ⟨⟨mem, tbl⟩, h1, h⟩ := bind_ok.mp h
      cases h
      exact ⟨.refl, hunp h1⟩
    · cases h
  · unfold mapNewFromMem at h
    obtain ⟨bs, h1, h⟩ := bind_ok.mp h
    obtain ⟨⟨objs₁, keys⟩, h2, h⟩ := bind_ok.mp h
    obtain ⟨vals, h3, h⟩ := bind_ok.mp h
    obtain ⟨m, h4, h⟩ := bind_ok.mp h
    obtain ⟨⟨objs₂, v⟩, h5, h⟩ := bind_ok.mp h
    cases h
    have heq := addObj_eq h5
    dsimp only at hl
    obtain ⟨hg, hk⟩ := symbolsFromSlices_grows (d := d) h2 (by rw [heq, List.length_append] at hl; omega)
    obtain ⟨hmm, hs, _⟩ := mapFromSlices_sub h4
    refine ⟨.add hg h5 fun _ => ⟨trivial, ?_, ?_, (by simp [octets]), (by intro s hs; cases hs)⟩, hm⟩
    · intro w hw
      unfold elems at hw
      rcases List.mem_append.1 hw with hw | hw <;> obtain ⟨p, hp, rfl⟩ := List.mem_map.1 hw
      · exact hk _ (hmm p hp).1
      · exact ⟨readVals_lt h3 hm (fun a ha => (ht a ha).1) _ (hmm p hp).2.1, isSoundVal_ok (hmm p hp).2.2⟩
    · intro m' hm'
      cases hm'
      exact hs
  · unfold mapUnpackToMem at h
    obtain ⟨_, _, h⟩ := bind_ok.mp h
    obtain ⟨_, _, h⟩ := bind_ok.mp h
    obtain ⟨_, _, h⟩ := bind_ok.mp h
    obtain ⟨⟨mem, tbl⟩, h1, h⟩ := bind_ok.mp h
    cases h
    exact ⟨.refl, hunp h1⟩
  · cases h

/-- C10 and C54: start a frame with a well-formed object table, sound handles and any memory, and let it make any sequence of host calls
and put any bytes into its memory. Then every object is still well-formed and refers to older objects only, every map is sorted by
the ledger values of its keys, every symbol has at most 32 characters of its alphabet, and every handle of the frame passes the
integrity check. -/
theorem C10_values_stay_sound_memory {d : Nat} {l l' : Lin} (h : MemRun (fun o => valCmp o d) l l') (hl : l'.objs.length ≤ 2^31)
    (hobjs : ObjsOk l.objs) (hsort : MapsSorted l.objs) (htext : ∀ o ∈ l.objs, TextOk o) (htbl : ∀ a ∈ l.tbl, Sound l.objs a)
    (hmem : ∀ b ∈ l.mem, b < 256) :
    ObjsOk l'.objs ∧ MapsSorted l'.objs ∧ (∀ o ∈ l'.objs, TextOk o) ∧ (∀ a ∈ l'.tbl, Sound l'.objs a) ∧ ∀ b ∈ l'.mem, b < 256 := by
  suffices hs : TableOk l'.objs ∧ (∀ a ∈ l'.tbl, Sound l'.objs a) ∧ ∀ b ∈ l'.mem, b < 256 from
    ⟨hs.1.wf, hs.1.sorted, hs.1.text, hs.2.1, hs.2.2⟩
  revert hl
  induction h with
  | refl => exact fun _ => ⟨⟨hobjs, hsort, htext⟩, htbl, hmem⟩
  | code _ hb ih => exact fun hl => ⟨(ih hl).1, (ih hl).2.1, hb⟩
  | @int l₁ l₂ f ws w hrun hw hd ih =>
    intro hl
    obtain ⟨hm, hcase⟩ := dispatchI_cases hd
    rcases hcase with ⟨h1, h2⟩ | ⟨o, v, h1, hci, h2, h3, h4, h5, h6⟩
    · rw [h1] at hl ⊢
      rw [h2, hm]
      exact ih hl
    · have heq := addObj_eq h1
      obtain ⟨i1, i2, i3⟩ := ih (by rw [heq, List.length_append] at hl; omega)
      have hcr := created_of_addObj hl (Nat.le_refl _) h1
      have hold : ∀ a ∈ l₁.tbl, Sound l₂.objs a := by
        intro a ha
        rw [heq]
        exact (i2 a ha).append
      refine ⟨addObj_tableOk (d := d) i1 (newOk_text h4 h3 (h5 hw fun x hx => (i2 x hx).1) h6) h1, ?_, by rw [hm]; exact i3⟩
      rcases h2 with h2 | h2
      · rw [h2]; exact hold
      · rw [h2]
        intro a ha
        rcases List.mem_append.1 ha with ha | ha
        · exact hold a ha
        · rw [List.mem_singleton] at ha
          subst ha
          exact ⟨hcr.2, hci⟩
  | @call l₁ l₂ f ws w hrun hw hd ih =>
    intro hl
    obtain ⟨as, l₃, r, hm, hr, hmem', hobj, ht⟩ := dispatchH_cases hd
    rw [hobj] at hl
    have hres := runH_result hr hl
    obtain ⟨e, he⟩ := hres.objs
    obtain ⟨i1, i2, i3⟩ := ih (by rw [he, List.length_append] at hl; omega)
    have has := marshalArgs_sound i2 hm hw
    have hgr : Grows d l₁.objs l₃.objs ∧ ∀ b ∈ l₃.mem, b < 256 := by
      cases f with
      | obj f =>
        unfold runH at hr
        obtain ⟨⟨objs, r'⟩, h1, hr⟩ := bind_ok.mp hr
        cases hr
        exact ⟨runFn_grows h1 has, i3⟩
      | buf f =>
        unfold runH at hr
        obtain ⟨⟨objs, r'⟩, h1, hr⟩ := bind_ok.mp hr
        cases hr
        exact ⟨runB_grows h1, i3⟩
      | mem f => exact runM_grows hr hl i1 i3 i2
    have hheld : ∀ w, Held l₁ as w → Val.isObject w = true → Sound l₃.objs w := by
      intro w hw hob
      rw [he]
      refine Sound.append ?_
      rcases hw with h | h | h | ⟨c, hc, o, ho, hw⟩
      · rw [h] at hob; cases hob
      · exact has w h
      · exact i2 w h
      · exact (i1.wf.mem (visitObj_mem ho)).2 w hw
    have hold : ∀ a ∈ l₃.tbl, Sound l₃.objs a := by
      obtain ⟨te, hte, htg⟩ := hres.tbl
      intro a ha
      rw [hte] at ha
      rcases List.mem_append.1 ha with ha | ha
      · rw [he]; exact (i2 a ha).append
      · exact hheld a (htg a ha).1 (htg a ha).2
    refine ⟨by rw [hobj]; exact hgr.1.tableOk i1, ?_, by rw [hmem']; exact hgr.2⟩
    rw [hobj]
    rcases ht with h | ⟨v, hv, hob, hci, h⟩
    · rw [h]; exact hold
    · rw [h]
      intro a ha
      rcases List.mem_append.1 ha with ha | ha
      · exact hold a ha
      · rw [List.mem_singleton] at ha
        subst ha
        rcases hres.ret a hv with h | ⟨_, h⟩
        · exact hheld a h hob
        · exact ⟨h, hci⟩

end Soroban.Props
