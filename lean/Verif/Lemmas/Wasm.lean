import Verif.Spec.Wasm
import Verif.Lemmas.Objects
import Mathlib.Data.List.Nodup
/-!
Lemmas on the admission of Wasm code: when each check passes, and that the two linkers resolve the same imports.
-/
namespace Soroban.Wasm
open Soroban.Wasm.Spec

variable {W : Type} {X : Ext W} {H : HostVer}

theorem bind_res {α β : Type} (m : M α) (f : α → M β) : (M.bind m f).res = m.res >>= fun a => (f a).res := by
  unfold M.bind
  cases m.res <;> rfl

theorem bind_charges_ok {α β : Type} {m : M α} {f : α → M β} {a : α} (h : m.res = .ok a) :
    (M.bind m f).charges = m.charges ++ (f a).charges := by
  unfold M.bind
  rw [h]

theorem res_unit_ok {r : Res Unit} {u : Unit} : r = .ok u ↔ r = .ok () := Iff.rfl

/-! ### Versions -/

theorem checkVersion_ok {env : Version} {ledger : Nat} {v : Version} :
    checkVersion env ledger v = .ok () ↔ ledger ≤ env.protocol ∧ Runs env ledger v := by
  unfold checkVersion Runs
  by_cases h1 : ledger ≤ env.protocol
  · rw [if_pos h1]
    by_cases h2 : v.protocol < ledger
    · rw [if_pos h2]
      have h3 : v.protocol ≠ ledger := by omega
      rw [if_neg h3]
      by_cases h4 : v.pre ≠ 0
      · rw [if_pos h4]; simp [h4]
      · rw [if_neg h4]; have : v.pre = 0 := by omega
        simp [h1, this]; omega
    · rw [if_neg h2]
      by_cases h3 : v.protocol = ledger
      · rw [if_pos h3, if_pos h3]
        by_cases h4 : env.pre ≠ v.pre
        · rw [if_pos h4]; simp; intro _ _; exact fun h => h4 h.symm
        · rw [if_neg h4]; have : env.pre = v.pre := by omega
          simp [h1, this]; omega
      · rw [if_neg h3]; simp; omega
  · rw [if_neg h1]; simp; omega

theorem readMeta_ok {data : List Nat} {v : Version} :
    readMeta data = some (.ok v) ↔ ∃ a b c d e f g h rest,
      data = 0 :: 0 :: 0 :: 0 :: a :: b :: c :: d :: e :: f :: g :: h :: rest ∧
      v.protocol = be32 a b c d ∧ v.pre = be32 e f g h := by
  constructor
  · intro hh
    cases data with
    | nil => simp [readMeta] at hh
    | cons x xs =>
      unfold readMeta at hh
      injection hh with hh
      obtain ⟨⟨kind, bs⟩, h1, hh⟩ := bind_ok.mp hh
      by_cases hk : kind = 0
      · dsimp only at hh
        rw [if_pos hk] at hh
        obtain ⟨⟨p, bs2⟩, h2, hh⟩ := bind_ok.mp hh
        obtain ⟨⟨q, bs3⟩, h3, hh⟩ := bind_ok.mp hh
        have key : ∀ {l : List Nat} {n : Nat} {r : List Nat}, readU32 l = .ok (n, r) →
            ∃ a b c d, l = a :: b :: c :: d :: r ∧ n = ((a * 256 + b) * 256 + c) * 256 + d := by
          intro l n r h
          match l, h with
          | a :: b :: c :: d :: rest, h =>
            unfold readU32 at h
            injection h with h
            injection h with ha hb
            exact ⟨a, b, c, d, by rw [hb], ha.symm⟩
        obtain ⟨a1, a2, a3, a4, e1, n1⟩ := key h1
        obtain ⟨b1, b2, b3, b4, e2, n2⟩ := key h2
        obtain ⟨c1, c2, c3, c4, e3, n3⟩ := key h3
        injection hh with hh
        subst hh e2 e3
        refine ⟨b1, b2, b3, b4, c1, c2, c3, c4, bs3, ?_, ?_, ?_⟩
        · rw [e1]
          have : a1 = 0 ∧ a2 = 0 ∧ a3 = 0 ∧ a4 = 0 := by omega
          obtain ⟨rfl, rfl, rfl, rfl⟩ := this
          rfl
        · exact n2
        · exact n3
      · dsimp only at hh
        rw [if_neg hk] at hh
        cases hh
  · rintro ⟨a, b, c, d, e, f, g, h, rest, rfl, hp, hq⟩
    obtain ⟨p, q⟩ := v
    dsimp only at hp hq
    subst hp hq
    rfl

theorem customSection_some {m : Module} {n : Name} {data : List Nat} :
    customSection m n = some data ↔
      ∃ before after, m.customs = before ++ (n, data) :: after ∧ ∀ s ∈ before, s.1 ≠ n := by
  unfold customSection
  rw [List.findSome?_eq_some_iff]
  constructor
  · rintro ⟨l1, a, l2, h1, h2, h3⟩
    by_cases ha : a.1 = n
    · rw [if_pos ha] at h2
      injection h2 with h2
      refine ⟨l1, l2, ?_, fun s hs hn => ?_⟩
      · rw [h1, ← ha, ← h2]
      · have := h3 s hs
        rw [if_pos hn] at this
        cases this
    · rw [if_neg ha] at h2; cases h2
  · rintro ⟨l1, l2, h1, h2⟩
    refine ⟨l1, _, l2, h1, ?_, fun s hs => ?_⟩
    · exact if_pos rfl
    · exact if_neg (h2 s hs)

theorem metaSection_eq : metaSection = metaName := by decide

theorem checkMeta_ok {env : Version} {ledger : Nat} {m : Module} {v : Version} :
    checkMeta env ledger m = .ok v ↔ Declares m v ∧ ledger ≤ env.protocol ∧ Runs env ledger v := by
  constructor
  · intro h
    unfold checkMeta at h
    rw [metaSection_eq] at h
    cases hc : customSection m metaName with
    | none => rw [hc] at h; cases h
    | some data =>
      rw [hc] at h; dsimp only at h
      cases hr : readMeta data with
      | none => rw [hr] at h; cases h
      | some r =>
        rw [hr] at h; dsimp only at h
        obtain ⟨v', h1, h⟩ := bind_ok.mp h
        obtain ⟨_, h2, h⟩ := bind_ok.mp h
        injection h with h
        subst h h1
        obtain ⟨a, b, c, d, e, f, g, hh, rest, e1, e2, e3⟩ := readMeta_ok.mp hr
        obtain ⟨bf, af, e4, e5⟩ := customSection_some.mp hc
        subst e1
        exact ⟨⟨bf, af, a, b, c, d, e, f, g, hh, rest, e4, e5, e2, e3⟩, checkVersion_ok.mp h2⟩
  · rintro ⟨⟨bf, af, a, b, c, d, e, f, g, hh, rest, e4, e5, e2, e3⟩, h2⟩
    have hc := customSection_some.mpr ⟨bf, af, e4, e5⟩
    have hr := readMeta_ok.mpr ⟨a, b, c, d, e, f, g, hh, rest, rfl, e2, e3⟩
    unfold checkMeta
    rw [metaSection_eq, hc]; dsimp only
    rw [hr]; dsimp only
    exact bind_ok.mpr ⟨v, rfl, bind_ok.mpr ⟨(), checkVersion_ok.mpr h2, rfl⟩⟩

theorem checkMaxArgs_ok {l : List (Name × ExternTy)} :
    checkMaxArgs l = .ok () ↔ ∀ n ps rs, (n, ExternTy.func ps rs) ∈ l → ps.length ≤ 32 ∧ rs.length ≤ 32 := by
  induction l with
  | nil => simp [checkMaxArgs]
  | cons x xs ih =>
    obtain ⟨n, t⟩ := x
    cases t with
    | func ps rs =>
      unfold checkMaxArgs
      have e : maxVmArgs = 32 := rfl
      rw [e]
      by_cases h1 : rs.length > 32
      · rw [if_pos h1]
        refine ⟨(fun h => nomatch h), fun h => ?_⟩
        have := (h n ps rs (List.mem_cons_self ..)).2
        omega
      · rw [if_neg h1]
        by_cases h2 : ps.length > 32
        · rw [if_pos h2]
          refine ⟨(fun h => nomatch h), fun h => ?_⟩
          have := (h n ps rs (List.mem_cons_self ..)).1
          omega
        · rw [if_neg h2, ih]
          refine ⟨fun h n' ps' rs' hm => ?_, fun h n' ps' rs' hm => h n' ps' rs' (List.mem_cons_of_mem _ hm)⟩
          rcases List.mem_cons.mp hm with h3 | h3
          · injection h3 with _ h3
            injection h3 with h3 h4
            subst h3 h4; omega
          · exact h n' ps' rs' h3
    | _ =>
      unfold checkMaxArgs
      rw [ih]
      refine ⟨fun h n' ps' rs' hm => ?_, fun h n' ps' rs' hm => h n' ps' rs' (List.mem_cons_of_mem _ hm)⟩
      rcases List.mem_cons.mp hm with h3 | h3
      · injection h3 with _ h3; cases h3
      · exact h n' ps' rs' h3

/-- Code that parses, with the version it declares. -/
def Parses (X : Ext W) (env : Version) (ledger : Nat) (w : W) (m : Module) (v : Version) : Prop :=
  X.valid w = true ∧ X.parse w = .ok m ∧ FewArgs m ∧ Declares m v ∧ ledger ≤ env.protocol ∧ Runs env ledger v

theorem parseWasm_ok {env : Version} {ledger : Nat} {w : W} {m : Module} {p : Nat} :
    parseWasm X env ledger w = .ok (m, p) ↔ ∃ v, Parses X env ledger w m v ∧ p = v.protocol := by
  unfold parseWasm Parses
  by_cases hv : X.valid w = true
  · rw [if_pos hv]
    constructor
    · intro h
      obtain ⟨m', h1, h⟩ := bind_ok.mp h
      obtain ⟨_, h2, h⟩ := bind_ok.mp h
      obtain ⟨v, h3, h⟩ := bind_ok.mp h
      injection h with h
      injection h with h4 h5
      subst h4 h5
      exact ⟨v, ⟨hv, h1, checkMaxArgs_ok.mp h2, checkMeta_ok.mp h3⟩, rfl⟩
    · rintro ⟨v, ⟨_, h1, h2, h3⟩, rfl⟩
      exact bind_ok.mpr ⟨m, h1, bind_ok.mpr ⟨(), checkMaxArgs_ok.mpr h2, bind_ok.mpr ⟨v, checkMeta_ok.mpr h3, rfl⟩⟩⟩
  · rw [if_neg hv]
    refine ⟨(fun h => nomatch h), ?_⟩
    rintro ⟨v, ⟨h, _⟩, _⟩
    exact absurd h hv

theorem parsedNew_res {env : Version} {ledger : Nat} {w : W} {c : Costs} :
    (parsedNew X env ledger w c).res = parseWasm X env ledger w >>= fun q => .ok ⟨q.1, q.2, c⟩ := by
  unfold parsedNew
  rw [bind_res]
  show (M.bind _ _).res = _
  rw [bind_res]
  rfl

theorem parsedNew_ok {env : Version} {ledger : Nat} {w : W} {c : Costs} {p : Parsed} :
    (parsedNew X env ledger w c).res = .ok p ↔ ∃ m v, Parses X env ledger w m v ∧ p = ⟨m, v.protocol, c⟩ := by
  rw [parsedNew_res]
  constructor
  · intro h
    obtain ⟨⟨m, q⟩, h1, h⟩ := bind_ok.mp h
    injection h with h
    obtain ⟨v, h2, h3⟩ := parseWasm_ok.mp h1
    dsimp only at h h3
    rw [h3] at h
    exact ⟨m, v, h2, h.symm⟩
  · rintro ⟨m, v, h1, rfl⟩
    exact bind_ok.mpr ⟨(m, v.protocol), parseWasm_ok.mpr ⟨v, h1, rfl⟩, rfl⟩

theorem declares_unique {m : Module} {v v' : Version} (h : Declares m v) (h' : Declares m v') : v = v' := by
  obtain ⟨bf, af, a, b, c, d, e, f, g, hh, rest, e4, e5, e2, e3⟩ := h
  obtain ⟨bf', af', a', b', c', d', e', f', g', hh', rest', e4', e5', e2', e3'⟩ := h'
  have hc := customSection_some.mpr ⟨bf, af, e4, e5⟩
  have hc' := customSection_some.mpr ⟨bf', af', e4', e5'⟩
  rw [hc] at hc'
  injection hc' with hc'
  have hr := readMeta_ok.mpr ⟨a, b, c, d, e, f, g, hh, rest, rfl, e2, e3⟩
  have hr' := readMeta_ok.mpr ⟨a', b', c', d', e', f', g', hh', rest', rfl, e2', e3'⟩
  rw [← hc', hr] at hr'
  injection hr' with hr'
  injection hr'

/-! ### Linking -/

theorem checkHostFn_ok {p l : Nat} {f : HostFn} : checkHostFn p l f = .ok () ↔ AvailableIn f p ∧ AvailableIn f l := by
  obtain ⟨a, b, n, lo, hi⟩ := f
  unfold checkHostFn AvailableIn
  cases lo with
  | none =>
    cases hi with
    | none => simp [Bind.bind, Except.bind]
    | some hi =>
      by_cases h : p > hi ∨ l > hi
      · simp [Bind.bind, Except.bind, h]; omega
      · simp [Bind.bind, Except.bind, h]; omega
  | some lo =>
    by_cases h0 : p < lo ∨ l < lo
    · simp [Bind.bind, Except.bind, h0]; omega
    · cases hi with
      | none => simp [Bind.bind, Except.bind, h0]; omega
      | some hi =>
        by_cases h : p > hi ∨ l > hi
        · simp [Bind.bind, Except.bind, h, h0]; omega
        · simp [Bind.bind, Except.bind, h, h0]; omega

theorem checkFns_ok {p l : Nat} {syms : List (Name × Name)} {fns : List HostFn} :
    checkFns p l syms fns = .ok () ↔ ∀ f ∈ fns, (f.modName, f.name) ∈ syms → AvailableIn f p ∧ AvailableIn f l := by
  induction fns with
  | nil => simp [checkFns]
  | cons f fs ih =>
    have hu : checkFns p l syms (f :: fs) =
        (if (f.modName, f.name) ∈ syms then checkHostFn p l f else .ok ()) >>= fun _ => checkFns p l syms fs := by
      rw [checkFns]; split <;> rfl
    rw [hu, bind_ok]
    by_cases hm : (f.modName, f.name) ∈ syms
    · rw [if_pos hm]
      constructor
      · rintro ⟨_, h1, h2⟩ g hg hs
        rcases List.mem_cons.mp hg with rfl | hg
        · exact checkHostFn_ok.mp h1
        · exact ih.mp h2 g hg hs
      · intro h
        exact ⟨(), checkHostFn_ok.mpr (h f (List.mem_cons_self ..) hm), ih.mpr fun g hg => h g (List.mem_cons_of_mem _ hg)⟩
    · rw [if_neg hm]
      constructor
      · rintro ⟨_, _, h2⟩ g hg hs
        rcases List.mem_cons.mp hg with rfl | hg
        · exact absurd hs hm
        · exact ih.mp h2 g hg hs
      · intro h
        exact ⟨(), rfl, ih.mpr fun g hg => h g (List.mem_cons_of_mem _ hg)⟩

theorem mem_importSymbols {m : Module} {a b : Name} :
    (a, b) ∈ importSymbols m ↔
      ∃ i ∈ m.imports, (∃ ps rs, i.ty = .func ps rs) ∧ i.modName = a ∧ i.name = b ∧ a.length < 10 ∧ b.length < 10 := by
  unfold importSymbols
  rw [List.mem_eraseDups, List.mem_filterMap]
  constructor
  · rintro ⟨i, hi, h⟩
    refine ⟨i, hi, ?_⟩
    cases ht : i.ty with
    | func ps rs =>
      rw [ht] at h; dsimp only at h
      by_cases hl : i.modName.length < 10 ∧ i.name.length < 10
      · rw [if_pos hl] at h
        injection h with h
        injection h with h1 h2
        subst h1 h2
        exact ⟨⟨ps, rs, rfl⟩, rfl, rfl, hl⟩
      · rw [if_neg hl] at h; cases h
    | _ => rw [ht] at h; cases h
  · rintro ⟨i, hi, ⟨ps, rs, ht⟩, rfl, rfl, hl⟩
    refine ⟨i, hi, ?_⟩
    rw [ht]; dsimp only
    exact if_pos hl

theorem defineAll_ok {keep : HostFn → Bool} {fns : List HostFn} {l : Linker}
    (h1 : fns.Pairwise (fun f g => ¬ (f.modName = g.modName ∧ f.name = g.name)))
    (h2 : ∀ f ∈ fns, ∀ g ∈ l, ¬ (g.modName = f.modName ∧ g.name = f.name)) :
    defineAll keep fns l = .ok ((fns.filter keep).reverse ++ l) := by
  induction fns generalizing l with
  | nil => rfl
  | cons f fs ih =>
    rw [List.pairwise_cons] at h1
    unfold defineAll
    cases hk : keep f with
    | false =>
      rw [List.filter_cons_of_neg (by simp [hk])]
      have := ih (l := l) h1.2 (fun g hg => h2 g (List.mem_cons_of_mem _ hg))
      exact bind_ok.mpr ⟨l, rfl, this⟩
    | true =>
      rw [List.filter_cons_of_pos hk]
      have hd : define l f = .ok (f :: l) := by
        unfold define
        refine if_neg ?_
        intro h
        obtain ⟨g, hg, hp⟩ := List.any_eq_true.mp h
        exact h2 f (List.mem_cons_self ..) g hg (by simpa using hp)
      have := ih (l := f :: l) h1.2 (fun g hg g' hg' => by
        rcases List.mem_cons.mp hg' with rfl | hg'
        · exact h1.1 g hg
        · exact h2 g (List.mem_cons_of_mem _ hg) g' hg')
      refine bind_ok.mpr ⟨f :: l, hd, ?_⟩
      show defineAll keep fs (f :: l) = _
      rw [this]
      simp

theorem maximalLinker_ok (hT : TableOk H.fns) : maximalLinker H = .ok H.fns.reverse := by
  unfold maximalLinker
  rw [defineAll_ok hT.1 (fun _ _ g hg => by cases hg)]
  simp

/-- The functions the minimal linker defines. -/
def wanted (H : HostVer) (m : Module) : Linker :=
  (H.fns.filter (fun f => decide ((f.modName, f.name) ∈ importSymbols m))).reverse

theorem minimalLinker_ok (hT : TableOk H.fns) (m : Module) : (minimalLinker H m).res = .ok (wanted H m) := by
  unfold minimalLinker
  rw [bind_res]
  show defineAll _ H.fns [] = _
  rw [defineAll_ok hT.1 (fun _ _ g hg => by cases hg)]
  simp [wanted]

/-- A linker whose definitions are among those of the table. -/
theorem resolve_ok {l : Linker} {is : List Import}
    (hl : l.Pairwise (fun f g => ¬ (f.modName = g.modName ∧ f.name = g.name))) :
    resolve l is = .ok () ↔ ∀ i ∈ is, ∃ f ∈ l, ImportOf f i := by
  induction is with
  | nil => simp [resolve]
  | cons i is ih =>
    have key : (∃ f ∈ l, ImportOf f i) ↔
        ∃ f, l.find? (fun f => decide (f.modName = i.modName ∧ f.name = i.name)) = some f ∧ fnTy f = i.ty := by
      constructor
      · rintro ⟨f, hf, h1, h2, h3⟩
        refine ⟨f, ?_, h3.symm⟩
        clear ih
        induction l with
        | nil => cases hf
        | cons g gs ih2 =>
          rw [List.pairwise_cons] at hl
          rcases List.mem_cons.mp hf with rfl | hf
          · exact List.find?_cons_of_pos (by simp [h1, h2])
          · rw [List.find?_cons_of_neg (by
              have := hl.1 f hf
              simp only [decide_eq_true_eq]
              rintro ⟨e1, e2⟩
              exact this ⟨e1.trans h1.symm, e2.trans h2.symm⟩)]
            exact ih2 hl.2 hf
      · rintro ⟨f, hf, ht⟩
        have h1 := List.mem_of_find?_eq_some hf
        have h2 := List.find?_some hf
        simp only [decide_eq_true_eq] at h2
        exact ⟨f, h1, h2.1, h2.2, ht.symm⟩
    constructor
    · intro h
      unfold resolve at h
      cases hf : l.find? (fun f => decide (f.modName = i.modName ∧ f.name = i.name)) with
      | none => rw [hf] at h; cases h
      | some f =>
        rw [hf] at h; dsimp only at h
        by_cases ht : fnTy f = i.ty
        · rw [if_pos ht] at h
          intro j hj
          rcases List.mem_cons.mp hj with rfl | hj
          · exact key.mpr ⟨f, hf, ht⟩
          · exact ih.mp h j hj
        · rw [if_neg ht] at h; cases h
    · intro h
      obtain ⟨f, hf, ht⟩ := key.mp (h i (List.mem_cons_self ..))
      unfold resolve
      rw [hf]; dsimp only
      rw [if_pos ht]
      exact ih.mpr fun j hj => h j (List.mem_cons_of_mem _ hj)

theorem resolve_err {l : Linker} {is : List Import} {e : Err} (h : resolve l is = .error e) : e = .host .wasmVm .invalidAction := by
  induction is with
  | nil => cases h
  | cons i is ih =>
    unfold resolve at h
    cases hf : l.find? (fun f => decide (f.modName = i.modName ∧ f.name = i.name)) with
    | none => rw [hf] at h; injection h with h; exact h.symm
    | some f =>
      rw [hf] at h; dsimp only at h
      by_cases ht : fnTy f = i.ty
      · rw [if_pos ht] at h; exact ih h
      · rw [if_neg ht] at h; injection h with h; exact h.symm

theorem pairwise_ne {l : List HostFn} (h : l.Pairwise (fun f g => ¬ (f.modName = g.modName ∧ f.name = g.name)))
    {f g : HostFn} (hf : f ∈ l) (hg : g ∈ l) (hne : f ≠ g) : ¬ (f.modName = g.modName ∧ f.name = g.name) := by
  induction l with
  | nil => cases hf
  | cons x xs ih =>
    rw [List.pairwise_cons] at h
    rcases List.mem_cons.mp hf with rfl | hf'
    · rcases List.mem_cons.mp hg with rfl | hg
      · exact absurd rfl hne
      · exact h.1 g hg
    · rcases List.mem_cons.mp hg with rfl | hg
      · exact fun e => h.1 f hf' ⟨e.1.symm, e.2.symm⟩
      · exact ih h.2 hf' hg

theorem pairwise_reverse {l : List HostFn} (h : l.Pairwise (fun f g => ¬ (f.modName = g.modName ∧ f.name = g.name))) :
    l.reverse.Pairwise (fun f g => ¬ (f.modName = g.modName ∧ f.name = g.name)) := by
  rw [List.pairwise_reverse]
  exact h.imp fun h1 h2 => h1 ⟨h2.1.symm, h2.2.symm⟩

theorem resolve_max (hT : TableOk H.fns) {is : List Import} :
    resolve H.fns.reverse is = .ok () ↔ ∀ i ∈ is, ∃ f ∈ H.fns, ImportOf f i := by
  rw [resolve_ok (pairwise_reverse hT.1)]
  simp only [List.mem_reverse]

/-- The two linkers resolve the same modules. -/
theorem resolve_min (hT : TableOk H.fns) (m : Module) : resolve (wanted H m) m.imports = resolve H.fns.reverse m.imports := by
  have hp : (wanted H m).Pairwise (fun f g => ¬ (f.modName = g.modName ∧ f.name = g.name)) :=
    pairwise_reverse (hT.1.filter _)
  have e : resolve (wanted H m) m.imports = .ok () ↔ resolve H.fns.reverse m.imports = .ok () := by
    rw [resolve_ok hp, resolve_max hT]
    constructor
    · intro h i hi
      obtain ⟨f, hf, h1⟩ := h i hi
      exact ⟨f, (List.mem_filter.mp (List.mem_reverse.mp hf)).1, h1⟩
    · intro h i hi
      obtain ⟨f, hf, h1⟩ := h i hi
      refine ⟨f, List.mem_reverse.mpr (List.mem_filter.mpr ⟨hf, ?_⟩), h1⟩
      rw [decide_eq_true_eq, mem_importSymbols]
      exact ⟨i, hi, ⟨_, _, h1.2.2⟩, h1.1.symm, h1.2.1.symm, hT.2 f hf⟩
  cases h1 : resolve (wanted H m) m.imports with
  | ok u => exact (e.mp h1).symm
  | error x =>
    cases h2 : resolve H.fns.reverse m.imports with
    | ok u => rw [e.mpr h2] at h1; cases h1
    | error y => rw [resolve_err h1, resolve_err h2]

/-! ### Instantiation -/

theorem checkLedger_ok {ledger : Nat} : checkLedger H ledger = .ok () ↔ ledger = H.env.protocol := by
  unfold checkLedger
  by_cases h1 : ledger < H.env.protocol
  · rw [if_pos h1]; exact ⟨(fun h => nomatch h), fun h => by omega⟩
  · rw [if_neg h1]
    by_cases h2 : ledger > H.env.protocol
    · rw [if_pos h2]; exact ⟨(fun h => nomatch h), fun h => by omega⟩
    · rw [if_neg h2]; exact ⟨fun _ => by omega, fun _ => rfl⟩

theorem instantiateWasmi_res {ledger : Nat} {p : Parsed} {l : Linker} :
    (instantiateWasmi X H ledger p l).res = (do
      checkFns p.proto ledger (importSymbols p.module) H.fns
      resolve l p.module.imports
      X.alloc p.module
      if p.module.start then .error (.host .wasmVm .invalidAction) else .ok ()) := by
  unfold instantiateWasmi checkImports
  simp only [bind_res, M.charge, M.lift, M.ok]
  cases checkFns p.proto ledger (importSymbols p.module) H.fns with
  | error e => rfl
  | ok _ =>
    cases resolve l p.module.imports with
    | error e => rfl
    | ok _ =>
      cases X.alloc p.module with
      | error e => rfl
      | ok _ => cases p.module.start <;> rfl

theorem fromParsed_res {ledger contract : Nat} {p : Parsed} {l : Linker} :
    (fromParsed X H ledger contract p l).res = (do
      checkLedger H ledger
      (instantiateWasmi X H ledger p l).res
      .ok ⟨contract, p⟩) := by
  unfold fromParsed
  simp only [bind_res, M.lift, M.ok]

theorem fromParsed_ok {ledger contract : Nat} {p : Parsed} {l : Linker} {vm : Vm} :
    (fromParsed X H ledger contract p l).res = .ok vm ↔
      vm = ⟨contract, p⟩ ∧ ledger = H.env.protocol ∧ checkFns p.proto ledger (importSymbols p.module) H.fns = .ok () ∧
      resolve l p.module.imports = .ok () ∧ X.alloc p.module = .ok () ∧ p.module.start = false := by
  rw [fromParsed_res, instantiateWasmi_res]
  constructor
  · intro h
    obtain ⟨_, h1, h⟩ := bind_ok.mp h
    obtain ⟨_, h2, h⟩ := bind_ok.mp h
    obtain ⟨_, h3, h2⟩ := bind_ok.mp h2
    obtain ⟨_, h4, h2⟩ := bind_ok.mp h2
    obtain ⟨_, h5, h2⟩ := bind_ok.mp h2
    injection h with h
    refine ⟨h.symm, checkLedger_ok.mp h1, h3, h4, h5, ?_⟩
    cases hs : p.module.start with
    | false => rfl
    | true => rw [hs] at h2; cases h2
  · rintro ⟨rfl, h1, h2, h3, h4, h5⟩
    exact bind_ok.mpr ⟨(), checkLedger_ok.mpr h1, bind_ok.mpr ⟨(), bind_ok.mpr ⟨(), h2, bind_ok.mpr ⟨(), h3,
      bind_ok.mpr ⟨(), h4, by rw [h5]; rfl⟩⟩⟩, rfl⟩⟩

/-- Both linkers give the same result. -/
theorem fromParsed_linkers (hT : TableOk H.fns) {ledger contract : Nat} {p : Parsed} :
    (fromParsed X H ledger contract p (wanted H p.module)).res = (fromParsed X H ledger contract p H.fns.reverse).res := by
  rw [fromParsed_res, fromParsed_res, instantiateWasmi_res, instantiateWasmi_res, resolve_min hT]

theorem newWithCosts_res (hT : TableOk H.fns) {ledger contract : Nat} {w : W} {c : Costs} :
    (newWithCosts X H ledger contract w c).res =
      (parsedNew X H.env ledger w c).res >>= fun p => (fromParsed X H ledger contract p H.fns.reverse).res := by
  unfold newWithCosts
  rw [bind_res]
  congr 1
  funext p
  rw [bind_res, minimalLinker_ok hT]
  exact fromParsed_linkers hT

/-- The imports check and the resolution together. -/
theorem imports_ok (hT : TableOk H.fns) {m : Module} {proto ledger : Nat} :
    (checkFns proto ledger (importSymbols m) H.fns = .ok () ∧ resolve H.fns.reverse m.imports = .ok ()) ↔
      ∀ i ∈ m.imports, ∃ f ∈ H.fns, ImportOf f i ∧ AvailableIn f proto ∧ AvailableIn f ledger := by
  rw [checkFns_ok, resolve_max hT]
  constructor
  · rintro ⟨h1, h2⟩ i hi
    obtain ⟨f, hf, h3⟩ := h2 i hi
    refine ⟨f, hf, h3, h1 f hf ?_⟩
    rw [mem_importSymbols]
    exact ⟨i, hi, ⟨_, _, h3.2.2⟩, h3.1.symm, h3.2.1.symm, hT.2 f hf⟩
  · intro h
    refine ⟨fun f hf hs => ?_, fun i hi => ?_⟩
    · obtain ⟨i, hi, _, h1, h2, _⟩ := mem_importSymbols.mp hs
      obtain ⟨g, hg, h3, h4⟩ := h i hi
      have : f = g := by
        by_contra hne
        exact pairwise_ne hT.1 hf hg hne ⟨h1.symm.trans h3.1.symm, h2.symm.trans h3.2.1.symm⟩
      rw [this]; exact h4
    · obtain ⟨g, hg, h3, _⟩ := h i hi
      exact ⟨g, hg, h3⟩

theorem newWithCosts_ok (hT : TableOk H.fns) {ledger contract : Nat} {w : W} {c : Costs} {vm : Vm} :
    (newWithCosts X H ledger contract w c).res = .ok vm ↔
      ∃ m v, Admitted X H ledger w m v ∧ vm = ⟨contract, ⟨m, v.protocol, c⟩⟩ := by
  rw [newWithCosts_res hT]
  constructor
  · intro h
    obtain ⟨p, h1, h⟩ := bind_ok.mp h
    obtain ⟨m, v, ⟨a1, a2, a3, a4, a5, a6⟩, rfl⟩ := parsedNew_ok.mp h1
    obtain ⟨h2, h3, h4, h5, h6, h7⟩ := fromParsed_ok.mp h
    exact ⟨m, v, ⟨a1, a2, a3, a4, h3, a6, (imports_ok hT).mp ⟨h4, h5⟩, h7, h6⟩, h2⟩
  · rintro ⟨m, v, ha, rfl⟩
    have hi := (imports_ok hT).mpr ha.imports
    refine bind_ok.mpr ⟨⟨m, v.protocol, c⟩, parsedNew_ok.mpr ⟨m, v, ⟨ha.valid, ha.parses, ha.fewArgs, ha.declares,
      Nat.le_of_eq ha.supported, ha.runs⟩, rfl⟩, fromParsed_ok.mpr ⟨rfl, ha.supported, hi.1, hi.2, ha.allocates, ha.noStart⟩⟩

end Soroban.Wasm
