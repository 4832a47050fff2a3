import Verif.Lemmas.LedgerKey
import Verif.Props.Maps
import Verif.Props.Compare
/-!
C76: ledger keys are told apart and ordered, so that storage and footprint are maps from keys. C77: an authorization matches a call
exactly when they say the same.

`keyOrd` (Spec/LedgerKey.lean) is the order by kind of entry, then field by field. `KeyOk` are the keys of supported kinds.
-/
namespace Soroban.Props
open Soroban.Spec Soroban.Keys Soroban.Keys.Spec

/-- C76: comparing two keys gives their order, or fails because a value nests too deep; it does not fail within the depth left. -/
theorem C76_compare {a b : LKey} (ha : KeyOk a) (hb : KeyOk b) (d : Nat) :
    (keyCmp d a b = .ok (keyOrd a b) ∨ keyCmp d a b = .error (.host .context .exceededLimit)) ∧
    (Shallow d a → Shallow d b → keyCmp d a b = .ok (keyOrd a b)) :=
  keyCmp_any ha hb d

/-- C76: the order is a total order in which only equal keys are equal. Stated on answers of the comparison. -/
theorem C76_total_order {a b c : LKey} (ha : KeyOk a) (hb : KeyOk b) (hc : KeyOk c) (d : Nat) {oab oba obc oac : Ordering}
    (hab : keyCmp d a b = .ok oab) (hba : keyCmp d b a = .ok oba) (hbc : keyCmp d b c = .ok obc) (hac : keyCmp d a c = .ok oac) :
    (oab = .eq ↔ a = b) ∧ oba = oab.swap ∧
    (oab = .lt → obc ≠ .gt → oac = .lt) ∧ (oab ≠ .gt → obc = .lt → oac = .lt) ∧ (oab = .eq → oac = obc) := by
  have key : ∀ {x y : LKey} {o}, KeyOk x → KeyOk y → keyCmp d x y = .ok o → o = keyOrd x y := by
    intro x y o hx hy h
    rcases (keyCmp_any hx hy d).1 with e | e <;> rw [e] at h <;> cases h
    rfl
  rw [key ha hb hab, key hb ha hba, key hb hc hbc, key ha hc hac]
  refine ⟨keyOrd_eq ha hb, Std.OrientedCmp.eq_swap, fun h1 h2 => ?_, fun h1 h2 => ?_, fun h => ?_⟩
  · have h2' : (keyOrd b c).isLE := by cases h : keyOrd b c <;> simp_all
    exact Std.TransCmp.lt_of_lt_of_isLE h1 h2'
  · have h1' : (keyOrd a b).isLE := by cases h : keyOrd a b <;> simp_all
    exact Std.TransCmp.lt_of_isLE_of_lt h1' h2
  · rw [(keyOrd_eq ha hb).mp h]

/-- C76: keys of other kinds are refused, on either side. -/
theorem C76_unsupported {a b : LKey} (h : ¬ Supported a ∨ ¬ Supported b) (d : Nat) :
    keyCmp d a b = .error (.host .storage .internalError) := by
  have key : ∀ {k : LKey}, ¬ Supported k → checkSupported k = .error (.host .storage .internalError) := by
    intro k hk
    cases k <;> first | rfl | (exact absurd (by simp [Supported, LKey.kind]) hk)
  unfold keyCmp
  cases ha : checkSupported a with
  | error e =>
    have : e = .host .storage .internalError := by
      cases a <;> simp only [checkSupported] at ha <;> cases ha <;> rfl
    rw [this]; rfl
  | ok u =>
    rcases h with h | h
    · rw [key h] at ha; cases ha
    · rw [key h]; rfl

instance keyOrdSub_trans {d : Nat} : Std.TransCmp (fun a b : GoodKey d => keyOrd a.1 b.1) where
  eq_swap := Std.OrientedCmp.eq_swap (cmp := keyOrd)
  isLE_trans := Std.TransCmp.isLE_trans (cmp := keyOrd)

theorem lastWrite_said {V : Type} {d : Nat} (k : GoodKey d) : ∀ ops : List (MapOp (GoodKey d) V),
    lastWrite (fun a b : GoodKey d => keyOrd a.1 b.1) k ops = lastSaid k.1 ops
  | [] => rfl
  | .put k' v :: ops => by
    have he := keyOrd_eq k'.2.1 k.2.1
    simp only [lastWrite, lastSaid, lastWrite_said k ops]
    by_cases h : k'.1 = k.1
    · rw [if_pos (he.mpr h), if_pos h]
    · rw [if_neg (fun e => h (he.mp e)), if_neg h]
  | .del k' :: ops => by
    have he := keyOrd_eq k'.2.1 k.2.1
    simp only [lastWrite, lastSaid, lastWrite_said k ops]
    by_cases h : k'.1 = k.1
    · rw [if_pos (he.mpr h), if_pos h]
    · rw [if_neg (fun e => h (he.mp e)), if_neg h]

/-- C76: the ordered map the host keeps ledger entries in is a map from keys: after any history of writes and deletes, reading a key
gives what was last said about that very key. -/
theorem C76_map {V : Type} {d : Nat} (ops : List (MapOp (GoodKey d) V)) (hb : ops.length ≤ u32Max) (k : GoodKey d) :
    mapGet (fun a b : GoodKey d => keyCmp d a.1 b.1) (ops.foldr (fun op m => applyOp (fun a b => keyCmp d a.1 b.1) m op) mapNew) k =
      match lastSaid k.1 ops with
      | some v => .ok v
      | none => .error (.host .object .missingValue) := by
  have hc : Computes (fun a b : GoodKey d => keyCmp d a.1 b.1) (fun a b => keyOrd a.1 b.1) :=
    fun a b => (keyCmp_any a.2.1 b.2.1 d).2 a.2.2 b.2.2
  rw [C06_history hc ops hb k, lastWrite_said]
  cases lastSaid k.1 ops <;> rfl

/-- C77: whether an authorized function is that of a call is decided by what the two say, in ledger values. The comparison answers
that they are equal exactly when they say the same, whatever objects they are made of. If it fails, a value nests deeper than the
depth left. -/
theorem C77_match {objs : List HostObj} (ho : ObjsOk objs) {f g : AuthFn} {m n : Meaning} (hf : Means objs f m) (hg : Means objs g n)
    (d : Nat) :
    (∀ o, fnCmp objs d f g = .ok o → (o = .eq ↔ m = n)) ∧
    (∀ e, fnCmp objs d f g = .error e → e = .host .context .exceededLimit) ∧
    (Flat objs d f → Flat objs d g → ∃ o, fnCmp objs d f g = .ok o) := by
  have fin : ∀ {p : Prop}, Tells True (fnCmp objs d f g) p → (p ↔ m = n) →
      (Flat objs d f → Flat objs d g → Tells False (fnCmp objs d f g) p) →
      (∀ o, fnCmp objs d f g = .ok o → (o = .eq ↔ m = n)) ∧
      (∀ e, fnCmp objs d f g = .error e → e = .host .context .exceededLimit) ∧
      (Flat objs d f → Flat objs d g → ∃ o, fnCmp objs d f g = .ok o) := by
    intro p h hp h'
    refine ⟨fun o e => ?_, fun r e => ?_, fun h1 h2 => ?_⟩
    · rcases h with ⟨o', ho', hi⟩ | ⟨_, h⟩
      · rw [e] at ho'; cases ho'; rw [hi, hp]
      · rw [e] at h; cases h
    · rcases h with ⟨o', ho', hi⟩ | ⟨_, h⟩
      · rw [e] at ho'; cases ho'
      · rw [e] at h; cases h; rfl
    · rcases h' h1 h2 with ⟨o', ho', _⟩ | ⟨h, _⟩
      · exact ⟨o', ho'⟩
      · exact h.elim
  have conv : ∀ {v : Nat} {s : ScVal}, Denotes objs v s → (∃ t, fromVal false objs d v = .ok t) → fromVal false objs d v = .ok s := by
    rintro v s h ⟨t, ht⟩
    rw [h.unique ⟨d, ht⟩]; exact ht
  have convs : ∀ {l : List Nat} {s : List ScVal}, List.Forall₂ (fun v s => Sound objs v ∧ Denotes objs v s) l s →
      (∀ v ∈ l, ∃ t, fromVal false objs d v = .ok t) →
      List.Forall₂ (fun v s => Sound objs v ∧ fromVal false objs d v = .ok s) l s := by
    intro l s h
    induction h with
    | nil => exact fun _ => .nil
    | cons h1 _ ih => exact fun h => .cons ⟨h1.1, conv h1.2 (h _ (by simp))⟩ (ih fun v hv => h v (by simp [hv]))
  cases f with
  | call c nm a =>
    cases m with
    | create _ => exact hf.elim
    | call sc sn sa =>
      cases g with
      | create b =>
        cases n with
        | call _ _ _ => exact hg.elim
        | create b' => exact fin (p := False) (Or.inl ⟨.lt, rfl, by simp⟩) (by simp) fun _ _ => Or.inl ⟨.lt, rfl, by simp⟩
      | call c' nm' a' =>
        cases n with
        | create _ => exact hg.elim
        | call sc' sn' sa' =>
          refine fin (tells_call (fun a b x y h1 h2 => tells_val ho h1 h2 d) hf.1 hf.2.1 hf.2.2 hg.1 hg.2.1 hg.2.2) (by simp)
            fun h1 h2 => ?_
          exact tells_call (R := fun v s => Sound objs v ∧ fromVal false objs d v = .ok s) (fun a b x y h1 h2 => tells_val' ho h1 h2)
            ⟨hf.1.1, conv hf.1.2 (h1 _ (by simp))⟩ ⟨hf.2.1.1, conv hf.2.1.2 (h1 _ (by simp))⟩
            (convs hf.2.2 fun v hv => h1 v (by simp [hv])) ⟨hg.1.1, conv hg.1.2 (h2 _ (by simp))⟩
            ⟨hg.2.1.1, conv hg.2.1.2 (h2 _ (by simp))⟩ (convs hg.2.2 fun v hv => h2 v (by simp [hv]))
  | create a =>
    cases m with
    | call _ _ _ => exact hf.elim
    | create a' =>
      cases g with
      | call c nm b =>
        cases n with
        | create _ => exact hg.elim
        | call _ _ _ => exact fin (p := False) (Or.inl ⟨.gt, rfl, by simp⟩) (by simp) fun _ _ => Or.inl ⟨.gt, rfl, by simp⟩
      | create b =>
        cases n with
        | call _ _ _ => exact hg.elim
        | create b' =>
          obtain ⟨rfl, ha⟩ := hf
          obtain ⟨rfl, hb⟩ := hg
          refine fin (p := a = b) (tells_create (fun x y h1 h2 => tells_sc h1 h2 d) ha hb) (by simp) fun h1 h2 => ?_
          exact tells_create (P := fun s => XdrOk s ∧ Comparable d s) (fun x y h1 h2 => tells_sc' h1 h2)
            (fun s hs => ⟨(ha s hs).1, h1 s hs⟩) (fun s hs => ⟨(hb s hs).1, h2 s hs⟩)

/-- C77: what is compared says something, and one thing only. -/
theorem C77_meaning {objs : List HostObj} (ho : ObjsOk objs) {c nm : Nat} {a : List Nat}
    (h : ∀ v ∈ c :: nm :: a, Sound objs v) : ∃ m, Means objs (.call c nm a) m ∧ ∀ n, Means objs (.call c nm a) n → n = m := by
  obtain ⟨sc, hc⟩ := denotes_total ho (h c (by simp))
  obtain ⟨sn, hn⟩ := denotes_total ho (h nm (by simp))
  have hl : ∀ {l : List Nat}, (∀ v ∈ l, Sound objs v) → ∃ s, List.Forall₂ (fun v s => Sound objs v ∧ Denotes objs v s) l s := by
    intro l
    induction l with
    | nil => exact fun _ => ⟨[], .nil⟩
    | cons v l ih =>
      intro h
      obtain ⟨s, hs⟩ := ih fun w hw => h w (by simp [hw])
      obtain ⟨t, ht⟩ := denotes_total ho (h v (by simp))
      exact ⟨t :: s, .cons ⟨h v (by simp), ht⟩ hs⟩
  have hu : ∀ {l : List Nat} {s t : List ScVal}, List.Forall₂ (fun v s => Sound objs v ∧ Denotes objs v s) l s →
      List.Forall₂ (fun v s => Sound objs v ∧ Denotes objs v s) l t → s = t := by
    intro l s t h
    induction h generalizing t with
    | nil => intro h; cases h; rfl
    | cons h1 _ ih => intro h; cases h with | cons h2 h3 => rw [h1.2.unique h2.2, ih h3]
  obtain ⟨sa, ha⟩ := hl (l := a) fun v hv => h v (by simp [hv])
  refine ⟨.call sc sn sa, ⟨⟨h c (by simp), hc⟩, ⟨h nm (by simp), hn⟩, ha⟩, fun n hn' => ?_⟩
  cases n with
  | create _ => exact hn'.elim
  | call sc' sn' sa' => rw [hn'.1.2.unique hc, hn'.2.1.2.unique hn, hu hn'.2.2 ha]

/-! ### non-vacuity -/

def exNested : ScVal := .vec (some [.symbol [66], .address (.account 7)])

theorem exNested_ok : XdrOk exNested ∧ Comparable 2 exNested := by
  refine ⟨.mk trivial fun x hx => ?_, ?_⟩
  · have hx : x = .symbol [66] ∨ x = .address (.account 7) := by simpa [exNested, children] using hx
    rcases hx with rfl | rfl <;> exact .mk trivial (by simp [children])
  · simp [Comparable, children, exNested]

def exKey (t : Durability) : GoodKey 2 :=
  ⟨.contractData (.contract 5) exNested t, ⟨exNested_ok.1, 2, exNested_ok.2⟩, exNested_ok.2⟩

def exLine (code : List Nat) (h : code.length = 4) : GoodKey 2 := ⟨.trustline 9 (.alpha4 code 3), h, trivial⟩

/-- C76: the same key with another durability is another key, and the temporary one comes first; trustlines come before data. -/
example : keyCmp 2 (exKey .temporary).1 (exKey .persistent).1 = .ok .lt ∧
    keyCmp 2 (exKey .persistent).1 (exKey .persistent).1 = .ok .eq ∧
    keyCmp 2 (exKey .persistent).1 (exLine [1, 2, 3, 4] rfl).1 = .ok .gt ∧
    keyCmp 1 (exKey .persistent).1 (exKey .persistent).1 = .error (.host .context .exceededLimit) ∧
    keyCmp 2 (exKey .persistent).1 (.ttl 5) = .error (.host .storage .internalError) := by
  refine ⟨?_, ?_, rfl, rfl, rfl⟩
  · rw [(C76_compare (exKey .temporary).2.1 (exKey .persistent).2.1 2).2 (exKey .temporary).2.2 (exKey .persistent).2.2]
    simp [keyOrd, exKey, scOrd_self]
    decide
  · rw [(C76_compare (exKey .persistent).2.1 (exKey .persistent).2.1 2).2 (exKey .persistent).2.2 (exKey .persistent).2.2,
      (keyOrd_eq (exKey .persistent).2.1 (exKey .persistent).2.1).mpr rfl]

/-- C76: a history with two keys that differ in their durability only. -/
example : mapGet (fun a b : GoodKey 2 => keyCmp 2 a.1 b.1)
    ([.del (exKey .persistent), .put (exKey .temporary) 8, .put (exKey .persistent) 7].foldr
      (fun op m => applyOp (fun a b => keyCmp 2 a.1 b.1) m op) mapNew) (exKey .temporary) = .ok 8 := by
  rw [C76_map _ (by decide)]
  simp [lastSaid, exKey]

def exTable2 : List HostObj := exTable ++ [.address (.contract 5)]

/-- C77: a call whose name is inline and one whose name is an object with the same text are the same. -/
example : ∃ v, symbolTryFromBytes [97, 98] = some v ∧
    fnCmp exTable2 100 (.call (valObject 11 .AddressObject) (valObject 3 .SymbolObject) [valObject 5 .VecObject])
      (.call (valObject 11 .AddressObject) v [valObject 5 .VecObject]) = .ok .eq ∧
    fnCmp exTable2 100 (.call (valObject 11 .AddressObject) (valObject 3 .SymbolObject) [valObject 5 .VecObject])
      (.call (valObject 11 .AddressObject) v [valObject 7 .VecObject]) = .ok .lt :=
  ⟨_, rfl, rfl, rfl⟩

/-- C77: creations that differ in one constructor argument are different. -/
example : createCmp 2 ⟨.address (.account 1) [2], .wasm [3], [.u32 4]⟩ ⟨.address (.account 1) [2], .wasm [3], [.u32 5]⟩ = .ok .lt ∧
    createCmp 2 ⟨.address (.account 1) [2], .wasm [3], [.u32 4]⟩ ⟨.address (.account 1) [2], .wasm [3], [.u32 4]⟩ = .ok .eq ∧
    createCmp 2 ⟨.address (.account 1) [2], .wasm [3], [.u32 4]⟩ ⟨.asset .native, .asset, []⟩ = .ok .lt := by
  refine ⟨rfl, rfl, rfl⟩

end Soroban.Props
