import Verif.Lemmas.Usable
import Verif.Props.Maps
import Verif.Props.Vectors
import Verif.Props.Compare
/-!
C06-C09 for the values contracts really use: maps and vectors of host words compared with the host's own comparison. The
order is the order of the ledger values the words stand for (C05).
-/
namespace Soroban.Props
open Spec

variable {V : Type} {objs : List HostObj} {d : Nat} {f : Nat → ScVal}

/-- The word `w` is a sound host value that stands for the ledger value `f w`, nested at most `d` deep. -/
def ReadsAs (objs : List HostObj) (d : Nat) (f : Nat → ScVal) (w : Nat) : Prop :=
  Sound objs w ∧ fromVal false objs d w = .ok (f w)

/-- The order of the ledger values. -/
def byValue (f : Nat → ScVal) (a b : Nat) : Ordering := scOrd (f a) (f b)

instance : Std.TransCmp (byValue f) where
  eq_swap {a b} := by
    unfold byValue; exact Std.OrientedCmp.eq_swap (cmp := scOrd)
  isLE_trans {a b c} h1 h2 := by
    unfold byValue at *; exact Std.TransCmp.isLE_trans (cmp := scOrd) h1 h2

theorem byValue_computes : Computes (fun a b => .ok (byValue f a b)) (byValue f) := fun _ _ => rfl

theorem readsAs_cmp (hobjs : ObjsOk objs) (a b : Nat) (ha : ReadsAs objs d f a) (hb : ReadsAs objs d f b) :
    valCmp objs d a b = .ok (byValue f a b) := valCmp_spec hobjs ha.1 hb.1 ha.2 hb.2

theorem ReadsAs.mono {objs' : List HostObj} {w : Nat} (hp : objs <+: objs') (h : ReadsAs objs d f w) : ReadsAs objs' d f w := by
  obtain ⟨extra, rfl⟩ := hp
  exact ⟨h.1.append, fromVal_append h.2⟩

/-- Two words are the same key exactly when they stand for the same ledger value. -/
theorem byValue_eq_iff (hobjs : ObjsOk objs) {a b : Nat} (ha : ReadsAs objs d f a) (hb : ReadsAs objs d f b) :
    byValue f a b = .eq ↔ f a = f b :=
  scOrd_eq_iff (denotes_xdrOk hobjs ha.1 ⟨d, ha.2⟩) (denotes_xdrOk hobjs hb.1 ⟨d, hb.2⟩)

/-- The key of a write. -/
def opKey : MapOp Nat V → Nat
  | .put k _ => k
  | .del k => k

theorem applyOp_keys {cmp : Nat → Nat → Res Ordering} {m : List (Nat × V)} {op : MapOp Nat V} :
    ∀ p ∈ applyOp cmp m op, p ∈ m ∨ p.1 = opKey op := by
  intro p hp
  cases op with
  | put k v =>
    simp only [applyOp] at hp
    cases h : mapPut cmp m k v with
    | error e => rw [h] at hp; exact Or.inl hp
    | ok m' => rw [h] at hp; exact mapPut_keys h p hp
  | del k =>
    simp only [applyOp] at hp
    cases h : mapDel cmp m k with
    | error e => rw [h] at hp; exact Or.inl hp
    | ok m' => rw [h] at hp; exact Or.inl (mapDel_keys h p hp)

theorem applyOp_congr {cmp cmp' : Nat → Nat → Res Ordering} {S : Nat → Prop} (hS : ∀ a b, S a → S b → cmp a b = cmp' a b)
    {m : List (Nat × V)} (hm : ∀ p ∈ m, S p.1) {op : MapOp Nat V} (hk : S (opKey op)) : applyOp cmp m op = applyOp cmp' m op := by
  cases op with
  | put k v => simp only [applyOp, mapPut_congr hS hm (show S k from hk)]
  | del k => simp only [applyOp, mapDel_congr hS hm (show S k from hk)]

/-- The map object after a history of writes (newest first), each made when the host's object table was the given one. -/
def hostMap (d : Nat) (ops : List (List HostObj × MapOp Nat V)) : List (Nat × V) :=
  ops.foldr (fun x m => applyOp (valCmp x.1 d) m x.2) mapNew

/-- A history of writes in a host whose object table only grows, with keys that stand for `f k`. -/
def HostHistory (d : Nat) (f : Nat → ScVal) (ops : List (List HostObj × MapOp Nat V)) : Prop :=
  ops.Pairwise (fun newer older => older.1 <+: newer.1) ∧ ∀ x ∈ ops, ObjsOk x.1 ∧ ReadsAs x.1 d f (opKey x.2)

theorem hostMap_eq {ops : List (List HostObj × MapOp Nat V)} (h : HostHistory d f ops) :
    hostMap d ops = (ops.map Prod.snd).foldr (fun op m => applyOp (fun a b => .ok (byValue f a b)) m op) mapNew ∧
    ∀ p ∈ hostMap d ops, ∃ x ∈ ops, p.1 = opKey x.2 := by
  induction ops with
  | nil => exact ⟨rfl, by simp [hostMap, mapNew]⟩
  | cons x ops ih =>
    obtain ⟨hp, hk⟩ := h
    rw [List.pairwise_cons] at hp
    obtain ⟨he, hkeys⟩ := ih ⟨hp.2, fun y hy => hk y (by simp [hy])⟩
    obtain ⟨ho, hx⟩ := hk x (by simp)
    have e1 : hostMap d (x :: ops) = applyOp (valCmp x.1 d) (hostMap d ops) x.2 := rfl
    have e2 : applyOp (valCmp x.1 d) (hostMap d ops) x.2 = applyOp (fun a b => .ok (byValue f a b)) (hostMap d ops) x.2 := by
      refine applyOp_congr (S := ReadsAs x.1 d f) (readsAs_cmp ho) ?_ hx
      intro p hpm
      obtain ⟨y, hy, e⟩ := hkeys p hpm
      rw [e]
      exact (hk y (by simp [hy])).2.mono (hp.1 y hy)
    refine ⟨by rw [e1, e2, he]; rfl, ?_⟩
    intro p hpm
    rw [e1] at hpm
    rcases applyOp_keys p hpm with h | h
    · obtain ⟨y, hy, e⟩ := hkeys p h
      exact ⟨y, by simp [hy], e⟩
    · exact ⟨x, by simp, h⟩

/-- C06 for host values: after any history of `map_put` and `map_del` calls, made at any moments of a host's life, `map_get`
returns what the last write to a key standing for the same ledger value left, and fails exactly when there is none. The keys
of the map are in the order of their ledger values. -/
theorem C06_host_history (ops : List (List HostObj × MapOp Nat V)) (hb : ops.length ≤ u32Max) (h : HostHistory d f ops)
    (hobjs : ObjsOk objs) (hnow : ∀ x ∈ ops, x.1 <+: objs) (k : Nat) (hk : ReadsAs objs d f k) :
    (mapGet (valCmp objs d) (hostMap d ops) k =
      match lastWrite (byValue f) k (ops.map Prod.snd) with
      | some v => .ok v
      | none => .error (.host .object .missingValue)) ∧
    mapHas (valCmp objs d) (hostMap d ops) k = .ok (lastWrite (byValue f) k (ops.map Prod.snd)).isSome ∧
    Ascending (byValue f) (hostMap d ops) := by
  obtain ⟨he, hkeys⟩ := hostMap_eq h
  have hm : ∀ p ∈ hostMap d ops, ReadsAs objs d f p.1 := by
    intro p hp
    obtain ⟨y, hy, e⟩ := hkeys p hp
    rw [e]
    exact (h.2 y hy).2.mono (hnow y hy)
  have hb' : (ops.map Prod.snd).length ≤ u32Max := by simpa using hb
  obtain ⟨ha, _, hmt⟩ := history_inv (byValue_computes (f := f)) (ops.map Prod.snd) hb'
  refine ⟨?_, ?_, ?_⟩
  · rw [mapGet_congr (readsAs_cmp hobjs) hm hk, he]
    exact C06_history byValue_computes _ hb' k
  · obtain ⟨b, h1, h2⟩ := C06_has (byValue_computes (f := f)) _ ha k
    rw [mapHas_congr (readsAs_cmp hobjs) hm hk, he, h1]
    congr 1
    rw [Bool.eq_iff_iff, h2, Option.isSome_iff_exists]
    constructor
    · rintro ⟨p, hp, e⟩
      exact ⟨p.2, (hmt k p.2).1 ⟨p, hp, e, rfl⟩⟩
    · rintro ⟨v, hv⟩
      obtain ⟨p, hp, e, _⟩ := (hmt k v).2 hv
      exact ⟨p, hp, e⟩
  · rw [he]; exact ha

/-- C07 for host values: building a map from key and value lists succeeds exactly when the keys' ledger values strictly
increase and the values are legal; void values are dropped by the sparse form only. -/
theorem C07_host_build (hobjs : ObjsOk objs) (good isVoid : V → Bool) (keys : List Nat) (vals : List V)
    (hk : ∀ k ∈ keys, ReadsAs objs d f k) (m : List (Nat × V)) :
    (mapFromSlices (valCmp objs d) good isVoid false keys vals = .ok m ↔
      keys.length = vals.length ∧ (∀ v ∈ vals, good v = true) ∧ keys.Pairwise (fun a b => scOrd (f a) (f b) = .lt) ∧
      keys.length ≤ u32Max ∧ m = keys.zip vals) ∧
    (mapFromSlices (valCmp objs d) good isVoid true keys vals = .ok m ↔
      keys.length = vals.length ∧ (∀ v ∈ vals, good v = true) ∧ keys.Pairwise (fun a b => scOrd (f a) (f b) = .lt) ∧
      m.length ≤ u32Max ∧ m = (keys.zip vals).filter (fun p => !isVoid p.2)) := by
  rw [mapFromSlices_congr (readsAs_cmp hobjs) good isVoid false hk, mapFromSlices_congr (readsAs_cmp hobjs) good isVoid true hk]
  exact ⟨C07_dense byValue_computes good isVoid keys vals m, C07_sparse byValue_computes good isVoid keys vals m⟩

/-- C07 for host values: unpacking a map of host values. -/
theorem C07_host_unpack (hobjs : ObjsOk objs) (void : V) (m : List (Nat × V)) (hm : Ascending (byValue f) m)
    (hmk : ∀ p ∈ m, ReadsAs objs d f p.1) (isSym : Nat → Bool) (hs : ∀ p ∈ m, isSym p.1 = true) (keys : List Nat)
    (hk : ∀ k ∈ keys, ReadsAs objs d f k) :
    (keys.Pairwise (fun a b => scOrd (f a) (f b) = .lt) →
      ∃ vs, mapUnpack (valCmp objs d) isSym void true m keys = .ok vs ∧
        List.Forall₂ (fun k v => (∃ p ∈ m, f p.1 = f k ∧ p.2 = v) ∨ ((∀ p ∈ m, f p.1 ≠ f k) ∧ v = void)) keys vs) ∧
    (¬ keys.Pairwise (fun a b => scOrd (f a) (f b) = .lt) →
      mapUnpack (valCmp objs d) isSym void true m keys = .error (.host .object .invalidInput)) ∧
    ∀ vs, mapUnpack (valCmp objs d) isSym void false m keys = .ok vs ↔
      m.map (fun p => f p.1) = keys.map f ∧ vs = m.map Prod.snd := by
  have heq : ∀ p ∈ m, ∀ k ∈ keys, (byValue f p.1 k = .eq ↔ f p.1 = f k) :=
    fun p hp k hkk => byValue_eq_iff hobjs (hmk p hp) (hk k hkk)
  rw [mapUnpack_congr (readsAs_cmp hobjs) isSym void true hmk hk]
  obtain ⟨h1, h2⟩ := C07_sparse_unpack (byValue_computes (f := f)) void m hm isSym hs keys
  refine ⟨fun h => ?_, h2, fun vs => ?_⟩
  · obtain ⟨vs, e, hv⟩ := h1 h
    refine ⟨vs, e, forall2_mono_mem hv ?_⟩
    rintro k hkk v (⟨p, hp, e, e'⟩ | ⟨hn, e⟩)
    · exact Or.inl ⟨p, hp, (heq p hp k hkk).1 e, e'⟩
    · exact Or.inr ⟨fun p hp e => hn ⟨p, hp, (heq p hp k hkk).2 e⟩, e⟩
  · rw [mapUnpack_congr (readsAs_cmp hobjs) isSym void false hmk hk, C07_dense_unpack byValue_computes void m hm isSym keys vs]
    suffices hh : List.Forall₂ (fun p k => byValue f p.1 k = .eq) m keys ↔ m.map (fun p => f p.1) = keys.map f by rw [hh]
    clear h1 h2 hm hs hk hmk
    induction m generalizing keys with
    | nil => cases keys <;> simp
    | cons p m ih =>
      cases keys with
      | nil => simp
      | cons k keys =>
        rw [List.forall₂_cons, List.map_cons, List.map_cons, List.cons.injEq, heq p (by simp) k (by simp),
          ih keys (fun q hq k' hk' => heq q (by simp [hq]) k' (by simp [hk']))]

/-- C08 for host values: `vec_first_index_of` and `vec_last_index_of` find the first and the last element standing for the
same ledger value. -/
theorem C08_host_index_of (hobjs : ObjsOk objs) (v : List Nat) (hl : v.length ≤ u32Max) (x : Nat)
    (hv : ∀ y ∈ v, ReadsAs objs d f y) (hx : ReadsAs objs d f x) :
    ((∃ n y, vecFirstIndexOf (valCmp objs d) v x = .ok (some n) ∧ v[n]? = some y ∧ f x = f y ∧
        ∀ m z, m < n → v[m]? = some z → f x ≠ f z) ∨
      (vecFirstIndexOf (valCmp objs d) v x = .ok none ∧ ∀ y ∈ v, f x ≠ f y)) ∧
    ((∃ n y, vecLastIndexOf (valCmp objs d) v x = .ok (some n) ∧ v[n]? = some y ∧ f x = f y ∧
        ∀ m z, n < m → v[m]? = some z → f x ≠ f z) ∨
      (vecLastIndexOf (valCmp objs d) v x = .ok none ∧ ∀ y ∈ v, f x ≠ f y)) := by
  have heq : ∀ y ∈ v, (byValue f x y = .eq ↔ f x = f y) := fun y hy => byValue_eq_iff hobjs hx (hv y hy)
  rw [vecFirstIndexOf_congr (cmp' := fun a b => .ok (byValue f a b)) (fun y hy => readsAs_cmp hobjs x y hx (hv y hy)),
    vecLastIndexOf_congr (cmp' := fun a b => .ok (byValue f a b)) (fun y hy => readsAs_cmp hobjs x y hx (hv y hy))]
  obtain ⟨h1, h2⟩ := C08_index_of (byValue_computes (f := f)) v hl x
  constructor
  · rcases h1 with ⟨n, y, e, hy, he, hn⟩ | ⟨e, hn⟩
    · exact Or.inl ⟨n, y, e, hy, (heq y (List.mem_of_getElem? hy)).1 he, fun m z hm hz h =>
        hn m z hm hz ((heq z (List.mem_of_getElem? hz)).2 h)⟩
    · exact Or.inr ⟨e, fun y hy h => hn y hy ((heq y hy).2 h)⟩
  · rcases h2 with ⟨n, y, e, hy, he, hn⟩ | ⟨e, hn⟩
    · exact Or.inl ⟨n, y, e, hy, (heq y (List.mem_of_getElem? hy)).1 he, fun m z hm hz h =>
        hn m z hm hz ((heq z (List.mem_of_getElem? hz)).2 h)⟩
    · exact Or.inr ⟨e, fun y hy h => hn y hy ((heq y hy).2 h)⟩

/-- C09 for host values: binary search of a vector sorted by ledger value. -/
theorem C09_host_binary_search (hobjs : ObjsOk objs) (v : List Nat) (hl : v.length ≤ u32Max) (x : Nat)
    (hv : ∀ y ∈ v, ReadsAs objs d f y) (hx : ReadsAs objs d f x) (hs : v.Pairwise (fun a b => scOrd (f a) (f b) ≠ .gt)) :
    (∃ i y, vecBinarySearch (valCmp objs d) v x = .ok (2^32 + i) ∧ v[i]? = some y ∧ f y = f x) ∨
    (∃ i, vecBinarySearch (valCmp objs d) v x = .ok i ∧ i ≤ v.length ∧ (∀ y ∈ v, f y ≠ f x) ∧
      (∀ j y, j < i → v[j]? = some y → scOrd (f y) (f x) = .lt) ∧
      (∀ j y, i ≤ j → v[j]? = some y → scOrd (f y) (f x) = .gt)) := by
  have heq : ∀ y ∈ v, (byValue f y x = .eq ↔ f y = f x) := fun y hy => byValue_eq_iff hobjs (hv y hy) hx
  rw [vecBinarySearch_congr (cmp' := fun a b => .ok (byValue f a b)) (fun y hy => readsAs_cmp hobjs y x (hv y hy) hx)]
  rcases C09_binary_search (byValue_computes (f := f)) v hl hs x with ⟨i, y, e, hy, he⟩ | ⟨i, e, hle, hn, h1, h2⟩
  · exact Or.inl ⟨i, y, e, hy, (heq y (List.mem_of_getElem? hy)).1 he⟩
  · exact Or.inr ⟨i, e, hle, fun y hy h => hn y hy ((heq y hy).2 h), h1, h2⟩

/-! ### non-vacuity -/

/-- The ledger values of two words of `exTable`. -/
def exMeaning (w : Nat) : ScVal := if w = valU32 3 then .u32 3 else .symbol [97, 98]

example : ReadsAs exTable 100 exMeaning (valU32 3) ∧ ReadsAs exTable 100 exMeaning (valObject 3 .SymbolObject) :=
  ⟨⟨⟨by decide, rfl⟩, rfl⟩, ⟨⟨by decide, rfl⟩, rfl⟩⟩

example : HostHistory 100 exMeaning
    [(exTable, .put (valObject 3 .SymbolObject) 'b'), (exTable.take 2, .put (valObject 3 .SymbolObject) 'a')] := by
  refine ⟨by simp [List.take_prefix], ?_⟩
  have htake : ObjsOk (exTable.take 2) := by
    intro i o h
    match i with
    | 0 => cases h; exact ⟨by simp [ObjOk], by simp [elems]⟩
    | 1 => cases h; exact ⟨trivial, by simp [elems]⟩
    | n + 2 => simp [exTable] at h
  intro x hx
  simp only [List.mem_cons, List.not_mem_nil, or_false] at hx
  rcases hx with rfl | rfl
  · exact ⟨exTable_ok, ⟨by decide, rfl⟩, rfl⟩
  · exact ⟨htake, ⟨by decide, rfl⟩, rfl⟩

/-- An inline symbol finds the entry written under the object symbol of the same text. -/
example : (match symbolTryFromBytes [97, 98] with
    | some v => (match mapGet (valCmp exTable 100) (hostMap 100 [(exTable, .put (valObject 3 .SymbolObject) 'b')]) v with
      | .ok c => c == 'b'
      | .error _ => false)
    | none => false) = true := by decide +kernel

end Soroban.Props
