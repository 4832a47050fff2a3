import Verif.Lemmas.Int
import Verif.Lemmas.Memory
import Verif.Spec.Memory
/-! What the functions on numbers can do to the object table: C10 for module "int". -/
namespace Soroban
open Soroban.Spec

theorem mod_in_u256 (n : Nat) : u256FromPieces (u256IntoPieces n).1 (u256IntoPieces n).2.1 (u256IntoPieces n).2.2.1 (u256IntoPieces n).2.2.2 < 2^256 := by
  unfold u256FromPieces u256IntoPieces
  dsimp only
  have h1 := Nat.mod_lt (n / 2^192) (show 0 < 2^64 by decide)
  have h2 := Nat.mod_lt (n / 2^128) (show 0 < 2^64 by decide)
  have h3 := Nat.mod_lt (n / 2^64) (show 0 < 2^64 by decide)
  have h4 := Nat.mod_lt n (show 0 < 2^64 by decide)
  generalize n / 2^192 % 2^64 = a at *
  generalize n / 2^128 % 2^64 = b at *
  generalize n / 2^64 % 2^64 = c at *
  generalize n % 2^64 = d at *
  omega

theorem i256_in {a : Int} {b c d : Nat} (ha : -2^63 ≤ a ∧ a < 2^63) (hb : b < 2^64) (hc : c < 2^64) (hd : d < 2^64) :
    -2^255 ≤ i256FromPieces a b c d ∧ i256FromPieces a b c d < 2^255 := by
  unfold i256FromPieces
  omega

theorem mod_in_i256 (i : Int) : -2^255 ≤ i256FromPieces (i256IntoPieces i).1 (i256IntoPieces i).2.1 (i256IntoPieces i).2.2.1 (i256IntoPieces i).2.2.2 ∧
    i256FromPieces (i256IntoPieces i).1 (i256IntoPieces i).2.1 (i256IntoPieces i).2.2.1 (i256IntoPieces i).2.2.2 < 2^255 := by
  have h : ∀ j, asU64 j < 2^64 := fun j => by unfold asU64; omega
  exact i256_in (asI64_range _) (h _) (h _) (h _)

theorem wideObj_ok (s : Bool) (i : Int) : ObjOk (wideObj s i) ∧ elems (wideObj s i) = [] ∧ (∀ m, wideObj s i ≠ .map m) ∧ TextOk (wideObj s i) := by
  unfold wideObj
  cases s with
  | true =>
    simp only [if_true]
    exact ⟨mod_in_i256 i, rfl, by simp, by simp [TextOk, octets]⟩
  | false =>
    simp only [Bool.false_eq_true, if_false]
    exact ⟨mod_in_u256 _, rfl, by simp, by simp [TextOk, octets]⟩

theorem toSmall_plain {s : Bool} {i : Int} {v : Nat} (h : toSmall (wideTy s) i = some v) : Val.isObject v = false := by
  have key : ∀ (n : Nat) (t : Tag), t.code < 15 → Val.isObject (Val.fromBodyAndTag n t) = false := by
    intro n t ht
    exact (body_small ht).2
  cases s with
  | true =>
    rw [show wideTy true = .i256 from rfl] at h
    simp only [toSmall] at h
    split at h
    · cases h; exact key _ _ (by decide)
    · cases h
  | false =>
    rw [show wideTy false = .u256 from rfl] at h
    simp only [toSmall] at h
    split at h
    · cases h; exact key _ _ (by decide)
    · cases h

/-- What a function on numbers does: it gives a word or a plain value, or it makes one object that refers to nothing. -/
def NumResult (objs : List HostObj) (as : List Nat) (objs' : List HostObj) (r : Ret) : Prop :=
  (objs' = objs ∧ ∀ v, r = .val v → Val.isObject v = false) ∨
  ∃ o v, r = .val v ∧ addObj objs o = .ok (objs', v) ∧ elems o = [] ∧ (∀ m, o ≠ .map m) ∧ ((∀ a ∈ as, a < 2^64) → ObjOk o) ∧ TextOk o

theorem wideVal_result {objs objs' : List HostObj} {as : List Nat} {s : Bool} {i : Int} {v : Nat} (h : wideVal objs s i = .ok (objs', v)) :
    NumResult objs as objs' (.val v) := by
  unfold wideVal at h
  cases hx : toSmall (wideTy s) i with
  | some w =>
    rw [hx] at h
    cases h
    exact Or.inl ⟨rfl, fun v hv => by cases hv; exact toSmall_plain hx⟩
  | none =>
    rw [hx] at h
    obtain ⟨h1, h2, h3, h4⟩ := wideObj_ok s i
    exact Or.inr ⟨_, v, rfl, h, h2, h3, fun _ => h1, h4⟩

theorem numObj_result {objs objs' : List HostObj} {as : List Nat} {x : Res HostObj} {r : Ret} (h : retObj objs x = .ok (objs', r))
    (hx : ∀ o, x = .ok o → elems o = [] ∧ (∀ m, o ≠ .map m) ∧ ((∀ a ∈ as, a < 2^64) → ObjOk o) ∧ TextOk o) : NumResult objs as objs' r := by
  unfold retObj at h
  obtain ⟨o, ho, h⟩ := bind_ok.mp h
  obtain ⟨⟨objs₁, v⟩, ha, h⟩ := bind_ok.mp h
  cases h
  obtain ⟨h1, h2, h3, h4⟩ := hx o ho
  exact Or.inr ⟨o, v, rfl, ha, h1, h2, h3, h4⟩

theorem rawOf_ok {o : Option Int} {r : Ret} (h : rawOf o = .ok r) : ∃ i, r = .raw i := by
  unfold rawOf at h
  split at h
  · cases h; exact ⟨_, rfl⟩
  · cases h

theorem u128_in {hi lo : Nat} (h : hi < 2^64) (h' : lo < 2^64) : u128FromPieces hi lo < 2^128 := by unfold u128FromPieces; omega

theorem i128_in {hi : Int} {lo : Nat} (h : -2^63 ≤ hi ∧ hi < 2^63) (h' : lo < 2^64) :
    -2^127 ≤ i128FromPieces hi lo ∧ i128FromPieces hi lo < 2^127 := by unfold i128FromPieces; omega

theorem u256_in {a b c d : Nat} (ha : a < 2^64) (hb : b < 2^64) (hc : c < 2^64) (hd : d < 2^64) : u256FromPieces a b c d < 2^256 := by
  unfold u256FromPieces; omega

theorem piecesObj_ok {t : BTy} {ws : List Nat} {o : HostObj} (h : piecesObj t ws = .ok o) :
    elems o = [] ∧ (∀ m, o ≠ .map m) ∧ ((∀ a ∈ ws, a < 2^64) → ObjOk o) ∧ TextOk o := by
  unfold piecesObj at h
  split at h
  · cases h
    exact ⟨rfl, by simp, fun hw => u128_in (hw _ (by simp)) (hw _ (by simp)), by simp [TextOk, octets]⟩
  · cases h
    exact ⟨rfl, by simp, fun hw => i128_in (asI64_range _) (hw _ (by simp)), by simp [TextOk, octets]⟩
  · cases h
    exact ⟨rfl, by simp, fun hw => u256_in (hw _ (by simp)) (hw _ (by simp)) (hw _ (by simp)) (hw _ (by simp)), by simp [TextOk, octets]⟩
  · cases h
    exact ⟨rfl, by simp, fun hw => i256_in (asI64_range _) (hw _ (by simp)) (hw _ (by simp)) (hw _ (by simp)), by simp [TextOk, octets]⟩
  · cases h

theorem leBytes_lt (n w : Nat) : ∀ x ∈ toLe n w, x < 256 := by
  induction n generalizing w with
  | zero => simp [toLe]
  | succ n ih =>
    intro x hx
    rw [toLe] at hx
    rcases List.mem_cons.1 hx with rfl | hx
    · omega
    · exact ih _ x hx

theorem runI_result {objs objs' : List HostObj} {f : IFn} {as : List Nat} {r : Ret} (h : runI objs f as = .ok (objs', r)) :
    NumResult objs as objs' r := by
  unfold runI at h
  split at h
  · rename_i t w
    refine numObj_result h ?_
    intro o ho
    cases ho
    have hr := asI64_range w
    cases t
    · exact ⟨rfl, by simp [wordObj], fun hw => hw w (by simp), by simp [TextOk, octets, wordObj]⟩
    · exact ⟨rfl, by simp [wordObj], fun _ => hr, by simp [TextOk, octets, wordObj]⟩
    · exact ⟨rfl, by simp [wordObj], fun hw => hw w (by simp), by simp [TextOk, octets, wordObj]⟩
    · exact ⟨rfl, by simp [wordObj], fun hw => hw w (by simp), by simp [TextOk, octets, wordObj]⟩
  · obtain ⟨o, _, h⟩ := bind_ok.mp h
    obtain ⟨r', hr, h⟩ := bind_ok.mp h
    obtain ⟨i, rfl⟩ := rawOf_ok hr
    cases h
    exact Or.inl ⟨rfl, by simp⟩
  · exact numObj_result h fun o ho => piecesObj_ok ho
  · obtain ⟨o, _, h⟩ := bind_ok.mp h
    obtain ⟨r', hr, h⟩ := bind_ok.mp h
    obtain ⟨i, rfl⟩ := rawOf_ok hr
    cases h
    exact Or.inl ⟨rfl, by simp⟩
  · obtain ⟨o, _, h⟩ := bind_ok.mp h
    obtain ⟨r', hr, h⟩ := bind_ok.mp h
    obtain ⟨⟨objs₁, v⟩, hv, h⟩ := bind_ok.mp h
    cases h
    exact wideVal_result hv
  · obtain ⟨i, _, h⟩ := bind_ok.mp h
    refine numObj_result h ?_
    intro o ho
    cases ho
    refine ⟨rfl, by simp, fun _ => trivial, ?_, by intro s hs; cases hs⟩
    intro x hx
    exact leBytes_lt _ _ x (List.mem_reverse.1 hx)
  · obtain ⟨x, _, h⟩ := bind_ok.mp h
    cases x with
    | none => cases h
    | some i =>
      dsimp only at h
      obtain ⟨⟨objs₁, v⟩, hv, h⟩ := bind_ok.mp h
      cases h
      exact wideVal_result hv
  · obtain ⟨x, _, h⟩ := bind_ok.mp h
    cases x with
    | none =>
      cases h
      exact Or.inl ⟨rfl, fun v hv => by cases hv; decide⟩
    | some i =>
      dsimp only at h
      obtain ⟨⟨objs₁, v⟩, hv, h⟩ := bind_ok.mp h
      cases h
      exact wideVal_result hv
  · cases h

/-- What a call does to what the frame has. -/
theorem dispatchI_cases {l l' : Lin} {f : IFn} {ws : List Nat} {w : Int} (h : dispatchI l f ws = .ok (l', w)) :
    l'.mem = l.mem ∧ ((l'.objs = l.objs ∧ l'.tbl = l.tbl) ∨
      ∃ o v, addObj l.objs o = .ok (l'.objs, v) ∧ checkIntegrity l'.objs v = .ok () ∧ (l'.tbl = l.tbl ∨ l'.tbl = l.tbl ++ [v]) ∧ elems o = [] ∧
        (∀ m, o ≠ .map m) ∧ ((∀ x ∈ ws, x < 2^64) → (∀ x ∈ l.tbl, x < 2^64) → ObjOk o) ∧ TextOk o) := by
  unfold dispatchI at h
  obtain ⟨as, h1, h⟩ := bind_ok.mp h
  obtain ⟨⟨objs, r⟩, h2, h⟩ := bind_ok.mp h
  have hres := runI_result h2
  have harg : ∀ {ts : List ArgTy} {w a : Nat} {t : ArgTy}, marshalArg l.objs l.tbl t w = .ok a → w < 2^64 → (∀ x ∈ l.tbl, x < 2^64) → a < 2^64 := by
    intro ts w a t h hw ht
    unfold marshalArg at h
    split at h
    · obtain ⟨a', h3, h⟩ := bind_ok.mp h
      obtain ⟨_, _, h⟩ := bind_ok.mp h
      cases h
      unfold relToAbs at h3
      split at h3
      · split at h3
        · split at h3
          · rename_i hx
            split at h3
            · cases h3; exact ht _ (List.mem_of_getElem? hx)
            · cases h3
          · cases h3
        · cases h3
      · cases h3; exact hw
    · cases h
  have has : ∀ {ts : List IArg} {ws as : List Nat}, marshalIs l.objs l.tbl ts ws = .ok as → (∀ x ∈ ws, x < 2^64) → (∀ x ∈ l.tbl, x < 2^64) →
      ∀ a ∈ as, a < 2^64 := by
    intro ts
    induction ts with
    | nil =>
      intro ws as h hw ht
      cases ws with
      | nil => cases h; simp
      | cons => cases h
    | cons t ts ih =>
      intro ws as h hw ht
      cases ws with
      | nil => cases h
      | cons w ws =>
        unfold marshalIs at h
        obtain ⟨a, ha, h⟩ := bind_ok.mp h
        obtain ⟨as', h3, h⟩ := bind_ok.mp h
        cases h
        intro x hx
        rcases List.mem_cons.1 hx with rfl | hx
        · have hw0 := hw w (by simp)
          cases t with
          | raw => cases ha; exact hw0
          | arg t => exact harg (ts := []) ha hw0 ht
          | wide s =>
            simp only [marshalI] at ha
            split at ha
            · exact harg (ts := []) ha hw0 ht
            · cases ha
        · exact ih h3 (fun x hx => hw x (by simp [hx])) ht x hx
  cases r with
  | raw n =>
    cases h
    rcases hres with ⟨h3, _⟩ | ⟨o, v, h3, _⟩
    · exact ⟨rfl, Or.inl ⟨h3, rfl⟩⟩
    · cases h3
  | val v =>
    dsimp only at h
    obtain ⟨_, h3, h⟩ := bind_ok.mp h
    obtain ⟨⟨tbl, w'⟩, h4, h⟩ := bind_ok.mp h
    cases h
    refine ⟨rfl, ?_⟩
    dsimp only
    have htb := absToRel_tbl h4
    rcases hres with ⟨h5, h6⟩ | ⟨o, v', h5, h6, h7, h8, h9, h10⟩
    · refine Or.inl ⟨h5, ?_⟩
      rw [htb]
      simp [h6 v rfl]
    · cases h5
      refine Or.inr ⟨o, v, h6, h3, ?_, h7, h8, fun a b => h9 (has h1 a b), h10⟩
      rw [htb]
      cases hob : Val.isObject v
      · left; simp [hob]
      · right; simp [hob]

end Soroban
