import Verif.Lemmas.RustValues
/-!
C103: values of Rust types as host values.
-/
namespace Soroban.Props
open Soroban Soroban.Spec Soroban.Rust Soroban.Rust.Spec

/-- C103: a value of a Rust type is converted to a host value that stands for the ledger value it means; older objects stay. -/
theorem C103_written {t : Ty} {x : RVal} {objs objs' : List HostObj} {v : Nat} (hx : Has t x) (hok : ObjsOk objs)
    (h : write objs x = .ok (objs', v)) (hl : objs'.length ≤ 2 ^ 31) :
    (∃ e, objs' = objs ++ e) ∧ ObjsOk objs' ∧ Sound objs' v ∧ Denotes objs' v (meaning x) := by
  have m := write_made hx hok h hl
  exact ⟨m.grown, m.good, m.is.1, m.is.2⟩

/-- C103: it is converted whenever there is room for its objects. -/
theorem C103_room {t : Ty} {x : RVal} {objs : List HostObj} (hx : Has t x) (hok : ObjsOk objs) (hl : objs.length + size x ≤ 2 ^ 31) :
    ∃ objs' v, write objs x = .ok (objs', v) ∧ objs'.length ≤ objs.length + size x := write_ok hx hok hl

/-- C103: what is read from a host value is a value of the type, and it means what the host value stands for. -/
theorem C103_read_means {t : Ty} {x : RVal} {objs : List HostObj} (hok : ObjsOk objs) {v : Nat} {s : ScVal} (hs : Sound objs v)
    (hd : Denotes objs v s) (h : read objs t v = .ok x) : Has t x ∧ meaning x = s := (read_spec hok ⟨hs, hd⟩).sound x h

/-- C103: a host value is read exactly if it stands for the meaning of some value of the type. -/
theorem C103_read_iff {t : Ty} {objs : List HostObj} (hok : ObjsOk objs) {v : Nat} {s : ScVal} (hs : Sound objs v)
    (hd : Denotes objs v s) : (∃ x, read objs t v = .ok x) ↔ ∃ x, Has t x ∧ meaning x = s := by
  have r := read_spec hok (t := t) ⟨hs, hd⟩
  exact ⟨fun ⟨x, h⟩ => ⟨x, r.sound x h⟩, fun ⟨x, h1, h2⟩ => r.complete x h1 h2⟩

/-- C103: the types whose values all have different meanings are those without an option of something that can be void and without a result of
something that can be an error. -/
theorem C103_told_apart (t : Ty) : (∀ x y, Has t x → Has t y → meaning x = meaning y → x = y) ↔ Plain t := by
  constructor
  · intro h
    by_contra hp
    obtain ⟨x, y, h1, h2, h3, h4⟩ := ambiguous hp
    exact h3 (h x y h1 h2 h4)
  · intro hp x y hx hy h
    exact plain_inj hp hx hy h

/-- C103: for these types, reading gives exactly the value with the meaning. -/
theorem C103_read_exact {t : Ty} (hp : Plain t) {objs : List HostObj} (hok : ObjsOk objs) {v : Nat} {s : ScVal} (hs : Sound objs v)
    (hd : Denotes objs v s) (x : RVal) : read objs t v = .ok x ↔ Has t x ∧ meaning x = s := by
  have r := read_spec hok (t := t) ⟨hs, hd⟩
  refine ⟨r.sound x, fun ⟨h1, h2⟩ => ?_⟩
  obtain ⟨y, hy⟩ := r.complete x h1 h2
  obtain ⟨g1, g2⟩ := r.sound y hy
  rw [hy, plain_inj hp h1 g1 (h2.trans g2.symm)]

/-- C103: values of these types come back from the host, whatever objects are created in between. -/
theorem C103_round_trip {t : Ty} (hp : Plain t) {x : RVal} {objs objs' : List HostObj} {v : Nat} (hx : Has t x) (hok : ObjsOk objs)
    (h : write objs x = .ok (objs', v)) (hl : objs'.length ≤ 2 ^ 31) (later : List HostObj) (hlater : ObjsOk (objs' ++ later)) :
    read (objs' ++ later) t v = .ok x := by
  have m := write_made hx hok h hl
  have i := m.is.append later
  exact (C103_read_exact hp hlater i.1 i.2 x).mpr ⟨hx, rfl⟩

/-- C103: something that is void comes back as nothing. -/
theorem C103_void_is_nothing {t : Ty} {x : RVal} {objs objs' : List HostObj} {v : Nat} (hx : Has t x) (hv : meaning x = .void)
    (hok : ObjsOk objs) (h : write objs (.some x) = .ok (objs', v)) (hl : objs'.length ≤ 2 ^ 31) : read objs' (.opt t) v = .ok .none := by
  have m := write_made (t := .opt t) (x := .some x) hx hok h hl
  have hm : meaning (.some x) = .void := by rw [meaning]; exact hv
  have e := (word_void m.good m.is).mpr hm
  unfold Rust.read
  rw [if_pos e]

/-- C103: a success that is an error comes back as a failure with it. -/
theorem C103_error_is_failure {t : Ty} {x : RVal} {a b : Nat} {objs objs' : List HostObj} {v : Nat} (hx : Has t x)
    (hv : meaning x = .error a b) (hok : ObjsOk objs) (h : write objs (.ok x) = .ok (objs', v)) (hl : objs'.length ≤ 2 ^ 31) :
    read objs' (.res t) v = .ok (.err a b) := by
  have m := write_made (t := .res t) (x := .ok x) hx hok h hl
  have hm : meaning (.ok x) = .error a b := by rw [meaning]; exact hv
  have e := (tag_error m.good m.is).2 a b hm
  obtain ⟨g1, -⟩ := (tag_error m.good m.is).1 e
  rw [hm] at g1
  injection g1 with g1 g2
  unfold Rust.read
  rw [if_pos e, ← g1, ← g2]

/-! ### non-vacuity -/

/-- `(Option<i128>, Result<u256, Error>, (bool, ()))` -/
def c103Ty : Ty := .tup [.opt (.num .i128), .res (.num .u256), .tup [.bool, .unit]]

/-- A value of this type, with numbers that do not fit a word. -/
def c103Val : RVal := .tup [.some (.num .i128 (-2 ^ 127)), .ok (.num .u256 (2 ^ 255 + 2 ^ 70)), .tup [.bool true, .unit]]

example : Plain c103Ty := ⟨⟨(fun h => h), trivial⟩, ⟨(fun h => h), trivial⟩, ⟨trivial, trivial, trivial⟩, trivial⟩

example : Has c103Ty c103Val :=
  ⟨⟨rfl, by decide, by decide⟩, ⟨rfl, by decide, by decide⟩, ⟨trivial, trivial, trivial⟩, trivial⟩

/-- Four objects are made. -/
example : ∃ objs v, write [] c103Val = .ok (objs, v) ∧ objs.length = 4 := ⟨_, _, rfl, rfl⟩

example : meaning c103Val = .vec (some [.i128 (-2 ^ 63) 0, .u256 (2 ^ 63) 0 64 0, .vec (some [.bool true, .void])]) := by
  simp [c103Val, meaning, meanings, number]

/-- Options of options are not told apart. -/
example : ¬ Plain (.opt (.opt (.num .u32))) := fun h => h.1 trivial
/-- Results whose success is an optional error are not either. -/
example : ¬ Plain (.res (.opt .error)) := fun h => h.1 trivial
/-- Results with nothing to return are. -/
example : Plain (.res .unit) := ⟨(fun h => h), trivial⟩

end Soroban.Props
