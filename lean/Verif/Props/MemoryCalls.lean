import Verif.Props.IntCalls
import Verif.Props.MemoryMaps
import Mathlib.Data.List.Forall2
/-!
C54 as a contract sees it: the calls with the words the contract holds reach the functions described by the other theorems, and the
contract gets words for what they return.
-/
namespace Soroban.Props
open Soroban Soroban.Spec

/-- The places of the arguments that are numbers, counted from 0. -/
def numbersOf : HFn → List Nat
  | .obj f => match f with
    | .mapKeyByPos | .mapValByPos | .vecPut | .vecGet | .vecDel | .vecInsert => [1]
    | .vecSlice => [1, 2]
    | _ => []
  | .buf f => match f with
    | .bytesPut | .bytesInsert | .bytesSlice => [1, 2]
    | .bytesGet | .bytesDel | .bytesPush => [1]
    | _ => []
  | .mem f => match f with
    | .bytesCopyTo | .stringCopyTo | .symbolCopyTo | .bytesCopyFrom | .mapUnpackTo _ => [1, 2, 3]
    | .bytesNewFrom | .stringNewFrom | .symbolNewFrom | .vecNewFrom => [0, 1]
    | .symbolIndex | .vecUnpackTo => [1, 2]
    | .mapNewFrom _ => [0, 1, 2]

/-- The value `a` is a number of 32 bits. -/
def IsNumber (a : Option Nat) : Prop := ∃ n, n < 2^32 ∧ a = some (n * 2^32 + 4)

private theorem mcons {objs : List HostObj} {tbl : List Nat} {t : ArgTy} {ts : List ArgTy} {w a : Nat} {ws as : List Nat}
    (h1 : marshalArg objs tbl t w = .ok a) (h2 : marshalArgs objs tbl ts ws = .ok as) :
    marshalArgs objs tbl (t :: ts) (w :: ws) = .ok (a :: as) :=
  bind_ok.mpr ⟨_, h1, bind_ok.mpr ⟨_, h2, rfl⟩⟩

private theorem mnil {objs : List HostObj} {tbl : List Nat} : marshalArgs objs tbl [] [] = .ok [] := rfl

private theorem mnum {l : Lin} {w a : Nat} (h : Shows l w a) (hn : IsNumber (some a)) : marshalArg l.objs l.tbl .u32 w = .ok a := by
  obtain ⟨n, hn, he⟩ := hn
  have ht : Val.tag a = .U32Val := by
    cases he
    exact tag_of_code (by simp only [Tag.code]; omega) (by decide) (by decide) (by decide)
  unfold marshalArg
  rw [if_pos (by unfold ArgTy.accepts; rw [h.2.1, ← relToAbs_tag h.2.2.1, ht]; rfl)]
  exact bind_ok.mpr ⟨_, h.2.2.1, bind_ok.mpr ⟨_, h.2.2.2.2, rfl⟩⟩

private theorem mobj {l : Lin} {w a : Nat} {o : HostObj} {t : Tag} (h : Shows l w a) (hv : visitObj l.objs a = .ok o) (ht : o.tag = t) :
    marshalArg l.objs l.tbl (.obj t) w = .ok a :=
  marshal_obj h (by rw [← ht]; exact (sound_tag h.2.2.2 (visitObj_ok.1 hv).1 hv).symm)

private theorem mvec {l : Lin} {w a : Nat} {x : List Nat} (hv : visitVec l.objs a = .ok x) (h : Shows l w a) :
    marshalArg l.objs l.tbl (.obj .VecObject) w = .ok a := mobj h (visitVec_ok.1 hv) rfl

private theorem mmap {l : Lin} {w a : Nat} {x : List (Nat × Nat)} (hv : visitMap l.objs a = .ok x) (h : Shows l w a) :
    marshalArg l.objs l.tbl (.obj .MapObject) w = .ok a := mobj h (visitMap_ok.1 hv) rfl

private theorem mbytes {l : Lin} {w a : Nat} {x : List Nat} (hv : visitBytes l.objs a = .ok x) (h : Shows l w a) :
    marshalArg l.objs l.tbl (.obj .BytesObject) w = .ok a := mobj h (visitBytes_ok.1 hv) rfl

private theorem mstring {l : Lin} {w a : Nat} {x : List Nat} (hv : visitString l.objs a = .ok x) (h : Shows l w a) :
    marshalArg l.objs l.tbl (.obj .StringObject) w = .ok a := mobj h (visitString_ok.1 hv) rfl

private theorem msymbol {l : Lin} {w a : Nat} {x : List Nat} (hv : visitSymbol l.objs a = .ok x) (h : Shows l w a) :
    marshalArg l.objs l.tbl (.obj .SymbolObject) w = .ok a := mobj h (visitSymbol_ok.1 hv) rfl

private theorem mtext {l : Lin} {w a : Nat} {x : List Nat} (hv : symbolText l.objs a = .ok x) (h : Shows l w a) :
    marshalArg l.objs l.tbl .symbol w = .ok a := by
  have ht : Val.tag a = .SymbolSmall ∨ Val.tag a = .SymbolObject := (symbolText_ok.1 hv).imp And.left And.left
  unfold marshalArg
  rw [if_pos (by
    unfold ArgTy.accepts
    rw [h.2.1, ← relToAbs_tag h.2.2.1]
    rcases ht with ht | ht <;> rw [ht] <;> rfl)]
  exact bind_ok.mpr ⟨_, h.2.2.1, bind_ok.mpr ⟨_, h.2.2.2.2, rfl⟩⟩

private theorem first_ok {α β : Type} {x : Res α} {g : α → Res β} {y : β} (h : (x >>= g) = .ok y) :
    ∃ a, x = .ok a ∧ g a = .ok y :=
  bind_ok.mp h

private theorem obj_ok {objs : List HostObj} {r : Res HostObj} {y : List HostObj × Ret} (h : retObj objs r = .ok y) :
    ∃ o, r = .ok o := by
  unfold retObj at h
  obtain ⟨a, h, _⟩ := bind_ok.mp h
  exact ⟨a, h⟩

private theorem val_ok {objs : List HostObj} {r : Res Nat} {y : List HostObj × Ret} (h : retVal objs r = .ok y) : ∃ o, r = .ok o := by
  unfold retVal at h
  obtain ⟨a, h, _⟩ := bind_ok.mp h
  exact ⟨a, h⟩

private theorem uncons {l : Lin} {ws as : List Nat} {a : Nat} (h : List.Forall₂ (Shows l) ws (a :: as)) :
    ∃ w ws', ws = w :: ws' ∧ Shows l w a ∧ List.Forall₂ (Shows l) ws' as := by
  cases h with
  | cons h1 h2 => exact ⟨_, _, rfl, h1, h2⟩

variable {cmp : List HostObj → Nat → Nat → Res Ordering} {l l' : Lin} {r : Ret}

theorem reach_mem {f : MFn} {ws as : List Nat} (hs : List.Forall₂ (Shows l) ws as) (hn : ∀ i ∈ numbersOf (.mem f), IsNumber as[i]?)
    (h : runM cmp l f as = .ok (l', r)) : marshalArgs l.objs l.tbl f.args ws = .ok as := by
  have wrong : ∀ {e : Err}, (.error e : Res (Lin × Ret)) = .ok (l', r) → False := fun h => by cases h
  have two : ∀ {ws : List Nat} {a b : Nat}, List.Forall₂ (Shows l) ws [a, b] → IsNumber (some a) → IsNumber (some b) →
      marshalArgs l.objs l.tbl [.u32, .u32] ws = .ok [a, b] := by
    intro ws a b hs h1 h2
    obtain ⟨_, _, rfl, s1, t1⟩ := uncons hs
    obtain ⟨_, _, rfl, s2, t2⟩ := uncons t1
    cases t2
    exact mcons (mnum s1 h1) (mcons (mnum s2 h2) mnil)
  have three : ∀ {ws : List Nat} {a b c : Nat}, List.Forall₂ (Shows l) ws [a, b, c] → IsNumber (some a) → IsNumber (some b) →
      IsNumber (some c) → marshalArgs l.objs l.tbl [.u32, .u32, .u32] ws = .ok [a, b, c] := by
    intro ws a b c hs h1 h2 h3
    obtain ⟨_, _, rfl, s1, t1⟩ := uncons hs
    exact mcons (mnum s1 h1) (two t1 h2 h3)
  cases f <;> rcases as with _ | ⟨a, _ | ⟨b, _ | ⟨c, _ | ⟨d, _ | ⟨e, t⟩⟩⟩⟩⟩ <;> first
    | exact (wrong h).elim
    | skip
  all_goals simp only [runM] at h
  case bytesCopyTo =>
    obtain ⟨_, h, _⟩ := first_ok h
    obtain ⟨_, _, rfl, s1, t1⟩ := uncons hs
    exact mcons (mbytes h s1) (three t1 (hn 1 (by decide)) (hn 2 (by decide)) (hn 3 (by decide)))
  case stringCopyTo =>
    obtain ⟨_, h, _⟩ := first_ok h
    obtain ⟨_, _, rfl, s1, t1⟩ := uncons hs
    exact mcons (mstring h s1) (three t1 (hn 1 (by decide)) (hn 2 (by decide)) (hn 3 (by decide)))
  case symbolCopyTo =>
    obtain ⟨_, h, _⟩ := first_ok h
    obtain ⟨_, _, rfl, s1, t1⟩ := uncons hs
    exact mcons (msymbol h s1) (three t1 (hn 1 (by decide)) (hn 2 (by decide)) (hn 3 (by decide)))
  case bytesCopyFrom =>
    obtain ⟨_, h, _⟩ := first_ok h
    obtain ⟨_, _, rfl, s1, t1⟩ := uncons hs
    exact mcons (mbytes h s1) (three t1 (hn 1 (by decide)) (hn 2 (by decide)) (hn 3 (by decide)))
  case bytesNewFrom | stringNewFrom | symbolNewFrom | vecNewFrom => exact two hs (hn 0 (by decide)) (hn 1 (by decide))
  case symbolIndex =>
    obtain ⟨_, h, _⟩ := first_ok h
    obtain ⟨_, _, rfl, s1, t1⟩ := uncons hs
    exact mcons (mtext h s1) (two t1 (hn 1 (by decide)) (hn 2 (by decide)))
  case vecUnpackTo =>
    obtain ⟨_, h, _⟩ := first_ok h
    obtain ⟨_, _, rfl, s1, t1⟩ := uncons hs
    exact mcons (mvec h s1) (two t1 (hn 1 (by decide)) (hn 2 (by decide)))
  case mapNewFrom => exact three hs (hn 0 (by simp [numbersOf])) (hn 1 (by simp [numbersOf])) (hn 2 (by simp [numbersOf]))
  case mapUnpackTo =>
    obtain ⟨_, h, _⟩ := first_ok h
    obtain ⟨_, _, rfl, s1, t1⟩ := uncons hs
    exact mcons (mmap h s1) (three t1 (hn 1 (by simp [numbersOf])) (hn 2 (by simp [numbersOf])) (hn 3 (by simp [numbersOf])))

theorem reach_buf {f : BFn} {ws as : List Nat} {objs' : List HostObj} (hs : List.Forall₂ (Shows l) ws as)
    (hn : ∀ i ∈ numbersOf (.buf f), IsNumber as[i]?) (h : runB l.objs f as = .ok (objs', r)) :
    marshalArgs l.objs l.tbl f.args ws = .ok as := by
  have wrong : ∀ {e : Err}, (.error e : Res (List HostObj × Ret)) = .ok (objs', r) → False := fun h => by cases h
  cases f <;> rcases as with _ | ⟨a, _ | ⟨b, _ | ⟨c, _ | ⟨d, t⟩⟩⟩⟩ <;> first
    | exact (wrong h).elim
    | skip
  all_goals simp only [runB] at h
  case bytesNew => cases hs; rfl
  case bytesPut | bytesInsert | bytesSlice =>
    obtain ⟨_, h⟩ := obj_ok h
    obtain ⟨_, h, _⟩ := first_ok h
    obtain ⟨_, _, rfl, s1, t1⟩ := uncons hs
    obtain ⟨_, _, rfl, s2, t2⟩ := uncons t1
    obtain ⟨_, _, rfl, s3, t3⟩ := uncons t2
    cases t3
    exact mcons (mbytes h s1) (mcons (mnum s2 (hn 1 (by decide))) (mcons (mnum s3 (hn 2 (by decide))) mnil))
  case bytesGet =>
    obtain ⟨_, h⟩ := val_ok h
    obtain ⟨_, h, _⟩ := first_ok h
    obtain ⟨_, _, rfl, s1, t1⟩ := uncons hs
    obtain ⟨_, _, rfl, s2, t2⟩ := uncons t1
    cases t2
    exact mcons (mbytes h s1) (mcons (mnum s2 (hn 1 (by decide))) mnil)
  case bytesDel | bytesPush =>
    obtain ⟨_, h⟩ := obj_ok h
    obtain ⟨_, h, _⟩ := first_ok h
    obtain ⟨_, _, rfl, s1, t1⟩ := uncons hs
    obtain ⟨_, _, rfl, s2, t2⟩ := uncons t1
    cases t2
    exact mcons (mbytes h s1) (mcons (mnum s2 (hn 1 (by decide))) mnil)
  case bytesLen | bytesFront | bytesBack =>
    obtain ⟨_, h⟩ := val_ok h
    obtain ⟨_, h, _⟩ := first_ok h
    obtain ⟨_, _, rfl, s1, t1⟩ := uncons hs
    cases t1
    exact mcons (mbytes h s1) mnil
  case bytesPop | bytesToString =>
    obtain ⟨_, h⟩ := obj_ok h
    obtain ⟨_, h, _⟩ := first_ok h
    obtain ⟨_, _, rfl, s1, t1⟩ := uncons hs
    cases t1
    exact mcons (mbytes h s1) mnil
  case bytesAppend =>
    obtain ⟨_, h⟩ := obj_ok h
    obtain ⟨_, h, h'⟩ := first_ok h
    obtain ⟨_, h', _⟩ := first_ok h'
    obtain ⟨_, _, rfl, s1, t1⟩ := uncons hs
    obtain ⟨_, _, rfl, s2, t2⟩ := uncons t1
    cases t2
    exact mcons (mbytes h s1) (mcons (mbytes h' s2) mnil)
  case stringToBytes | createExecutableTag =>
    obtain ⟨_, h⟩ := obj_ok h
    obtain ⟨_, h, _⟩ := first_ok h
    obtain ⟨_, _, rfl, s1, t1⟩ := uncons hs
    cases t1
    exact mcons (mstring h s1) mnil
  case stringLen =>
    obtain ⟨_, h⟩ := val_ok h
    obtain ⟨_, h, _⟩ := first_ok h
    obtain ⟨_, _, rfl, s1, t1⟩ := uncons hs
    cases t1
    exact mcons (mstring h s1) mnil
  case symbolLen =>
    obtain ⟨_, h⟩ := val_ok h
    obtain ⟨_, h, _⟩ := first_ok h
    obtain ⟨_, _, rfl, s1, t1⟩ := uncons hs
    cases t1
    exact mcons (msymbol h s1) mnil

theorem reach_obj {f : Fn} {ws as : List Nat} {objs' : List HostObj} (hs : List.Forall₂ (Shows l) ws as)
    (hn : ∀ i ∈ numbersOf (.obj f), IsNumber as[i]?) (h : runFn cmp l.objs f as = .ok (objs', r)) :
    marshalArgs l.objs l.tbl f.args ws = .ok as := by
  have wrong : ∀ {e : Err}, (.error e : Res (List HostObj × Ret)) = .ok (objs', r) → False := fun h => by cases h
  cases f <;> rcases as with _ | ⟨a, _ | ⟨b, _ | ⟨c, _ | ⟨d, t⟩⟩⟩⟩ <;> first
    | exact (wrong h).elim
    | skip
  all_goals simp only [runFn] at h
  case objCmp =>
    obtain ⟨_, _, rfl, s1, t1⟩ := uncons hs
    obtain ⟨_, _, rfl, s2, t2⟩ := uncons t1
    cases t2
    exact mcons (marshal_val s1) (mcons (marshal_val s2) mnil)
  case mapNew | vecNew => cases hs; rfl
  case mapPut =>
    obtain ⟨_, h⟩ := obj_ok h
    obtain ⟨_, h, _⟩ := first_ok h
    obtain ⟨_, _, rfl, s1, t1⟩ := uncons hs
    obtain ⟨_, _, rfl, s2, t2⟩ := uncons t1
    obtain ⟨_, _, rfl, s3, t3⟩ := uncons t2
    cases t3
    exact mcons (mmap h s1) (mcons (marshal_val s2) (mcons (marshal_val s3) mnil))
  case mapGet | mapHas =>
    obtain ⟨_, h⟩ := val_ok h
    obtain ⟨_, h, _⟩ := first_ok h
    obtain ⟨_, _, rfl, s1, t1⟩ := uncons hs
    obtain ⟨_, _, rfl, s2, t2⟩ := uncons t1
    cases t2
    exact mcons (mmap h s1) (mcons (marshal_val s2) mnil)
  case mapDel =>
    obtain ⟨_, h⟩ := obj_ok h
    obtain ⟨_, h, _⟩ := first_ok h
    obtain ⟨_, _, rfl, s1, t1⟩ := uncons hs
    obtain ⟨_, _, rfl, s2, t2⟩ := uncons t1
    cases t2
    exact mcons (mmap h s1) (mcons (marshal_val s2) mnil)
  case mapLen =>
    obtain ⟨_, h⟩ := val_ok h
    obtain ⟨_, h, _⟩ := first_ok h
    obtain ⟨_, _, rfl, s1, t1⟩ := uncons hs
    cases t1
    exact mcons (mmap h s1) mnil
  case mapKeys | mapValues =>
    obtain ⟨_, h⟩ := obj_ok h
    obtain ⟨_, h, _⟩ := first_ok h
    obtain ⟨_, _, rfl, s1, t1⟩ := uncons hs
    cases t1
    exact mcons (mmap h s1) mnil
  case mapKeyByPos | mapValByPos =>
    obtain ⟨_, h⟩ := val_ok h
    obtain ⟨_, h, _⟩ := first_ok h
    obtain ⟨_, _, rfl, s1, t1⟩ := uncons hs
    obtain ⟨_, _, rfl, s2, t2⟩ := uncons t1
    cases t2
    exact mcons (mmap h s1) (mcons (mnum s2 (hn 1 (by decide))) mnil)
  case vecPut | vecInsert =>
    obtain ⟨_, h⟩ := obj_ok h
    obtain ⟨_, h, _⟩ := first_ok h
    obtain ⟨_, _, rfl, s1, t1⟩ := uncons hs
    obtain ⟨_, _, rfl, s2, t2⟩ := uncons t1
    obtain ⟨_, _, rfl, s3, t3⟩ := uncons t2
    cases t3
    exact mcons (mvec h s1) (mcons (mnum s2 (hn 1 (by decide))) (mcons (marshal_val s3) mnil))
  case vecGet =>
    obtain ⟨_, h⟩ := val_ok h
    obtain ⟨_, h, _⟩ := first_ok h
    obtain ⟨_, _, rfl, s1, t1⟩ := uncons hs
    obtain ⟨_, _, rfl, s2, t2⟩ := uncons t1
    cases t2
    exact mcons (mvec h s1) (mcons (mnum s2 (hn 1 (by decide))) mnil)
  case vecDel =>
    obtain ⟨_, h⟩ := obj_ok h
    obtain ⟨_, h, _⟩ := first_ok h
    obtain ⟨_, _, rfl, s1, t1⟩ := uncons hs
    obtain ⟨_, _, rfl, s2, t2⟩ := uncons t1
    cases t2
    exact mcons (mvec h s1) (mcons (mnum s2 (hn 1 (by decide))) mnil)
  case vecLen | vecFront | vecBack =>
    obtain ⟨_, h⟩ := val_ok h
    obtain ⟨_, h, _⟩ := first_ok h
    obtain ⟨_, _, rfl, s1, t1⟩ := uncons hs
    cases t1
    exact mcons (mvec h s1) mnil
  case vecPopFront | vecPopBack =>
    obtain ⟨_, h⟩ := obj_ok h
    obtain ⟨_, h, _⟩ := first_ok h
    obtain ⟨_, _, rfl, s1, t1⟩ := uncons hs
    cases t1
    exact mcons (mvec h s1) mnil
  case vecPushFront | vecPushBack =>
    obtain ⟨_, h⟩ := obj_ok h
    obtain ⟨_, h, _⟩ := first_ok h
    obtain ⟨_, _, rfl, s1, t1⟩ := uncons hs
    obtain ⟨_, _, rfl, s2, t2⟩ := uncons t1
    cases t2
    exact mcons (mvec h s1) (mcons (marshal_val s2) mnil)
  case vecFirstIndexOf | vecLastIndexOf =>
    obtain ⟨_, h⟩ := val_ok h
    obtain ⟨_, h, _⟩ := first_ok h
    obtain ⟨_, _, rfl, s1, t1⟩ := uncons hs
    obtain ⟨_, _, rfl, s2, t2⟩ := uncons t1
    cases t2
    exact mcons (mvec h s1) (mcons (marshal_val s2) mnil)
  case vecBinarySearch =>
    obtain ⟨_, h, _⟩ := first_ok h
    obtain ⟨_, _, rfl, s1, t1⟩ := uncons hs
    obtain ⟨_, _, rfl, s2, t2⟩ := uncons t1
    cases t2
    exact mcons (mvec h s1) (mcons (marshal_val s2) mnil)
  case vecAppend =>
    obtain ⟨_, h⟩ := obj_ok h
    obtain ⟨_, h, h'⟩ := first_ok h
    obtain ⟨_, h', _⟩ := first_ok h'
    obtain ⟨_, _, rfl, s1, t1⟩ := uncons hs
    obtain ⟨_, _, rfl, s2, t2⟩ := uncons t1
    cases t2
    exact mcons (mvec h s1) (mcons (mvec h' s2) mnil)
  case vecSlice =>
    obtain ⟨_, h⟩ := obj_ok h
    obtain ⟨_, h, _⟩ := first_ok h
    obtain ⟨_, _, rfl, s1, t1⟩ := uncons hs
    obtain ⟨_, _, rfl, s2, t2⟩ := uncons t1
    obtain ⟨_, _, rfl, s3, t3⟩ := uncons t2
    cases t3
    exact mcons (mvec h s1) (mcons (mnum s2 (hn 1 (by decide))) (mcons (mnum s3 (hn 2 (by decide))) mnil))

/-- Handing back a sound value: the contract holds it, and its table only grows. -/
theorem back_shows {objs : List HostObj} {tbl : List Nat} {v : Nat} (mem : List Nat) (hs : Sound objs v) (ht : tbl.length < 2^31) :
    ∃ (e : List Nat) (x : Nat), absToRel tbl v = .ok (tbl ++ e, x) ∧ Shows ⟨mem, objs, tbl ++ e⟩ x v := by
  obtain ⟨tbl', x, hab⟩ := absToRel_succeeds hs ht
  obtain ⟨h1, _⟩ := C10_round_trip ht hab
  have he : ∃ e, tbl' = tbl ++ e := by
    have hab := hab
    unfold absToRel at hab
    split at hab
    · split at hab
      · cases hab
      · split at hab
        · cases hab; exact ⟨_, rfl⟩
        · cases hab
    · cases hab; exact ⟨[], (List.append_nil _).symm⟩
  obtain ⟨e, rfl⟩ := he
  refine ⟨e, x, hab, ?_, ?_, h1, hs⟩
  all_goals
    unfold absToRel at hab
    cases hob : Val.isObject v
    · rw [hob] at hab
      simp only [Bool.false_eq_true, if_false] at hab
      injection hab with hab
      injection hab with _ hab
      subst hab
      have hg := hs.2
      unfold checkIntegrity at hg
      split at hg
      · cases hg
      · first
          | exact hs.1
          | (rename_i hn; simpa using hn)
    · rw [hob] at hab
      simp only [if_true] at hab
      split at hab
      · cases hab
      · rw [indexToHandle_rel ht] at hab
        simp only at hab
        injection hab with hab
        injection hab with _ hab
        subst hab
        have hto := u8IsObject_tag hob
        have hcode : 64 ≤ (Val.tag v).code ∧ (Val.tag v).code ≤ 79 := by
          unfold Tag.u8IsObject at hto
          simp only [Bool.and_eq_true, decide_eq_true_eq] at hto
          simp only [Tag.code] at hto ⊢
          omega
        have heq : valObject (2 * tbl.length) (Val.tag v) = 2 * tbl.length * 2^32 + (Val.tag v).code := valObject_eq _ (by omega)
        have hlt : valObject (2 * tbl.length) (Val.tag v) < 2^64 := by rw [heq]; omega
        first
          | exact hlt
          | (refine (C03_is_good_iff_layout _ hlt).2 ?_
             rw [heq]
             exact .object _ _ hcode.1 hcode.2 (by omega))

theorem handBackH {f : HFn} {ws as : List Nat} {v : Nat} (hm : marshalArgs l.objs l.tbl f.args ws = .ok as)
    (hr : runH cmp l f as = .ok (l', .val v)) (hs : Sound l'.objs v) (ht : l'.tbl.length < 2^31) :
    ∃ (l'' : Lin) (w : Nat), dispatchH cmp l f ws = .ok (l'', (w : Int)) ∧
      l''.mem = l'.mem ∧ l''.objs = l'.objs ∧ Shows l'' w v := by
  obtain ⟨e, x, hab, hsh⟩ := back_shows l'.mem hs ht
  refine ⟨{ l' with tbl := l'.tbl ++ e }, x, ?_, rfl, rfl, hsh⟩
  unfold dispatchH
  refine bind_ok.mpr ⟨_, hm, bind_ok.mpr ⟨_, hr, ?_⟩⟩
  dsimp only
  exact bind_ok.mpr ⟨_, hs.2, bind_ok.mpr ⟨_, hab, rfl⟩⟩

/-- C54: if the words a contract holds stand for values a function works on, with numbers of 32 bits where it takes numbers, then
the call with these words succeeds too. The contract gets the number the function gives, or a word that stands for the value it
gives; memory and objects are as the function leaves them. -/
theorem C54_call {f : HFn} {ws as : List Nat} (hs : List.Forall₂ (Shows l) ws as) (hn : ∀ i ∈ numbersOf f, IsNumber as[i]?)
    (h : runH cmp l f as = .ok (l', r)) :
    match r with
    | .raw n => dispatchH cmp l f ws = .ok (l', n)
    | .val v => Sound l'.objs v → l'.tbl.length < 2^31 →
        ∃ (l'' : Lin) (w : Nat), dispatchH cmp l f ws = .ok (l'', (w : Int)) ∧
      l''.mem = l'.mem ∧ l''.objs = l'.objs ∧ Shows l'' w v := by
  have hm : marshalArgs l.objs l.tbl f.args ws = .ok as := by
    cases f with
    | obj f =>
      obtain ⟨⟨objs, x⟩, h1, h2⟩ := first_ok h
      exact reach_obj hs hn h1
    | buf f =>
      obtain ⟨⟨objs, x⟩, h1, h2⟩ := first_ok h
      exact reach_buf hs hn h1
    | mem f => exact reach_mem hs hn h
  cases r with
  | raw n =>
    unfold dispatchH
    exact bind_ok.mpr ⟨_, hm, bind_ok.mpr ⟨_, h, rfl⟩⟩
  | val v => exact fun h1 h2 => handBackH hm h h1 h2

private theorem number_at {objs : List HostObj} {tbl : List Nat} : ∀ {ts : List ArgTy} {ws as : List Nat} (_ : ∀ w ∈ ws, w < 2^64)
    (_ : marshalArgs objs tbl ts ws = .ok as) {i : Nat} (_ : ts[i]? = some .u32), IsNumber ws[i]?
  | [], _, _, _, _, i, hi => by simp at hi
  | t :: ts, [], as, _, h, i, _ => by cases h
  | t :: ts, w :: ws, as, hw, h, i, hi => by
    obtain ⟨a, h1, h⟩ := bind_ok.mp h
    obtain ⟨as', h2, h⟩ := bind_ok.mp h
    cases i with
    | zero =>
      cases hi
      have ha : ArgTy.accepts .u32 w = true := by
        unfold marshalArg at h1
        split at h1
        · assumption
        · cases h1
      unfold ArgTy.accepts at ha
      rw [Bool.and_eq_true] at ha
      have ht := tag_code (t := .U32Val) (eq_of_beq ha.2) (by decide)
      have hc : Tag.code .U32Val = 4 := rfl
      rw [hc] at ht
      cases (C03_is_good_iff_layout w (hw w (by simp))).1 ha.1 with
      | int32 tag n h h' => exact ⟨n, h', by rw [show tag = 4 by omega]; rfl⟩
      | false_ | true_ | void => omega
      | contractError | systemError | smallInt | symbol | object => omega
    | succ i => exact number_at (fun x hx => hw x (List.mem_cons_of_mem _ hx)) h2 hi

/-- C54: a call that succeeds was given numbers of 32 bits wherever the function takes numbers. -/
theorem C54_call_numbers {f : HFn} {ws : List Nat} {x : Int} (hw : ∀ w ∈ ws, w < 2^64) (h : dispatchH cmp l f ws = .ok (l', x)) :
    ∀ i ∈ numbersOf f, IsNumber ws[i]? := by
  intro i hi
  obtain ⟨as, hm, _⟩ := bind_ok.mp h
  refine number_at hw hm ?_
  rcases f with f | f | f <;> cases f <;> simp only [numbersOf, List.mem_cons, List.not_mem_nil, or_false] at hi <;>
    rcases hi with rfl | rfl | rfl <;> rfl

/-- A frame that holds the string "hi", and a memory of four bytes. -/
private def exampleHi : Lin := ⟨[0, 0, 0, 0], [.string [104, 105]], [valObject 1 .StringObject]⟩

example : ∃ (l'' : Lin) (w : Nat),
    dispatchH (fun _ _ _ => .ok .eq) exampleHi (.mem .stringCopyTo) [valObject 0 .StringObject, valU32 0, valU32 1, valU32 2] =
      .ok (l'', (w : Int)) ∧ l''.mem = [0, 104, 105, 0] ∧ l''.objs = exampleHi.objs ∧ Shows l'' w valVoid :=
  C54_call (as := [valObject 1 .StringObject, valU32 0, valU32 1, valU32 2]) (l' := ⟨[0, 104, 105, 0], exampleHi.objs, exampleHi.tbl⟩)
    (r := .val valVoid)
    (.cons ⟨by decide, by decide, rfl, by decide, rfl⟩ (.cons ⟨by decide, by decide, rfl, by decide, rfl⟩
      (.cons ⟨by decide, by decide, rfl, by decide, rfl⟩ (.cons ⟨by decide, by decide, rfl, by decide, rfl⟩ .nil))))
    (by
      intro i hi
      simp only [numbersOf, List.mem_cons, List.not_mem_nil, or_false] at hi
      rcases hi with rfl | rfl | rfl
      · exact ⟨0, by decide, rfl⟩
      · exact ⟨1, by decide, rfl⟩
      · exact ⟨2, by decide, rfl⟩)
    rfl ⟨by decide, rfl⟩ (by decide)

end Soroban.Props
