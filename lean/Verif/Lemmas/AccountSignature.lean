import Verif.Model.AccountSignature
import Verif.Spec.AccountSignature
import Verif.Lemmas.ContractTypes
/-!
Reading the signatures of an account.
-/
namespace Soroban.AccountSig
open Soroban Soroban.Spec Soroban.ContractTypes Soroban.ContractTypes.Spec Soroban.AccountSig.Spec
open Soroban.Account (Sig AccountEntry)

variable {objs : List HostObj}

theorem ofBytes_acc (b : List Nat) : ∀ n, b.foldl (fun n x => 256 * n + x) n = n * 256 ^ b.length + number b := by
  induction b with
  | nil => intro n; simp [number]
  | cons x b ih =>
    intro n
    rw [List.foldl_cons, ih, number, List.length_cons, Nat.pow_succ]
    rw [Nat.add_mul, Nat.add_assoc]
    congr 1
    rw [Nat.mul_comm 256 n, Nat.mul_assoc, Nat.mul_comm 256]

theorem ofBytes_eq (b : List Nat) : ofBytes b = number b := by
  unfold ofBytes; rw [ofBytes_acc]; simp

theorem number_lt : ∀ {b : List Nat}, (∀ x ∈ b, x < 256) → number b < 256 ^ b.length
  | [], _ => by simp [number]
  | x :: b, h => by
    have h1 := number_lt (b := b) (fun y hy => h y (List.mem_cons_of_mem _ hy))
    have h2 : x ≤ 255 := by have := h x List.mem_cons_self; omega
    have h3 := Nat.mul_le_mul_right (256 ^ b.length) h2
    rw [number, List.length_cons, Nat.pow_succ]
    omega

/-- The order of bytes of the same length is the order of the numbers. -/
theorem lexCmp_number : ∀ {a b : List Nat}, a.length = b.length → (∀ x ∈ a, x < 256) → (∀ x ∈ b, x < 256) →
    (lexCmp a b = .lt ↔ number a < number b) ∧ (lexCmp a b = .gt ↔ number b < number a)
  | [], [], _, _, _ => by simp [lexCmp, number]
  | [], _ :: _, h, _, _ => by cases h
  | _ :: _, [], h, _, _ => by cases h
  | x :: a, y :: b, h, ha, hb => by
    have hl : a.length = b.length := by simpa using h
    obtain ⟨i1, i2⟩ := lexCmp_number hl (fun z hz => ha z (List.mem_cons_of_mem _ hz)) (fun z hz => hb z (List.mem_cons_of_mem _ hz))
    have ka := number_lt (b := a) (fun z hz => ha z (List.mem_cons_of_mem _ hz))
    have kb := number_lt (b := b) (fun z hz => hb z (List.mem_cons_of_mem _ hz))
    rw [lexCmp, number, number, hl]
    rw [hl] at ka
    generalize 256 ^ b.length = P at ka kb ⊢
    have key : ∀ {u w m n : Nat}, u < w → m < P → u * P + m < w * P + n := by
      intro u w m n h1 h2
      have := Nat.mul_le_mul_right P (Nat.succ_le_of_lt h1)
      rw [Nat.succ_mul] at this
      omega
    by_cases h1 : x < y
    · rw [if_pos h1]
      have := key (n := number b) h1 ka
      exact ⟨by simp only [true_iff]; exact this, by simp only [reduceCtorEq, false_iff]; omega⟩
    · rw [if_neg h1]
      by_cases h2 : y < x
      · rw [if_pos h2]
        have := key (n := number a) h2 kb
        exact ⟨by simp only [reduceCtorEq, false_iff]; omega, by simp only [true_iff]; exact this⟩
      · rw [if_neg h2]
        have hxy : x = y := by omega
        subst hxy
        rw [i1, i2]
        omega

theorem readBytesN_is (hobjs : ObjsOk objs) {n v : Nat} {s : ScVal} {b : List Nat} (h : Is objs v s) (hr : readBytesN objs n v = .ok b) :
    s = .bytes b ∧ b.length = n := by
  unfold readBytesN at hr
  obtain ⟨w, h1, hr1⟩ := bind_ok.mp hr
  obtain ⟨_, rfl⟩ := asObj_ok.1 h1
  obtain ⟨c, h2, hr2⟩ := bind_ok.mp hr1
  split at hr2
  · rename_i hl
    cases hr2
    exact ⟨is_bytes hobjs h h2, hl⟩
  · cases hr2

theorem bytesN_is (hobjs : ObjsOk objs) {n v : Nat} {b : List Nat} (h : Is objs v (.bytes b)) (hl : b.length = n) :
    readBytesN objs n v = .ok b := by
  obtain ⟨h1, h2⟩ := bytes_is hobjs h
  exact bind_ok.mpr ⟨v, asObj_ok.2 ⟨h1, rfl⟩, bind_ok.mpr ⟨b, h2, by rw [if_pos hl]⟩⟩

theorem names_eq : txt "public_key" = nPublicKey ∧ txt "signature" = nSignature := by decide

/-- An element is read as a signature exactly if its value is that of one. -/
theorem readSig_iff (hobjs : ObjsOk objs) {v : Nat} {s : ScVal} (h : Is objs v s) (x : Sig) :
    readSig objs v = .ok x ↔ ∃ p : KeySig, s = p.value ∧ p.Sized ∧ x = p.numbers := by
  constructor
  · intro hr
    unfold readSig at hr
    obtain ⟨vs, h1, hr1⟩ := bind_ok.mp hr
    obtain ⟨ss, rfl, h2, h3⟩ := readStruct_is hobjs (by decide) h h1
    match vs, h3, hr1, h2 with
    | [k, t], _, hr1, .cons (b := sk) gk (.cons (b := st) gt .nil) =>
      dsimp only at hr1
      obtain ⟨kb, h4, hr2⟩ := bind_ok.mp hr1
      obtain ⟨tb, h5, hr3⟩ := bind_ok.mp hr2
      cases hr3
      obtain ⟨rfl, l1⟩ := readBytesN_is hobjs gk h4
      obtain ⟨rfl, l2⟩ := readBytesN_is hobjs gt h5
      refine ⟨⟨kb, tb⟩, ?_, ⟨l1, l2⟩, ?_⟩
      · unfold KeySig.value; rw [names_eq.1, names_eq.2]; rfl
      · unfold KeySig.numbers; rw [ofBytes_eq, ofBytes_eq]
  · rintro ⟨⟨kb, tb⟩, rfl, ⟨l1, l2⟩, rfl⟩
    unfold KeySig.value at h
    rw [names_eq.1, names_eq.2] at h
    obtain ⟨vs, h1, h2⟩ := struct_is hobjs (ts := [nPublicKey, nSignature]) (ss := [.bytes kb, .bytes tb]) (by decide) rfl h
    match vs, h2 with
    | [k, t], .cons gk (.cons gt .nil) =>
      unfold readSig
      refine bind_ok.mpr ⟨_, h1, ?_⟩
      dsimp only
      refine bind_ok.mpr ⟨kb, bytesN_is hobjs gk l1, bind_ok.mpr ⟨tb, bytesN_is hobjs gt l2, ?_⟩⟩
      unfold KeySig.numbers; rw [ofBytes_eq, ofBytes_eq]

theorem readSigList_iff (hobjs : ObjsOk objs) : ∀ {vs : List Nat} {ss : List ScVal}, List.Forall₂ (Is objs) vs ss → ∀ (xs : List Sig),
    vs.map (readSig objs) = xs.map .ok ↔ ∃ l : List KeySig, ss = l.map KeySig.value ∧ (∀ p ∈ l, p.Sized) ∧ xs = l.map KeySig.numbers
  | [], [], .nil, xs => by
    constructor
    · intro h
      have hx : xs = [] := by cases xs with
        | nil => rfl
        | cons x xs => cases h
      exact ⟨[], rfl, (fun p hp => by cases hp), hx⟩
    · rintro ⟨l, h1, -, rfl⟩
      have : l = [] := by cases l with
        | nil => rfl
        | cons x xs => cases h1
      subst this; rfl
  | v :: vs, s :: ss, .cons g gs, xs => by
    constructor
    · intro h
      cases xs with
      | nil => cases h
      | cons x xs =>
        rw [List.map_cons, List.map_cons] at h
        injection h with h1 h2
        obtain ⟨p, rfl, hp, rfl⟩ := (readSig_iff hobjs g x).mp h1
        obtain ⟨l, rfl, hl, rfl⟩ := (readSigList_iff hobjs gs xs).mp h2
        exact ⟨p :: l, rfl, (fun q hq => by
          rcases List.mem_cons.mp hq with rfl | hq
          · exact hp
          · exact hl q hq), rfl⟩
    · rintro ⟨l, h1, h2, rfl⟩
      cases l with
      | nil => cases h1
      | cons p l =>
        rw [List.map_cons] at h1
        injection h1 with e1 e2
        rw [List.map_cons, List.map_cons, List.map_cons]
        rw [(readSig_iff hobjs g p.numbers).mpr ⟨p, e1, h2 p List.mem_cons_self, rfl⟩]
        rw [(readSigList_iff hobjs gs (l.map KeySig.numbers)).mpr ⟨l, e2, (fun q hq => h2 q (List.mem_cons_of_mem _ hq)), rfl⟩]

/-- The signature value is read as a list of signatures exactly if it is the value of one. -/
theorem readSigs_iff (hobjs : ObjsOk objs) {v : Nat} {s : ScVal} (h : Is objs v s) (xs : List Sig) :
    readSigs objs v = .ok (xs.map .ok) ↔ ∃ l : List KeySig, s = valueOf l ∧ (∀ p ∈ l, p.Sized) ∧ xs = l.map KeySig.numbers := by
  constructor
  · intro hr
    unfold readSigs at hr
    obtain ⟨w, h1, hr1⟩ := bind_ok.mp hr
    obtain ⟨_, rfl⟩ := asObj_ok.1 h1
    obtain ⟨vs, h2, hr2⟩ := bind_ok.mp hr1
    obtain ⟨ss, rfl, h3⟩ := is_vec hobjs h h2
    injection hr2 with hr3
    obtain ⟨l, rfl, h4, h5⟩ := (readSigList_iff hobjs h3 xs).mp hr3
    exact ⟨l, rfl, h4, h5⟩
  · rintro ⟨l, rfl, h1, h2⟩
    obtain ⟨g1, vs, g2, g3⟩ := vec_is hobjs h
    refine bind_ok.mpr ⟨v, asObj_ok.2 ⟨g1, rfl⟩, bind_ok.mpr ⟨vs, g2, ?_⟩⟩
    rw [(readSigList_iff hobjs g3 xs).mpr ⟨l, rfl, h1, h2⟩]

end Soroban.AccountSig
