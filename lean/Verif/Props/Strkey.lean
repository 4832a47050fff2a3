import Verif.Lemmas.StrkeyTypo
import Verif.Lemmas.Convert
/-!
C71: the text form of addresses. A text is accepted exactly if it is the one text of an address; writing and parsing are
inverse; a mistake in one or two neighbouring characters is always found.

All theorems are about the host functions on an object table `objs` with less than 2^31 objects (see C10 for what happens
beyond), and about texts of any content and length.
-/
namespace Soroban.Props
open Soroban.Strkey Soroban.Strkey.Spec

theorem addObj_created {objs : List HostObj} (o : HostObj) (hl : objs.length < 2^31) :
    ∃ objs' w, addObj objs o = .ok (objs', w) ∧ Created objs o objs' w := by
  obtain ⟨w, h⟩ := addObj_ok o hl
  obtain ⟨h1, _, h3, _⟩ := addObj_sound hl h
  exact ⟨_, w, h, h1, h3⟩

theorem created_of_add {objs objs' : List HostObj} {o : HostObj} {w : Nat} (hl : objs.length < 2^31)
    (h : addObj objs o = .ok (objs', w)) : Created objs o objs' w := by
  obtain ⟨h1, _, h3, _⟩ := addObj_sound hl h
  exact ⟨h1, h3⟩

theorem strkey_written {a : ScAddr} (hf : Fits a) (hp : Plain a) : ∃ s, nonMuxedToStrkey a = .ok s ∧ IsStrkey s a := by
  cases a with
  | account k => exact ⟨_, rfl, isStrkey_iff.mpr ⟨_, rfl, fromText_publicKey.mpr ⟨hf, rfl⟩⟩⟩
  | contract k => exact ⟨_, rfl, isStrkey_iff.mpr ⟨_, rfl, fromText_contract.mpr ⟨hf, rfl⟩⟩⟩
  | muxedAccount i k => exact hp.elim
  | claimableBalance i => exact hp.elim
  | liquidityPool i => exact hp.elim

theorem muxed_strkey_written {i k : Nat} (hf : Fits (.muxedAccount i k)) :
    ∃ s, muxedToStrkey (.muxedAccount i k) = .ok s ∧ IsStrkey s (.muxedAccount i k) :=
  ⟨_, rfl, isStrkey_iff.mpr ⟨_, rfl, fromText_muxed.mpr ⟨hf.2, hf.1, rfl⟩⟩⟩

/-- `strkey_to_address` accepts a string or bytes object exactly if it holds the text of an account or of a contract, and
then returns a new object with that address. Any other text is refused. -/
theorem C71_parse {objs : List HostObj} {v : Nat} {s : List Nat} (hl : objs.length < 2^31) (ht : IsText objs v s) :
    (∀ a, IsStrkey s a → Plain a → ∃ objs' w, strkeyToAddress objs v = .ok (objs', w) ∧ Created objs (.address a) objs' w) ∧
    ((∀ a, IsStrkey s a → ¬ Plain a) → strkeyToAddress objs v = .error (.host .value .invalidInput)) := by
  constructor
  · intro a hs hp
    unfold strkeyToAddress
    rw [strkeyToScAddress_of_strkey ht hs (.inr hp)]
    show ∃ objs' w, addAddress objs a = _ ∧ _
    cases a with
    | account k => exact addObj_created _ hl
    | contract k => exact addObj_created _ hl
    | muxedAccount i k => exact hp.elim
    | claimableBalance i => exact hp.elim
    | liquidityPool i => exact hp.elim
  · intro h
    unfold strkeyToAddress
    rw [strkeyToScAddress_reject ht (fun a ha hm => by
      rcases hm with hm | hm
      · exact nomatch hm
      · exact h a ha hm)]
    rfl

/-- `strkey_to_muxed_address` accepts in addition the text of a muxed account, and then returns a muxed address object. -/
theorem C71_parse_muxed {objs : List HostObj} {v : Nat} {s : List Nat} (hl : objs.length < 2^31) (ht : IsText objs v s) :
    (∀ a, IsStrkey s a → Plain a →
      ∃ objs' w, strkeyToMuxedAddress objs v = .ok (objs', w) ∧ Created objs (.address a) objs' w) ∧
    (∀ i k, IsStrkey s (.muxedAccount i k) →
      ∃ objs' w, strkeyToMuxedAddress objs v = .ok (objs', w) ∧ Created objs (.muxedAddress (.muxedAccount i k)) objs' w) ∧
    ((∀ a, ¬ IsStrkey s a) → strkeyToMuxedAddress objs v = .error (.host .value .invalidInput)) := by
  refine ⟨?_, ?_, ?_⟩
  · intro a hs hp
    unfold strkeyToMuxedAddress
    rw [strkeyToScAddress_of_strkey ht hs (.inl rfl)]
    cases a with
    | account k => exact addObj_created (.address (.account k)) hl
    | contract k => exact addObj_created (.address (.contract k)) hl
    | muxedAccount i k => exact hp.elim
    | claimableBalance i => exact hp.elim
    | liquidityPool i => exact hp.elim
  · intro i k hs
    unfold strkeyToMuxedAddress
    rw [strkeyToScAddress_of_strkey ht hs (.inl rfl)]
    exact addObj_created (.muxedAddress (.muxedAccount i k)) hl
  · intro h
    unfold strkeyToMuxedAddress
    rw [strkeyToScAddress_reject ht (fun a ha _ => h a ha)]
    rfl

/-- What is not a string or bytes object is refused by both functions. -/
theorem C71_parse_other {objs : List HostObj} {v : Nat} (h : ∀ s, ¬ IsText objs v s) :
    (∀ r, strkeyToAddress objs v ≠ .ok r) ∧ (∀ r, strkeyToMuxedAddress objs v ≠ .ok r) := by
  constructor
  · intro r hr
    obtain ⟨a, ha, _⟩ := bind_ok.mp hr
    obtain ⟨s, hs, _⟩ := strkeyToScAddress_iff.mp ha
    exact h s hs
  · intro r hr
    obtain ⟨a, ha, _⟩ := bind_ok.mp hr
    obtain ⟨s, hs, _⟩ := strkeyToScAddress_iff.mp ha
    exact h s hs

/-- `address_to_strkey` and `muxed_address_to_strkey` return the text of the address. -/
theorem C71_write {objs : List HostObj} {v : Nat} {a : ScAddr} (hl : objs.length < 2^31) (hf : Fits a) :
    (visitObj objs v = .ok (.address a) → Plain a → ∃ objs' w s, addressToStrkey objs v = .ok (objs', w) ∧
      muxedAddressToStrkey objs v = .ok (objs', w) ∧ Created objs (.string s) objs' w ∧ IsStrkey s a) ∧
    (∀ i k, a = .muxedAccount i k → visitObj objs v = .ok (.muxedAddress a) → ∃ objs' w s,
      muxedAddressToStrkey objs v = .ok (objs', w) ∧ Created objs (.string s) objs' w ∧ IsStrkey s a) := by
  constructor
  · intro hv hp
    obtain ⟨s, hs, hk⟩ := strkey_written hf hp
    obtain ⟨objs', w, h, hc⟩ := addObj_created (.string s) hl
    refine ⟨objs', w, s, ?_, ?_, hc, hk⟩
    · unfold addressToStrkey visitAddress
      rw [hv]
      show (nonMuxedToStrkey a >>= fun s => addObj objs (.string s)) = _
      rw [hs]; exact h
    · unfold muxedAddressToStrkey
      rw [visitObj_isObject hv, hv]
      show (nonMuxedToStrkey a >>= fun s => addObj objs (.string s)) = _
      rw [hs]; exact h
  · intro i k ha hv
    subst ha
    obtain ⟨s, hs, hk⟩ := muxed_strkey_written hf
    obtain ⟨objs', w, h, hc⟩ := addObj_created (.string s) hl
    refine ⟨objs', w, s, ?_, hc, hk⟩
    unfold muxedAddressToStrkey
    rw [visitObj_isObject hv, hv]
    show (muxedToStrkey (.muxedAccount i k) >>= fun s => addObj objs (.string s)) = _
    rw [hs]; exact h

/-- Every address has one text, and every text belongs to at most one address. -/
theorem C71_one_text (a : ScAddr) (hf : Fits a) (hk : Plain a ∨ ∃ i k, a = .muxedAccount i k) :
    (∃ s, IsStrkey s a) ∧ (∀ s s', IsStrkey s a → IsStrkey s' a → s = s') ∧ (∀ s b, IsStrkey s a → IsStrkey s b → a = b) := by
  refine ⟨?_, fun s s' h h' => isStrkey_text h h', fun s b h h' => isStrkey_addr h h'⟩
  rcases hk with hp | ⟨i, k, rfl⟩
  · obtain ⟨s, _, hs⟩ := strkey_written hf hp; exact ⟨s, hs⟩
  · obtain ⟨s, _, hs⟩ := muxed_strkey_written hf; exact ⟨s, hs⟩

/-- Writing an address and parsing the text gives the address again. -/
theorem C71_round_trip {objs objs' : List HostObj} {v w : Nat} (hl : objs.length + 1 < 2^31)
    (h : muxedAddressToStrkey objs v = .ok (objs', w)) (hf : ∀ a, HostObj.address a ∈ objs → Plain a ∧ Fits a)
    (hm : ∀ a, HostObj.muxedAddress a ∈ objs → (∃ i k, a = .muxedAccount i k) ∧ Fits a) :
    ∃ objs'' x o, strkeyToMuxedAddress objs' w = .ok (objs'', x) ∧ visitObj objs v = .ok o ∧ visitObj objs'' x = .ok o := by
  unfold muxedAddressToStrkey at h
  cases hv : Val.isObject v with
  | false => rw [hv] at h; exact nomatch h
  | true =>
    rw [hv] at h
    obtain ⟨o, ho, h1⟩ := bind_ok.mp h
    have hmem : o ∈ objs := List.mem_of_getElem? (visitObj_ok.mp ho).2.2
    cases o with
    | address a =>
      obtain ⟨s, hs, h2⟩ := bind_ok.mp (show (nonMuxedToStrkey a >>= fun s => addObj objs (.string s)) = _ from h1)
      obtain ⟨he, hw⟩ := created_of_add (by omega) h2
      have hl' : objs'.length < 2^31 := by rw [he, List.length_append]; exact hl
      obtain ⟨hp, hfit⟩ := hf a hmem
      obtain ⟨s', hs', hk⟩ := strkey_written hfit hp
      have e : s' = s := by
        have : nonMuxedToStrkey a = .ok s := hs
        rw [this] at hs'
        exact (Except.ok.inj hs').symm
      subst e
      obtain ⟨objs'', x, hx, _, hx'⟩ := (C71_parse_muxed hl' (.inl hw)).1 a hk hp
      exact ⟨objs'', x, _, hx, ho, hx'⟩
    | muxedAddress a =>
      obtain ⟨⟨i, k, e0⟩, hfit⟩ := hm a hmem
      subst e0
      obtain ⟨s, hs, h2⟩ :=
        bind_ok.mp (show (muxedToStrkey (.muxedAccount i k) >>= fun s => addObj objs (.string s)) = _ from h1)
      obtain ⟨he, hw⟩ := created_of_add (by omega) h2
      have hl' : objs'.length < 2^31 := by rw [he, List.length_append]; exact hl
      obtain ⟨s', hs', hk⟩ := muxed_strkey_written hfit
      have e : s' = s := by
        have : muxedToStrkey (.muxedAccount i k) = .ok s := hs
        rw [this] at hs'
        exact (Except.ok.inj hs').symm
      subst e
      obtain ⟨objs'', x, hx, _, hx'⟩ := (C71_parse_muxed hl' (.inl hw)).2.1 i k hk
      exact ⟨objs'', x, _, hx, ho, hx'⟩
    | _ => exact nomatch h1

/-- The text of a muxed account yields the account and the id it was made from. -/
theorem C71_muxed_parts {objs objs' : List HostObj} {v w i k : Nat} {s : List Nat} (hl : objs.length + 1 < 2^31)
    (ht : IsText objs v s) (hs : IsStrkey s (.muxedAccount i k)) (h : strkeyToMuxedAddress objs v = .ok (objs', w)) :
    getIdFromMuxed objs' w = .ok i ∧
    ∃ objs'' x, getAddressFromMuxed objs' w = .ok (objs'', x) ∧ Created objs' (.address (.account k)) objs'' x := by
  obtain ⟨o, w', h1, h2, h3⟩ := (C71_parse_muxed (by omega) ht).2.1 i k hs
  rw [h1] at h
  have e1 := (Prod.mk.inj (Except.ok.inj h)).1
  have e2 := (Prod.mk.inj (Except.ok.inj h)).2
  subst e1; subst e2
  constructor
  · unfold getIdFromMuxed visitMuxedAddress
    rw [h3]; rfl
  · unfold getAddressFromMuxed visitMuxedAddress
    rw [h3]
    exact addObj_created (.address (.account k)) (by rw [h2, List.length_append]; exact hl)

/-- The text of an address with one character, or two neighbouring ones, changed in any way (swapped, for instance) is not
the text of any address: both functions refuse it. -/
theorem C71_mistake {objs : List HostObj} {v : Nat} {s s' : List Nat} {a : ScAddr} {i : Nat} (hs : IsStrkey s a)
    (hl : s'.length = s.length) (hd : ∀ j, j ≠ i → j ≠ i + 1 → s[j]? = s'[j]?) (hne : s' ≠ s) (ht : IsText objs v s') :
    strkeyToAddress objs v = .error (.host .value .invalidInput) ∧
    strkeyToMuxedAddress objs v = .error (.host .value .invalidInput) := by
  have hno : ∀ b, ¬ IsStrkey s' b := fun b hb => hne (isStrkey_typo hs hb hd hl.symm).symm
  constructor
  · unfold strkeyToAddress
    rw [strkeyToScAddress_reject ht (fun b hb _ => hno b hb)]
    rfl
  · unfold strkeyToMuxedAddress
    rw [strkeyToScAddress_reject ht (fun b hb _ => hno b hb)]
    rfl

/-! ### Examples -/

/-- The key of the examples in SEP-0023 and in soroban-env-host/src/test/address.rs:120-124. -/
def sepKey : Nat := Soroban.Strkey.ofBe [0x3f, 0x0c, 0x34, 0xbf, 0x93, 0xad, 0x0d, 0x99, 0x71, 0xd0, 0x4c, 0xcc, 0x90, 0xf7, 0x05, 0x51,
  0x1c, 0x83, 0x8a, 0xad, 0x97, 0x34, 0xa4, 0xa2, 0xfb, 0x0d, 0x7a, 0x03, 0xfc, 0x7f, 0xe8, 0x9a]

/-- A string as a list of bytes. -/
def asciiOf (s : String) : List Nat := s.toList.map Char.toNat

def sepG : List Nat := asciiOf "GA7QYNF7SOWQ3GLR2BGMZEHXAVIRZA4KVWLTJJFC7MGXUA74P7UJVSGZ"
def sepC : List Nat := asciiOf "CA7QYNF7SOWQ3GLR2BGMZEHXAVIRZA4KVWLTJJFC7MGXUA74P7UJUWDA"
def sepM : List Nat := asciiOf "MA7QYNF7SOWQ3GLR2BGMZEHXAVIRZA4KVWLTJJFC7MGXUA74P7UJUAAAAAAAAAAAACJUQ"
/-- `sepG` with the first two characters after `GA` swapped. -/
def sepSwapped : List Nat := asciiOf "GAQ7YNF7SOWQ3GLR2BGMZEHXAVIRZA4KVWLTJJFC7MGXUA74P7UJVSGZ"

/-- The repository's known answers (test/address.rs:134-135, 176-177, 462-463). -/
theorem sep_texts : IsStrkey sepG (.account sepKey) ∧ IsStrkey sepC (.contract sepKey) ∧ IsStrkey sepM (.muxedAccount 0 sepKey) := by
  refine ⟨isStrkey_iff.mpr ⟨_, rfl, ?_⟩, isStrkey_iff.mpr ⟨_, rfl, ?_⟩, isStrkey_iff.mpr ⟨_, rfl, ?_⟩⟩ <;> decide +kernel

example : Fits (.account sepKey) ∧ Fits (.contract sepKey) ∧ Fits (.muxedAccount 0 sepKey) := by
  refine ⟨?_, ?_, ?_⟩ <;> (unfold Fits; decide +kernel)

/-- A table with an account, a text, a muxed account and a text with a mistake in it. -/
def sepObjs : List HostObj :=
  [.address (.account sepKey), .string sepG, .muxedAddress (.muxedAccount 0 sepKey), .bytes sepM, .bytes sepSwapped]

example : IsText sepObjs (valObject 3 .StringObject) sepG := .inl (by decide +kernel)
example : IsText sepObjs (valObject 7 .BytesObject) sepM := .inr (by decide +kernel)

example : ∃ objs' w, strkeyToAddress sepObjs (valObject 3 .StringObject) = .ok (objs', w) ∧
    Created sepObjs (.address (.account sepKey)) objs' w :=
  (C71_parse (by decide) (.inl (by decide +kernel))).1 _ sep_texts.1 trivial

/-- A muxed account's text is not accepted where an address is asked for. -/
example : strkeyToAddress sepObjs (valObject 7 .BytesObject) = .error (.host .value .invalidInput) :=
  (C71_parse (s := sepM) (by decide) (.inr (by decide +kernel))).2 (fun a ha => by
    have := isStrkey_addr sep_texts.2.2 ha
    subst this
    exact fun h => h)

example : ∃ objs' w, muxedAddressToStrkey sepObjs (valObject 5 .MuxedAddressObject) = .ok (objs', w) := by
  obtain ⟨objs', w, s, h, _⟩ := (C71_write (objs := sepObjs) (v := valObject 5 .MuxedAddressObject) (a := .muxedAccount 0 sepKey)
    (by decide) (by unfold Fits; decide +kernel)).2 0 sepKey rfl (by decide +kernel)
  exact ⟨objs', w, h⟩

/-- The hypotheses of `C71_round_trip` hold for this table. -/
example : (∀ a, HostObj.address a ∈ sepObjs → Plain a ∧ Fits a) ∧
    (∀ a, HostObj.muxedAddress a ∈ sepObjs → (∃ i k, a = .muxedAccount i k) ∧ Fits a) := by
  have hk : sepKey < 256 ^ 32 := by decide +kernel
  have h0 : (0 : Nat) < 256 ^ 8 := by decide
  constructor <;> intro a ha
  · simp only [sepObjs, List.mem_cons, HostObj.address.injEq, reduceCtorEq, List.not_mem_nil, or_false, false_or] at ha
    subst ha
    exact ⟨trivial, hk⟩
  · simp only [sepObjs, List.mem_cons, HostObj.muxedAddress.injEq, reduceCtorEq, List.not_mem_nil, or_false, false_or] at ha
    subst ha
    exact ⟨⟨_, _, rfl⟩, h0, hk⟩

/-- Two neighbouring characters of the account's text swapped. -/
example : strkeyToAddress sepObjs (valObject 9 .BytesObject) = .error (.host .value .invalidInput) :=
  (C71_mistake (s' := sepSwapped) (i := 2) sep_texts.1 (by decide) (by
    intro j h1 h2
    by_cases hj : j < 56
    · revert h1 h2; revert j; decide +kernel
    · rw [List.getElem?_eq_none (by show 56 ≤ j; omega), List.getElem?_eq_none (by show 56 ≤ j; omega)])
    (by decide) (.inr (by decide +kernel))).1

/-- Mistakes in three neighbouring characters can go unnoticed: the payload's last four bits and the first eleven bits of the
checksum, which is written low byte first. These two accounts' texts differ only in characters 52 to 54. -/
theorem C71_mistake_sharp : ∃ s s' a a', IsStrkey s a ∧ IsStrkey s' a' ∧ s ≠ s' ∧ s.length = s'.length ∧
    ∀ j, j < 52 ∨ 54 < j → s[j]? = s'[j]? := by
  refine ⟨toText (.publicKey 0), toText (.publicKey 2), .account 0, .account 2, ?_, ?_, by decide +kernel, by decide +kernel, ?_⟩
  · exact isStrkey_iff.mpr ⟨_, rfl, by decide +kernel⟩
  · exact isStrkey_iff.mpr ⟨_, rfl, by decide +kernel⟩
  · intro j hj
    by_cases h56 : j < 56
    · revert hj; revert j; decide +kernel
    · have e : (toText (.publicKey 0)).length = 56 := by decide +kernel
      have e' : (toText (.publicKey 2)).length = 56 := by decide +kernel
      rw [List.getElem?_eq_none (by omega), List.getElem?_eq_none (by omega)]

end Soroban.Props
