import Verif.Lemmas.StrkeyCrc
import Verif.Lemmas.Objects
/-! Lemmas for C71: what the decoder of `Model/Strkey.lean` accepts, and which mistakes the checksum finds. -/
namespace Soroban.Strkey
open Spec (IsStrkey IsCrc Form Plain IsText)

theorem be_eq_beBytes (n v : Nat) : Spec.be n v = beBytes n v := by
  unfold Spec.be beBytes
  apply List.ext_getElem?
  intro i
  by_cases h : i < n
  · rw [List.getElem?_reverse (by rw [toLe_length]; exact h), toLe_length, toLe_get n v _ (by omega)]
    simp [h]
  · rw [List.getElem?_eq_none (by simpa using h), List.getElem?_eq_none (by rw [List.length_reverse, toLe_length]; omega)]

theorem beBytes_length (n v : Nat) : (beBytes n v).length = n := by rw [beBytes, List.length_reverse, toLe_length]

theorem beBytes_lt (n v : Nat) : ∀ x ∈ beBytes n v, x < 256 := by
  intro x hx
  rw [← be_eq_beBytes, Spec.be, List.mem_map] at hx
  obtain ⟨i, _, h⟩ := hx
  rw [← h]
  exact Nat.mod_lt _ (by decide)

theorem ofBe_beBytes (n v : Nat) (h : v < 256 ^ n) : ofBe (beBytes n v) = v := by
  rw [ofBe, beBytes, List.reverse_reverse, fromLe_toLe n v h]

theorem beBytes_ofBe {b : List Nat} {n : Nat} (hl : b.length = n) (h : ∀ x ∈ b, x < 256) : beBytes n (ofBe b) = b := by
  subst hl
  rw [ofBe, beBytes]
  have := toLe_fromLe b.reverse (fun x hx => h x (List.mem_reverse.mp hx))
  rw [List.length_reverse] at this
  rw [this, List.reverse_reverse]

theorem ofBe_lt {b : List Nat} {n : Nat} (hl : b.length = n) (h : ∀ x ∈ b, x < 256) : ofBe b < 256 ^ n := by
  subst hl
  have := fromLe_lt b.reverse (fun x hx => h x (List.mem_reverse.mp hx))
  rwa [List.length_reverse] at this

theorem crc16_lt (d : List Nat) : crc16 d < 2 ^ 16 := crcL_lt _ 0 (by decide)

theorem checksum_lt (d : List Nat) : ∀ x ∈ checksum d, x < 256 := by
  intro x hx
  have := crc16_lt d
  rcases List.mem_cons.mp hx with h | h
  · omega
  · rcases List.mem_cons.mp h with h' | h'
    · omega
    · exact nomatch h'

theorem decode_iff {s : List Nat} {ver : Nat} {p : List Nat} :
    decode s = some (ver, p) ↔ (∀ x ∈ ver :: p, x < 256) ∧ s = encode ver p := by
  constructor
  · intro h
    unfold decode at h
    cases hd : base32Decode s with
    | none => rw [hd] at h; exact nomatch h
    | some d =>
      rw [hd] at h
      simp only at h
      obtain ⟨hb, hs⟩ := base32Decode_some hd
      by_cases h1 : d.length < 3
      · rw [if_pos h1] at h; exact nomatch h
      · rw [if_neg h1] at h
        by_cases h2 : d.drop (d.length - 2) = checksum (d.take (d.length - 2))
        · rw [if_pos h2] at h
          cases ht : d.take (d.length - 2) with
          | nil => rw [ht] at h; exact nomatch h
          | cons v q =>
            rw [ht] at h
            have h3 := Option.some.inj h
            have hv := (Prod.mk.inj h3).1
            have hp := (Prod.mk.inj h3).2
            subst hv; subst hp
            refine ⟨fun x hx => hb x (List.mem_of_mem_take (i := d.length - 2) (by rw [ht]; exact hx)), ?_⟩
            rw [hs, encode]
            congr 1
            have := List.take_append_drop (d.length - 2) d
            rw [h2, ht] at this
            exact this.symm
        · rw [if_neg h2] at h; exact nomatch h
  · rintro ⟨hb, rfl⟩
    unfold decode encode
    rw [base32Decode_encode _ (fun x hx => by
      rcases List.mem_append.mp hx with h | h
      · exact hb x h
      · exact checksum_lt _ x h)]
    have hl : (ver :: p ++ checksum (ver :: p)).length - 2 = (ver :: p).length := by
      rw [List.length_append]; show _ + 2 - 2 = _; rfl
    simp only
    rw [if_neg (by rw [List.length_append, List.length_cons]; show ¬ (p.length + 1 + 2 < 3); omega), hl,
      List.drop_left' rfl, List.take_left' rfl, if_pos rfl]

theorem fromText_publicKey {s : List Nat} {k : Nat} :
    fromText s = some (.publicKey k) ↔ k < 256 ^ 32 ∧ s = encode 48 (beBytes 32 k) := by
  constructor
  · intro h
    unfold fromText at h
    cases hd : decode s with
    | none => rw [hd] at h; exact nomatch h
    | some vp =>
      obtain ⟨ver, p⟩ := vp
      rw [hd] at h
      simp only at h
      obtain ⟨hb, hs⟩ := decode_iff.mp hd
      have hb' : ∀ x ∈ p, x < 256 := fun x hx => hb x (List.mem_cons_of_mem _ hx)
      split at h
      · rename_i hv
        split at h
        · rename_i hl
          have hk := Key.publicKey.inj (Option.some.inj h)
          rw [← hk]
          exact ⟨ofBe_lt hl hb', by rw [beBytes_ofBe hl hb', hs, hv]⟩
        · exact nomatch h
      · split at h
        · split at h <;> exact nomatch h
        · split at h
          · split at h <;> exact nomatch h
          · exact nomatch h
  · rintro ⟨hk, hs⟩
    unfold fromText
    rw [decode_iff.mpr ⟨fun x hx => by
      rcases List.mem_cons.mp hx with h | h
      · rw [h]; decide
      · exact beBytes_lt _ _ x h, hs⟩]
    simp only
    rw [if_pos trivial, if_pos (beBytes_length 32 k), ofBe_beBytes 32 k hk]

theorem fromText_contract {s : List Nat} {k : Nat} :
    fromText s = some (.contract k) ↔ k < 256 ^ 32 ∧ s = encode 16 (beBytes 32 k) := by
  constructor
  · intro h
    unfold fromText at h
    cases hd : decode s with
    | none => rw [hd] at h; exact nomatch h
    | some vp =>
      obtain ⟨ver, p⟩ := vp
      rw [hd] at h
      simp only at h
      obtain ⟨hb, hs⟩ := decode_iff.mp hd
      have hb' : ∀ x ∈ p, x < 256 := fun x hx => hb x (List.mem_cons_of_mem _ hx)
      split at h
      · split at h <;> exact nomatch h
      · split at h
        · rename_i hv
          split at h
          · rename_i hl
            have hk := Key.contract.inj (Option.some.inj h)
            rw [← hk]
            exact ⟨ofBe_lt hl hb', by rw [beBytes_ofBe hl hb', hs, hv]⟩
          · exact nomatch h
        · split at h
          · split at h <;> exact nomatch h
          · exact nomatch h
  · rintro ⟨hk, hs⟩
    unfold fromText
    rw [decode_iff.mpr ⟨fun x hx => by
      rcases List.mem_cons.mp hx with h | h
      · rw [h]; decide
      · exact beBytes_lt _ _ x h, hs⟩]
    simp only
    rw [if_neg (by decide), if_pos trivial, if_pos (beBytes_length 32 k), ofBe_beBytes 32 k hk]

theorem fromText_muxed {s : List Nat} {i k : Nat} :
    fromText s = some (.muxed i k) ↔ k < 256 ^ 32 ∧ i < 256 ^ 8 ∧ s = encode 96 (beBytes 32 k ++ beBytes 8 i) := by
  constructor
  · intro h
    unfold fromText at h
    cases hd : decode s with
    | none => rw [hd] at h; exact nomatch h
    | some vp =>
      obtain ⟨ver, p⟩ := vp
      rw [hd] at h
      simp only at h
      obtain ⟨hb, hs⟩ := decode_iff.mp hd
      have hb' : ∀ x ∈ p, x < 256 := fun x hx => hb x (List.mem_cons_of_mem _ hx)
      split at h
      · split at h <;> exact nomatch h
      · split at h
        · split at h <;> exact nomatch h
        · split at h
          · rename_i hv
            split at h
            · rename_i hl
              have hk := Key.muxed.inj (Option.some.inj h)
              have h1 := hk.1
              have h2 := hk.2
              have hl1 : (p.take 32).length = 32 := by rw [List.length_take]; omega
              have hl2 : (p.drop 32).length = 8 := by rw [List.length_drop]; omega
              have hb1 : ∀ x ∈ p.take 32, x < 256 := fun x hx => hb' x (List.mem_of_mem_take hx)
              have hb2 : ∀ x ∈ p.drop 32, x < 256 := fun x hx => hb' x (List.mem_of_mem_drop hx)
              rw [← h1, ← h2]
              refine ⟨ofBe_lt hl1 hb1, ofBe_lt hl2 hb2, ?_⟩
              rw [beBytes_ofBe hl1 hb1, beBytes_ofBe hl2 hb2, hs, hv, List.take_append_drop]
            · exact nomatch h
          · exact nomatch h
  · rintro ⟨hk, hi, hs⟩
    unfold fromText
    rw [decode_iff.mpr ⟨fun x hx => by
      rcases List.mem_cons.mp hx with h | h
      · rw [h]; decide
      · rcases List.mem_append.mp h with h' | h'
        · exact beBytes_lt _ _ x h'
        · exact beBytes_lt _ _ x h', hs⟩]
    simp only
    rw [if_neg (by decide), if_neg (by decide), if_pos trivial, if_pos (by rw [List.length_append, beBytes_length, beBytes_length]),
      List.take_left' (beBytes_length 32 k), List.drop_left' (beBytes_length 32 k), ofBe_beBytes 32 k hk, ofBe_beBytes 8 i hi]

/-- The library's key for an address. -/
def keyOf : ScAddr → Option Key
  | .account k => some (.publicKey k)
  | .contract h => some (.contract h)
  | .muxedAccount i k => some (.muxed i k)
  | _ => none

theorem encode_spec {s : List Nat} {ver : Nat} {p : List Nat} :
    (∃ hi lo, IsCrc (ver :: p) hi lo ∧ s = Spec.base32 (ver :: p ++ [lo, hi])) ↔ s = encode ver p := by
  unfold encode checksum
  rw [base32Encode_eq]
  constructor
  · rintro ⟨hi, lo, hc, hs⟩
    obtain ⟨h1, h2⟩ := isCrc_iff.mp hc
    rw [hs, h1, h2]
  · intro h
    exact ⟨_, _, isCrc_iff.mpr ⟨rfl, rfl⟩, h⟩

theorem isStrkey_iff {s : List Nat} {a : ScAddr} : IsStrkey s a ↔ ∃ k, keyOf a = some k ∧ fromText s = some k := by
  cases a with
  | account k =>
    constructor
    · rintro ⟨ver, p, hi, lo, hf, hc, hs⟩
      have h1 := hf.1
      have h2 := hf.2.1
      have h3 := hf.2.2
      refine ⟨_, rfl, fromText_publicKey.mpr ⟨h1, ?_⟩⟩
      have := encode_spec.mp ⟨hi, lo, hc, hs⟩
      rw [this, h2, h3, be_eq_beBytes]
    · rintro ⟨x, hx, ht⟩
      have := Option.some.inj hx
      subst this
      obtain ⟨h1, h2⟩ := fromText_publicKey.mp ht
      obtain ⟨hi, lo, hc, hs⟩ := encode_spec.mpr h2
      exact ⟨_, _, hi, lo, ⟨h1, rfl, (be_eq_beBytes 32 k).symm⟩, hc, hs⟩
  | contract k =>
    constructor
    · rintro ⟨ver, p, hi, lo, hf, hc, hs⟩
      have h1 := hf.1
      have h2 := hf.2.1
      have h3 := hf.2.2
      refine ⟨_, rfl, fromText_contract.mpr ⟨h1, ?_⟩⟩
      have := encode_spec.mp ⟨hi, lo, hc, hs⟩
      rw [this, h2, h3, be_eq_beBytes]
    · rintro ⟨x, hx, ht⟩
      have := Option.some.inj hx
      subst this
      obtain ⟨h1, h2⟩ := fromText_contract.mp ht
      obtain ⟨hi, lo, hc, hs⟩ := encode_spec.mpr h2
      exact ⟨_, _, hi, lo, ⟨h1, rfl, (be_eq_beBytes 32 k).symm⟩, hc, hs⟩
  | muxedAccount i k =>
    constructor
    · rintro ⟨ver, p, hi, lo, hf, hc, hs⟩
      have h1 := hf.1
      have h2 := hf.2.1
      have h3 := hf.2.2.1
      have h4 := hf.2.2.2
      refine ⟨_, rfl, fromText_muxed.mpr ⟨h1, h2, ?_⟩⟩
      have := encode_spec.mp ⟨hi, lo, hc, hs⟩
      rw [this, h3, h4, be_eq_beBytes, be_eq_beBytes]
    · rintro ⟨x, hx, ht⟩
      have := Option.some.inj hx
      subst this
      obtain ⟨h1, h3, h2⟩ := fromText_muxed.mp ht
      obtain ⟨hi, lo, hc, hs⟩ := encode_spec.mpr h2
      refine ⟨_, _, hi, lo, ⟨h1, h3, rfl, ?_⟩, hc, hs⟩
      rw [be_eq_beBytes, be_eq_beBytes]
  | claimableBalance i => exact ⟨fun ⟨_, _, _, _, hf, _⟩ => hf.elim, fun ⟨_, hx, _⟩ => (nomatch hx)⟩
  | liquidityPool i => exact ⟨fun ⟨_, _, _, _, hf, _⟩ => hf.elim, fun ⟨_, hx, _⟩ => (nomatch hx)⟩

theorem encode_length (ver : Nat) (p : List Nat) : (encode ver p).length = (8 * (p.length + 3) + 4) / 5 := by
  unfold encode checksum
  rw [base32Encode_eq, Spec.base32, List.length_map, List.length_range, List.length_append, List.length_cons]
  rfl

theorem isStrkey_length {s : List Nat} {a : ScAddr} (h : IsStrkey s a) :
    (Plain a ∧ s.length = 56) ∨ (¬ Plain a ∧ s.length = 69) := by
  obtain ⟨ver, p, hi, lo, hf, hc, hs⟩ := h
  have he := encode_length ver p
  rw [← encode_spec.mp ⟨hi, lo, hc, hs⟩] at he
  cases a with
  | account k =>
    left; refine ⟨trivial, ?_⟩
    rw [he, hf.2.2, be_eq_beBytes, beBytes_length]
  | contract k =>
    left; refine ⟨trivial, ?_⟩
    rw [he, hf.2.2, be_eq_beBytes, beBytes_length]
  | muxedAccount i k =>
    right; refine ⟨fun h => h, ?_⟩
    rw [he, hf.2.2.2, List.length_append, be_eq_beBytes, be_eq_beBytes, beBytes_length, beBytes_length]
  | claimableBalance i => exact hf.elim
  | liquidityPool i => exact hf.elim

theorem isStrkey_addr {s : List Nat} {a b : ScAddr} (h : IsStrkey s a) (h' : IsStrkey s b) : a = b := by
  obtain ⟨k, hk, ht⟩ := isStrkey_iff.mp h
  obtain ⟨k', hk', ht'⟩ := isStrkey_iff.mp h'
  rw [ht] at ht'
  have := Option.some.inj ht'
  subst this
  have hab := hk.trans hk'.symm
  cases a <;> cases b <;> simp only [keyOf] at hk hab <;>
    first | (cases hk; done) | (cases hab; rfl) | (cases hab; done)

theorem isStrkey_text {s s' : List Nat} {a : ScAddr} (h : IsStrkey s a) (h' : IsStrkey s' a) : s = s' := by
  obtain ⟨ver, p, hi, lo, hf, hc, hs⟩ := h
  obtain ⟨ver', p', hi', lo', hf', hc', hs'⟩ := h'
  have e := encode_spec.mp ⟨hi, lo, hc, hs⟩
  have e' := encode_spec.mp ⟨hi', lo', hc', hs'⟩
  have hv : ver = ver' ∧ p = p' := by
    cases a with
    | account k => exact ⟨by rw [hf.2.1, hf'.2.1], by rw [hf.2.2, hf'.2.2]⟩
    | contract k => exact ⟨by rw [hf.2.1, hf'.2.1], by rw [hf.2.2, hf'.2.2]⟩
    | muxedAccount i k => exact ⟨by rw [hf.2.2.1, hf'.2.2.1], by rw [hf.2.2.2, hf'.2.2.2]⟩
    | claimableBalance i => exact hf.elim
    | liquidityPool i => exact hf.elim
  rw [e, e', hv.1, hv.2]

theorem visitObj_isObject {objs : List HostObj} {v : Nat} {o : HostObj} (h : visitObj objs v = .ok o) :
    Val.isObject v = true := by
  unfold visitObj at h
  cases hv : Val.isObject v with
  | true => rfl
  | false => rw [hv] at h; exact nomatch h

/-- What `strkey_to_scaddress` does with a text. -/
theorem strkeyToScAddress_text {objs : List HostObj} {v : Nat} {s : List Nat} (m : Bool) (h : IsText objs v s) :
    strkeyToScAddress objs v m =
      if !(if m then decide (s.length = 56 ∨ s.length = 69) else decide (s.length = 56)) then
          .error (.host .value .invalidInput)
        else match fromText s with
          | none => .error (.host .value .invalidInput)
          | some (.publicKey k) => .ok (.account k)
          | some (.contract h) => .ok (.contract h)
          | some (.muxed i k) => if m then .ok (.muxedAccount i k) else .error (.host .value .invalidInput)
          | some .other => .error (.host .value .invalidInput) := by
  unfold strkeyToScAddress
  rcases h with h | h <;> rw [visitObj_isObject h, h] <;> rfl

theorem strkeyToScAddress_of_strkey {objs : List HostObj} {v : Nat} {s : List Nat} {a : ScAddr} {m : Bool}
    (h : IsText objs v s) (hs : IsStrkey s a) (hm : m = true ∨ Plain a) : strkeyToScAddress objs v m = .ok a := by
  rw [strkeyToScAddress_text m h]
  obtain ⟨k, hk, ht⟩ := isStrkey_iff.mp hs
  rw [ht]
  rcases isStrkey_length hs with ⟨hp, hl⟩ | ⟨hp, hl⟩
  · rw [hl]
    cases a with
    | account x => have := Option.some.inj hk; subst this; cases m <;> rfl
    | contract x => have := Option.some.inj hk; subst this; cases m <;> rfl
    | muxedAccount i x => exact hp.elim
    | claimableBalance i => exact hp.elim
    | liquidityPool i => exact hp.elim
  · rw [hl]
    have hm' : m = true := by
      rcases hm with h' | h'
      · exact h'
      · exact absurd h' hp
    subst hm'
    cases a with
    | account x => exact absurd trivial hp
    | contract x => exact absurd trivial hp
    | muxedAccount i x => have := Option.some.inj hk; subst this; rfl
    | claimableBalance i => exact nomatch hk
    | liquidityPool i => exact nomatch hk

theorem strkeyToScAddress_reject {objs : List HostObj} {v : Nat} {s : List Nat} {m : Bool}
    (h : IsText objs v s) (hs : ∀ a, IsStrkey s a → ¬ (m = true ∨ Plain a)) :
    strkeyToScAddress objs v m = .error (.host .value .invalidInput) := by
  rw [strkeyToScAddress_text m h]
  generalize (!(if m then decide (s.length = 56 ∨ s.length = 69) else decide (s.length = 56))) = c
  cases c with
  | true => rfl
  | false =>
    rw [if_neg (by decide)]
    cases ht : fromText s with
    | none => rfl
    | some k =>
      cases k with
      | publicKey k => exact absurd (.inr trivial) (hs (.account k) (isStrkey_iff.mpr ⟨_, rfl, ht⟩))
      | contract k => exact absurd (.inr trivial) (hs (.contract k) (isStrkey_iff.mpr ⟨_, rfl, ht⟩))
      | muxed i k =>
        have := hs (.muxedAccount i k) (isStrkey_iff.mpr ⟨_, rfl, ht⟩)
        cases m with
        | true => exact absurd (.inl rfl) this
        | false => rfl
      | other => rfl

theorem strkeyToScAddress_iff {objs : List HostObj} {v : Nat} {a : ScAddr} {m : Bool} :
    strkeyToScAddress objs v m = .ok a ↔ ∃ s, IsText objs v s ∧ IsStrkey s a ∧ (m = true ∨ Plain a) := by
  constructor
  · intro h
    have ht : ∃ s, IsText objs v s := by
      unfold strkeyToScAddress at h
      cases hv : Val.isObject v with
      | false => rw [hv] at h; exact nomatch h
      | true =>
        rw [hv] at h
        cases ho : visitObj objs v with
        | error e => rw [ho] at h; exact nomatch h
        | ok o =>
          rw [ho] at h
          cases o with
          | bytes b => exact ⟨b, .inr ho⟩
          | string b => exact ⟨b, .inl ho⟩
          | _ => exact nomatch h
    obtain ⟨s, hs⟩ := ht
    by_cases hx : ∃ b, IsStrkey s b ∧ (m = true ∨ Plain b)
    · obtain ⟨b, hb, hm⟩ := hx
      rw [strkeyToScAddress_of_strkey hs hb hm] at h
      have := Except.ok.inj h
      subst this
      exact ⟨s, hs, hb, hm⟩
    · rw [strkeyToScAddress_reject hs (fun b hb hm => hx ⟨b, hb, hm⟩)] at h
      exact nomatch h
  · rintro ⟨s, hs, ha, hm⟩
    exact strkeyToScAddress_of_strkey hs ha hm

end Soroban.Strkey
