import Verif.Spec.AssetMeta
import Verif.Lemmas.Strkey
/-! Lemmas for C72. -/
namespace Soroban.AssetMeta
open Soroban.Strkey (beBytes ofBe be_eq_beBytes beBytes_length beBytes_lt ofBe_beBytes beBytes_ofBe ofBe_lt)
open Soroban.AssetMeta.Spec (Alnum IsCode Valid xdr Named Describes PaddedCode)

theorem isAlnum_iff {c : Nat} : isAlnum c = true ↔ Alnum c := by
  unfold isAlnum Alnum
  simp only [Bool.or_eq_true, Bool.and_eq_true, decide_eq_true_eq, or_assoc]

theorem alnum_lt {c : Nat} (h : Alnum c) : c ≠ 0 ∧ c ≤ 0x7f := by unfold Alnum at h; omega

theorem codeLoop_zeros {cs : List Nat} {n m : Nat} : codeLoop cs true n = .ok m ↔ (∀ c ∈ cs, c = 0) ∧ m = n := by
  induction cs with
  | nil => simp [codeLoop, eq_comm]
  | cons c cs ih =>
    unfold codeLoop
    by_cases h : c = 0
    · rw [if_pos h, ih]; simp [h]
    · rw [if_neg h, if_pos rfl]
      constructor
      · intro h'; exact nomatch h'
      · intro h'; exact absurd (h'.1 c List.mem_cons_self) h

theorem codeLoop_iff {cs : List Nat} {n m : Nat} : codeLoop cs false n = .ok m ↔
    ∃ text k, cs = text ++ List.replicate k 0 ∧ (∀ c ∈ text, Alnum c) ∧ m = n + text.length := by
  induction cs generalizing n with
  | nil =>
    constructor
    · intro h
      exact ⟨[], 0, rfl, fun c hc => (nomatch hc), (Except.ok.inj h).symm⟩
    · rintro ⟨text, k, h1, _, h3⟩
      have : text = [] := (List.append_eq_nil_iff.mp h1.symm).1
      subst this
      rw [h3]; rfl
  | cons c cs ih =>
    unfold codeLoop
    by_cases h : c = 0
    · rw [if_pos h, codeLoop_zeros]
      constructor
      · rintro ⟨h1, h2⟩
        refine ⟨[], cs.length + 1, ?_, fun c hc => (nomatch hc), by rw [h2]; rfl⟩
        rw [List.nil_append, List.replicate_succ, h]
        congr 1
        exact List.eq_replicate_iff.mpr ⟨rfl, h1⟩
      · rintro ⟨text, k, h1, h2, h3⟩
        cases text with
        | nil =>
          cases k with
          | zero => exact nomatch h1
          | succ k =>
            rw [List.nil_append, List.replicate_succ] at h1
            have := (List.cons.inj h1).2
            refine ⟨?_, by simpa using h3⟩
            rw [this]
            intro x hx
            exact (List.mem_replicate.mp hx).2
        | cons t ts =>
          have := (List.cons.inj h1).1
          have h4 := alnum_lt (h2 t List.mem_cons_self)
          exact absurd (by rw [← this, h]) h4.1
    · rw [if_neg h, if_neg (by decide)]
      by_cases ha : Alnum c
      · have : ¬ ((decide (c > 0x7f) || !isAlnum c) = true) := by
          rw [isAlnum_iff.mpr ha]
          have := (alnum_lt ha).2
          simp; omega
        rw [if_neg this, ih]
        constructor
        · rintro ⟨text, k, h1, h2, h3⟩
          refine ⟨c :: text, k, by rw [h1]; rfl, ?_, by rw [List.length_cons]; omega⟩
          intro x hx
          rcases List.mem_cons.mp hx with h' | h'
          · rw [h']; exact ha
          · exact h2 x h'
        · rintro ⟨text, k, h1, h2, h3⟩
          cases text with
          | nil =>
            cases k with
            | zero => exact nomatch h1
            | succ k => rw [List.nil_append, List.replicate_succ] at h1; exact absurd (List.cons.inj h1).1 h
          | cons t ts =>
            have h1' := List.cons.inj h1
            refine ⟨ts, k, h1'.2, fun x hx => h2 x (List.mem_cons_of_mem _ hx), ?_⟩
            rw [List.length_cons] at h3; omega
      · have : (decide (c > 0x7f) || !isAlnum c) = true := by
          have : isAlnum c = false := by
            cases hx : isAlnum c with
            | false => rfl
            | true => exact absurd (isAlnum_iff.mp hx) ha
          rw [this]; simp
        rw [if_pos this]
        constructor
        · intro h'; exact nomatch h'
        · rintro ⟨text, k, h1, h2, h3⟩
          cases text with
          | nil =>
            cases k with
            | zero => exact nomatch h1
            | succ k => rw [List.nil_append, List.replicate_succ] at h1; exact absurd (List.cons.inj h1).1 h
          | cons t ts =>
            have := (List.cons.inj h1).1
            exact absurd (by rw [this]; exact h2 t List.mem_cons_self) ha

theorem validateCode_iff {code : List Nat} {n : Nat} (hn : code.length = n) (h4 : n = 4 ∨ n = 12) :
    validateCode code = .ok () ↔ ∃ text, IsCode n (if n = 4 then 1 else 5) code text := by
  unfold validateCode
  constructor
  · intro h
    obtain ⟨m, hm, h1⟩ := bind_ok.mp h
    obtain ⟨text, k, e, ha, hl⟩ := codeLoop_iff.mp hm
    have hk : text.length + k = n := by rw [← hn, e, List.length_append, List.length_replicate]
    split at h1
    · exact nomatch h1
    · split at h1
      · exact nomatch h1
      · refine ⟨text, ?_, by omega, ha, by rw [e]; congr 2; omega⟩
        rcases h4 with h4 | h4
        · rw [if_pos h4]; omega
        · rw [if_neg (by omega)]; omega
  · rintro ⟨text, h1, h2, h3, h5⟩
    rw [codeLoop_iff.mpr ⟨text, n - text.length, h5, h3, rfl⟩]
    show (if 0 + text.length = 0 then Except.error invalidInput
      else if 0 + text.length ≤ 4 ∧ code.length > 4 then Except.error invalidInput else Except.ok ()) = _
    rcases h4 with h4 | h4
    · rw [if_pos h4] at h1
      rw [if_neg (by omega), if_neg (by omega)]
    · rw [if_neg (by omega)] at h1
      rw [if_neg (by omega), if_neg (by omega)]

/-! ### Rendering -/

/-- A byte that is written as it is. -/
def plainByte (x : Nat) : Bool := !(decide (x = 58) || decide (x = 92) || decide (x ≤ 0x20) || decide (0x7f ≤ x))

/-- The rendering of one byte. -/
def token (x : Nat) : List Nat := if plainByte x then [x] else escaped x

/-- The bytes a code is rendered from. -/
def visible (len : Nat) : Nat → List Nat → List Nat
  | _, [] => []
  | i, x :: xs => if x = 0 ∧ (len = 4 ∨ (len = 12 ∧ i > 4)) then [] else x :: visible len (i + 1) xs

theorem renderLoop_eq (len i : Nat) (xs : List Nat) : renderLoop len i xs = (visible len i xs).flatMap token := by
  induction xs generalizing i with
  | nil => rfl
  | cons x xs ih =>
    unfold renderLoop visible
    by_cases h1 : x = 0 ∧ len = 4
    · rw [if_pos h1, if_pos ⟨h1.1, .inl h1.2⟩]; rfl
    · have hn : ¬ (x = 0 ∧ len = 12 ∧ i > 4) → ¬ (x = 0 ∧ (len = 4 ∨ (len = 12 ∧ i > 4))) := by
        intro h2 hc
        rcases hc.2 with h' | h'
        · exact h1 ⟨hc.1, h'⟩
        · exact h2 ⟨hc.1, h'⟩
      rw [if_neg h1]
      by_cases h2 : x = 0 ∧ len = 12 ∧ i > 4
      · rw [if_pos h2, if_pos ⟨h2.1, .inr h2.2⟩]; rfl
      · rw [if_neg h2, if_neg (hn h2), List.flatMap_cons, ← ih]
        unfold token plainByte
        by_cases h3 : x = 58 ∨ x = 92 ∨ x ≤ 0x20 ∨ 0x7f ≤ x
        · rw [if_pos h3, if_neg (by simp; omega)]
        · rw [if_neg h3, if_pos (by simp; omega)]; rfl

theorem hexDigit_inj {a b : Nat} (ha : a < 16) (hb : b < 16) (h : hexDigit a = hexDigit b) : a = b := by
  unfold hexDigit at h
  split at h <;> split at h <;> omega

/-- Tokens can be told apart whatever follows them. -/
theorem token_prefix {x y : Nat} {r s : List Nat} (hx : x < 256) (hy : y < 256) (h : token x ++ r = token y ++ s) :
    x = y ∧ r = s := by
  have hp : ∀ z, plainByte z = true → z ≠ 92 := by
    intro z hz; unfold plainByte at hz; simp at hz; omega
  unfold token at h
  cases h1 : plainByte x <;> cases h2 : plainByte y <;> rw [h1, h2] at h <;>
    simp only [if_true, Bool.false_eq_true, if_false, escaped, List.cons_append, List.nil_append, List.cons.injEq] at h
  · obtain ⟨_, _, h3, h4, h5⟩ := h
    have e1 := hexDigit_inj (by omega) (by omega) h3
    have e2 := hexDigit_inj (by omega) (by omega) h4
    exact ⟨by omega, h5⟩
  · exact absurd h.1.symm (hp y h2)
  · exact absurd h.1 (hp x h1)
  · exact h

theorem token_ne (x : Nat) : token x ≠ [] := by unfold token escaped; split <;> simp

theorem flatMap_token_inj : ∀ {l m : List Nat}, (∀ c ∈ l, c < 256) → (∀ c ∈ m, c < 256) →
    l.flatMap token = m.flatMap token → l = m
  | [], [], _, _, _ => rfl
  | [], y :: m, _, _, h => by
    rw [List.flatMap_cons, List.flatMap_nil] at h
    exact absurd (List.append_eq_nil_iff.mp h.symm).1 (token_ne y)
  | x :: l, [], _, _, h => by
    rw [List.flatMap_cons, List.flatMap_nil] at h
    exact absurd (List.append_eq_nil_iff.mp h).1 (token_ne x)
  | x :: l, y :: m, hl, hm, h => by
    rw [List.flatMap_cons, List.flatMap_cons] at h
    obtain ⟨h1, h2⟩ := token_prefix (hl x List.mem_cons_self) (hm y List.mem_cons_self) h
    rw [h1, flatMap_token_inj (fun c hc => hl c (List.mem_cons_of_mem _ hc)) (fun c hc => hm c (List.mem_cons_of_mem _ hc)) h2]

theorem visible_mem {len i : Nat} {xs : List Nat} : ∀ c ∈ visible len i xs, c ∈ xs := by
  induction xs generalizing i with
  | nil => intro c hc; exact nomatch hc
  | cons x xs ih =>
    intro c hc
    unfold visible at hc
    split at hc
    · exact nomatch hc
    · rcases List.mem_cons.mp hc with h | h
      · rw [h]; exact List.mem_cons_self
      · exact List.mem_cons_of_mem _ (ih c h)

theorem visible_text {len i : Nat} {text rest : List Nat} (h : ∀ c ∈ text, c ≠ 0) :
    visible len i (text ++ rest) = text ++ visible len (i + text.length) rest := by
  induction text generalizing i with
  | nil => rfl
  | cons t ts ih =>
    rw [List.cons_append, visible, if_neg (fun hc => h t List.mem_cons_self hc.1), ih (fun c hc => h c (List.mem_cons_of_mem _ hc)),
      List.length_cons, List.cons_append]
    congr 3
    omega

theorem visible_zeros4 (i k : Nat) : visible 4 i (List.replicate k 0) = [] := by
  cases k with
  | zero => rfl
  | succ k => rw [List.replicate_succ, visible, if_pos ⟨rfl, .inl rfl⟩]

theorem visible_zeros12 (k : Nat) : ∀ i, visible 12 i (List.replicate k 0) = List.replicate (min k (5 - i)) 0 := by
  induction k with
  | zero => intro i; simp [visible]
  | succ k ih =>
    intro i
    rw [List.replicate_succ, visible]
    by_cases h : i > 4
    · rw [if_pos ⟨rfl, .inr ⟨rfl, h⟩⟩, show 5 - i = 0 by omega]; simp
    · rw [if_neg (by omega), ih, show min (k + 1) (5 - i) = min k (5 - (i + 1)) + 1 by omega, List.replicate_succ]

/-- Codes whose zeros are all at the end are rendered differently. -/
theorem renderCode_inj {a b : List Nat} {s : List Nat} (ha : PaddedCode a) (hb : PaddedCode b) (h : renderCode a = .ok s)
    (h' : renderCode b = .ok s) : a = b := by
  have hs : ∀ c s, PaddedCode c → renderCode c = .ok s → s = (visible c.length 0 c).flatMap token := by
    intro c s hc h
    unfold renderCode at h
    rw [if_neg (by have := hc.1; omega)] at h
    rw [← Except.ok.inj h, renderLoop_eq]
  have key : visible a.length 0 a = visible b.length 0 b := by
    apply flatMap_token_inj (fun c hc => ha.2.1 c (visible_mem c hc)) (fun c hc => hb.2.1 c (visible_mem c hc))
    rw [← hs a s ha h, ← hs b s hb h']
  clear h h' hs
  obtain ⟨hla, _, ta, ka, ea, za⟩ := ha
  obtain ⟨hlb, _, tb, kb, eb, zb⟩ := hb
  -- the visible part in each case
  have vis : ∀ c t k, c = t ++ List.replicate k 0 → (∀ x ∈ t, x ≠ 0) →
      (c.length = 4 → visible c.length 0 c = t ∧ t.length ≤ 4) ∧
      (c.length = 12 → visible c.length 0 c = t ++ List.replicate (min k (5 - t.length)) 0 ∧ 5 ≤ (visible c.length 0 c).length) := by
    intro c t k e z
    have hl : c.length = t.length + k := by rw [e, List.length_append, List.length_replicate]
    constructor
    · intro h4
      rw [h4, e, visible_text z, visible_zeros4, List.append_nil]
      exact ⟨rfl, by omega⟩
    · intro h12
      rw [h12, e, visible_text z, visible_zeros12, Nat.zero_add]
      refine ⟨rfl, ?_⟩
      rw [List.length_append, List.length_replicate]
      omega
  have va := vis a ta ka ea za
  have vb := vis b tb kb eb zb
  -- the text before the zeros is determined by the visible part
  have split : ∀ (t u : List Nat) (k m : Nat), (∀ x ∈ t, x ≠ 0) → (∀ x ∈ u, x ≠ 0) →
      t ++ List.replicate k 0 = u ++ List.replicate m 0 → t = u := by
    intro t
    induction t with
    | nil =>
      intro u k m _ hu h
      cases u with
      | nil => rfl
      | cons x u =>
        cases k with
        | zero => exact nomatch h
        | succ k =>
          rw [List.nil_append, List.replicate_succ, List.cons_append] at h
          exact absurd (List.cons.inj h).1.symm (hu x List.mem_cons_self)
    | cons y t ih =>
      intro u k m ht hu h
      cases u with
      | nil =>
        cases m with
        | zero => exact nomatch h
        | succ m =>
          rw [List.nil_append, List.replicate_succ, List.cons_append] at h
          exact absurd (List.cons.inj h).1 (ht y List.mem_cons_self)
      | cons x u =>
        rw [List.cons_append, List.cons_append] at h
        have h' := List.cons.inj h
        rw [h'.1, ih u k m (fun x hx => ht x (List.mem_cons_of_mem _ hx)) (fun x hx => hu x (List.mem_cons_of_mem _ hx)) h'.2]
  have lens : ∀ c (t : List Nat) k, c = t ++ List.replicate k 0 → k = c.length - t.length := by
    intro c t k e; rw [e, List.length_append, List.length_replicate]; omega
  have la := lens a ta ka ea
  have lb := lens b tb kb eb
  rcases hla with h1 | h1 <;> rcases hlb with h2 | h2
  · rw [(va.1 h1).1, (vb.1 h2).1] at key
    rw [ea, eb, la, lb, key, h1, h2]
  · have := (vb.2 h2).2
    rw [← key, (va.1 h1).1] at this
    have := (va.1 h1).2
    omega
  · have := (va.2 h1).2
    rw [key, (vb.1 h2).1] at this
    have := (vb.1 h2).2
    omega
  · rw [(va.2 h1).1, (vb.2 h2).1] at key
    have := split _ _ _ _ za zb key
    rw [ea, eb, la, lb, this, h1, h2]

theorem token_alnum {c : Nat} (h : Alnum c) : token c = [c] := by
  unfold token plainByte
  unfold Alnum at h
  rw [if_pos (by simp; omega)]

theorem flatMap_token_alnum {t : List Nat} (h : ∀ c ∈ t, Alnum c) : t.flatMap token = t := by
  induction t with
  | nil => rfl
  | cons c t ih =>
    rw [List.flatMap_cons, token_alnum (h c List.mem_cons_self), ih (fun x hx => h x (List.mem_cons_of_mem _ hx))]; rfl

/-- A valid code is rendered as its text. -/
theorem renderCode_text {n : Nat} {code text : List Nat} (h : IsCode n (if n = 4 then 1 else 5) code text) (h4 : n = 4 ∨ n = 12) :
    code.length = n ∧ renderCode code = .ok text := by
  obtain ⟨h1, h2, h3, h5⟩ := h
  have hl : code.length = n := by rw [h5, List.length_append, List.length_replicate]; omega
  refine ⟨hl, ?_⟩
  unfold renderCode
  rw [if_neg (by omega), renderLoop_eq, hl, h5, visible_text (fun c hc => (alnum_lt (h3 c hc)).1)]
  rcases h4 with h4 | h4
  · rw [h4, visible_zeros4, List.append_nil, flatMap_token_alnum h3]
  · rw [if_neg (by omega)] at h1
    rw [h4, visible_zeros12, show 5 - (0 + text.length) = 0 by omega, Nat.min_zero, List.replicate_zero, List.append_nil,
      flatMap_token_alnum h3]

/-! ### XDR -/

theorem take_drop_parts {b : List Nat} {h c n : Nat} (hl : b.length = h + c + n) :
    b = b.take h ++ (b.drop h).take c ++ (b.drop (h + c)).take n := by
  rw [← List.drop_drop, List.take_of_length_le (l := (b.drop h).drop c) (by simp; omega), List.append_assoc,
    List.take_append_drop, List.take_append_drop]

/-- The sizes the XDR form gives the parts of an asset. -/
def Sized : Asset → Prop
  | .native => True
  | .alpha4 code i => code.length = 4 ∧ i < 256 ^ 32
  | .alpha12 code i => code.length = 12 ∧ i < 256 ^ 32

theorem assetFromXdr_sound {b : List Nat} {a : Asset} (hb : ∀ x ∈ b, x < 256) (h : assetFromXdr b = some a) :
    b = xdr a ∧ Sized a := by
  unfold assetFromXdr at h
  by_cases h0 : b.take 4 = [0, 0, 0, 0]
  · rw [if_pos h0] at h
    by_cases hl : b.length = 4
    · rw [if_pos hl] at h
      cases Option.some.inj h
      refine ⟨?_, trivial⟩
      rw [List.take_of_length_le (by omega)] at h0
      exact h0
    · rw [if_neg hl] at h; exact nomatch h
  · rw [if_neg h0] at h
    have hd : ∀ k, ∀ x ∈ b.drop k, x < 256 := fun k x hx => hb x (List.mem_of_mem_drop hx)
    by_cases h1 : b.take 4 = [0, 0, 0, 1]
    · rw [if_pos h1] at h
      by_cases hl : b.length = 44 ∧ (b.drop 8).take 4 = [0, 0, 0, 0]
      · rw [if_pos hl] at h
        cases Option.some.inj h
        have e1 := take_drop_parts (b := b) (h := 4) (c := 4) (n := 36) hl.1
        have e2 : (b.drop (4 + 4)).take 36 = [0, 0, 0, 0] ++ b.drop 12 := by
          have hl1 := hl.1
          have e := List.take_append_drop 4 (b.drop 8)
          rw [List.drop_drop, hl.2] at e
          rw [List.take_of_length_le (by simp; omega)]
          exact e.symm
        have h32 : (b.drop 12).length = 32 := by have := hl.1; simp; omega
        refine ⟨?_, by have := hl.1; simp; omega, ofBe_lt h32 (hd 12)⟩
        rw [xdr, be_eq_beBytes, beBytes_ofBe h32 (hd 12)]
        rw [h1, e2] at e1
        rw [List.append_assoc, ← e1]
      · rw [if_neg hl] at h; exact nomatch h
    · rw [if_neg h1] at h
      by_cases h2 : b.take 4 = [0, 0, 0, 2]
      · rw [if_pos h2] at h
        by_cases hl : b.length = 52 ∧ (b.drop 16).take 4 = [0, 0, 0, 0]
        · rw [if_pos hl] at h
          cases Option.some.inj h
          have e1 := take_drop_parts (b := b) (h := 4) (c := 12) (n := 36) hl.1
          have e2 : (b.drop (4 + 12)).take 36 = [0, 0, 0, 0] ++ b.drop 20 := by
            have hl1 := hl.1
            have e := List.take_append_drop 4 (b.drop 16)
            rw [List.drop_drop, hl.2] at e
            rw [List.take_of_length_le (by simp; omega)]
            exact e.symm
          have h32 : (b.drop 20).length = 32 := by have := hl.1; simp; omega
          refine ⟨?_, by have := hl.1; simp; omega, ofBe_lt h32 (hd 20)⟩
          rw [xdr, be_eq_beBytes, beBytes_ofBe h32 (hd 20)]
          rw [h2, e2] at e1
          rw [List.append_assoc, ← e1]
        · rw [if_neg hl] at h; exact nomatch h
      · rw [if_neg h2] at h; exact nomatch h

theorem assetFromXdr_xdr {a : Asset} (h : Sized a) : assetFromXdr (xdr a) = some a := by
  cases a with
  | native => rfl
  | alpha4 code i =>
    match code, h with
    | [a, b, c, d], h =>
      have hl := beBytes_length 32 i
      rw [xdr, be_eq_beBytes]
      unfold assetFromXdr
      simp [hl, ofBe_beBytes 32 i h.2]
  | alpha12 code i =>
    match code, h with
    | [a, b, c, d, a1, b1, c1, d1, a2, b2, c2, d2], h =>
      have hl := beBytes_length 32 i
      rw [xdr, be_eq_beBytes]
      unfold assetFromXdr
      simp [hl, ofBe_beBytes 32 i h.2]

theorem valid_sizes {a : Asset} (h : Valid a) : Sized a := by
  cases a with
  | native => trivial
  | alpha4 code i => obtain ⟨h1, t, ht⟩ := h; exact ⟨(renderCode_text (n := 4) ht (.inl rfl)).1, h1⟩
  | alpha12 code i => obtain ⟨h1, t, ht⟩ := h; exact ⟨(renderCode_text (n := 12) ht (.inr rfl)).1, h1⟩

theorem validateAsset_iff {a : Asset} (h : Sized a) : validateAsset a = .ok () ↔ Valid a := by
  cases a with
  | native => exact ⟨fun _ => trivial, fun _ => rfl⟩
  | alpha4 code i =>
    have := validateCode_iff (n := 4) h.1 (.inl rfl)
    rw [validateAsset, this]
    exact ⟨fun hx => ⟨h.2, hx⟩, fun hx => hx.2⟩
  | alpha12 code i =>
    have := validateCode_iff (n := 12) h.1 (.inr rfl)
    rw [validateAsset, this]
    exact ⟨fun hx => ⟨h.2, hx⟩, fun hx => hx.2⟩

theorem toText_account {k : Nat} (h : k < 256 ^ 32) : Strkey.Spec.IsStrkey (Strkey.toText (.publicKey k)) (.account k) :=
  Strkey.isStrkey_iff.mpr ⟨_, rfl, Strkey.fromText_publicKey.mpr ⟨h, rfl⟩⟩

/-- What the contract stores for a valid asset. -/
theorem setMetadata_write {a : Asset} (st : Inst) (h : Valid a) : ∃ st' nm sy, setMetadata (writeAsset st a) = .ok st' ∧
    st'.info.isSome = true ∧ st'.admin = (Spec.issuer a).orElse (fun _ => st.admin) ∧ readAsset st' = .ok a ∧
    name st' = .ok nm ∧ symbol st' = .ok sy ∧ (st'.metadata.map (·.decimal)) = some 7 ∧ Describes a nm sy := by
  cases a with
  | native => exact ⟨_, _, _, rfl, rfl, rfl, rfl, rfl, rfl, rfl, by decide, rfl⟩
  | alpha4 code i =>
    obtain ⟨hi, t, ht⟩ := h
    obtain ⟨hl, hr⟩ := renderCode_text (n := 4) ht (.inl rfl)
    have e := ofBe_beBytes 32 i hi
    refine ⟨{ admin := some (.account i), info := some (.alphaNum4 code (Strkey.beBytes 32 i)),
              metadata := some ⟨7, t ++ 58 :: Strkey.toText (.publicKey i), t⟩ }, _, _, ?_, rfl, rfl, ?_, rfl, rfl, rfl,
            ht, _, toText_account hi, rfl⟩
    · simp [setMetadata, writeAsset, readInfo, renderAsset, hl, hr, e, bind, Except.bind, decimals]
    · simp [readAsset, readInfo, beBytes_length, hl, e, bind, Except.bind]
  | alpha12 code i =>
    obtain ⟨hi, t, ht⟩ := h
    obtain ⟨hl, hr⟩ := renderCode_text (n := 12) ht (.inr rfl)
    have e := ofBe_beBytes 32 i hi
    refine ⟨{ admin := some (.account i), info := some (.alphaNum12 code (Strkey.beBytes 32 i)),
              metadata := some ⟨7, t ++ 58 :: Strkey.toText (.publicKey i), t⟩ }, _, _, ?_, rfl, rfl, ?_, rfl, rfl, rfl,
            ht, _, toText_account hi, rfl⟩
    · simp [setMetadata, writeAsset, readInfo, renderAsset, hl, hr, e, bind, Except.bind, decimals]
    · simp [readAsset, readInfo, beBytes_length, hl, e, bind, Except.bind]

theorem isCode_det {n m : Nat} {c d t : List Nat} {l : Nat} (h : IsCode n l c t) (h' : IsCode n m d t) : c = d := by
  rw [h.2.2.2, h'.2.2.2]

theorem named_inj {t u nm : List Nat} {i j : Nat} (h : Named t i nm) (h' : Named u j nm) : t = u ∧ i = j := by
  obtain ⟨g, hg, e⟩ := h
  obtain ⟨g', hg', e'⟩ := h'
  have l1 : g.length = 56 := by
    rcases Strkey.isStrkey_length hg with h | h
    · exact h.2
    · exact absurd trivial h.1
  have l2 : g'.length = 56 := by
    rcases Strkey.isStrkey_length hg' with h | h
    · exact h.2
    · exact absurd trivial h.1
  rw [e] at e'
  have := List.append_inj' e' (by rw [List.length_cons, List.length_cons, l1, l2])
  have hgg := (List.cons.inj this.2).2
  rw [← hgg] at hg'
  have := Strkey.isStrkey_addr hg hg'
  exact ⟨‹_ ∧ _›.1, ScAddr.account.inj this⟩

theorem named_ne_native {t : List Nat} {i : Nat} : ¬ Named t i ("native".toList.map Char.toNat) := by
  rintro ⟨g, hg, e⟩
  have : ':'.toNat ∈ "native".toList.map Char.toNat := by rw [e]; simp
  exact absurd this (by decide)

theorem describes_inj {a b : Asset} {nm s s' : List Nat} (h : Describes a nm s) (h' : Describes b nm s') : a = b := by
  cases a with
  | native =>
    cases b with
    | native => rfl
    | alpha4 d j => exact absurd (h.1 ▸ h'.2) named_ne_native
    | alpha12 d j => exact absurd (h.1 ▸ h'.2) named_ne_native
  | alpha4 c i =>
    cases b with
    | native => exact absurd (h'.1 ▸ h.2) named_ne_native
    | alpha4 d j =>
      obtain ⟨e1, e2⟩ := named_inj h.2 h'.2
      have h1 := h'.1
      rw [← e1] at h1
      rw [isCode_det h.1 h1, e2]
    | alpha12 d j =>
      obtain ⟨e1, e2⟩ := named_inj h.2 h'.2
      have h1 := h'.1.1
      have h2 := h.1.2.1
      rw [← e1] at h1
      omega
  | alpha12 c i =>
    cases b with
    | native => exact absurd (h'.1 ▸ h.2) named_ne_native
    | alpha4 d j =>
      obtain ⟨e1, e2⟩ := named_inj h.2 h'.2
      have h1 := h'.1.2.1
      have h2 := h.1.1
      rw [← e1] at h1
      omega
    | alpha12 d j =>
      obtain ⟨e1, e2⟩ := named_inj h.2 h'.2
      have h1 := h'.1
      rw [← e1] at h1
      rw [isCode_det h.1 h1, e2]

theorem hexDigit_digits : ∀ d : Fin 16, hexDigit d = Spec.digits.getD d 0 := by decide +kernel

theorem escaped_written {c : Nat} (hc : c < 256) (h : c = 58 ∨ c = 92 ∨ c ≤ 0x20 ∨ 0x7f ≤ c) : escaped c = Spec.written c := by
  have h1 := hexDigit_digits ⟨c / 16, by omega⟩
  have h2 := hexDigit_digits ⟨c % 16, by omega⟩
  dsimp only at h1 h2
  unfold Spec.written escaped
  have e1 : ':'.toNat = 58 := rfl
  have e2 : '\\'.toNat = 92 := rfl
  have e3 : 'x'.toNat = 120 := rfl
  rw [e1, e2, e3, if_neg (by omega), h1, h2]

theorem plain_written {c : Nat} (h : ¬ (c = 58 ∨ c = 92 ∨ c ≤ 0x20 ∨ 0x7f ≤ c)) : [c] = Spec.written c := by
  unfold Spec.written
  have e1 : ':'.toNat = 58 := rfl
  have e2 : '\\'.toNat = 92 := rfl
  rw [e1, e2, if_pos (by omega)]

theorem renderLoop_zeros : ∀ (k i : Nat), i + k = 12 →
    renderLoop 12 i (List.replicate k 0) = (List.replicate (5 - i) 0).flatMap Spec.written
  | 0, i, h => by rw [show 5 - i = 0 by omega]; rfl
  | k + 1, i, h => by
    rw [List.replicate_succ, renderLoop, if_neg (by omega)]
    by_cases hi : i > 4
    · rw [if_pos ⟨rfl, rfl, hi⟩, show 5 - i = 0 by omega]
      rfl
    · rw [if_neg (by omega), if_pos (by omega), renderLoop_zeros k (i + 1) (by omega), show 5 - i = (5 - (i + 1)) + 1 by omega,
        List.replicate_succ, List.flatMap_cons, escaped_written (by omega) (by omega)]

theorem renderLoop_text {n k : Nat} (hn : n = 4 ∨ n = 12) : ∀ (text : List Nat) (i : Nat), (∀ c ∈ text, c ≠ 0 ∧ c < 256) →
    i + text.length + k = n → renderLoop n i (text ++ List.replicate k 0) =
      (text ++ List.replicate ((if n = 12 then 5 else 0) - (i + text.length)) 0).flatMap Spec.written
  | [], i, _, h => by
    rcases hn with rfl | rfl
    · rw [if_neg (by decide), show 0 - (i + ([] : List Nat).length) = 0 by omega]
      cases k with
      | zero => rfl
      | succ k =>
        rw [List.nil_append, List.replicate_succ, renderLoop, if_pos ⟨rfl, rfl⟩]
        rfl
    · rw [if_pos rfl]
      exact renderLoop_zeros k i h
  | c :: text, i, ht, h => by
    have hc := ht c (List.mem_cons_self ..)
    have hl : (c :: text).length = text.length + 1 := rfl
    have ih := renderLoop_text (k := k) hn text (i + 1) (fun x hx => ht x (List.mem_cons_of_mem _ hx)) (by omega)
    rw [List.cons_append, renderLoop, if_neg (by omega), if_neg (by omega), ih, List.cons_append, List.flatMap_cons, hl,
      show i + 1 + text.length = i + (text.length + 1) by omega]
    by_cases hp : c = 58 ∨ c = 92 ∨ c ≤ 0x20 ∨ 0x7f ≤ c
    · rw [if_pos hp, escaped_written hc.2 hp]
    · rw [if_neg hp, ← plain_written hp]
      rfl

end Soroban.AssetMeta
