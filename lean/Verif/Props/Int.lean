import Verif.Lemmas.Int
import Verif.Props.MemoryOps
import Verif.Props.Bytes
import Mathlib.Tactic.NormNum
import Mathlib.Data.List.Induction
/-!
C56: numbers. Words, pieces and bytes of a number come back as they were given, and 256-bit arithmetic is that of the integers.
-/
namespace Soroban.Props
open Soroban Soroban.Spec

/-! ### values and numbers -/

theorem tag_not_small {v : Nat} (s : Bool) (h : Val.isObject v = true) : ofSmall (wideTy s) v = none := by
  unfold ofSmall
  rw [if_neg]
  rw [hasTag_iff]
  rw [isObject_iff] at h
  cases s <;> simp only [wideTy, IntTy.smallTag, Tag.code, if_true, if_false, Bool.false_eq_true] <;> omega

theorem u256_back {n : Nat} (h : n < 2^256) :
    u256FromPieces (u256IntoPieces n).1 (u256IntoPieces n).2.1 (u256IntoPieces n).2.2.1 (u256IntoPieces n).2.2.2 = n := by
  have := u256_pieces h
  unfold u256FromPieces
  rw [Nat.add_mul, Nat.mul_assoc, ← Nat.pow_add, ← Nat.add_assoc]
  exact this

theorem i256_back {i : Int} (h : -2^255 ≤ i ∧ i < 2^255) :
    i256FromPieces (i256IntoPieces i).1 (i256IntoPieces i).2.1 (i256IntoPieces i).2.2.1 (i256IntoPieces i).2.2.2 = i := by
  have := i256_pieces h
  unfold i256FromPieces
  omega

theorem wideOf_of {objs : List HostObj} {s : Bool} {v : Nat} {a : Int} (h : WideIs objs s v a) (ha : InWide s a) : wideOf objs s v = .ok a := by
  unfold wideOf
  cases h with
  | smallU n hn =>
    have h1 : Val.hasTag (n * 2^8 + 12) .U256Small = true := by rw [hasTag_iff]; simp only [Tag.code]; omega
    have : ofSmall (wideTy false) (n * 2^8 + 12) = some (n : Int) := by
      have e : ofSmall (wideTy false) (n * 2^8 + 12) = some (readSmall .u256 (n * 2^8 + 12)) := if_pos h1
      rw [e]
      simp only [readSmall]
      rw [body_eq, show (n * 2^8 + 12) / 256 = n by omega]
    rw [this]
  | smallI _ h1 h2 =>
    generalize a = i at *
    have h3 : Val.hasTag ((i % 2^56).toNat * 2^8 + 13) .I256Small = true := by rw [hasTag_iff]; simp only [Tag.code]; omega
    have : ofSmall (wideTy true) ((i % 2^56).toNat * 2^8 + 13) = some i := by
      have e : ofSmall (wideTy true) ((i % 2^56).toNat * 2^8 + 13) = some (readSmall .i256 ((i % 2^56).toNat * 2^8 + 13)) := if_pos h3
      rw [e]
      simp only [readSmall]
      congr 1
      unfold Val.signedBody asI64
      dsimp only
      split <;> omega
    rw [this]
  | objU n hv =>
    rw [tag_not_small false (visitObj_ok.1 hv).1]
    dsimp only
    refine bind_ok.mpr ⟨_, hv, ?_⟩
    simp only [InWide, Bool.false_eq_true, if_false] at ha
    dsimp only
    rw [u256_back (by omega)]
  | objI _ hv =>
    rw [tag_not_small true (visitObj_ok.1 hv).1]
    dsimp only
    refine bind_ok.mpr ⟨_, hv, ?_⟩
    simp only [InWide, if_true] at ha
    dsimp only
    rw [i256_back ha]

theorem wideObj_u {n : Nat} (h : n < 2^256) : wideObj false n = .u256 n := by
  have := u256_back h
  unfold wideObj
  simp only [Bool.false_eq_true, if_false, Int.toNat_natCast]
  rw [this]

theorem wideObj_i {i : Int} (h : -2^255 ≤ i ∧ i < 2^255) : wideObj true i = .i256 i := by
  have := i256_back h
  unfold wideObj
  simp only [if_true]
  rw [this]

theorem wideVal_gives {objs : List HostObj} {s : Bool} {r : Int} (hl : objs.length < 2^31) (hr : InWide s r) :
    ∃ objs' v, wideVal objs s r = .ok (objs', v) ∧ Gives objs objs' s v r := by
  unfold wideVal
  cases s with
  | false =>
    simp only [InWide, Bool.false_eq_true, if_false] at hr
    obtain ⟨n, rfl⟩ := Int.eq_ofNat_of_zero_le hr.1
    rw [show wideTy false = .u256 from rfl]
    by_cases hs : n < 2^56
    · have h1 : isSmallUWide n = true := (isSmallUWide_iff n).2 hs
      have h2 : toSmall .u256 (n : Int) = some (n * 2^8 + 12) := by
        simp only [toSmall, Int.toNat_natCast]
        rw [if_pos h1, fromBodyAndTag_eq]
        simp only [Tag.code]
        rw [show n % 2^64 % 2^56 = n by omega, show (2:Nat)^8 = 256 from rfl]
      rw [h2]
      refine ⟨_, _, rfl, .smallU n hs, fun _ => rfl, fun h => absurd ?_ h⟩
      simp only [InSmall, Bool.false_eq_true, if_false]
      omega
    · have h1 : ¬ isSmallUWide n = true := fun h => hs ((isSmallUWide_iff n).1 h)
      have h2 : toSmall .u256 (n : Int) = none := by
        simp only [toSmall, Int.toNat_natCast]
        rw [if_neg h1]
      rw [h2]
      dsimp only
      obtain ⟨v, hv⟩ := addObj_ok (wideObj false n) hl
      refine ⟨_, v, hv, ?_, fun h => ?_, fun _ => ⟨_, rfl⟩⟩
      · have := (addObj_visit hl hv).1
        rw [wideObj_u (by omega)] at this
        rw [wideObj_u (by omega)]
        exact .objU n this
      · simp only [InSmall, Bool.false_eq_true, if_false] at h
        omega
  | true =>
    simp only [InWide, if_true] at hr
    rw [show wideTy true = .i256 from rfl]
    by_cases hs : -2^55 ≤ r ∧ r < 2^55
    · have h1 : isSmallIWide r = true := (isSmallIWide_iff r).2 hs
      have h2 : toSmall .i256 r = some ((r % 2^56).toNat * 2^8 + 13) := by
        simp only [toSmall]
        rw [if_pos h1, fromBodyAndTag_eq]
        simp only [Tag.code]
        have : asU64 (asI64 (asU64 r)) % 2^56 = (r % 2^56).toNat := by
          unfold asI64 asU64
          dsimp only
          split <;> omega
        rw [this, show (2:Nat)^8 = 256 from rfl]
      rw [h2]
      refine ⟨_, _, rfl, .smallI r hs.1 hs.2, fun _ => rfl, fun h => absurd ?_ h⟩
      simp only [InSmall, if_true]
      exact hs
    · have h1 : ¬ isSmallIWide r = true := fun h => hs ((isSmallIWide_iff r).1 h)
      have h2 : toSmall .i256 r = none := by
        simp only [toSmall]
        rw [if_neg h1]
      rw [h2]
      dsimp only
      obtain ⟨v, hv⟩ := addObj_ok (wideObj true r) hl
      refine ⟨_, v, hv, ?_, fun h => ?_, fun _ => ⟨_, rfl⟩⟩
      · have := (addObj_visit hl hv).1
        rw [wideObj_i hr] at this
        rw [wideObj_i hr]
        exact .objI r this
      · simp only [InSmall, if_true] at h
        exact absurd h hs

/-! ### arithmetic -/

theorem rhsIn_of {objs : List HostObj} {s : Bool} {op : AOp} {v : Nat} {b : Int} (h : RhsIs objs s op v b) : RhsIn s op b := by
  unfold RhsIs at h
  unfold RhsIn
  split at h
  · rename_i hc; rw [if_pos hc]; obtain ⟨n, _, rfl, _⟩ := h; omega
  · rename_i hc; rw [if_neg hc]; exact h.2

theorem rhsOf_of {objs : List HostObj} {s : Bool} {op : AOp} {v : Nat} {b : Int} (h : RhsIs objs s op v b) : rhsOf objs s op v = .ok b := by
  have key : (∃ n : Nat, n < 2^32 ∧ b = n ∧ v = n * 2^32 + 4) → (Val.major v : Int) = b := by
    rintro ⟨n, hn, rfl, rfl⟩
    rw [major_eq]
    omega
  unfold RhsIs at h
  cases op <;> simp only [reduceCtorEq, or_self, or_false, or_true, if_true, if_false] at h <;> simp only [rhsOf]
  case pow => rw [key h]
  case shl => rw [key h]
  case shr => rw [key h]
  all_goals exact wideOf_of h.1 h.2

theorem bignumCore_of {objs : List HostObj} {s : Bool} {op : AOp} {va vb : Nat} {a b : Int} (h : WideIs objs s va a) (ha : InWide s a)
    (hb : RhsIs objs s op vb b) : bignumCore objs s op va vb = .ok (checkedOp s op a b) := by
  unfold bignumCore
  exact bind_ok.mpr ⟨_, wideOf_of h ha, bind_ok.mpr ⟨_, rhsOf_of hb, rfl⟩⟩

/-- An operation has at most one result. -/
theorem means_unique {s : Bool} {op : AOp} {a b r r' : Int} (ha : InWide s a) (hb : RhsIn s op b) (h : Means s op a b r)
    (h' : Means s op a b r') : r = r' := by
  have h1 := (checkedOp_iff ha hb).2 h
  rw [(checkedOp_iff ha hb).2 h'] at h1
  exact (Option.some.inj h1).symm

/-- C56, arithmetic: for any values that stand for numbers of the type, an operation gives the number it means, with a new object exactly
if the number does not fit a value; if it means no number of the type, the operation is an error. It never gives a wrong number. -/
theorem C56_arith {objs : List HostObj} {s : Bool} {op : AOp} {va vb : Nat} {a b : Int} (hl : objs.length < 2^31)
    (h : WideIs objs s va a) (ha : InWide s a) (hb : RhsIs objs s op vb b) :
    (∀ r, Means s op a b r → InWide s r ∧ ∃ objs' v, runI objs (.arith s op) [va, vb] = .ok (objs', .val v) ∧ Gives objs objs' s v r) ∧
    ((¬ ∃ r, Means s op a b r) → runI objs (.arith s op) [va, vb] = .error (.host .object .arithDomain)) := by
  have hc := bignumCore_of h ha hb
  refine ⟨?_, ?_⟩
  · intro r hr
    have hin := means_in ha (rhsIn_of hb) hr
    refine ⟨hin, ?_⟩
    rw [(checkedOp_iff ha (rhsIn_of hb)).2 hr] at hc
    obtain ⟨objs', v, h1, h2⟩ := wideVal_gives hl hin
    refine ⟨objs', v, ?_, h2⟩
    unfold runI
    refine bind_ok.mpr ⟨_, hc, ?_⟩
    dsimp only
    exact bind_ok.mpr ⟨_, h1, rfl⟩
  · intro hn
    cases hx : checkedOp s op a b with
    | some r => exact absurd ⟨r, (checkedOp_iff ha (rhsIn_of hb)).1 hx⟩ hn
    | none =>
      rw [hx] at hc
      simp only [runI, hc]
      rfl

/-- C56, arithmetic that may fail: the variants of addition, subtraction, multiplication and power give the same
numbers, and void (the word 2) where there is none. -/
theorem C56_checked {objs : List HostObj} {s : Bool} {op : COp} {plain : AOp} {va vb : Nat} {a b : Int} (hl : objs.length < 2^31)
    (hop : (op, plain) ∈ [(COp.add, AOp.add), (.sub, .sub), (.mul, .mul), (.pow, .pow)])
    (h : WideIs objs s va a) (ha : InWide s a) (hb : RhsIs objs s plain vb b) :
    (∀ r, Means s plain a b r → ∃ objs' v, runI objs (.checked s op) [va, vb] = .ok (objs', .val v) ∧ Gives objs objs' s v r) ∧
    ((¬ ∃ r, Means s plain a b r) → runI objs (.checked s op) [va, vb] = .ok (objs, .val 2)) := by
  obtain rfl : op.op = plain := by
    simp only [List.mem_cons, Prod.mk.injEq, List.not_mem_nil, or_false] at hop
    rcases hop with ⟨rfl, rfl⟩ | ⟨rfl, rfl⟩ | ⟨rfl, rfl⟩ | ⟨rfl, rfl⟩ <;> rfl
  have hc := bignumCore_of h ha hb
  refine ⟨?_, ?_⟩
  · intro r hr
    have hin := means_in ha (rhsIn_of hb) hr
    rw [(checkedOp_iff ha (rhsIn_of hb)).2 hr] at hc
    obtain ⟨objs', v, h1, h2⟩ := wideVal_gives hl hin
    refine ⟨objs', v, ?_, h2⟩
    unfold runI
    refine bind_ok.mpr ⟨_, hc, ?_⟩
    dsimp only
    exact bind_ok.mpr ⟨_, h1, rfl⟩
  · intro hn
    cases hx : checkedOp s op.op a b with
    | some r => exact absurd ⟨r, (checkedOp_iff ha (rhsIn_of hb)).1 hx⟩ hn
    | none =>
      rw [hx] at hc
      simp only [runI, hc]
      rfl

/-! ### words -/

/-- C56, words: a number made of a word is a new object, and it is read back as it was, now and later, but not as another type. -/
theorem C56_words {objs : List HostObj} (t : WTy) {w : Nat} (hw : w < 2^64) (hl : objs.length < 2^31) :
    ∃ o v, runI objs (.fromWord t) [w] = .ok (objs ++ [o], .val v) ∧ ∀ later,
      runI (objs ++ [o] ++ later) (.toWord t) [v] = .ok (objs ++ [o] ++ later, .raw (seen (t == .i64) w)) ∧
      ∀ t', t' ≠ t → runI (objs ++ [o] ++ later) (.toWord t') [v] = .error (.host .object .internalError) := by
  obtain ⟨v, hv⟩ := addObj_ok (wordObj t w) hl
  have hvis := (addObj_visit hl hv).1
  refine ⟨wordObj t w, v, ?_, ?_⟩
  · simp only [runI, retObj]
    exact bind_ok.mpr ⟨_, rfl, bind_ok.mpr ⟨_, hv, rfl⟩⟩
  · intro later
    have h := visitObj_append (extra := later) hvis
    refine ⟨?_, ?_⟩
    · simp only [runI]
      refine bind_ok.mpr ⟨_, h, bind_ok.mpr ⟨_, ?_, rfl⟩⟩
      cases t
      · rfl
      · have : asI64 w = seen true w := by
          unfold asI64 seen
          simp only [true_and]
          split <;> split <;> omega
        simp only [wordObj, objWord, rawOf]
        rw [this]
        rfl
      · rfl
      · rfl
    · intro t' ht
      simp only [runI, h]
      cases t <;> cases t' <;> first | exact absurd rfl ht | rfl

/-! ### pieces -/

theorem digits2 (a b : Nat) : digits (2^64) [a, b] = a * 2^64 + b := by
  simp [digits]

theorem digits4 (a b c d : Nat) : digits (2^64) [a, b, c, d] = ((a * 2^64 + b) * 2^64 + c) * 2^64 + d := by
  simp [digits]

theorem seen_asI64 {w : Nat} (hw : w < 2^64) : asI64 w = seen true w := by
  unfold asI64 seen
  simp only [true_and]
  split <;> split <;> omega

theorem two_words {s : Bool} {x : Int} {a b : Nat} (ha : a < 2^64) (hb : b < 2^64) (h : x = seen s a * 2^64 + b) :
    TwosComplement s (2^64) 2 x [a, b] := by
  refine ⟨rfl, ?_, ?_, ?_⟩
  · intro d hd; simp only [List.mem_cons, List.not_mem_nil, or_false] at hd; rcases hd with rfl | rfl <;> assumption
  · rw [digits2]
    norm_num
    unfold seen at h
    split at h <;> omega
  · norm_num
    unfold seen at h
    cases s
    · simp only [Bool.false_eq_true, false_and, if_false] at h ⊢
      omega
    · simp only [true_and, if_true] at h ⊢
      split at h <;> omega

theorem four_words {s : Bool} {x : Int} {a b c d : Nat} (ha : a < 2^64) (hb : b < 2^64) (hc : c < 2^64) (hd : d < 2^64)
    (h : x = seen s a * 2^192 + b * 2^128 + c * 2^64 + d) : TwosComplement s (2^64) 4 x [a, b, c, d] := by
  refine ⟨rfl, ?_, ?_, ?_⟩
  · intro e he; simp only [List.mem_cons, List.not_mem_nil, or_false] at he; rcases he with rfl | rfl | rfl | rfl <;> assumption
  · rw [digits4]
    norm_num
    unfold seen at h
    split at h <;> omega
  · norm_num
    unfold seen at h
    cases s
    · simp only [Bool.false_eq_true, false_and, if_false] at h ⊢
      omega
    · simp only [true_and, if_true] at h ⊢
      split at h <;> omega

/-- C56, pieces: words make one new object, and it holds the number of which they are the words. -/
theorem C56_from_pieces {objs : List HostObj} (t : BTy) {ws : List Nat} (hn : ws.length = t.words) (hw : ∀ w ∈ ws, w < 2^64)
    (hl : objs.length < 2^31) : ∃ o v x, runI objs (.fromPieces t) ws = .ok (objs ++ [o], .val v) ∧
      TwosComplement t.signed (2^64) t.words x ws ∧ BigIs (objs ++ [o]) t v x := by
  have key : ∀ o : HostObj, piecesObj t ws = .ok o → ∃ v, runI objs (.fromPieces t) ws = .ok (objs ++ [o], .val v) ∧
      visitObj (objs ++ [o]) v = .ok o := by
    intro o ho
    obtain ⟨v, hv⟩ := addObj_ok o hl
    refine ⟨v, ?_, (addObj_visit hl hv).1⟩
    simp only [runI, retObj]
    exact bind_ok.mpr ⟨_, ho, bind_ok.mpr ⟨_, hv, rfl⟩⟩
  have two : t.words = 2 → ∃ a b, ws = [a, b] ∧ a < 2^64 ∧ b < 2^64 := by
    intro h
    rw [h] at hn
    match ws, hn, hw with
    | [a, b], _, hw => exact ⟨a, b, rfl, hw a (by simp), hw b (by simp)⟩
  have four : t.words = 4 → ∃ a b c d, ws = [a, b, c, d] ∧ a < 2^64 ∧ b < 2^64 ∧ c < 2^64 ∧ d < 2^64 := by
    intro h
    rw [h] at hn
    match ws, hn, hw with
    | [a, b, c, d], _, hw => exact ⟨a, b, c, d, rfl, hw a (by simp), hw b (by simp), hw c (by simp), hw d (by simp)⟩
  cases t with
  | u128 =>
    obtain ⟨a, b, rfl, ha, hb⟩ := two rfl
    obtain ⟨v, h1, h2⟩ := key _ rfl
    exact ⟨_, v, _, h1, two_words ha hb (by unfold u128FromPieces seen BTy.signed; simp only [Bool.false_eq_true, false_and, if_false]; omega), ⟨_, rfl, h2⟩⟩
  | i128 =>
    obtain ⟨a, b, rfl, ha, hb⟩ := two rfl
    obtain ⟨v, h1, h2⟩ := key _ rfl
    exact ⟨_, v, _, h1, two_words ha hb (by unfold i128FromPieces; rw [seen_asI64 ha]; rfl), h2⟩
  | u256 =>
    obtain ⟨a, b, c, d, rfl, ha, hb, hc, hd⟩ := four rfl
    obtain ⟨v, h1, h2⟩ := key _ rfl
    refine ⟨_, v, _, h1, four_words ha hb hc hd ?_, ⟨_, rfl, h2⟩⟩
    have e : seen BTy.u256.signed a = a := by unfold seen BTy.signed; simp
    rw [e]
    unfold u256FromPieces
    rw [Nat.add_mul, Nat.mul_assoc, ← Nat.pow_add, ← Nat.add_assoc]
    norm_num
  | i256 =>
    obtain ⟨a, b, c, d, rfl, ha, hb, hc, hd⟩ := four rfl
    obtain ⟨v, h1, h2⟩ := key _ rfl
    refine ⟨_, v, _, h1, four_words ha hb hc hd ?_, h2⟩
    unfold i256FromPieces
    rw [seen_asI64 ha, show BTy.i256.signed = true from rfl]
    omega

/-- The numbers of a type. -/
def BigIn : BTy → Int → Prop
  | .u128, x => 0 ≤ x ∧ x < 2^128
  | .i128, x => -2^127 ≤ x ∧ x < 2^127
  | .u256, x => 0 ≤ x ∧ x < 2^256
  | .i256, x => -2^255 ≤ x ∧ x < 2^255

theorem seen_back (i : Int) (h : -2^63 ≤ i ∧ i < 2^63) : seen true (asU64 i) = i := by
  unfold seen asU64
  simp only [true_and]
  split <;> omega

theorem asU64_small (i : Int) : asU64 i < 2^64 := by unfold asU64; omega

/-- C56, pieces: the pieces a contract reads of a number are its words. -/
theorem C56_pieces {objs : List HostObj} (t : BTy) {v : Nat} {x : Int} (h : BigIs objs t v x) (hx : BigIn t x) :
    ∃ ws, TwosComplement t.signed (2^64) t.words x ws ∧ ∀ i w, ws[i]? = some w →
      runI objs (.piece t i) [v] = .ok (objs, .raw (seen (t.signed && i == 0) w)) := by
  have key : ∀ (o : HostObj) (ps : List Int) (i : Nat) (p : Int), visitObj objs v = .ok o → objPieces t o = some ps → ps[i]? = some p →
      runI objs (.piece t i) [v] = .ok (objs, .raw p) := by
    intro o ps i p h1 h2 h3
    simp only [runI]
    refine bind_ok.mpr ⟨_, h1, bind_ok.mpr ⟨.raw p, ?_, rfl⟩⟩
    rw [h2]
    simp only [Option.bind_some, h3, rawOf]
  cases t with
  | u128 =>
    obtain ⟨n, rfl, hv⟩ := h
    simp only [BigIn] at hx
    refine ⟨[u128Hi n, u128Lo n], two_words (Nat.mod_lt _ (by decide)) (Nat.mod_lt _ (by decide)) ?_, ?_⟩
    · have := u128_pieces (u := n) (by omega)
      unfold seen BTy.signed
      simp only [Bool.false_eq_true, false_and, if_false]
      omega
    · intro i w hi
      refine key _ _ i _ hv rfl ?_
      match i, hi with
      | 0, hi => cases hi; rfl
      | 1, hi => cases hi; rfl
  | i128 =>
    have hv : visitObj objs v = .ok (.i128 x) := h
    simp only [BigIn] at hx
    have hr : -2^63 ≤ i128Hi x ∧ i128Hi x < 2^63 := asI64_range _
    have hb := seen_back _ hr
    refine ⟨[asU64 (i128Hi x), i128Lo x], two_words (asU64_small _) (asU64_small _) ?_, ?_⟩
    · have := i128_pieces hx
      rw [show BTy.i128.signed = true from rfl, hb]
      exact this.symm
    · intro i w hi
      refine key _ _ i _ hv rfl ?_
      match i, hi with
      | 0, hi => cases hi; rw [show (BTy.i128.signed && (0 == 0)) = true from rfl, hb]; rfl
      | 1, hi => cases hi; rfl
  | u256 =>
    obtain ⟨n, rfl, hv⟩ := h
    simp only [BigIn] at hx
    refine ⟨[(u256IntoPieces n).1, (u256IntoPieces n).2.1, (u256IntoPieces n).2.2.1, (u256IntoPieces n).2.2.2],
      four_words (Nat.mod_lt _ (by decide)) (Nat.mod_lt _ (by decide)) (Nat.mod_lt _ (by decide)) (Nat.mod_lt _ (by decide)) ?_, ?_⟩
    · have := u256_pieces (u := n) (by omega)
      unfold seen BTy.signed
      simp only [Bool.false_eq_true, false_and, if_false]
      omega
    · intro i w hi
      refine key _ _ i _ hv rfl ?_
      match i, hi with
      | 0, hi => cases hi; rfl
      | 1, hi => cases hi; rfl
      | 2, hi => cases hi; rfl
      | 3, hi => cases hi; rfl
  | i256 =>
    have hv : visitObj objs v = .ok (.i256 x) := h
    simp only [BigIn] at hx
    have hr : -2^63 ≤ (i256IntoPieces x).1 ∧ (i256IntoPieces x).1 < 2^63 := asI64_range _
    have hb := seen_back _ hr
    refine ⟨[asU64 (i256IntoPieces x).1, (i256IntoPieces x).2.1, (i256IntoPieces x).2.2.1, (i256IntoPieces x).2.2.2],
      four_words (asU64_small _) (asU64_small _) (asU64_small _) (asU64_small _) ?_, ?_⟩
    · have := i256_pieces hx
      rw [show BTy.i256.signed = true from rfl, hb]
      exact this.symm
    · intro i w hi
      refine key _ _ i _ hv rfl ?_
      match i, hi with
      | 0, hi => cases hi; rw [show (BTy.i256.signed && (0 == 0)) = true from rfl, hb]; rfl
      | 1, hi => cases hi; rfl
      | 2, hi => cases hi; rfl
      | 3, hi => cases hi; rfl

/-! ### bytes -/

theorem digits_snoc (base : Nat) (ds : List Nat) (d : Nat) : digits base (ds ++ [d]) = digits base ds * base + d := by
  unfold digits
  rw [List.foldl_append]
  rfl

theorem digits_le (b : List Nat) : digits 256 b.reverse = (fromLe b : Int) := by
  induction b with
  | nil => rfl
  | cons a t ih =>
    rw [List.reverse_cons, digits_snoc, ih]
    simp only [fromLe]
    omega

theorem be_iff {s : Bool} {x : Int} {b : List Nat} :
    TwosComplement s 256 32 x b ↔ b.length = 32 ∧ (∀ d ∈ b, d < 256) ∧ (2:Int)^256 ∣ (fromLe b.reverse : Int) - x ∧ InWide s x := by
  unfold TwosComplement InWide
  have e := digits_le b.reverse
  rw [List.reverse_reverse] at e
  rw [e]
  have h1 : (((256 : Nat) : Int) ^ 32) = 2 ^ 256 := by norm_num
  have h2 : ((2:Int) ^ 256 / 2) = 2 ^ 255 := by norm_num
  rw [h1, h2]
  refine and_congr_right fun _ => and_congr_right fun _ => and_congr ?_ Iff.rfl
  omega

/-- C56, bytes: exactly 32 bytes make a number, the one of which they are the digits, the most significant first. -/
theorem C56_from_bytes {objs : List HostObj} (s : Bool) {v : Nat} {b : List Nat} (hv : visitObj objs v = .ok (.bytes b))
    (hb : ∀ d ∈ b, d < 256) (hl : objs.length < 2^31) :
    (b.length = 32 → ∃ x objs' w, runI objs (.fromBe s) [v] = .ok (objs', .val w) ∧ TwosComplement s 256 32 x b ∧ Gives objs objs' s w x) ∧
    (b.length ≠ 32 → runI objs (.fromBe s) [v] = .error (.host .object .unexpectedSize)) := by
  have hvb := visitBytes_ok.2 hv
  refine ⟨?_, ?_⟩
  · intro h32
    have hin := wrap_in s (fromLe b.reverse)
    obtain ⟨objs', w, h1, h2⟩ := wideVal_gives hl hin
    refine ⟨_, objs', w, ?_, be_iff.2 ⟨h32, hb, wrap_dvd _ _, hin⟩, h2⟩
    simp only [runI]
    refine bind_ok.mpr ⟨_, hvb, bind_ok.mpr ⟨_, if_pos h32, bind_ok.mpr ⟨_, h1, rfl⟩⟩⟩
  · intro h32
    simp only [runI, hvb]
    have : ofBe s b = .error (.host .object .unexpectedSize) := if_neg h32
    change (ofBe s b >>= _) = _
    rw [this]
    rfl

/-- C56, bytes: a number gives one new object with its 32 digits. -/
theorem C56_to_bytes {objs : List HostObj} (s : Bool) {v : Nat} {x : Int} (hv : WideIs objs s v x) (hx : InWide s x)
    (hl : objs.length < 2^31) :
    ∃ b w, runI objs (.toBe s) [v] = .ok (objs ++ [.bytes b], .val w) ∧ visitObj (objs ++ [.bytes b]) w = .ok (.bytes b) ∧
      TwosComplement s 256 32 x b := by
  obtain ⟨w, hw⟩ := addObj_ok (.bytes (beBytes x)) hl
  refine ⟨beBytes x, w, ?_, (addObj_visit hl hw).1, be_iff.2 ⟨?_, ?_, ?_, hx⟩⟩
  · simp only [runI]
    refine bind_ok.mpr ⟨_, wideOf_of hv hx, ?_⟩
    unfold retObj
    exact bind_ok.mpr ⟨_, rfl, bind_ok.mpr ⟨_, hw, rfl⟩⟩
  · unfold beBytes; rw [List.length_reverse, toLe_length]
  · intro d hd
    unfold beBytes at hd
    exact toLe_lt _ _ d (List.mem_reverse.1 hd)
  · unfold beBytes
    rw [List.reverse_reverse, fromLe_toLe _ _ (by
      have : (256:Nat)^32 = 2^256 := by norm_num
      rw [this]
      omega)]
    omega

/-- A number has one sequence of digits, and a sequence of digits is one number: with the theorems above, reading what was made gives
back what was given, in both directions. -/
theorem C56_digits_unique {s : Bool} {base n : Nat} {x y : Int} {ds es : List Nat} (hbase : 0 < base) (h : TwosComplement s base n x ds)
    (h' : TwosComplement s base n y es) : x = y ↔ ds = es := by
  have hlt : ∀ (ds : List Nat), (∀ d ∈ ds, d < base) → 0 ≤ digits base ds ∧ digits base ds < (base ^ ds.length : Int) := by
    intro ds
    induction ds using List.reverseRecOn with
    | nil => intro _; simp [digits]
    | append_singleton ds d ih =>
      intro hd
      obtain ⟨h1, h2⟩ := ih (fun d hm => hd d (by simp [hm]))
      have hd' := hd d (by simp)
      rw [digits_snoc, List.length_append, List.length_singleton, Int.pow_succ]
      have h3 : digits base ds * base ≤ ((base ^ ds.length : Int) - 1) * base := Int.mul_le_mul_of_nonneg_right (by omega) (by omega)
      have h4 : 0 ≤ digits base ds * base := Int.mul_nonneg h1 (by omega)
      rw [Int.sub_mul] at h3
      omega
  have huniq : ∀ (ds es : List Nat), ds.length = es.length → (∀ d ∈ ds, d < base) → (∀ d ∈ es, d < base) →
      digits base ds = digits base es → ds = es := by
    intro ds
    induction ds using List.reverseRecOn with
    | nil => intro es hl _ _ _; exact (List.length_eq_zero_iff.1 hl.symm).symm
    | append_singleton ds d ih =>
      intro es hl hd he heq
      rcases List.eq_nil_or_concat es with rfl | ⟨es, e, rfl⟩
      · simp at hl
      · rw [List.concat_eq_append] at *
        rw [digits_snoc, digits_snoc] at heq
        have hd' := hd d (by simp)
        have he' := he e (by simp)
        have h1 : digits base ds = digits base es ∧ (d : Int) = e := by
          have a := ediv_emod_of (a := digits base ds * base + d) (b := base) (q := digits base ds) (r := d) (by rw [Int.mul_comm]) (by omega) (by omega)
          have b := ediv_emod_of (a := digits base es * base + e) (b := base) (q := digits base es) (r := e) (by rw [Int.mul_comm]) (by omega) (by omega)
          rw [heq] at a
          exact ⟨a.1.symm.trans b.1, a.2.symm.trans b.2⟩
        rw [ih es (by simpa using hl) (fun d hm => hd d (by simp [hm])) (fun d hm => he d (by simp [hm])) h1.1]
        have : d = e := by omega
        rw [this]
  obtain ⟨h1, h2, h3, h4⟩ := h
  obtain ⟨g1, g2, g3, g4⟩ := h'
  have r1 := hlt ds h2
  have r2 := hlt es g2
  rw [h1] at r1
  rw [g1] at r2
  generalize hM : (base ^ n : Int) = M at *
  obtain ⟨p, hp⟩ := h3
  obtain ⟨q, hq⟩ := g3
  have small : ∀ k : Int, -M < M * k → M * k < M → k = 0 := by
    intro k h1 h2
    have hM0 : 0 < M := by omega
    have a : -1 < k := by
      by_contra hh
      have := Int.mul_le_mul_of_nonneg_left (a := k) (b := -1) (c := M) (by omega) (by omega)
      omega
    have b : k < 1 := by
      by_contra hh
      have := Int.mul_le_mul_of_nonneg_left (a := 1) (b := k) (c := M) (by omega) (by omega)
      omega
    omega
  constructor
  · rintro rfl
    refine huniq ds es (by omega) h2 g2 ?_
    have hs : M * (p - q) = digits base es - digits base ds := by rw [Int.mul_sub]; omega
    have := small (p - q) (by omega) (by omega)
    rw [this] at hs
    omega
  · rintro rfl
    have hs : M * (p - q) = x - y := by rw [Int.mul_sub]; omega
    have := small (p - q) (by
      cases s <;> simp only [Bool.false_eq_true, if_false, if_true] at h4 g4 <;> omega) (by
      cases s <;> simp only [Bool.false_eq_true, if_false, if_true] at h4 g4 <;> omega)
    rw [this] at hs
    omega

/-! ### a case -/

/-- The numbers 7 and -3, and the least number of `I256` as an object. -/
def intObjs : List HostObj := [.i256 (-2^255), .u256 (2^256 - 1)]

example : WideIs intObjs true (7 * 2^8 + 13) 7 ∧ InWide true 7 := ⟨.smallI 7 (by omega) (by omega), by unfold InWide; simp⟩
example : WideIs intObjs true (1 * 2^32 + 71) (-2^255) := .objI _ (by decide +kernel)
example : WideIs intObjs false (3 * 2^32 + 70) (2^256 - 1) := .objU (2^256 - 1) (by decide +kernel)
/-- `-2^255 / -1` has no result. -/
example : ¬ ∃ r, Means true .div (-2^255) (-1) r := by
  rintro ⟨r, h⟩
  have hd := tdiv_fits (s := true) (a := -2^255) (b := -1) (by unfold InWide; simp) (by unfold InWide; simp) (by omega)
  cases h with
  | div h1 h2 h3 h4 h5 =>
    rw [← tdiv_of h1 h2 h3 h4, hd] at h5
    exact h5 ⟨rfl, rfl⟩
example : Means true .div (-7) 2 (-3) := .div (r := -1) (by omega) (by omega) (by omega) (by omega) (by unfold InWide; simp)
example : Means true .remEuclid (-7) 2 1 := .rem (q := -4) (by omega) (by omega) (by omega) (by omega)
example : Means true .shr (-7) (1 : Nat) (-4) := .shr (by omega) (by omega) (by omega)
example : Means false .pow 2 (255 : Nat) (2^255) := .pow (by unfold InWide; simp)

end Soroban.Props
