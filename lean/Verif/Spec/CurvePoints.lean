import Verif.Spec.Curves
import Verif.Lemmas.CurvePrimes
/-!
The four groups contracts work with and their encodings, and what it means that a function on encodings computes a function on points.
(`Verif.Lemmas.CurvePrimes` is imported for the proofs that the moduli are prime.)
-/
namespace Soroban.Curves.Spec

/-- `y ^ 2 = x ^ 3 + 4` over the prime field of BLS12-381. -/
abbrev BlsG1 := Point (4 : ZMod blsP)

/-- `y ^ 2 = x ^ 3 + 4 * (1 + u)` over its quadratic extension. -/
abbrev BlsG2 := Point (⟨4, 4⟩ : Fp2 blsP)

/-- `y ^ 2 = x ^ 3 + 3` over the prime field of BN254. -/
abbrev BnG1 := Point (3 : ZMod bnP)

/-- `y ^ 2 = x ^ 3 + 3 / (9 + u)` over its quadratic extension. -/
abbrev BnG2 := Point bnG2.b

/-- 96 bytes. -/
def blsEnc1 : BlsG1 → Bytes := zcash 48 fun x => be 48 x.val

/-- 192 bytes. -/
def blsEnc2 : BlsG2 → Bytes := zcash 96 (be2 48)

/-- 64 bytes. -/
def bnEnc1 : BnG1 → Bytes := ethereum 32 fun x => be 32 x.val

/-- 128 bytes. -/
def bnEnc2 : BnG2 → Bytes := ethereum 64 (be2 32)

/-- The coordinates of a point. -/
def coords {F : Type} [Field F] {b : F} : Point b → Aff F
  | .zero => .zero
  | .some x y _ => .xy x y

/-- A function on bytes computes a function of the values that satisfy `S`: it succeeds on their encodings, and fails with
`Crypto/InvalidInput` on all other bytes. -/
def Computes {A T : Type} (enc : A → Bytes) (S : A → Prop) (api : Bytes → Res T) (f : A → T) : Prop :=
  (∀ a, S a → api (enc a) = .ok (f a)) ∧ ∀ b, IsBytes b → (∀ a, S a → enc a ≠ b) → api b = .error invalidInput

/-- The same for two arguments. -/
def Computes2 {A B T : Type} (enc : A → Bytes) (S : A → Prop) (enc' : B → Bytes) (S' : B → Prop) (api : Bytes → Bytes → Res T)
    (f : A → B → T) : Prop :=
  (∀ a c, S a → S' c → api (enc a) (enc' c) = .ok (f a c)) ∧
    ∀ b b', IsBytes b → IsBytes b' → ((∀ a, S a → enc a ≠ b) ∨ ∀ c, S' c → enc' c ≠ b') → api b b' = .error invalidInput

/-- Laws of addition and multiplication on bytes; both sides fail in the same way where they fail. -/
def Laws (add : Bytes → Bytes → Res Bytes) (mul : Bytes → Nat → Res Bytes) (b b' b'' : Bytes) (m n : Nat) : Prop :=
  add b b' = add b' b ∧
    ((do let x ← add b b'; add x b'') = do let y ← add b' b''; add b y) ∧
    ((do let x ← mul b m; mul x n) = mul b (m * n)) ∧
    ((do let x ← mul b m; let y ← mul b n; add x y) = mul b (m + n))

/-- A function on bytes tells whether two coordinates satisfy the equation of the curve. Infinity is on the curve. Bytes that are
neither infinity nor two coordinates are refused. -/
def DecidesCurve {F : Type} [Field F] [DecidableEq F] (e : F → Bytes) (inf : Bytes) (b : F) (api : Bytes → Res Bool) : Prop :=
  api inf = .ok true ∧ (∀ x y, e x ++ e y ≠ inf → api (e x ++ e y) = .ok (decide (y ^ 2 = x ^ 3 + b))) ∧
    ∀ bs, IsBytes bs → bs ≠ inf → (∀ x y, e x ++ e y ≠ bs) → api bs = .error invalidInput

/-- The bytes in a vector are bytes. -/
def IsVec (v : List Elem) : Prop := ∀ b, Elem.bytes b ∈ v → IsBytes b

/-- A vector of encodings. -/
def encs {A : Type} (enc : A → Bytes) (l : List A) : List Elem := l.map fun a => .bytes (enc a)

/-- A vector of numbers. -/
def nums (l : List Nat) : List Elem := l.map .u256

/-- A function of a vector of points and a vector of numbers succeeds just when there are as many numbers as points, at least one, and
all points satisfy `S`; it gives the sum of the multiples. -/
def ComputesMsm {F : Type} [Field F] [DecidableEq F] {b : F} (enc : Point b → Bytes) (S : Point b → Prop)
    (api : List Elem → List Elem → Res Bytes) : Prop :=
  ∀ vp vs, IsVec vp →
    (∀ out, api vp vs = .ok out ↔
      ∃ l : List (Point b × Nat), l ≠ [] ∧ (∀ t ∈ l, S t.1) ∧ vp = encs enc (l.map (·.1)) ∧ vs = nums (l.map (·.2)) ∧
        out = enc (lincomb l)) ∧
    ∀ e, api vp vs = .error e → e = invalidInput ∨ e = conversionError

/-- A function of two vectors of points succeeds just when the vectors have the same length, at least one, and all points satisfy `S`
and `S'`; it tells whether the product of the values of `e` is one. -/
def ComputesPairing {A B T : Type} [CommMonoid T] [DecidableEq T] (enc : A → Bytes) (S : A → Prop) (enc' : B → Bytes) (S' : B → Prop)
    (e : A → B → T) (api : List Elem → List Elem → Res Bool) : Prop :=
  ∀ v v', IsVec v → IsVec v' →
    (∀ t, api v v' = .ok t ↔
      ∃ l : List (A × B), l ≠ [] ∧ (∀ q ∈ l, S q.1 ∧ S' q.2) ∧ v = encs enc (l.map (·.1)) ∧ v' = encs enc' (l.map (·.2)) ∧
        t = decide ((l.map fun q => e q.1 q.2).prod = 1)) ∧
    ∀ err, api v v' = .error err → err = invalidInput ∨ err = conversionError

/-- A bilinear map on the values that satisfy `S` and `S'`. -/
structure IsPairing {A B T : Type} [AddCommGroup A] [AddCommGroup B] [CommGroup T] (S : A → Prop) (S' : B → Prop) (e : A → B → T) :
    Prop where
  add_left : ∀ P P' Q, S P → S P' → S' Q → e (P + P') Q = e P Q * e P' Q
  add_right : ∀ P Q Q', S P → S' Q → S' Q' → e P (Q + Q') = e P Q * e P Q'

/-- The library's pairing of lists of points is the product of the values of `e`. -/
def Multiplies {F G T : Type} [Field F] [Field G] [CommMonoid T] {b : F} {c : G} (S : Point b → Prop) (S' : Point c → Prop)
    (e : Point b → Point c → T) (pair : List (Aff F × Aff G) → Option T) : Prop :=
  ∀ l : List (Point b × Point c), (∀ q ∈ l, S q.1 ∧ S' q.2) →
    pair (l.map fun q => (coords q.1, coords q.2)) = some (l.map fun q => e q.1 q.2).prod

end Soroban.Curves.Spec
