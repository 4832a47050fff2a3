import Verif.Model.AssetMeta
import Verif.Spec.Strkey
/-! What C72 says about assets: their XDR form, when they are well formed, and how they are named. -/
namespace Soroban.AssetMeta.Spec
open Soroban.Strkey.Spec (be IsStrkey)

/-- An ASCII letter or digit. -/
def Alnum (c : Nat) : Prop := (48 ≤ c ∧ c ≤ 57) ∨ (65 ≤ c ∧ c ≤ 90) ∨ (97 ≤ c ∧ c ≤ 122)

/-- A code of `n` bytes is a text of letters and digits, at least `least` of them, followed by zeros. -/
def IsCode (n least : Nat) (code text : List Nat) : Prop :=
  least ≤ text.length ∧ text.length ≤ n ∧ (∀ c ∈ text, Alnum c) ∧ code = text ++ List.replicate (n - text.length) 0

/-- The well-formed assets: codes of one to four characters in the short form, of five to twelve in the long form. -/
def Valid : Asset → Prop
  | .native => True
  | .alpha4 code issuer => issuer < 256 ^ 32 ∧ ∃ text, IsCode 4 1 code text
  | .alpha12 code issuer => issuer < 256 ^ 32 ∧ ∃ text, IsCode 12 5 code text

/-- The XDR form of an asset. -/
def xdr : Asset → List Nat
  | .native => [0, 0, 0, 0]
  | .alpha4 code issuer => [0, 0, 0, 1] ++ code ++ [0, 0, 0, 0] ++ be 32 issuer
  | .alpha12 code issuer => [0, 0, 0, 2] ++ code ++ [0, 0, 0, 0] ++ be 32 issuer

/-- The administrator an asset starts with: the issuer. -/
def issuer : Asset → Option ScAddr
  | .native => none
  | .alpha4 _ k => some (.account k)
  | .alpha12 _ k => some (.account k)

/-- A name made of a code's text and an issuer: `TEXT:G...` -/
def Named (text : List Nat) (issuer : Nat) (name : List Nat) : Prop :=
  ∃ g, IsStrkey g (.account issuer) ∧ name = text ++ (':'.toNat :: g)

/-- The name and the symbol of an asset: `native` twice, or `TEXT:G...` and `TEXT`. -/
def Describes : Asset → List Nat → List Nat → Prop
  | .native, name, symbol => name = "native".toList.map Char.toNat ∧ symbol = name
  | .alpha4 code issuer, name, symbol => IsCode 4 1 code symbol ∧ Named symbol issuer name
  | .alpha12 code issuer, name, symbol => IsCode 12 5 code symbol ∧ Named symbol issuer name

/-- A code of four or twelve bytes whose zeros are all at the end; other characters are arbitrary. -/
def PaddedCode (code : List Nat) : Prop :=
  (code.length = 4 ∨ code.length = 12) ∧ (∀ c ∈ code, c < 256) ∧
    ∃ text k, code = text ++ List.replicate k 0 ∧ ∀ c ∈ text, c ≠ 0

/-- The digits of hexadecimal numbers. -/
def digits : List Nat := "0123456789abcdef".toList.map Char.toNat

/-- SEP-11: a byte of a code as text. Visible ASCII characters other than `:` and `\` stand for themselves; other bytes are written as
`\x` and two digits. -/
def written (c : Nat) : List Nat :=
  if 33 ≤ c ∧ c ≤ 126 ∧ c ≠ ':'.toNat ∧ c ≠ '\\'.toNat then [c]
  else ['\\'.toNat, 'x'.toNat, digits.getD (c / 16) 0, digits.getD (c % 16) 0]

end Soroban.AssetMeta.Spec
