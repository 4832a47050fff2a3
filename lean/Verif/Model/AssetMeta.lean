import Verif.Model.Strkey
/-!
Model of the initialization and the metadata of the Stellar Asset Contract
(soroban-env-host/src/builtin_contracts/stellar_asset_contract/{contract,asset_info,metadata,public_types}.rs).

Simplifications: budget charges are dropped; the instance storage is a record of the three entries the code uses; host strings
and byte objects are their contents; an XDR error of any kind is one error.
-/
namespace Soroban.AssetMeta
open Soroban.Strkey (beBytes ofBe)

/-- XDR `Asset`; codes are byte strings, issuers are the numbers of their keys (as in `ScAddr`). -/
inductive Asset where
  | native
  | alpha4 (code : List Nat) (issuer : Nat)
  | alpha12 (code : List Nat) (issuer : Nat)
  deriving DecidableEq, Repr

/-- `Asset::from_xdr`: a type of four bytes, the code, the type of the key (four zeros), the key; nothing may follow. -/
def assetFromXdr (b : List Nat) : Option Asset :=
  if b.take 4 = [0, 0, 0, 0] then
    if b.length = 4 then some .native else none
  else if b.take 4 = [0, 0, 0, 1] then
    if b.length = 44 ∧ (b.drop 8).take 4 = [0, 0, 0, 0] then
      some (.alpha4 ((b.drop 4).take 4) (ofBe (b.drop 12))) else none
  else if b.take 4 = [0, 0, 0, 2] then
    if b.length = 52 ∧ (b.drop 16).take 4 = [0, 0, 0, 0] then
      some (.alpha12 ((b.drop 4).take 12) (ofBe (b.drop 20))) else none
  else none

/-- The error of a failed conversion from XDR (host/error.rs, `map_err`); its code does not matter here. -/
def xdrError : Err := .host .value .invalidInput

def invalidInput : Err := .host .value .invalidInput

/-- `u8::is_ascii_alphanumeric`. -/
def isAlnum (c : Nat) : Bool :=
  (decide (48 ≤ c) && decide (c ≤ 57)) || (decide (65 ≤ c) && decide (c ≤ 90)) || (decide (97 ≤ c) && decide (c ≤ 122))

/-- asset_info.rs:42-62, the loop of `validate_asset_code`: the number of nonzero characters. -/
def codeLoop : List Nat → Bool → Nat → Res Nat
  | [], _, n => .ok n
  | c :: cs, hadZero, n =>
    if c = 0 then codeLoop cs true n
    else if hadZero then .error invalidInput
    else if c > 0x7f || !isAlnum c then .error invalidInput
    else codeLoop cs hadZero (n + 1)

/-- asset_info.rs:39-81 `validate_asset_code` -/
def validateCode (code : List Nat) : Res Unit := do
  let n ← codeLoop code false 0
  if n = 0 then .error invalidInput
  else if n ≤ 4 ∧ code.length > 4 then .error invalidInput
  else .ok ()

/-- asset_info.rs:36-88 `validate_asset` -/
def validateAsset : Asset → Res Unit
  | .native => .ok ()
  | .alpha4 code _ => validateCode code
  | .alpha12 code _ => validateCode code

/-- public_types.rs:24-28 `AssetInfo`; codes are strings, issuers are 32 bytes. -/
inductive Info where
  | native
  | alphaNum4 (code issuer : List Nat)
  | alphaNum12 (code issuer : List Nat)
  deriving DecidableEq, Repr

/-- metadata.rs:16-20 `StellarAssetContractMetadata` -/
structure Metadata where
  decimal : Nat
  name : List Nat
  symbol : List Nat
  deriving DecidableEq, Repr

/-- The instance storage of the contract, the entries used here: storage_types.rs `InstanceDataKey` and metadata.rs:12
`METADATA_KEY`. -/
structure Inst where
  admin : Option ScAddr
  info : Option Info
  metadata : Option Metadata
  deriving DecidableEq, Repr

/-- metadata.rs:22 `DECIMAL` -/
def decimals : Nat := 7

/-- A lower-case hexadecimal digit. -/
def hexDigit (d : Nat) : Nat := if d < 10 then 48 + d else 87 + d

/-- metadata.rs:46-48, the escaped form `\xHH` of a byte. -/
def escaped (x : Nat) : List Nat := [92, 120, hexDigit (x / 16), hexDigit (x % 16)]

/-- metadata.rs:37-50, the loop of `render_sep0011_asset_code`, from index `i` on, for a code of `len` bytes. -/
def renderLoop (len : Nat) : Nat → List Nat → List Nat
  | _, [] => []
  | i, x :: xs =>
    if x = 0 ∧ len = 4 then []
    else if x = 0 ∧ len = 12 ∧ i > 4 then []
    else if x = 58 ∨ x = 92 ∨ x ≤ 0x20 ∨ 0x7f ≤ x then escaped x ++ renderLoop len (i + 1) xs
    else x :: renderLoop len (i + 1) xs

/-- metadata.rs:33-52 `render_sep0011_asset_code` -/
def renderCode (buf : List Nat) : Res (List Nat) :=
  if buf.length ≠ 4 ∧ buf.length ≠ 12 then .error invalidInput else .ok (renderLoop buf.length 0 buf)

/-- metadata.rs:130-159 `render_sep0011_asset`, at size `n`: name and symbol. base_types.rs:62-76 `to_array` checks the size. -/
def renderAsset (n : Nat) (code issuer : List Nat) : Res (List Nat × List Nat) :=
  if code.length ≠ n then .error (.host .value .unexpectedSize)
  else do
    let s ← renderCode code
    .ok (s ++ 58 :: Strkey.toText (.publicKey (ofBe issuer)), s)

/-- `native` -/
def nativeName : List Nat := [110, 97, 116, 105, 118, 101]

/-- asset_info.rs:20-24 `read_asset_info`; a missing entry is a storage error (C21). -/
def readInfo (st : Inst) : Res Info := match st.info with | some i => .ok i | none => .error (.host .storage .missingValue)

/-- metadata.rs:163-190 `set_metadata` -/
def setMetadata (st : Inst) : Res Inst := do
  let info ← readInfo st
  let (name, symbol) ← match info with
    | .native => .ok (nativeName, nativeName)
    | .alphaNum4 code issuer => renderAsset 4 code issuer
    | .alphaNum12 code issuer => renderAsset 12 code issuer
  .ok { st with metadata := some ⟨decimals, name, symbol⟩ }

/-- contract.rs:104-141, what `init_asset` stores about an asset. -/
def writeAsset (st : Inst) : Asset → Inst
  | .native => { st with info := some .native }
  | .alpha4 code issuer => { st with admin := some (.account issuer), info := some (.alphaNum4 code (beBytes 32 issuer)) }
  | .alpha12 code issuer => { st with admin := some (.account issuer), info := some (.alphaNum12 code (beBytes 32 issuer)) }

/-- contract.rs:81-146 `init_asset`; `idOf` is lifecycle.rs:310-314 `get_asset_contract_id_hash` and `cur` the id of the current
contract. Error 3 is contract_error.rs:15 `AlreadyInitializedError`. -/
def initAsset (idOf : Asset → Nat) (cur : Nat) (st : Inst) (bytes : List Nat) : Res Inst :=
  if st.info.isSome then .error (.contract 3)
  else match assetFromXdr bytes with
    | none => .error xdrError
    | some asset => do
      validateAsset asset
      if cur ≠ idOf asset then .error (.host .context .internalError)
      else setMetadata (writeAsset st asset)

/-- asset_info.rs:26-28 `read_asset` with public_types.rs:30-46. -/
def readAsset (st : Inst) : Res Asset := do
  let info ← readInfo st
  match info with
  | .native => .ok .native
  | .alphaNum4 code issuer =>
    if issuer.length ≠ 32 then .error (.host .value .unexpectedSize)
    else if code.length ≠ 4 then .error (.host .value .unexpectedSize) else .ok (.alpha4 code (ofBe issuer))
  | .alphaNum12 code issuer =>
    if issuer.length ≠ 32 then .error (.host .value .unexpectedSize)
    else if code.length ≠ 12 then .error (.host .value .unexpectedSize) else .ok (.alpha12 code (ofBe issuer))

/-- contract.rs:382-385 `name`, metadata.rs:192-198 `read_name` -/
def name (st : Inst) : Res (List Nat) :=
  match st.metadata with | some m => .ok m.name | none => .error (.host .storage .missingValue)

/-- contract.rs:387-390 `symbol`, metadata.rs:200-206 `read_symbol` -/
def symbol (st : Inst) : Res (List Nat) :=
  match st.metadata with | some m => .ok m.symbol | none => .error (.host .storage .missingValue)

end Soroban.AssetMeta
