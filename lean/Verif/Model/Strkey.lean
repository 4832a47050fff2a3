import Verif.Model.Convert
import Verif.Model.Memory
/-!
Model of the host functions between addresses and their text form ("strkey"): `address_to_strkey`, `muxed_address_to_strkey`,
`strkey_to_address`, `strkey_to_muxed_address`, `get_address_from_muxed_address`, `get_id_from_muxed_address`
(soroban-env-host/src/host.rs:3586-3684, host/conversion.rs:664-821).

The crates `stellar-strkey` 0.0.13 and `data-encoding` (unpadded base32) are not part of the repository. `crc16`,
`base32Encode`, `base32Decode`, `encode`, `decode`, `toText` and `fromText` model them as they are documented (SEP-0023,
CRC16-XMODEM, RFC 4648). Text is a list of bytes. Budget charges are dropped.
-/
namespace Soroban.Strkey

/-- The 8 bits of a byte, or the 5 bits of a symbol, most significant first. -/
def bitsOf (k v : Nat) : List Bool := (List.range k).map fun j => v.testBit (k - 1 - j)

/-- The number written by some bits, most significant first. -/
def valOf (bs : List Bool) : Nat := bs.foldl (fun a b => 2 * a + b.toNat) 0

/-- The first `n` groups of `k` bits, each read as a number. -/
def groups (k : Nat) : Nat → List Bool → List Nat
  | 0, _ => []
  | n + 1, bs => valOf (bs.take k) :: groups k n (bs.drop k)

/-- RFC 4648, the base32 alphabet: `A` to `Z`, then `2` to `7`. -/
def symbolOf (v : Nat) : Nat := if v < 26 then 65 + v else 24 + v

/-- The value of a base32 symbol; `none` for any other byte. -/
def valueOf (c : Nat) : Option Nat :=
  if 65 ≤ c ∧ c ≤ 90 then some (c - 65) else if 50 ≤ c ∧ c ≤ 55 then some (c - 24) else none

/-- `data_encoding::BASE32_NOPAD.encode`: the bits, completed with zeros to a multiple of five, five at a time. -/
def base32Encode (d : List Nat) : List Nat :=
  let n := (8 * d.length + 4) / 5
  (groups 5 n (d.flatMap (bitsOf 8) ++ List.replicate (5 * n - 8 * d.length) false)).map symbolOf

/-- `data_encoding::BASE32_NOPAD.decode`: every byte must be a symbol, less than five bits may be left over after the last
whole byte, and they must be zero. -/
def base32Decode (s : List Nat) : Option (List Nat) :=
  match s.mapM valueOf with
  | none => none
  | some vs =>
    let bits := vs.flatMap (bitsOf 5)
    let n := bits.length / 8
    let rest := bits.drop (8 * n)
    if rest.length < 5 ∧ rest.all (!·) then some (groups 8 n bits) else none

/-- One bit of CRC16-XMODEM: polynomial 0x1021, most significant bit first. -/
def crcBit (c : Nat) (b : Bool) : Nat :=
  ((c <<< 1) % 2^16) ^^^ (if (c.testBit 15) != b then 0x1021 else 0)

/-- CRC16-XMODEM of some bytes: initial value 0, no final inversion. -/
def crc16 (d : List Nat) : Nat := (d.flatMap (bitsOf 8)).foldl crcBit 0

/-- `stellar_strkey` `crc::checksum`: low byte first. -/
def checksum (d : List Nat) : List Nat := [crc16 d % 256, crc16 d / 256]

/-- `stellar_strkey` `convert::encode`: version byte, payload, checksum, in base32. -/
def encode (ver : Nat) (payload : List Nat) : List Nat :=
  base32Encode ((ver :: payload) ++ checksum (ver :: payload))

/-- `stellar_strkey` `convert::decode`: version byte and payload. -/
def decode (s : List Nat) : Option (Nat × List Nat) :=
  match base32Decode s with
  | none => none
  | some d =>
    if d.length < 3 then none
    else if d.drop (d.length - 2) = checksum (d.take (d.length - 2)) then
      match d.take (d.length - 2) with
      | ver :: payload => some (ver, payload)
      | [] => none
    else none

/-- Big-endian bytes of a number: `[u8; 32]` keys and hashes, `u64::to_be_bytes`. -/
def beBytes (n v : Nat) : List Nat := (toLe n v).reverse

/-- `u64::from_be_bytes`, and the reading of key bytes as a number. -/
def ofBe (b : List Nat) : Nat := fromLe b.reverse

/-- `stellar_strkey::Strkey`; the kinds the host refuses are not told apart. -/
inductive Key where
  | publicKey (key : Nat)
  | contract (id : Nat)
  | muxed (id key : Nat)
  | other
  deriving DecidableEq, Repr

/-- `stellar_strkey::Strkey::to_string`: versions 6 << 3 (`G`), 2 << 3 (`C`), 12 << 3 (`M`); a muxed account's payload is its
key followed by its id. The host never writes another kind. -/
def toText : Key → List Nat
  | .publicKey k => encode 48 (beBytes 32 k)
  | .contract h => encode 16 (beBytes 32 h)
  | .muxed i k => encode 96 (beBytes 32 k ++ beBytes 8 i)
  | .other => []

/-- `stellar_strkey::Strkey::from_string`. A text with another version is either refused or yields a kind the host refuses
with the same error, so it is `other` here. -/
def fromText (s : List Nat) : Option Key :=
  match decode s with
  | none => none
  | some (ver, p) =>
    if ver = 48 then if p.length = 32 then some (.publicKey (ofBe p)) else none
    else if ver = 16 then if p.length = 32 then some (.contract (ofBe p)) else none
    else if ver = 96 then
      if p.length = 40 then some (.muxed (ofBe (p.drop 32)) (ofBe (p.take 32))) else none
    else some .other

/-- host/conversion.rs:664-694 `non_muxed_sc_address_to_strkey`. -/
def nonMuxedToStrkey : ScAddr → Res (List Nat)
  | .account k => .ok (toText (.publicKey k))
  | .contract h => .ok (toText (.contract h))
  | _ => .error (.host .object .internalError)

/-- host/conversion.rs:696-724 `muxed_sc_address_to_strkey`. -/
def muxedToStrkey : ScAddr → Res (List Nat)
  | .muxedAccount i k => .ok (toText (.muxed i k))
  | _ => .error (.host .object .internalError)

/-- host/conversion.rs:730-821 `strkey_to_scaddress`. `String::from_utf8_lossy` replaces bytes that are not UTF-8 by bytes
outside the base32 alphabet, which the library refuses like the original ones; the text is passed on unchanged here. -/
def strkeyToScAddress (objs : List HostObj) (v : Nat) (allowMuxed : Bool) : Res ScAddr :=
  if !Val.isObject v then .error (.host .value .unexpectedType)
  else match visitObj objs v with
    | .error e => .error e
    | .ok o =>
      match (match o with | .bytes b => some b | .string b => some b | _ => none) with
      | none => .error (.host .value .unexpectedType)
      | some key =>
        if !(if allowMuxed then decide (key.length = 56 ∨ key.length = 69) else decide (key.length = 56)) then
          .error (.host .value .invalidInput)
        else match fromText key with
          | none => .error (.host .value .invalidInput)
          | some (.publicKey k) => .ok (.account k)
          | some (.contract h) => .ok (.contract h)
          | some (.muxed i k) => if allowMuxed then .ok (.muxedAccount i k) else .error (.host .value .invalidInput)
          | some .other => .error (.host .value .invalidInput)

/-- host_object.rs:228-259, `inject` of `ScAddress`, with 458-470 `add_host_object`. -/
def addAddress (objs : List HostObj) (a : ScAddr) : Res (List HostObj × Nat) :=
  match a with
  | .account _ | .contract _ => addObj objs (.address a)
  | _ => .error (.host .object .invalidInput)

/-- host_object.rs:263-292, `inject` of `MuxedScAddress`, with 458-470 `add_host_object`. -/
def addMuxedAddress (objs : List HostObj) (a : ScAddr) : Res (List HostObj × Nat) :=
  match a with
  | .muxedAccount _ _ => addObj objs (.muxedAddress a)
  | _ => .error (.host .object .invalidInput)

/-- host_object.rs:521-540 `visit_obj` at type `ScAddress`. -/
def visitAddress (objs : List HostObj) (v : Nat) : Res ScAddr :=
  match visitObj objs v with
  | .error e => .error e
  | .ok (.address a) => .ok a
  | .ok _ => .error (.host .object .internalError)

/-- host_object.rs:521-540 `visit_obj` at type `MuxedScAddress`. -/
def visitMuxedAddress (objs : List HostObj) (v : Nat) : Res ScAddr :=
  match visitObj objs v with
  | .error e => .error e
  | .ok (.muxedAddress a) => .ok a
  | .ok _ => .error (.host .object .internalError)

/-- host.rs:3586-3595 `address_to_strkey`. -/
def addressToStrkey (objs : List HostObj) (v : Nat) : Res (List HostObj × Nat) := do
  let a ← visitAddress objs v
  let s ← nonMuxedToStrkey a
  addObj objs (.string s)

/-- host.rs:3597-3622 `muxed_address_to_strkey`. -/
def muxedAddressToStrkey (objs : List HostObj) (v : Nat) : Res (List HostObj × Nat) :=
  if !Val.isObject v then .error (.host .value .unexpectedType)
  else do
    let o ← visitObj objs v
    let s ← match o with
      | .address a => nonMuxedToStrkey a
      | .muxedAddress a => muxedToStrkey a
      | _ => .error (.host .value .unexpectedType)
    addObj objs (.string s)

/-- host.rs:3624-3631 `strkey_to_address`. -/
def strkeyToAddress (objs : List HostObj) (v : Nat) : Res (List HostObj × Nat) := do
  let a ← strkeyToScAddress objs v false
  addAddress objs a

/-- host.rs:3633-3645 `strkey_to_muxed_address`. -/
def strkeyToMuxedAddress (objs : List HostObj) (v : Nat) : Res (List HostObj × Nat) := do
  let a ← strkeyToScAddress objs v true
  match a with
  | .muxedAccount _ _ => addMuxedAddress objs a
  | _ => addAddress objs a

/-- host.rs:3647-3667 `get_address_from_muxed_address`. -/
def getAddressFromMuxed (objs : List HostObj) (v : Nat) : Res (List HostObj × Nat) := do
  let a ← visitMuxedAddress objs v
  match a with
  | .muxedAccount _ k => addAddress objs (.account k)
  | _ => .error (.host .object .internalError)

/-- host.rs:3669-3684 `get_id_from_muxed_address`: the id. Its conversion to a value, small or not, is the one of
`Convert`; only the number is kept here. -/
def getIdFromMuxed (objs : List HostObj) (v : Nat) : Res Nat := do
  let a ← visitMuxedAddress objs v
  match a with
  | .muxedAccount i _ => .ok i
  | _ => .error (.host .object .internalError)

end Soroban.Strkey
