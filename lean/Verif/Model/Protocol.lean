import Verif.Model.Ip

/-!
# The packet plaintext and the commander message
-/

namespace Ruroco

deriving instance DecidableEq for Except

/-- Kinds of errors the modelled functions report (message texts are not modelled). -/
inductive Err where
  | io                -- a system call failed
  | notFound          -- file does not exist
  | clock             -- system clock before the epoch
  | badSize           -- datagram of the wrong size
  | rateIp            -- per-source rate limit
  | rateGlobal        -- global rate limit
  | unknownKey        -- no key with this id
  | decrypt           -- authentication failed / malformed ciphertext
  | version           -- unsupported protocol version
  | replayed          -- counter on the blocklist
  | future            -- counter beyond now + skew
  | dst               -- destination not configured
  | src               -- source does not match the claimed one
  | save              -- replay state could not be written
  | parse             -- malformed file or text
  | overflow          -- counter overflow
  | duplicateKey
  | noKeys
  | badKey
  | recv              -- fatal receive error
  | unknownCommand
  | refusedIp
  | locked
  | config
  | noAddress
  | notSent
  | encrypt
  | download
  | signature
  | downgrade
  | noRelease
  | noAsset
deriving DecidableEq, Repr

/-- /repo/src/common/protocol/constants.rs:3 -/
def PROTOCOL_VERSION : Byte := 1
/-- /repo/src/common/protocol/constants.rs:4-8 -/
def PLAINTEXT_SIZE : Nat := 58
def CIPHERTEXT_SIZE : Nat := 86
def KEY_ID_SIZE : Nat := 8
def MSG_SIZE : Nat := 94

/-- /repo/src/common/protocol/client_data.rs:18-24 `ClientData`. -/
structure ClientData where
  cmdHash : U64
  counter : U128
  strict : Bool
  srcIp : Option Ip
  dstIp : Ip
deriving DecidableEq, Repr

/-- client_data.rs:44-55 `serialize`. The Rust code fills a 58-byte array at offsets 0, 1, 9, 25, 26, 42; here the fields are
concatenated in that order (each field has exactly the width of its slot). -/
def ClientData.serialize (d : ClientData) : List Byte :=
  [PROTOCOL_VERSION]
  ++ beBytes 8 d.cmdHash.toNat
  ++ beBytes 16 d.counter.toNat
  ++ [if d.strict then 1 else 0]
  ++ (match d.srcIp with
      | some ip => serializeIp ip
      | none => zeros 16)
  ++ serializeIp d.dstIp

/-- client_data.rs:60-85 `deserialize`; the argument is a `[u8; 58]`. `data[0]` on the empty list (impossible for the Rust
type) yields the version error. -/
def ClientData.deserialize (data : List Byte) : Except Err ClientData :=
  match data with
  | [] => .error .version
  | version :: _ =>
    if version ≠ PROTOCOL_VERSION then .error .version
    else
      let sourceIpBytes := slice data 26 42
      .ok {
        cmdHash := BitVec.ofNat 64 (ofBE (slice data 1 9))
        counter := BitVec.ofNat 128 (ofBE (slice data 9 25))
        strict := slice data 25 26 ≠ [0]
        srcIp := if sourceIpBytes ≠ zeros 16 then some (deserializeIp sourceIpBytes) else none
        dstIp := deserializeIp (data.drop 42) }

/-- client_data.rs:87-89 `is_source_ip_invalid`. -/
def ClientData.isSourceIpInvalid (d : ClientData) (sourceIp : Ip) : Bool :=
  d.strict && (match d.srcIp with
    | some ipSent => ipSent ≠ sourceIp
    | none => false)

/-- /repo/src/common/ipc.rs:16-19 `CommanderData`. -/
structure CommanderData where
  cmdHash : U64
  ip : Ip
deriving DecidableEq, Repr

/-- ipc.rs:12 -/
def CMDR_DATA_SIZE : Nat := 24

/-- ipc.rs:21-28 `From<CommanderData> for [u8; 24]`. -/
def CommanderData.toBytes (d : CommanderData) : List Byte := beBytes 8 d.cmdHash.toNat ++ serializeIp d.ip

/-- ipc.rs:30-42 `From<[u8; 24]> for CommanderData`. -/
def CommanderData.ofBytes (data : List Byte) : CommanderData :=
  { cmdHash := BitVec.ofNat 64 (ofBE (slice data 0 8)), ip := deserializeIp (data.drop 8) }

end Ruroco
