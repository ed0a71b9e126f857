import Verif.Model.Rlp
import Verif.Model.Versions

/-! # What a node says about its protocol in its record
(crates/ethportal-api/src/types/protocol_info.rs, crates/ethportal-api/src/types/protocol_versions.rs) -/

namespace Verif.ProtocolInfo
open Verif.Versions Verif.Rlp

/-- `ProtocolInfo` (protocol_info.rs:15-20). -/
structure Info where
  min : Version
  max : Version
  chainId : UInt64
deriving DecidableEq, Repr

/-- `ProtocolInfo::new` (protocol_info.rs:23-39); `none` is the error. -/
def new (min max : Version) (chainId : UInt64) : Option Info :=
  if min.toByte.toNat ≤ max.toByte.toNat then some ⟨min, max, chainId⟩ else none

/-- `supports` (protocol_info.rs:53-55). -/
def Info.supports (i : Info) (v : Version) : Bool :=
  decide (i.min.toByte.toNat ≤ v.toByte.toNat) && decide (v.toByte.toNat ≤ i.max.toByte.toNat)

/-- The search of `highest_common_protocol_version` (protocol_info.rs:67-72), downwards from a version; `k` versions are
left. -/
def search (other : Info) (top : Nat) : Nat → Option Version
  | 0 => none
  | k + 1 =>
    let v := Version.ofByte (UInt8.ofNat top)
    if other.supports v then some v else search other (top - 1) k

/-- `highest_common_protocol_version` (protocol_info.rs:60-72). -/
def Info.highestCommon (i other : Info) : Option Version :=
  if i.chainId ≠ other.chainId then none
  else search other i.max.toByte.toNat (i.max.toByte.toNat + 1 - i.min.toByte.toNat)

/-- `rlp_payload_length` (protocol_info.rs:74-78). -/
def Info.payloadLength (i : Info) : Nat :=
  lengthInt i.min.toByte.toNat + lengthInt i.max.toByte.toNat + lengthInt i.chainId.toNat

/-- `length` (protocol_info.rs:82-85). -/
def Info.length (i : Info) : Nat := i.payloadLength + lengthOfLength i.payloadLength

/-- `encode` (protocol_info.rs:87-96). -/
def Info.encode (i : Info) : Bytes :=
  Header.encode ⟨true, i.payloadLength⟩ ++ encodeInt i.min.toByte.toNat ++ encodeInt i.max.toByte.toNat ++
    encodeInt i.chainId.toNat

/-- `decode` (protocol_info.rs:100-141). What is left of the buffer is part of the result. -/
def decode (buf : Bytes) : Except Rlp.Err (Info × Bytes) :=
  match Header.decode buf with
  | .error e => .error e
  | .ok (h, buf) =>
    if !h.list then .error .unexpectedString
    else if buf.length < h.length then .error .inputTooShort
    else
      match decodeInt 1 buf with
      | .error e => .error e
      | .ok (min, buf1) =>
        match decodeInt 1 buf1 with
        | .error e => .error e
        | .ok (max, buf2) =>
          match decodeInt 8 buf2 with
          | .error e => .error e
          | .ok (chainId, buf3) =>
            let consumed := buf.length - buf3.length
            if consumed > h.length then .error (.listLengthMismatch h.length consumed)
            else
              match new (Version.ofByte (UInt8.ofNat min)) (Version.ofByte (UInt8.ofNat max)) (UInt64.ofNat chainId) with
              | none => .error .custom
              | some i => .ok (i, buf3.drop (h.length - consumed))

/-- `Encodable for ProtocolVersionList` (protocol_versions.rs:138-144): the entry `pv`. -/
def encodeVersions (vs : List Version) : Bytes := encodeBytes (encodeList vs)

/-- `Decodable for ProtocolVersionList` (protocol_versions.rs:146-153). -/
def decodeVersions (buf : Bytes) : Except Rlp.Err (List Version × Bytes) :=
  match decodeBytes buf with
  | .error e => .error e
  | .ok (bs, buf) =>
    match decodeList bs with
    | none => .error .custom
    | some vs => .ok (vs, buf)

/-- `latest_common_protocol_version` (network_spec.rs:109-129) on the entry `pv` of a record as it is in the record, `none` if
there is none. `get_decodable` leaves what follows unread. -/
def latestCommon (supported : List Version) (entry : Option Bytes) : Except Versions.Err Version :=
  match entry with
  | none => .ok .v0
  | some raw =>
    match decodeVersions raw with
    | .error _ => .error .failedToDecode
    | .ok (other, _) =>
      match supported.reverse.find? (fun v => other.contains v) with
      | some v => .ok v
      | none => .error .noMatchingVersion

end Verif.ProtocolInfo
