import Verif.Model.Bytes

/-! # Protocol version negotiation
(crates/ethportal-api/src/types/protocol_versions.rs, crates/ethportal-api/src/types/network_spec.rs) -/

namespace Verif.Versions

/-- `ProtocolVersion` (protocol_versions.rs:14-24). -/
inductive Version where
  | v0 | v1 | v2
  | unspecified (n : UInt8)
deriving DecidableEq, Repr

/-- `Deref for ProtocolVersion` (protocol_versions.rs:26-37). -/
def Version.toByte : Version → UInt8
  | .v0 => 0
  | .v1 => 1
  | .v2 => 2
  | .unspecified n => n

/-- `From<u8> for ProtocolVersion` (protocol_versions.rs:51-60). -/
def Version.ofByte (n : UInt8) : Version :=
  if n = 0 then .v0 else if n = 1 then .v1 else if n = 2 then .v2 else .unspecified n

/-- `Ord for ProtocolVersion` (protocol_versions.rs:101-105): order of the byte values. -/
def Version.lt (a b : Version) : Bool := decide (a.toByte.toNat < b.toByte.toNat)

/-- `is_v1_enabled` (protocol_versions.rs:40-42). -/
def Version.isV1Enabled (v : Version) : Bool := decide (Version.v1.toByte.toNat ≤ v.toByte.toNat)

/-- `is_strictly_sorted_and_specified` (protocol_versions.rs:117-127), the index loop written as a
recursion that carries the previous element. -/
def sortedSpecifiedFrom : Option Version → List Version → Bool
  | _, [] => true
  | prev, v :: vs =>
    match v with
    | .unspecified _ => false
    | v =>
      match prev with
      | none => sortedSpecifiedFrom (some v) vs
      | some p => if !(p.lt v) then false else sortedSpecifiedFrom (some v) vs

def isStrictlySortedAndSpecified (vs : List Version) : Bool := sortedSpecifiedFrom none vs

/-- The SSZ part of the list's encoding (protocol_versions.rs:107-109, 138-153): one byte per
version. The RLP string around it is in `Model/ProtocolInfo`. -/
def encodeList (vs : List Version) : Bytes := vs.map Version.toByte

/-- SSZ decoding of `VariableList<ProtocolVersion, U8>`: more than 8 bytes is an error. -/
def decodeList (bs : Bytes) : Option (List Version) :=
  if bs.length ≤ 8 then some (bs.map Version.ofByte) else none

/-- `ProtocolVersionError` (protocol_versions.rs:155-159). -/
inductive Err where
  | failedToDecode
  | noMatchingVersion
deriving DecidableEq, Repr

/-- `latest_common_protocol_version` (network_spec.rs:109-129). `record` is the SSZ payload of the
peer's `pv` ENR entry, `none` when the entry is absent. -/
def latestCommon (supported : List Version) (record : Option Bytes) : Except Err Version :=
  match record with
  | none => .ok .v0
  | some bs =>
    match decodeList bs with
    | none => .error .failedToDecode
    | some other =>
      match supported.reverse.find? (fun v => other.contains v) with
      | some v => .ok v
      | none => .error .noMatchingVersion

/-- The supported lists of the three built-in networks (network_spec.rs:158-215). -/
def mainnet : List Version := [.v0, .v1]
def angelfood : List Version := [.v0]
def sepolia : List Version := [.v1]

end Verif.Versions
