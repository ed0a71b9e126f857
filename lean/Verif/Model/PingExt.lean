import Verif.Model.Wire

/-! # Ping extension payloads

`crates/ethportal-api/src/types/ping_extensions/`: `decode.rs` and `extensions/type_*.rs`. A radius
(`Distance`, a transparent `U256`, distance.rs:7-25) is a number below 2^256, 32 bytes little endian
in SSZ. A string is the list of its UTF-8 bytes; the separators `/` and `-` are single bytes, so
splitting a string and splitting its bytes are the same. -/

namespace Verif.PingExt
open Verif.Ssz Verif.Wire

/-- `str::split(sep)`: one part more than there are separators. -/
def splitOn (sep : UInt8) : Bytes → List Bytes
  | [] => [[]]
  | b :: bs =>
    if b = sep then [] :: splitOn sep bs
    else match splitOn sep bs with
      | [] => [[b]]
      | p :: ps => (b :: p) :: ps

/-- `str::rsplit_once(sep)`: splits at the last separator. -/
def rsplitOnce (sep : UInt8) : Bytes → Option (Bytes × Bytes)
  | [] => none
  | b :: bs =>
    match rsplitOnce sep bs with
    | some (l, r) => some (b :: l, r)
    | none => if b = sep then some ([], bs) else none

def slash : UInt8 := 47
def dash : UInt8 := 45

/-- `ClientInfo` (type_0.rs:139-147). -/
structure ClientInfo where
  name : Bytes
  version : Bytes
  commit : Bytes
  os : Bytes
  arch : Bytes
  language : Bytes
deriving DecidableEq, Repr

/-- `Display for ClientInfo` (type_0.rs:162-175). -/
def ClientInfo.format (c : ClientInfo) : Bytes :=
  c.name ++ slash :: (c.version ++ dash :: (c.commit ++ slash :: (c.os ++ dash ::
    (c.arch ++ slash :: c.language))))

/-- `FromStr for ClientInfo` (type_0.rs:177-217). -/
def ClientInfo.parse (s : Bytes) : Option ClientInfo :=
  if s.length ≤ 200 then
    match splitOn slash s with
    | [p0, p1, p2, p3] =>
      match rsplitOnce dash p1 with
      | some (version, commit) =>
        match splitOn dash p2 with
        | [os, arch] => some ⟨p0, version, commit, os, arch, p3⟩
        | _ => none
      | none => none
    | _ => none
  else none

/-- `PingExtension` (decode.rs:15-22) with the payload structures: type_0.rs:24-30, type_1.rs:7-11,
type_2.rs:7-12, type_65535.rs:11-17. -/
inductive Ext where
  | capabilities (info : Option ClientInfo) (radius : Nat) (caps : List ExtType)
  | basicRadius (radius : Nat)
  | historyRadius (radius : Nat) (headers : UInt16)
  | error (code : UInt16) (message : Bytes)
deriving DecidableEq, Repr

/-- `From<PingExtension> for PingExtensionType` (decode.rs:24-33 and 97-104). -/
def Ext.type : Ext → ExtType
  | .capabilities .. => .capabilities
  | .basicRadius .. => .basicRadius
  | .historyRadius .. => .historyRadius
  | .error .. => .error

def capFields : List Field := [.var, .fixed 32, .var]
def histFields : List Field := [.fixed 32, .fixed 2]
def errFields : List Field := [.fixed 2, .var]

/-- `ssz_append` of the client information (type_0.rs:86-91): the empty string for `None`;
`VariableList::from(Vec)` keeps the first 200 bytes. -/
def infoBytes : Option ClientInfo → Bytes
  | some c => c.format.take 200
  | none => []

/-- `as_ssz_bytes` of the four payloads (type_0.rs:76-102 and derived). -/
def Ext.ssz : Ext → Bytes
  | .capabilities info r caps =>
    encodeContainer capFields
      [infoBytes info, toLe 32 r, encodeFixedList (caps.map fun t => toLe 2 t.toU16.toNat)]
  | .basicRadius r => encodeContainer [.fixed 32] [toLe 32 r]
  | .historyRadius r h => encodeContainer histFields [toLe 32 r, toLe 2 h.toNat]
  | .error c m => encodeContainer errFields [toLe 2 c.toNat, m]

/-- `From<PingExtension> for CustomPayload` (decode.rs:35-44). -/
def Ext.payload (e : Ext) : Bytes := customPayload e.ssz

/-- `String::from_utf8` then `""` to `None`, anything else through `from_str` (type_0.rs:115-123).
`utf8` is the validity check of the standard library. -/
def decodeInfo (utf8 : Bytes → Bool) (bs : Bytes) : Option (Option ClientInfo) :=
  if utf8 bs = true then
    if bs = [] then some none else (ClientInfo.parse bs).map some
  else none

/-- `PingExtensionType::from_ssz_bytes` (extension_types.rs:77-80). -/
def decodeExtType (bs : Bytes) : Option ExtType := (decodeU16 bs).map ExtType.ofU16

/-- `ClientInfoRadiusCapabilities::from_ssz_bytes` (type_0.rs:104-130). -/
def decodeCapabilities (utf8 : Bytes → Bool) (bs : Bytes) : Option Ext :=
  match decodeContainer capFields bs with
  | some [a, b, c] => do
    let infoB ← decodeByteList 200 a
    let r ← decodeUint 32 b
    let caps ← (← decodeFixedList 2 400 c).mapM decodeExtType
    let info ← decodeInfo utf8 infoB
    some (.capabilities info r caps)
  | _ => none

def decodeBasicRadius (bs : Bytes) : Option Ext :=
  match decodeContainer [.fixed 32] bs with
  | some [a] => (decodeUint 32 a).map .basicRadius
  | _ => none

def decodeHistoryRadius (bs : Bytes) : Option Ext :=
  match decodeContainer histFields bs with
  | some [a, b] => do
    let r ← decodeUint 32 a
    let h ← decodeU16 b
    some (.historyRadius r h)
  | _ => none

def decodePingError (bs : Bytes) : Option Ext :=
  match decodeContainer errFields bs with
  | some [a, b] => do
    let c ← decodeU16 a
    let m ← decodeByteList 300 b
    some (.error c m)
  | _ => none

/-- `PingExtension::decode_ssz` (decode.rs:47-75). -/
def decodeExt (utf8 : Bytes → Bool) : ExtType → Bytes → Option Ext
  | .capabilities, bs => decodeCapabilities utf8 bs
  | .basicRadius, bs => decodeBasicRadius bs
  | .historyRadius, bs => decodeHistoryRadius bs
  | .error, bs => decodePingError bs
  | .nonSupported _, _ => none

end Verif.PingExt
