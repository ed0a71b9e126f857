import Verif.Model.Ssz

/-! # Portal wire messages

`crates/ethportal-api/src/types/portal_wire.rs` and
`crates/ethportal-api/src/types/ping_extensions/extension_types.rs`. -/

namespace Verif.Wire
open Verif.Ssz

/-- Node records are opaque. `enc` is `alloy_rlp::encode`, used both for NODES
(portal_wire.rs:347-354) and for CONTENT (enr.rs:76-90). `decRlp` is
`Decodable::decode(&mut bytes.as_slice())` (portal_wire.rs:363-366), which does not look at bytes
behind the record. `decStr` is `Enr::from_str` of the base64 text of the bytes (enr.rs:68-73). -/
structure EnrCodec (E : Type) where
  enc : E → Bytes
  decRlp : Bytes → Option E
  decStr : Bytes → Option E

/-- `PingExtensionType` (extension_types.rs:6-14). -/
inductive ExtType where
  | capabilities
  | basicRadius
  | historyRadius
  | error
  | nonSupported (n : UInt16)
deriving DecidableEq, Repr

/-- `From<u16> for PingExtensionType` (extension_types.rs:16-26). -/
def ExtType.ofU16 (n : UInt16) : ExtType :=
  if n = 0 then .capabilities
  else if n = 1 then .basicRadius
  else if n = 2 then .historyRadius
  else if n = 65535 then .error
  else .nonSupported n

/-- `From<PingExtensionType> for u16` (extension_types.rs:28-38). -/
def ExtType.toU16 : ExtType → UInt16
  | .capabilities => 0
  | .basicRadius => 1
  | .historyRadius => 2
  | .error => 65535
  | .nonSupported n => n

/-- `Ping` and `Pong` have the same fields (portal_wire.rs:272-296); `payload` is the content of
`CustomPayload`. -/
structure PingBody where
  enrSeq : UInt64
  payloadType : ExtType
  payload : Bytes
deriving DecidableEq, Repr

/-- `Content` (portal_wire.rs:425-431). -/
inductive Content (E : Type) where
  | connectionId (id : UInt16)
  | content (value : Bytes)
  | enrs (es : List E)
deriving DecidableEq, Repr

/-- `Message` (portal_wire.rs:151-162). -/
inductive Message (E : Type) where
  | ping (p : PingBody)
  | pong (p : PingBody)
  | findNodes (distances : List UInt16)
  | nodes (total : UInt8) (enrs : List E)
  | findContent (key : Bytes)
  | content (c : Content E)
  | offer (keys : List Bytes)
  | accept (connectionId : UInt16) (contentKeys : Bytes)
deriving DecidableEq, Repr

/-- `CustomPayload::from(Vec<u8>)` / `from_ssz_bytes` (portal_wire.rs:95-113): conversion into
`VariableList<u8, 1100>` by `From<Vec<u8>>`, which keeps the first 1100 bytes (bytes.rs:20). -/
def customPayload (bs : Bytes) : Bytes := bs.take 1100

def pingFields : List Field := [.fixed 8, .fixed 2, .var]

/-- derived `Encode` of `Ping`/`Pong`. -/
def encodePing (p : PingBody) : Bytes :=
  encodeContainer pingFields
    [toLe 8 p.enrSeq.toNat, toLe 2 p.payloadType.toU16.toNat, p.payload]

def decodeU16 (bs : Bytes) : Option UInt16 := (decodeUint 2 bs).map UInt16.ofNat

/-- derived `Decode` of `Ping`/`Pong`. -/
def decodePing (bs : Bytes) : Option PingBody := do
  match ← decodeContainer pingFields bs with
  | [a, b, c] =>
    let seq ← decodeUint 8 a
    let t ← decodeU16 b
    some ⟨UInt64.ofNat seq, ExtType.ofU16 t, customPayload c⟩
  | _ => none

/-- `Vec<u16>`. -/
def encodeU16s (ds : List UInt16) : Bytes := encodeFixedList (ds.map fun d => toLe 2 d.toNat)

/-- `Vec<u16>::from_ssz_bytes`: no limit on the number of items. -/
def decodeU16s (bs : Bytes) : Option (List UInt16) := do
  (← decodeFixedList 2 bs.length bs).mapM decodeU16

/-- Body of the union for each message (derived `Encode`; `Nodes` through `NodesHelper`,
portal_wire.rs:341-394). -/
def encodeContent {E} (c : EnrCodec E) : Content E → Bytes
  | .connectionId id => 0 :: toLe 2 id.toNat
  | .content v => 1 :: v
  | .enrs es => 2 :: encodeVarList (es.map c.enc)

def decodeContent {E} (c : EnrCodec E) (bs : Bytes) : Option (Content E) := do
  let (s, body) ← splitUnion bs
  if s = 0 then (decodeU16 body).map .connectionId
  else if s = 1 then some (.content body)
  else if s = 2 then do
    let items ← decodeVarList body.length body
    (items.mapM c.decStr).map .enrs
  else none

def nodesFields : List Field := [.fixed 1, .var]

def encodeNodes {E} (c : EnrCodec E) (total : UInt8) (es : List E) : Bytes :=
  encodeContainer nodesFields [[total], encodeVarList (es.map c.enc)]

def decodeNodes {E} (c : EnrCodec E) (bs : Bytes) : Option (UInt8 × List E) := do
  match ← decodeContainer nodesFields bs with
  | [t, l] =>
    let total ← decodeUint 1 t
    let items ← decodeVarList l.length l
    let es ← items.mapM c.decRlp
    some (UInt8.ofNat total, es)
  | _ => none

/-- A derived container with one variable field. -/
def encodeWrapped (b : Bytes) : Bytes := encodeContainer [.var] [b]

def decodeWrapped (bs : Bytes) : Option Bytes := do
  match ← decodeContainer [.var] bs with
  | [b] => some b
  | _ => none

/-- `Accept` (portal_wire.rs:508-512). -/
def encodeAccept (id : UInt16) (keys : Bytes) : Bytes :=
  encodeContainer [.fixed 2, .var] [toLe 2 id.toNat, keys]

def decodeAccept (bs : Bytes) : Option (UInt16 × Bytes) := do
  match ← decodeContainer [.fixed 2, .var] bs with
  | [a, k] => (decodeU16 a).map (·, k)
  | _ => none

/-- `Into<Vec<u8>> for Message` (portal_wire.rs:166-170): derived union encoding, the selector is the
position of the variant. -/
def encode {E} (c : EnrCodec E) : Message E → Bytes
  | .ping p => 0 :: encodePing p
  | .pong p => 1 :: encodePing p
  | .findNodes ds => 2 :: encodeWrapped (encodeU16s ds)
  | .nodes t es => 3 :: encodeNodes c t es
  | .findContent k => 4 :: encodeWrapped k
  | .content x => 5 :: encodeContent c x
  | .offer ks => 6 :: encodeWrapped (encodeVarList ks)
  | .accept id ks => 7 :: encodeAccept id ks

/-- `TryFrom<Vec<u8>> for Message` (portal_wire.rs:172-178). `none` is `MessageDecodeError::Ssz`. -/
def decode {E} (c : EnrCodec E) (bs : Bytes) : Option (Message E) := do
  let (s, body) ← splitUnion bs
  if s = 0 then (decodePing body).map .ping
  else if s = 1 then (decodePing body).map .pong
  else if s = 2 then do
    let b ← decodeWrapped body
    (decodeU16s b).map .findNodes
  else if s = 3 then (decodeNodes c body).map fun (t, es) => .nodes t es
  else if s = 4 then (decodeWrapped body).map .findContent
  else if s = 5 then (decodeContent c body).map .content
  else if s = 6 then do
    let b ← decodeWrapped body
    (decodeVarList b.length b).map .offer
  else if s = 7 then (decodeAccept body).map fun (id, ks) => .accept id ks
  else none

/-- `Request` (portal_wire.rs:213-223). The result channel of `PopulatedOfferWithResult` is left
out. -/
inductive Request where
  | ping (p : PingBody)
  | findNodes (distances : List UInt16)
  | findContent (key : Bytes)
  | offer (keys : List Bytes)
  | populatedOffer (items : List (Bytes × Bytes))
  | populatedOfferWithResult (items : List (Bytes × Bytes))
deriving DecidableEq, Repr

/-- `Response` (portal_wire.rs:245-250). -/
inductive Response (E : Type) where
  | pong (p : PingBody)
  | nodes (total : UInt8) (enrs : List E)
  | content (c : Content E)
  | accept (connectionId : UInt16) (contentKeys : Bytes)
deriving DecidableEq, Repr

/-- `From<Request> for Message` (portal_wire.rs:180-191, 461-470, 497-506). -/
def Request.toMessage {E} : Request → Message E
  | .ping p => .ping p
  | .findNodes ds => .findNodes ds
  | .findContent k => .findContent k
  | .offer ks => .offer ks
  | .populatedOffer items => .offer (items.map Prod.fst)
  | .populatedOfferWithResult items => .offer (items.map Prod.fst)

/-- `From<Response> for Message` (portal_wire.rs:193-202). -/
def Response.toMessage {E} : Response E → Message E
  | .pong p => .pong p
  | .nodes t es => .nodes t es
  | .content c => .content c
  | .accept id ks => .accept id ks

/-- `TryFrom<Message> for Request` (portal_wire.rs:225-242); `none` is `NonRequestMessage`. -/
def Request.ofMessage {E} : Message E → Option Request
  | .ping p => some (.ping p)
  | .pong _ => none
  | .findNodes ds => some (.findNodes ds)
  | .nodes _ _ => none
  | .findContent k => some (.findContent k)
  | .content _ => none
  | .offer ks => some (.offer ks)
  | .accept _ _ => none

/-- `TryFrom<Message> for Response` (portal_wire.rs:252-270); `none` is `NonResponseMessage`. -/
def Response.ofMessage {E} : Message E → Option (Response E)
  | .ping _ => none
  | .pong p => some (.pong p)
  | .findNodes _ => none
  | .nodes t es => some (.nodes t es)
  | .findContent _ => none
  | .content c => some (.content c)
  | .offer _ => none
  | .accept id ks => some (.accept id ks)

end Verif.Wire
