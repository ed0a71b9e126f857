import Verif.Model.Overlay
import Verif.Model.Hex
import Verif.Model.Distance
import Verif.Model.StateContent
import Verif.Model.BeaconValue
import Verif.Model.HistoryValue
import Verif.Model.Ping
import Verif.Model.Lookup

/-! # The JSON-RPC methods of the subnetworks and of discv5

`crates/rpc/src/{legacy_history_rpc,state_rpc,beacon_rpc,discv5_rpc,fetch,errors,ping_extension}.rs`, the handlers
`crates/subnetworks/{legacy-history,state,beacon}/src/jsonrpc.rs`, and the JSON of
`crates/ethportal-api/src/types/{portal,query_trace,accept_code,discv5}.rs`. A method turns its parameters into an
endpoint, the handler of the subnetwork performs it on the overlay network and answers with a JSON value or a text, and
the method reads its result from that. The parameters are taken after they were parsed (jsonrpsee). What the overlay
network does is `World`, with a state; the calls are those of `Model/Overlay` and `Model/Lookup`. Logging is left out. -/

namespace Verif.JsonRpc
open Verif.Wire (ExtType PingBody Content)
open Verif.PingExt (Ext)
open Verif.Overlay (ReqErr PutInfo)

/-- `serde_json::Value`; the numbers that occur are natural. -/
inductive Json where
  | null
  | bool (b : Bool)
  | num (n : Nat)
  | str (s : List Char)
  | arr (xs : List Json)
  | obj (fields : List (List Char × Json))

/-! ## Reading and writing JSON -/

def Json.field (name : List Char) : Json → Option Json
  | .obj fs => fs.lookup name
  | _ => none

def Json.asBool : Json → Option Bool
  | .bool b => some b
  | _ => none

/-- An unsigned number of `bits` bits. -/
def Json.asNat (bits : Nat) : Json → Option Nat
  | .num n => if n < 2 ^ bits then some n else none
  | _ => none

def Json.asStr : Json → Option (List Char)
  | .str s => some s
  | _ => none

def Json.asArr : Json → Option (List Json)
  | .arr xs => some xs
  | _ => none

/-- `Option<T>`: absent and `null` are `None`. -/
def Json.asOption {α : Type} (of : Json → Option α) : Option Json → Option (Option α)
  | none => some none
  | some .null => some none
  | some v => (of v).map some

/-- `Bytes::deserialize` of alloy, for strings: hex digits with or without `0x`. -/
def Json.asBytes : Json → Option Bytes
  | .str ('0' :: 'x' :: ds) => (Hex.hexBodyDecode ds).toOption
  | .str ds => (Hex.hexBodyDecode ds).toOption
  | _ => none

/-- `Vec<T>::deserialize`. -/
def Json.asList {α : Type} (of : Json → Option α) (v : Json) : Option (List α) := v.asArr.bind fun xs => xs.mapM of

/-- A map as an object: the fields in any order. -/
def Json.asMap {κ α : Type} (key : List Char → Option κ) (of : Json → Option α) : Json → Option (List (κ × α))
  | .obj fs => fs.mapM fun f => (key f.1).bind fun k => (of f.2).map fun v => (k, v)
  | _ => none

/-- `Bytes::serialize` of alloy, and `hex_encode`. -/
def Json.bytes (bs : Bytes) : Json := .str (Hex.hexEncode bs)

def Json.option {α : Type} (to : α → Json) : Option α → Json
  | none => .null
  | some x => to x

/-- What other crates define: ENRs, node ids and 32-byte words as strings, `U256` as a string, the light client's
structures, and whether bytes are UTF-8. -/
structure Lib (E U : Type) where
  enrStr : E → List Char
  enrOf : List Char → Option E
  idStr : Id → List Char
  idOf : List Char → Option Id
  hashStr : Id → List Char
  hashOf : List Char → Option Id
  u256Str : Nat → List Char
  u256Of : List Char → Option Nat
  update : U → Json
  updateOf : Json → Option U
  utf8 : Bytes → Bool
  text : Bytes → List Char
  /-- `serde_json::from_value` for the payload of a ping (decode.rs:77-95) -/
  payload : ExtType → Json → Option Ext

variable {E K V U : Type}

def Lib.enr (l : Lib E U) (e : E) : Json := .str (l.enrStr e)
def Lib.asEnr (l : Lib E U) (v : Json) : Option E := v.asStr.bind l.enrOf
def Lib.id (l : Lib E U) (i : Id) : Json := .str (l.idStr i)
def Lib.asId (l : Lib E U) (v : Json) : Option Id := v.asStr.bind l.idOf
def Lib.hash (l : Lib E U) (i : Id) : Json := .str (l.hashStr i)
def Lib.asHash (l : Lib E U) (v : Json) : Option Id := v.asStr.bind l.hashOf
def Lib.u256 (l : Lib E U) (n : Nat) : Json := .str (l.u256Str n)
def Lib.asU256 (l : Lib E U) (v : Json) : Option Nat := v.asStr.bind l.u256Of

/-! ## The results -/

/-- `RoutingTableInfo` (types/discv5.rs:46-52). -/
structure RoutingTableInfo where
  localNodeId : Id
  buckets : List (List Id)

def routingJson (l : Lib E U) (r : RoutingTableInfo) : Json :=
  .obj [("localNodeId".toList, l.id r.localNodeId), ("buckets".toList, .arr (r.buckets.map fun b => .arr (b.map l.id)))]

def asRouting (l : Lib E U) (v : Json) : Option RoutingTableInfo :=
  (v.field "localNodeId".toList).bind fun a => (v.field "buckets".toList).bind fun b =>
    (l.asId a).bind fun a => (b.asList (·.asList l.asId)).map fun b => ⟨a, b⟩

/-- `PongInfo` (types/portal.rs:57-63). -/
structure PongInfo where
  enrSeq : Nat
  payloadType : ExtType
  payload : Json

/-- The payload of a pong (`#[derive(Serialize)]`, type_0.rs:24-30, type_1.rs:7-11, type_2.rs:7-12,
type_65535.rs:11-17); the message of an error is a list of numbers. -/
def extJson (l : Lib E U) : Ext → Json
  | .capabilities info radius caps => .obj
    [("clientInfo".toList, .option (fun (i : PingExt.ClientInfo) => .str (l.text i.format)) info), ("dataRadius".toList, l.u256 radius),
     ("capabilities".toList, .arr (caps.map fun c => .num c.toU16.toNat))]
  | .basicRadius radius => .obj [("dataRadius".toList, l.u256 radius)]
  | .historyRadius radius n => .obj [("dataRadius".toList, l.u256 radius), ("ephemeralHeaderCount".toList, .num n.toNat)]
  | .error code message => .obj [("errorCode".toList, .num code.toNat), ("message".toList, .arr (message.map fun b => .num b.toNat))]

def pongJson (p : PongInfo) : Json :=
  .obj [("enrSeq".toList, .num p.enrSeq), ("payloadType".toList, .num p.payloadType.toU16.toNat), ("payload".toList, p.payload)]

def asPong (v : Json) : Option PongInfo :=
  (v.field "enrSeq".toList).bind fun a => (v.field "payloadType".toList).bind fun b => (v.field "payload".toList).bind fun c =>
    (a.asNat 64).bind fun a => (b.asNat 16).map fun b => ⟨a, ExtType.ofU16 (UInt16.ofNat b), c⟩

/-- `AcceptInfo` (types/portal.rs:70-71) with `accept_code_hex` (accept_code.rs:95-117). -/
def acceptJson (codes : List AcceptCode) : Json := .bytes (acceptEncode true codes)
def asAccept (v : Json) : Option (List AcceptCode) := v.asBytes.bind (acceptDecode true)

/-- `OfferTrace` (portal_wire.rs:481-487), a code as its number (accept_code.rs:210-226). -/
def offerTraceJson : Overlay.Trace AcceptCode → Json
  | .success c => .obj [("Success".toList, .num c.toByte.toNat)]
  | .failed => .str "Failed".toList

def asOfferTrace : Json → Option (Overlay.Trace AcceptCode)
  | .str s => if s = "Failed".toList then some .failed else none
  | .obj [(name, v)] =>
    if name = "Success".toList then (v.asNat 8).map fun n => .success (AcceptCode.ofByte (UInt8.ofNat n)) else none
  | _ => none

/-- `PutContentInfo` (types/portal.rs:74-81). -/
def putJson (p : PutInfo) : Json :=
  .obj [("peerCount".toList, .num p.peerCount), ("storedLocally".toList, .bool p.storedLocally)]

def asPut (v : Json) : Option PutInfo :=
  (v.field "peerCount".toList).bind fun a => (v.field "storedLocally".toList).bind fun b =>
    (a.asNat 32).bind fun a => b.asBool.map fun b => ⟨a, b⟩

/-- `FindContentInfo` (types/portal.rs:84-95). -/
inductive FindContentInfo (E : Type) where
  | content (content : Bytes) (utp : Bool)
  | enrs (enrs : List E)

/-- `GetContentInfo` (types/portal.rs:98-103). -/
def contentJson (content : Bytes) (utp : Bool) : Json :=
  .obj [("content".toList, .bytes content), ("utpTransfer".toList, .bool utp)]

def asContent (v : Json) : Option (Bytes × Bool) :=
  (v.field "content".toList).bind fun a => (v.field "utpTransfer".toList).bind fun b =>
    a.asBytes.bind fun a => b.asBool.map fun b => (a, b)

/-- `#[serde(untagged)]`: the first variant that can be read. -/
def asFindContent (l : Lib E U) (v : Json) : Option (FindContentInfo E) :=
  match asContent v with
  | some (a, b) => some (.content a b)
  | none => ((v.field "enrs".toList).bind fun x => x.asList l.asEnr).map .enrs

/-- `QueryFailureKind` (query_trace.rs:198-208). -/
inductive FailureKind where
  | utpConnectionFailed
  | utpTransferFailed
  | invalidContent
deriving DecidableEq

def FailureKind.name : FailureKind → List Char
  | .utpConnectionFailed => "utpConnectionFailed".toList
  | .utpTransferFailed => "utpTransferFailed".toList
  | .invalidContent => "invalidContent".toList

def failureOf (s : List Char) : Option FailureKind :=
  if s = "utpConnectionFailed".toList then some .utpConnectionFailed
  else if s = "utpTransferFailed".toList then some .utpTransferFailed
  else if s = "invalidContent".toList then some .invalidContent
  else none

/-- `NodeInfo` (query_trace.rs:210-216). -/
structure NodeInfo (E : Type) where
  enr : E
  distance : Id
  radius : Option Id

/-- `QueryTrace` (query_trace.rs:18-38); maps as lists of pairs. -/
structure QueryTrace (E : Type) where
  receivedFrom : Option Id
  origin : Id
  responses : List (Id × Nat × List Id)
  failures : List (Id × Nat × FailureKind)
  metadata : List (Id × NodeInfo E)
  startedAtMs : Nat
  targetId : Id
  cancelled : List Id

def responseJson (l : Lib E U) (r : Nat × List Id) : Json :=
  .obj [("durationMs".toList, .num r.1), ("respondedWith".toList, .arr (r.2.map l.id))]
def asResponse (l : Lib E U) (v : Json) : Option (Nat × List Id) :=
  (v.field "durationMs".toList).bind fun a => (v.field "respondedWith".toList).bind fun b =>
    (a.asNat 64).bind fun a => (b.asList l.asId).map fun b => (a, b)

def failureJson (r : Nat × FailureKind) : Json :=
  .obj [("durationMs".toList, .num r.1), ("failure".toList, .str r.2.name)]
def asFailure (v : Json) : Option (Nat × FailureKind) :=
  (v.field "durationMs".toList).bind fun a => (v.field "failure".toList).bind fun b =>
    (a.asNat 64).bind fun a => (b.asStr.bind failureOf).map fun b => (a, b)

def nodeJson (l : Lib E U) (n : NodeInfo E) : Json :=
  .obj [("enr".toList, l.enr n.enr), ("distance".toList, l.hash n.distance), ("radius".toList, .option l.hash n.radius)]
def asNode (l : Lib E U) (v : Json) : Option (NodeInfo E) :=
  (v.field "enr".toList).bind fun a => (v.field "distance".toList).bind fun b =>
    (l.asEnr a).bind fun a => (l.asHash b).bind fun b =>
      (Json.asOption l.asHash (v.field "radius".toList)).map fun c => ⟨a, b, c⟩

def traceJson (l : Lib E U) (t : QueryTrace E) : Json := .obj
  [ ("receivedFrom".toList, .option l.id t.receivedFrom)
  , ("origin".toList, l.id t.origin)
  , ("responses".toList, .obj (t.responses.map fun r => (l.idStr r.1, responseJson l r.2)))
  , ("failures".toList, .obj (t.failures.map fun r => (l.idStr r.1, failureJson r.2)))
  , ("metadata".toList, .obj (t.metadata.map fun r => (l.idStr r.1, nodeJson l r.2)))
  , ("startedAtMs".toList, .num t.startedAtMs)
  , ("targetId".toList, l.hash t.targetId)
  , ("cancelled".toList, .arr (t.cancelled.map l.id)) ]

def asTrace (l : Lib E U) (v : Json) : Option (QueryTrace E) :=
  (Json.asOption l.asId (v.field "receivedFrom".toList)).bind fun receivedFrom =>
  ((v.field "origin".toList).bind l.asId).bind fun origin =>
  ((v.field "responses".toList).bind (Json.asMap l.idOf (asResponse l))).bind fun responses =>
  ((v.field "failures".toList).bind (Json.asMap l.idOf asFailure)).bind fun failures =>
  ((v.field "metadata".toList).bind (Json.asMap l.idOf (asNode l))).bind fun metadata =>
  ((v.field "startedAtMs".toList).bind (Json.asNat 64)).bind fun startedAtMs =>
  ((v.field "targetId".toList).bind l.asHash).bind fun targetId =>
  ((v.field "cancelled".toList).bind (Json.asList l.asId)).map fun cancelled =>
    ⟨receivedFrom, origin, responses, failures, metadata, startedAtMs, targetId, cancelled⟩

/-- `TraceContentInfo` (types/portal.rs:106-113). -/
def tracedJson (l : Lib E U) (content : Bytes) (utp : Bool) (t : QueryTrace E) : Json :=
  .obj [("content".toList, .bytes content), ("utpTransfer".toList, .bool utp), ("trace".toList, traceJson l t)]

def asTraced (l : Lib E U) (v : Json) : Option (Bytes × Bool × QueryTrace E) :=
  (asContent v).bind fun c => ((v.field "trace".toList).bind (asTrace l)).map fun t => (c.1, c.2, t)

/-- What depends on the subnetwork: the kind of handler, its keys (serialised as their bytes), its values and the payloads
of pings it knows (ping_extensions/consts.rs). -/
inductive Sub where
  | beacon
  | legacyHistory
  | state
deriving DecidableEq

/-- The decoding of a value: `abort` is a panic (beacon values of fewer than four bytes, C54). -/
inductive Decoded (V : Type) where
  | value (v : V)
  | malformed
  | abort

structure Net (K V : Type) where
  sub : Sub
  keyBytes : K → Bytes
  keyOf : Bytes → Option K
  decode : K → Bytes → Decoded V
  encode : V → Bytes
  supported : List ExtType

def ofOption : Option V → Decoded V
  | some v => .value v
  | none => .malformed

/-- The state network (`StateContentValue`). -/
def stateNet : Net ContentKey.State StateContent.Value :=
  ⟨.state, ContentKey.State.toBytes, ContentKey.State.ofBytes, fun k b => ofOption (StateContent.Value.decode k b),
    StateContent.Value.encode, Ping.stateSupported⟩

/-- The beacon network (`BeaconContentValue`). -/
def beaconNet : Net ContentKey.Beacon BeaconValue.Value :=
  ⟨.beacon, ContentKey.Beacon.toBytes, ContentKey.Beacon.ofBytes,
    fun k b =>
      match BeaconValue.Value.decode k b with
      | .ok v => .value v
      | .error .malformed => .malformed
      | .error .abort => .abort,
    BeaconValue.Value.encode, Ping.beaconSupported⟩

/-- The legacy history network (`LegacyHistoryContentValue`). `encode` panics for some values; not for decoded ones
(`C57_decode_partial`), and others do not occur here. -/
def legacyNet {Hd Tx Rc Wd : Type} (lib : HistoryValue.Lib Hd Tx Rc Wd) (net : HeaderValidator.Net) :
    Net ContentKey.Legacy (HistoryValue.Value Hd Tx Rc Wd) :=
  ⟨.legacyHistory, ContentKey.Legacy.toBytes, ContentKey.Legacy.ofBytes,
    fun k b => ofOption (HistoryValue.Value.decode lib net k b), fun v => (v.encode lib).getD [],
    Ping.legacyHistorySupported⟩

/-- `PaginateLocalContentInfo` (types/portal.rs:116-122). -/
def pageJson (n : Net K V) (p : List K × Nat) : Json :=
  .obj [("contentKeys".toList, .arr (p.1.map fun k => .bytes (n.keyBytes k))), ("totalEntries".toList, .num p.2)]

def asPage (n : Net K V) (v : Json) : Option (List K × Nat) :=
  (v.field "contentKeys".toList).bind fun a => (v.field "totalEntries".toList).bind fun b =>
    (a.asList fun x => x.asBytes.bind n.keyOf).bind fun a => (b.asNat 64).map fun b => (a, b)

/-- `BeaconBlockHeader` (consensus/header.rs:12-23). -/
structure Header where
  slot : Nat
  proposerIndex : Nat
  parentRoot : Id
  stateRoot : Id
  bodyRoot : Id

def headerJson (l : Lib E U) (h : Header) : Json :=
  .obj [("slot".toList, .num h.slot), ("proposer_index".toList, .num h.proposerIndex), ("parent_root".toList, l.hash h.parentRoot),
    ("state_root".toList, l.hash h.stateRoot), ("body_root".toList, l.hash h.bodyRoot)]

def asHeader (l : Lib E U) (v : Json) : Option Header :=
  ((v.field "slot".toList).bind (Json.asNat 64)).bind fun slot =>
  ((v.field "proposer_index".toList).bind (Json.asNat 64)).bind fun proposerIndex =>
  ((v.field "parent_root".toList).bind l.asHash).bind fun parentRoot =>
  ((v.field "state_root".toList).bind l.asHash).bind fun stateRoot =>
  ((v.field "body_root".toList).bind l.asHash).map fun bodyRoot => ⟨slot, proposerIndex, parentRoot, stateRoot, bodyRoot⟩

/-! ## The overlay network -/

/-- The end of a content lookup (`lookup_content`, protocol.rs): content, `ContentNotFound`, another error. -/
inductive Looked (E : Type) where
  | found (content : Bytes) (utp : Bool) (trace : Option (QueryTrace E))
  | notFound (message : List Char) (utp : Bool) (trace : Option (QueryTrace E))
  | failed

/-- The light client, as far as the methods ask it (light-client/src/client.rs:437-455). -/
structure Client (U : Type) where
  header : Option Header
  finalizedHeader : Option Header
  optimisticUpdate : Option U
  finalityUpdate : Option U
  store : Option U

/-- The overlay network, its store and the light client, with the state they are in. -/
structure World (σ E K U : Type) where
  routingTable : σ → RoutingTableInfo
  radius : σ → Nat
  addEnr : E → σ → Except ReqErr Unit × σ
  getEnr : Id → σ → Except ReqErr E × σ
  deleteEnr : Id → σ → Bool × σ
  lookupEnr : Id → σ → Except ReqErr E × σ
  sendPing : E → Option ExtType → Option Ext → σ → Except ReqErr PingBody × σ
  findNodes : E → List UInt16 → σ → Except ReqErr (List E) × σ
  lookupNode : Id → σ → List E × σ
  findContent : E → Bytes → σ → Except ReqErr (Content E × Bool) × σ
  lookupContent : K → Bool → σ → Looked E × σ
  paginate : Nat → Nat → σ → Option (List K × Nat) × σ
  putContent : K → Bytes → σ → PutInfo × σ
  sendOffer : E → List (Bytes × Bytes) → σ → Except ReqErr (List AcceptCode) × σ
  sendOfferTrace : E → Bytes → Bytes → σ → Except ReqErr (Overlay.Trace AcceptCode) × σ
  put : K → Bytes → σ → Option Unit × σ
  get : K → σ → Except Unit (Option Bytes) × σ
  client : σ → Option (Client U)

/-! ## Methods, endpoints, handlers -/

/-- The methods with their parameters and the type of their result: `LegacyHistoryNetworkApi`, `StateNetworkApi`,
`BeaconNetworkApi` (legacy_history_rpc.rs:40-216, state_rpc.rs:38-204, beacon_rpc.rs:48-256). The last six exist only in
the beacon network. -/
inductive Method (E K U : Type) : Type → Type where
  | routingTableInfo : Method E K U RoutingTableInfo
  | addEnr (e : E) : Method E K U Bool
  | getEnr (i : Id) : Method E K U E
  | deleteEnr (i : Id) : Method E K U Bool
  | lookupEnr (i : Id) : Method E K U E
  | ping (e : E) (t : Option ExtType) (payload : Option Json) : Method E K U PongInfo
  | findNodes (e : E) (distances : List UInt16) : Method E K U (List E)
  | recursiveFindNodes (i : Id) : Method E K U (List E)
  | radius : Method E K U Nat
  | findContent (e : E) (k : K) : Method E K U (FindContentInfo E)
  | getContent (k : K) : Method E K U (Bytes × Bool)
  | traceGetContent (k : K) : Method E K U (Bytes × Bool × QueryTrace E)
  | paginate (offset limit : Nat) : Method E K U (List K × Nat)
  | putContent (k : K) (value : Bytes) : Method E K U PutInfo
  | offer (e : E) (items : List (K × Bytes)) : Method E K U (List AcceptCode)
  | traceOffer (e : E) (k : K) (value : Bytes) : Method E K U (Overlay.Trace AcceptCode)
  | store (k : K) (value : Bytes) : Method E K U Bool
  | localContent (k : K) : Method E K U Bytes
  | optimisticStateRoot : Method E K U Id
  | finalizedStateRoot : Method E K U Id
  | finalizedHeader : Method E K U Header
  | optimisticUpdate : Method E K U U
  | finalityUpdate : Method E K U U
  | lightClientStore : Method E K U U

/-- `LegacyHistoryEndpoint`, `StateEndpoint`, `BeaconEndpoint` (jsonrpc/endpoints.rs). -/
inductive Endpoint (E K V : Type) where
  | routingTableInfo
  | addEnr (e : E)
  | getEnr (i : Id)
  | deleteEnr (i : Id)
  | lookupEnr (i : Id)
  | ping (e : E) (t : Option ExtType) (payload : Option Ext)
  | findNodes (e : E) (distances : List UInt16)
  | recursiveFindNodes (i : Id)
  | dataRadius
  | findContent (e : E) (k : K)
  | getContent (k : K)
  | traceGetContent (k : K)
  | paginate (offset limit : Nat)
  | putContent (k : K) (v : V)
  | offer (e : E) (items : List (K × V))
  | traceOffer (e : E) (k : K) (v : V)
  | store (k : K) (v : V)
  | localContent (k : K)
  | optimisticStateRoot
  | finalizedStateRoot
  | finalizedHeader
  | optimisticUpdate
  | finalityUpdate
  | lightClientStore

/-- The error object of an answer, without its message. -/
structure RpcErr where
  code : Int
  data : Option Json

/-- What becomes of a request: a result, an error, or the task that serves it panics. -/
inductive Answer (α : Type) where
  | ok (x : α)
  | err (e : RpcErr)
  | abort

def Answer.map {α β : Type} (f : α → β) : Answer α → Answer β
  | .ok x => .ok (f x)
  | .err e => .err e
  | .abort => .abort

/-- `RpcServeError::Message` (errors.rs:71). -/
def messageErr : RpcErr := ⟨-32099, none⟩

/-- `parse_ping_payload` (ping_extension.rs:8-49) with the codes of errors.rs:77-85. -/
def parsePing (l : Lib E U) (supported : List ExtType) (t : Option ExtType) (payload : Option Json) :
    Answer (Option ExtType × Option Ext) :=
  match t, payload with
  | some (.nonSupported _), _ => .err ⟨-39004, some (.str "client".toList)⟩
  | some t, payload =>
    if supported.contains t = false then .err ⟨-39004, some (.str "subnetwork".toList)⟩
    else
      match payload with
      | none => .ok (some t, none)
      | some v =>
        match l.payload t v with
        | some x => .ok (some t, some x)
        | none => .err ⟨-39005, none⟩
  | none, some _ => .err ⟨-39006, none⟩
  | none, none => .ok (none, none)

/-- `decode` with its error (errors.rs:113-117). -/
def decodeValue (n : Net K V) (k : K) (value : Bytes) : Answer V :=
  match n.decode k value with
  | .value v => .ok v
  | .malformed => .err messageErr
  | .abort => .abort

/-- The items of an offer, one after the other up to the first error. -/
def decodeItems (n : Net K V) : List (K × Bytes) → Answer (List (K × V))
  | [] => .ok []
  | (k, value) :: items =>
    match decodeValue n k value with
    | .err e => .err e
    | .abort => .abort
    | .ok v => (decodeItems n items).map fun rest => (k, v) :: rest

/-- The endpoint a method sends to the subnetwork (legacy_history_rpc.rs:40-216 and the same in the others). -/
def request {α : Type} (l : Lib E U) (n : Net K V) : Method E K U α → Answer (Endpoint E K V)
  | .routingTableInfo => .ok .routingTableInfo
  | .addEnr e => .ok (.addEnr e)
  | .getEnr i => .ok (.getEnr i)
  | .deleteEnr i => .ok (.deleteEnr i)
  | .lookupEnr i => .ok (.lookupEnr i)
  | .ping e t payload =>
    (parsePing l n.supported t payload).map fun p => .ping e p.1 p.2
  | .findNodes e ds => .ok (.findNodes e ds)
  | .recursiveFindNodes i => .ok (.recursiveFindNodes i)
  | .radius => .ok .dataRadius
  | .findContent e k => .ok (.findContent e k)
  | .getContent k => .ok (.getContent k)
  | .traceGetContent k => .ok (.traceGetContent k)
  | .paginate o m => .ok (.paginate o m)
  | .putContent k value => (decodeValue n k value).map fun v => .putContent k v
  | .offer e items =>
    if 1 ≤ items.length ∧ items.length ≤ 64 then (decodeItems n items).map fun vs => .offer e vs else .err messageErr
  | .traceOffer e k value => (decodeValue n k value).map fun v => .traceOffer e k v
  | .store k value => (decodeValue n k value).map fun v => .store k v
  | .localContent k => .ok (.localContent k)
  | .optimisticStateRoot => .ok .optimisticStateRoot
  | .finalizedStateRoot => .ok .finalizedStateRoot
  | .finalizedHeader => .ok .finalizedHeader
  | .optimisticUpdate => .ok .optimisticUpdate
  | .finalityUpdate => .ok .finalityUpdate
  | .lightClientStore => .ok .lightClientStore

/-- The text of an error of a handler: JSON with a message and perhaps a trace, or other text (which is not JSON). -/
inductive ErrText where
  | json (message : List Char) (trace : Option Json)
  | plain

/-- A result of the overlay as the answer of a handler. -/
def answer {α ε : Type} (to : α → Json) : Except ε α → Except ErrText Json
  | .ok x => .ok (to x)
  | .error _ => .error .plain

def answerOpt {α : Type} (to : α → Json) : Option α → Except ErrText Json
  | some x => .ok (to x)
  | none => .error .plain

/-- `get_content` (legacy-history/src/jsonrpc.rs:97-156, state/src/jsonrpc.rs:214-268, beacon/src/jsonrpc.rs:151-210). -/
def lookedJson (l : Lib E U) (isTrace : Bool) : Looked E → Except ErrText Json
  | .found content utp trace =>
    if isTrace then
      match trace with
      | some t => .ok (tracedJson l content utp t)
      | none => .error .plain
    else .ok (contentJson content utp)
  | .notFound message utp trace =>
    .error (.json (message ++ ": utp: ".toList ++ (if utp then "true".toList else "false".toList))
      (some (.option (traceJson l) trace)))
  | .failed => .error .plain

/-- `find_content` (legacy-history/src/jsonrpc.rs:249-269, state/src/jsonrpc.rs:190-212, beacon/src/jsonrpc.rs:298-318). -/
def foundJson (l : Lib E U) : Except ReqErr (Content E × Bool) → Except ErrText Json
  | .ok (.connectionId _, _) => .error .plain
  | .ok (.content c, utp) => .ok (contentJson c utp)
  | .ok (.enrs es, _) => .ok (.obj [("enrs".toList, .arr (es.map l.enr))])
  | .error _ => .error .plain

/-- `local_content` (legacy-history/src/jsonrpc.rs:159-181, state/src/jsonrpc.rs:172-188); the text of the beacon network
is not JSON (beacon/src/jsonrpc.rs:213-230). -/
def storedJson (n : Net K V) : Except Unit (Option Bytes) → Except ErrText Json
  | .ok (some v) => .ok (.bytes v)
  | .ok none => if n.sub = .beacon then .error .plain else .error (.json "Content not found in local storage".toList none)
  | .error _ => .error .plain

/-- `ping` (legacy-history/src/jsonrpc.rs:333-354, state/src/jsonrpc.rs:85-107, beacon/src/jsonrpc.rs:382-403). -/
def pongAnswer (l : Lib E U) : Except ReqErr PingBody → Except ErrText Json
  | .ok p =>
    match PingExt.decodeExt l.utf8 p.payloadType p.payload with
    | some x => .ok (pongJson ⟨p.enrSeq.toNat, p.payloadType, extJson l x⟩)
    | none => .error .plain
  | .error _ => .error .plain

/-- `store` (legacy-history/src/jsonrpc.rs:200-216, beacon/src/jsonrpc.rs:249-265): an error is answered with a string, in
the state network (state/src/jsonrpc.rs:270-284) with an error. -/
def putAnswer (n : Net K V) (text : List Char) : Option Unit → Except ErrText Json
  | some _ => .ok (.bool true)
  | none => if n.sub = .state then .error .plain else .ok (.str text)

/-- The methods of the light client (beacon/src/jsonrpc.rs:83-145, 415-427). -/
def clientAnswer {α : Type} (get : Client U → Option α) (to : α → Json) (c : Option (Client U)) : Except ErrText Json :=
  match c with
  | some c => answerOpt to (get c)
  | none => .error .plain

/-- `complete_request` (legacy-history/src/jsonrpc.rs:39-94, beacon/src/jsonrpc.rs:40-148), `handle_request`
(state/src/jsonrpc.rs:37-78). -/
def handle {σ : Type} (l : Lib E U) (n : Net K V) (w : World σ E K U) (text : List Char) :
    Endpoint E K V → σ → Except ErrText Json × σ
  | .routingTableInfo, s => (.ok (routingJson l (w.routingTable s)), s)
  | .addEnr e, s => let r := w.addEnr e s; (answer (fun _ => .bool true) r.1, r.2)
  | .getEnr i, s => let r := w.getEnr i s; (answer l.enr r.1, r.2)
  | .deleteEnr i, s => let r := w.deleteEnr i s; (.ok (.bool r.1), r.2)
  | .lookupEnr i, s => let r := w.lookupEnr i s; (answer l.enr r.1, r.2)
  | .ping e t x, s => let r := w.sendPing e t x s; (pongAnswer l r.1, r.2)
  | .findNodes e ds, s => let r := w.findNodes e ds s; (answer (fun es => .arr (es.map l.enr)) r.1, r.2)
  | .recursiveFindNodes i, s => let r := w.lookupNode i s; (.ok (.arr (r.1.map l.enr)), r.2)
  | .dataRadius, s => (.ok (l.u256 (w.radius s)), s)
  | .findContent e k, s => let r := w.findContent e (n.keyBytes k) s; (foundJson l r.1, r.2)
  | .getContent k, s => let r := w.lookupContent k false s; (lookedJson l false r.1, r.2)
  | .traceGetContent k, s => let r := w.lookupContent k true s; (lookedJson l true r.1, r.2)
  | .paginate o m, s => let r := w.paginate o m s; (answerOpt (pageJson n) r.1, r.2)
  | .putContent k v, s => let r := w.putContent k (n.encode v) s; (.ok (putJson r.1), r.2)
  | .offer e items, s =>
    let r := w.sendOffer e (items.map fun i => (n.keyBytes i.1, n.encode i.2)) s
    (answer acceptJson r.1, r.2)
  | .traceOffer e k v, s => let r := w.sendOfferTrace e (n.keyBytes k) (n.encode v) s; (answer offerTraceJson r.1, r.2)
  | .store k v, s => let r := w.put k (n.encode v) s; (putAnswer n text r.1, r.2)
  | .localContent k, s => let r := w.get k s; (storedJson n r.1, r.2)
  | .optimisticStateRoot, s => (clientAnswer Client.header (fun h => l.hash h.stateRoot) (w.client s), s)
  | .finalizedStateRoot, s => (clientAnswer Client.finalizedHeader (fun h => l.hash h.stateRoot) (w.client s), s)
  | .finalizedHeader, s => (clientAnswer Client.finalizedHeader (headerJson l) (w.client s), s)
  | .optimisticUpdate, s => (clientAnswer Client.optimisticUpdate l.update (w.client s), s)
  | .finalityUpdate, s => (clientAnswer Client.finalityUpdate l.update (w.client s), s)
  | .lightClientStore, s => (clientAnswer Client.store l.update (w.client s), s)

/-- How a method reads its result. -/
def output {α : Type} (l : Lib E U) (n : Net K V) : Method E K U α → Json → Option α
  | .routingTableInfo => asRouting l
  | .addEnr _ => Json.asBool
  | .getEnr _ => l.asEnr
  | .deleteEnr _ => Json.asBool
  | .lookupEnr _ => l.asEnr
  | .ping _ _ _ => asPong
  | .findNodes _ _ => Json.asList l.asEnr
  | .recursiveFindNodes _ => Json.asList l.asEnr
  | .radius => l.asU256
  | .findContent _ _ => asFindContent l
  | .getContent _ => asContent
  | .traceGetContent _ => asTraced l
  | .paginate _ _ => asPage n
  | .putContent _ _ => asPut
  | .offer _ _ => asAccept
  | .traceOffer _ _ _ => asOfferTrace
  | .store _ _ => Json.asBool
  | .localContent _ => Json.asBytes
  | .optimisticStateRoot => l.asHash
  | .finalizedStateRoot => l.asHash
  | .finalizedHeader => asHeader l
  | .optimisticUpdate => l.updateOf
  | .finalityUpdate => l.updateOf
  | .lightClientStore => l.updateOf

/-- The text that `proxy_to_subnet` searches for (fetch.rs:35). -/
def locateText : List Char := "Unable to locate content on the network".toList

/-- `proxy_to_subnet` (fetch.rs:32-44) with `ContentNotFoundJsonError` and the codes (errors.rs:71-75, 92-110). The text that
is searched for has blanks and so does not occur in the JSON of a trace. The data of the error is the trace or `null`. -/
def proxy {α : Type} (l : Lib E U) (of : Json → Option α) : Except ErrText Json → Answer α
  | .ok v =>
    match of v with
    | some x => .ok x
    | none => .err messageErr
  | .error (.json message trace) =>
    if Lookup.contains locateText message then
      match Json.asOption (asTrace l) trace with
      | some t => .err ⟨-39001, some (.option (traceJson l) t)⟩
      | none => .err messageErr
    else .err messageErr
  | .error .plain => .err messageErr

/-- A call of a method: its answer, and the state afterwards. `text` is the text of an error of the store. -/
def call {α σ : Type} (l : Lib E U) (n : Net K V) (w : World σ E K U) (text : List Char) (m : Method E K U α) (s : σ) :
    Answer α × σ :=
  match request l n m with
  | .err e => (.err e, s)
  | .abort => (.abort, s)
  | .ok ep =>
    let r := handle l n w text ep s
    (proxy l (output l n m) r.1, r.2)

/-! ## discv5 -/

/-- `NodeInfo` (types/discv5.rs:37-44). -/
structure LocalInfo (E : Type) where
  enr : E
  nodeId : Id
  ip : Option (List Char)

/-- `Discovery::node_info` (discovery.rs:260-271); the record is printed and parsed. -/
def nodeInfo (l : Lib E U) (nodeId : E → Id) (ip4 : E → Option (List Char)) (own : E) : Option (LocalInfo E) :=
  (l.enrOf (l.enrStr own)).map fun e => ⟨e, nodeId own, some ((ip4 own).getD "None".toList)⟩

/-- `lookup_enr` (discv5_rpc.rs:72-87): the loop over the records that were found; `ask e` are the nodes that `e` returns
for distance 256, or an error. -/
def searchPeers (nodeId : E → Id) (ask : E → List Nat → Option (List E)) (target : Id) : List E → Option E
  | [] => none
  | e :: es =>
    if nodeId e = target then some e
    else
      match ask e [256] with
      | none => none
      | some found =>
        match found.find? fun x => decide (nodeId x = target) with
        | some x => some x
        | none => searchPeers nodeId ask target es

/-- `lookup_enr` (discv5_rpc.rs:72-87); `closest` is the result of `recursive_find_nodes`. Errors have code -32099. -/
def discv5LookupEnr (nodeId : E → Id) (closest : Id → Option (List E)) (ask : E → List Nat → Option (List E))
    (target : Id) : Answer E :=
  match closest target with
  | none => .err messageErr
  | some es =>
    match searchPeers nodeId ask target es with
    | some e => .ok e
    | none => .err messageErr

end Verif.JsonRpc
