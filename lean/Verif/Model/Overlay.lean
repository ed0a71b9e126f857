import Verif.Model.Routing
import Verif.Model.Gossip
import Verif.Model.Offer

/-! # The calls a user makes on an overlay network, and the two nodes of a request

`crates/portalnet/src/overlay/protocol.rs` with the parts of `crates/portalnet/src/overlay/service/manager.rs`
that send requests and match responses, and `handle_talk_request` of the subnetworks
(`crates/subnetworks/*/src/events.rs`). The channel to the service is open, as the service runs as long as the
node; logging and metrics are left out. Discovery v5 is a function from the body of a TALKREQ to the body of
the TALKRESP or an error. A uTP stream delivers what the other side writes, or fails. -/

namespace Verif.Overlay
open Verif.Wire
open Verif.PingExt (Ext)

variable {E K : Type}

/-- `OverlayRequestError` (overlay/errors.rs:9-64) without the texts; `transport` are the errors of discv5.
`abort` is not an error of the code: it stands for a panic of the service. -/
inductive ReqErr where
  | channel
  | invalidRequest
  | invalidResponse
  | failedValidation
  | decode
  | transport
  | failure
  | accept
  | contentNotFound
  | abort
deriving DecidableEq, Repr

/-! ## Sending and serving -/

/-- What the task of `send_talk_req` makes of the answer (manager.rs:536-547). -/
def interpret (c : EnrCodec E) : Except ReqErr Bytes → Except ReqErr (Response E)
  | .error e => .error e
  | .ok body =>
    match decode c body with
    | none => .error .decode
    | some m =>
      match Response.ofMessage m with
      | none => .error .invalidResponse
      | some r => .ok r

/-- `send_talk_req` (manager.rs:527-555) with the answer that comes back; `talk` is
`discovery.send_talk_req`. -/
def sendTalk (c : EnrCodec E) (talk : Bytes → Except ReqErr Bytes) (r : Request) : Except ReqErr (Response E) :=
  interpret c (talk (encode c r.toMessage))

/-- `process_one_request` (protocol.rs:191-209); `handle` is `handle_request`. -/
def processOne {ρ : Type} (c : EnrCodec E) (handle : Request → Except ReqErr ρ) (body : Bytes) : Except ReqErr ρ :=
  match decode c body with
  | none => .error .decode
  | some m =>
    match Request.ofMessage m with
    | none => .error .invalidRequest
    | some r => handle r

/-- `handle_talk_request` (state/src/events.rs:33-56 and the same in beacon and legacy-history): an error is
answered with an empty body. -/
def serve (c : EnrCodec E) (handle : Request → Except ReqErr (Response E)) (body : Bytes) : Bytes :=
  match processOne c handle body with
  | .ok r => encode c r.toMessage
  | .error _ => []

/-! ## The serving node -/

/-- `utp_rs::cid::ConnectionId` without the peer. -/
structure ConnId where
  recv : UInt16
  send : UInt16
deriving DecidableEq, Repr

/-- `UtpSocket::cid(peer, is_initiator)` of utp-rs, for the random number it draws. -/
def drawCid (initiator : Bool) (rand : UInt16) : ConnId :=
  ⟨rand, if initiator then rand + 1 else rand - 1⟩

/-- What the node does over uTP after its reply: write `data` (find_content.rs:131-135) or read the content of
the accepted keys (offer.rs:185-255). -/
inductive Job (K : Type) where
  | write (cid : ConnId) (data : Bytes)
  | read (cid : ConnId) (keys : List K)
deriving DecidableEq, Repr

/-- The node as a request finds it. `asker` is `find_enr(source)`, `outSlot` and `inSlot` say that a transfer
slot is free, `rand` is the number drawn for a connection id; the other fields are those of `Ping.Local`,
`KBucket` and `Offer.Host`. -/
structure Server (E K : Type) where
  nodeId : E → Id
  enr : E
  pong : Ping.Local
  supported : List ExtType
  table : List (KBucket.Entry E)
  decodeKey : Bytes → Option K
  affected : K → Bool
  contentId : K → Id
  store : K → Except Unit (Option Bytes)
  wants : K → Option Offer.Decision
  outSlot : Bool
  inSlot : Bool
  asker : Option E
  version : E → Except Versions.Err Versions.Version
  rand : UInt16
  now : Nat → Nat
  pick : Nat → Nat
  queue : List (AQ.Entry K E)

def Server.cid (s : Server E K) : ConnId := drawCid false s.rand

def Server.host (s : Server E K) : Offer.Host K E :=
  { enr := s.asker, version := s.version, slot := s.inSlot, decodeKey := s.decodeKey, wants := s.wants,
    now := s.now, pick := s.pick, cid := s.cid.send }

/-- The errors of `handle_find_content`. -/
def fcErr : KBucket.ReqError → ReqErr
  | .invalidRequest => .invalidRequest
  | .acceptError => .accept
  | .failure => .failure

/-- `handle_request` (manager.rs:500-524): the response and what happens over uTP afterwards. -/
def handleRequest [DecidableEq K] [DecidableEq E] (c : EnrCodec E) (s : Server E K) (source : Id) :
    Request → Except ReqErr (Response E × Option (Job K))
  | .ping p =>
    match Ping.handlePing s.pong s.supported p with
    | none => .error .abort
    | some q => .ok (.pong q, none)
  | .findNodes ds => .ok (.nodes 1 (KBucket.handleFindNodes c s.nodeId s.enr s.table source ds), none)
  | .findContent key =>
    match KBucket.handleFindContent c s.nodeId s.table source
        ((s.decodeKey key).map fun k => (s.affected k, s.contentId k))
        (match s.decodeKey key with | some k => s.store k | none => .ok none) s.outSlot
        (s.asker.map fun e => match s.version e with | .ok v => some v.isV1Enabled | .error _ => none)
        (Offer.swap16 s.cid.send) (fun v => (Payload.encode [v]).toOption) with
    | .error e => .error (fcErr e)
    | .ok o => .ok (.content o.reply, o.utp.map (Job.write s.cid))
  | .offer keys =>
    match (Offer.handleOffer s.host s.queue keys).2 with
    | .error _ => .error .accept
    | .ok a => .ok (.accept a.connectionId a.contentKeys, a.task.map (Job.read s.cid))
  | .populatedOffer _ => .error .invalidRequest
  | .populatedOfferWithResult _ => .error .invalidRequest

/-- The reply of the node to a request. -/
def reply [DecidableEq K] [DecidableEq E] (c : EnrCodec E) (s : Server E K) (source : Id) (r : Request) :
    Except ReqErr (Response E) := (handleRequest c s source r).map (·.1)

/-- The work over uTP that a request body causes. -/
def work [DecidableEq K] [DecidableEq E] (c : EnrCodec E) (s : Server E K) (source : Id) (body : Bytes) :
    Option (Job K) :=
  match processOne c (handleRequest c s source) body with
  | .ok (_, j) => j
  | .error _ => none

/-- Two ends of a stream meet if each receives on the id the other sends on (utp-rs). -/
def meets (a b : ConnId) : Bool := decide (a.recv = b.send ∧ a.send = b.recv)

/-- Reading the stream that the serving node writes. -/
def connectRead (job : Option (Job K)) (cid : ConnId) : Except ReqErr Bytes :=
  match job with
  | some (.write c data) => if meets c cid then .ok data else .error .contentNotFound
  | _ => .error .contentNotFound

/-- Writing to the stream that the serving node reads. -/
def connectWrite (job : Option (Job K)) (cid : ConnId) (_data : Bytes) : Bool :=
  match job with
  | some (.read c _) => meets c cid
  | _ => false

/-! ## The calls -/

/-- A call: the request it sends, if it sends one, and its result. -/
structure Call (α : Type) where
  sent : Option Request
  result : Except ReqErr α

/-- `default_ping_extension` (protocol.rs:360-388). -/
def defaultExt (l : Ping.Local) (supported : List ExtType) : ExtType → Except ReqErr Ext
  | .capabilities => .ok (Ping.createCapabilities l supported)
  | .basicRadius => .ok (.basicRadius l.radius)
  | .historyRadius => .ok (.historyRadius l.radius 0)
  | .error => .error .failure
  | .nonSupported _ => .error .failure

/-- The extension of the ping (protocol.rs:401-412). -/
def pingExt (l : Ping.Local) (supported : List ExtType) : Option ExtType → Option Ext → Except ReqErr Ext
  | some t, some x => if t ≠ x.type then .error .invalidRequest else .ok x
  | t, none => defaultExt l supported (t.getD .capabilities)
  | none, some _ => .error .invalidRequest

/-- `send_ping` (protocol.rs:395-431); `net` is `send_overlay_request` to the peer. -/
def sendPing (l : Ping.Local) (supported : List ExtType) (net : Request → Except ReqErr (Response E))
    (t : Option ExtType) (x : Option Ext) : Call PingBody :=
  match pingExt l supported t x with
  | .error e => ⟨none, .error e⟩
  | .ok x =>
    let r := Request.ping ⟨l.enrSeq, x.type, x.payload⟩
    ⟨some r, match net r with
      | .ok (.pong p) => .ok p
      | .ok _ => .error .invalidResponse
      | .error e => .error e⟩

/-- `HashSet::from_iter` (protocol.rs:868): the distinct values. -/
def distinct : List UInt16 → List UInt16
  | [] => []
  | d :: ds => if d ∈ distinct ds then distinct ds else d :: distinct ds

/-- `validate_find_nodes_distances` (protocol.rs:851-875). -/
def validDistances (ds : List UInt16) : Bool :=
  if ds.isEmpty then false
  else if 256 < ds.length then false
  else if (ds.filter fun d => decide (256 < d.toNat)).isEmpty = false then false
  else if (distinct ds).length ≠ ds.length then false
  else true

/-- `send_find_nodes` (protocol.rs:434-453). -/
def sendFindNodes (net : Request → Except ReqErr (Response E)) (ds : List UInt16) : Call (UInt8 × List E) :=
  if validDistances ds then
    ⟨some (.findNodes ds), match net (.findNodes ds) with
      | .ok (.nodes t es) => .ok (t, es)
      | .ok _ => .error .invalidResponse
      | .error e => .error e⟩
  else ⟨none, .error .invalidRequest⟩

/-- `init_find_content_stream` (protocol.rs:551-569). -/
def readerCid (connId : UInt16) : ConnId := ⟨connId, connId + 1⟩

/-- The checks on content (protocol.rs:490-500, 513-523). -/
def checked (valid : K → Bytes → Bool) (k : K) (v : Bytes) (utp : Bool) : Except ReqErr (Content E × Bool) :=
  if valid k v then .ok (.content v, utp) else .error .failedValidation

/-- What arrives over uTP as one content value (protocol.rs:506-512). -/
def unframe (v1 : Bool) (bytes : Bytes) : Except ReqErr Bytes :=
  if v1 then
    match Payload.decodeSingle bytes with
    | .ok v => .ok v
    | .error _ => .error .decode
  else .ok bytes

/-- The answer to FINDCONTENT (protocol.rs:488-528). `stream` is `connect_inbound_stream`. -/
def foundContent (v : Versions.Version) (valid : K → Bytes → Bool) (stream : ConnId → Except ReqErr Bytes) (k : K) :
    Except ReqErr (Response E) → Except ReqErr (Content E × Bool)
  | .ok (.content (.content value)) => checked valid k value false
  | .ok (.content (.enrs es)) => .ok (.enrs es, false)
  | .ok (.content (.connectionId id)) =>
    match stream (readerCid (Offer.swap16 id)) with
    | .error e => .error e
    | .ok bytes =>
      match unframe v.isV1Enabled bytes with
      | .error e => .error e
      | .ok value => checked valid k value true
  | .ok _ => .error .invalidResponse
  | .error e => .error e

/-- `send_find_content` (protocol.rs:456-530). `version` is `latest_common_protocol_version` of the peer. -/
def sendFindContent (version : Except Versions.Err Versions.Version) (decodeKey : Bytes → Option K)
    (valid : K → Bytes → Bool) (net : Request → Except ReqErr (Response E))
    (stream : ConnId → Except ReqErr Bytes) (key : Bytes) : Call (Content E × Bool) :=
  match version with
  | .error _ => ⟨none, .error .invalidRequest⟩
  | .ok v =>
    match decodeKey key with
    | none => ⟨none, .error .failedValidation⟩
    | some k => ⟨some (.findContent key), foundContent v valid stream k (net (.findContent key))⟩

/-- `send_offer` (protocol.rs:572-608). -/
def sendOffer (version : Except Versions.Err Versions.Version) (net : Request → Except ReqErr (Response E))
    (items : List (Bytes × Bytes)) : Call (List AcceptCode) :=
  match version with
  | .error _ => ⟨none, .error .invalidRequest⟩
  | .ok v =>
    ⟨some (.populatedOffer items), match net (.populatedOffer items) with
      | .ok (.accept _ keys) =>
        match acceptDecode v.isV1Enabled keys with
        | some codes => .ok codes
        | none => .error .failure
      | .ok _ => .error .invalidResponse
      | .error e => .error e⟩

/-- `OfferTraceMultipleItems` (portal_wire.rs). -/
inductive Trace (α : Type) where
  | success (x : α)
  | failed
deriving DecidableEq, Repr

/-- What `process_accept` sends to `result_tx` (offer.rs:296-305, 342-387), given what it does; `done` is the
result of the transfer. Dropping the sender without a message is `channel`. -/
def traceOf (done : Bool) : Offer.Sent → Except ReqErr (Trace (List AcceptCode))
  | .error => .error .channel
  | .declined codes => .ok (.success codes)
  | .failed => .ok .failed
  | .transmit _ _ _ codes => if done then .ok (.success codes) else .ok .failed

/-- `send_offer_trace_with_multiple_items` (protocol.rs:636-669) with `process_response` (manager.rs:666-675),
which drops the request of any response but ACCEPT. `transfer` is `connect_outbound_stream`. -/
def sendOfferTraceMany (version : Except Versions.Err Versions.Version)
    (net : Request → Except ReqErr (Response E)) (transfer : ConnId → Bytes → Bool) (items : List (Bytes × Bytes)) :
    Call (Trace (List AcceptCode)) :=
  ⟨some (.populatedOfferWithResult items), match net (.populatedOfferWithResult items) with
    | .error e => .error e
    | .ok (.accept id keys) =>
      let sent := Offer.processAccept (K := Unit) version (fun _ => none) (fun _ => none) id keys (.populated items)
      traceOf (match sent with | .transmit recv send payload _ => transfer ⟨recv, send⟩ payload | _ => false) sent
    | .ok _ => .error .channel⟩

/-- `send_offer_trace` (protocol.rs:611-633). -/
def sendOfferTrace (version : Except Versions.Err Versions.Version)
    (net : Request → Except ReqErr (Response E)) (transfer : ConnId → Bytes → Bool) (key value : Bytes) :
    Call (Trace AcceptCode) :=
  let call := sendOfferTraceMany version net transfer [(key, value)]
  ⟨call.sent, match call.result with
    | .error e => .error e
    | .ok .failed => .ok .failed
    | .ok (.success [code]) => .ok (.success code)
    | .ok (.success _) => .error .failure⟩

/-! ## Records of nodes -/

/-- `max_by` over the sequence numbers: the last of the greatest (protocol.rs:334, 343-345). -/
def maxBySeq (seq : E → Nat) : List E → Option E
  | [] => none
  | e :: es =>
    match maxBySeq seq es with
    | none => some e
    | some m => if seq e ≤ seq m then some m else some e

/-- `get_enr` (protocol.rs:307-316); `entry` is what the table has for the node. -/
def getEnr (nodeId : E → Id) (own : E) (entry : Option (Routing.Entry E)) (k : Id) : Except ReqErr E :=
  if k = nodeId own then .ok own
  else
    match entry with
    | some e => if e.pending then .error .failure else .ok e.node.enr
    | none => .error .failure

/-- `lookup_node` (protocol.rs:671-711): `known` is `discovery.find_enr`, `query` the result of the lookup. -/
def lookupNode (nodeId : E → Id) (own : E) (entry : Option (Routing.Entry E)) (known : Option E) (query : List E)
    (k : Id) : List E :=
  if k = nodeId own then [own]
  else if (match entry with | some e => !e.pending && e.status.connected | none => false) then known.toList
  else query

/-- `lookup_enr` (protocol.rs:324-357). `ask e` is `send_find_nodes(e, [0])`. -/
def lookupEnr (nodeId : E → Id) (seq : E → Nat) (own : E) (entry : Option (Routing.Entry E)) (known : Option E)
    (query : List E) (ask : E → Except ReqErr (List E)) (k : Id) : Except ReqErr E :=
  if k = nodeId own then .ok own
  else
    let enr := getEnr nodeId own entry k
    let asked := match enr with
      | .ok e => match ask e with | .ok es => maxBySeq seq es | .error _ => none
      | .error _ => none
    match asked with
    | some e => .ok e
    | none =>
      match maxBySeq seq (lookupNode nodeId own entry known query k) with
      | some e => if (match enr with | .ok e => seq e | .error _ => 0) < seq e then .ok e else enr
      | none => enr

/-- `add_enr` (protocol.rs:274-304). -/
def addEnr (lib : Routing.Lib E) (t : Routing.Table E) (enr : E) : Except ReqErr Unit × Routing.Table E :=
  match lib.insert t (Routing.newNode enr) ⟨true, true⟩ with
  | (.failed, t) => (.error .failure, t)
  | (_, t) => (.ok (), t)

/-- `get_enr` on the table. -/
def tableGet (lib : Routing.Lib E) (nodeId : E → Id) (own : E) (t : Routing.Table E) (k : Id) : Except ReqErr E :=
  getEnr nodeId own (lib.settle t k k) k

/-! ## Publishing content -/

/-- `PutContentInfo` (types/portal.rs). -/
structure PutInfo where
  peerCount : Nat
  storedLocally : Bool
deriving DecidableEq, Repr

/-- `propagate_put_content` (protocol.rs:225-258): the store afterwards, the answer to the user and the offers
made. `item` are the values computed from a key; the offers do not wait for transfer slots. `none` is a panic. A
failed `put` leaves the store as it was. -/
def putContent {St : Type} [DecidableEq E] (ops : Offer.StoreOps St K) (nodeId : E → Id)
    (table : List (KBucket.Entry E)) (ch : Gossip.Choices E) (item : K → Bytes → Gossip.Item) (st : St) (k : K)
    (v : Bytes) : Option (St × PutInfo × List (Gossip.Offer E)) :=
  let store := decide (ops.wants st k = some .store)
  let st' := if store then (match ops.put st k v with | some (st', _) => st' | none => st) else st
  match Gossip.propagate nodeId table ch [item k v] none with
  | none => none
  | some (offers, count) => some (st', ⟨count % 2 ^ 32, store⟩, offers)

/-! ## Matching responses to requests -/

/-- `ActiveOutgoingRequest` (overlay/request.rs:70-80) with the caller that waits, if any. -/
structure Active (E : Type) where
  destination : E
  caller : Option Nat
  request : Request

/-- The map of active requests, what the callers were sent, and the responses processed. -/
structure Mgr (E : Type) where
  active : List (Nat × Active E)
  delivered : List (Nat × Except ReqErr (Response E))
  processed : List (E × Request × Except ReqErr (Response E))

/-- An outgoing request is handed to the service, or the answer to one arrives. -/
inductive MgrEvent (E : Type) where
  | submit (id : Nat) (a : Active E)
  | answer (id : Nat) (result : Except ReqErr (Response E))

/-- `HashMap::get`. -/
def findActive (id : Nat) : List (Nat × Active E) → Option (Active E)
  | [] => none
  | (i, a) :: l => if i = id then some a else findActive id l

/-- One turn of the main loop: outgoing requests (manager.rs:479-491) and responses (270-292). -/
def mgrStep (m : Mgr E) : MgrEvent E → Mgr E
  | .submit id a => { m with active := (id, a) :: m.active.filter fun x => x.1 ≠ id }
  | .answer id result =>
    match findActive id m.active with
    | none => m
    | some a =>
      { active := m.active.filter fun x => x.1 ≠ id
        delivered := (match a.caller with | some w => m.delivered ++ [(w, result)] | none => m.delivered)
        processed := m.processed ++ [(a.destination, a.request, result)] }

def mgrRun (events : List (MgrEvent E)) : Mgr E := events.foldl mgrStep ⟨[], [], []⟩

/-! ## The record of a node that asks -/

/-- `Discovery::find_enr` (discovery.rs:286-296) and `OverlayService::find_enr` (manager.rs:812-847): the address
cache, the table of discv5, the table of the overlay, the node lookups, the content lookups. -/
def findEnr (nodeId : E → Id) (cached discv5 : Id → Option E) (entry : Id → Option (Routing.Entry E))
    (nodeQueries contentQueries : List (List E)) (k : Id) : Option E :=
  match cached k with
  | some e => some e
  | none =>
    match discv5 k with
    | some e => some e
    | none =>
      match entry k with
      | some e => some e.node.enr
      | none =>
        match nodeQueries.findSome? fun es => es.find? fun e => decide (nodeId e = k) with
        | some e => some e
        | none => contentQueries.findSome? fun es => es.find? fun e => decide (nodeId e = k)

end Verif.Overlay
