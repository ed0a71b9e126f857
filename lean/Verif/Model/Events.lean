import Verif.Model.Hex
import Verif.Model.E2store
import Verif.Model.Distance
import Verif.Model.Capacity

/-! # Routing of requests and events between the subnetworks of a node

crates/portalnet/src/events.rs, crates/portalnet/src/discovery.rs,
crates/ethportal-api/src/types/network_spec.rs and network.rs. -/

namespace Verif.Events
open Verif.E2store (Res)
open Verif.Capacity (Subnetwork)

/-- `Network` (types/network.rs:8-12). -/
inductive Network where
  | mainnet | angelfood | sepolia
deriving DecidableEq, Repr

/-! ## Protocol identifiers -/

/-- `BiHashMap<Subnetwork, String>` (network_spec.rs:51) as a list of pairs; strings are lists of
characters as in `Verif.Hex`. -/
abbrev Bimap := List (Subnetwork × List Char)

/-- `BiHashMap::insert` (the `bimap` crate): a pair with the same left or the same right value is
removed. -/
def Bimap.insert (m : Bimap) (s : Subnetwork) (hex : List Char) : Bimap :=
  m.filter (fun p => p.1 ≠ s && p.2 ≠ hex) ++ [(s, hex)]

/-- `BiHashMap::get_by_right`. -/
def Bimap.getByRight (m : Bimap) (hex : List Char) : Option Subnetwork :=
  (m.find? fun p => p.2 = hex).map (·.1)

/-- `BiHashMap::get_by_left`. -/
def Bimap.getByLeft (m : Bimap) (s : Subnetwork) : Option (List Char) :=
  (m.find? fun p => p.1 = s).map (·.2)

/-- The map of `MAINNET` (network_spec.rs:158-167). -/
def mainnetIds : Bimap :=
  Bimap.insert (Bimap.insert (Bimap.insert (Bimap.insert (Bimap.insert (Bimap.insert (Bimap.insert
    (Bimap.insert []
      .history ['0', 'x', '5', '0', '0', '0'])
      .state ['0', 'x', '5', '0', '0', 'A'])
      .legacyHistory ['0', 'x', '5', '0', '0', 'B'])
      .beacon ['0', 'x', '5', '0', '0', 'C'])
      .canonicalIndices ['0', 'x', '5', '0', '0', 'D'])
      .verkleState ['0', 'x', '5', '0', '0', 'E'])
      .transactionGossip ['0', 'x', '5', '0', '0', 'F'])
      .utp ['0', 'x', '7', '5', '7', '4', '7', '0']

/-- The map of `ANGELFOOD` (network_spec.rs:180-188). -/
def angelfoodIds : Bimap :=
  Bimap.insert (Bimap.insert (Bimap.insert (Bimap.insert (Bimap.insert (Bimap.insert (Bimap.insert []
      .state ['0', 'x', '5', '0', '4', 'A'])
      .legacyHistory ['0', 'x', '5', '0', '4', 'B'])
      .beacon ['0', 'x', '5', '0', '4', 'C'])
      .canonicalIndices ['0', 'x', '5', '0', '4', 'D'])
      .verkleState ['0', 'x', '5', '0', '4', 'E'])
      .transactionGossip ['0', 'x', '5', '0', '4', 'F'])
      .utp ['0', 'x', '7', '5', '7', '4', '7', '0']

/-- The map of `SEPOLIA` (network_spec.rs:200-208). -/
def sepoliaIds : Bimap :=
  Bimap.insert (Bimap.insert (Bimap.insert (Bimap.insert (Bimap.insert (Bimap.insert (Bimap.insert []
      .state ['0', 'x', '5', '0', '4', 'A'])
      .legacyHistory ['0', 'x', '5', '0', '4', 'B'])
      .beacon ['0', 'x', '5', '0', '4', 'C'])
      .canonicalIndices ['0', 'x', '5', '0', '4', 'D'])
      .verkleState ['0', 'x', '5', '0', '4', 'E'])
      .transactionGossip ['0', 'x', '5', '0', '4', 'F'])
      .utp ['0', 'x', '7', '5', '7', '4', '7', '0']

/-- The `portal_subnetworks` of the spec that was set at the start (network_spec.rs:35-41). -/
def ids : Network → Bimap
  | .mainnet => mainnetIds
  | .angelfood => angelfoodIds
  | .sepolia => sepoliaIds

/-- `get_subnetwork_from_protocol_identifier` (network_spec.rs:90-95). -/
def subnetworkOf (net : Network) (hex : List Char) : Option Subnetwork := (ids net).getByRight hex

/-- `get_protocol_identifier_from_subnetwork` (network_spec.rs:97-107). -/
def identifierOf (net : Network) (s : Subnetwork) : Option (List Char) := (ids net).getByLeft s

/-- The protocol bytes with which `Discovery::send_talk_req` sends (discovery.rs:343-361):
`unreachable!` for a subnetwork that the spec does not have, empty if the hex does not decode. -/
def sendProtocol (net : Network) (s : Subnetwork) : Res Bytes :=
  match identifierOf net s with
  | some hex =>
    match Hex.hexDecode hex with
    | .ok bs => .ok bs
    | .error _ => .ok []
  | none => .panic

/-! ## Dispatching -/

/-- A `TalkRequest` of discv5: sender, protocol and body. The responder of the request is not
modelled: a request that nobody takes is answered with an empty response when it is dropped. -/
structure TalkReq where
  sender : Id
  protocol : Bytes
  body : Bytes
deriving DecidableEq, Repr

/-- `OverlayEvent` (events.rs:222-225). -/
inductive Payload where
  | optimisticUpdate | finalityUpdate
deriving DecidableEq, Repr

/-- `Timestamp` (events.rs:229-234), the `i64` as an integer. -/
inductive Timestamp where
  | notAvailable
  | createTime (millis : Int)
deriving DecidableEq, Repr

/-- `EventEnvelope` (events.rs:265-276). -/
structure Event where
  timestamp : Timestamp
  source : Subnetwork
  payload : Payload
  destination : Option (List Subnetwork)
deriving DecidableEq, Repr

/-- `OverlayRequest` (events.rs:33-38). -/
inductive Msg where
  | talk (r : TalkReq)
  | event (e : Event)
deriving DecidableEq, Repr

/-- An unbounded channel: what was sent into it, and whether the receiver is still there. -/
structure Chan where
  alive : Bool
  queue : List Msg
deriving DecidableEq, Repr

/-- `UnboundedSender::send`: fails when the receiver is gone. The caller only logs the failure. -/
def Chan.send (c : Chan) (m : Msg) : Chan :=
  if c.alive then { c with queue := c.queue ++ [m] } else c

/-- `PortalnetEvents` (events.rs:51-62). -/
structure Node where
  net : Network
  legacyHistory : Option Chan
  state : Option Chan
  beacon : Option Chan
  utp : Chan
deriving DecidableEq, Repr

/-- `send_overlay_request` (events.rs:203-218). -/
def sendOverlay (tx : Option Chan) (m : Msg) : Option Chan :=
  match tx with
  | some c => some (c.send m)
  | none => none

/-- `dispatch_discv5_talk_req` (events.rs:116-158). -/
def dispatchTalk (n : Node) (r : TalkReq) : Node :=
  match subnetworkOf n.net (Hex.hexEncodeUpper r.protocol) with
  | some .legacyHistory => { n with legacyHistory := sendOverlay n.legacyHistory (.talk r) }
  | some .beacon => { n with beacon := sendOverlay n.beacon (.talk r) }
  | some .state => { n with state := sendOverlay n.state (.talk r) }
  | some .utp => { n with utp := n.utp.send (.talk r) }
  | some _ => n
  | none => n

/-- The recipients in `dispatch_overlay_event` (events.rs:163-173). -/
def recipients (e : Event) : List Subnetwork :=
  (e.destination.getD [.legacyHistory, .beacon, .state]).filter fun s => s ≠ e.source

/-- `dispatch_overlay_event` (events.rs:160-201). -/
def dispatchEvent (n : Node) (e : Event) : Node :=
  let rs := recipients e
  let n := if rs.contains .beacon then { n with beacon := sendOverlay n.beacon (.event e) } else n
  let n := if rs.contains .state then { n with state := sendOverlay n.state (.event e) } else n
  if rs.contains .legacyHistory then
    { n with legacyHistory := sendOverlay n.legacyHistory (.event e) }
  else n

/-- What can happen to the main loop: a request, an event of an overlay, the error of a stream that
was too slow (the events that were overwritten are lost), and the end of one of the receivers. -/
inductive Input where
  | talk (r : TalkReq)
  | event (e : Event)
  | lagged (missed : Nat)
  | gone (s : Subnetwork)
deriving DecidableEq, Repr

/-- One turn of the loop of `PortalnetEvents::start` (events.rs:100-112); `gone` is the environment:
the receiver of that subnetwork (or of uTP) is dropped. -/
def step (n : Node) : Input → Node
  | .talk r => dispatchTalk n r
  | .event e => dispatchEvent n e
  | .lagged _ => n
  | .gone .legacyHistory =>
    { n with legacyHistory := n.legacyHistory.map fun c => { c with alive := false } }
  | .gone .state => { n with state := n.state.map fun c => { c with alive := false } }
  | .gone .beacon => { n with beacon := n.beacon.map fun c => { c with alive := false } }
  | .gone .utp => { n with utp := { n.utp with alive := false } }
  | .gone _ => n

def run (n : Node) (is : List Input) : Node := is.foldl step n

/-- `PortalnetEvents::new` in `run_trin_internal` (bin/trin/src/run.rs:140-212, 247-258): a
subnetwork has its channel iff it is in the list. -/
def initNode (net : Network) (subs : List Subnetwork) : Node where
  net := net
  legacyHistory := if subs.contains .legacyHistory then some ⟨true, []⟩ else none
  state := if subs.contains .state then some ⟨true, []⟩ else none
  beacon := if subs.contains .beacon then some ⟨true, []⟩ else none
  utp := ⟨true, []⟩

/-- `PortalnetEvents::start` (events.rs:82-113): aborts when no overlay has an event stream, which
each initialised one has. Otherwise it runs. -/
def start (n : Node) (is : List Input) : Res Node :=
  if n.legacyHistory.isNone && n.state.isNone && n.beacon.isNone then .panic else .ok (run n is)

/-! ## Time -/

/-- `millis_to_epoch` (events.rs:295-299); `time` is in nanoseconds relative to the Unix epoch. An
earlier time gives zero. The cast of the `u128` to `i64` wraps. -/
def millisToEpoch (time : Int) : Int :=
  if time < 0 then 0 else (BitVec.ofNat 64 (time.toNat / 1000000)).toInt

/-- `Timestamp::from(SystemTime)` (events.rs:257-261). -/
def Timestamp.ofTime (time : Int) : Timestamp := .createTime (millisToEpoch time)

/-- `Timestamp::to_millis` (events.rs:238-243). -/
def Timestamp.toMillis : Timestamp → Option Int
  | .notAvailable => none
  | .createTime t => if t = -1 then none else some t

/-- `beacon_genesis_timestamp` in seconds (network_spec.rs:22-25, 174, 194, 214). -/
def genesis : Network → Nat
  | .mainnet => 1606824023
  | .angelfood => 1606824023
  | .sepolia => 1655733600

/-- `slot_to_timestamp_u64` (network_spec.rs:131-140): `slot as u32` cuts, then twelve seconds each. -/
def slotToTimestamp (net : Network) (slot : Nat) : Nat := genesis net + 12 * (slot % 2 ^ 32)

/-- `current_slot` (network_spec.rs:142-149) at `now` nanoseconds after the Unix epoch: aborts before
the genesis. -/
def currentSlot (net : Network) (now : Nat) : Res Nat :=
  if now < genesis net * 1000000000 then .panic
  else .ok ((now - genesis net * 1000000000) / 1000000000 / 12)

/-! ## Addresses of nodes -/

/-- `NodeAddress` (discovery.rs:50-55): the record (sequence number and the rest of it) and the socket
address that was seen. -/
structure NodeAddr where
  id : Id
  seq : Nat
  rest : Bytes
  socket : Nat
deriving DecidableEq, Repr

/-- The `LruCache` of discovery.rs:62, the entry used last first. -/
structure Cache where
  cap : Nat
  entries : List NodeAddr
deriving DecidableEq, Repr

/-- `LruCache::put` (the `lru` crate), as used in discovery.rs:226-232 and 336-340. -/
def Cache.put (c : Cache) (a : NodeAddr) : Cache :=
  let others := c.entries.filter fun b => b.id ≠ a.id
  { c with entries := (a :: others).take c.cap }

/-- `cached_node_addr` (discovery.rs:330-332), which is `LruCache::get` and moves the entry to the
front. -/
def Cache.get (c : Cache) (id : Id) : Option NodeAddr × Cache :=
  match c.entries.find? fun b => b.id = id with
  | some a => (some a, { c with entries := a :: c.entries.filter fun b => b.id ≠ id })
  | none => (none, c)

/-- What happens to the cache: a session is established (discovery.rs:225-241) or an address is put
(336-340), or it is asked for an address. -/
inductive CacheOp where
  | put (a : NodeAddr)
  | get (id : Id)
deriving DecidableEq, Repr

def CacheOp.id : CacheOp → Id
  | .put a => a.id
  | .get i => i

def Cache.step (c : Cache) : CacheOp → Cache
  | .put a => c.put a
  | .get id => (c.get id).2

def Cache.run (c : Cache) (ops : List CacheOp) : Cache := ops.foldl Cache.step c

/-- `Discovery::find_enr` (discovery.rs:297-307): the cache first, then the table of discv5. -/
def findEnr (c : Cache) (table : Id → Option NodeAddr) (id : Id) : Option NodeAddr × Cache :=
  match c.get id with
  | (some a, c') => (some a, c')
  | (none, c') => (table id, c')

/-! ## The uTP socket -/

/-- `UtpPeer::consolidate` (discovery.rs:425-432): `assert!` on the ids. -/
def consolidate (a b : NodeAddr) : Res NodeAddr :=
  if a.id = b.id then .ok (if b.seq ≤ a.seq then a else b) else .panic

/-- `Discv5UdpSocket::recv_from` (discovery.rs:467-485) with a buffer of `size` bytes: what it
writes into the buffer, from whom, and the response that is sent back. `none` is the end of the
channel. -/
def recvFrom (size : Nat) : Option TalkReq → Option (Bytes × Id × Bytes)
  | some r => some (r.body.take (min size r.body.length), r.sender, [])
  | none => none

/-- `Discv5UdpSocket::send_to` (discovery.rs:437-465): the record is the one given or the one found;
without one nothing is sent. The result (the length) is always that of the buffer. The second
component is what is sent: to whom, with which protocol. -/
def sendTo (net : Network) (c : Cache) (table : Id → Option NodeAddr) (buf : Bytes)
    (peerId : Id) (peer : Option NodeAddr) : Nat × Option (NodeAddr × Res Bytes × Bytes) :=
  let enr := match peer with
    | some a => some a
    | none => (findEnr c table peerId).1
  (buf.length, enr.map fun a => (a, sendProtocol net .utp, buf))

end Verif.Events
