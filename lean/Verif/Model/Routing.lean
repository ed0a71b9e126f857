import Verif.Model.Ping

/-! # The life of a peer in the routing table

`crates/portalnet/src/overlay/service/manager.rs`, `crates/portalnet/src/types/kbucket.rs` and the parts of
`crates/portalnet/src/overlay/protocol.rs` that write to the table. The table itself is the library type
`discv5::kbucket::KBucketsTable`: its functions are arbitrary here (`Lib`), what is assumed of them is stated in
Props/RoutingSpec. Each event comes with its own `Lib`, so that the choices of the library (full buckets, pending
entries whose time has come) may differ from event to event. An event is not interrupted by another: calls of
`add_enr` and `delete_enr` from other tasks come between events. -/

namespace Verif.Routing
open Verif.Wire Verif.PingExt
open Verif.Ping (Node Env handleExt)

/-- `NodeStatus` of discv5. -/
structure Status where
  connected : Bool
  incoming : Bool
deriving DecidableEq, Repr

/-- `Entry::Present` or `Entry::Pending` (kbucket.rs:20-30). -/
structure Entry (E : Type) where
  node : Node E
  status : Status
  pending : Bool

/-- `none` is `Entry::Absent` or `Entry::SelfEntry`. -/
abbrev Table (E : Type) := Id → Option (Entry E)

/-- `InsertResult` of discv5; the reason of a failure is not used. -/
inductive InsertResult where
  | inserted
  | pending (disconnected : Id)
  | statusUpdated (promoted : Bool)
  | updated (promoted : Bool)
  | valueUpdated
  | updatedPending
  | failed
deriving DecidableEq, Repr

/-- The functions of `KBucketsTable` that the service calls. `settle` is what any access to a bucket does first:
pending entries whose time has come are moved into the bucket. The Boolean of the updates says that they failed. -/
structure Lib (E : Type) where
  settle : Table E → Id → Table E
  insert : Table E → Node E → Status → InsertResult × Table E
  update : Table E → Node E → Bool × Table E
  updateStatus : Table E → Id → Bool → Bool × Table E
  remove : Table E → Id → Table E

inductive Sent (E : Type) where
  | ping (enr : E)
  | findNodes0 (enr : E)

/-- The service (manager.rs:52-94) as far as the routing table is concerned: the table, all its earlier values
(the newest first; the code does not keep them), the ping queue and the messages sent. -/
structure State (E : Type) where
  table : Table E
  past : List (Table E)
  queue : List Id
  sent : List (Sent E)

variable {E : Type}

def State.put (s : State E) (t : Table E) : State E := { s with table := t, past := s.table :: s.past }

/-- `HashSetDelay::insert` and `remove`. -/
def State.enqueue (s : State E) (k : Id) : State E := { s with queue := k :: s.queue }
def State.dequeue (s : State E) (k : Id) : State E := { s with queue := s.queue.filter (· ≠ k) }

def State.send (s : State E) (m : Sent E) : State E := { s with sent := m :: s.sent }

/-- `Distance::MAX`. -/
def maxRadius : Nat := 2 ^ 256 - 1

/-- `Node::new(enr, Distance::MAX)` (node.rs:25-32). -/
def newNode (enr : E) : Node E := ⟨enr, maxRadius, none, none⟩

/-- `SharedKBucketsTable::entry` (kbucket.rs:92-94). -/
def entry (lib : Lib E) (s : State E) (k : Id) : Option (Entry E) × State E :=
  let t := lib.settle s.table k
  (t k, s.put t)

/-- `add_bootnodes` (manager.rs:170-214) on the empty table. -/
def boot (env : Env E) (lib : Lib E) (enrs : List E) : State E :=
  enrs.foldl (fun s enr =>
    match lib.insert s.table (newNode enr) ⟨false, false⟩ with
    | (.failed, t) => { s with table := t }
    | (_, t) => { s with table := t, queue := env.nodeId enr :: s.queue }) ⟨fun _ => none, [], [], []⟩

/-- `connect_node` (manager.rs:726-779). -/
def connectNode (env : Env E) (lib : Lib E) (s : State E) (n : Node E) (incoming : Bool) : State E :=
  let r := lib.insert s.table n ⟨true, incoming⟩
  let s := s.put r.2
  match r.1 with
  | .inserted => s.enqueue (env.nodeId n.enr)
  | .pending d =>
    match entry lib s d with
    | (some e, s) => if e.pending then s else s.send (.ping e.node.enr)
    | (none, s) => s
  | .statusUpdated promoted => if promoted then s.enqueue (env.nodeId n.enr) else s
  | .updated promoted => if promoted then s.enqueue (env.nodeId n.enr) else s
  | .valueUpdated => s
  | .updatedPending => s
  | .failed => s.dequeue (env.nodeId n.enr)

/-- `update_node_connection_state` (manager.rs:782-809). -/
def updateState (lib : Lib E) (s : State E) (k : Id) (connected : Bool) : Bool × State E :=
  let r := lib.updateStatus s.table k connected
  (r.1, s.put r.2)

/-- Marking a node that is in the table as connected (manager.rs:574-580 and 652-663). -/
def stayConnected (lib : Lib E) (s : State E) (k : Id) : State E :=
  match updateState lib s k true with
  | (true, s) => s.dequeue k
  | (false, s) => s

/-- `register_node_activity` (manager.rs:566-591). `cached` is `discovery.cached_node_addr(&source)`. -/
def registerActivity (env : Env E) (lib : Lib E) (s : State E) (source : Id) (cached : Option E) : State E :=
  match entry lib s source with
  | (some _, s) => stayConnected lib s source
  | (none, s) =>
    match cached with
    | some enr => connectNode env lib s (newNode enr) true
    | none => s

/-- `process_ping` and `process_pong` (ping/mod.rs:123-244), which treat the message alike. -/
def processPing (env : Env E) (lib : Lib E) (s : State E) (source : Id) (m : PingBody) : State E :=
  match entry lib s source with
  | (none, s) => s
  | (some e, s) =>
    let s := if env.seq e.node.enr < m.enrSeq.toNat then s.send (.findNodes0 e.node.enr) else s
    match decodeExt env.utf8 m.payloadType m.payload with
    | none => s
    | some x =>
      if x.type ∈ env.supported then
        match handleExt x e.node with
        | some n => s.put (lib.update s.table n).2
        | none => s
      else s

/-- One record of `insert_or_update_discovered_nodes` (kbucket.rs:144-187); the two lists are those of
`DiscoveredNodesUpdateResult`. -/
def discoverOne (env : Env E) (lib : Lib E) (a : State E × List Id × List Id) (enr : E) : State E × List Id × List Id :=
  match entry lib a.1 (env.nodeId enr) with
  | (some e, s) =>
    if env.seq e.node.enr < env.seq enr then
      let r := lib.update s.table { e.node with enr := enr }
      (s.put r.2, a.2.1, if r.1 then a.2.2 ++ [env.nodeId enr] else a.2.2)
    else (s, a.2)
  | (none, s) =>
    let r := lib.insert s.table (newNode enr) ⟨false, false⟩
    (s.put r.2, if r.1 = .inserted then a.2.1 ++ [env.nodeId enr] else a.2.1, a.2.2)

/-- `process_discovered_enrs` (manager.rs:689-708). -/
def processDiscovered (env : Env E) (lib : Lib E) (localId : Id) (s : State E) (enrs : List E) : State E :=
  let r := (enrs.filter fun e => env.nodeId e ≠ localId).foldl (discoverOne env lib) (s, [], [])
  r.2.2.foldl State.dequeue (r.2.1.foldl State.enqueue r.1)

/-- The part of a response that matters: a pong, the records of a NODES or CONTENT response, or neither. -/
inductive Response (E : Type) where
  | pong (m : PingBody)
  | records (enrs : List E)
  | other

/-- The first half of `process_response` (manager.rs:619-665). -/
def processAnswer (env : Env E) (lib : Lib E) (s : State E) (source : E) : State E :=
  match entry lib s (env.nodeId source) with
  | (some e, s) =>
    if e.status.connected then stayConnected lib s (env.nodeId source)
    else connectNode env lib s e.node e.status.incoming
  | (none, s) => connectNode env lib s (newNode source) false

/-- `process_response` (manager.rs:611-675); what NODES and CONTENT responses do to the queries is left out. -/
def processResponse (env : Env E) (lib : Lib E) (localId : Id) (s : State E) (source : E) (r : Response E) : State E :=
  match r with
  | .pong m => processPing env lib (processAnswer env lib s source) (env.nodeId source) m
  | .records enrs => processDiscovered env lib localId (processAnswer env lib s source) enrs
  | .other => processAnswer env lib s source

/-- `process_request_failure` (manager.rs:594-613). -/
def processFailure (lib : Lib E) (s : State E) (k : Id) : State E := (updateState lib s k false).2.dequeue k

/-- The ping queue hands out a node whose time has come (manager.rs:295-300). -/
def pingNext (lib : Lib E) (s : State E) (k : Id) : State E :=
  if k ∈ s.queue then
    match entry lib (s.dequeue k) k with
    | (some e, s) => if e.pending then s else (s.send (.ping e.node.enr)).enqueue k
    | (none, s) => s
  else s

/-- What happens to the service. `read` is any other access to the table. -/
inductive Event (E : Type) where
  | request (source : Id) (cached : Option E) (ping : Option PingBody)
  | response (source : E) (body : Response E)
  | failure (destination : E)
  | expired (k : Id)
  | addEnr (enr : E)
  | deleteEnr (k : Id)
  | read (k : Id)

/-- One event: `process_request` for incoming requests (manager.rs:466-480, 559-563), responses and failures
(266-294), the ping queue (295-300), `add_enr` (protocol.rs:274-303), `delete_enr` (319-321). -/
def step (env : Env E) (localId : Id) (lib : Lib E) (s : State E) : Event E → State E
  | .request source cached ping =>
    match ping with
    | some m => processPing env lib (registerActivity env lib s source cached) source m
    | none => registerActivity env lib s source cached
  | .response source body => processResponse env lib localId s source body
  | .failure destination => processFailure lib s (env.nodeId destination)
  | .expired k => pingNext lib s k
  | .addEnr enr => s.put (lib.insert s.table (newNode enr) ⟨true, true⟩).2
  | .deleteEnr k => s.put (lib.remove s.table k)
  | .read k => (entry lib s k).2

/-- A history, the last event first. -/
def run (env : Env E) (localId : Id) (s : State E) : List (Lib E × Event E) → State E
  | [] => s
  | (lib, ev) :: past => step env localId lib (run env localId s past) ev

end Verif.Routing
