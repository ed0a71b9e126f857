import Verif.Model.Query

/-! # Content lookups of the overlay service, and what is reported about them

`crates/portalnet/src/overlay/service/find_content.rs` (everything but `handle_find_content`, which is in Model/KBucket),
the parts of `crates/portalnet/src/overlay/service/manager.rs` and `crates/portalnet/src/find/query_pool.rs` that poll the
lookups, `crates/ethportal-api/src/types/query_trace.rs`, and the JSON-RPC methods `GetContent`, `TraceGetContent` and
`LocalContent` (`crates/subnetworks/*/src/jsonrpc.rs`, `crates/rpc/src/fetch.rs`, `crates/rpc/src/errors.rs`).

This is one lookup among others: what the rest of the node does in between (other lookups, the routing table, the store)
shows up as arguments of the events. Logging and metrics are left out, and channels within the node stay open. -/

namespace Verif.Lookup
open Verif.Query

/-- An ENR; `rest` stands for what is not looked at. -/
structure Enr where
  id : Id
  seq : UInt64
  rest : Bytes
deriving DecidableEq, Repr

/-! ## Traces -/

/-- `QueryResponse` (query_trace.rs:164-173). -/
structure Reply where
  duration : Nat
  respondedWith : List Id
deriving DecidableEq, Repr

/-- `QueryFailureKind` (query_trace.rs:190-199). -/
inductive FailKind where
  | utpConnectionFailed
  | utpTransferFailed
  | invalidContent
deriving DecidableEq, Repr

/-- `NodeInfo` (query_trace.rs:201-208); `radius` is always `None`. -/
structure NodeInfo where
  enr : Enr
  distance : Nat
deriving DecidableEq, Repr

/-- `QueryTrace` (query_trace.rs:17-37); a `HashMap` is a partial function. `started_at_ms` is left out, and times are
milliseconds since then. -/
structure Trace where
  receivedFrom : Option Id
  origin : Id
  responses : Id → Option Reply
  failures : Id → Option (Nat × FailKind)
  metadata : Id → Option NodeInfo
  target : Id
  cancelled : List Id

/-- `HashMap::insert`. -/
def insert {α : Type} (m : Id → Option α) (k : Id) (v : α) : Id → Option α := fun i => if i = k then some v else m i

/-- `QueryTrace::new` (query_trace.rs:40-59). -/
def Trace.new (self : Enr) (target : Id) : Trace :=
  ⟨none, self.id, fun _ => none, fun _ => none, fun _ => none, target, []⟩

/-- `get_metadata` (query_trace.rs:150-160). -/
def nodeInfo (target : Id) (e : Enr) : NodeInfo := ⟨e, xorDistance e.id target⟩

/-- Whether a record replaces the one that is known (query_trace.rs:138-144). -/
def replaces (new known : Enr) (responded : Bool) : Bool :=
  new ≠ known && ((new.seq == known.seq && responded) || known.seq < new.seq)

/-- `add_metadata` (query_trace.rs:130-148). -/
def Trace.addMetadata (t : Trace) (e : Enr) (responded : Bool) : Trace :=
  match t.metadata e.id with
  | none => { t with metadata := insert t.metadata e.id (nodeInfo t.target e) }
  | some i =>
    if replaces e i.enr responded then { t with metadata := insert t.metadata e.id (nodeInfo t.target e) } else t

/-- `node_responded_with` (query_trace.rs:64-86). -/
def Trace.respondedWith (t : Trace) (time : Nat) (source : Enr) (enrs : List Enr) : Trace :=
  let t := enrs.foldl (fun t e => t.addMetadata e false) t
  let r := (t.responses source.id).getD ⟨time, []⟩
  let t := { t with responses := insert t.responses source.id { r with respondedWith := r.respondedWith ++ enrs.map Enr.id } }
  t.addMetadata source true

/-- `node_responded_with_content` (query_trace.rs:93-104). -/
def Trace.respondedWithContent (t : Trace) (time : Nat) (source : Enr) : Trace :=
  let t := { t with responses := insert t.responses source.id ⟨time, []⟩ }
  t.addMetadata source true

/-- `node_failed` (query_trace.rs:107-116). -/
def Trace.nodeFailed (t : Trace) (time : Nat) (id : Id) (kind : FailKind) : Trace :=
  { t with failures := insert t.failures id (time, kind) }

/-- `content_validated` (query_trace.rs:119-123). -/
def Trace.contentValidated (t : Trace) (id : Id) : Trace :=
  if t.receivedFrom.isNone then { t with receivedFrom := some id } else t

/-! ## One lookup -/

/-- What is fixed during a lookup: the ENR of the node, the key with its content id, whether the radius matters for this
key (`affected_by_radius`), and the configuration of the service. -/
structure Ctx where
  self : Enr
  key : Bytes
  target : Id
  affected : Bool
  cfg : Config
  gossipDropped : Bool
  disablePoke : Bool

/-- What is sent over the callback of the lookup (query_info.rs:27-29): the content with whether it came over uTP, or
`ContentNotFound` (its `utp` is always `false`). -/
inductive Answer where
  | found (content : Bytes) (utp : Bool) (trace : Option Trace)
  /-- "Unable to locate content on the network: no connected nodes in the routing table" -/
  | noPeers
  /-- "Unable to locate content on the network before timeout" -/
  | notFound (trace : Option Trace)

/-- A task that fetches and validates content, with the nodes that get it later. -/
structure Task where
  peer : Id
  what : Unvalidated
  poke : List Id
deriving DecidableEq, Repr

/-- A lookup in the pool: the ENRs that were seen, the trace, the query, the tasks that run, and the trace events that wait
in `content_query_trace_events_rx`. `closed` is set when it leaves the pool. -/
structure State where
  untrusted : List Enr
  trace : Option Trace
  started : Option Nat
  q : CQuery
  tasks : List Task
  queue : List (Id × FailKind)
  closed : Bool

/-- What others see of a lookup. -/
inductive Out where
  /-- FIND_CONTENT for the key is sent to this node -/
  | request (to : Enr)
  /-- the ENR of a peer is not known: it cannot be asked, or its content cannot be fetched -/
  | unreachable (peer : Id)
  /-- the end of the lookup -/
  | answer (a : Answer)
  /-- `put` of the store -/
  | put (content : Bytes)
  /-- `propagate_put_content_cross_thread` -/
  | propagate (items : List (Bytes × Bytes))
  /-- an OFFER of the content to this node -/
  | offer (to : Enr) (content : Bytes)

/-- `init_find_content_query` (find_content.rs:695-791): `stored` is what the store has for the key (an error counts as
nothing), `peers` what the routing table gives (`closest_to_content_id` or `random_peers`). -/
def start (c : Ctx) (stored : Option Bytes) (isTrace : Bool) (time : Nat) (peers : List Enr) : Answer ⊕ State :=
  match stored with
  | some content =>
    .inl (.found content false
      (some (((Trace.new c.self c.target).respondedWithContent time c.self).contentValidated c.self.id)))
  | none =>
    if peers.isEmpty then .inl .noPeers
    else
      .inr {
        untrusted := peers
        trace := if isTrace then some ((Trace.new c.self c.target).respondedWith time c.self peers) else none
        started := none
        q := cWithConfig c.cfg c.target (peers.map Enr.id)
        tasks := []
        queue := []
        closed := false }

/-- `find_enr` (manager.rs:812-846): `known` is what discv5, the routing table and other lookups know. -/
def findEnr (s : State) (known : Id → Option Enr) (id : Id) : Option Enr :=
  match known id with
  | some e => some e
  | none => s.untrusted.find? fun e => e.id == id

/-- The answer of a lookup that ends (find_content.rs:450-497). -/
def finalAnswer (s : State) : Answer :=
  match cIntoResult s.q with
  | some (v, cancelled) =>
    .found v.content v.wasUtp (s.trace.map fun t => { t.contentValidated v.sender with cancelled })
  | none => .notFound s.trace

/-- The pool polls this lookup and the service handles the result (query_pool.rs:118-188, manager.rs:385-432,
find_content.rs:290-498). `none` is an abort. -/
def poll (s : State) (now : Nat) (known : Id → Option Enr) : Option (State × List Out) :=
  let began := s.started.getD now
  match cPoll s.q now with
  | none => none
  | some (q, .finished) =>
    let s := { s with started := some began, q }
    some ({ s with closed := true }, [.answer (finalAnswer s)])
  | some (q, .validating p) =>
    let s := { s with started := some began, q }
    match pendingValidationResult q p with
    | none => some (s, [])
    | some (.content b) => some ({ s with tasks := s.tasks ++ [⟨p, .content b, nodesToPoke q p⟩] }, [])
    | some (.connection cid) =>
      match findEnr s known p with
      | none => some (s, [.unreachable p])
      | some _ => some ({ s with tasks := s.tasks ++ [⟨p, .connection cid, nodesToPoke q p⟩] }, [])
  | some (q, .waiting (some p)) =>
    let s := { s with started := some began, q }
    match findEnr s known p with
    | some e => some (s, [.request e])
    | none => some (s, [.unreachable p])
  | some (q, _) =>
    let s := { s with started := some began, q }
    if s.q.base.cfg.overallTimeout ≤ now - began then some ({ s with closed := true }, [.answer (finalAnswer s)])
    else some (s, [])

/-- A CONTENT message (`Content`, portal_wire.rs) from a peer that was asked on behalf of the lookup. -/
inductive Reported where
  | content (bytes : Bytes)
  | connectionId (id : Nat)
  | enrs (l : List Enr)
deriving DecidableEq, Repr

/-- Records that are new to the lookup are kept (find_content.rs:226-240): all that are seen, and the new ones. -/
def keepNew (self : Id) : List Enr → List Enr → List Enr × List Enr
  | untrusted, [] => (untrusted, [])
  | untrusted, e :: l =>
    if e.id ≠ self ∧ ¬ untrusted.any (fun u => u.id == e.id) then
      let r := keepNew self (untrusted ++ [e]) l
      (r.1, e :: r.2)
    else keepNew self untrusted l

/-- `process_content` for this lookup (find_content.rs:170-281); discovered nodes also go to the routing table, which is
Model/Routing. -/
def onReport (c : Ctx) (s : State) (time : Nat) (source : Enr) : Reported → Option State
  | .content bytes =>
    let s := { s with trace := s.trace.map fun (t : Trace) => t.respondedWithContent time source }
    (cOnSuccess s.q source.id (.content bytes)).map fun q => { s with q }
  | .connectionId id =>
    let s := { s with trace := s.trace.map fun (t : Trace) => t.respondedWithContent time source }
    (cOnSuccess s.q source.id (.connectionId id)).map fun q => { s with q }
  | .enrs l =>
    let kept := keepNew c.self.id s.untrusted l
    let s := { s with
      untrusted := kept.1
      trace := s.trace.map fun (t : Trace) =>
        { t.respondedWith time source kept.2 with cancelled := pendingPeers s.q source.id } }
    (cOnSuccess s.q source.id (.closestNodes ((l.filter fun e => e.id ≠ c.self.id).map Enr.id))).map fun q => { s with q }

/-- How fetching content over uTP ends (find_content.rs:350-432). -/
inductive Fetch where
  | data (bytes : Bytes)
  /-- the payload of the stream is not framed as the version says -/
  | badPayload
  | streamFailed
  /-- there is no common protocol version: the task ends without a message -/
  | noVersion
deriving DecidableEq, Repr

/-- The verdict of the validator (validator.rs: `ValidationResult`). -/
inductive Verdict where
  | invalid
  | valid
  | canonicallyValid
deriving DecidableEq, Repr

/-- What a task sees: the value in the store, the verdict on the content it has, whether the store wants it
(`should_we_store`, an error counts as no), what `put` drops (`none` for an error), the routing table (ENR and radius of
present or pending nodes), and whether each uTP permit it asks for is given. -/
structure Seen where
  stored : Option Bytes
  verdict : Bytes → Verdict
  wanted : Bool
  dropped : Option (List (Bytes × Bytes))
  table : Id → Option (Enr × Nat)
  permits : List Bool

/-- `poke_content` (find_content.rs:624-691). -/
def poke (c : Ctx) (table : Id → Option (Enr × Nat)) (content : Bytes) : List Id → List Bool → List Out
  | [], _ => []
  | id :: ids, permits =>
    match table id with
    | none => poke c table content ids permits
    | some (e, radius) =>
      if !c.affected || decide (xorDistance id c.target ≤ radius) then
        match permits with
        | true :: permits => .offer e content :: poke c table content ids permits
        | _ :: permits => poke c table content ids permits
        | [] => poke c table content ids []
      else poke c table content ids permits

/-- `process_received_content` (find_content.rs:503-620): the message for the lookup, the trace event, the effects. -/
def process (c : Ctx) (see : Seen) (t : Task) (utp : Bool) (content : Bytes) :
    Option Validated × Option FailKind × List Out :=
  match see.stored with
  | some v => (some ⟨v, utp, t.peer⟩, none, if c.disablePoke then [] else poke c see.table v t.poke see.permits)
  | none =>
    if see.verdict content = .invalid then (none, some .invalidContent, [])
    else
      let storing :=
        if see.verdict content = .canonicallyValid ∧ see.wanted = true then
          .put content ::
            match see.dropped with
            | none => []
            | some dropped => [.propagate ((c.key, content) :: if c.gossipDropped then dropped else [])]
        else []
      (some ⟨content, utp, t.peer⟩, none,
        storing ++ if c.disablePoke then [] else poke c see.table content t.poke see.permits)

/-- A task ends (find_content.rs:322-448): the message for the lookup (`none` if there is none), the trace event and the
effects. -/
def taskResult (c : Ctx) (see : Seen) (t : Task) (fetch : Fetch) : Option (Option Validated) × Option FailKind × List Out :=
  match t.what with
  | .content bytes => let r := process c see t false bytes; (some r.1, r.2)
  | .connection _ =>
    match fetch with
    | .data bytes => let r := process c see t true bytes; (some r.1, r.2)
    | .badPayload => (some none, some .invalidContent, [])
    | .streamFailed => (some none, some .utpTransferFailed, [])
    | .noVersion => (none, none, [])

/-- The `n`-th task ends. Trace events are only sent when the lookup is traced; a lookup that has left the pool gets no
message. -/
def endTask (c : Ctx) (s : State) (n : Nat) (fetch : Fetch) (see : Seen) : State × List Out :=
  match s.tasks[n]? with
  | none => (s, [])
  | some t =>
    let r := taskResult c see t fetch
    let s := { s with tasks := s.tasks.eraseIdx n }
    let s := match r.1 with
      | some m => if s.closed then s else { s with q := { s.q with chan := s.q.chan ++ [m] } }
      | none => s
    let s := match r.2.1 with
      | some k => if s.trace.isSome then { s with queue := s.queue ++ [(t.peer, k)] } else s
      | none => s
    (s, r.2.2)

/-- `track_content_query_trace_event` (manager.rs:436-454) for the oldest event that waits. -/
def takeTraceEvent (s : State) (time : Nat) : State :=
  match s.queue with
  | [] => s
  | (id, kind) :: queue =>
    { s with queue, trace := if s.closed then s.trace else s.trace.map fun t => t.nodeFailed time id kind }

/-- What happens during a lookup. -/
inductive Ev where
  | poll (now : Nat) (known : Id → Option Enr)
  | report (time : Nat) (source : Enr) (r : Reported)
  | task (n : Nat) (fetch : Fetch) (see : Seen)
  | traceEvent (time : Nat)

/-- One event (manager.rs:251-318). A lookup that has left the pool is neither polled nor found. -/
def step (c : Ctx) (s : State) : Ev → Option (State × List Out)
  | .poll now known => if s.closed then some (s, []) else poll s now known
  | .report time source r => if s.closed then some (s, []) else (onReport c s time source r).map fun s => (s, [])
  | .task n fetch see => some (endTask c s n fetch see)
  | .traceEvent time => some (takeTraceEvent s time, [])

/-- A history, each event with what is seen of it. -/
def run (c : Ctx) (s : State) : List Ev → Option (State × List (Ev × List Out))
  | [] => some (s, [])
  | e :: es =>
    match step c s e with
    | none => none
    | some (s, o) => (run c s es).map fun r => (r.1, (e, o) :: r.2)

/-! ## The answers over JSON-RPC -/

/-- The text of an error on its way from a subnetwork to the RPC server: the JSON object of `ContentNotFound`
(jsonrpc.rs of the subnetworks), that of a missing local content, or plain text. -/
inductive ErrText where
  | lookup (message : List Char) (trace : Option Trace)
  | message (message : List Char)
  | plain (text : List Char)

/-- The answer of a method. -/
inductive RpcAnswer where
  | content (content : Bytes) (utp : Bool)
  | traced (content : Bytes) (utp : Bool) (trace : Trace)
  | value (content : Bytes)

def noPeersText : List Char := "Unable to locate content on the network: no connected nodes in the routing table: utp: false".toList
def notFoundText : List Char := "Unable to locate content on the network before timeout: utp: false".toList

/-- `get_content` (legacy-history/src/jsonrpc.rs:98-150, state/src/jsonrpc.rs:205-258, beacon/src/jsonrpc.rs:146-198). -/
def getContent (isTrace : Bool) : Answer → Except ErrText RpcAnswer
  | .noPeers => .error (.lookup noPeersText none)
  | .notFound trace => .error (.lookup notFoundText trace)
  | .found content utp trace =>
    if isTrace then
      match trace with
      | some t => .ok (.traced content utp t)
      | none => .error (.plain "Content query trace requested but none provided.".toList)
    else .ok (.content content utp)

/-- `local_content` (legacy-history/src/jsonrpc.rs:153-175, state/src/jsonrpc.rs:163-179); in the beacon network
(beacon/src/jsonrpc.rs:201-218) the text is not JSON. -/
def localContent (beacon : Bool) (stored : Except (List Char) (Option Bytes)) : Except ErrText RpcAnswer :=
  match stored with
  | .ok (some v) => .ok (.value v)
  | .ok none =>
    if beacon then .error (.plain "Content not found in local storage".toList)
    else .error (.message "Content not found in local storage".toList)
  | .error e => .error (.plain e)

/-- `str::contains` of the standard library. -/
def contains (needle : List Char) : List Char → Bool
  | [] => needle.isEmpty
  | c :: cs => needle.isPrefixOf (c :: cs) || contains needle cs

/-- The error object of a method: its code, and the trace in its data. -/
structure RpcError where
  code : Int
  trace : Option Trace

/-- `proxy_to_subnet` (fetch.rs:33-44) with the conversion to an error object (errors.rs:68-90). The JSON of a trace does
not contain the text that is searched for. JSON objects without `trace` parse as well; plain text is assumed not to parse. -/
def rpcError : ErrText → RpcError
  | .lookup m trace =>
    if contains "Unable to locate content on the network".toList m then ⟨-39001, trace⟩ else ⟨-32099, none⟩
  | .message m =>
    if contains "Unable to locate content on the network".toList m then ⟨-39001, none⟩ else ⟨-32099, none⟩
  | .plain _ => ⟨-32099, none⟩

end Verif.Lookup
