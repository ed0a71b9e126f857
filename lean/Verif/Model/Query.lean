import Verif.Model.Distance

/-!
Iterative lookups: the shared peer bookkeeping, the node lookup (`FindNodeQuery`), the content
lookup (`FindContentQuery`) together with the service tasks that validate the content it finds.

Sources: `crates/portalnet/src/find/iterators/{query,findnodes,findcontent}.rs`,
`crates/portalnet/src/overlay/service/find_content.rs`.

An `Instant` or a `Duration` is a number of ticks (`Nat`).  A failing `assert!` or an arithmetic
overflow (which aborts a debug build) is the result `none`.
-/

namespace Verif.Query

/-- `QueryConfig`, query.rs 32-51. -/
structure Config where
  parallelism : Nat
  numResults : Nat
  peerTimeout : Nat
  overallTimeout : Nat
  deriving DecidableEq, Repr

/-- `QueryPeerState`, query.rs 221-245. -/
inductive PeerState where
  | notContacted
  | waiting (deadline : Nat)
  | unresponsive
  | failed
  | succeeded
  deriving DecidableEq, Repr

/-- `QueryPeer`, query.rs 171-217.  `peers_returned` is left out: nothing reads it. -/
structure Peer where
  id : Id
  state : PeerState
  deriving DecidableEq, Repr

/-- `QueryProgress`, query.rs 134-167. -/
inductive Progress where
  | iterating (noProgress : Nat)
  | stalled
  | finished
  deriving DecidableEq, Repr

/-- `QueryState`, query_pool.rs 201-222. -/
inductive QState where
  | waiting (peer : Option Id)
  | atCapacity
  | validating (peer : Id)
  | finished
  deriving DecidableEq, Repr

/-- The fields `FindNodeQuery` (findnodes.rs 36-56) and `FindContentQuery` (findcontent.rs 97-132)
have in common.  The `BTreeMap` from distance to peer is the list of its values in key order; the
key of a value is the distance of its peer to the target. -/
structure Query where
  cfg : Config
  target : Id
  started : Option Nat
  progress : Progress
  peers : List Peer
  numWaiting : Nat
  deriving DecidableEq, Repr

/-- `BTreeMap::entry(distance).or_insert(peer)`, findnodes.rs 148-151, findcontent.rs 199-202. -/
def orInsert (target : Id) (p : Peer) : List Peer → List Peer
  | [] => [p]
  | q :: qs =>
    if xorDistance p.id target < xorDistance q.id target then p :: q :: qs
    else if xorDistance p.id target = xorDistance q.id target then q :: qs
    else q :: orInsert target p qs

/-- `with_config`, findnodes.rs 287-318, findcontent.rs 399-439: the first `num_results` given
peers are collected into the map.  (Collecting keeps the last of two entries with the same
distance, `orInsert` the first; they are equal.) -/
def withConfig (cfg : Config) (target : Id) (known : List Id) : Query :=
  { cfg := cfg, target := target, started := none, progress := .iterating 0,
    peers := (known.take cfg.numResults).foldl
      (fun m id => orInsert target ⟨id, .notContacted⟩ m) [],
    numWaiting := 0 }

/-- `at_capacity`, findnodes.rs 326-332, findcontent.rs 447-453. -/
def atCapacity (q : Query) : Bool :=
  match q.progress with
  | .stalled => decide (q.cfg.numResults ≤ q.numWaiting)
  | .iterating _ => decide (q.cfg.parallelism ≤ q.numWaiting)
  | .finished => true

/-- `entry(distance)` of the map, for the peer `id`. -/
def lookup (q : Query) (id : Id) : Option Peer :=
  q.peers.find? (fun p => decide (xorDistance p.id q.target = xorDistance id q.target))

/-- Overwrite the state of the entry for `id`. -/
def setState (q : Query) (id : Id) (s : PeerState) : List Peer :=
  q.peers.map (fun p =>
    if xorDistance p.id q.target = xorDistance id q.target then { p with state := s } else p)

/-- What `on_success` and `on_failure` do first. -/
inductive Settled where
  /-- `assert!(self.num_waiting > 0)` fails -/
  | panic
  /-- the report is ignored -/
  | ignored
  /-- the peer has its final state -/
  | settled (q : Query)

/-- The part of `on_success` (findnodes.rs 110-141, findcontent.rs 159-189) and of `on_failure`
(findnodes.rs 83-101, findcontent.rs 244-266) that gives the peer its final state `s`. -/
def settle (q : Query) (id : Id) (s : PeerState) : Settled :=
  if q.progress = .finished then .ignored
  else match lookup q id with
    | none => .ignored
    | some p => match p.state with
      | .waiting _ =>
        if q.numWaiting = 0 then .panic
        else .settled { q with numWaiting := q.numWaiting - 1, peers := setState q id s }
      | .unresponsive => .settled { q with peers := setState q id s }
      | _ => .ignored

/-- `on_failure`, findnodes.rs 82-102, findcontent.rs 243-267. -/
def onFailure (q : Query) (id : Id) : Option Query :=
  match settle q id .failed with
  | .panic => none
  | .ignored => some q
  | .settled q' => some q'

/-- The loop over the reported peers, findnodes.rs 147-157, findcontent.rs 198-209: insert each,
and set the progress flag from it (each peer overwrites the flag of the one before). -/
def addPeers (target : Id) (numClosest numResults : Nat) :
    List Id → List Peer → Bool → List Peer × Bool
  | [], ps, progress => (ps, progress)
  | id :: ids, ps, _ =>
    let ps' := orInsert target ⟨id, .notContacted⟩ ps
    let first := match ps' with
      | [] => false
      | p :: _ => decide (xorDistance p.id target = xorDistance id target)
    addPeers target numClosest numResults ids ps' (first || decide (numClosest < numResults))

/-- The update of the progress state, findnodes.rs 160-177, findcontent.rs 211-228. -/
def nextProgress (cfg : Config) (cur : Progress) (progress : Bool) : Progress :=
  match cur with
  | .iterating n =>
    let n' := if progress then 0 else n + 1
    if cfg.parallelism ≤ n' then .stalled else .iterating n'
  | .stalled => if progress then .iterating 0 else .stalled
  | .finished => .finished

/-- Incorporate the reported peers, findnodes.rs 143-177, findcontent.rs 195-228. -/
def incorporate (q : Query) (ids : List Id) : Query :=
  let (ps, progress) := addPeers q.target q.peers.length q.cfg.numResults ids q.peers false
  { q with peers := ps, progress := nextProgress q.cfg q.progress progress }

/-- `FindNodeQuery::on_success`, findnodes.rs 109-178. -/
def onSuccess (q : Query) (id : Id) (resp : List Id) : Option Query :=
  match settle q id .succeeded with
  | .panic => none
  | .ignored => some q
  | .settled q' => some (incorporate q' resp)

/-- The loop of `poll` over the peers, findnodes.rs 195-245; with the counter `none` it is the loop
of the content lookup, findcontent.rs 302-340.  The result holds the new peers, the new number of
waiting peers, and the state returned from inside the loop, if any. -/
def pollLoop (cfg : Config) (atCap : Bool) (now : Nat) :
    List Peer → Option Nat → Nat → Option (List Peer × Nat × Option QState)
  | [], _, w => some ([], w, none)
  | p :: ps, c, w =>
    match p.state with
    | .notContacted =>
      if atCap then some (p :: ps, w, some .atCapacity)
      else some ({ p with state := .waiting (now + cfg.peerTimeout) } :: ps, w + 1,
        some (.waiting (some p.id)))
    | .waiting t =>
      if t ≤ now then
        if w = 0 then none
        else (pollLoop cfg atCap now ps c (w - 1)).map
          (fun r => ({ p with state := .unresponsive } :: r.1, r.2))
      else if atCap then some (p :: ps, w, some .atCapacity)
      else (pollLoop cfg atCap now ps none w).map (fun r => (p :: r.1, r.2))
    | .succeeded =>
      match c with
      | none => (pollLoop cfg atCap now ps none w).map (fun r => (p :: r.1, r.2))
      | some n =>
        if cfg.numResults ≤ n + 1 then some (p :: ps, w, some .finished)
        else (pollLoop cfg atCap now ps (some (n + 1)) w).map (fun r => (p :: r.1, r.2))
    | .failed => (pollLoop cfg atCap now ps c w).map (fun r => (p :: r.1, r.2))
    | .unresponsive => (pollLoop cfg atCap now ps c w).map (fun r => (p :: r.1, r.2))

/-- The end of `poll`: run the loop and, if it does not return, decide on the number of waiting
peers, findnodes.rs 193-257, findcontent.rs 300-352. -/
def pollPeers (q : Query) (now : Nat) (c : Option Nat) : Option (Query × QState) :=
  match pollLoop q.cfg (atCapacity q) now q.peers c q.numWaiting with
  | none => none
  | some (ps, w, some .finished) =>
    some ({ q with peers := ps, numWaiting := w, progress := .finished }, .finished)
  | some (ps, w, some st) => some ({ q with peers := ps, numWaiting := w }, st)
  | some (ps, w, none) =>
    if 0 < w then some ({ q with peers := ps, numWaiting := w }, .waiting none)
    else some ({ q with peers := ps, numWaiting := w, progress := .finished }, .finished)

/-- `FindNodeQuery::poll`, findnodes.rs 180-258. -/
def poll (q : Query) (now : Nat) : Option (Query × QState) :=
  if q.progress = .finished then some (q, .finished) else pollPeers q now (some 0)

/-- `FindNodeQuery::into_result`, findnodes.rs 260-272. -/
def intoResult (q : Query) : List Id :=
  (q.peers.filterMap (fun p => if p.state = .succeeded then some p.id else none)).take
    q.cfg.numResults

/-- A call on a node lookup (the `Query` trait, query.rs 78-130). -/
inductive Event where
  | poll (now : Nat)
  | success (peer : Id) (resp : List Id)
  | failure (peer : Id)
  deriving DecidableEq, Repr

/-- One call on a node lookup, with the value `poll` returned. -/
def step (q : Query) : Event → Option (Query × Option QState)
  | .poll now => (poll q now).map (fun r => (r.1, some r.2))
  | .success id resp => (onSuccess q id resp).map (fun q' => (q', none))
  | .failure id => (onFailure q id).map (fun q' => (q', none))

/-- A sequence of calls, with everything that was returned. -/
def run (q : Query) : List Event → Option (Query × List (Event × Option QState))
  | [] => some (q, [])
  | e :: es =>
    match step q e with
    | none => none
    | some (q', o) => (run q' es).map (fun r => (r.1, (e, o) :: r.2))

/-! ### Content lookups -/

/-- `FindContentQueryResponse`, findcontent.rs 42-46. -/
inductive Response where
  | closestNodes (ids : List Id)
  | content (bytes : Bytes)
  | connectionId (id : Nat)
  deriving DecidableEq, Repr

/-- `UnvalidatedContent`, findcontent.rs 81-84. -/
inductive Unvalidated where
  | content (bytes : Bytes)
  | connection (id : Nat)
  deriving DecidableEq, Repr

/-- `ValidatedContent`, findcontent.rs 87-94. -/
structure Validated where
  content : Bytes
  wasUtp : Bool
  sender : Id
  deriving DecidableEq, Repr

/-- `FindContentQuery`, findcontent.rs 97-132.  The map `unchecked_content` is an association list
whose first entry for a peer is the current one; `chan` is the queue of the channel
`content_tx`/`content_rx`. -/
structure CQuery where
  base : Query
  unchecked : List (Id × Unvalidated)
  pendingValidations : List Id
  chan : List (Option Validated)
  validated : Option Validated
  numValidating : Nat
  deriving DecidableEq, Repr

/-- `FindContentQuery::with_config`, findcontent.rs 399-439. -/
def cWithConfig (cfg : Config) (target : Id) (known : List Id) : CQuery :=
  { base := withConfig cfg target known, unchecked := [], pendingValidations := [], chan := [],
    validated := none, numValidating := 0 }

/-- `FindContentQuery::on_success`, findcontent.rs 158-241. -/
def cOnSuccess (q : CQuery) (id : Id) (resp : Response) : Option CQuery :=
  match settle q.base id .succeeded with
  | .panic => none
  | .ignored => some q
  | .settled b =>
    match resp with
    | .closestNodes ids => some { q with base := incorporate b ids }
    | .content bytes => some { q with
        base := b
        unchecked := (id, .content bytes) :: q.unchecked
        pendingValidations := q.pendingValidations ++ [id] }
    | .connectionId cid => some { q with
        base := b
        unchecked := (id, .connection cid) :: q.unchecked
        pendingValidations := q.pendingValidations ++ [id] }

/-- `FindContentQuery::on_failure`, findcontent.rs 243-267. -/
def cOnFailure (q : CQuery) (id : Id) : Option CQuery :=
  (onFailure q.base id).map (fun b => { q with base := b })

/-- The part of `poll` after the channel was read, findcontent.rs 286-352. -/
def cPollRest (q : CQuery) (now : Nat) : Option (CQuery × QState) :=
  if 0 < q.numValidating then some (q, .atCapacity)
  else match q.pendingValidations with
    | p :: rest =>
      some ({ q with pendingValidations := rest, numValidating := q.numValidating + 1 },
        .validating p)
    | [] => (pollPeers q.base now none).map (fun r => ({ q with base := r.1 }, r.2))

/-- `FindContentQuery::poll`, findcontent.rs 269-353. -/
def cPoll (q : CQuery) (now : Nat) : Option (CQuery × QState) :=
  if q.base.progress = .finished then some (q, .finished)
  else match q.chan with
    | [] => cPollRest q now
    | some v :: rest =>
      some ({ q with chan := rest, base := { q.base with progress := .finished },
                     validated := some v }, .finished)
    | none :: rest =>
      if q.numValidating = 0 then none
      else cPollRest { q with chan := rest, numValidating := q.numValidating - 1 } now

/-- `pending_peers`, findcontent.rs 477-489. -/
def pendingPeers (q : CQuery) (source : Id) : List Id :=
  q.base.peers.filterMap (fun p =>
    match p.state with
    | .waiting _ => if p.id = source then none else some p.id
    | _ => none)

/-- `FindContentQuery::into_result`, findcontent.rs 355-367: the content and the peers whose
requests are given up. -/
def cIntoResult (q : CQuery) : Option (Validated × List Id) :=
  match q.validated with
  | some v => some (v, pendingPeers q v.sender)
  | none => none

/-- `pending_validation_result`, findcontent.rs 369-391 (`None` is `NonePending`). -/
def pendingValidationResult (q : CQuery) (source : Id) : Option Unvalidated :=
  q.unchecked.lookup source

/-- `get_nodes_to_poke`, findcontent.rs 457-473. -/
def nodesToPoke (q : CQuery) (source : Id) : List Id :=
  (q.base.peers.filterMap (fun p =>
    if p.state = .succeeded then (if p.id = source then none else some p.id) else none)).take
    q.base.cfg.numResults

/-- How fetching the content of a `Validating` event ends, service/find_content.rs 322-448.  For
content that came with the answer there is nothing to fetch. -/
inductive Fetch where
  /-- the stream delivered these bytes (already unframed) -/
  | data (bytes : Bytes)
  /-- the stream, or the decoding of its payload, failed -/
  | failed
  /-- the ENR of the peer is unknown, or there is no common protocol version: the task returns
  without a message -/
  | dropped
  deriving DecidableEq, Repr

/-- `process_received_content`, service/find_content.rs 503-606, up to the message it sends:
`stored` is the local value of the key and `valid` the verdict of the validator. -/
def processReceived (peer : Id) (utp : Bool) (stored : Option Bytes) (valid : Bytes → Bool)
    (content : Bytes) : Option Validated :=
  match stored with
  | some v => some ⟨v, utp, peer⟩
  | none => if valid content then some ⟨content, utp, peer⟩ else none

/-- The message a validation task sends, service/find_content.rs 322-448; `none` if it ends without
sending one. -/
def taskMessage (peer : Id) (u : Unvalidated) (fetch : Fetch) (stored : Option Bytes)
    (valid : Bytes → Bool) : Option (Option Validated) :=
  match u with
  | .content bytes => some (processReceived peer false stored valid bytes)
  | .connection _ =>
    match fetch with
    | .data bytes => some (processReceived peer true stored valid bytes)
    | .failed => some none
    | .dropped => none

/-- A content lookup with the validation tasks it has started and that have not ended. -/
structure Content where
  q : CQuery
  tasks : List (Id × Unvalidated)
  deriving DecidableEq, Repr

/-- A call on a content lookup, or the end of the `n`-th running validation task. -/
inductive CEvent where
  | poll (now : Nat)
  | success (peer : Id) (resp : Response)
  | failure (peer : Id)
  | taskEnds (n : Nat) (fetch : Fetch) (stored : Option Bytes) (valid : Bytes → Bool)

/-- One event of a content lookup.  A `Validating` poll result starts the task for the peer's
content (manager.rs 389-410 and service/find_content.rs 316-449). -/
def cStep (s : Content) : CEvent → Option (Content × Option QState)
  | .poll now =>
    match cPoll s.q now with
    | none => none
    | some (q', .validating p) =>
      match pendingValidationResult q' p with
      | some u => some (⟨q', s.tasks ++ [(p, u)]⟩, some (.validating p))
      | none => some (⟨q', s.tasks⟩, some (.validating p))
    | some (q', st) => some (⟨q', s.tasks⟩, some st)
  | .success id resp => (cOnSuccess s.q id resp).map (fun q' => (⟨q', s.tasks⟩, none))
  | .failure id => (cOnFailure s.q id).map (fun q' => (⟨q', s.tasks⟩, none))
  | .taskEnds n fetch stored valid =>
    match s.tasks[n]? with
    | none => some (s, none)
    | some (p, u) =>
      match taskMessage p u fetch stored valid with
      | none => some (⟨s.q, s.tasks.eraseIdx n⟩, none)
      | some m => some (⟨{ s.q with chan := s.q.chan ++ [m] }, s.tasks.eraseIdx n⟩, none)

/-- A history of a content lookup, with everything that was returned. -/
def cRun (s : Content) : List CEvent → Option (Content × List (CEvent × Option QState))
  | [] => some (s, [])
  | e :: es =>
    match cStep s e with
    | none => none
    | some (s', o) => (cRun s' es).map (fun r => (r.1, (e, o) :: r.2))

end Verif.Query
