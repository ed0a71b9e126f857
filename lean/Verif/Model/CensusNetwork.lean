import Verif.Model.Census

/-! # Bridge census: the life of the network view
(bin/portal-bridge/src/census/{network,peers,mod}.rs)

How the bridge finds peers, checks them and keeps its view of a subnetwork up to date. What the
outside world does is an input: what the lookups find, and how a peer answers the ping and, if it is
asked, the request for its record. Every check carries the two times (milliseconds of the monotonic
clock) at which it looks at the schedule and at which its result is recorded.

Simplifications: the peers and the schedule are lists with one entry per node id (the code has a
`HashMap` and a `HashSetDelay`; their order has no meaning). The checks of one round of `init` run
concurrently in the code and one after the other here; they concern different nodes, and
`C86_order` shows that their order does not matter. The semaphore that limits how many run at a time
is left out. -/

namespace Verif.CensusNet
open Verif.Census

/-- A node record (`Enr`): its node id, its sequence number and the rest of it. -/
structure Enr where
  id : Id
  seq : Nat
  rest : Bytes
deriving DecidableEq, Repr

/-- A peer with the rest of its record; `Peer.enr` (census/peer.rs:33-47) is all three together. -/
structure Entry where
  rest : Bytes
  peer : Peer
deriving DecidableEq, Repr

/-- `Peer::enr` (census/peer.rs:65-67). -/
def Entry.enr (e : Entry) : Enr := ⟨e.peer.nodeId, e.peer.seq, e.rest⟩

/-- `PeersWithLivenessChecks` (census/peers.rs:33-38): the peers, and when they are to be checked. -/
structure State where
  entries : List Entry
  checks : List (Id × Nat)
deriving DecidableEq, Repr

/-- `Peers::new` (census/peers.rs:51-59). -/
def State.new : State := ⟨[], []⟩

/-- `LIVENESS_CHECK_DELAY` (census/peers.rs:27). -/
def livenessCheckDelay : Nat := 300 * 1000

/-- `peers.get` (census/peers.rs:94, 117, 154). -/
def State.get (s : State) (id : Id) : Option Entry :=
  s.entries.find? (fun e => e.peer.nodeId == id)

/-- Setting the value of a key of the map (census/peers.rs:81-85, 94-100, 117-120). -/
def State.put (s : State) (e : Entry) : State :=
  { s with entries := s.entries.filter (fun x => !(x.peer.nodeId == e.peer.nodeId)) ++ [e] }

/-- `peers.remove` (census/peers.rs:103). -/
def State.drop (s : State) (id : Id) : State :=
  { s with entries := s.entries.filter (fun x => !(x.peer.nodeId == id)) }

/-- `next_liveness_check` (census/peers.rs:69-71). -/
def State.deadline (s : State) (id : Id) : Option Nat :=
  (s.checks.find? (fun c => c.1 == id)).map (·.2)

/-- `liveness_checks.insert` (census/peers.rs:86, 106): sets the deadline anew. -/
def State.schedule (s : State) (id : Id) (now : Nat) : State :=
  { s with checks := s.checks.filter (fun c => !(c.1 == id)) ++ [(id, now + livenessCheckDelay)] }

/-- `liveness_checks.remove` (census/peers.rs:96, 104). -/
def State.unschedule (s : State) (id : Id) : State :=
  { s with checks := s.checks.filter (fun c => !(c.1 == id)) }

/-- `record_successful_liveness_check` (census/peers.rs:73-87 and census/peer.rs:101-129): of the known
record and the given one the known one stays if its sequence number is higher. -/
def State.recordSuccess (s : State) (enr : Enr) (client radius now : Nat) : State :=
  let old := (s.get enr.id).getD ⟨enr.rest, Peer.new enr.id enr.seq⟩
  let e : Entry :=
    ⟨if old.peer.seq > enr.seq then old.rest else enr.rest,
      old.peer.recordSuccess enr.seq client radius now⟩
  (s.put e).schedule enr.id now

/-- `record_failed_liveness_check` (census/peers.rs:89-108). -/
def State.recordFailure (s : State) (id : Id) (now : Nat) : State :=
  match s.get id with
  | none => s.unschedule id
  | some e =>
    let e := { e with peer := e.peer.recordFailure now }
    if e.peer.isObsolete then (s.drop id).unschedule id
    else (s.put e).schedule id now

/-- `record_offer_result` (census/peers.rs:110-123). -/
def State.recordOffer (s : State) (id : Id) (trace : OfferTrace) (now : Nat) : State :=
  match s.get id with
  | none => s
  | some e => s.put { e with peer := e.peer.recordOffer trace now }

/-- A pong: the sequence number in it, and the client type and radius if its payload decodes as the
capabilities extension (network.rs:256-268). -/
structure Pong where
  enrSeq : Nat
  capabilities : Option (Nat × Nat)
deriving DecidableEq, Repr

/-- How a peer answers: the ping (`none`: it fails) and the request for its record (`none`: it
fails). -/
structure Reply where
  pong : Option Pong
  nodes : Option (List Enr)
deriving DecidableEq, Repr

/-- One check of a node: when it starts, when its result is recorded, and the answers. -/
structure Check where
  start : Nat
  done : Nat
  reply : Reply
deriving DecidableEq, Repr

/-- An exchange with a peer as the network sees it: the record used to reach the peer, and the
check. -/
structure Exchange where
  enr : Enr
  check : Check
deriving DecidableEq, Repr

/-- `LivenessResult` (network.rs:32-39). -/
inductive LivenessResult where
  | pass | fail | fresh
deriving DecidableEq, Repr

/-- `fetch_enr` (network.rs:299-311): the first record with the node id of the peer. -/
def fetchEnr (enr : Enr) (nodes : Option (List Enr)) : Option Enr :=
  match nodes with
  | none => none
  | some l => l.find? (fun e => e.id == enr.id)

/-- The record kept by a check (network.rs:270-286): a newer one is fetched if the pong claims that
there is one. `none`: fetching it fails. -/
def newerEnr (enr : Enr) (pong : Pong) (nodes : Option (List Enr)) : Option Enr :=
  if enr.seq < pong.enrSeq then fetchEnr enr nodes else some enr

/-- Whether the check is skipped (network.rs:243-249). -/
def State.isFresh (s : State) (id : Id) (now : Nat) : Bool :=
  match s.deadline id with
  | some d => decide (now < d)
  | none => false

/-- `liveness_check` after the ping was answered with capabilities (network.rs:270-293). -/
def answered (s : State) (enr : Enr) (c : Check) (pong : Pong) (client radius : Nat) :
    State × LivenessResult :=
  match newerEnr enr pong c.reply.nodes with
  | none => (s.recordFailure enr.id c.done, .fail)
  | some e => (s.recordSuccess e client radius c.done, .pass)

/-- `liveness_check` after the test of the schedule (network.rs:251-293). -/
def pinged (s : State) (enr : Enr) (c : Check) : State × LivenessResult :=
  match c.reply.pong with
  | none => (s.recordFailure enr.id c.done, .fail)
  | some pong =>
    match pong.capabilities with
    | none => (s, .fail)
    | some (client, radius) => answered s enr c pong client radius

/-- `liveness_check` (network.rs:241-294), and the exchange with the peer, if there is one. -/
def livenessCheck (s : State) (enr : Enr) (c : Check) : State × LivenessResult × List Exchange :=
  if s.isFresh enr.id c.start then (s, .fresh, [])
  else ((pinged s enr c).1, (pinged s enr c).2, [⟨enr, c⟩])

/-- Checks of several records one after the other (network.rs:193-206, 501-503). -/
def checkAll (s : State) (probe : Enr → Check) : List Enr → State × List Exchange
  | [] => (s, [])
  | e :: es =>
    let r := livenessCheck s e (probe e)
    let t := checkAll r.1 probe es
    (t.1, r.2.2 ++ t.2)

/-- Adding a record to the groups of `into_grouping_map_by(node_id).max_by_key(seq)`
(network.rs:184-188): of equal sequence numbers the later record stays. -/
def groupAdd (groups : List Enr) (enr : Enr) : List Enr :=
  match groups.find? (fun g => g.id == enr.id) with
  | none => groups ++ [enr]
  | some g =>
    if enr.seq < g.seq then groups
    else groups.filter (fun g => !(g.id == enr.id)) ++ [enr]

/-- The records that a round of `init` checks (network.rs:171-189): what the lookups found (those
that failed found nothing), with one record per node. -/
def newest (found : List (Option (List Enr))) : List Enr :=
  ((found.filterMap id).flatten).foldl groupAdd []

/-- What happens in a round of `init`: what the lookups find and how the peers answer. -/
structure Round where
  found : List (Option (List Enr))
  probe : Enr → Check

/-- One round of the loop of `init` (network.rs:155-206). -/
def initRound (s : State) (r : Round) : State × List Exchange :=
  checkAll s r.probe (newest r.found)

/-- The test that ends the loop of `init` (network.rs:192, 207-218). The code computes with `f64`:
`new_peers < ending_peers * 0.1`. For numbers of peers below 2⁴⁸ this is the comparison below: the
product of a multiple of ten with the `f64` nearest to 0.1 rounds to exactly a tenth, and otherwise
the two sides are further apart than the rounding error. -/
def initStops (starting ending : Nat) : Bool :=
  decide (10 * ((ending : Int) - starting) < ending)

/-- Errors of the census (census/mod.rs:22-33). -/
inductive CensusError where
  | noPeers
  | noPeersFound
  | noSubnetwork
  | unsupported (subnetwork : Nat)
  | alreadyInitialized
deriving DecidableEq, Repr

/-- `Network::init` (network.rs:146-235) for the given rounds: the view, the exchanges and how it
ended (`none`: the loop is still running after these rounds). -/
def init (s : State) : List Round → State × List Exchange × Option (Except CensusError Unit)
  | [] => (s, [], none)
  | r :: rs =>
    let t := initRound s r
    if initStops s.entries.length t.1.entries.length then
      (t.1, t.2, some (if t.1.entries.isEmpty then .error .noPeersFound else .ok ()))
    else
      let u := init t.1 rs
      (u.1, t.2 ++ u.2.1, u.2.2)

/-- What can happen to a network: an action of its manager (network.rs:406-413), or the result of an
offer that the bridge reports. The lookups and answers of the outside world come with it. -/
inductive Action where
  | reinit (rounds : List Round)
  | discovery (found : Option (List Enr)) (probe : Enr → Check)
  | check (id : Id) (c : Check)
  | offer (id : Id) (trace : OfferTrace) (now : Nat)

/-- `peer_discovery` (network.rs:487-509). -/
def discover (s : State) (found : Option (List Enr)) (probe : Enr → Check) :
    State × List Exchange :=
  match found with
  | none => (s, [])
  | some enrs => checkAll s probe enrs

/-- The stream yielding the expired check of `id`, and the check (census/peers.rs:153-159,
network.rs:441-445, 476-483). `none`: the check of `id` has not expired when `c` starts. -/
def expire (s : State) (id : Id) (c : Check) : Option (State × List Exchange) :=
  match s.deadline id with
  | none => none
  | some d =>
    if d ≤ c.start then
      match s.get id with
      | none => some (s.unschedule id, [])
      | some e =>
        let r := livenessCheck (s.unschedule id) e.enr c
        some (r.1, r.2.2)
    else none

/-- One action (`next_action` and `execute_action`, network.rs:436-485, and `record_offer_result`,
network.rs:127-136). The stream of expired checks ends, and the manager starts over, exactly when
nothing is scheduled. `none`: the action cannot be next. -/
def step (s : State) : Action → Option (State × List Exchange)
  | .reinit rounds =>
    if s.checks.isEmpty then
      let r := init s rounds
      some (r.1, r.2.1)
    else none
  | .discovery found probe => some (discover s found probe)
  | .check id c => expire s id c
  | .offer id trace now => some (s.recordOffer id trace now, [])

/-- Several actions one after the other. -/
def run (s : State) : List Action → Option (State × List Exchange)
  | [] => some (s, [])
  | a :: as =>
    match step s a with
    | none => none
    | some r =>
      match run r.1 as with
      | none => none
      | some t => some (t.1, r.2 ++ t.2)

/-- The life of a network view: `init` with the given rounds, then actions if it succeeded
(network.rs:146-235, 436-485; census/mod.rs:150-189). -/
def life (rounds : List Round) (actions : List Action) : Option (State × List Exchange) :=
  let r := init State.new rounds
  match r.2.2 with
  | some (.ok ()) =>
    match run r.1 actions with
    | none => none
    | some t => some (t.1, r.2.1 ++ t.2)
  | _ => if actions.isEmpty then some (r.1, r.2.1) else none

/-- `Network::select_peers` (network.rs:112-124): the peers that the weighted choice draws from
(`candidates`, census/scoring.rs:155-159). -/
def State.candidates (s : State) (w : AdditiveWeight) (content : Option (Bool × Id)) (now : Nat) :
    Except CensusError (List Peer) :=
  if s.entries.isEmpty then .error .noPeers
  else .ok (Census.candidates w content (s.entries.map (·.peer)) now)

/-! ## The census of the three subnetworks (census/mod.rs) -/

/-- `Subnetwork` as far as the census cares (census/mod.rs:47-51, 80-85). -/
inductive Subnetwork where
  | beacon | legacyHistory | state
  | other (n : Nat)
deriving DecidableEq, Repr

/-- `Census` (census/mod.rs:39-44). -/
structure Nets where
  beacon : State
  legacyHistory : State
  state : State
  initialized : Bool
deriving DecidableEq, Repr

/-- `Census::new` (census/mod.rs:53-72). -/
def Nets.new : Nets := ⟨State.new, State.new, State.new, false⟩

/-- Which network a call goes to (census/mod.rs:80-85, 93-100, 111-119). -/
def Nets.net (c : Nets) : Subnetwork → Except CensusError State
  | .legacyHistory => .ok c.legacyHistory
  | .state => .ok c.state
  | .beacon => .ok c.beacon
  | .other n => .error (.unsupported n)

/-- `Census::select_peers` and `select_random_peers` (census/mod.rs:75-101). -/
def Nets.select (c : Nets) (n : Subnetwork) (w : AdditiveWeight) (content : Option (Bool × Id))
    (now : Nat) : Except CensusError (List Peer) :=
  match c.net n with
  | .error e => .error e
  | .ok s => s.candidates w content now

/-- `Census::record_offer_result` (census/mod.rs:103-121). -/
def Nets.recordOffer (c : Nets) (n : Subnetwork) (id : Id) (trace : OfferTrace) (now : Nat) : Nets :=
  match n with
  | .legacyHistory => { c with legacyHistory := c.legacyHistory.recordOffer id trace now }
  | .state => { c with state := c.state.recordOffer id trace now }
  | .beacon => { c with beacon := c.beacon.recordOffer id trace now }
  | .other _ => c

/-- `SUPPORTED_SUBNETWORKS.contains` (census/mod.rs:47-51, 143). -/
def Subnetwork.isSupported : Subnetwork → Bool
  | .other _ => false
  | _ => true

/-- The first subnetwork that is not supported (census/mod.rs:142-146; the code goes through a
`HashSet`, whose order is the order of the given list here). -/
def firstUnsupported : List Subnetwork → Option Nat
  | [] => none
  | .other n :: _ => some n
  | _ :: l => firstUnsupported l

/-- The rounds of `init` of the three networks. -/
structure Rounds where
  beacon : List Round
  legacyHistory : List Round
  state : List Round

/-- How `init` of one network ends, if it is wanted at all (census/mod.rs:150-167). -/
def initIf (wanted : Bool) (s : State) (rounds : List Round) :
    State × Option (Except CensusError Unit) :=
  if wanted then ((init s rounds).1, (init s rounds).2.2) else (s, some (.ok ()))

/-- The three networks one after the other (census/mod.rs:148-167). -/
def initNets (c : Nets) (subnetworks : List Subnetwork) (r : Rounds) :
    Nets × Option (Except CensusError Unit) :=
  let b := initIf (subnetworks.contains .beacon) c.beacon r.beacon
  let c := { c with beacon := b.1 }
  match b.2 with
  | some (.ok ()) =>
    let h := initIf (subnetworks.contains .legacyHistory) c.legacyHistory r.legacyHistory
    let c := { c with legacyHistory := h.1 }
    match h.2 with
    | some (.ok ()) =>
      let t := initIf (subnetworks.contains .state) c.state r.state
      ({ c with state := t.1 }, t.2)
    | x => (c, x)
  | x => (c, x)

/-- `Census::init` (census/mod.rs:127-193): `ok` when the background service has been started, `none`
while a network is still being explored. -/
def Nets.init (c : Nets) (subnetworks : List Subnetwork) (r : Rounds) :
    Nets × Option (Except CensusError Unit) :=
  if c.initialized then (c, some (.error .alreadyInitialized))
  else
    let c := { c with initialized := true }
    if subnetworks.isEmpty then (c, some (.error .noSubnetwork))
    else
      match firstUnsupported subnetworks with
      | some n => (c, some (.error (.unsupported n)))
      | none => initNets c subnetworks r

end Verif.CensusNet
