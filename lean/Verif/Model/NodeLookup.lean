import Verif.Model.Lookup
import Verif.Model.FindNodeDistances
import Verif.Model.NodeId

/-! # Node lookups of the overlay service

`crates/portalnet/src/overlay/service/find_nodes.rs` (everything but `handle_find_nodes`, which is in Model/KBucket), the
parts of `crates/portalnet/src/overlay/service/manager.rs` and `crates/portalnet/src/find/{query_pool,query_info}.rs` that
poll these lookups and start them for the routing table.

This is one lookup among others: what the rest of the node does in between shows up as arguments of the events. A request
that fails is not reported to the lookup (`process_request_failure`, manager.rs:594-613, does not mention lookups), so it is
not an event here. Logging and metrics are left out, and channels within the node stay open. -/

namespace Verif.NodeLookup
open Verif.Query
open Verif.Lookup (Enr)

/-- What is fixed during a lookup: the id of the node, the target, `findnodes_query_distances_per_peer`, and the
configuration of the lookup. -/
structure Ctx where
  self : Id
  target : Id
  distances : Nat
  cfg : Config

/-- A lookup in the pool: `untrusted_enrs`, the query, the time of its first poll (`started` of the query), and whether it
has left the pool. -/
structure State where
  untrusted : List Enr
  started : Option Nat
  q : Query
  closed : Bool

/-- What others see of a lookup. -/
inductive Out where
  /-- FIND_NODES with these distances is sent to this node -/
  | request (to : Enr) (distances : List Nat)
  /-- this peer is not asked, and counts as one that failed -/
  | skipped (peer : Id)
  /-- the end of the lookup -/
  | answer (enrs : List Enr)
deriving DecidableEq, Repr

/-- `init_find_nodes_query` (find_nodes.rs:197-251): `peers` is `closest_to_node_id` of the routing table. Its second test
for peers never fails. -/
def start (c : Ctx) (peers : List Enr) : List Enr ⊕ State :=
  if peers.isEmpty then .inl []
  else .inr ⟨peers, none, withConfig c.cfg c.target (peers.map Enr.id), false⟩

/-- `Vec::swap_remove`. -/
def swapRemove (l : List Enr) (i : Nat) : List Enr :=
  match l.getLast? with
  | none => l
  | some last => (l.set i last).dropLast

/-- The ENRs for the result (find_nodes.rs:127-148); the lookup has left the pool, `known` is what `find_enr` finds. -/
def resultEnrs (known : Id → Option Enr) : List Enr → List Id → List Enr
  | _, [] => []
  | untrusted, id :: ids =>
    match untrusted.findIdx? (fun e => e.id == id) with
    | some i =>
      match untrusted[i]? with
      | some e => e :: resultEnrs known (swapRemove untrusted i) ids
      | none => resultEnrs known untrusted ids
    | none =>
      match known id with
      | some e => e :: resultEnrs known untrusted ids
      | none => resultEnrs known untrusted ids

/-- `find_enr` while the lookup is in the pool (manager.rs:812-846): `known` is what discv5, the routing table and other
lookups know. -/
def findEnr (s : State) (known : Id → Option Enr) (id : Id) : Option Enr :=
  match known id with
  | some e => some e
  | none => s.untrusted.find? fun e => e.id == id

/-- The pool polls this lookup and the service handles the result (query_pool.rs:118-188, manager.rs:385-432,
find_nodes.rs:95-169, query_info.rs:64-81). `none` is an abort. -/
def poll (c : Ctx) (s : State) (now : Nat) (known : Id → Option Enr) : Option (State × List Out) :=
  let began := s.started.getD now
  match Query.poll s.q now with
  | none => none
  | some (_, .validating _) => none
  | some (q, .finished) =>
    some (⟨s.untrusted, some began, q, true⟩, [.answer (resultEnrs known s.untrusted (intoResult q))])
  | some (q, .waiting (some p)) =>
    match findnodeLog2Distance c.target p c.distances with
    | .panic => none
    | .selfTarget => (onFailure q p).map fun q => (⟨s.untrusted, some began, q, false⟩, [.skipped p])
    | .ok distances =>
      match findEnr s known p with
      | some e => some (⟨s.untrusted, some began, q, false⟩, [.request e distances])
      | none => (onFailure q p).map fun q => (⟨s.untrusted, some began, q, false⟩, [.skipped p])
  | some (q, _) =>
    if c.cfg.overallTimeout ≤ now - began then
      some (⟨s.untrusted, some began, q, true⟩, [.answer (resultEnrs known s.untrusted (intoResult q))])
    else some (⟨s.untrusted, some began, q, false⟩, [])

/-- Records that are new to the lookup are kept (find_nodes.rs:181-189): those of the node itself always are. -/
def keep (self : Id) (untrusted : List Enr) (e : Enr) : List Enr :=
  if untrusted.any (fun u => u.id == e.id && u.id != self) then untrusted else untrusted ++ [e]

/-- `process_nodes` for this lookup (find_nodes.rs:77-92, 171-195); discovered nodes also go to the routing table, which is
Model/Routing. -/
def onNodes (c : Ctx) (s : State) (source : Enr) (enrs : List Enr) : Option State :=
  (onSuccess s.q source.id (enrs.map Enr.id)).map fun q => { s with untrusted := enrs.foldl (keep c.self) s.untrusted, q }

/-- What happens during a lookup: a poll, and an answer of a peer that was asked on behalf of it. -/
inductive Ev where
  | poll (now : Nat) (known : Id → Option Enr)
  | nodes (source : Enr) (enrs : List Enr)

/-- One event (manager.rs:251-318). A lookup that has left the pool is neither polled nor found. -/
def step (c : Ctx) (s : State) : Ev → Option (State × List Out)
  | .poll now known => if s.closed then some (s, []) else poll c s now known
  | .nodes source enrs => if s.closed then some (s, []) else (onNodes c s source enrs).map fun s => (s, [])

/-- A history, each event with what is seen of it. -/
def run (c : Ctx) (s : State) : List Ev → Option (State × List (Ev × List Out))
  | [] => some (s, [])
  | e :: es =>
    match step c s e with
    | none => none
    | some (s, o) => (run c s es).map fun r => (r.1, (e, o) :: r.2)

/-! ## The lookups for the routing table -/

/-- `EXPECTED_NON_EMPTY_BUCKETS` (manager.rs:76). -/
def expectedBuckets : Nat := 17

/-- The draws of the random source for one id (`random_32byte_array`). -/
structure Draw where
  pick : UInt8
  fill : Bytes

/-- The buckets of the lookups at the start (manager.rs:228): `255 - 17 .. 255`. -/
def initialBuckets : List Nat := List.range' (255 - expectedBuckets) (255 - (255 - expectedBuckets))

/-- The targets of the lookups at the start (manager.rs:222-233). An id is 32 bytes. -/
def initialTargets (self : Id) (draws : Nat → Draw) : List Bytes :=
  self.bytes :: initialBuckets.map fun bucket =>
    generateRandomNodeId (UInt8.ofNat bucket) self (draws bucket).pick (draws bucket).fill

/-- `bucket_refresh_lookup` (manager.rs:321-343): `bucket` is drawn from `256 - 17 .. 256`. `none` is the error of the
conversion to `u8`. -/
def refreshTarget (self : Id) (bucket : Nat) (d : Draw) : Option Bytes :=
  if bucket < 256 then some (generateRandomNodeId (UInt8.ofNat bucket) self d.pick d.fill) else none

/-- The buckets it draws from. -/
def refreshBuckets : List Nat := List.range' (256 - expectedBuckets) expectedBuckets

end Verif.NodeLookup
