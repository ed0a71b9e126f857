import Verif.Model.Distance
import Verif.Model.AcceptCode

/-! # Bridge census: peers and their weights
(bin/portal-bridge/src/census/{peer,peers,scoring}.rs)

Times are natural numbers (milliseconds of the monotonic clock); `now` is an input. -/

namespace Verif.Census

/-- `OfferTrace` (crates/ethportal-api/src/types/portal_wire.rs). -/
inductive OfferTrace where
  | success (code : AcceptCode)
  | failed
deriving DecidableEq, Repr

/-- `LivenessCheck` (census/peer.rs:17-21). -/
structure LivenessCheck where
  success : Bool
  timestamp : Nat
deriving DecidableEq, Repr

/-- `OfferEvent` (census/peer.rs:23-31), without the two fields that are never read. -/
structure OfferEvent where
  trace : OfferTrace
  timestamp : Nat
deriving DecidableEq, Repr

/-- `Peer` (census/peer.rs:33-47). The ENR is its node id and sequence number. -/
structure Peer where
  nodeId : Id
  seq : Nat
  clientType : Nat
  radius : Nat
  livenessChecks : List LivenessCheck
  offerEvents : List OfferEvent
deriving DecidableEq, Repr

/-- `MAX_LIVENESS_CHECKS`, `MAX_OFFER_EVENTS` (census/peer.rs:51-53). -/
abbrev maxLivenessChecks : Nat := 10
abbrev maxOfferEvents : Nat := 255

/-- `Peer::new` (census/peer.rs:55-63); client type 0 stands for `Unknown(None)`. -/
def Peer.new (nodeId : Id) (seq : Nat) : Peer :=
  ⟨nodeId, seq, 0, 0, [], []⟩

/-- `is_interested_in_content` (census/peer.rs:78-89). -/
def Peer.isInterested (p : Peer) (affectedByRadius : Bool) (contentId : Id) : Bool :=
  if affectedByRadius then decide (xorDistance p.nodeId contentId ≤ p.radius) else true

/-- `is_obsolete` (census/peer.rs:92-99). -/
def Peer.isObsolete (p : Peer) : Bool :=
  if p.livenessChecks.length < maxLivenessChecks then false
  else p.livenessChecks.all (fun c => !c.success)

/-- `purge` (census/peer.rs:155-162). -/
def Peer.purge (p : Peer) : Peer :=
  { p with
    livenessChecks := if p.livenessChecks.length > maxLivenessChecks
      then p.livenessChecks.take maxLivenessChecks else p.livenessChecks
    offerEvents := if p.offerEvents.length > maxOfferEvents
      then p.offerEvents.take maxOfferEvents else p.offerEvents }

/-- `record_successful_liveness_check` (census/peer.rs:101-129). The `assert_eq!` on the node id holds
at its only call site, where the peer was looked up by that id. -/
def Peer.recordSuccess (p : Peer) (seq clientType radius now : Nat) : Peer :=
  { p with
    seq := if p.seq > seq then p.seq else seq
    clientType := clientType
    radius := radius
    livenessChecks := ⟨true, now⟩ :: p.livenessChecks : Peer }.purge

/-- `record_failed_liveness_check` (census/peer.rs:131-137). -/
def Peer.recordFailure (p : Peer) (now : Nat) : Peer :=
  { p with livenessChecks := ⟨false, now⟩ :: p.livenessChecks : Peer }.purge

/-- `record_offer_result` (census/peer.rs:139-152). -/
def Peer.recordOffer (p : Peer) (trace : OfferTrace) (now : Nat) : Peer :=
  { p with offerEvents := ⟨trace, now⟩ :: p.offerEvents : Peer }.purge

/-- `AdditiveWeight` (census/scoring.rs:45-53). -/
structure AdditiveWeight where
  timeframe : Nat
  startingWeight : Nat
  maximumWeight : Nat
  successWeight : Int
  acceptCodeWeight : AcceptCode → Option Int
  failureWeight : Int

/-- `AdditiveWeight::default` (census/scoring.rs:55-84). -/
def AdditiveWeight.default : AdditiveWeight where
  timeframe := 15 * 60 * 1000
  startingWeight := 200
  maximumWeight := 400
  successWeight := 5
  acceptCodeWeight
    | .accepted => some 5
    | .alreadyStored => some 0
    | .rateLimited => some (-2)
    | .inboundTransferInProgress => some (-2)
    | .declined => some (-5)
    | .unspecified => some (-5)
    | .notWithinRadius => some (-10)
  failureWeight := -10

def livenessWeight (w : AdditiveWeight) (c : LivenessCheck) : Int :=
  if c.success then w.successWeight else w.failureWeight

def offerWeight (w : AdditiveWeight) (e : OfferEvent) : Int :=
  match e.trace with
  | .success code => (w.acceptCodeWeight code).getD w.failureWeight
  | .failed => w.failureWeight

/-- Value before the clamp (census/scoring.rs:98-124). `i32` arithmetic is unbounded here; the
theorem `C45_weight_no_overflow` shows that the default parameters stay far inside `i32`. -/
def rawWeight (w : AdditiveWeight) (p : Peer) (now : Nat) : Int :=
  let live := (p.livenessChecks.filter (fun c => now - c.timestamp ≤ w.timeframe)).map
    (livenessWeight w)
  let offers := (p.offerEvents.filter (fun e => now - e.timestamp ≤ w.timeframe)).map
    (offerWeight w)
  (w.startingWeight : Int) + live.sum + offers.sum

/-- The test at the start of `weight` (census/scoring.rs:92-96): the content key's `affected_by_radius`
and content id, or no content key. -/
def wants (p : Peer) : Option (Bool × Id) → Bool
  | some (affected, contentId) => p.isInterested affected contentId
  | none => true

/-- `weight` (census/scoring.rs:87-126). `content = none` is the call without a content key. -/
def weight (w : AdditiveWeight) (content : Option (Bool × Id)) (p : Peer) (now : Nat) : Nat :=
  if !wants p content then 0
  else (max 0 (min (rawWeight w p now) w.maximumWeight)).toNat

/-- What `choose_multiple_weighted(limit)` of the `rand` crate promises: a duplicate-free choice of
`min limit n` positions of the slice. -/
def IsChoice {α} (limit : Nat) (l chosen : List α) : Prop :=
  ∃ idx : List Nat, idx.Nodup ∧ (∀ i ∈ idx, i < l.length) ∧ idx.length = min limit l.length ∧
    chosen = idx.filterMap (fun i => l[i]?)

/-- The candidates of `select_peers` (census/scoring.rs:155-159). -/
def candidates (w : AdditiveWeight) (content : Option (Bool × Id)) (peers : List Peer) (now : Nat) :
    List Peer :=
  peers.filter (fun p => weight w content p now > 0)

/-- `Peers` (census/peers.rs:33-48): the peers, and the set of node ids with a pending liveness check
(`HashSetDelay`, without the deadlines). -/
structure Peers where
  peers : Id → Option Peer
  scheduled : Id → Bool

/-- `Peers::new` (census/peers.rs:51-59). -/
def Peers.new : Peers := ⟨fun _ => none, fun _ => false⟩

def update {α} (f : Id → α) (k : Id) (v : α) : Id → α := fun x => if x = k then v else f x

/-- The operations on `Peers` (census/peers.rs:73-123, 143-168). `pollExpired id` is the stream
yielding because the check of `id` has expired. -/
inductive Op where
  | success (nodeId : Id) (seq clientType radius now : Nat)
  | failure (nodeId : Id) (now : Nat)
  | offer (nodeId : Id) (trace : OfferTrace) (now : Nat)
  | pollExpired (nodeId : Id)

def Peers.step (s : Peers) : Op → Peers
  | .success id seq client radius now =>
    let p := ((s.peers id).getD (Peer.new id seq)).recordSuccess seq client radius now
    ⟨update s.peers id (some p), update s.scheduled id true⟩
  | .failure id now =>
    match s.peers id with
    | none => ⟨s.peers, update s.scheduled id false⟩
    | some p =>
      let p := p.recordFailure now
      if p.isObsolete then ⟨update s.peers id none, update s.scheduled id false⟩
      else ⟨update s.peers id (some p), update s.scheduled id true⟩
  | .offer id trace now =>
    match s.peers id with
    | none => s
    | some p => ⟨update s.peers id (some (p.recordOffer trace now)), s.scheduled⟩
  | .pollExpired id => ⟨s.peers, update s.scheduled id false⟩

def Peers.run (s : Peers) (ops : List Op) : Peers := ops.foldl Peers.step s

end Verif.Census
