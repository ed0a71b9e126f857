import Verif.Model.Wire
import Verif.Model.Capacity
import Verif.Model.ChainHead

/-! # What a node reports about its messages and about the head of the chain

`crates/metrics/src/{overlay,labels,chain_head}.rs` and the places that report to them: `process_request`,
`process_incoming_request`, `handle_request` and the loop of `crates/portalnet/src/overlay/service/manager.rs`,
`validate_content` of `overlay/protocol.rs`, `overlay/service/offer.rs` and `overlay/service/find_content.rs`,
`crates/validation/src/chain_head/store.rs` and the loop of `crates/subnetworks/beacon/src/network.rs`. The counters of
streams are in Model/Streams. The registry is one for the process, and the overlays of a node share its metrics.

A counter is a natural number here: it is a `u64`, which no node lives long enough to exceed. -/

namespace Verif.Reports
open Verif.Wire (Request Response Content PingBody)
open Verif.Capacity (Subnetwork)
open Verif (Bytes)

/-! ## Messages and validations -/

/-- `Display for Subnetwork` (types/network.rs:61-74), the label `protocol` (overlay/protocol.rs:129-132). -/
def protocolText : Subnetwork → String
  | .history => "History"
  | .beacon => "Beacon"
  | .legacyHistory => "Legacy History"
  | .state => "State"
  | .canonicalIndices => "Canonical Indices"
  | .verkleState => "Verkle State"
  | .transactionGossip => "Transaction Gossip"
  | .utp => "uTP"

/-- `MessageDirectionLabel` (labels.rs:77-82). -/
inductive Direction where
  | sent | received
deriving DecidableEq, Repr

/-- `From<MessageDirectionLabel>` (labels.rs:5-12). -/
def Direction.text : Direction → String
  | .sent => "sent"
  | .received => "received"

/-- `MessageLabel` (labels.rs:86-95). -/
inductive Label where
  | ping | findNodes | findContent | offer | pong | nodes | content | accept
deriving DecidableEq, Repr

/-- `From<MessageLabel>` (labels.rs:14-27). -/
def Label.text : Label → String
  | .ping => "ping"
  | .findNodes => "find_nodes"
  | .findContent => "find_content"
  | .offer => "offer"
  | .pong => "pong"
  | .nodes => "nodes"
  | .content => "content"
  | .accept => "accept"

/-- `From<&Request> for MessageLabel` (labels.rs:49-63). -/
def labelOfRequest : Request → Label
  | .ping _ => .ping
  | .findNodes _ => .findNodes
  | .findContent _ => .findContent
  | .offer _ => .offer
  | .populatedOffer _ => .offer
  | .populatedOfferWithResult _ => .offer

/-- `From<&Response> for MessageLabel` (labels.rs:65-74). -/
def labelOfResponse {E} : Response E → Label
  | .pong _ => .pong
  | .nodes _ _ => .nodes
  | .content _ => .content
  | .accept _ _ => .accept

/-- The counters `trin_message_total` and `trin_validation_total` by their labels (overlay.rs:21-79), and for each overlay
the requests without an answer (`active_outgoing_requests`, manager.rs). -/
structure Node where
  messages : String → String → String → Nat
  validations : String → String → Nat
  active : Subnetwork → List (Nat × Request)

def Node.init : Node := ⟨fun _ _ _ => 0, fun _ _ => 0, fun _ => []⟩

/-- `increment_message_total` (overlay.rs:121-127). -/
def Node.count (n : Node) (net : Subnetwork) (d : Direction) (l : Label) : Node :=
  { n with messages := fun p d' l' =>
      if p = protocolText net ∧ d' = d.text ∧ l' = l.text then n.messages p d' l' + 1 else n.messages p d' l' }

/-- `bool::to_string` (overlay.rs:191, 200). -/
def boolText : Bool → String
  | true => "true"
  | false => "false"

/-- `report_validation` (overlay.rs:199-206). -/
def Node.validation (n : Node) (net : Subnetwork) (ok : Bool) : Node :=
  { n with validations := fun p o =>
      if p = protocolText net ∧ o = boolText ok then n.validations p o + 1 else n.validations p o }

/-- `ValidationResult` (crates/validation/src/validator.rs:8-19). -/
inductive Verdict where
  | canonicallyValid | valid | invalid
deriving DecidableEq, Repr

/-- Where content is validated: content that was accepted (offer.rs:537-567), content found by a lookup
(find_content.rs:515-529), content that a caller asked a peer for (protocol.rs:532-539). -/
inductive Site where
  | accepted | lookup | request
deriving DecidableEq, Repr

/-- The argument of `report_validation` at the three places (offer.rs:550-552, find_content.rs:526-528, protocol.rs:539). -/
def Site.success : Site → Verdict → Bool
  | .accepted, v => v = .canonicallyValid
  | .lookup, v => v = .canonicallyValid ∨ v = .valid
  | .request, v => v = .canonicallyValid ∨ v = .valid

/-- What the handlers of the four requests answer; those of FINDCONTENT and OFFER may fail. -/
structure Handlers (E : Type) where
  pong : PingBody
  nodes : UInt8 × List E
  content : Option (Content E)
  accept : Option (UInt16 × Bytes)

/-- `handle_request` (manager.rs:500-527). -/
def handleRequest {E} (h : Handlers E) : Request → Option (Response E)
  | .ping _ => some (.pong h.pong)
  | .findNodes _ => some (.nodes h.nodes.1 h.nodes.2)
  | .findContent _ => h.content.map .content
  | .offer _ => h.accept.map fun a => .accept a.1 a.2
  | .populatedOffer _ => none
  | .populatedOfferWithResult _ => none

/-- What happens in the overlays of a node. -/
inductive Event (E : Type) where
  /-- a request goes out, under a number -/
  | send (net : Subnetwork) (id : Nat) (r : Request)
  /-- the task of a request comes back, with a response or (`none`) an error -/
  | answer (net : Subnetwork) (id : Nat) (a : Option (Response E))
  /-- a request comes in; `responder` says that the response can be returned -/
  | receive (net : Subnetwork) (r : Request) (responder : Bool) (h : Handlers E)
  | validate (net : Subnetwork) (site : Site) (v : Verdict)

/-- `active_outgoing_requests.insert` and `remove` on the map. -/
def Node.setActive (n : Node) (net : Subnetwork) (l : List (Nat × Request)) : Node :=
  { n with active := fun m => if m = net then l else n.active m }

/-- `process_request` (manager.rs:456-493), the branch of the loop for responses (manager.rs:272-293),
`process_incoming_request` (manager.rs:558-563) and the validations. -/
def Node.step {E} (n : Node) : Event E → Node
  | .send net id r =>
    (n.setActive net ((id, r) :: (n.active net).filter fun x => x.1 ≠ id)).count net .sent (labelOfRequest r)
  | .answer net id a =>
    if (n.active net).any (fun x => x.1 = id) then
      let n := n.setActive net ((n.active net).filter fun x => x.1 ≠ id)
      match a with
      | some resp => n.count net .received (labelOfResponse resp)
      | none => n
    else n
  | .receive net r responder h =>
    let n := match handleRequest h r, responder with
      | some resp, true => n.count net .sent (labelOfResponse resp)
      | _, _ => n
    n.count net .received (labelOfRequest r)
  | .validate net site v => n.validation net (site.success v)

def Node.run {E} (n : Node) (es : List (Event E)) : Node := es.foldl Node.step n

/-- `message_total_by_labels` (overlay.rs:92-103). -/
def Node.messageTotal (n : Node) (net : Subnetwork) (d : Direction) (l : Label) : Nat :=
  n.messages (protocolText net) d.text l.text

/-- `validation_total_by_outcome` (overlay.rs:190-197). -/
def Node.validationTotal (n : Node) (net : Subnetwork) (ok : Bool) : Nat :=
  n.validations (protocolText net) (boolText ok)

/-- `get_message_summary` (overlay.rs:260-275). -/
def Node.messageSummary (n : Node) (net : Subnetwork) : String :=
  let good := n.validationTotal net true
  let bad := n.validationTotal net false
  s!"offers={n.messageTotal net .received .accept}/{n.messageTotal net .sent .offer}, accepts={n.messageTotal net .sent .accept}/{n.messageTotal net .received .offer}, validations={good}/{good + bad}"

/-! ## The head of the chain -/

/-- `u64 as i64` (chain_head.rs:79, 98, 107). -/
def asI64 (n : Nat) : Int := (BitVec.ofNat 64 n).toInt

/-- One of the two heads in `ChainHeadMetrics` (chain_head.rs:10-17): the slot, the lag and the observations of the
histogram. A slot below 2^53 is exactly a double, so the observations are integers here. -/
structure Gauge where
  slot : Int
  lag : Int
  delays : List Int
deriving DecidableEq, Repr

def Gauge.init : Gauge := ⟨0, 0, []⟩

/-- One half of `on_slot` (chain_head.rs:78-90). -/
def Gauge.onSlot (g : Gauge) (current : Nat) : Gauge :=
  if g.slot > 0 then { g with lag := asI64 current - g.slot } else g

/-- `report_optimistic_slot_update` and `report_finalized_slot_update` (chain_head.rs:92-108). -/
def Gauge.report (g : Gauge) (slot : Nat) : Gauge :=
  let g := if g.slot > 0 then { g with delays := g.delays ++ [(slot : Int) - g.slot] } else g
  { g with slot := asI64 slot }

/-- `ChainHeadStore` with the metrics (chain_head/store.rs:13-18). -/
structure Head (σ : Type) where
  store : ChainHead.Store σ
  optimistic : Gauge
  finalized : Gauge

/-- `ChainHeadStore::new` (store.rs:21-32): nothing is reported. -/
def Head.new {σ} (s : ChainHead.Store σ) : Head σ := ⟨s, .init, .init⟩

/-- `update_latest_if_newer` (store.rs:34-40). -/
def Head.updateLatest {σ} (s : Head σ) (h : ChainHead.Header) : Head σ :=
  { s with store := s.store.updateLatest h,
           optimistic := if s.store.latest.slot < h.slot then s.optimistic.report h.slot else s.optimistic }

/-- `update_finalized_if_newer` (store.rs:42-48). -/
def Head.updateFinalized {σ} (s : Head σ) (h : ChainHead.Header) : Head σ :=
  { s with store := s.store.updateFinalized h,
           finalized := if s.store.finalized.slot < h.slot then s.finalized.report h.slot else s.finalized }

/-- A tick of the interval (beacon/network.rs:113-115), or an operation on the head. -/
inductive HeadOp (σ : Type) where
  | tick (currentSlot : Nat)
  | op (o : ChainHead.Op σ)

/-- The loop (beacon/network.rs:111-145) and `ChainHead` (chain_head/mod.rs:66-97). -/
def Head.step {σ} (s : Head σ) : HeadOp σ → Head σ
  | .tick c => { s with optimistic := s.optimistic.onSlot c, finalized := s.finalized.onSlot c }
  | .op (.update a f) => (s.updateLatest a).updateFinalized f
  | .op (.optimisticUpdate a) => s.updateLatest a
  | .op (.finalityUpdate a f) => (s.updateLatest a).updateFinalized f
  | .op (.summaries l) => { s with store := s.store.updateSummaries l }

def Head.run {σ} (s : Head σ) (ops : List (HeadOp σ)) : Head σ := ops.foldl Head.step s

end Verif.Reports
