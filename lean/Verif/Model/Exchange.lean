import Verif.Model.Overlay
import Verif.Model.StateStore

/-! # Content on its way through nodes

One node offers content to another, which accepts it, reads it over uTP, validates it, stores it and offers it to its
own peers; a third node asks for it. The steps are those of Model/Overlay (requests and replies), Model/Offer (offers and
the task that receives content) and Model/Gossip (who is offered content); this file only joins the ends: what one side
sends is what the other receives, on connection ids that meet. A stream delivers what is written to it. -/

namespace Verif.Exchange
open Verif.Wire Verif.Overlay
open Verif.Offer (TaskEnv TaskState Decision)

variable {St E K : Type} [DecidableEq K] [DecidableEq E]

/-- A node: what it answers from (`server`; its `store`, `wants` and `queue` are those of the state, its `asker` is the
record it has of the node that asks), the records it has of other nodes (`find_enr`, manager.rs:812-847), the task that
receives content, the lookup in its store, the encoding of keys, and what it offers content with: the random choices and
the free outbound slots (put_content.rs:35-46). -/
structure Peer (St E K : Type) where
  server : Server E K
  known : Id → Option E
  task : TaskEnv St K E
  get : St → K → Except Unit (Option Bytes)
  keyBytes : K → Bytes
  choices : Gossip.Choices E
  slots : Option Nat

/-- The store, the keys that are being transferred (`accept_queue`), and the content that the last transfer handed on to
be offered to peers (offer.rs:244-252). -/
structure PeerState (St E K : Type) where
  store : St
  queue : List (AQ.Entry K E)
  passed : List (K × Bytes)

/-- The node as a request of `caller` finds it: one store and one accept queue for all (service/manager.rs:500-524; offer.rs:105-147). -/
def Peer.now (b : Peer St E K) (s : PeerState St E K) (caller : Id) : Server E K :=
  { b.server with
    store := b.get s.store, wants := b.task.ops.wants s.store, queue := s.queue, asker := b.known caller }

/-- The offering side: it sends the offer (protocol.rs:572-608, put_content.rs:47-57), reads the answer and, if something
was accepted, opens a stream and writes the payload (`process_accept`, offer.rs:265-392). -/
def written (c : EnrCodec E) (srv : Server E K) (caller : Id) (v : Versions.Version) (items : List (Bytes × Bytes)) :
    Option (ConnId × Bytes) :=
  match sendTalk c (fun body => .ok (serve c (reply c srv caller) body)) (.populatedOffer items) with
  | .ok (.accept id keys) =>
    match Offer.processAccept (K := K) (.ok v) (fun _ => none) (fun _ => none) id keys (.populated items) with
    | .transmit recv send payload _ => some (⟨recv, send⟩, payload)
    | _ => none
  | _ => none

/-- What arrives on the stream on which the other side waits: what was written, if the ids meet. -/
def arrives (cid : ConnId) : Option (ConnId × Bytes) → Option Bytes
  | some (cid', payload) => if meets cid cid' then some payload else none
  | none => none

/-- A node is offered content by the node `caller`, which found `v` to be the common version: `handle_offer`
(offer.rs:51-262) and the task it spawns (185-255). -/
def offerTo (c : EnrCodec E) (b : Peer St E K) (s : PeerState St E K) (caller : Id) (v : Versions.Version)
    (items : List (Bytes × Bytes)) : PeerState St E K :=
  let srv := b.now s caller
  let queue := (Offer.handleOffer srv.host s.queue (items.map (·.1))).1
  match work c srv caller (encode c (Request.populatedOffer items).toMessage) with
  | some (.read cid ks) =>
    let t := Offer.inboundTask b.task ⟨queue, s.store, [], []⟩ ks (arrives cid (written c srv caller v items))
    ⟨t.store, t.queue, t.propagated⟩
  | _ => ⟨s.store, queue, []⟩

/-- The offers a node makes of the content that was handed on (offer.rs:244-252, put_content.rs:25-61). `none` is a
panic. -/
def passOn (b : Peer St E K) (s : PeerState St E K) : Option (List (Gossip.Offer E)) :=
  (Gossip.propagate b.server.nodeId b.server.table b.choices
    (s.passed.map fun x => ⟨b.server.contentId x.1, b.server.affected x.1, b.keyBytes x.1, x.2⟩) b.slots).map (·.1)

/-- A node on a path: itself, its state, its record as the node before it has it, the id of the node before it, and the
version that node found for it. -/
structure Stop (St E K : Type) where
  peer : Peer St E K
  state : PeerState St E K
  enr : E
  caller : Id
  version : Versions.Version

/-- What the node offers to the one with the record `enr`: nothing, if it makes it no offer. -/
def offeredTo (b : Peer St E K) (s : PeerState St E K) (enr : E) : List (Bytes × Bytes) :=
  match passOn b s with
  | none => []
  | some offers => (offers.filter fun o => decide (o.peer = enr)).flatMap (·.items)

/-- Content on a path: the first node is offered `items`, every other node what the node before it offers it. The states
afterwards. -/
def along (c : EnrCodec E) : List (Bytes × Bytes) → List (Stop St E K) → List (PeerState St E K)
  | _, [] => []
  | items, t :: rest =>
    let s := offerTo c t.peer t.state t.caller t.version items
    s :: along c (match rest with | [] => [] | n :: _ => offeredTo t.peer s n.enr) rest

/-- A node asks the node for content (`send_find_content`, protocol.rs:456-530). -/
def fetch (c : EnrCodec E) (b : Peer St E K) (s : PeerState St E K) (caller : Id) (v : Versions.Version)
    (decodeKey : Bytes → Option K) (valid : K → Bytes → Bool) (key : Bytes) : Except ReqErr (Content E × Bool) :=
  (sendFindContent (.ok v) decodeKey valid
    (sendTalk c fun body => .ok (serve c (reply c (b.now s caller) caller) body))
    (connectRead (work c (b.now s caller) caller (encode c (Request.findContent key).toMessage))) key).result

/-- The state store as the task uses it (crates/subnetworks/state/src/storage.rs:31-69). -/
def stateOps (env : Store.Env) (hash : Bytes → Id) (sps : List Store.Speed) :
    Offer.StoreOps (Store.Config × Store.Store) ContentKey.State :=
  ⟨fun st k => some (match StateStore.shouldStore env st.1 st.2 k with
      | .store => .store
      | .notWithinRadius => .notWithinRadius
      | .alreadyStored => .alreadyStored),
   fun st k v => match StateStore.put env hash st.1 sps st.2 k v with
      | .ok (s, _) => some ((st.1, s), [])
      | .error _ => none⟩

end Verif.Exchange
