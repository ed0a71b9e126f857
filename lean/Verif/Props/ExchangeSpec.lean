import Verif.Model.Exchange
import Verif.Props.OverlaySpec
import Verif.Props.GossipSpec

/-! # Specification of content on its way through nodes -/

namespace Verif.ExchangeSpec
open Verif.Wire Verif.Overlay Verif.Exchange
open Verif.Offer (StoreOps)
open Verif.Props (Answerable)

variable {St E K : Type} [DecidableEq K] [DecidableEq E]

/-- The store takes the items one after the other: each is wanted when its turn comes, is stored with nothing dropped for
it, and what can be read afterwards is what could be read before and, under its key, what the item shows as. -/
inductive Takes (ops : StoreOps St K) (get : St → K → Except Unit (Option Bytes)) (Shows : K → Bytes → Bytes → Prop) :
    St → List (K × Bytes) → Prop
  | nil (st) : Takes ops get Shows st []
  | cons (st st' : St) (k : K) (v w : Bytes) (rest : List (K × Bytes)) (wanted : ops.wants st k = some .store)
      (put : ops.put st k v = some (st', [])) (shows : Shows k v w) (there : get st' k = .ok (some w))
      (kept : ∀ k' w', get st k' = .ok (some w') → get st' k' = .ok (some w'))
      (more : Takes ops get Shows st' rest) : Takes ops get Shows st ((k, v) :: rest)

/-- Nothing is in the way of a transfer of `items`, whose keys are `ks`, from the node `caller`: there are between 1 and 64 of them, each of a
size that can be sent; both sides agree on the version; a slot is free; no key is being transferred; the node wants
each, has room for all and finds all valid. -/
structure Ready (c : EnrCodec E) (Shows : K → Bytes → Bytes → Prop) (b : Peer St E K) (s : PeerState St E K)
    (caller : Id) (v : Versions.Version) (items : List (Bytes × Bytes)) (ks : List K) : Prop where
  some : items ≠ []
  keys : items.map (fun x => b.server.decodeKey x.1) = ks.map Option.some
  distinct : ks.Nodup
  answerable : Answerable (b.now s caller).host (items.map (·.1)) v
  offer_size : (encode c (Message.offer (E := E) (items.map (·.1)))).length < 2 ^ 32
  value_size : ∀ x ∈ items, x.2.length < 2 ^ 32
  slot : b.server.inSlot = true
  idle : ∀ k ∈ ks, ∀ e ∈ s.queue, e.key ≠ k
  wanted : ∀ k ∈ ks, b.task.ops.wants s.store k = Option.some .store
  valid : ∀ x ∈ ks.zip (items.map (·.2)), b.task.valid x.1 x.2 = true
  room : Takes b.task.ops b.get Shows s.store (ks.zip (items.map (·.2)))

/-- The node `n` is among those to which the node `b` offers a single item with the key `k`: it is a connected peer whose
radius, as `b` knows it, covers the content, and there are at most eight of these or fewer than four closer ones; or, for
content to which the radius does not apply, it is one of at most eight connected peers. -/
def NextFor (b : Peer St E K) (k : K) (n : E) : Prop :=
  Props.GossipSpec.Fair b.choices ∧ Props.GossipSpec.DistinctPeers b.server.nodeId b.server.table ∧
  (b.slots = none ∨ ∃ m, b.slots = some m ∧ 8 ≤ m) ∧
  ((b.server.affected k = true ∧ n ∈ Props.GossipSpec.covering b.server.nodeId b.server.table (b.server.contentId k) ∧
      ((Props.GossipSpec.covering b.server.nodeId b.server.table (b.server.contentId k)).length ≤ 8 ∨
        ((Props.GossipSpec.covering b.server.nodeId b.server.table (b.server.contentId k)).filter fun p =>
          decide (xorDistance (b.server.contentId k) (b.server.nodeId p) <
            xorDistance (b.server.contentId k) (b.server.nodeId n))).length < 4)) ∨
   (b.server.affected k = false ∧ n ∈ Props.GossipSpec.online b.server.table ∧ (Props.GossipSpec.online b.server.table).length ≤ 8))

/-- A path for one item: every node is ready for it, encodes the key as the others do, and the next node is among those
it offers the item to. -/
inductive Path (c : EnrCodec E) (Shows : K → Bytes → Bytes → Prop) (k : K) (key value : Bytes) :
    List (Stop St E K) → Prop
  | last (t : Stop St E K) (ready : Ready c Shows t.peer t.state t.caller t.version [(key, value)] [k]) : Path c Shows k key value [t]
  | cons (t n : Stop St E K) (rest : List (Stop St E K))
      (ready : Ready c Shows t.peer t.state t.caller t.version [(key, value)] [k]) (same : t.peer.keyBytes k = key)
      (next : NextFor t.peer k n.enr) (more : Path c Shows k key value (n :: rest)) :
      Path c Shows k key value (t :: n :: rest)

end Verif.ExchangeSpec
