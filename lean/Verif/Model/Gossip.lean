import Verif.Model.KBucket

/-! # Choosing who is offered new content

`crates/portalnet/src/gossip/{mod,neighborhood,random}.rs` and
`crates/portalnet/src/put_content.rs` over the abstract routing table of `Model/KBucket.lean`.

A `HashMap` that is iterated over is a list of pairs with distinct keys, in the iteration order. The
random choices are functions given from outside (`Choices`). -/

namespace Verif.Gossip

open Verif.KBucket

variable {E : Type} [DecidableEq E]

/-- One item of the batch with the values computed from its key (gossip/mod.rs:35-42):
`content_id()`, `affected_by_radius()`, `to_bytes()`, and the value. -/
structure Item where
  id : Id
  affected : Bool
  key : Bytes
  value : Bytes
deriving DecidableEq, Repr

/-- The results of `choose_multiple(&mut rng(), n)`: `farther i n l` is the choice made for the `i`-th
item of the neighborhood part (neighborhood.rs:77-81), `peers n l` the one of `random_peers`
(kbucket.rs:247-257). -/
structure Choices (E : Type) where
  farther : Nat → Nat → List E → List E
  peers : Nat → List E → List E

/-- neighborhood.rs:51. -/
abbrev numClosest : Nat := 4
/-- neighborhood.rs:52. -/
abbrev numFarther : Nat := 4
/-- random.rs:8. -/
abbrev numPeers : Nat := 8
/-- `MAX_CONTENT_KEYS_PER_OFFER` (types/portal.rs). -/
abbrev maxKeysPerOffer : Nat := 64

/-- The list that `batch_interested_enrs(ids)` has for `id` (kbucket.rs:303-325): the loop over the
entries is outside, the loop over `ids` inside, so an id given twice collects every record twice.
`none`: the map has no such key. -/
def batchInterested (nodeId : E → Id) (table : List (Entry E)) (ids : List Id) (id : Id) :
    Option (List E) :=
  if id ∈ ids then
    some (table.flatMap fun e => (ids.filter fun i => decide (i = id) && e.connected &&
      decide (xorDistance i (nodeId e.enr) ≤ e.radius)).map fun _ => e.enr)
  else none

/-- `select_content_recipients` (neighborhood.rs:61-84). -/
def selectRecipients (nodeId : E → Id) (choose : Nat → List E → List E) (contentId : Id)
    (peers : List E) : List E :=
  if peers.length ≤ numClosest + numFarther then peers
  else
    let sorted := sortBy (fun a b : E =>
      decide (xorDistance contentId (nodeId a) ≤ xorDistance contentId (nodeId b))) peers
    sorted.take numClosest ++ choose numFarther (sorted.drop numClosest)

/-- `entry(enr).or_default()` followed by appending (neighborhood.rs:45, mod.rs:63-67). -/
def extendEntry (m : List (E × List Id)) (enr : E) (ids : List Id) : List (E × List Id) :=
  match m with
  | [] => [(enr, ids)]
  | (e, l) :: m => if e = enr then (e, l ++ ids) :: m else (e, l) :: extendEntry m enr ids

/-- The loop of the neighborhood strategy (neighborhood.rs:29-47). `taken` are the ids already removed
from the map, `i` counts the items. -/
def neighborhoodLoop (nodeId : E → Id) (table : List (Entry E)) (ch : Choices E) (ids : List Id) :
    Nat → List Id → List (E × List Id) → List Id → List (E × List Id)
  | _, _, m, [] => m
  | i, taken, m, id :: rest =>
    let interested := if id ∈ taken then [] else (batchInterested nodeId table ids id).getD []
    let m' := (selectRecipients nodeId (ch.farther i) id interested).foldl
      (fun m enr => extendEntry m enr [id]) m
    neighborhoodLoop nodeId table ch ids (i + 1) (id :: taken) (if interested = [] then m else m') rest

/-- `neighborhood::gossip_recipients` (neighborhood.rs:11-49). -/
def neighborhood (nodeId : E → Id) (table : List (Entry E)) (ch : Choices E) (ids : List Id) :
    List (E × List Id) :=
  if ids = [] then [] else neighborhoodLoop nodeId table ch ids 0 [] [] ids

/-- `random_peers` (kbucket.rs:247-257). -/
def randomPeers (table : List (Entry E)) (ch : Choices E) (limit : Nat) : List E :=
  ch.peers limit ((table.filter (·.connected)).map (·.enr))

/-- `random::gossip_recipients` (random.rs:10-27); the collection into a map merges equal records,
keeping the last list, and all the lists are equal. -/
def random (table : List (Entry E)) (ch : Choices E) (ids : List Id) : List (E × List Id) :=
  if ids = [] then [] else
    (randomPeers table ch numPeers).foldl
      (fun m peer => if m.any (fun x => decide (x.1 = peer)) then m else m ++ [(peer, ids)]) []

/-- `raw_content[content_id]` (mod.rs:70-73, 83): of equal ids the last one wins. `none` is the
panic of a missing key. -/
def rawContent (content : List Item) (id : Id) : Option (Bytes × Bytes) :=
  (content.reverse.find? fun it => decide (it.id = id)).map fun it => (it.key, it.value)

/-- mod.rs:50-67. -/
def peerIds (nodeId : E → Id) (table : List (Entry E)) (ch : Choices E) (content : List Item) :
    List (E × List Id) :=
  ((neighborhood nodeId table ch ((content.filter (·.affected)).map (·.id))) ++
    random table ch ((content.filter fun it => !it.affected).map (·.id))).foldl
      (fun m x => extendEntry m x.1 x.2) []

/-- `gossip_recipients` (mod.rs:30-90). `none` is a panic. -/
def gossipRecipients (nodeId : E → Id) (table : List (Entry E)) (ch : Choices E)
    (content : List Item) : Option (List (E × List (Bytes × Bytes))) :=
  (peerIds nodeId table ch content).mapM fun x =>
    ((x.2.take maxKeysPerOffer).mapM (rawContent content)).map fun items => (x.1, items)

/-- An OFFER handed to the service (put_content.rs:47-57). -/
structure Offer (E : Type) where
  peer : E
  items : List (Bytes × Bytes)
deriving DecidableEq, Repr

/-- The loop of `propagate_put_content_cross_thread` (put_content.rs:35-58). `slots` is `none` without
a controller, else the number of outbound slots that can be acquired; no other user of the slots
runs meanwhile, none is released meanwhile. -/
def sendOffers : Option Nat → List (E × List (Bytes × Bytes)) → List (Offer E)
  | _, [] => []
  | none, (e, items) :: rest => ⟨e, items⟩ :: sendOffers none rest
  | some 0, _ :: rest => sendOffers (some 0) rest
  | some (n + 1), (e, items) :: rest => ⟨e, items⟩ :: sendOffers (some n) rest

/-- `propagate_put_content_cross_thread` (put_content.rs:25-61): the offers made and the number
returned. -/
def propagate (nodeId : E → Id) (table : List (Entry E)) (ch : Choices E) (content : List Item)
    (slots : Option Nat) : Option (List (Offer E) × Nat) :=
  (gossipRecipients nodeId table ch content).map fun r => (sendOffers slots r, r.length)

end Verif.Gossip
