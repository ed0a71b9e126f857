import Verif.Model.Distance
import Verif.Model.Wire
import Verif.Model.Sort

/-! # Peer selection from the routing table and the replies built from it

`crates/portalnet/src/types/kbucket.rs` over an abstract table. The table itself
(`discv5::kbucket::KBucketsTable`) is not in /repo: it is a list of entries in iteration order, its
bucket `d` holds the entries whose distance to the local node has log2 `d`. -/

namespace Verif.KBucket

/-- An entry of the routing table as the selection functions see it: the record of the node (its key
is the record's node id, kbucket.rs:105, 125, 147), its connection status and its data radius. -/
structure Entry (E : Type) where
  enr : E
  connected : Bool
  radius : Nat
deriving DecidableEq, Repr

variable {E : Type}

/-- `iter().sorted()` on the requested distances (kbucket.rs:212). -/
def sortDistances (ds : List UInt16) : List UInt16 := sortBy (fun a b => decide (a.toNat ≤ b.toNat)) ds

/-- `Itertools::dedup` (kbucket.rs:212): removes consecutive repetitions. -/
def dedup : List UInt16 → List UInt16
  | [] => []
  | [a] => [a]
  | a :: b :: l => if a = b then dedup (b :: l) else a :: dedup (b :: l)

/-- `KBucketsTable::nodes_by_distances(&[d], limit)` of discv5: the entries of bucket `d`
(1 ≤ d ≤ 256), at most `limit` of them. -/
def bucket (nodeId : E → Id) (localId : Id) (table : List (Entry E)) (d : Nat) (limit : Nat) :
    List (Entry E) :=
  (table.filter fun e => distLog2 (xorDistance localId (nodeId e.enr)) = some d).take limit

/-- The records offered for one requested distance, before the limit (kbucket.rs:216-235). -/
def atDistance (nodeId : E → Id) (localEnr : E) (table : List (Entry E)) (limit : Nat)
    (d : UInt16) : List E :=
  if d = 0 then [localEnr]
  else ((bucket nodeId (nodeId localEnr) table d.toNat limit).filter (·.connected)).map (·.enr)

/-- Pushing records with the early exit (kbucket.rs:217-221 and 235-239); the flag says that the
function returned. -/
def pushAll (limit : Nat) : List E → List E → List E × Bool
  | acc, [] => (acc, false)
  | acc, e :: es =>
    if limit ≤ (acc ++ [e]).length then (acc ++ [e], true) else pushAll limit (acc ++ [e]) es

/-- The outer loop (kbucket.rs:212-241). -/
def collect (limit : Nat) (items : UInt16 → List E) : List E → List UInt16 → List E
  | acc, [] => acc
  | acc, d :: ds =>
    match pushAll limit acc (items d) with
    | (acc', true) => acc'
    | (acc', false) => collect limit items acc' ds

/-- `SharedKBucketsTable::nodes_by_distances` (kbucket.rs:204-244). -/
def nodesByDistances (nodeId : E → Id) (localEnr : E) (table : List (Entry E))
    (ds : List UInt16) (limit : Nat) : List E :=
  collect limit (atDistance nodeId localEnr table limit) [] (dedup (sortDistances ds))

/-- `closest_to_content_id` / `closest_to_node_id` (kbucket.rs:260-292): the stable sort by distance
of the connected entries, cut at `limit`. -/
def closestTo (nodeId : E → Id) (table : List (Entry E)) (target : Id) (limit : Nat) : List E :=
  (((sortBy (fun a b : Entry E =>
    decide (xorDistance target (nodeId a.enr) ≤ xorDistance target (nodeId b.enr)))
      (table.filter (·.connected))).take limit).map (·.enr))

/-- `batch_interested_enrs` for one content id (kbucket.rs:303-325). -/
def interested (nodeId : E → Id) (table : List (Entry E)) (contentId : Id) : List E :=
  (table.filter fun e => e.connected && decide (xorDistance contentId (nodeId e.enr) ≤ e.radius)).map
    (·.enr)

/-- `Vec<SszEnr>::ssz_bytes_len`: an offset and the bytes of each record. -/
def sszLen (c : Wire.EnrCodec E) (es : List E) : Nat := (es.map fun e => 4 + (c.enc e).length).sum

/-- The loop of `pop_while_ssz_bytes_len_gt` (overlay/service/utils.rs:8-10), at most `n` rounds. -/
def popN (c : Wire.EnrCodec E) (max : Nat) : Nat → List E → List E
  | 0, es => es
  | n + 1, es => if sszLen c es > max then popN c max n es.dropLast else es

/-- `pop_while_ssz_bytes_len_gt` (overlay/service/utils.rs:4-11). As many rounds as there are
elements are enough: the loop stops on the empty vector, whose size is 0. -/
def popWhile (c : Wire.EnrCodec E) (max : Nat) (es : List E) : List E := popN c max es.length es

/-- portal_wire.rs:29-42. -/
abbrev maxTalkPayload : Nat := 1280 - 16 - 23 - 32 - 16 - 8 - 8 - 6
/-- portal_wire.rs:54-57. -/
abbrev maxNodesEnrs : Nat := maxTalkPayload - 1 - 1 - 4
/-- portal_wire.rs:66-68. -/
abbrev maxContentPayload : Nat := maxTalkPayload - 1 * 2 - 4
/-- manager.rs:68. -/
abbrev findNodesMaxNodes : Nat := 32
/-- manager.rs:71. -/
abbrev findContentMaxNodes : Nat := 32

/-- `handle_find_nodes` (find_nodes.rs:47-75): the records of the NODES reply (`total` is 1). -/
def handleFindNodes (c : Wire.EnrCodec E) (nodeId : E → Id) (localEnr : E) (table : List (Entry E))
    (source : Id) (ds : List UInt16) : List E :=
  popWhile c maxNodesEnrs
    ((nodesByDistances nodeId localEnr table ds findNodesMaxNodes).filter fun e =>
      decide (nodeId e ≠ source))

/-- The records of a CONTENT reply (find_content.rs:145-161). -/
def contentEnrs (c : Wire.EnrCodec E) (nodeId : E → Id) (table : List (Entry E)) (source : Id)
    (affectedByRadius : Bool) (contentId : Id) : List E :=
  popWhile c maxContentPayload
    ((if affectedByRadius then closestTo nodeId table contentId findContentMaxNodes else []).filter
      fun e => decide (nodeId e ≠ source))

/-- `OverlayRequestError`, the variants used here. -/
inductive ReqError where
  | invalidRequest
  | acceptError
  | failure
deriving DecidableEq, Repr

/-- What `handle_find_content` does: the reply, and for a large content the bytes that the spawned
task sends over uTP under that connection id. -/
structure FcOutcome (E : Type) where
  reply : Wire.Content E
  utp : Option Bytes
deriving DecidableEq, Repr

/-- `handle_find_content` (find_content.rs:70-167). `key` is the decoded content key: whether it is
affected by the radius and its content id (`none`: does not decode). `store` is the result of
`store.get`. `permit` says whether an outbound transfer slot was free. `asker` is the record found for
the source with the negotiated version outcome (`none` record: unknown; `none` version: no common
version; `some b`: framing in use). `cid` is the connection id generated by the uTP controller,
already in big endian. `frame` is `encode_content_payload` of the single item (`none`: error). -/
def handleFindContent (c : Wire.EnrCodec E) (nodeId : E → Id) (table : List (Entry E)) (source : Id)
    (key : Option (Bool × Id)) (store : Except Unit (Option Bytes)) (permit : Bool)
    (asker : Option (Option Bool)) (cid : UInt16) (frame : Bytes → Option Bytes) :
    Except ReqError (FcOutcome E) :=
  match key with
  | none => .error .invalidRequest
  | some (affected, contentId) =>
    match store, permit with
    | .ok (some content), true =>
      if content.length ≤ maxContentPayload then .ok ⟨.content content, none⟩
      else
        match asker with
        | none => .error .acceptError
        | some none => .error .acceptError
        | some (some true) =>
          match frame content with
          | none => .error .acceptError
          | some payload => .ok ⟨.connectionId cid, some payload⟩
        | some (some false) => .ok ⟨.connectionId cid, some content⟩
    | .ok (some _), false => .ok ⟨.enrs (contentEnrs c nodeId table source affected contentId), none⟩
    | .ok none, _ => .ok ⟨.enrs (contentEnrs c nodeId table source affected contentId), none⟩
    | .error _, _ => .error .failure

end Verif.KBucket
