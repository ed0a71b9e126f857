import Verif.Model.Gossip

/-! # Words used by the gossip properties -/

namespace Verif.Props.GossipSpec
open Verif.Gossip Verif.KBucket

variable {E : Type} [DecidableEq E]

/-- A random choice of at most `n` of the elements of `l`: some positions of `l`, none twice, as many
as asked for or all, in any order. -/
def Chosen (n : Nat) (l r : List E) : Prop :=
  r.length = min n l.length ∧ ∃ s, r.Perm s ∧ s.Sublist l

/-- What the random generator may do. -/
def Fair (ch : Choices E) : Prop :=
  (∀ i n l, Chosen n l (ch.farther i n l)) ∧ ∀ n l, Chosen n l (ch.peers n l)

/-- The routing table lists a node once. -/
def DistinctPeers (nodeId : E → Id) (table : List (Entry E)) : Prop :=
  (table.map fun e => nodeId e.enr).Nodup

/-- No item is given twice. -/
def DistinctItems (content : List Item) : Prop :=
  (content.map (·.id)).Nodup ∧ (content.map (·.key)).Nodup

/-- The connected peers whose advertised radius covers the content id. -/
def covering (nodeId : E → Id) (table : List (Entry E)) (id : Id) : List E :=
  (table.filter fun e => e.connected && decide (xorDistance id (nodeId e.enr) ≤ e.radius)).map (·.enr)

/-- The connected peers. -/
def online (table : List (Entry E)) : List E := (table.filter (·.connected)).map (·.enr)

/-- The peers that are offered the item. -/
def receivers (r : List (E × List (Bytes × Bytes))) (it : Item) : List E :=
  (r.filter fun x => decide ((it.key, it.value) ∈ x.2)).map (·.1)

end Verif.Props.GossipSpec
