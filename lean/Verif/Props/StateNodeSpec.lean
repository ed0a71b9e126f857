import Verif.Model.StateNode
import Verif.Props.StateStore
import Verif.Props.EthRpcSpec
import Verif.Props.HistoryNodeSpec
import Verif.Props.TrieWalkerSpec
import Verif.Model.Lookup

/-! # Specification: what a state node may store, answer and pass on -/

namespace Verif.Props.StateNodes
open Verif.StateContent Verif.StateNode

/-- Content that peers sent. -/
def received (es : List Ev) : List (ContentKey.State × Bytes) :=
  es.filterMap fun e =>
    match e with
    | .offered key content => some (key, content)
    | .fetched key content => some (key, content)
    | _ => none

/-- Content that the operator put in. -/
def operated (es : List Ev) : List (ContentKey.State × Bytes) :=
  es.filterMap fun e =>
    match e with
    | .operator key content _ => some (key, content)
    | .operatorKilled key content _ _ _ _ _ => some (key, content)
    | _ => none

/-- The keys that lookups were started for. -/
def wanted (es : List Ev) : List ContentKey.State :=
  es.filterMap fun e => match e with | .asked key => some key | _ => none

/-- All keys that occur. -/
def keys (es : List Ev) : List ContentKey.State :=
  (received es).map Prod.fst ++ (operated es).map Prod.fst ++ wanted es

/-- The keys were decoded from bytes (C06), and no two different ones have the same content id. -/
structure KeysFine (n : Node) (ks : List ContentKey.State) : Prop where
  valid : ∀ a ∈ ks, ValidStateKey a
  ids : ∀ a ∈ ks, ∀ b ∈ ks, n.db.idOf a.toBytes = n.db.idOf b.toBytes → a = b

/-- The content is a trie node or a code with the hash that is in the key, encoded as a value of that kind of key; `proof` says
whether there is a proof in it. -/
def Fits (n : Node) (key : ContentKey.State) (content : Bytes) (proof : Bool) (body : Bytes) : Prop :=
  ∃ v, Belongs key v ∧ v.encode = content ∧ hasProof v = proof ∧ subject v = some body ∧
    n.trie.K body = namedHash key

/-- A node that began with an empty database and went through these events. -/
def Lives (n : Node) (es : List Ev) (s : StateNode.State) : Prop :=
  ∃ cfg sps store, Store.create n.db cfg sps [] = .ok store ∧ run n (fresh (cfg, store)) es = .ok s

/-- What this node answered to a reader of the state (C59), at some time during these events. -/
def Answered (n : Node) (es : List Ev) (net : EvmState.Network) : Prop :=
  ∀ key bs, net key = some bs → ∃ pre post s, es = pre ++ post ∧ Lives n pre s ∧ (key, bs) ∈ s.found

/-- The eth endpoints (C60) of a process whose history network went through the events `hes` and whose state network went
through the events `es`: what they are answered is what the networks gave at some time. In the history network, the operator
put no header under a wrong hash, and what is answered was not put in by the operator. -/
structure Serves {Hd Tx Rc Wd : Type} (hist : HistoryNode.Node Hd Tx Rc Wd) (hes : List HistoryNode.Ev) (n : Node)
    (es : List Ev) (api : EthRpc.Api Hd Tx Rc Wd) : Prop where
  lib : api.lib = hist.lib
  net : api.net = hist.net
  trie : api.evm.trie = n.trie
  honest : HistoryNodes.HonestOperator hist hes
  history : ∀ key bs, api.history key = some bs → (key, bs) ∉ HistoryNodes.operated hes ∧
    HistoryNodes.NoIdCollision hist (key :: HistoryNodes.keys hes) ∧
    ∃ pre post s, hes = pre ++ post ∧ HistoryNodes.Lives hist pre s ∧ HistoryNodes.Gives hist s key bs
  state : ∀ net, api.state = some net → Answered n es net ∧ ∀ key bs, net key = some bs → KeysFine n (key :: keys es)

/-- Peers offer these items one after the other, and the tasks store them; `start` is the number of items that tasks have
already. -/
def feed : Nat → List (ContentKey.State × Bytes × List Store.Speed) → List Ev
  | _, [] => []
  | start, (key, bs, sps) :: items => .offered key bs :: .keep start sps :: feed (start + 1) items

/-- What the items take in the database at most: id, key, content, and what is counted for every entry. -/
def weight (cfg : Store.Config) (items : List (ContentKey.State × Bytes × List Store.Speed)) : Nat :=
  (items.map fun x => 32 + x.1.toBytes.length + x.2.1.length + cfg.extra).sum

/-- The node has room for the items, they are within its radius, it has none of them, and they have different ids. -/
structure Room (n : Node) (s : StateNode.State) (items : List (ContentKey.State × Bytes × List Store.Speed)) : Prop where
  capacity : s.store.2.usage s.store.1 + weight s.store.1 items ≤ s.store.1.capacity
  radius : ∀ x ∈ items, xorDistance s.store.1.node (n.db.idOf x.1.toBytes) ≤ s.store.2.radius
  fresh : ∀ x ∈ items, get n s x.1 = none
  ids : (items.map fun x => n.db.idOf x.1.toBytes).Nodup

/-- The items of a snapshot (C64), as they are offered. -/
def asFed (sps : TrieWalker.Item → List Store.Speed) (items : List TrieWalker.Item) :
    List (ContentKey.State × Bytes × List Store.Speed) :=
  items.map fun x => (x.1, x.2.encode, sps x)

/-- A node or a code in one of the items has the same hash as another node of the trie. -/
def ItemCollision (n : Node) (items : List TrieWalker.Item) (db : List Bytes) : Prop :=
  ∃ x ∈ items, ∃ m, Fits n x.1 x.2.encode true m ∧ ∃ b ∈ db, m ≠ b ∧ n.trie.K m = n.trie.K b

/-- What a lookup (C82) for the key saw was at some time in the store of this node, or was validated as the node does. -/
def SawNode (n : Node) (es : List Ev) (key : ContentKey.State) (see : Lookup.Seen) : Prop :=
  (∀ v, see.stored = some v → ∃ pre post s, es = pre ++ post ∧ Lives n pre s ∧ get n s key = some v) ∧
  ∀ v, see.verdict v ≠ .invalid → ∃ pre post s, es = pre ++ post ∧ Lives n pre s ∧ (key, v) ∈ s.found

end Verif.Props.StateNodes
