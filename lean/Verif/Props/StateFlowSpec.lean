import Verif.Props.StateNodeSpec
import Verif.Props.StateDiffSpec
import Verif.Model.StateDiff
import Verif.Props.StateBridgeSpec

/-! # Specification: the states of many blocks, in one node -/

namespace Verif.Props.StateFlow
open Verif.StateContent Verif.StateNode Verif.Props.StateNodes
open Verif.TrieWalker (Item Source Changes Apart)

/-- The state after a block. -/
structure At (env : Trie.Env) (empty : TrieWalker.Empty) where
  src : Source
  root : Id
  state : TrieWalker.State env empty src root

/-- The states of a first block and of any number of blocks after it, the last one first; and for each block after the first
what is gossiped for it (C66), in the order of the blocks. -/
inductive Course (env : Trie.Env) (empty : TrieWalker.Empty) (first : At env empty) :
    List (At env empty) → List (List Item) → Prop where
  | first : Course env empty first [first] []
  | block (old new : At env empty) (past : List (At env empty)) (before : List (List Item)) (diff : Source) (blockHash : Id)
      (fuel : Nat) (items : List Item) :
      Course env empty first (old :: past) before → Changes old.state new.state diff → Apart old.state new.state →
      TrieWalker.diffItems env empty diff blockHash fuel new.root = some items →
      Course env empty first (new :: old :: past) (before ++ [items])

/-- The key is one of the first state, or was gossiped for one of the blocks. -/
def Gossiped {env : Trie.Env} {empty : TrieWalker.Empty} (first : At env empty) (batches : List (List Item))
    (key : ContentKey.State) : Prop :=
  first.state.Content key ∨ ∃ items ∈ batches, key ∈ items.map (·.1)

/-- The node has the node or the code that belongs to the key. -/
def Has (n : Node) (s : StateNode.State) (key : ContentKey.State) : Prop :=
  ∃ bs m, Fits n key bs true m ∧ get n s key = some (retrieved key m)

/-- Something that the node has stored has the same hash as another node of the trie. -/
def HeldCollision (n : Node) (s : StateNode.State) (db : List Bytes) : Prop :=
  ∃ key bs m, Fits n key bs true m ∧ get n s key = some (retrieved key m) ∧ ∃ b ∈ db, m ≠ b ∧ n.trie.K m = n.trie.K b

/-- The bridges `1 … total` that share these batches have all come to their end. -/
def AllFinished {P : Type} (total : Nat) (limit : Nat → Nat) (batches : List (List Item))
    (s : Nat → StateBridge.State P) : Prop :=
  ∀ j < total, (s j).main = .finished ∧
    StateBridges.Reachable (limit j) (StateBridge.plan ⟨j + 1, total⟩ (batches.map fun items => ⟨items, true⟩)).1
      (StateBridge.plan ⟨j + 1, total⟩ (batches.map fun items => ⟨items, true⟩)).2 (s j)

/-- The endpoints answer for an address whose account in this state is `x`, for a block with this state: the balance; a code;
and every slot of the storage, if there is one. Or something that the node has stored has the hash of another node. -/
def AllAnswered {Hd Tx Rc Wd : Type} (n : Node) (s : StateNode.State) (api : EthRpc.Api Hd Tx Rc Wd) (net : EvmState.Network)
    (rounds : Nat) (empty : TrieWalker.Empty) (a : At api.evm.trie empty) (block : EthRpc.BlockId) (address : Bytes)
    (x : Option Trie.Account) : Prop :=
  HeldCollision n s a.state.nodes ∨
  EthRpc.getBalance api rounds address block = .ok ((x.map (·.balance)).getD 0) ∧
  (EvmState.Validated api.evm net →
    (∃ c, EthRpc.getCode api rounds address block = .ok c) ∨ EthRpc.NodeCollision api a.state.nodes) ∧
  ∀ y, x = some y → y.storageRoot ≠ empty.root → ∀ tS, Trie.Commits api.evm.trie
    (a.state.storageNodes (api.evm.trie.K address)) y.storageRoot tS → tS.NoEmptyKeys →
    ∀ slot z, EvmState.SlotIs api.evm tS slot z →
      EthRpc.getStorageAt api rounds address slot block = .ok z ∨
        HeldCollision n s (a.state.storageNodes (api.evm.trie.K address))

end Verif.Props.StateFlow
