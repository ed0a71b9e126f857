import Verif.Props.TrieWalkerSpec
import Verif.Props.EvmDbSpec
import Verif.Model.StateDiff

/-! # Specification of the gossip of a block's changes -/

namespace Verif.TrieWalker
open Verif.Trie

variable {env : Env} {empty : Empty} {src₀ src₁ : Source} {root₀ root₁ : Id}

/-- The storage of this account of the state is empty. -/
def State.EmptyStorage (s : State env empty src₁ root₁) (address : Id) : Prop :=
  ∃ v a, s.trie.lookup (hexDigits address) = some v ∧ env.decodeAccount v = some a ∧ a.storageRoot = empty.root

/-- What changed from one state to the next is at hand: every node and code of the new state whose content key the old
state has not. More may be there, as long as it is part of the new state. -/
structure Changes (old : State env empty src₀ root₀) (new : State env empty src₁ root₁) (diff : Source) : Prop where
  trie : ∀ path b, StoredAt env new.nodes (.hash root₁) path b → ¬ old.Content (.accountTrieNode path (env.K b)) →
    diff.trie (env.K b) = some (some b)
  trieAnswers : Answers env diff.trie new.nodes
  code : ∀ address v a, new.trie.lookup (hexDigits address) = some v → env.decodeAccount v = some a →
    a.codeHash ≠ empty.code → ¬ old.Content (.bytecode address a.codeHash) → diff.code a.codeHash ≠ none
  codeGenuine : ∀ h c, diff.code h = some c → env.K c = h ∧ c.length ≤ 32768
  storage : ∀ address v a path b, new.trie.lookup (hexDigits address) = some v → env.decodeAccount v = some a →
    a.storageRoot ≠ empty.root → StoredAt env (new.storageNodes address) (.hash a.storageRoot) path b →
    ¬ old.Content (.storageTrieNode address path (env.K b)) → diff.storage address (env.K b) = some (some b)
  storageAnswers : ∀ address v a, new.trie.lookup (hexDigits address) = some v → env.decodeAccount v = some a →
    a.storageRoot ≠ empty.root → Answers env (diff.storage address) (new.storageNodes address)
  /-- for an empty storage trie, nothing or the empty node -/
  emptyStorage : ∀ address, new.EmptyStorage address → diff.storage address empty.root = some none ∨
    ∃ b, diff.storage address empty.root = some (some b) ∧ env.K b = empty.root ∧ env.decode b = some .empty ∧ b.length ≤ 1024

/-- No two different nodes of the same trie, one in the old and one in the new state, have the same hash. -/
def Apart (old : State env empty src₀ root₀) (new : State env empty src₁ root₁) : Prop :=
  ¬ ByteCollision env.K old.nodes new.nodes ∧
  ∀ address, ¬ ByteCollision env.K (old.storageNodes address) (new.storageNodes address)

end Verif.TrieWalker

namespace Verif.EvmDb

/-- The codes that a history commits. -/
def codesOf (ops : List Op) : List (Id × Bytes) :=
  ops.flatMap fun op => match op with
    | .bundle b => b.contracts
    | _ => []

/-- The caches are not cleared. -/
def KeepsCache (ops : List Op) : Prop := ∀ op ∈ ops, op ≠ .clearCache

end Verif.EvmDb
