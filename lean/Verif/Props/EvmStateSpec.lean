import Verif.Model.EvmState
import Verif.Props.TrieSpec

/-! # Specification of reads of the EVM state, independent of the reader -/

namespace Verif.EvmState
open Verif.Trie Verif.StateContent

/-- Everything that the network hands out was accepted by the validator of the state network. -/
def Validated (env : Env) (net : Network) : Prop :=
  ∀ key bs, net key = some bs → ∃ r, validateContent env.trie key bs = some r ∧ r ≠ .invalid

/-- The trie nodes that a reader has fetched. -/
def Reader.nodes (s : Reader) : List Bytes :=
  s.cache.filterMap fun e => match e.2 with
    | .trieNode n => some n
    | _ => none

/-- The account of an address in a state, or that there is none. -/
def AccountIs (env : Env) (state : PTrie) (addressHash : Id) : Option Account → Prop
  | none => state.lookup (hexDigits addressHash) = none
  | some a => ∃ v, state.lookup (hexDigits addressHash) = some v ∧ env.trie.decodeAccount v = some a

/-- The number that a slot of a storage trie holds: big-endian, zero if nothing is stored. -/
def SlotIs (env : Env) (storage : PTrie) (slot x : BitVec 256) : Prop :=
  match storage.lookup (hexDigits (env.trie.K (Id.bytes slot))) with
  | none => x = 0
  | some v => ∃ w, env.decodeBytes v = some w ∧ w.length ≤ 32 ∧ x.toNat = fromBe w

/-- The network has every node of a trie, each under the key of its path and hash, without a proof. -/
def Serves (env : Env) (net : Network) (key : List UInt8 → Id → ContentKey.State) (db : List Bytes) (root : Id) :
    Prop :=
  ∀ path b, StoredAt env.trie db (.hash root) path b →
    b.length ≤ 1024 ∧ net (key path (env.trie.K b)) = some (Value.trieNode b).encode

/-- No node is nothing but the hash of another. -/
def NoBareHash (env : Env) : Prop := ∀ b h, env.trie.decode b ≠ some (.hash h)

/-- The network has the code of every account that has one, without a proof. -/
def ServesCode (env : Env) (net : Network) (state : PTrie) : Prop :=
  ∀ ah a, AccountIs env state ah (some a) → a.codeHash ≠ env.keccakEmpty →
    ∃ c : Bytes, c.length ≤ 32768 ∧ env.trie.K c = a.codeHash ∧
      net (.bytecode ah a.codeHash) = some (Value.bytecode c).encode

end Verif.EvmState
