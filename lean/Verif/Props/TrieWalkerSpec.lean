import Verif.Props.TrieSpec
import Verif.Model.TrieWalker

/-! # Specification of trie walks -/

namespace Verif.Trie

def Nibble (p : List UInt8) : Prop := ∀ n ∈ p, n.toNat < 16

/-- All keys of the trie have exactly `d` nibbles, values are in leaves only, no extension is empty. -/
inductive PTrie.Keys : Nat → PTrie → Prop where
  | empty (d) : Keys d .empty
  | leaf (key v) : Nibble key → Keys key.length (.leaf key v)
  | extension (pre t d) : pre ≠ [] → Nibble pre → Keys d t → Keys (pre.length + d) (.extension pre t)
  | branch (ts d) : (∀ i, Keys d (ts i)) → Keys (d + 1) (.branch ts none)

/-- A node that is contained in its parent, and refers to no node by hash. A reference takes 33 bytes, a contained
node has less than 32. -/
inductive Inline : Node → Prop where
  | empty : Inline .empty
  | leaf (key v) : Inline (.leaf key v)
  | extension (pre n) : Inline n → Inline (.extension pre n)
  | branch (ns v) : (∀ i, Inline (ns i)) → Inline (.branch ns v)

/-- A child: contained, or referred to by hash. -/
inductive Child : Node → Prop where
  | hash (h) : Child (.hash h)
  | inline (n) : Inline n → Child n

/-- A node that is stored by itself. -/
inductive Stored : Node → Prop where
  | leaf (key v) : Stored (.leaf key v)
  | extension (pre n) : pre ≠ [] → Child n → Stored (.extension pre n)
  | branch (ns v) : (∀ i, Child (ns i)) → Stored (.branch ns v)

/-- The number that 64 nibbles stand for; shorter lists count as a prefix without padding. -/
def nibblesValue (p : List UInt8) : Nat := p.foldl (fun acc n => acc * 16 + n.toNat) 0

end Verif.Trie

namespace Verif.TrieWalker
open Verif.Trie

/-- Some full key that begins with the path lies in the slice. -/
def Filter.Meets (f : Filter) (path : List UInt8) : Prop :=
  ∃ key : List UInt8, key.length = 64 ∧ Nibble key ∧ path <+: key ∧ f.start ≤ nibblesValue key ∧ nibblesValue key ≤ f.stop

/-- The nodes of a trie with 64 nibble keys, as `EthTrie` stores them. -/
structure Genuine (env : Env) (nodes : List Bytes) (root : Id) (t : PTrie) : Prop where
  commits : Commits env nodes root t
  keys : t.Keys 64
  stored : ∀ b ∈ nodes, ∀ n, env.decode b = some n → Stored n

/-- The database is addressed by hash. -/
def Addressed (env : Env) (db : Db) : Prop := ∀ h b, db h = some (some b) → env.K b = h

/-- The nodes that the database has. -/
def available (env : Env) (db : Db) (nodes : List Bytes) : List Bytes :=
  nodes.filter fun b => db (env.K b) = some (some b)

/-- The database has all the nodes. -/
def Has (env : Env) (db : Db) (nodes : List Bytes) : Prop := ∀ b ∈ nodes, db (env.K b) = some (some b)

/-- The database has the node or says that it is missing, for all the nodes. -/
def Answers (env : Env) (db : Db) (nodes : List Bytes) : Prop :=
  ∀ b ∈ nodes, db (env.K b) = some (some b) ∨ db (env.K b) = some none

/-- What a filter admits. -/
def Admits (filter : Option Filter) (path : List UInt8) : Prop := ∀ f, filter = some f → f.Meets path

/-- No filter, or a slice of the key space. -/
inductive Slice : Option Filter → Prop where
  | none : Slice none
  | some (index count f) : Filter.new index count = some f → Slice (some f)

/-- The iteration ends, with this result: with every number of calls that is large enough. -/
def Yields (env : Env) (w : Walker) (out : List Proof) : Prop := ∃ n, ∀ m, n ≤ m → w.all env m = some out

/-- A stored account node has no leaf in it: an account takes more than 32 bytes, so its leaf is referred to by
hash. -/
inductive Sparse : Node → Prop where
  | leaf (key v) : Sparse (.leaf key v)
  | extension (pre h) : Sparse (.extension pre (.hash h))
  | branch (ns v) : (∀ i, ns i = .empty ∨ ∃ h, ns i = .hash h) → Sparse (.branch ns v)

/-- A state: the account trie, its accounts with code and storage, all served by the database. -/
structure State (env : Env) (empty : Empty) (src : Source) (root : Id) where
  nodes : List Bytes
  trie : PTrie
  genuine : Genuine env nodes root trie
  /-- leaves have keys (see disagreement on leaves at full depth) -/
  noEmptyKeys : trie.NoEmptyKeys
  sparse : ∀ b ∈ nodes, ∀ n, env.decode b = some n → Sparse n
  has : Has env src.trie nodes
  small : ∀ b ∈ nodes, b.length ≤ 1024
  accounts : ∀ path v, trie.lookup path = some v → env.decodeAccount v ≠ none
  code : ∀ path v a, trie.lookup path = some v → env.decodeAccount v = some a → a.codeHash ≠ empty.code →
    ∃ c, src.code a.codeHash = some c ∧ env.K c = a.codeHash ∧ c.length ≤ 32768
  storageNodes : Id → List Bytes
  storage : ∀ address v a, trie.lookup (hexDigits address) = some v → env.decodeAccount v = some a →
    a.storageRoot ≠ empty.root → (∃ t, Genuine env (storageNodes address) a.storageRoot t) ∧
      Has env (src.storage address) (storageNodes address) ∧ ∀ b ∈ storageNodes address, b.length ≤ 1024

/-- The keys of the content of a state: the nodes of the account trie, and the code and the storage nodes of every
account. -/
inductive State.Content {env : Env} {empty : Empty} {src : Source} {root : Id} (s : State env empty src root) :
    ContentKey.State → Prop where
  | account (path b) : StoredAt env s.nodes (.hash root) path b → s.Content (.accountTrieNode path (env.K b))
  | code (address v a) : s.trie.lookup (hexDigits address) = some v → env.decodeAccount v = some a →
      a.codeHash ≠ empty.code → s.Content (.bytecode address a.codeHash)
  | storage (address v a path b) : s.trie.lookup (hexDigits address) = some v → env.decodeAccount v = some a →
      a.storageRoot ≠ empty.root → StoredAt env (s.storageNodes address) (.hash a.storageRoot) path b →
      s.Content (.storageTrieNode address path (env.K b))

end Verif.TrieWalker
