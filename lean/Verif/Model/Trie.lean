import Verif.Model.Distance
import Verif.Model.Nibbles

/-! # Trie nodes and trie proofs (crates/ethportal-api/src/types/state_trie/{mod,trie_traversal}.rs,
crates/subnetworks/state/src/validation/{trie,error}.rs)

Node decoding (`eth_trie::decode_node`), account decoding (`AccountState::decode`) and keccak256 are
arbitrary functions `decode`, `decodeAccount`, `K`. -/

namespace Verif.Trie

/-- `eth_trie::node::Node`. The read-write locks around extension and branch nodes are left out: a
decoded node is not shared, so the lock is never poisoned. -/
inductive Node where
  | empty
  | leaf (key : List UInt8) (value : Bytes)
  | extension (pre : List UInt8) (node : Node)
  | branch (children : Fin 16 → Node) (value : Option Bytes)
  | hash (h : Id)

/-- `EmptyNodeInfo` (trie_traversal.rs:7-16). -/
inductive EmptyInfo where
  | emptyNode | emptyBranchValue | differentExtensionPrefix | differentLeafPrefix
deriving DecidableEq, Repr

/-- `TraversalError` (trie_traversal.rs:20-29). -/
inductive TraversalError where
  | emptyExtensionPrefix | emptyLeafKey | invalidLeafKey
deriving DecidableEq, Repr

/-- `TraversalResult` (trie_traversal.rs:42-51); `panic` is the out-of-range child of line 98. -/
inductive Traversal where
  | empty (info : EmptyInfo)
  | value (v : Bytes)
  | node (hash : Id) (remaining : List UInt8)
  | error (e : TraversalError)
  | panic
deriving DecidableEq, Repr

/-- `slice::strip_prefix`. -/
def stripPrefix : List UInt8 → List UInt8 → Option (List UInt8)
  | [], path => some path
  | _ :: _, [] => none
  | a :: p, b :: path => if a = b then stripPrefix p path else none

/-- `Node::traverse` (trie_traversal.rs:60-111). -/
def Node.traverse : Node → List UInt8 → Traversal
  | .empty, _ => .empty .emptyNode
  | .leaf key value, path =>
    match key.getLast? with
    | none => .error .invalidLeafKey
    | some last =>
      if last ≠ 16 then .error .invalidLeafKey
      else if key.dropLast = [] then .error .emptyLeafKey
      else if key.dropLast ≠ path then .empty .differentLeafPrefix
      else .value value
  | .extension pre node, path =>
    if pre = [] then .error .emptyExtensionPrefix
    else
      match stripPrefix pre path with
      | some remaining => node.traverse remaining
      | none => .empty .differentExtensionPrefix
  | .branch children value, path =>
    match path with
    | first :: remaining =>
      if h : first.toNat < 16 then (children ⟨first.toNat, h⟩).traverse remaining else .panic
    | [] =>
      match value with
      | some v => .value v
      | none => .empty .emptyBranchValue
  | .hash h, path => .node h path

/-- `AccountState` (account_state.rs:10-16). -/
structure Account where
  nonce : UInt64
  balance : BitVec 256
  storageRoot : Id
  codeHash : Id
deriving DecidableEq, Repr

/-- `StateValidationError` (validation/error.rs:11-42) and the panic. -/
inductive Err where
  | unexpectedEmptyNode (info : EmptyInfo)
  | unexpectedValue
  | pathTooLong
  | emptyTrieProof
  | leafNodeExpected
  | invalidNodeHash
  | invalidBytecodeHash
  | traversal (e : TraversalError)
  | invalidContentValueType
  | decodingNode
  | decodingAccountState
  | headerNotFound
  | panic
deriving DecidableEq, Repr

/-- What trie validation depends on. -/
structure Env where
  /-- `keccak256` -/
  K : Bytes → Id
  /-- `decode_node` (state_trie/mod.rs:26-28) -/
  decode : Bytes → Option Node
  /-- `AccountState::decode` (trie.rs:51) -/
  decodeAccount : Bytes → Option Account

variable (env : Env)

/-- `check_node_hash` (validation/error.rs:45-55). -/
def checkNodeHash (node : Bytes) (hash : Id) : Except Err Unit :=
  if env.K node = hash then .ok () else .error .invalidNodeHash

/-- `as_trie_node()?.traverse(..)` followed by `check_traversal_result_is_node` (trie.rs:80-81,
94-105). -/
def nextNode (node : Bytes) (path : List UInt8) : Except Err (Id × List UInt8) :=
  match env.decode node with
  | none => .error .decodingNode
  | some n =>
    match n.traverse path with
    | .empty i => .error (.unexpectedEmptyNode i)
    | .value _ => .error .unexpectedValue
    | .node h r => .ok (h, r)
    | .error e => .error (.traversal e)
    | .panic => .error .panic

/-- The loop of `validate_trie_proof` (trie.rs:75-91). -/
def follow (node : Bytes) (path : List UInt8) : List Bytes → Except Err (Bytes × List UInt8)
  | [] => .ok (node, path)
  | next :: rest =>
    match nextNode env node path with
    | .error e => .error e
    | .ok (h, r) =>
      match checkNodeHash env next h with
      | .error e => .error e
      | .ok () => follow next r rest

/-- `validate_trie_proof` (trie.rs:60-92). -/
def validateTrieProof (root : Option Id) (path : List UInt8) (proof : List Bytes) :
    Except Err (Bytes × List UInt8) :=
  match proof with
  | [] => .error .emptyTrieProof
  | first :: rest =>
    match root with
    | none => follow env first path rest
    | some r =>
      match checkNodeHash env first r with
      | .error e => .error e
      | .ok () => follow env first path rest

/-- `validate_node_trie_proof` (trie.rs:15-32). -/
def validateNodeTrieProof (root : Option Id) (nodeHash : Id) (path : List UInt8) (proof : List Bytes) :
    Except Err Unit :=
  match validateTrieProof env root path proof with
  | .error e => .error e
  | .ok (last, remaining) =>
    if remaining ≠ [] then .error .pathTooLong else checkNodeHash env last nodeHash

/-- `last_node.as_trie_node()?.traverse(..)` followed by `check_traversal_result_is_value`
(trie.rs:46-48, 107-118). -/
def valueAt (node : Bytes) (path : List UInt8) : Except Err Bytes :=
  match env.decode node with
  | none => .error .decodingNode
  | some n =>
    match n.traverse path with
    | .empty i => .error (.unexpectedEmptyNode i)
    | .value v => .ok v
    | .node _ _ => .error .leafNodeExpected
    | .error e => .error (.traversal e)
    | .panic => .error .panic

/-- `validate_account_state` (trie.rs:35-52). -/
def validateAccountState (root : Option Id) (addressHash : Id) (proof : List Bytes) :
    Except Err Account :=
  match validateTrieProof env root (Nibbles.unpackAll addressHash.bytes) proof with
  | .error e => .error e
  | .ok (last, remaining) =>
    match valueAt env last remaining with
    | .error e => .error e
    | .ok v =>
      match env.decodeAccount v with
      | none => .error .decodingAccountState
      | some a => .ok a

end Verif.Trie
