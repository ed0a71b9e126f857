import Verif.Model.StateContent

/-! # Reading the EVM state of a block from the state network (crates/rpc/src/evm_state.rs) -/

namespace Verif.EvmState
open Verif.Trie Verif.StateContent
open Verif.ContentKey (State)

/-- What reading depends on: the trie functions, `Bytes::decode` (RLP) and `KECCAK_EMPTY`. -/
structure Env where
  trie : Trie.Env
  decodeBytes : Bytes → Option Bytes
  keccakEmpty : Id

/-- `EvmStateError` (evm_state.rs:34-50); `panic` is one of the two `expect`s of `traverse_trie` or the
out-of-range child of the traversal, `running` is not an error: the loop has not ended within the given number
of rounds. -/
inductive Err where
  | network
  | contentValue
  | valueType
  | trieNode
  | traversal (e : TraversalError)
  | trieValue
  | storageValue
  | unknownCode
  | panic
  | running
deriving DecidableEq, Repr

/-- `EvmBlockState` (evm_state.rs:67-72) without the header and the channel: the two hash maps. -/
structure Reader where
  cache : List (State × Value)
  owners : List (Id × Id)

/-- `EvmBlockState::new` (evm_state.rs:75-85). -/
def Reader.new : Reader := ⟨[], []⟩

/-- `HashMap::get`. -/
def find {κ α : Type} [DecidableEq κ] (l : List (κ × α)) (k : κ) : Option α :=
  (l.find? fun e => e.1 = k).map Prod.snd

/-- What the state network answers at the time of a request (`none`: an error). -/
abbrev Network := State → Option Bytes

/-- `fetch_content` (evm_state.rs:164-184). -/
def fetchContent (net : Network) (s : Reader) (key : State) : Except Err Value × Reader :=
  match find s.cache key with
  | some v => (.ok v, s)
  | none =>
    match net key with
    | none => (.error .network, s)
    | some bs =>
      match Value.decode key bs with
      | none => (.error .contentValue, s)
      | some v => (.ok v, { s with cache := (key, v) :: s.cache })

/-- `fetch_trie_node` (evm_state.rs:186-198). -/
def fetchNode (env : Env) (net : Network) (s : Reader) (key : State) : Except Err Node × Reader :=
  match fetchContent net s key with
  | (.error e, s) => (.error e, s)
  | (.ok (.trieNode n), s) =>
    match env.trie.decode n with
    | none => (.error .trieNode, s)
    | some n => (.ok n, s)
  | (.ok _, s) => (.error .valueType, s)

/-- `slice::strip_suffix`. -/
def stripSuffix (path rest : List UInt8) : Option (List UInt8) :=
  if rest <:+ path then some (path.take (path.length - rest.length)) else none

/-- The loop of `traverse_trie` (evm_state.rs:211-235). `key` is `content_key_fn`. -/
def walk (env : Env) (net : Network) (key : List UInt8 → Id → State) (path : List UInt8) :
    (rounds : Nat) → (node : Id) → (remaining : List UInt8) → Reader → Except Err (Option Bytes) × Reader
  | 0, _, _, s => (.error .running, s)
  | rounds + 1, node, remaining, s =>
    match (stripSuffix path remaining).bind Nibbles.tryFromUnpacked with
    | none => (.error .panic, s)
    | some pre =>
      match fetchNode env net s (key pre node) with
      | (.error e, s) => (.error e, s)
      | (.ok n, s) =>
        match n.traverse remaining with
        | .empty _ => (.ok none, s)
        | .value v => (.ok (some v), s)
        | .node h r => walk env net key path rounds h r s
        | .error e => (.error (.traversal e), s)
        | .panic => (.error .panic, s)

/-- `traverse_trie` (evm_state.rs:203-240). -/
def traverse {α : Type} (env : Env) (net : Network) (rounds : Nat) (key : List UInt8 → Id → State)
    (decode : Bytes → Option α) (root pathHash : Id) (s : Reader) : Except Err (Option α) × Reader :=
  match walk env net key (Nibbles.unpackAll pathHash.bytes) rounds root (Nibbles.unpackAll pathHash.bytes) s with
  | (.error e, s) => (.error e, s)
  | (.ok none, s) => (.ok none, s)
  | (.ok (some v), s) =>
    match decode v with
    | none => (.error .trieValue, s)
    | some a => (.ok (some a), s)

/-- `entry(..).or_insert(..)` for the owner of a code (evm_state.rs:107-113). -/
def Reader.addOwner (env : Env) (s : Reader) (a : Account) (addressHash : Id) : Reader :=
  if a.codeHash = env.keccakEmpty then s
  else
    match find s.owners a.codeHash with
    | some _ => s
    | none => { s with owners := (a.codeHash, addressHash) :: s.owners }

/-- `account_state` (evm_state.rs:93-116). -/
def accountState (env : Env) (net : Network) (rounds : Nat) (stateRoot addressHash : Id) (s : Reader) :
    Except Err (Option Account) × Reader :=
  match traverse env net rounds .accountTrieNode env.trie.decodeAccount stateRoot addressHash s with
  | (.ok (some a), s) => (.ok (some a), s.addOwner env a addressHash)
  | r => r

/-- `contract_storage_at_slot` (evm_state.rs:118-140). -/
def storageAtSlot (env : Env) (net : Network) (rounds : Nat) (storageRoot addressHash : Id) (slot : BitVec 256)
    (s : Reader) : Except Err (BitVec 256) × Reader :=
  match traverse env net rounds (.storageTrieNode addressHash) env.decodeBytes storageRoot
      (env.trie.K (Id.bytes slot)) s with
  | (.error e, s) => (.error e, s)
  | (.ok v, s) =>
    let v := v.getD []
    if 32 < v.length then (.error .storageValue, s) else (.ok (BitVec.ofNat 256 (fromBe v)), s)

/-- `contract_bytecode` (evm_state.rs:142-160). -/
def contractBytecode (net : Network) (addressHash codeHash : Id) (s : Reader) : Except Err Bytes × Reader :=
  match fetchContent net s (.bytecode addressHash codeHash) with
  | (.error e, s) => (.error e, s)
  | (.ok (.bytecode c), s) => (.ok c, s)
  | (.ok _, s) => (.error .valueType, s)

/-! ## `AsyncDatabase` (evm_state.rs:243-289) -/

/-- `basic_async` (246-256). -/
def basic (env : Env) (net : Network) (rounds : Nat) (stateRoot : Id) (address : Bytes) (s : Reader) :
    Except Err (Option Account) × Reader :=
  accountState env net rounds stateRoot (env.trie.K address) s

/-- `code_by_hash_async` (258-271). `Bytecode::new_raw` keeps the bytes. -/
def codeByHash (env : Env) (net : Network) (codeHash : Id) (s : Reader) : Except Err Bytes × Reader :=
  if codeHash = env.keccakEmpty then (.ok [], s)
  else
    match find s.owners codeHash with
    | none => (.error .unknownCode, s)
    | some addressHash => contractBytecode net addressHash codeHash s

/-- `storage_async` (273-282). -/
def storage (env : Env) (net : Network) (rounds : Nat) (stateRoot : Id) (address : Bytes) (slot : BitVec 256)
    (s : Reader) : Except Err (BitVec 256) × Reader :=
  match accountState env net rounds stateRoot (env.trie.K address) s with
  | (.error e, s) => (.error e, s)
  | (.ok none, s) => (.ok 0, s)
  | (.ok (some a), s) => storageAtSlot env net rounds a.storageRoot (env.trie.K address) slot s

/-- A request of the EVM. -/
inductive Request where
  | basic (address : Bytes)
  | code (codeHash : Id)
  | storage (address : Bytes) (slot : BitVec 256)

/-- The state after a request, answered or not. -/
def Request.after (env : Env) (rounds : Nat) (stateRoot : Id) (net : Network) (s : Reader) : Request → Reader
  | .basic a => (EvmState.basic env net rounds stateRoot a s).2
  | .code h => (codeByHash env net h s).2
  | .storage a i => (EvmState.storage env net rounds stateRoot a i s).2

/-- The state after any requests, the last one first, each with what the network answered at that time. -/
def run (env : Env) (rounds : Nat) (stateRoot : Id) : List (Network × Request) → Reader
  | [] => .new
  | (net, r) :: past => r.after env rounds stateRoot net (run env rounds stateRoot past)

end Verif.EvmState
