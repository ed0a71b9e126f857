import Verif.Model.StateStore

/-! # A node of the state network, as a whole (crates/subnetworks/state/src)

As for the history network (Model/HistoryNode), content is stored by the tasks that take it from peers and by the JSON-RPC
methods `Store` and `PutContent` of the operator, and by nothing else. Two things are different. The validator has three
answers (crates/validation/src/validator.rs:8-19): content with a proof can be stored and passed on, content without a proof
can only be returned by a lookup. And the store takes content with a proof, and gives it without (Model/StateStore). Content
that a lookup returns is not offered to others, nor is content that had to leave the store: `DISABLE_POKE` and
`GOSSIP_DROPPED` (network.rs:39-44). Events happen in any order. The transfers and lookups themselves are in Model/Offer and
Model/Lookup. -/

namespace Verif.StateNode
open Verif.StateContent

/-- What is fixed: the hash and the decoding of trie nodes, and the database. -/
structure Node where
  trie : Trie.Env
  db : Store.Env

/-- The node: the store with its configuration; the content with a proof that tasks have from peers, which they store and
pass on (`held`); what lookups returned (`found`). -/
structure State where
  store : Store.Config × Store.Store
  held : List (ContentKey.State × Bytes)
  found : List (ContentKey.State × Bytes)

inductive Ev where
  /-- content of an accepted offer is validated (offer.rs:537-572; also 511-520 for content that is fetched instead) -/
  | offered (key : ContentKey.State) (content : Bytes)
  /-- content that a peer answered to a lookup is processed (`process_received_content`, find_content.rs:502-618) -/
  | fetched (key : ContentKey.State) (content : Bytes)
  /-- a lookup starts (find_content.rs:698-721) -/
  | asked (key : ContentKey.State)
  /-- a task stores content it holds. Whether it is wanted was looked up before, with another lock on the store
  (offer.rs:590-593, find_content.rs:555-568), so it can be there already, or the radius can be smaller. -/
  | keep (i : Nat) (sps : List Store.Speed)
  /-- the process is killed while a task stores content, and starts again -/
  | keepKilled (i : Nat) (sps : List Store.Speed) (turns : Option Nat) (tries : List (Store.Config × List Store.Speed))
      (cfg : Store.Config) (sps' : List Store.Speed)
  /-- `Store` or `PutContent` of the operator: the validator is not asked (protocol.rs:225-257, jsonrpc.rs:275-290) -/
  | operator (key : ContentKey.State) (content : Bytes) (sps : List Store.Speed)
  | operatorKilled (key : ContentKey.State) (content : Bytes) (sps : List Store.Speed) (turns : Option Nat)
      (tries : List (Store.Config × List Store.Speed)) (cfg : Store.Config) (sps' : List Store.Speed)
  | restart (tries : List (Store.Config × List Store.Speed)) (cfg : Store.Config) (sps : List Store.Speed)

/-- `StateStorage::get` (storage.rs:27-29) on the store of the node. -/
def get (n : Node) (s : State) (key : ContentKey.State) : Option Bytes := StateStore.get n.db s.store.2 key

/-- The process starts on what is on disk. -/
def fresh (store : Store.Config × Store.Store) : State := ⟨store, [], []⟩

/-- `validate_content` of a task for an offer (offer.rs:537-572): `is_canonically_valid`. -/
def onOffered (n : Node) (s : State) (key : ContentKey.State) (content : Bytes) : State :=
  match validateContent n.trie key content with
  | some .canonicallyValid => { s with held := s.held ++ [(key, content)] }
  | _ => s

/-- `process_received_content` (find_content.rs:502-618): what is stored comes first; then `is_valid` for the answer, and
`is_canonically_valid` for storing it. -/
def onFetched (n : Node) (s : State) (key : ContentKey.State) (content : Bytes) : State :=
  match get n s key with
  | some v => { s with found := s.found ++ [(key, v)] }
  | none =>
    match validateContent n.trie key content with
    | some .valid => { s with found := s.found ++ [(key, content)] }
    | some .canonicallyValid => { s with held := s.held ++ [(key, content)], found := s.found ++ [(key, content)] }
    | _ => s

/-- `init_find_content_query` (find_content.rs:698-721) on content that is stored; otherwise peers are asked, and `fetched`
happens later. -/
def onAsked (n : Node) (s : State) (key : ContentKey.State) : State :=
  match get n s key with
  | some v => { s with found := s.found ++ [(key, v)] }
  | none => s

/-- One event. An error is one of the store, after which the process does not go on (C21: this does not happen). -/
def step (n : Node) (s : State) : Ev → Except Store.Err State
  | .offered key content => .ok (onOffered n s key content)
  | .fetched key content => .ok (onFetched n s key content)
  | .asked key => .ok (onAsked n s key)
  | .keep i sps =>
    match s.held[i]? with
    | none => .ok s
    | some (key, content) =>
      (StateStore.step n.db n.trie.K s.store (.put sps key content)).map fun store => { s with store }
  | .keepKilled i sps turns tries cfg sps' =>
    match s.held[i]? with
    | none => .ok s
    | some (key, content) =>
      (StateStore.step n.db n.trie.K s.store (.kill sps key content turns tries cfg sps')).map fresh
  | .operator key content sps =>
    (StateStore.step n.db n.trie.K s.store (.put sps key content)).map fun store => { s with store }
  | .operatorKilled key content sps turns tries cfg sps' =>
    (StateStore.step n.db n.trie.K s.store (.kill sps key content turns tries cfg sps')).map fresh
  | .restart tries cfg sps => (StateStore.step n.db n.trie.K s.store (.restart tries cfg sps)).map fresh

def run (n : Node) : State → List Ev → Except Store.Err State
  | s, [] => .ok s
  | s, e :: es =>
    match step n s e with
    | .ok s => run n s es
    | .error e => .error e

end Verif.StateNode
