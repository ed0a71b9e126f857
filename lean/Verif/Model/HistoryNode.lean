import Verif.Model.HistoryValidator
import Verif.Model.Store
import Verif.Model.Offer

/-! # A node of the legacy history network, as a whole

What is stored comes from three places, and from no other (`rg '\.put\('`): the tasks that take content from peers
(crates/portalnet/src/overlay/service/offer.rs:574-626, find_content.rs:549-594), and the JSON-RPC methods `Store` and
`PutContent` of the operator (crates/portalnet/src/overlay/protocol.rs:225-257, crates/subnetworks/legacy-history/src/
jsonrpc.rs:199-216). Before content from a peer is stored, passed on or returned, the validator must accept it
(Model/HistoryValidator); for a body or receipts, the validator asks this same node for the header
(crates/validation/src/oracle.rs:67-86), which answers with what it has stored, or with what a lookup found, which was
validated too (C82). This file puts those parts together: the store is that of Model/Store, the validator that of
Model/HistoryValidator, and events happen in any order. The transfers and lookups themselves are in Model/Offer and
Model/Lookup. -/

namespace Verif.HistoryNode
open Verif.Ssz Verif.ContentKey Verif.HistoryValue Verif.HistoryValidator
open Verif.HeaderValidator (Net Summary Trusted)
open Verif.Offer (Decision)

variable {Hd Tx Rc Wd : Type}

/-- What is fixed: the parts of `HistoryValidator.Env` that do not change, and the database. -/
structure Node (Hd Tx Rc Wd : Type) where
  lib : Lib Hd Tx Rc Wd
  H : Id → Id → Id
  net : Net
  trusted : Trusted
  db : Store.Env

/-- The node: the store with its configuration, the historical summaries that the validator keeps
(historical_summaries_provider.rs:24-31), the headers that were answered to the validator (`answered`, by hash), and the
content that tasks have from peers and found valid (`held`). -/
structure State where
  store : Store.Config × Store.Store
  cache : List Summary
  answered : List (Id × Bytes)
  held : List (Legacy × Bytes)

/-- What one validation gets from outside: the answers of the beacon network for historical summaries, and which of the
answers to the question for a header is the one it was given. -/
structure Moment where
  source : Nat → Option (List Summary)
  header : Id → Option Bytes

inductive Ev where
  /-- content from a peer is validated: `validate_content` (offer.rs:537-572, find_content.rs:522-547) -/
  | arrived (key : Legacy) (content : Bytes) (m : Moment)
  /-- a task stores content it holds -/
  | keep (n : Nat) (sps : List Store.Speed)
  /-- the process is killed while a task stores content, and starts again -/
  | keepKilled (n : Nat) (sps : List Store.Speed) (turns : Option Nat) (tries : List (Store.Config × List Store.Speed))
      (cfg : Store.Config) (sps' : List Store.Speed)
  /-- the header for a hash is asked for and is in the store (find_content.rs:706-727 returns it at once) -/
  | headerStored (hash : Id)
  /-- the header for a hash is asked for, and a lookup found it -/
  | headerFound (n : Nat)
  /-- `Store` or `PutContent` of the operator: nothing is validated (protocol.rs:225-257, jsonrpc.rs:199-216) -/
  | operator (key : Legacy) (content : Bytes) (sps : List Store.Speed)
  | operatorKilled (key : Legacy) (content : Bytes) (sps : List Store.Speed) (turns : Option Nat)
      (tries : List (Store.Config × List Store.Speed)) (cfg : Store.Config) (sps' : List Store.Speed)
  | restart (tries : List (Store.Config × List Store.Speed)) (cfg : Store.Config) (sps : List Store.Speed)

/-! ## The store (crates/subnetworks/legacy-history/src/storage.rs) -/

/-- `LegacyHistoryStorage::get` (storage.rs:25-30). -/
def get (n : Node Hd Tx Rc Wd) (st : Store.Config × Store.Store) (key : Legacy) : Option Bytes :=
  Store.lookupValue st.2 (n.db.idOf key.toBytes)

/-- `should_we_store` (storage.rs:41-56). -/
def wants (n : Node Hd Tx Rc Wd) (st : Store.Config × Store.Store) (key : Legacy) : Option Decision :=
  let id := n.db.idOf key.toBytes
  if key.affectedByRadius ∧ st.2.radius < Store.distance st.1 id then some .notWithinRadius
  else if Store.hasContent st.2 id then some .alreadyStored
  else some .store

/-- `put` (storage.rs:32-39). -/
def put (n : Node Hd Tx Rc Wd) (sps : List Store.Speed) (st : Store.Config × Store.Store) (key : Legacy) (v : Bytes) :
    Option ((Store.Config × Store.Store) × List (Legacy × Bytes)) :=
  match Store.insert n.db st.1 sps st.2 key.toBytes v with
  | .ok (s, dropped) => some ((st.1, s), dropped.filterMap fun x => (Legacy.ofBytes x.1).map fun k => (k, x.2))
  | .error _ => none

/-- The store as the tasks for transfers use it (Model/Offer). -/
def storeOps (n : Node Hd Tx Rc Wd) (sps : List Store.Speed) : Offer.StoreOps (Store.Config × Store.Store) Legacy :=
  ⟨wants n, put n sps⟩

/-! ## The node -/

/-- What a validation knows. Its question for a header gets one of the answers that the node gave for this hash, or none. -/
def env (n : Node Hd Tx Rc Wd) (s : State) (m : Moment) : HistoryValidator.Env Hd Tx Rc Wd :=
  ⟨n.lib, n.H, n.net, n.trusted, m.source, fun hash => (m.header hash).filter fun b => (hash, b) ∈ s.answered⟩

/-- The process starts on what is on disk: nothing is held, nothing was answered, and there are no summaries. -/
def fresh (store : Store.Config × Store.Store) : State := ⟨store, [], [], []⟩

/-- One event. An error is one of the store, after which the process does not go on (C21: this does not happen). -/
def step (n : Node Hd Tx Rc Wd) (s : State) : Ev → Except Store.Err State
  | .arrived key content m =>
    let r := validateContent (env n s m) s.cache key content
    .ok { s with cache := r.2, held := if r.1 = .accept then s.held ++ [(key, content)] else s.held }
  | .keep i sps =>
    match s.held[i]? with
    | none => .ok s
    | some (key, content) =>
      (Store.step n.db s.store (.insert sps key.toBytes content)).map fun store => { s with store }
  | .keepKilled i sps turns tries cfg sps' =>
    match s.held[i]? with
    | none => .ok s
    | some (key, content) =>
      (Store.step n.db s.store (.kill sps key.toBytes content turns tries cfg sps')).map fresh
  | .headerStored k =>
    match get n s.store (.headerByHash k) with
    | none => .ok s
    | some content => .ok { s with answered := s.answered ++ [(k, content)] }
  | .headerFound i =>
    match s.held[i]? with
    | some (.headerByHash k, content) => .ok { s with answered := s.answered ++ [(k, content)] }
    | _ => .ok s
  | .operator key content sps =>
    (Store.step n.db s.store (.insert sps key.toBytes content)).map fun store => { s with store }
  | .operatorKilled key content sps turns tries cfg sps' =>
    (Store.step n.db s.store (.kill sps key.toBytes content turns tries cfg sps')).map fresh
  | .restart tries cfg sps => (Store.step n.db s.store (.restart tries cfg sps)).map fresh

def run (n : Node Hd Tx Rc Wd) : State → List Ev → Except Store.Err State
  | s, [] => .ok s
  | s, e :: es =>
    match step n s e with
    | .ok s => run n s es
    | .error e => .error e

end Verif.HistoryNode
