import Verif.Model.BeaconStore
import Verif.Model.BeaconValidator
import Verif.Model.LightNode

/-! # A node of the beacon network, as a whole

`crates/subnetworks/beacon/src/network.rs` puts these parts together: the store (Model/BeaconStore), the validator
(Model/BeaconValidator), which asks the light client of this same node through the header oracle
(crates/validation/src/oracle.rs:88-103, crates/subnetworks/beacon/src/jsonrpc.rs:94-119, 415-427), and the light client
(Model/LightClient, Model/LightNode), which starts from the root that `get_trusted_block_root` chooses and from then on
hears messages. Events happen in any order. Transfers and lookups themselves are in Model/Offer and Model/Lookup, the
chain head in Model/ChainHead. -/

namespace Verif.BeaconNode
open Verif.BeaconValue Verif.BeaconValidator
open Verif.LightClient (Env Client Msg headerRoot)

/-- The codecs of the values in the store. An abort of a decoder, which values of fewer than four bytes cause (C54), is a
value that does not decode: the task ends before it changes anything. -/
def codec (H : Id → Id → Id) :
    BeaconStore.Codec (Versioned Update) (Versioned FinalityUpdate) (Versioned OptimisticUpdate) where
  decBoot bs := (decodeVersioned bootstrapCodec bs).toOption.map fun v =>
    (v.2.header.beacon.slot, (headerRoot H v.2.header.beacon).bytes)
  decUpdate bs := (decodeVersioned updateCodec bs).toOption
  encUpdate := encodeVersioned updateCodec
  decUpdates bs := (decodeUpdates bs).toOption.map (·.1)
  encUpdates l := Ssz.encodeVarList (l.map (encodeVersioned updateCodec))
  decFin bs := (decodeVersioned finalityCodec bs).toOption
  encFin := encodeVersioned finalityCodec
  electraSlot
    | ⟨.electra, u⟩ => some u.finalized.beacon.slot
    | _ => none
  decOpt bs := (decodeVersioned optimisticCodec bs).toOption
  encOpt := encodeVersioned optimisticCodec
  sigSlot v := v.2.signatureSlot
  decSum bs := (decodeSummaries bs).toOption.isSome

/-- The key as the store reads it. -/
def storeKey : ContentKey.Beacon → BeaconStore.Key
  | .bootstrap root => .bootstrap root.bytes
  | .updatesByRange start count => .updates start count
  | .finalityUpdate slot => .finality slot
  | .optimisticUpdate slot => .optimistic slot
  | .historicalSummaries epoch => .summaries epoch

abbrev Store := BeaconStore.State (Versioned FinalityUpdate) (Versioned OptimisticUpdate)

/-- The node: the store, the light client once it has synchronised (`beacon_client`, network.rs:44, 113), the root this
process trusts, and the content that tasks have from peers and found valid. -/
structure State where
  store : Store
  client : Option Client
  root : Id
  held : List (ContentKey.Beacon × Bytes)

/-- `DEFAULT_TRUSTED_BLOCK_ROOT` (lib.rs:36, assets/trusted_block_root.txt). -/
def builtIn : Id := 0xd8c248b779fb323c73d25e2e7c16c398d6130e52d7dd0fb344cc6bc0c7f1f308

/-- `lookup_latest_block_root` (storage.rs:593-608) with `LC_BOOTSTRAP_LATEST_BLOCK_ROOT_QUERY` (sql.rs:26-27): a row with
the highest slot; `tie` says which, if there are several. Roots in the table have 32 bytes. -/
def latestRoot (st : Store) (tie : Nat) : Option Id :=
  let top := st.boots.filter fun r => st.boots.all fun x => decide (x.slot ≤ r.slot)
  top[tie % top.length]?.map fun r => BitVec.ofNat 256 (fromBe r.root)

/-- `get_trusted_block_root` (network.rs:154-180). -/
def trustedRoot (given : Option Id) (st : Store) (tie : Nat) : Id :=
  match given with
  | some root => root
  | none =>
    match latestRoot st tie with
    | some root => root
    | none => builtIn

/-- `BeaconNetwork::new` on this store (network.rs:60-103): there is no light client yet. -/
def fresh (given : Option Id) (tie : Nat) (st : Store) : State := ⟨st, none, trustedRoot given st tie, []⟩

/-- The configuration of the validator (validation.rs:48-56). -/
def net : Net := ⟨LightNode.mainnet.genesisRoot, [5, 0, 0, 0]⟩

/-- The configuration of the light client (sync.rs:25-50, Model/LightNode). -/
def clientConfig (root : Id) : LightClient.Config :=
  ⟨root, LightNode.mainnet.genesisRoot, LightNode.mainnet.maxCheckpointAge, false, LightNode.mainnet.forks,
    LightNode.mainnet.genesisVersion⟩

/-- What the validator learns from the header oracle. -/
def oracleOf (client : Option Client) : Oracle where
  finalizedHeader := client.map fun c => c.store.finalized
  store := client.map fun c => c.store
  stateRoot := client.map fun c => c.store.finalized.stateRoot

inductive Ev where
  /-- content from a peer is validated at this slot -/
  | arrived (key : ContentKey.Beacon) (content : Bytes) (now : Nat)
  /-- a task stores content it holds, if the store wants it (offer.rs:574-626, find_content.rs:549-594); `w` says which
  writes succeed -/
  | keep (n : Nat) (w : Nat → Bool)
  /-- `Store` of the operator (jsonrpc.rs:249-265), or `PutContent` with its question to the store (protocol.rs:225-257) -/
  | operator (ask : Bool) (key : ContentKey.Beacon) (content : Bytes) (w : Nat → Bool)
  /-- the pruning of each day (storage.rs:331-344, 725-744) at this slot -/
  | prune (now : Nat)
  /-- the start of the light client succeeds: a bootstrap and the messages after it are accepted, each at its slot -/
  | started (prior : Client) (now : Nat) (b : LightClient.Bootstrap) (msgs : List (Nat × Msg))
  /-- the light client hears a message -/
  | heard (now : Nat) (m : Msg)
  /-- the process ends, in whatever way, and another starts -/
  | restart (given : Option Id) (tie : Nat)

/-- A write to the store, unless the store is asked and does not want it. -/
def putIf (H : Id → Id → Id) (ask : Bool) (st : Store) (key : ContentKey.Beacon) (content : Bytes) (w : Nat → Bool) : Store :=
  if ask then
    match BeaconStore.shouldWeStore (codec H) st (storeKey key) with
    | .ok .store => (BeaconStore.put (codec H) st (storeKey key) content w).1
    | _ => st
  else (BeaconStore.put (codec H) st (storeKey key) content w).1

/-- One event. `none`: the store cannot be opened (C27: this does not happen). -/
def step (env : Env) (s : State) : Ev → Option State
  | .arrived key content now =>
    match validate env net now (oracleOf s.client) key content with
    | .valid => some { s with held := s.held ++ [(key, content)] }
    | _ => some s
  | .keep i w =>
    match s.held[i]? with
    | none => some s
    | some (key, content) => some { s with store := putIf env.H true s.store key content w }
  | .operator ask key content w => some { s with store := putIf env.H ask s.store key content w }
  | .prune now => some { s with store := BeaconStore.prune s.store (now - 864000) }
  | .started prior now b msgs =>
    match s.client with
    | some _ => some s
    | none =>
      match LightClient.bootstrap env (clientConfig s.root) now prior b with
      | .error _ => some s
      | .ok c =>
        match LightClient.processAll env (clientConfig s.root) c msgs with
        | (c, true) => some { s with client := some c }
        | (_, false) => some s
  | .heard now m =>
    match s.client with
    | none => some s
    | some c =>
      match LightClient.process env (clientConfig s.root) now c m with
      | .ok c => some { s with client := some c }
      | .error _ => some s
  | .restart given tie => (BeaconStore.reopen (codec env.H) s.store).map fun st => fresh given tie st

def run (env : Env) : State → List Ev → Option State
  | s, [] => some s
  | s, e :: es =>
    match step env s e with
    | some s => run env s es
    | none => none

/-- `BeaconStorage::get` for a request of a peer or of the operator. -/
def get (env : Env) (s : State) (key : ContentKey.Beacon) : Option Bytes :=
  match BeaconStore.get (codec env.H) s.store (storeKey key) with
  | .ok r => r
  | .error _ => none

/-- `get_historical_summary` of the header oracle (oracle.rs:137-157): what the validator of the history network is answered. -/
def summariesFor (env : Env) (s : State) (epoch : Nat) : Option (List HeaderValidator.Summary) :=
  match get env s (.historicalSummaries (UInt64.ofNat epoch)) with
  | none => none
  | some bs =>
    match decodeSummaries bs with
    | .ok (_, x) => some (x.summaries.1.map fun s => ⟨s.blockRoot, s.stateRoot⟩)
    | .error _ => none

end Verif.BeaconNode
