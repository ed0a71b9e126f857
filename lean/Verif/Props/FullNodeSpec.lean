import Verif.Model.FullNode
import Verif.Props.BeaconNode
import Verif.Props.PostMerge
import Verif.Props.PreMerge
import Verif.Props.StateNodeSpec
import Verif.Props.ArchiveFlowSpec

/-! # Specification: what a node with all networks may say about the chain -/

namespace Verif.Props.FullNodes
open Verif.FullNode Verif.Merkle Verif.HistoryValue
open Verif.ContentKey (Legacy)
open Verif.HeaderValidator (HeaderProof Record)
open Verif.HistoryValidator (HashCollision)

variable {Hd Tx Rc Wd : Type}

/-! ## The events of each network -/

def beaconEvents (es : List Ev) : List BeaconNode.Ev := es.filterMap fun e => match e with | .beacon e => some e | _ => none
def historyEvents (es : List Ev) : List HistoryNode.Ev := es.filterMap fun e => match e with | .history e => some e | _ => none
def stateEvents (es : List Ev) : List StateNode.Ev := es.filterMap fun e => match e with | .state e => some e | _ => none

/-- A node that began with empty databases and went through these events. -/
def Lives (n : Node Hd Tx Rc Wd) (given : Option Id) (tie : Nat) (es : List Ev) (s : FullNode.State) : Prop :=
  ∃ cfg sps store cfg' sps' store', Store.create n.history.db cfg sps [] = .ok store ∧
    Store.create n.state.db cfg' sps' [] = .ok store' ∧
    run n ⟨BeaconNode.fresh given tie BeaconStore.init, HistoryNode.fresh (cfg, store), StateNode.fresh (cfg', store')⟩ es = some s

/-! ## The chain -/

/-- The forms that beacon blocks have had. In the first there were eight fields in the body, in the second nine. Since the
third there is an execution payload, which was empty until the merge; it has up to sixteen fields at first, and more in the
last form. -/
inductive Form where
  | phase0 | altair | empty | bellatrix | deneb
deriving DecidableEq

/-- Everything that happened on the two layers. Before the merge there are execution headers by number, in epochs of records.
Since then there are beacon blocks: `blockRoots` has the root of the block at each slot of each period of 8192 slots, which is
the root of the block before if there is none at that slot; `header` has the execution header of that block, and anything if the
block has none. -/
structure Ledger (Hd : Type) where
  old : Nat → Hd
  records : Nat → List Record
  blockRoots : Nat → Nat → Id
  stateRoots : Nat → Id
  form : Nat → Form
  contents : Nat → Contents
  header : Nat → Hd

/-- The block of a slot has this root and these contents. With a payload, it commits to the hash of the execution header
(`CommitsHash`), which is zero in an empty one. The payload of the last form has at most 17 fields, so leaves 24 and 25 of 32 are zero. A block of the second
form has no field 9 in its body. In the first form, field 4 of the body is a list, which is hashed with its length. -/
def Commits (H : Id → Id → Id) (root hash : Id) (c : Contents) : Form → Prop
  | .phase0 => root = treeRoot H 3 c.block ∧ c.block 4 = treeRoot H 3 c.body ∧ c.body 4 = treeRoot H 1 c.payload
  | .altair => root = treeRoot H 3 c.block ∧ c.block 4 = treeRoot H 4 c.body ∧ c.body 9 = 0
  | .empty => CommitsHash H 4 root 0 c
  | .bellatrix => CommitsHash H 4 root hash c
  | .deneb => CommitsHash H 5 root hash c ∧ c.payload 24 = 0 ∧ c.payload 25 = 0

/-- The pairs that are hashed for a block. -/
def pairs (H : Id → Id → Id) (c : Contents) : Form → List (Id × Id)
  | .phase0 => treePairs H 3 c.block ++ treePairs H 3 c.body ++ treePairs H 1 c.payload
  | .altair => treePairs H 3 c.block ++ treePairs H 4 c.body
  | .empty => c.pairs H 4
  | .bellatrix => c.pairs H 4
  | .deneb => c.pairs H 5

/-- The roots that come with the program, and the historical summaries, are those of this chain. -/
structure Describes (L : Ledger Hd) (n : HistoryNode.Node Hd Tx Rc Wd) (truth : List BeaconValue.Summary) : Prop where
  epochs : ∀ i root, n.trusted.epochs[i]? = some root → root = epochRoot n.H (L.records i)
  records : ∀ k : UInt64, k < n.net.parisBlock →
    ∃ r, (L.records (k.toNat / 8192))[k.toNat % 8192]? = some r ∧ r.blockHash = n.lib.keccak (n.lib.header.enc (L.old k.toNat))
  roots : ∀ i root, n.trusted.historicalRoots[i]? = some root → root = n.H (treeRoot n.H 13 (L.blockRoots i)) (L.stateRoots i)
  summaries : ∀ i s, truth[i]? = some s → s.blockRoot = treeRoot n.H 13 (L.blockRoots (758 + i))
  blocks : ∀ slot, Commits n.H (L.blockRoots (slot / 8192) (slot % 8192)) (n.lib.keccak (n.lib.header.enc (L.header slot)))
    (L.contents slot) (L.form slot)

/-- The header that the chain has at the place that a proof names: at the number of the header, or at the slot in the proof. -/
def Ledger.named (L : Ledger Hd) (number : UInt64) : HeaderProof → Hd
  | .hashes _ => L.old number.toNat
  | .roots p => L.header p.slot.toNat
  | .capella p => L.header p.slot.toNat
  | .deneb p => L.header p.slot.toNat

/-- The chain has something at the place that a proof names: the number is before the merge, or the block of the slot has a
payload of the form that the proof is for. -/
def Ledger.Has (L : Ledger Hd) (n : HistoryNode.Node Hd Tx Rc Wd) (number : UInt64) : HeaderProof → Prop
  | .hashes _ => number < n.net.parisBlock
  | .roots p => L.form p.slot.toNat = .bellatrix
  | .capella p => L.form p.slot.toNat = .bellatrix
  | .deneb p => L.form p.slot.toNat = .deneb

/-- A hash among these pairs is a value that the block of this form has at a fixed place: the number of the block, zero, or the
length of a list. Or the hash of the header is zero or that of two zeros. -/
def Freak (H : Id → Id → Id) (hash : Id) (hashed : List (Id × Id)) (c : Contents) : Form → Prop
  | .phase0 => ∃ q ∈ hashed, H q.1 q.2 = c.payload 1
  | .altair => ∃ q ∈ hashed, H q.1 q.2 = 0
  | .empty => hash = 0 ∨ ∃ q ∈ hashed, H q.1 q.2 = c.payload 6
  | .bellatrix => ∃ q ∈ hashed, H q.1 q.2 = c.payload 6
  | .deneb => hash = H 0 0

/-- The pairs that are hashed to check a proof of a header with this hash and number. -/
def hashed (H : Id → Id → Id) (hash : Id) (number : UInt64) : HeaderProof → List (Id × Id)
  | .hashes p => branchPairs H hash p.toList (2 * (2 * 8192 + number.toNat % 8192))
  | .roots p => branchPairs H hash p.executionBlockProof.toList 3228 ++
      branchPairs H p.beaconBlockRoot p.beaconBlockProof.toList (2 * 8192 + p.slot.toNat % 8192)
  | .capella p => branchPairs H hash p.executionBlockProof.toList 3228 ++
      branchPairs H p.beaconBlockRoot p.beaconBlockProof.toList (8192 + p.slot.toNat % 8192)
  | .deneb p => branchPairs H hash p.executionBlockProof.toList 6444 ++
      branchPairs H p.beaconBlockRoot p.beaconBlockProof.toList (8192 + p.slot.toNat % 8192)

/-- The pairs that are hashed for that place of the chain: the epoch of the number, or the period and the block of the slot. -/
def Ledger.hashed (L : Ledger Hd) (H : Id → Id → Id) (number : UInt64) : HeaderProof → List (Id × Id)
  | .hashes _ => epochPairs H (L.records (number.toNat / 8192))
  | .roots p => pairs H (L.contents p.slot.toNat) (L.form p.slot.toNat) ++
      (treeRoot H 13 (L.blockRoots (p.slot.toNat / 8192)), L.stateRoots (p.slot.toNat / 8192)) ::
        treePairs H 13 (L.blockRoots (p.slot.toNat / 8192))
  | .capella p => pairs H (L.contents p.slot.toNat) (L.form p.slot.toNat) ++ treePairs H 13 (L.blockRoots (p.slot.toNat / 8192))
  | .deneb p => pairs H (L.contents p.slot.toNat) (L.form p.slot.toNat) ++ treePairs H 13 (L.blockRoots (p.slot.toNat / 8192))

/-- The slot that a proof names. -/
def slotOf : HeaderProof → Option Nat
  | .hashes _ => none
  | .roots p => some p.slot.toNat
  | .capella p => some p.slot.toNat
  | .deneb p => some p.slot.toNat

/-- What no one can find, as far as we know: two headers with one hash, a pair in the proof that has the hash of another pair
of the chain, or a hash with a value that is fixed beforehand, for a block of a form that the proof is not for. -/
def Broken (L : Ledger Hd) (n : HistoryNode.Node Hd Tx Rc Wd) (h : Hd) (p : HeaderProof) : Prop :=
  HashCollision n.lib (n.lib.header.enc h) (n.lib.header.enc (L.named (n.lib.view h).number p)) ∨
  CollisionBetween n.H (hashed n.H (n.lib.hdr h).hash (n.lib.view h).number p) (L.hashed n.H (n.lib.view h).number p) ∨
  ∃ slot, slotOf p = some slot ∧ ¬ L.Has n (n.lib.view h).number p ∧
    Freak n.H (n.lib.hdr h).hash (hashed n.H (n.lib.hdr h).hash (n.lib.view h).number p) (L.contents slot) (L.form slot)

/-- The header is the one that the chain has at the place that the proof names, unless a hash is broken. -/
def OnChain (L : Ledger Hd) (n : HistoryNode.Node Hd Tx Rc Wd) (h : Hd) (p : HeaderProof) : Prop :=
  (h = L.named (n.lib.view h).number p ∧ L.Has n (n.lib.view h).number p) ∨ Broken L n h p

/-- One chain: two places with the same number have the same header. -/
def Ledger.One (L : Ledger Hd) (n : HistoryNode.Node Hd Tx Rc Wd) : Prop :=
  ∀ number p p', L.Has n number p → L.Has n number p' → (n.lib.view (L.named number p)).number = number →
    (n.lib.view (L.named number p')).number = number → L.named number p = L.named number p'

/-! ## Trust -/

/-- What is assumed of the beacon network of the node (C93): the node starts from a root of the chain, the sync committees are
honest about the messages that occur, and no summaries are taken before the light client runs or from the operator. Then the
summaries of the states of the chain are beginnings of one list, and those that peers sent do not collide with them. -/
structure Trust (n : Node Hd Tx Rc Wd) (given : Option Id) (tie : Nat) (es : List Ev) (truth : List BeaconValue.Summary) where
  late : BeaconNodes.Late (beaconEvents es)
  chain : Chain
  assumed : BeaconNodes.Assumed n.light given tie chain (beaconEvents es)
  unattended : ∀ k v, ¬ BeaconNodes.Operated (beaconEvents es) (.historicalSummaries k) v
  early : ∀ s k v, BeaconNodes.AcceptedIn n.light given tie (beaconEvents es) s (.historicalSummaries k) v → s.client ≠ none
  states : LightClient.Header → Nat → Id
  sums : LightClient.Header → SszT.BList BeaconValue.Summary 16777216
  true : ∀ h, chain.canonical h → BeaconNodes.StateSummaries n.light.H truth h (states h) (sums h)
  binding : ∀ s k f x h, BeaconNodes.AcceptedIn n.light given tie (beaconEvents es) s (.historicalSummaries k) (.summaries f x) →
    chain.canonical h →
    ¬ CollisionBetween n.light.H (summariesPairs n.light.H x.summaries.1) (summariesPairs n.light.H (sums h).1) ∧
    ¬ CollisionBetween n.light.H (branchPairs n.light.H (BeaconValidator.summariesRoot n.light.H x.summaries.1) x.proof.1 27)
      (treePairs n.light.H 6 (states h))

/-- What is assumed of the history network of the node (C91). -/
structure Clean (n : Node Hd Tx Rc Wd) (es : List Ev) : Prop where
  sql : Store.Sql n.history.db
  operator : HistoryNodes.HonestOperator n.history (historyEvents es)

/-- The node gives this content, which its operator did not put in, for a key that has an id of its own. -/
structure Given (n : Node Hd Tx Rc Wd) (es : List Ev) (s : FullNode.State) (key : Legacy) (bs : Bytes) : Prop where
  gives : HistoryNodes.Gives n.history s.history key bs
  peer : (key, bs) ∉ HistoryNodes.operated (historyEvents es)
  ids : HistoryNodes.NoIdCollision n.history (key :: HistoryNodes.keys (historyEvents es))

/-! ## The endpoints -/

/-- The eth endpoints (C60) of this process: what they are answered is what the networks gave at some time. -/
structure Endpoints (n : Node Hd Tx Rc Wd) (given : Option Id) (tie : Nat) (es : List Ev) (api : EthRpc.Api Hd Tx Rc Wd) : Prop where
  lib : api.lib = n.history.lib
  net : api.net = n.history.net
  trie : api.evm.trie = n.state.trie
  history : ∀ key bs, api.history key = some bs → (key, bs) ∉ HistoryNodes.operated (historyEvents es) ∧
    HistoryNodes.NoIdCollision n.history (key :: HistoryNodes.keys (historyEvents es)) ∧
    ∃ pre post s, es = pre ++ post ∧ Lives n given tie pre s ∧ HistoryNodes.Gives n.history s.history key bs
  state : ∀ net, api.state = some net → ∀ key bs, net key = some bs →
    StateNodes.KeysFine n.state (key :: StateNodes.keys (stateEvents es)) ∧
    ∃ pre post s, es = pre ++ post ∧ Lives n given tie pre s ∧ (key, bs) ∈ s.state.found

/-- What the state network of this process answers at some moment: contents that it found at some time. -/
def Answered (n : Node Hd Tx Rc Wd) (given : Option Id) (tie : Nat) (es : List Ev) (net : EvmState.Network) : Prop :=
  ∀ key bs, net key = some bs → StateNodes.KeysFine n.state (key :: StateNodes.keys (stateEvents es)) ∧
    ∃ pre post s, es = pre ++ post ∧ Lives n given tie pre s ∧ (key, bs) ∈ s.state.found

/-- The content key under which the header of a block is asked for. -/
def headerKey : EthRpc.BlockId → Option Legacy
  | .hash k => some (.headerByHash k)
  | .number k => some (.headerByNumber k)
  | .tag => none

/-- The header of the block that is asked for: it has this hash or number, it came with a proof, and it is the one that the chain
has at the place that the proof names. -/
structure Asked (L : Ledger Hd) (n : HistoryNode.Node Hd Tx Rc Wd) (api : EthRpc.Api Hd Tx Rc Wd) (block : EthRpc.BlockId)
    (h : Hd) : Prop where
  came : ∃ key bs p, headerKey block = some key ∧ api.history key = some bs ∧
    Value.decode n.lib n.net key bs = some (.header h p) ∧ OnChain L n h p
  hash : ∀ k, block = .hash k → n.lib.keccak (n.lib.header.enc h) = k
  number : ∀ k, block = .number k → (n.lib.view h).number = k

end Verif.Props.FullNodes
