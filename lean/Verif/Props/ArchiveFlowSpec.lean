import Verif.Model.HistoryNode
import Verif.Model.E2hsBridge
import Verif.Model.E2hsGen
import Verif.Model.EthRpc
import Verif.Props.HistoryNodeSpec
import Verif.Props.E2hsBridgeSpec
import Verif.Props.E2hsGenSpec

/-! # Specification: blocks on their way from archive files over a node to the eth endpoints -/

namespace Verif.Props.ArchiveFlow
open Verif.ContentKey Verif.HistoryValue Verif.HistoryNode
open Verif.HeaderValidator (HeaderProof Summary decodedKind)
open Verif.E2hsBridge (Tuple)

variable {Hd Tx Rc Wd : Type}

/-- The hash of a block. -/
def hashOf (lib : Lib Hd Tx Rc Wd) (t : Tuple Hd Tx Rc Wd) : Id := lib.keccak (lib.header.enc t.headerWithProof.1)

/-- The encoded header with its proof, body and receipts. -/
def headerBytes (lib : Lib Hd Tx Rc Wd) (t : Tuple Hd Tx Rc Wd) : Bytes :=
  encodeHeaderWithProof lib t.headerWithProof.1 t.headerWithProof.2
def bodyBytes (lib : Lib Hd Tx Rc Wd) (t : Tuple Hd Tx Rc Wd) : Bytes := encodeBody lib t.body
def receiptsBytes (lib : Lib Hd Tx Rc Wd) (t : Tuple Hd Tx Rc Wd) : Bytes := encodeReceipts lib t.receipts

/-- The four contents of a block. -/
inductive ContentOf (lib : Lib Hd Tx Rc Wd) (t : Tuple Hd Tx Rc Wd) : Legacy → Bytes → Prop
  | byHash : ContentOf lib t (.headerByHash (hashOf lib t)) (headerBytes lib t)
  | byNumber : ContentOf lib t (.headerByNumber (lib.view t.headerWithProof.1).number) (headerBytes lib t)
  | body : ContentOf lib t (.blockBody (hashOf lib t)) (bodyBytes lib t)
  | receipts : ContentOf lib t (.blockReceipts (hashOf lib t)) (receiptsBytes lib t)

/-- A block that fits into the network: its header has the proof of its time, which is right for these historical
summaries; the header commits to the body and the receipts; and everything has a size that can be sent. -/
structure Fit (n : Node Hd Tx Rc Wd) (summaries : List Summary) (t : Tuple Hd Tx Rc Wd) : Prop where
  kind : t.headerWithProof.2.kind = decodedKind n.net (n.lib.hdr t.headerWithProof.1)
  proof : (HeaderValidator.validate n.H n.net n.trusted [] (fun _ => some summaries) (n.lib.hdr t.headerWithProof.1)
    t.headerWithProof.2).1 = .accept
  transactions : (n.lib.view t.headerWithProof.1).transactionsRoot = n.lib.trieRoot (t.body.transactions.map n.lib.tx.enc)
  ommers : (n.lib.view t.headerWithProof.1).ommersHash = n.lib.keccak (n.lib.ommers.enc t.body.ommers)
  withdrawals : ∀ ws, t.body.withdrawals = some ws →
    (n.lib.view t.headerWithProof.1).withdrawalsRoot = some (n.lib.trieRoot (ws.map n.lib.withdrawal.enc))
  receipts : HistoryValidator.CommitsReceipts n.lib t.headerWithProof.1 t.receipts
  uncles : t.body.withdrawals ≠ none → t.body.ommers = []
  headerSize : (n.lib.header.enc t.headerWithProof.1).length ≤ 2048
  bodySize : (bodyBytes n.lib t).length < 2 ^ 32
  receiptsCount : t.receipts.length ≤ 16384
  receiptsSize : (receiptsBytes n.lib t).length < 2 ^ 32

/-- What the beacon network answers for historical summaries is part of the list, and reaches the summary of a slot if the
list does. -/
structure Tells (summaries : List Summary) (source : Nat → Option (List Summary)) : Prop where
  part : ∀ e l, source e = some l → l <+: summaries
  reaches : ∀ slot i, ChainHead.historicalSummaryIndex slot = some i → i < summaries.length →
    ∃ l, source (slot / 32) = some l ∧ i < l.length

/-- A content that a peer sends, with what the beacon network answers meanwhile, and how fast the store is. For a body or
receipts, `header` is what the node finds when it looks for the header: in its store, or by a lookup. -/
structure Parcel where
  key : Legacy
  content : Bytes
  source : Nat → Option (List Summary)
  sps : List Store.Speed
  header : Bytes
  lookup : Bool

/-- The block whose header is needed to check a content. -/
def needs : Legacy → Option Id
  | .blockBody k => some k
  | .blockReceipts k => some k
  | _ => none

/-- The events of a parcel; `start` is the number of contents that tasks have already. -/
def receive (start : Nat) (p : Parcel) : List Ev :=
  match needs p.key with
  | none => [.arrived p.key p.content ⟨p.source, fun _ => none⟩, .keep start p.sps]
  | some k =>
    if p.lookup then
      [.arrived (.headerByHash k) p.header ⟨p.source, fun _ => none⟩, .headerFound start,
        .arrived p.key p.content ⟨p.source, fun _ => some p.header⟩, .keep (start + 1) p.sps]
    else
      [.headerStored k, .arrived p.key p.content ⟨p.source, fun _ => some p.header⟩, .keep start p.sps]

/-- How many contents tasks have got by that. -/
def got (p : Parcel) : Nat := if (needs p.key).isSome && p.lookup then 2 else 1

/-- Parcels one after the other. -/
def feed : Nat → List Parcel → List Ev
  | _, [] => []
  | start, p :: ps => receive start p ++ feed (start + got p) ps

/-- The parcel is a content of a block; and if a header is needed for it, what the node finds is the header of that block. -/
structure Carries (n : Node Hd Tx Rc Wd) (t : Tuple Hd Tx Rc Wd) (p : Parcel) : Prop where
  content : ContentOf n.lib t p.key p.content
  header : ∀ k, needs p.key = some k → p.header = headerBytes n.lib t

/-- If the header is not looked up, it was stored before: the node had it at the start, or it came in an earlier parcel. -/
def HeaderFirst (n : Node Hd Tx Rc Wd) (s : HistoryNode.State) (ps : List Parcel) : Prop :=
  ∀ pre p post k, ps = pre ++ p :: post → needs p.key = some k → p.lookup = false →
    get n s.store (.headerByHash k) = some p.header ∨ ∃ q ∈ pre, q.key = .headerByHash k ∧ q.content = p.header

/-- What the parcels take in the database: id, key, content, and what is counted for every entry. -/
def weight (cfg : Store.Config) (ps : List Parcel) : Nat :=
  (ps.map fun p => 32 + p.key.toBytes.length + p.content.length + cfg.extra).sum

/-- The node has room for the parcels, they are within its radius, it has none of them, and they have different ids. -/
structure Room (n : Node Hd Tx Rc Wd) (s : HistoryNode.State) (ps : List Parcel) : Prop where
  capacity : s.store.2.usage s.store.1 + weight s.store.1 ps ≤ s.store.1.capacity
  radius : ∀ p ∈ ps, xorDistance s.store.1.node (n.db.idOf p.key.toBytes) ≤ s.store.2.radius
  fresh : ∀ p ∈ ps, get n s.store p.key = none
  ids : (ps.map fun p => n.db.idOf p.key.toBytes).Nodup

/-- Everything about a delivery: the parcels carry contents of blocks that fit, the header comes first or is looked up, the
summaries are right, and there is room. -/
structure Delivery (n : Node Hd Tx Rc Wd) (summaries : List Summary) (s : HistoryNode.State) (ps : List Parcel) : Prop where
  blocks : ∀ p ∈ ps, ∃ t, Fit n summaries t ∧ Carries n t p
  first : HeaderFirst n s ps
  cache : s.cache <+: summaries
  tells : ∀ p ∈ ps, Tells summaries p.source
  room : Room n s ps

/-- The block as `eth_getBlockByHash` and `eth_getBlockByNumber` answer it. -/
def rpcBlock (lib : Lib Hd Tx Rc Wd) (h : Hd) (b : Body Hd Tx Wd) : EthRpc.RpcBlock Hd Wd :=
  ⟨h, b.transactions.map fun t => lib.keccak (lib.tx.enc t), b.ommers.map fun o => lib.keccak (lib.header.enc o), b.withdrawals⟩

/-- The endpoints of the process of the node: lookups for content that the node has stored give that content. -/
structure On (n : Node Hd Tx Rc Wd) (s : HistoryNode.State) (api : EthRpc.Api Hd Tx Rc Wd) : Prop where
  lib : api.lib = n.lib
  net : api.net = n.net
  stored : ∀ key v, get n s.store key = some v → api.history key = some v

/-- The bridge checks blocks of the same chain as the node. -/
structure SameChain (n : Node Hd Tx Rc Wd) (env : E2hsBridge.Env Hd Tx Rc Wd) : Prop where
  lib : env.lib = n.lib
  H : env.H = n.H
  net : env.net = n.net
  trusted : env.trusted = n.trusted

/-- Every content that the bridge served of a block that fits came to the node in one of the parcels. -/
def Brought {P : Type} (n : Node Hd Tx Rc Wd) (summaries : List Summary) (b : E2hsBridge.State Hd Tx Rc Wd P)
    (ps : List Parcel) : Prop :=
  ∀ task ∈ b.blocks, Fit n summaries task.tuple → ∀ c ∈ task.contents, ∃ p ∈ ps, p.key = c.key ∧ p.content = c.value

/-- The times of the forks: Cancun is not before Shanghai, and blocks before the merge are before Shanghai. -/
structure Forks (i : E2hsGen.Inputs Tx Rc Wd) (c : E2hsSpec.Chain Tx Rc Wd) : Prop where
  order : i.net.shanghaiTime ≤ i.net.cancunTime
  before : ∀ k < i.net.parisBlock.toNat, (c.header k).timestamp < i.net.shanghaiTime

/-- The blocks of the chain have sizes that can be sent, and blocks with withdrawals have no uncles. -/
structure Sizes (lib : Lib ExecBuilder.Header Tx Rc Wd) (c : E2hsSpec.Chain Tx Rc Wd) : Prop where
  header : ∀ k, (lib.header.enc (c.header k)).length ≤ 2048
  body : ∀ k, (encodeBody lib (c.body k)).length < 2 ^ 32
  count : ∀ k, (c.receipts k).length ≤ 16384
  receipts : ∀ k, (encodeReceipts lib (c.receipts k)).length < 2 ^ 32
  uncles : ∀ k, (c.body k).withdrawals ≠ none → (c.body k).ommers = []

/-- The file of an epoch, as the file server has it, is the one that the generator made from honest archives of the chain,
whose summaries are part of the list. -/
structure Generated (env : E2hsBridge.Env ExecBuilder.Header Tx Rc Wd) (c : E2hsSpec.Chain Tx Rc Wd) (summaries : List Summary)
    (index : Nat) (i : E2hsGen.Inputs Tx Rc Wd) : Prop where
  honest : E2hsSpec.HonestWorld i c index
  made : ∃ fuel bytes epoch name, 3 ≤ fuel ∧ E2hsGen.run i fuel index false = some (.ok (bytes, epoch, name), false) ∧
    env.download index = some bytes
  summaries : ∀ e era l, i.site.era e = .ok era → era.summaries = some l → l <+: summaries
  lib : i.lib.lib = env.lib
  H : i.H = env.H
  net : i.net = env.net
  trusted : i.trusted = env.trusted
  codecs : i.codecs = env.codecs
  forks : Forks i c

end Verif.Props.ArchiveFlow
