import Verif.Model.HistoryValidator
import Verif.Model.E2store

/-!
# Execution headers and bodies from beacon blocks
(`crates/ethportal-api/src/types/execution/builders/{block,header}.rs`,
`types/consensus/{execution_payload,execution_requests}.rs`)

A beacon block holds an execution payload, from which the header of the execution block is put together. Hashes and
encodings are those of the library (`Lib` of the history values). The building of the Merkle proof (C50) is a parameter.
-/

namespace Verif.ExecBuilder
open Verif.HistoryValue (Lib Wire Body View decodeItems)
open Verif.HeaderValidator (Fork)
open Verif.E2store (Res)

/-- `alloy::consensus::Header`, with all its fields (header.rs:27-49). -/
structure Header where
  parentHash : Id
  ommersHash : Id
  beneficiary : BitVec 160
  stateRoot : Id
  transactionsRoot : Id
  receiptsRoot : Id
  logsBloom : Bytes
  difficulty : BitVec 256
  number : UInt64
  gasLimit : UInt64
  gasUsed : UInt64
  timestamp : UInt64
  extraData : Bytes
  mixHash : Id
  nonce : UInt64
  baseFee : Option UInt64
  withdrawalsRoot : Option Id
  blobGasUsed : Option UInt64
  excessBlobGas : Option UInt64
  parentBeaconBlockRoot : Option Id
  requestsHash : Option Id
deriving DecidableEq, Repr

/-- The fields that validation reads. -/
def Header.view (h : Header) : View :=
  ⟨h.number, h.timestamp, h.ommersHash, h.transactionsRoot, h.receiptsRoot, h.withdrawalsRoot⟩

/-- The library, for these headers. `txEnvelope` is `TxEnvelope::decode` (block.rs:167-175), `sha256` the hash of
EIP-7685. -/
structure ExecLib (Tx Rc Wd : Type) where
  header : Wire Header
  ommers : Wire (List Header)
  tx : Wire Tx
  txEnvelope : Bytes → Option Tx
  receipt : Wire Rc
  withdrawal : Wire Wd
  keccak : Bytes → Id
  sha256 : Bytes → Id
  trieRoot : List Bytes → Id

variable {Tx Rc Wd Bt P : Type}

/-- The library that validation uses. -/
def ExecLib.lib (l : ExecLib Tx Rc Wd) : Lib Header Tx Rc Wd where
  header := l.header
  ommers := l.ommers
  tx := l.tx
  receipt := l.receipt
  withdrawal := l.withdrawal
  view := Header.view
  keccak := l.keccak
  trieRoot := l.trieRoot

/-- `Header::hash_slow`. -/
def ExecLib.hash (l : ExecLib Tx Rc Wd) (h : Header) : Id := l.keccak (l.header.enc h)

/-- `EMPTY_OMMER_ROOT_HASH`: the hash of the encoding of no headers. -/
def ExecLib.emptyOmmers (l : ExecLib Tx Rc Wd) : Id := l.keccak (l.ommers.enc [])

/-- `ExecutionPayload` (execution_payload.rs:47-81); fields that the fork does not have are not read. Withdrawals are
those of the library: the conversion (execution_payload.rs:202-211) copies the fields. -/
structure Payload (Wd : Type) where
  parentHash : Id
  feeRecipient : BitVec 160
  stateRoot : Id
  receiptsRoot : Id
  logsBloom : Bytes
  prevRandao : Id
  blockNumber : UInt64
  gasLimit : UInt64
  gasUsed : UInt64
  timestamp : UInt64
  extraData : Bytes
  baseFee : BitVec 256
  blockHash : Id
  transactions : List Bytes
  withdrawals : List Wd
  blobGasUsed : UInt64
  excessBlobGas : UInt64
deriving DecidableEq, Repr

/-- `ExecutionRequests` (execution_requests.rs:25-30): the SSZ encodings of the three lists. -/
structure Requests where
  deposits : Bytes
  withdrawals : Bytes
  consolidations : Bytes
deriving DecidableEq, Repr

/-- The fields of a beacon block of one of the forks that are read (beacon_block.rs:46-64). -/
structure Beacon (Wd : Type) where
  fork : Fork
  slot : UInt64
  parentRoot : Id
  payload : Payload Wd
  requests : Requests
deriving DecidableEq, Repr

/-- `SignedBeaconBlock::execution_block_number` (beacon_block.rs:256-265). -/
def Beacon.executionBlockNumber (b : Beacon Wd) : UInt64 := b.payload.blockNumber

/-- `ExecutionRequests::requests_hash` (execution_requests.rs:33-47) with the library: lists without elements are left
out, the others are hashed with their type in front, and the hashes are hashed together. -/
def requestsHash (l : ExecLib Tx Rc Wd) (r : Requests) : Id :=
  l.sha256 ([(0, r.deposits), (1, r.withdrawals), (2, r.consolidations)].flatMap fun x : UInt8 × Bytes =>
    if x.2 = [] then [] else (l.sha256 (x.1 :: x.2)).bytes)

/-- `calculate_transaction_root`, `calculate_withdrawals_root`. -/
def txRoot (l : ExecLib Tx Rc Wd) (txs : List Tx) : Id := l.trieRoot (txs.map l.tx.enc)
def wdRoot (l : ExecLib Tx Rc Wd) (ws : List Wd) : Id := l.trieRoot (ws.map l.withdrawal.enc)

/-- The header of `ExecutionHeaderBuilder::bellatrix` (header.rs:22-49). `baseFee` is the base fee after the
conversion. -/
def headerBellatrix (l : ExecLib Tx Rc Wd) (p : Payload Wd) (baseFee : UInt64) (txs : List Tx) : Header where
  parentHash := p.parentHash
  ommersHash := l.emptyOmmers
  beneficiary := p.feeRecipient
  stateRoot := p.stateRoot
  transactionsRoot := txRoot l txs
  receiptsRoot := p.receiptsRoot
  logsBloom := p.logsBloom
  difficulty := 0
  number := p.blockNumber
  gasLimit := p.gasLimit
  gasUsed := p.gasUsed
  timestamp := p.timestamp
  extraData := p.extraData
  mixHash := p.prevRandao
  nonce := 0
  baseFee := some baseFee
  withdrawalsRoot := none
  blobGasUsed := none
  excessBlobGas := none
  parentBeaconBlockRoot := none
  requestsHash := none

/-- The header of `ExecutionHeaderBuilder::capella` (header.rs:58-87). -/
def headerCapella (l : ExecLib Tx Rc Wd) (p : Payload Wd) (baseFee : UInt64) (txs : List Tx) : Header where
  parentHash := p.parentHash
  ommersHash := l.emptyOmmers
  beneficiary := p.feeRecipient
  stateRoot := p.stateRoot
  transactionsRoot := txRoot l txs
  receiptsRoot := p.receiptsRoot
  logsBloom := p.logsBloom
  difficulty := 0
  number := p.blockNumber
  gasLimit := p.gasLimit
  gasUsed := p.gasUsed
  timestamp := p.timestamp
  extraData := p.extraData
  mixHash := p.prevRandao
  nonce := 0
  baseFee := some baseFee
  withdrawalsRoot := some (wdRoot l p.withdrawals)
  blobGasUsed := none
  excessBlobGas := none
  parentBeaconBlockRoot := none
  requestsHash := none

/-- The header of `ExecutionHeaderBuilder::deneb` (header.rs:96-126). -/
def headerDeneb (l : ExecLib Tx Rc Wd) (p : Payload Wd) (baseFee : UInt64) (parentRoot : Id) (txs : List Tx) :
    Header where
  parentHash := p.parentHash
  ommersHash := l.emptyOmmers
  beneficiary := p.feeRecipient
  stateRoot := p.stateRoot
  transactionsRoot := txRoot l txs
  receiptsRoot := p.receiptsRoot
  logsBloom := p.logsBloom
  difficulty := 0
  number := p.blockNumber
  gasLimit := p.gasLimit
  gasUsed := p.gasUsed
  timestamp := p.timestamp
  extraData := p.extraData
  mixHash := p.prevRandao
  nonce := 0
  baseFee := some baseFee
  withdrawalsRoot := some (wdRoot l p.withdrawals)
  blobGasUsed := some p.blobGasUsed
  excessBlobGas := some p.excessBlobGas
  parentBeaconBlockRoot := some parentRoot
  requestsHash := none

/-- The header of `ExecutionHeaderBuilder::electra` (header.rs:135-166). -/
def headerElectra (l : ExecLib Tx Rc Wd) (p : Payload Wd) (baseFee : UInt64) (parentRoot : Id) (txs : List Tx)
    (rs : Requests) : Header where
  parentHash := p.parentHash
  ommersHash := l.emptyOmmers
  beneficiary := p.feeRecipient
  stateRoot := p.stateRoot
  transactionsRoot := txRoot l txs
  receiptsRoot := p.receiptsRoot
  logsBloom := p.logsBloom
  difficulty := 0
  number := p.blockNumber
  gasLimit := p.gasLimit
  gasUsed := p.gasUsed
  timestamp := p.timestamp
  extraData := p.extraData
  mixHash := p.prevRandao
  nonce := 0
  baseFee := some baseFee
  withdrawalsRoot := some (wdRoot l p.withdrawals)
  blobGasUsed := some p.blobGasUsed
  excessBlobGas := some p.excessBlobGas
  parentBeaconBlockRoot := some parentRoot
  requestsHash := some (requestsHash l rs)

/-- Which of them is taken for a block (block.rs:29-41). -/
def makeHeader (l : ExecLib Tx Rc Wd) (b : Beacon Wd) (baseFee : UInt64) (txs : List Tx) : Header :=
  match b.fork with
  | .bellatrix => headerBellatrix l b.payload baseFee txs
  | .capella => headerCapella l b.payload baseFee txs
  | .deneb => headerDeneb l b.payload baseFee b.parentRoot txs
  | .electra => headerElectra l b.payload baseFee b.parentRoot txs b.requests

/-- `ExecutionHeaderBuilder` (header.rs:21-174): `base_fee_per_gas.to()` aborts when the number is not a `u64`, then the
hash is compared. -/
def buildHeader (l : ExecLib Tx Rc Wd) (b : Beacon Wd) (txs : List Tx) : Res Header :=
  if b.payload.baseFee.toNat ≥ 2 ^ 64 then .panic
  else
    let h := makeHeader l b (UInt64.ofNat b.payload.baseFee.toNat) txs
    if b.payload.blockHash ≠ l.hash h then .err else .ok h

/-- The withdrawals of the body (block.rs:59-63, 88-92, 122-126, 157-161). -/
def bodyWithdrawals (b : Beacon Wd) : Option (List Wd) :=
  match b.fork with
  | .bellatrix => none
  | .capella => some b.payload.withdrawals
  | .deneb => some b.payload.withdrawals
  | .electra => some b.payload.withdrawals

/-- `ExecutionBlockBuilder::build` (block.rs:29-164), with `decode_transactions` (167-175). `proof` builds the Merkle
proof from the block and the roots of its period (`none` aborts). -/
def build (l : ExecLib Tx Rc Wd) (proof : Beacon Wd → Bt → Option P) (b : Beacon Wd) (batch : Bt) :
    Res ((Header × P) × Body Header Tx Wd) :=
  match decodeItems ⟨l.tx.enc, l.txEnvelope⟩ b.payload.transactions with
  | none => .err
  | some txs =>
    (buildHeader l b txs).bind fun h =>
      match proof b batch with
      | none => .panic
      | some p => .ok ((h, p), ⟨txs, [], bodyWithdrawals b⟩)

end Verif.ExecBuilder
