import Verif.Model.ExecBuilder

/-! # What an execution block looks like, and how a beacon block carries it -/

namespace Verif.Props
open Verif Verif.ExecBuilder
open Verif.HistoryValue (Body)
open Verif.HeaderValidator (Fork)

variable {Tx Rc Wd : Type}

/-- The fields that a fork has. -/
def Fork.hasWithdrawals : Fork → Bool
  | .bellatrix => false
  | _ => true
def Fork.hasBlobs : Fork → Bool
  | .deneb => true
  | .electra => true
  | _ => false
def Fork.hasRequests : Fork → Bool
  | .electra => true
  | _ => false

/-- The header of a proof-of-stake block of this fork: no uncles, no difficulty, no nonce, a base fee, and those
optional fields that the fork has. -/
structure PosHeader (l : ExecLib Tx Rc Wd) (fork : Fork) (h : Header) : Prop where
  ommers : h.ommersHash = l.keccak (l.ommers.enc [])
  difficulty : h.difficulty = 0
  nonce : h.nonce = 0
  baseFee : h.baseFee.isSome
  withdrawals : h.withdrawalsRoot.isSome = Fork.hasWithdrawals fork
  blobGas : h.blobGasUsed.isSome = Fork.hasBlobs fork
  excess : h.excessBlobGas.isSome = Fork.hasBlobs fork
  beacon : h.parentBeaconBlockRoot.isSome = Fork.hasBlobs fork
  requests : h.requestsHash.isSome = Fork.hasRequests fork

/-- The requests hash of EIP-7685: the hash of the hashes of those lists of requests that are not empty, each with its
type in front. -/
def eip7685 (sha256 : Bytes → Id) (r : Requests) : Id :=
  sha256 ((if r.deposits = [] then [] else (sha256 ([0] ++ r.deposits)).bytes) ++
    (if r.withdrawals = [] then [] else (sha256 ([1] ++ r.withdrawals)).bytes) ++
    (if r.consolidations = [] then [] else (sha256 ([2] ++ r.consolidations)).bytes))

/-- The beacon block carries this execution block: the fields of the payload are those of the header, its transactions
are the encoded transactions of the body, and the block hash is the hash of the header. -/
structure CarriesBlock (l : ExecLib Tx Rc Wd) (b : Beacon Wd) (h : Header) (body : Body Header Tx Wd) : Prop where
  hash : b.payload.blockHash = l.keccak (l.header.enc h)
  parentHash : b.payload.parentHash = h.parentHash
  feeRecipient : b.payload.feeRecipient = h.beneficiary
  stateRoot : b.payload.stateRoot = h.stateRoot
  receiptsRoot : b.payload.receiptsRoot = h.receiptsRoot
  logsBloom : b.payload.logsBloom = h.logsBloom
  prevRandao : b.payload.prevRandao = h.mixHash
  number : b.payload.blockNumber = h.number
  gasLimit : b.payload.gasLimit = h.gasLimit
  gasUsed : b.payload.gasUsed = h.gasUsed
  timestamp : b.payload.timestamp = h.timestamp
  extraData : b.payload.extraData = h.extraData
  baseFee : some b.payload.baseFee.toNat = h.baseFee.map UInt64.toNat
  withdrawals : body.withdrawals = if Fork.hasWithdrawals b.fork then some b.payload.withdrawals else none
  blobGasUsed : h.blobGasUsed = if Fork.hasBlobs b.fork then some b.payload.blobGasUsed else none
  excessBlobGas : h.excessBlobGas = if Fork.hasBlobs b.fork then some b.payload.excessBlobGas else none
  parentRoot : h.parentBeaconBlockRoot = if Fork.hasBlobs b.fork then some b.parentRoot else none
  requests : h.requestsHash = if Fork.hasRequests b.fork then some (eip7685 l.sha256 b.requests) else none

/-- The roots in the header are those of the body: uncles, transactions and withdrawals. -/
structure RootsOf (l : ExecLib Tx Rc Wd) (h : Header) (body : Body Header Tx Wd) : Prop where
  ommers : h.ommersHash = l.keccak (l.ommers.enc body.ommers)
  transactions : h.transactionsRoot = l.trieRoot (body.transactions.map l.tx.enc)
  withdrawals : h.withdrawalsRoot = body.withdrawals.map fun ws => l.trieRoot (ws.map l.withdrawal.enc)

/-- The execution block in a beacon block: one that it carries, without uncles, with the transactions that the payload
decodes to. -/
structure BlockOf (l : ExecLib Tx Rc Wd) (b : Beacon Wd) (h : Header) (body : Body Header Tx Wd) : Prop where
  header : PosHeader l b.fork h
  carries : CarriesBlock l b h body
  roots : RootsOf l h body
  ommers : body.ommers = []
  transactions : b.payload.transactions.map l.txEnvelope = body.transactions.map some

end Verif.Props
