import Verif.Model.TreeHash
import Verif.Model.BeaconValue
import Verif.Model.Era

/-! # Beacon blocks (crates/ethportal-api/src/types/consensus/beacon_block.rs, body.rs, execution_payload.rs,
execution_requests.rs, deposit_request.rs, withdrawal_request.rs, consolidation_request.rs, kzg_commitment.rs)

with what they carry, in the forks Bellatrix, Capella, Deneb and Electra: their SSZ codecs and their hash trees, both of
which are derived. Decoding a `BlsSignature` on its own panics on bytes of another length (signature.rs:31-35) and decoding
a `PubKey` on its own pads or cuts them (pubkey.rs:38-41); inside a structure both get exactly their length. -/

namespace Verif.BeaconBlock
open Verif.Ssz Verif.SszT Verif.TreeHash
open Verif.LightClient (Header)
open Verif.HeaderValidator (Fork)
open Verif.BeaconValue (SyncAggregate)
open Verif.TreeHash (u64 u256 byteList list varList vector)

/-- `BeaconBlockHeader` (header.rs:9-20). -/
def header : Ty Header :=
  struct (.cons u64 <| .cons u64 <| .cons b256 <| .cons b256 <| .cons b256 .nil)
    (fun (a, b, c, d, e, _) => ⟨a, b, c, d, e⟩)
    (fun h => (h.slot, h.proposerIndex, h.parentRoot, h.stateRoot, h.bodyRoot, ()))

/-- `SyncAggregate` (body.rs:193-197). -/
def syncAggregate : Ty SyncAggregate :=
  struct (.cons (bytes 64) <| .cons (bytes 96) .nil) (fun (a, b, _) => ⟨a, b⟩) (fun x => (x.bits, x.signature, ()))

/-- `Transactions` (body.rs:199-200) of `ByteList1G` (types/bytes.rs:24). -/
abbrev Transactions := BList (BList UInt8 1073741824) 1048576

def transactions : Ty Transactions := varList (byteList 1073741824) 1048576

/-- `Eth1Data` (body.rs:348-354). -/
structure Eth1Data where
  depositRoot : Id
  depositCount : UInt64
  blockHash : Id
deriving DecidableEq

def eth1Data : Ty Eth1Data :=
  struct (.cons b256 <| .cons u64 <| .cons b256 .nil)
    (fun (a, b, c, _) => ⟨a, b, c⟩)
    (fun x => (x.depositRoot, x.depositCount, x.blockHash, ()))

/-- `SignedBeaconBlockHeader` (body.rs:208-212). -/
structure SignedHeader where
  message : Header
  signature : BytesN 96
deriving DecidableEq

def signedHeader : Ty SignedHeader :=
  struct (.cons header <| .cons (bytes 96) .nil)
    (fun (a, b, _) => ⟨a, b⟩)
    (fun x => (x.message, x.signature, ()))

/-- `ProposerSlashing` (body.rs:202-206). -/
structure ProposerSlashing where
  header1 : SignedHeader
  header2 : SignedHeader
deriving DecidableEq

def proposerSlashing : Ty ProposerSlashing :=
  struct (.cons signedHeader <| .cons signedHeader .nil)
    (fun (a, b, _) => ⟨a, b⟩)
    (fun x => (x.header1, x.header2, ()))

/-- `Checkpoint` (body.rs:329-333). -/
structure Checkpoint where
  epoch : UInt64
  root : Id
deriving DecidableEq

def checkpoint : Ty Checkpoint :=
  struct (.cons u64 <| .cons b256 .nil)
    (fun (a, b, _) => ⟨a, b⟩)
    (fun x => (x.epoch, x.root, ()))

/-- `AttestationData` (body.rs:318-327). -/
structure AttestationData where
  slot : UInt64
  index : UInt64
  beaconBlockRoot : Id
  source : Checkpoint
  target : Checkpoint
deriving DecidableEq

def attestationData : Ty AttestationData :=
  struct (.cons u64 <| .cons u64 <| .cons b256 <| .cons checkpoint <| .cons checkpoint .nil)
    (fun (a, b, c, d, e, _) => ⟨a, b, c, d, e⟩)
    (fun x => (x.slot, x.index, x.beaconBlockRoot, x.source, x.target, ()))

/-- `IndexedAttestationBase` and `IndexedAttestationElectra`, which differ in the bound (body.rs:288-316). -/
structure IndexedAttestation (max : Nat) where
  attestingIndices : BList UInt64 max
  data : AttestationData
  signature : BytesN 96
deriving DecidableEq

def indexedAttestation (max : Nat) : Ty (IndexedAttestation max) :=
  struct (.cons (list u64 max) <| .cons attestationData <| .cons (bytes 96) .nil)
    (fun (a, b, c, _) => ⟨a, b, c⟩)
    (fun x => (x.attestingIndices, x.data, x.signature, ()))

/-- `AttesterSlashing` (body.rs:214-240, base and Electra). -/
structure AttesterSlashing (max : Nat) where
  attestation1 : IndexedAttestation max
  attestation2 : IndexedAttestation max
deriving DecidableEq

def attesterSlashing (max : Nat) : Ty (AttesterSlashing max) :=
  struct (.cons (indexedAttestation max) <| .cons (indexedAttestation max) .nil)
    (fun (a, b, _) => ⟨a, b⟩)
    (fun x => (x.attestation1, x.attestation2, ()))

/-- `AttestationBase` (body.rs:242-272). -/
structure AttestationBase where
  aggregationBits : BList Bool 2048
  data : AttestationData
  signature : BytesN 96
deriving DecidableEq

def attestationBase : Ty AttestationBase :=
  struct (.cons (bitlist 2048) <| .cons attestationData <| .cons (bytes 96) .nil)
    (fun (a, b, c, _) => ⟨a, b, c⟩)
    (fun x => (x.aggregationBits, x.data, x.signature, ()))

/-- `AttestationElectra` (body.rs:242-272). -/
structure AttestationElectra where
  aggregationBits : BList Bool 131072
  data : AttestationData
  signature : BytesN 96
  committeeBits : BytesN 8
deriving DecidableEq

def attestationElectra : Ty AttestationElectra :=
  struct (.cons (bitlist 131072) <| .cons attestationData <| .cons (bytes 96) <| .cons (bytes 8) .nil)
    (fun (a, b, c, d, _) => ⟨a, b, c, d⟩)
    (fun x => (x.aggregationBits, x.data, x.signature, x.committeeBits, ()))

/-- `DepositData` (body.rs:279-286). -/
structure DepositData where
  pubkey : BytesN 48
  withdrawalCredentials : Id
  amount : UInt64
  signature : BytesN 96
deriving DecidableEq

def depositData : Ty DepositData :=
  struct (.cons (bytes 48) <| .cons b256 <| .cons u64 <| .cons (bytes 96) .nil)
    (fun (a, b, c, d, _) => ⟨a, b, c, d⟩)
    (fun x => (x.pubkey, x.withdrawalCredentials, x.amount, x.signature, ()))

/-- `Deposit` (body.rs:273-277). -/
structure Deposit where
  proof : Vec Id 33
  data : DepositData
deriving DecidableEq

def deposit : Ty Deposit :=
  struct (.cons (vector b256 33) <| .cons depositData .nil)
    (fun (a, b, _) => ⟨a, b⟩)
    (fun x => (x.proof, x.data, ()))

/-- `VoluntaryExit` (body.rs:341-346). -/
structure VoluntaryExit where
  epoch : UInt64
  validatorIndex : UInt64
deriving DecidableEq

def voluntaryExit : Ty VoluntaryExit :=
  struct (.cons u64 <| .cons u64 .nil)
    (fun (a, b, _) => ⟨a, b⟩)
    (fun x => (x.epoch, x.validatorIndex, ()))

/-- `SignedVoluntaryExit` (body.rs:335-339). -/
structure SignedVoluntaryExit where
  message : VoluntaryExit
  signature : BytesN 96
deriving DecidableEq

def signedVoluntaryExit : Ty SignedVoluntaryExit :=
  struct (.cons voluntaryExit <| .cons (bytes 96) .nil)
    (fun (a, b, _) => ⟨a, b⟩)
    (fun x => (x.message, x.signature, ()))

/-- `BLSToExecutionChange` (body.rs:362-368). -/
structure BlsChange where
  validatorIndex : UInt64
  fromBlsPubkey : BytesN 48
  toExecutionAddress : BytesN 20
deriving DecidableEq

def blsChange : Ty BlsChange :=
  struct (.cons u64 <| .cons (bytes 48) <| .cons (bytes 20) .nil)
    (fun (a, b, c, _) => ⟨a, b, c⟩)
    (fun x => (x.validatorIndex, x.fromBlsPubkey, x.toExecutionAddress, ()))

/-- `SignedBLSToExecutionChange` (body.rs:356-360). -/
structure SignedBlsChange where
  message : BlsChange
  signature : BytesN 96
deriving DecidableEq

def signedBlsChange : Ty SignedBlsChange :=
  struct (.cons blsChange <| .cons (bytes 96) .nil)
    (fun (a, b, _) => ⟨a, b⟩)
    (fun x => (x.message, x.signature, ()))

/-- `Withdrawal` (execution_payload.rs:190-200). -/
structure Withdrawal where
  index : UInt64
  validatorIndex : UInt64
  address : BytesN 20
  amount : UInt64
deriving DecidableEq

def withdrawal : Ty Withdrawal :=
  struct (.cons u64 <| .cons u64 <| .cons (bytes 20) <| .cons u64 .nil)
    (fun (a, b, c, d, _) => ⟨a, b, c, d⟩)
    (fun x => (x.index, x.validatorIndex, x.address, x.amount, ()))

/-- `DepositRequest` (deposit_request.rs:8-18). -/
structure DepositRequest where
  pubkey : BytesN 48
  withdrawalCredentials : Id
  amount : UInt64
  signature : BytesN 96
  index : UInt64
deriving DecidableEq

def depositRequest : Ty DepositRequest :=
  struct (.cons (bytes 48) <| .cons b256 <| .cons u64 <| .cons (bytes 96) <| .cons u64 .nil)
    (fun (a, b, c, d, e, _) => ⟨a, b, c, d, e⟩)
    (fun x => (x.pubkey, x.withdrawalCredentials, x.amount, x.signature, x.index, ()))

/-- `WithdrawalRequest` (withdrawal_request.rs:9-15). -/
structure WithdrawalRequest where
  sourceAddress : BytesN 20
  validatorPubkey : BytesN 48
  amount : UInt64
deriving DecidableEq

def withdrawalRequest : Ty WithdrawalRequest :=
  struct (.cons (bytes 20) <| .cons (bytes 48) <| .cons u64 .nil)
    (fun (a, b, c, _) => ⟨a, b, c⟩)
    (fun x => (x.sourceAddress, x.validatorPubkey, x.amount, ()))

/-- `ConsolidationRequest` (consolidation_request.rs:8-13). -/
structure ConsolidationRequest where
  sourceAddress : BytesN 20
  sourcePubkey : BytesN 48
  targetPubkey : BytesN 48
deriving DecidableEq

def consolidationRequest : Ty ConsolidationRequest :=
  struct (.cons (bytes 20) <| .cons (bytes 48) <| .cons (bytes 48) .nil)
    (fun (a, b, c, _) => ⟨a, b, c⟩)
    (fun x => (x.sourceAddress, x.sourcePubkey, x.targetPubkey, ()))

/-- `ExecutionRequests` (execution_requests.rs:16-30). -/
structure ExecutionRequests where
  deposits : BList DepositRequest 8192
  withdrawals : BList WithdrawalRequest 16
  consolidations : BList ConsolidationRequest 2
deriving DecidableEq

def executionRequests : Ty ExecutionRequests :=
  struct (.cons (list depositRequest 8192) <| .cons (list withdrawalRequest 16) <| .cons (list
      consolidationRequest 2) .nil)
    (fun (a, b, c, _) => ⟨a, b, c⟩)
    (fun x => (x.deposits, x.withdrawals, x.consolidations, ()))

/-- `PayloadBellatrix` (execution_payload.rs:47-80). -/
structure PayloadBellatrix where
  parentHash : Id
  feeRecipient : BytesN 20
  stateRoot : Id
  receiptsRoot : Id
  logsBloom : BytesN 256
  prevRandao : Id
  blockNumber : UInt64
  gasLimit : UInt64
  gasUsed : UInt64
  timestamp : UInt64
  extraData : BList UInt8 32
  baseFeePerGas : BitVec 256
  blockHash : Id
  transactions : Transactions
deriving DecidableEq

def payloadBellatrix : Ty PayloadBellatrix :=
  struct (.cons b256 <| .cons (bytes 20) <| .cons b256 <| .cons b256 <| .cons (bytes 256) <| .cons b256 <| .cons
      u64 <| .cons u64 <| .cons u64 <| .cons u64 <| .cons (byteList 32) <| .cons u256 <| .cons b256 <| .cons
      transactions .nil)
    (fun (a, b, c, d, e, f, g, h, i, j, k, l, m, n, _) => ⟨a, b, c, d, e, f, g, h, i, j, k, l, m, n⟩)
    (fun x => (x.parentHash, x.feeRecipient, x.stateRoot, x.receiptsRoot, x.logsBloom, x.prevRandao,
        x.blockNumber, x.gasLimit, x.gasUsed, x.timestamp, x.extraData, x.baseFeePerGas, x.blockHash,
        x.transactions, ()))

/-- `PayloadCapella` (execution_payload.rs:47-80). -/
structure PayloadCapella where
  parentHash : Id
  feeRecipient : BytesN 20
  stateRoot : Id
  receiptsRoot : Id
  logsBloom : BytesN 256
  prevRandao : Id
  blockNumber : UInt64
  gasLimit : UInt64
  gasUsed : UInt64
  timestamp : UInt64
  extraData : BList UInt8 32
  baseFeePerGas : BitVec 256
  blockHash : Id
  transactions : Transactions
  withdrawals : BList Withdrawal 16
deriving DecidableEq

def payloadCapella : Ty PayloadCapella :=
  struct (.cons b256 <| .cons (bytes 20) <| .cons b256 <| .cons b256 <| .cons (bytes 256) <| .cons b256 <| .cons
      u64 <| .cons u64 <| .cons u64 <| .cons u64 <| .cons (byteList 32) <| .cons u256 <| .cons b256 <| .cons
      transactions <| .cons (list withdrawal 16) .nil)
    (fun (a, b, c, d, e, f, g, h, i, j, k, l, m, n, o, _) => ⟨a, b, c, d, e, f, g, h, i, j, k, l, m, n, o⟩)
    (fun x => (x.parentHash, x.feeRecipient, x.stateRoot, x.receiptsRoot, x.logsBloom, x.prevRandao,
        x.blockNumber, x.gasLimit, x.gasUsed, x.timestamp, x.extraData, x.baseFeePerGas, x.blockHash,
        x.transactions, x.withdrawals, ()))

/-- `ExecutionPayloadDeneb` and `ExecutionPayloadElectra`, which have the same fields (execution_payload.rs:47-80). -/
structure PayloadDeneb where
  parentHash : Id
  feeRecipient : BytesN 20
  stateRoot : Id
  receiptsRoot : Id
  logsBloom : BytesN 256
  prevRandao : Id
  blockNumber : UInt64
  gasLimit : UInt64
  gasUsed : UInt64
  timestamp : UInt64
  extraData : BList UInt8 32
  baseFeePerGas : BitVec 256
  blockHash : Id
  transactions : Transactions
  withdrawals : BList Withdrawal 16
  blobGasUsed : UInt64
  excessBlobGas : UInt64
deriving DecidableEq

def payloadDeneb : Ty PayloadDeneb :=
  struct (.cons b256 <| .cons (bytes 20) <| .cons b256 <| .cons b256 <| .cons (bytes 256) <| .cons b256 <| .cons
      u64 <| .cons u64 <| .cons u64 <| .cons u64 <| .cons (byteList 32) <| .cons u256 <| .cons b256 <| .cons
      transactions <| .cons (list withdrawal 16) <| .cons u64 <| .cons u64 .nil)
    (fun (a, b, c, d, e, f, g, h, i, j, k, l, m, n, o, p, q, _) => ⟨a, b, c, d, e, f, g, h, i, j, k, l, m, n, o,
        p, q⟩)
    (fun x => (x.parentHash, x.feeRecipient, x.stateRoot, x.receiptsRoot, x.logsBloom, x.prevRandao,
        x.blockNumber, x.gasLimit, x.gasUsed, x.timestamp, x.extraData, x.baseFeePerGas, x.blockHash,
        x.transactions, x.withdrawals, x.blobGasUsed, x.excessBlobGas, ()))

/-- `BodyBellatrix` (body.rs:59-96). -/
structure BodyBellatrix where
  randaoReveal : BytesN 96
  eth1Data : Eth1Data
  graffiti : Id
  proposerSlashings : BList ProposerSlashing 16
  attesterSlashings : BList (AttesterSlashing 2048) 2
  attestations : BList AttestationBase 128
  deposits : BList Deposit 16
  voluntaryExits : BList SignedVoluntaryExit 16
  syncAggregate : SyncAggregate
  executionPayload : PayloadBellatrix
deriving DecidableEq

def bodyBellatrix : Ty BodyBellatrix :=
  struct (.cons (bytes 96) <| .cons eth1Data <| .cons b256 <| .cons (list proposerSlashing 16) <| .cons (varList
      (attesterSlashing 2048) 2) <| .cons (varList attestationBase 128) <| .cons (list deposit 16) <| .cons
      (list signedVoluntaryExit 16) <| .cons syncAggregate <| .cons payloadBellatrix .nil)
    (fun (a, b, c, d, e, f, g, h, i, j, _) => ⟨a, b, c, d, e, f, g, h, i, j⟩)
    (fun x => (x.randaoReveal, x.eth1Data, x.graffiti, x.proposerSlashings, x.attesterSlashings, x.attestations,
        x.deposits, x.voluntaryExits, x.syncAggregate, x.executionPayload, ()))

/-- `BodyCapella` (body.rs:59-96). -/
structure BodyCapella where
  randaoReveal : BytesN 96
  eth1Data : Eth1Data
  graffiti : Id
  proposerSlashings : BList ProposerSlashing 16
  attesterSlashings : BList (AttesterSlashing 2048) 2
  attestations : BList AttestationBase 128
  deposits : BList Deposit 16
  voluntaryExits : BList SignedVoluntaryExit 16
  syncAggregate : SyncAggregate
  executionPayload : PayloadCapella
  blsChanges : BList SignedBlsChange 16
deriving DecidableEq

def bodyCapella : Ty BodyCapella :=
  struct (.cons (bytes 96) <| .cons eth1Data <| .cons b256 <| .cons (list proposerSlashing 16) <| .cons (varList
      (attesterSlashing 2048) 2) <| .cons (varList attestationBase 128) <| .cons (list deposit 16) <| .cons
      (list signedVoluntaryExit 16) <| .cons syncAggregate <| .cons payloadCapella <| .cons (list
      signedBlsChange 16) .nil)
    (fun (a, b, c, d, e, f, g, h, i, j, k, _) => ⟨a, b, c, d, e, f, g, h, i, j, k⟩)
    (fun x => (x.randaoReveal, x.eth1Data, x.graffiti, x.proposerSlashings, x.attesterSlashings, x.attestations,
        x.deposits, x.voluntaryExits, x.syncAggregate, x.executionPayload, x.blsChanges, ()))

/-- `BodyDeneb` (body.rs:59-96). -/
structure BodyDeneb where
  randaoReveal : BytesN 96
  eth1Data : Eth1Data
  graffiti : Id
  proposerSlashings : BList ProposerSlashing 16
  attesterSlashings : BList (AttesterSlashing 2048) 2
  attestations : BList AttestationBase 128
  deposits : BList Deposit 16
  voluntaryExits : BList SignedVoluntaryExit 16
  syncAggregate : SyncAggregate
  executionPayload : PayloadDeneb
  blsChanges : BList SignedBlsChange 16
  blobCommitments : BList (BytesN 48) 4096
deriving DecidableEq

def bodyDeneb : Ty BodyDeneb :=
  struct (.cons (bytes 96) <| .cons eth1Data <| .cons b256 <| .cons (list proposerSlashing 16) <| .cons (varList
      (attesterSlashing 2048) 2) <| .cons (varList attestationBase 128) <| .cons (list deposit 16) <| .cons
      (list signedVoluntaryExit 16) <| .cons syncAggregate <| .cons payloadDeneb <| .cons (list signedBlsChange
      16) <| .cons (list (bytes 48) 4096) .nil)
    (fun (a, b, c, d, e, f, g, h, i, j, k, l, _) => ⟨a, b, c, d, e, f, g, h, i, j, k, l⟩)
    (fun x => (x.randaoReveal, x.eth1Data, x.graffiti, x.proposerSlashings, x.attesterSlashings, x.attestations,
        x.deposits, x.voluntaryExits, x.syncAggregate, x.executionPayload, x.blsChanges, x.blobCommitments, ()))

/-- `BodyElectra` (body.rs:59-96). -/
structure BodyElectra where
  randaoReveal : BytesN 96
  eth1Data : Eth1Data
  graffiti : Id
  proposerSlashings : BList ProposerSlashing 16
  attesterSlashings : BList (AttesterSlashing 131072) 1
  attestations : BList AttestationElectra 8
  deposits : BList Deposit 16
  voluntaryExits : BList SignedVoluntaryExit 16
  syncAggregate : SyncAggregate
  executionPayload : PayloadDeneb
  blsChanges : BList SignedBlsChange 16
  blobCommitments : BList (BytesN 48) 4096
  executionRequests : ExecutionRequests
deriving DecidableEq

def bodyElectra : Ty BodyElectra :=
  struct (.cons (bytes 96) <| .cons eth1Data <| .cons b256 <| .cons (list proposerSlashing 16) <| .cons (varList
      (attesterSlashing 131072) 1) <| .cons (varList attestationElectra 8) <| .cons (list deposit 16) <| .cons
      (list signedVoluntaryExit 16) <| .cons syncAggregate <| .cons payloadDeneb <| .cons (list signedBlsChange
      16) <| .cons (list (bytes 48) 4096) <| .cons executionRequests .nil)
    (fun (a, b, c, d, e, f, g, h, i, j, k, l, m, _) => ⟨a, b, c, d, e, f, g, h, i, j, k, l, m⟩)
    (fun x => (x.randaoReveal, x.eth1Data, x.graffiti, x.proposerSlashings, x.attesterSlashings, x.attestations,
        x.deposits, x.voluntaryExits, x.syncAggregate, x.executionPayload, x.blsChanges, x.blobCommitments,
        x.executionRequests, ()))

/-- The body of a block of a fork (body.rs:59-96). -/
def Body : Fork → Type
  | .bellatrix => BodyBellatrix
  | .capella => BodyCapella
  | .deneb => BodyDeneb
  | .electra => BodyElectra

/-- Its codec and its tree, derived for each variant. -/
def body : (f : Fork) → Ty (Body f)
  | .bellatrix => bodyBellatrix
  | .capella => bodyCapella
  | .deneb => bodyDeneb
  | .electra => bodyElectra

/-- `BeaconBlock*` (beacon_block.rs:46-65). -/
structure Block (f : Fork) where
  slot : UInt64
  proposerIndex : UInt64
  parentRoot : Id
  stateRoot : Id
  body : Body f

def block (f : Fork) : Ty (Block f) :=
  struct (.cons u64 <| .cons u64 <| .cons b256 <| .cons b256 <| .cons (body f) .nil)
    (fun (a, b, c, d, e, _) => ⟨a, b, c, d, e⟩)
    (fun x => (x.slot, x.proposerIndex, x.parentRoot, x.stateRoot, x.body, ()))

/-- `SignedBeaconBlock*` (beacon_block.rs:188-198). -/
structure Signed (f : Fork) where
  message : Block f
  signature : BytesN 96

def signed (f : Fork) : Ty (Signed f) :=
  struct (.cons (block f) <| .cons (bytes 96) .nil) (fun (a, b, _) => ⟨a, b⟩) (fun x => (x.message, x.signature,
      ()))

/-- `BeaconBlock` and `SignedBeaconBlock`: a value of one of the variants. -/
abbrev AnyBlock := (f : Fork) × Block f
abbrev AnySigned := (f : Fork) × Signed f

/-- `as_ssz_bytes` of a `BeaconBlock` (beacon_block.rs:45, `enum_behaviour = "transparent"`): the bytes of the variant. -/
def AnyBlock.encode (b : AnyBlock) : Bytes := (block b.1).codec.enc b.2

/-- `BeaconBlock::from_ssz_bytes` (beacon_block.rs:68-75). -/
def decodeBlock (f : Fork) (bs : Bytes) : Option AnyBlock := ((block f).codec.dec bs).map fun b => ⟨f, b⟩

/-- `BeaconBlock::tree_hash_root`: the root of the variant. -/
def AnyBlock.root (H : Id → Id → Id) (b : AnyBlock) : Id := ((block b.1).tree b.2).root H

/-- `SignedBeaconBlock::from_block` (beacon_block.rs:228-243). -/
def fromBlock (b : AnyBlock) (signature : BytesN 96) : AnySigned := ⟨b.1, ⟨b.2, signature⟩⟩

/-- `as_ssz_bytes` of a `SignedBeaconBlock`. -/
def AnySigned.encode (b : AnySigned) : Bytes := (signed b.1).codec.enc b.2

/-- `SignedBeaconBlock::from_ssz_bytes_with` (beacon_block.rs:207-225), which is written by hand: a part of variable length
for the block, then the signature. -/
def decodeSignedWith (blockDecoder : Bytes → Option AnyBlock) (bs : Bytes) : Option AnySigned :=
  match decodeContainer [.var, .fixed 96] bs with
  | some [m, s] =>
    match blockDecoder m, (bytesN 96).dec s with
    | some b, some sig => some (fromBlock b sig)
    | _, _ => none
  | _ => none

/-- `SignedBeaconBlock::from_ssz_bytes` (beacon_block.rs:202-204). -/
def decodeSigned (f : Fork) (bs : Bytes) : Option AnySigned := decodeSignedWith (decodeBlock f) bs

/-- `SignedBeaconBlock::slot` (beacon_block.rs:246-253). -/
def AnySigned.slot (b : AnySigned) : UInt64 := b.2.message.slot

/-- `SignedBeaconBlock::execution_block_number` (beacon_block.rs:256-266). -/
def AnySigned.executionBlockNumber : AnySigned → UInt64
  | ⟨.bellatrix, b⟩ => BodyBellatrix.executionPayload b.message.body |>.blockNumber
  | ⟨.capella, b⟩ => BodyCapella.executionPayload b.message.body |>.blockNumber
  | ⟨.deneb, b⟩ => BodyDeneb.executionPayload b.message.body |>.blockNumber
  | ⟨.electra, b⟩ => BodyElectra.executionPayload b.message.body |>.blockNumber

/-- The forks of era files (Model/Era.lean) are the same ones. -/
def eraFork : Era.Fork → Fork
  | .bellatrix => .bellatrix
  | .capella => .capella
  | .deneb => .deneb
  | .electra => .electra

/-- How an era file holds a block (crates/e2store/src/era.rs:161-194): SSZ, then compression, which is arbitrary here. -/
def eraCodec (compress : Bytes → Bytes) (decompress : Bytes → Option Bytes) : Era.ForkCodec AnySigned where
  enc b := compress b.encode
  dec f bs := (decompress bs).bind (decodeSigned (eraFork f))

end Verif.BeaconBlock
