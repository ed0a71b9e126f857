import Verif.Model.BeaconBlock
import Verif.Props.MerkleSpec

/-! # Beacon blocks as the consensus specification has them

The bytes of a block and its hash, written down once more from the specifications of SSZ and of the forks: as
concatenations, and as Merkle trees of stated depths over stated leaves. -/

namespace Verif.Props.BeaconBlockSpec
open Verif Verif.SszT Verif.BeaconBlock
open Verif.HeaderValidator (Fork)
open Verif.LightClient (Header)
open Verif.BeaconValue (SyncAggregate)
open Verif.Merkle (listRoot)

/-! ## Bytes -/

/-- A value of fixed size stands in its place; for one of variable size its place has the position where it begins. -/
inductive Part where
  | inPlace (b : Bytes)
  | behind (b : Bytes)

def Part.size : Part → Nat
  | .inPlace b => b.length
  | .behind _ => 4

/-- The places; `pos` is where the next value behind begins. -/
def places (pos : Nat) : List Part → Bytes
  | [] => []
  | .inPlace b :: ps => b ++ places pos ps
  | .behind b :: ps => toLe 4 pos ++ places (pos + b.length) ps

def rest : List Part → Bytes
  | [] => []
  | .inPlace _ :: ps => rest ps
  | .behind b :: ps => b ++ rest ps

def layout (ps : List Part) : Bytes := places ((ps.map Part.size).sum) ps ++ rest ps

def le8 (x : UInt64) : Bytes := toLe 8 x.toNat

/-- A list of values of fixed size, and one of values of variable size. -/
def row {α} (each : α → Bytes) (l : List α) : Bytes := (l.map each).flatten
def table {α} (each : α → Bytes) (l : List α) : Bytes := layout (l.map fun x => .behind (each x))

/-- A list of bits: the bits and a one after the last, the first bit lowest, in as many bytes as that needs. -/
def bitBytes (l : List Bool) : Bytes := toLe (l.length / 8 + 1) (l.foldr (fun b n => (if b then 1 else 0) + 2 * n) 1)

def headerBytes (h : Header) : Bytes :=
  le8 h.slot ++ le8 h.proposerIndex ++ h.parentRoot.bytes ++ h.stateRoot.bytes ++ h.bodyRoot.bytes
def eth1DataBytes (e : Eth1Data) : Bytes := e.depositRoot.bytes ++ le8 e.depositCount ++ e.blockHash.bytes
def signedHeaderBytes (s : SignedHeader) : Bytes := headerBytes s.message ++ s.signature.1
def proposerSlashingBytes (s : ProposerSlashing) : Bytes := signedHeaderBytes s.header1 ++ signedHeaderBytes s.header2
def checkpointBytes (c : Checkpoint) : Bytes := le8 c.epoch ++ c.root.bytes
def attestationDataBytes (d : AttestationData) : Bytes :=
  le8 d.slot ++ le8 d.index ++ d.beaconBlockRoot.bytes ++ checkpointBytes d.source ++ checkpointBytes d.target
def indexedAttestationBytes {n} (a : IndexedAttestation n) : Bytes :=
  layout [.behind (row le8 a.attestingIndices.1), .inPlace (attestationDataBytes a.data), .inPlace a.signature.1]
def attesterSlashingBytes {n} (s : AttesterSlashing n) : Bytes :=
  layout [.behind (indexedAttestationBytes s.attestation1), .behind (indexedAttestationBytes s.attestation2)]
def attestationBaseBytes (a : AttestationBase) : Bytes :=
  layout [.behind (bitBytes a.aggregationBits.1), .inPlace (attestationDataBytes a.data), .inPlace a.signature.1]
def attestationElectraBytes (a : AttestationElectra) : Bytes :=
  layout [.behind (bitBytes a.aggregationBits.1), .inPlace (attestationDataBytes a.data), .inPlace a.signature.1,
    .inPlace a.committeeBits.1]
def depositDataBytes (d : DepositData) : Bytes :=
  d.pubkey.1 ++ d.withdrawalCredentials.bytes ++ le8 d.amount ++ d.signature.1
def depositBytes (d : Deposit) : Bytes := row Id.bytes d.proof.1 ++ depositDataBytes d.data
def voluntaryExitBytes (v : VoluntaryExit) : Bytes := le8 v.epoch ++ le8 v.validatorIndex
def signedVoluntaryExitBytes (s : SignedVoluntaryExit) : Bytes := voluntaryExitBytes s.message ++ s.signature.1
def blsChangeBytes (c : BlsChange) : Bytes := le8 c.validatorIndex ++ c.fromBlsPubkey.1 ++ c.toExecutionAddress.1
def signedBlsChangeBytes (s : SignedBlsChange) : Bytes := blsChangeBytes s.message ++ s.signature.1
def syncAggregateBytes (s : SyncAggregate) : Bytes := s.bits.1 ++ s.signature.1
def withdrawalBytes (w : Withdrawal) : Bytes := le8 w.index ++ le8 w.validatorIndex ++ w.address.1 ++ le8 w.amount
def depositRequestBytes (r : DepositRequest) : Bytes :=
  r.pubkey.1 ++ r.withdrawalCredentials.bytes ++ le8 r.amount ++ r.signature.1 ++ le8 r.index
def withdrawalRequestBytes (r : WithdrawalRequest) : Bytes := r.sourceAddress.1 ++ r.validatorPubkey.1 ++ le8 r.amount
def consolidationRequestBytes (r : ConsolidationRequest) : Bytes :=
  r.sourceAddress.1 ++ r.sourcePubkey.1 ++ r.targetPubkey.1
def executionRequestsBytes (r : ExecutionRequests) : Bytes :=
  layout [.behind (row depositRequestBytes r.deposits.1), .behind (row withdrawalRequestBytes r.withdrawals.1),
    .behind (row consolidationRequestBytes r.consolidations.1)]

def payloadBellatrixBytes (p : PayloadBellatrix) : Bytes :=
  layout [.inPlace p.parentHash.bytes, .inPlace p.feeRecipient.1, .inPlace p.stateRoot.bytes, .inPlace p.receiptsRoot.bytes,
    .inPlace p.logsBloom.1, .inPlace p.prevRandao.bytes, .inPlace (le8 p.blockNumber), .inPlace (le8 p.gasLimit),
    .inPlace (le8 p.gasUsed), .inPlace (le8 p.timestamp), .behind p.extraData.1, .inPlace (toLe 32 p.baseFeePerGas.toNat),
    .inPlace p.blockHash.bytes, .behind (table (fun t => t.1) p.transactions.1)]
def payloadCapellaBytes (p : PayloadCapella) : Bytes :=
  layout [.inPlace p.parentHash.bytes, .inPlace p.feeRecipient.1, .inPlace p.stateRoot.bytes, .inPlace p.receiptsRoot.bytes,
    .inPlace p.logsBloom.1, .inPlace p.prevRandao.bytes, .inPlace (le8 p.blockNumber), .inPlace (le8 p.gasLimit),
    .inPlace (le8 p.gasUsed), .inPlace (le8 p.timestamp), .behind p.extraData.1, .inPlace (toLe 32 p.baseFeePerGas.toNat),
    .inPlace p.blockHash.bytes, .behind (table (fun t => t.1) p.transactions.1), .behind (row withdrawalBytes p.withdrawals.1)]
def payloadDenebBytes (p : PayloadDeneb) : Bytes :=
  layout [.inPlace p.parentHash.bytes, .inPlace p.feeRecipient.1, .inPlace p.stateRoot.bytes, .inPlace p.receiptsRoot.bytes,
    .inPlace p.logsBloom.1, .inPlace p.prevRandao.bytes, .inPlace (le8 p.blockNumber), .inPlace (le8 p.gasLimit),
    .inPlace (le8 p.gasUsed), .inPlace (le8 p.timestamp), .behind p.extraData.1, .inPlace (toLe 32 p.baseFeePerGas.toNat),
    .inPlace p.blockHash.bytes, .behind (table (fun t => t.1) p.transactions.1), .behind (row withdrawalBytes p.withdrawals.1),
    .inPlace (le8 p.blobGasUsed), .inPlace (le8 p.excessBlobGas)]

def bodyBellatrixBytes (b : BodyBellatrix) : Bytes :=
  layout [.inPlace b.randaoReveal.1, .inPlace (eth1DataBytes b.eth1Data), .inPlace b.graffiti.bytes,
    .behind (row proposerSlashingBytes b.proposerSlashings.1), .behind (table attesterSlashingBytes b.attesterSlashings.1),
    .behind (table attestationBaseBytes b.attestations.1), .behind (row depositBytes b.deposits.1),
    .behind (row signedVoluntaryExitBytes b.voluntaryExits.1), .inPlace (syncAggregateBytes b.syncAggregate),
    .behind (payloadBellatrixBytes b.executionPayload)]
def bodyCapellaBytes (b : BodyCapella) : Bytes :=
  layout [.inPlace b.randaoReveal.1, .inPlace (eth1DataBytes b.eth1Data), .inPlace b.graffiti.bytes,
    .behind (row proposerSlashingBytes b.proposerSlashings.1), .behind (table attesterSlashingBytes b.attesterSlashings.1),
    .behind (table attestationBaseBytes b.attestations.1), .behind (row depositBytes b.deposits.1),
    .behind (row signedVoluntaryExitBytes b.voluntaryExits.1), .inPlace (syncAggregateBytes b.syncAggregate),
    .behind (payloadCapellaBytes b.executionPayload), .behind (row signedBlsChangeBytes b.blsChanges.1)]
def bodyDenebBytes (b : BodyDeneb) : Bytes :=
  layout [.inPlace b.randaoReveal.1, .inPlace (eth1DataBytes b.eth1Data), .inPlace b.graffiti.bytes,
    .behind (row proposerSlashingBytes b.proposerSlashings.1), .behind (table attesterSlashingBytes b.attesterSlashings.1),
    .behind (table attestationBaseBytes b.attestations.1), .behind (row depositBytes b.deposits.1),
    .behind (row signedVoluntaryExitBytes b.voluntaryExits.1), .inPlace (syncAggregateBytes b.syncAggregate),
    .behind (payloadDenebBytes b.executionPayload), .behind (row signedBlsChangeBytes b.blsChanges.1),
    .behind (row (fun k => k.1) b.blobCommitments.1)]
def bodyElectraBytes (b : BodyElectra) : Bytes :=
  layout [.inPlace b.randaoReveal.1, .inPlace (eth1DataBytes b.eth1Data), .inPlace b.graffiti.bytes,
    .behind (row proposerSlashingBytes b.proposerSlashings.1), .behind (table attesterSlashingBytes b.attesterSlashings.1),
    .behind (table attestationElectraBytes b.attestations.1), .behind (row depositBytes b.deposits.1),
    .behind (row signedVoluntaryExitBytes b.voluntaryExits.1), .inPlace (syncAggregateBytes b.syncAggregate),
    .behind (payloadDenebBytes b.executionPayload), .behind (row signedBlsChangeBytes b.blsChanges.1),
    .behind (row (fun k => k.1) b.blobCommitments.1), .behind (executionRequestsBytes b.executionRequests)]

def bodyBytes : (f : Fork) → Body f → Bytes
  | .bellatrix => bodyBellatrixBytes
  | .capella => bodyCapellaBytes
  | .deneb => bodyDenebBytes
  | .electra => bodyElectraBytes

def blockBytes {f : Fork} (b : Block f) : Bytes :=
  le8 b.slot ++ le8 b.proposerIndex ++ b.parentRoot.bytes ++ b.stateRoot.bytes ++ toLe 4 84 ++ bodyBytes f b.body

def signedBytes {f : Fork} (s : Signed f) : Bytes := toLe 4 100 ++ s.signature.1 ++ blockBytes s.message

/-! ## Hashes -/

variable (H : Id → Id → Id)

/-- Bytes as values of 32 bytes, the last one filled up with zeros. -/
def words (bs : Bytes) : List Id :=
  (List.range ((bs.length + 31) / 32)).map fun i =>
    BitVec.ofNat 256 (fromBe ((List.range 32).map fun j => bs.getD (32 * i + j) 0))

/-- A number below 2^256, lowest byte first. -/
def num (n : Nat) : Id := BitVec.ofNat 256 (fromBe (toLe 32 n))

/-- The root over `2 ^ d` leaves, and the one of a list that can have so many, which its length goes into. -/
def tree (d : Nat) (leaves : List Id) : Id := listRoot H d leaves
def listOf {α} (d : Nat) (each : α → Id) (l : List α) : Id := H (tree H d (l.map each)) (num l.length)
def key (k : Bytes) : Id := tree H 1 (words k)
def sig (s : Bytes) : Id := tree H 2 (words s)
def short (b : Bytes) : Id := tree H 0 (words b)

def headerHash (h : Header) : Id :=
  tree H 3 [num h.slot.toNat, num h.proposerIndex.toNat, h.parentRoot, h.stateRoot, h.bodyRoot]
def eth1DataHash (e : Eth1Data) : Id := tree H 2 [e.depositRoot, num e.depositCount.toNat, e.blockHash]
def signedHeaderHash (s : SignedHeader) : Id := tree H 1 [headerHash H s.message, sig H s.signature.1]
def proposerSlashingHash (s : ProposerSlashing) : Id :=
  tree H 1 [signedHeaderHash H s.header1, signedHeaderHash H s.header2]
def checkpointHash (c : Checkpoint) : Id := tree H 1 [num c.epoch.toNat, c.root]
def attestationDataHash (d : AttestationData) : Id :=
  tree H 3 [num d.slot.toNat, num d.index.toNat, d.beaconBlockRoot, checkpointHash H d.source, checkpointHash H d.target]
/-- Four numbers of 8 bytes to a leaf. -/
def indicesHash (d : Nat) (l : List UInt64) : Id := H (tree H d (words (row le8 l))) (num l.length)
/-- 256 bits to a leaf. -/
def bitsHash (d : Nat) (l : List Bool) : Id :=
  H (tree H d (words (toLe ((l.length + 7) / 8) (l.foldr (fun b n => (if b then 1 else 0) + 2 * n) 0)))) (num l.length)
def indexedAttestationHash (d : Nat) {n} (a : IndexedAttestation n) : Id :=
  tree H 2 [indicesHash H d a.attestingIndices.1, attestationDataHash H a.data, sig H a.signature.1]
def attesterSlashingHash (d : Nat) {n} (s : AttesterSlashing n) : Id :=
  tree H 1 [indexedAttestationHash H d s.attestation1, indexedAttestationHash H d s.attestation2]
def attestationBaseHash (a : AttestationBase) : Id :=
  tree H 2 [bitsHash H 3 a.aggregationBits.1, attestationDataHash H a.data, sig H a.signature.1]
def attestationElectraHash (a : AttestationElectra) : Id :=
  tree H 2 [bitsHash H 9 a.aggregationBits.1, attestationDataHash H a.data, sig H a.signature.1, short H a.committeeBits.1]
def depositDataHash (d : DepositData) : Id :=
  tree H 2 [key H d.pubkey.1, d.withdrawalCredentials, num d.amount.toNat, sig H d.signature.1]
def depositHash (d : Deposit) : Id := tree H 1 [tree H 6 d.proof.1, depositDataHash H d.data]
def voluntaryExitHash (v : VoluntaryExit) : Id := tree H 1 [num v.epoch.toNat, num v.validatorIndex.toNat]
def signedVoluntaryExitHash (s : SignedVoluntaryExit) : Id := tree H 1 [voluntaryExitHash H s.message, sig H s.signature.1]
def blsChangeHash (c : BlsChange) : Id :=
  tree H 2 [num c.validatorIndex.toNat, key H c.fromBlsPubkey.1, short H c.toExecutionAddress.1]
def signedBlsChangeHash (s : SignedBlsChange) : Id := tree H 1 [blsChangeHash H s.message, sig H s.signature.1]
def syncAggregateHash (s : SyncAggregate) : Id := tree H 1 [tree H 1 (words s.bits.1), sig H s.signature.1]
def withdrawalHash (w : Withdrawal) : Id :=
  tree H 2 [num w.index.toNat, num w.validatorIndex.toNat, short H w.address.1, num w.amount.toNat]
def depositRequestHash (r : DepositRequest) : Id :=
  tree H 3 [key H r.pubkey.1, r.withdrawalCredentials, num r.amount.toNat, sig H r.signature.1, num r.index.toNat]
def withdrawalRequestHash (r : WithdrawalRequest) : Id :=
  tree H 2 [short H r.sourceAddress.1, key H r.validatorPubkey.1, num r.amount.toNat]
def consolidationRequestHash (r : ConsolidationRequest) : Id :=
  tree H 2 [short H r.sourceAddress.1, key H r.sourcePubkey.1, key H r.targetPubkey.1]
def executionRequestsHash (r : ExecutionRequests) : Id :=
  tree H 2 [listOf H 13 (depositRequestHash H) r.deposits.1, listOf H 4 (withdrawalRequestHash H) r.withdrawals.1,
    listOf H 1 (consolidationRequestHash H) r.consolidations.1]
/-- A transaction has at most 2^30 bytes, that is 2^25 leaves; a block at most 2^20 transactions. -/
def transactionHash (t : Bytes) : Id := H (tree H 25 (words t)) (num t.length)
def transactionsHash (l : Transactions) : Id := listOf H 20 (fun t => transactionHash H t.1) l.1
def extraHash (b : Bytes) : Id := H (tree H 0 (words b)) (num b.length)

/-- The first twelve fields of a payload, and the fields behind the hash of the block. -/
def payloadBellatrixBefore (p : PayloadBellatrix) : Vector Id 12 :=
  #v[p.parentHash, short H p.feeRecipient.1, p.stateRoot, p.receiptsRoot, tree H 3 (words p.logsBloom.1), p.prevRandao,
    num p.blockNumber.toNat, num p.gasLimit.toNat, num p.gasUsed.toNat, num p.timestamp.toNat, extraHash H p.extraData.1,
    num p.baseFeePerGas.toNat]
def payloadBellatrixAfter (p : PayloadBellatrix) : Vector Id 1 := #v[transactionsHash H p.transactions]
def payloadCapellaBefore (p : PayloadCapella) : Vector Id 12 :=
  #v[p.parentHash, short H p.feeRecipient.1, p.stateRoot, p.receiptsRoot, tree H 3 (words p.logsBloom.1), p.prevRandao,
    num p.blockNumber.toNat, num p.gasLimit.toNat, num p.gasUsed.toNat, num p.timestamp.toNat, extraHash H p.extraData.1,
    num p.baseFeePerGas.toNat]
def payloadCapellaAfter (p : PayloadCapella) : Vector Id 2 :=
  #v[transactionsHash H p.transactions, listOf H 4 (withdrawalHash H) p.withdrawals.1]
def payloadDenebBefore (p : PayloadDeneb) : Vector Id 12 :=
  #v[p.parentHash, short H p.feeRecipient.1, p.stateRoot, p.receiptsRoot, tree H 3 (words p.logsBloom.1), p.prevRandao,
    num p.blockNumber.toNat, num p.gasLimit.toNat, num p.gasUsed.toNat, num p.timestamp.toNat, extraHash H p.extraData.1,
    num p.baseFeePerGas.toNat]
def payloadDenebAfter (p : PayloadDeneb) : Vector Id 4 :=
  #v[transactionsHash H p.transactions, listOf H 4 (withdrawalHash H) p.withdrawals.1, num p.blobGasUsed.toNat,
    num p.excessBlobGas.toNat]

/-- The first nine fields of a body, and the fields behind the payload. -/
def bodyBellatrixBefore (b : BodyBellatrix) : Vector Id 9 :=
  #v[sig H b.randaoReveal.1, eth1DataHash H b.eth1Data, b.graffiti, listOf H 4 (proposerSlashingHash H) b.proposerSlashings.1,
    listOf H 1 (attesterSlashingHash H 9) b.attesterSlashings.1, listOf H 7 (attestationBaseHash H) b.attestations.1,
    listOf H 4 (depositHash H) b.deposits.1, listOf H 4 (signedVoluntaryExitHash H) b.voluntaryExits.1,
    syncAggregateHash H b.syncAggregate]
def bodyCapellaBefore (b : BodyCapella) : Vector Id 9 :=
  #v[sig H b.randaoReveal.1, eth1DataHash H b.eth1Data, b.graffiti, listOf H 4 (proposerSlashingHash H) b.proposerSlashings.1,
    listOf H 1 (attesterSlashingHash H 9) b.attesterSlashings.1, listOf H 7 (attestationBaseHash H) b.attestations.1,
    listOf H 4 (depositHash H) b.deposits.1, listOf H 4 (signedVoluntaryExitHash H) b.voluntaryExits.1,
    syncAggregateHash H b.syncAggregate]
def bodyCapellaAfter (b : BodyCapella) : Vector Id 1 := #v[listOf H 4 (signedBlsChangeHash H) b.blsChanges.1]
def bodyDenebBefore (b : BodyDeneb) : Vector Id 9 :=
  #v[sig H b.randaoReveal.1, eth1DataHash H b.eth1Data, b.graffiti, listOf H 4 (proposerSlashingHash H) b.proposerSlashings.1,
    listOf H 1 (attesterSlashingHash H 9) b.attesterSlashings.1, listOf H 7 (attestationBaseHash H) b.attestations.1,
    listOf H 4 (depositHash H) b.deposits.1, listOf H 4 (signedVoluntaryExitHash H) b.voluntaryExits.1,
    syncAggregateHash H b.syncAggregate]
def bodyDenebAfter (b : BodyDeneb) : Vector Id 2 :=
  #v[listOf H 4 (signedBlsChangeHash H) b.blsChanges.1, listOf H 12 (fun k => key H k.1) b.blobCommitments.1]
def bodyElectraBefore (b : BodyElectra) : Vector Id 9 :=
  #v[sig H b.randaoReveal.1, eth1DataHash H b.eth1Data, b.graffiti, listOf H 4 (proposerSlashingHash H) b.proposerSlashings.1,
    listOf H 0 (attesterSlashingHash H 15) b.attesterSlashings.1, listOf H 3 (attestationElectraHash H) b.attestations.1,
    listOf H 4 (depositHash H) b.deposits.1, listOf H 4 (signedVoluntaryExitHash H) b.voluntaryExits.1,
    syncAggregateHash H b.syncAggregate]
def bodyElectraAfter (b : BodyElectra) : Vector Id 3 :=
  #v[listOf H 4 (signedBlsChangeHash H) b.blsChanges.1, listOf H 12 (fun k => key H k.1) b.blobCommitments.1,
    executionRequestsHash H b.executionRequests]

/-- A block seen through the hashes of its fields, as in C50. -/
def fields : (f : Fork) → Block f → HeaderValidator.Block f
  | .bellatrix, b =>
    let body : BodyBellatrix := b.body
    ⟨#v[num b.slot.toNat, num b.proposerIndex.toNat, b.parentRoot, b.stateRoot], bodyBellatrixBefore H body, #v[],
      payloadBellatrixBefore H body.executionPayload, body.executionPayload.blockHash,
      payloadBellatrixAfter H body.executionPayload⟩
  | .capella, b =>
    let body : BodyCapella := b.body
    ⟨#v[num b.slot.toNat, num b.proposerIndex.toNat, b.parentRoot, b.stateRoot], bodyCapellaBefore H body,
      bodyCapellaAfter H body, payloadCapellaBefore H body.executionPayload, body.executionPayload.blockHash,
      payloadCapellaAfter H body.executionPayload⟩
  | .deneb, b =>
    let body : BodyDeneb := b.body
    ⟨#v[num b.slot.toNat, num b.proposerIndex.toNat, b.parentRoot, b.stateRoot], bodyDenebBefore H body,
      bodyDenebAfter H body, payloadDenebBefore H body.executionPayload, body.executionPayload.blockHash,
      payloadDenebAfter H body.executionPayload⟩
  | .electra, b =>
    let body : BodyElectra := b.body
    ⟨#v[num b.slot.toNat, num b.proposerIndex.toNat, b.parentRoot, b.stateRoot], bodyElectraBefore H body,
      bodyElectraAfter H body, payloadDenebBefore H body.executionPayload, body.executionPayload.blockHash,
      payloadDenebAfter H body.executionPayload⟩

/-- The hash of a block: of a tree of depth 3 over the fields, with a tree of depth 4 over the fields of the body, with one
over the fields of the payload, of depth 4 before Deneb and of depth 5 from there on. -/
def payloadDepth : Fork → Nat
  | .bellatrix => 4
  | .capella => 4
  | .deneb => 5
  | .electra => 5

def bodyHash {f : Fork} (b : Block f) : Id :=
  let v := fields H f b
  tree H 4 (v.bodyBefore.toList ++
    tree H (payloadDepth f) (v.payloadBefore.toList ++ v.blockHash :: v.payloadAfter.toList) :: v.bodyAfter.toList)

def blockHash {f : Fork} (b : Block f) : Id :=
  tree H 3 [num b.slot.toNat, num b.proposerIndex.toNat, b.parentRoot, b.stateRoot, bodyHash H b]

/-- What is hashed on the way to the hash of a block: all pairs of nodes next to each other in its tree. -/
def hashed (b : AnyBlock) : List (Id × Id) := ((block b.1).tree b.2).pairs H

/-- The number and the hash of the execution block in a block. -/
def execution : (f : Fork) → Block f → UInt64 × Id
  | .bellatrix, b => let p := BodyBellatrix.executionPayload b.body; (p.blockNumber, p.blockHash)
  | .capella, b => let p := BodyCapella.executionPayload b.body; (p.blockNumber, p.blockHash)
  | .deneb, b => let p := BodyDeneb.executionPayload b.body; (p.blockNumber, p.blockHash)
  | .electra, b => let p := BodyElectra.executionPayload b.body; (p.blockNumber, p.blockHash)

/-- The fork of an era file's block. -/
def eraForkOf (b : AnySigned) : Era.Fork :=
  match b.1 with
  | .bellatrix => .bellatrix
  | .capella => .capella
  | .deneb => .deneb
  | .electra => .electra

end Verif.Props.BeaconBlockSpec
