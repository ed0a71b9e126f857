import Verif.Model.LcJson
import Verif.Model.BeaconBlock

/-! # The JSON of beacon blocks (crates/ethportal-api/src/types/consensus)

What `#[derive(Serialize, Deserialize)]` makes of beacon blocks and of everything in them, with the serializers of single fields,
and how a consensus provider's answer with a block is read (`get_beacon_block`, crates/ethereum-rpc-client/src/consensus). It
builds on Model/LcJson; what is said there about libraries and about documents with several faults holds here too. -/

namespace Verif.BlockJson
open Verif.E2store (Res)
open Verif.SszT (Vec BList BytesN toBList)
open Verif.JsonRpc (Json)
open Verif.BeaconValue (SyncAggregate)
open Verif.HeaderValidator (Fork)
open Verif.BeaconBlock hiding eth1Data signedHeader proposerSlashing checkpoint attestationData indexedAttestation attesterSlashing
  attestationBase attestationElectra depositData deposit voluntaryExit signedVoluntaryExit blsChange signedBlsChange withdrawal
  depositRequest withdrawalRequest consolidationRequest executionRequests payloadBellatrix payloadCapella payloadDeneb bodyBellatrix
  bodyCapella bodyDeneb bodyElectra body block signed syncAggregate header transactions
open Verif.LcJson hiding Lib
open scoped Verif.Provider

/-- What the libraries accept beyond the usual forms. -/
structure Lib extends LcJson.Lib where
  /-- `quoted_u64_var_list` of `ssz_types`: elements that are no numeral of 64 bits in quotes -/
  quoted : Json → Option UInt64

/-- An element of `quoted_u64_var_list`. -/
def quoted (lib : Lib) : JTy UInt64 where
  ser n := .str (HeadGen.decimal n.toNat)
  de j := match j with
    | .str s =>
      match HeadGen.parseU64 s with
      | some n => .ok (UInt64.ofNat n)
      | none => ofOption (lib.quoted j)
    | _ => ofOption (lib.quoted j)

/-- `VariableList<T, max>` of `ssz_types`, which refuses longer ones. -/
def boundedList {α} (t : JTy α) (max : Nat) : JTy (BList α max) where
  ser x := .arr (x.1.map t.ser)
  de j := match j with
    | .arr js => (readAll t js).bind fun xs => if h : xs.length ≤ max then .ok ⟨xs, h⟩ else .err
    | _ => .err

/-- `BitList<max>` of `ssz_types`: its SSZ bytes in hex. -/
def bitList (max : Nat) : JTy (BList Bool max) where
  ser x := .str (Hex.hexEncode ((TreeHash.bitlist max).codec.enc x))
  de j := (prefixedHex j).bind fun bs => ofOption ((TreeHash.bitlist max).codec.dec bs)

/-- An element of `se_txs_to_hex` and `de_hex_to_txs` (serde.rs:9-18, 40-54); `VariableList::from` cuts what is too long. The list
is a `boundedList`: `push` refuses what goes beyond its bound. -/
def transaction : JTy (BList UInt8 1073741824) where
  ser x := .str (Hex.hexEncode x.1)
  de j := match j with
    | .str s => (ofExcept (Hex.hexDecode s)).map fun bs => ⟨bs.take 1073741824, by simp; omega⟩
    | _ => .err

/-- `KzgCommitment` (kzg_commitment.rs:74-116). -/
def commitment : JTy (BytesN 48) where
  ser x := .str (Hex.hexEncode x.1)
  de j := match j with
    | .str s => (ofExcept (Hex.hexDecode s)).bind (sized 48)
    | _ => .err

/-- `Eth1Data` (body.rs:348-354). -/
def eth1Data (lib : Lib) : JTy Eth1Data :=
  struct false
    (.cons (chars% "deposit_root") (word lib.toLib) <| .cons (chars% "deposit_count") (u64 lib.toLib) <| .cons (chars%
      "block_hash") (word lib.toLib) .nil)
    (fun (a, b, c, _) => ⟨a, b, c⟩)
    (fun x => (x.depositRoot, x.depositCount, x.blockHash, ()))

/-- `SignedBeaconBlockHeader` (body.rs:208-212). -/
def signedHeader (lib : Lib) : JTy SignedHeader :=
  struct false
    (.cons (chars% "message") (LcJson.header lib.toLib) <| .cons (chars% "signature") signature .nil)
    (fun (a, b, _) => ⟨a, b⟩)
    (fun x => (x.message, x.signature, ()))

/-- `ProposerSlashing` (body.rs:202-206). -/
def proposerSlashing (lib : Lib) : JTy ProposerSlashing :=
  struct false
    (.cons (chars% "signed_header_1") (signedHeader lib) <| .cons (chars% "signed_header_2") (signedHeader lib) .nil)
    (fun (a, b, _) => ⟨a, b⟩)
    (fun x => (x.header1, x.header2, ()))

/-- `Checkpoint` (body.rs:329-333); `Epoch` (beacon_state.rs:304-308) is read with `as_u64`. -/
def checkpoint (lib : Lib) : JTy Checkpoint :=
  struct false
    (.cons (chars% "epoch") (u64 lib.toLib) <| .cons (chars% "root") (word lib.toLib) .nil)
    (fun (a, b, _) => ⟨a, b⟩)
    (fun x => (x.epoch, x.root, ()))

/-- `AttestationData` (body.rs:318-327). -/
def attestationData (lib : Lib) : JTy AttestationData :=
  struct false
    (.cons (chars% "slot") (u64 lib.toLib) <| .cons (chars% "index") (u64 lib.toLib) <| .cons (chars% "beacon_block_root") (word
      lib.toLib) <| .cons (chars% "source") (checkpoint lib) <| .cons (chars% "target") (checkpoint lib) .nil)
    (fun (a, b, c, d, e, _) => ⟨a, b, c, d, e⟩)
    (fun x => (x.slot, x.index, x.beaconBlockRoot, x.source, x.target, ()))

/-- `IndexedAttestationBase` and `IndexedAttestationElectra` (body.rs:288-316). -/
def indexedAttestation (lib : Lib) (max : Nat) : JTy (IndexedAttestation max) :=
  struct false
    (.cons (chars% "attesting_indices") (boundedList (quoted lib) max) <| .cons (chars% "data") (attestationData lib) <| .cons
      (chars% "signature") signature .nil)
    (fun (a, b, c, _) => ⟨a, b, c⟩)
    (fun x => (x.attestingIndices, x.data, x.signature, ()))

/-- `AttesterSlashingBase` and `AttesterSlashingElectra` (body.rs:214-240). -/
def attesterSlashing (lib : Lib) (max : Nat) : JTy (AttesterSlashing max) :=
  struct false
    (.cons (chars% "attestation_1") (indexedAttestation lib max) <| .cons (chars% "attestation_2") (indexedAttestation lib max)
      .nil)
    (fun (a, b, _) => ⟨a, b⟩)
    (fun x => (x.attestation1, x.attestation2, ()))

/-- `AttestationBase` (body.rs:242-272). -/
def attestationBase (lib : Lib) : JTy AttestationBase :=
  struct true
    (.cons (chars% "aggregation_bits") (bitList 2048) <| .cons (chars% "data") (attestationData lib) <| .cons (chars% "signature")
      signature .nil)
    (fun (a, b, c, _) => ⟨a, b, c⟩)
    (fun x => (x.aggregationBits, x.data, x.signature, ()))

/-- `AttestationElectra` (body.rs:242-272). -/
def attestationElectra (lib : Lib) : JTy AttestationElectra :=
  struct true
    (.cons (chars% "aggregation_bits") (bitList 131072) <| .cons (chars% "data") (attestationData lib) <| .cons (chars%
      "signature") signature <| .cons (chars% "committee_bits") (hexFixedVec 8) .nil)
    (fun (a, b, c, d, _) => ⟨a, b, c, d⟩)
    (fun x => (x.aggregationBits, x.data, x.signature, x.committeeBits, ()))

/-- `DepositData` (body.rs:279-286). -/
def depositData (lib : Lib) : JTy DepositData :=
  struct false
    (.cons (chars% "pubkey") pubkey <| .cons (chars% "withdrawal_credentials") (word lib.toLib) <| .cons (chars% "amount") (u64
      lib.toLib) <| .cons (chars% "signature") signature .nil)
    (fun (a, b, c, d, _) => ⟨a, b, c, d⟩)
    (fun x => (x.pubkey, x.withdrawalCredentials, x.amount, x.signature, ()))

/-- `Deposit` (body.rs:273-277). -/
def deposit (lib : Lib) : JTy Deposit :=
  struct false
    (.cons (chars% "proof") (vector (word lib.toLib) 33) <| .cons (chars% "data") (depositData lib) .nil)
    (fun (a, b, _) => ⟨a, b⟩)
    (fun x => (x.proof, x.data, ()))

/-- `VoluntaryExit` (body.rs:341-346). -/
def voluntaryExit (lib : Lib) : JTy VoluntaryExit :=
  struct false
    (.cons (chars% "epoch") (u64 lib.toLib) <| .cons (chars% "validator_index") (u64 lib.toLib) .nil)
    (fun (a, b, _) => ⟨a, b⟩)
    (fun x => (x.epoch, x.validatorIndex, ()))

/-- `SignedVoluntaryExit` (body.rs:335-339). -/
def signedVoluntaryExit (lib : Lib) : JTy SignedVoluntaryExit :=
  struct false
    (.cons (chars% "message") (voluntaryExit lib) <| .cons (chars% "signature") signature .nil)
    (fun (a, b, _) => ⟨a, b⟩)
    (fun x => (x.message, x.signature, ()))

/-- `BLSToExecutionChange` (body.rs:362-368). -/
def blsChange (lib : Lib) : JTy BlsChange :=
  struct false
    (.cons (chars% "validator_index") (u64 lib.toLib) <| .cons (chars% "from_bls_pubkey") pubkey <| .cons (chars%
      "to_execution_address") (fixed lib.toLib 20) .nil)
    (fun (a, b, c, _) => ⟨a, b, c⟩)
    (fun x => (x.validatorIndex, x.fromBlsPubkey, x.toExecutionAddress, ()))

/-- `SignedBLSToExecutionChange` (body.rs:356-360). -/
def signedBlsChange (lib : Lib) : JTy SignedBlsChange :=
  struct false
    (.cons (chars% "message") (blsChange lib) <| .cons (chars% "signature") signature .nil)
    (fun (a, b, _) => ⟨a, b⟩)
    (fun x => (x.message, x.signature, ()))

/-- `Withdrawal` (execution_payload.rs:190-200). -/
def withdrawal (lib : Lib) : JTy Withdrawal :=
  struct false
    (.cons (chars% "index") (u64 lib.toLib) <| .cons (chars% "validator_index") (u64 lib.toLib) <| .cons (chars% "address") (fixed
      lib.toLib 20) <| .cons (chars% "amount") (u64 lib.toLib) .nil)
    (fun (a, b, c, d, _) => ⟨a, b, c, d⟩)
    (fun x => (x.index, x.validatorIndex, x.address, x.amount, ()))

/-- `DepositRequest` (deposit_request.rs:8-18). -/
def depositRequest (lib : Lib) : JTy DepositRequest :=
  struct false
    (.cons (chars% "pubkey") pubkey <| .cons (chars% "withdrawal_credentials") (word lib.toLib) <| .cons (chars% "amount") (u64
      lib.toLib) <| .cons (chars% "signature") signature <| .cons (chars% "index") (u64 lib.toLib) .nil)
    (fun (a, b, c, d, e, _) => ⟨a, b, c, d, e⟩)
    (fun x => (x.pubkey, x.withdrawalCredentials, x.amount, x.signature, x.index, ()))

/-- `WithdrawalRequest` (withdrawal_request.rs:9-15). -/
def withdrawalRequest (lib : Lib) : JTy WithdrawalRequest :=
  struct false
    (.cons (chars% "source_address") (fixed lib.toLib 20) <| .cons (chars% "validator_pubkey") pubkey <| .cons (chars% "amount")
      (u64 lib.toLib) .nil)
    (fun (a, b, c, _) => ⟨a, b, c⟩)
    (fun x => (x.sourceAddress, x.validatorPubkey, x.amount, ()))

/-- `ConsolidationRequest` (consolidation_request.rs:8-13). -/
def consolidationRequest (lib : Lib) : JTy ConsolidationRequest :=
  struct false
    (.cons (chars% "source_address") (fixed lib.toLib 20) <| .cons (chars% "source_pubkey") pubkey <| .cons (chars%
      "target_pubkey") pubkey .nil)
    (fun (a, b, c, _) => ⟨a, b, c⟩)
    (fun x => (x.sourceAddress, x.sourcePubkey, x.targetPubkey, ()))

/-- `ExecutionRequests` (execution_requests.rs:24-29). -/
def executionRequests (lib : Lib) : JTy ExecutionRequests :=
  struct false
    (.cons (chars% "deposits") (boundedList (depositRequest lib) 8192) <| .cons (chars% "withdrawals") (boundedList
      (withdrawalRequest lib) 16) <| .cons (chars% "consolidations") (boundedList (consolidationRequest lib) 2) .nil)
    (fun (a, b, c, _) => ⟨a, b, c⟩)
    (fun x => (x.deposits, x.withdrawals, x.consolidations, ()))

/-- `ExecutionPayloadBellatrix` (execution_payload.rs:24-80). -/
def payloadBellatrix (lib : Lib) : JTy PayloadBellatrix :=
  struct true
    (.cons (chars% "parent_hash") (word lib.toLib) <| .cons (chars% "fee_recipient") (fixed lib.toLib 20) <| .cons (chars%
      "state_root") (word lib.toLib) <| .cons (chars% "receipts_root") (word lib.toLib) <| .cons (chars% "logs_bloom")
      (hexFixedVec 256) <| .cons (chars% "prev_randao") (word lib.toLib) <| .cons (chars% "block_number") (u64 lib.toLib) <|
      .cons (chars% "gas_limit") (u64 lib.toLib) <| .cons (chars% "gas_used") (u64 lib.toLib) <| .cons (chars% "timestamp")
      (u64 lib.toLib) <| .cons (chars% "extra_data") (hexVarList 32) <| .cons (chars% "base_fee_per_gas") (bigDecimal
      lib.toLib) <| .cons (chars% "block_hash") (word lib.toLib) <| .cons (chars% "transactions") (boundedList transaction
      1048576) .nil)
    (fun (a, b, c, d, e, f, g, h, i, j, k, l, m, n, _) => ⟨a, b, c, d, e, f, g, h, i, j, k, l, m, n⟩)
    (fun x => (x.parentHash, x.feeRecipient, x.stateRoot, x.receiptsRoot, x.logsBloom, x.prevRandao, x.blockNumber, x.gasLimit,
      x.gasUsed, x.timestamp, x.extraData, x.baseFeePerGas, x.blockHash, x.transactions, ()))

/-- `ExecutionPayloadCapella` (execution_payload.rs:24-80). -/
def payloadCapella (lib : Lib) : JTy PayloadCapella :=
  struct true
    (.cons (chars% "parent_hash") (word lib.toLib) <| .cons (chars% "fee_recipient") (fixed lib.toLib 20) <| .cons (chars%
      "state_root") (word lib.toLib) <| .cons (chars% "receipts_root") (word lib.toLib) <| .cons (chars% "logs_bloom")
      (hexFixedVec 256) <| .cons (chars% "prev_randao") (word lib.toLib) <| .cons (chars% "block_number") (u64 lib.toLib) <|
      .cons (chars% "gas_limit") (u64 lib.toLib) <| .cons (chars% "gas_used") (u64 lib.toLib) <| .cons (chars% "timestamp")
      (u64 lib.toLib) <| .cons (chars% "extra_data") (hexVarList 32) <| .cons (chars% "base_fee_per_gas") (bigDecimal
      lib.toLib) <| .cons (chars% "block_hash") (word lib.toLib) <| .cons (chars% "transactions") (boundedList transaction
      1048576) <| .cons (chars% "withdrawals") (boundedList (withdrawal lib) 16) .nil)
    (fun (a, b, c, d, e, f, g, h, i, j, k, l, m, n, o, _) => ⟨a, b, c, d, e, f, g, h, i, j, k, l, m, n, o⟩)
    (fun x => (x.parentHash, x.feeRecipient, x.stateRoot, x.receiptsRoot, x.logsBloom, x.prevRandao, x.blockNumber, x.gasLimit,
      x.gasUsed, x.timestamp, x.extraData, x.baseFeePerGas, x.blockHash, x.transactions, x.withdrawals, ()))

/-- `ExecutionPayloadDeneb` and `ExecutionPayloadElectra` (execution_payload.rs:24-80). -/
def payloadDeneb (lib : Lib) : JTy PayloadDeneb :=
  struct true
    (.cons (chars% "parent_hash") (word lib.toLib) <| .cons (chars% "fee_recipient") (fixed lib.toLib 20) <| .cons (chars%
      "state_root") (word lib.toLib) <| .cons (chars% "receipts_root") (word lib.toLib) <| .cons (chars% "logs_bloom")
      (hexFixedVec 256) <| .cons (chars% "prev_randao") (word lib.toLib) <| .cons (chars% "block_number") (u64 lib.toLib) <|
      .cons (chars% "gas_limit") (u64 lib.toLib) <| .cons (chars% "gas_used") (u64 lib.toLib) <| .cons (chars% "timestamp")
      (u64 lib.toLib) <| .cons (chars% "extra_data") (hexVarList 32) <| .cons (chars% "base_fee_per_gas") (bigDecimal
      lib.toLib) <| .cons (chars% "block_hash") (word lib.toLib) <| .cons (chars% "transactions") (boundedList transaction
      1048576) <| .cons (chars% "withdrawals") (boundedList (withdrawal lib) 16) <| .cons (chars% "blob_gas_used") (u64
      lib.toLib) <| .cons (chars% "excess_blob_gas") (u64 lib.toLib) .nil)
    (fun (a, b, c, d, e, f, g, h, i, j, k, l, m, n, o, p, q, _) => ⟨a, b, c, d, e, f, g, h, i, j, k, l, m, n, o, p, q⟩)
    (fun x => (x.parentHash, x.feeRecipient, x.stateRoot, x.receiptsRoot, x.logsBloom, x.prevRandao, x.blockNumber, x.gasLimit,
      x.gasUsed, x.timestamp, x.extraData, x.baseFeePerGas, x.blockHash, x.transactions, x.withdrawals, x.blobGasUsed,
      x.excessBlobGas, ()))

/-- `BeaconBlockBodyBellatrix` (body.rs:40-94). -/
def bodyBellatrix (lib : Lib) : JTy BodyBellatrix :=
  struct true
    (.cons (chars% "randao_reveal") signature <| .cons (chars% "eth1_data") (eth1Data lib) <| .cons (chars% "graffiti") (word
      lib.toLib) <| .cons (chars% "proposer_slashings") (boundedList (proposerSlashing lib) 16) <| .cons (chars%
      "attester_slashings") (boundedList (attesterSlashing lib 2048) 2) <| .cons (chars% "attestations") (boundedList
      (attestationBase lib) 128) <| .cons (chars% "deposits") (boundedList (deposit lib) 16) <| .cons (chars%
      "voluntary_exits") (boundedList (signedVoluntaryExit lib) 16) <| .cons (chars% "sync_aggregate") syncAggregate <| .cons
      (chars% "execution_payload") (payloadBellatrix lib) .nil)
    (fun (a, b, c, d, e, f, g, h, i, j, _) => ⟨a, b, c, d, e, f, g, h, i, j⟩)
    (fun x => (x.randaoReveal, x.eth1Data, x.graffiti, x.proposerSlashings, x.attesterSlashings, x.attestations, x.deposits,
      x.voluntaryExits, x.syncAggregate, x.executionPayload, ()))

/-- `BeaconBlockBodyCapella` (body.rs:40-94). -/
def bodyCapella (lib : Lib) : JTy BodyCapella :=
  struct true
    (.cons (chars% "randao_reveal") signature <| .cons (chars% "eth1_data") (eth1Data lib) <| .cons (chars% "graffiti") (word
      lib.toLib) <| .cons (chars% "proposer_slashings") (boundedList (proposerSlashing lib) 16) <| .cons (chars%
      "attester_slashings") (boundedList (attesterSlashing lib 2048) 2) <| .cons (chars% "attestations") (boundedList
      (attestationBase lib) 128) <| .cons (chars% "deposits") (boundedList (deposit lib) 16) <| .cons (chars%
      "voluntary_exits") (boundedList (signedVoluntaryExit lib) 16) <| .cons (chars% "sync_aggregate") syncAggregate <| .cons
      (chars% "execution_payload") (payloadCapella lib) <| .cons (chars% "bls_to_execution_changes") (boundedList
      (signedBlsChange lib) 16) .nil)
    (fun (a, b, c, d, e, f, g, h, i, j, k, _) => ⟨a, b, c, d, e, f, g, h, i, j, k⟩)
    (fun x => (x.randaoReveal, x.eth1Data, x.graffiti, x.proposerSlashings, x.attesterSlashings, x.attestations, x.deposits,
      x.voluntaryExits, x.syncAggregate, x.executionPayload, x.blsChanges, ()))

/-- `BeaconBlockBodyDeneb` (body.rs:40-94). -/
def bodyDeneb (lib : Lib) : JTy BodyDeneb :=
  struct true
    (.cons (chars% "randao_reveal") signature <| .cons (chars% "eth1_data") (eth1Data lib) <| .cons (chars% "graffiti") (word
      lib.toLib) <| .cons (chars% "proposer_slashings") (boundedList (proposerSlashing lib) 16) <| .cons (chars%
      "attester_slashings") (boundedList (attesterSlashing lib 2048) 2) <| .cons (chars% "attestations") (boundedList
      (attestationBase lib) 128) <| .cons (chars% "deposits") (boundedList (deposit lib) 16) <| .cons (chars%
      "voluntary_exits") (boundedList (signedVoluntaryExit lib) 16) <| .cons (chars% "sync_aggregate") syncAggregate <| .cons
      (chars% "execution_payload") (payloadDeneb lib) <| .cons (chars% "bls_to_execution_changes") (boundedList
      (signedBlsChange lib) 16) <| .cons (chars% "blob_kzg_commitments") (boundedList commitment 4096) .nil)
    (fun (a, b, c, d, e, f, g, h, i, j, k, l, _) => ⟨a, b, c, d, e, f, g, h, i, j, k, l⟩)
    (fun x => (x.randaoReveal, x.eth1Data, x.graffiti, x.proposerSlashings, x.attesterSlashings, x.attestations, x.deposits,
      x.voluntaryExits, x.syncAggregate, x.executionPayload, x.blsChanges, x.blobCommitments, ()))

/-- `BeaconBlockBodyElectra` (body.rs:40-94). -/
def bodyElectra (lib : Lib) : JTy BodyElectra :=
  struct true
    (.cons (chars% "randao_reveal") signature <| .cons (chars% "eth1_data") (eth1Data lib) <| .cons (chars% "graffiti") (word
      lib.toLib) <| .cons (chars% "proposer_slashings") (boundedList (proposerSlashing lib) 16) <| .cons (chars%
      "attester_slashings") (boundedList (attesterSlashing lib 131072) 1) <| .cons (chars% "attestations") (boundedList
      (attestationElectra lib) 8) <| .cons (chars% "deposits") (boundedList (deposit lib) 16) <| .cons (chars%
      "voluntary_exits") (boundedList (signedVoluntaryExit lib) 16) <| .cons (chars% "sync_aggregate") syncAggregate <| .cons
      (chars% "execution_payload") (payloadDeneb lib) <| .cons (chars% "bls_to_execution_changes") (boundedList
      (signedBlsChange lib) 16) <| .cons (chars% "blob_kzg_commitments") (boundedList commitment 4096) <| .cons (chars%
      "execution_requests") (executionRequests lib) .nil)
    (fun (a, b, c, d, e, f, g, h, i, j, k, l, m, _) => ⟨a, b, c, d, e, f, g, h, i, j, k, l, m⟩)
    (fun x => (x.randaoReveal, x.eth1Data, x.graffiti, x.proposerSlashings, x.attesterSlashings, x.attestations, x.deposits,
      x.voluntaryExits, x.syncAggregate, x.executionPayload, x.blsChanges, x.blobCommitments, x.executionRequests, ()))

/-- The body of a block of a fork. -/
def body (lib : Lib) : (f : Fork) → JTy (Body f)
  | .bellatrix => bodyBellatrix lib
  | .capella => bodyCapella lib
  | .deneb => bodyDeneb lib
  | .electra => bodyElectra lib

/-- `BeaconBlock*` (beacon_block.rs:21-65). -/
def block (lib : Lib) (f : Fork) : JTy (Block f) :=
  struct true
    (.cons (chars% "slot") (u64 lib.toLib) <| .cons (chars% "proposer_index") (u64 lib.toLib) <|
      .cons (chars% "parent_root") (word lib.toLib) <| .cons (chars% "state_root") (word lib.toLib) <|
      .cons (chars% "body") (body lib f) .nil)
    (fun (a, b, c, d, e, _) => ⟨a, b, c, d, e⟩)
    (fun x => (x.slot, x.proposerIndex, x.parentRoot, x.stateRoot, x.body, ()))

/-- `SignedBeaconBlock*` (beacon_block.rs:171-198). -/
def signed (lib : Lib) (f : Fork) : JTy (Signed f) :=
  struct false (.cons (chars% "message") (block lib f) <| .cons (chars% "signature") signature .nil)
    (fun (a, b, _) => ⟨a, b⟩) (fun x => (x.message, x.signature, ()))

/-- The next variant is tried if the one before gives an error. -/
def orElse {α} (r : Res α) (next : Res α) : Res α :=
  match r with
  | .err => next
  | r => r

/-- `BeaconBlock` and `SignedBeaconBlock`, which are `untagged` (beacon_block.rs:42-46, 184-188): one variant after the other. -/
def untagged {T : Fork → Type} (t : (f : Fork) → JTy (T f)) : JTy ((f : Fork) × T f) where
  ser x := (t x.1).ser x.2
  de j := orElse (((t .bellatrix).de j).map fun x => ⟨.bellatrix, x⟩) <|
    orElse (((t .capella).de j).map fun x => ⟨.capella, x⟩) <|
    orElse (((t .deneb).de j).map fun x => ⟨.deneb, x⟩) (((t .electra).de j).map fun x => ⟨.electra, x⟩)

/-- `get_beacon_block` with the JSON of an answer (consensus/mod.rs:155-165, 400-405). -/
def answer (lib : Lib) (j : Json) : Res (Signed .electra) := response (signed lib .electra) j

end Verif.BlockJson
