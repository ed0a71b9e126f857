import Verif.Model.BlockJson
import Verif.Props.LcJsonSpec
import Verif.Props.BeaconBlockSpec

/-! # Which JSON stands for which beacon block -/

namespace Verif.Props.BlockJsonSpec
open Verif.SszT (Vec BList BytesN)
open Verif.JsonRpc (Json)
open Verif.BlockJson (Lib)
open Verif.BeaconBlock hiding eth1Data signedHeader proposerSlashing checkpoint attestationData indexedAttestation attesterSlashing
  attestationBase attestationElectra depositData deposit voluntaryExit signedVoluntaryExit blsChange signedBlsChange withdrawal
  depositRequest withdrawalRequest consolidationRequest executionRequests payloadBellatrix payloadCapella payloadDeneb bodyBellatrix
  bodyCapella bodyDeneb bodyElectra body block signed syncAggregate header transactions
open Verif.HeaderValidator (Fork)
open Verif.Props.BridgeSpec (Numeral)
open Verif.Props.BeaconBlockSpec (bitBytes)
open LcJsonSpec
open scoped Verif.Provider

/-! ## Values, beside the ones of `Props/LcJsonSpec` -/

/-- A number of 64 bits in quotes, or what the library takes for one. -/
def IsQuoted (lib : Lib) (j : Json) (n : UInt64) : Prop :=
  (∃ t, j = .str t ∧ Numeral t n.toNat) ∨ (∀ t m, j = .str t → ¬ Numeral t m) ∧ lib.quoted j = some n

/-- Bits: the bytes of a bit list, in hex digits with `0x`. -/
def IsBits (j : Json) (bits : List Bool) : Prop := IsHex j (bitBytes bits)

/-- A transaction: its bytes, of which no more than 2^30 are kept. -/
def IsTransaction (j : Json) (x : BList UInt8 1073741824) : Prop := ∃ bs, IsAnyHex j bs ∧ x.1 = bs.take 1073741824

/-! ## Structures -/

def Eth1DataJson (lib : Lib) (j : Json) (x : Eth1Data) : Prop :=
  IsObject false
    [needed (chars% "deposit_root") (IsWord lib.toLib · x.depositRoot), needed (chars% "deposit_count") (IsNumber lib.toLib ·
      x.depositCount), needed (chars% "block_hash") (IsWord lib.toLib · x.blockHash)] j

def SignedHeaderJson (lib : Lib) (j : Json) (x : SignedHeader) : Prop :=
  IsObject false
    [needed (chars% "message") (HeaderJson lib.toLib · x.message), needed (chars% "signature") (IsAnyHex · x.signature.1)] j

def ProposerSlashingJson (lib : Lib) (j : Json) (x : ProposerSlashing) : Prop :=
  IsObject false
    [needed (chars% "signed_header_1") (SignedHeaderJson lib · x.header1), needed (chars% "signed_header_2") (SignedHeaderJson lib
      · x.header2)] j

def CheckpointJson (lib : Lib) (j : Json) (x : Checkpoint) : Prop :=
  IsObject false
    [needed (chars% "epoch") (IsNumber lib.toLib · x.epoch), needed (chars% "root") (IsWord lib.toLib · x.root)] j

def AttestationDataJson (lib : Lib) (j : Json) (x : AttestationData) : Prop :=
  IsObject false
    [needed (chars% "slot") (IsNumber lib.toLib · x.slot), needed (chars% "index") (IsNumber lib.toLib · x.index), needed (chars%
      "beacon_block_root") (IsWord lib.toLib · x.beaconBlockRoot), needed (chars% "source") (CheckpointJson lib · x.source),
      needed (chars% "target") (CheckpointJson lib · x.target)] j

def IndexedAttestationJson (lib : Lib) (max : Nat) (j : Json) (x : IndexedAttestation max) : Prop :=
  IsObject false
    [needed (chars% "attesting_indices") (IsArray (IsQuoted lib) · x.attestingIndices.1), needed (chars% "data")
      (AttestationDataJson lib · x.data), needed (chars% "signature") (IsAnyHex · x.signature.1)] j

def AttesterSlashingJson (lib : Lib) (max : Nat) (j : Json) (x : AttesterSlashing max) : Prop :=
  IsObject false
    [needed (chars% "attestation_1") (IndexedAttestationJson lib max · x.attestation1), needed (chars% "attestation_2")
      (IndexedAttestationJson lib max · x.attestation2)] j

def AttestationBaseJson (lib : Lib) (j : Json) (x : AttestationBase) : Prop :=
  IsObject true
    [needed (chars% "aggregation_bits") (IsBits · x.aggregationBits.1), needed (chars% "data") (AttestationDataJson lib · x.data),
      needed (chars% "signature") (IsAnyHex · x.signature.1)] j

def AttestationElectraJson (lib : Lib) (j : Json) (x : AttestationElectra) : Prop :=
  IsObject true
    [needed (chars% "aggregation_bits") (IsBits · x.aggregationBits.1), needed (chars% "data") (AttestationDataJson lib · x.data),
      needed (chars% "signature") (IsAnyHex · x.signature.1), needed (chars% "committee_bits") (IsHex · x.committeeBits.1)] j

def DepositDataJson (lib : Lib) (j : Json) (x : DepositData) : Prop :=
  IsObject false
    [needed (chars% "pubkey") (IsKey · x.pubkey), needed (chars% "withdrawal_credentials") (IsWord lib.toLib ·
      x.withdrawalCredentials), needed (chars% "amount") (IsNumber lib.toLib · x.amount), needed (chars% "signature")
      (IsAnyHex · x.signature.1)] j

def DepositJson (lib : Lib) (j : Json) (x : Deposit) : Prop :=
  IsObject false
    [needed (chars% "proof") (IsArray (IsWord lib.toLib) · x.proof.1), needed (chars% "data") (DepositDataJson lib · x.data)] j

def VoluntaryExitJson (lib : Lib) (j : Json) (x : VoluntaryExit) : Prop :=
  IsObject false
    [needed (chars% "epoch") (IsNumber lib.toLib · x.epoch), needed (chars% "validator_index") (IsNumber lib.toLib ·
      x.validatorIndex)] j

def SignedVoluntaryExitJson (lib : Lib) (j : Json) (x : SignedVoluntaryExit) : Prop :=
  IsObject false
    [needed (chars% "message") (VoluntaryExitJson lib · x.message), needed (chars% "signature") (IsAnyHex · x.signature.1)] j

def BlsChangeJson (lib : Lib) (j : Json) (x : BlsChange) : Prop :=
  IsObject false
    [needed (chars% "validator_index") (IsNumber lib.toLib · x.validatorIndex), needed (chars% "from_bls_pubkey") (IsKey ·
      x.fromBlsPubkey), needed (chars% "to_execution_address") (IsBytes lib.toLib 20 · x.toExecutionAddress)] j

def SignedBlsChangeJson (lib : Lib) (j : Json) (x : SignedBlsChange) : Prop :=
  IsObject false
    [needed (chars% "message") (BlsChangeJson lib · x.message), needed (chars% "signature") (IsAnyHex · x.signature.1)] j

def WithdrawalJson (lib : Lib) (j : Json) (x : Withdrawal) : Prop :=
  IsObject false
    [needed (chars% "index") (IsNumber lib.toLib · x.index), needed (chars% "validator_index") (IsNumber lib.toLib ·
      x.validatorIndex), needed (chars% "address") (IsBytes lib.toLib 20 · x.address), needed (chars% "amount") (IsNumber
      lib.toLib · x.amount)] j

def DepositRequestJson (lib : Lib) (j : Json) (x : DepositRequest) : Prop :=
  IsObject false
    [needed (chars% "pubkey") (IsKey · x.pubkey), needed (chars% "withdrawal_credentials") (IsWord lib.toLib ·
      x.withdrawalCredentials), needed (chars% "amount") (IsNumber lib.toLib · x.amount), needed (chars% "signature")
      (IsAnyHex · x.signature.1), needed (chars% "index") (IsNumber lib.toLib · x.index)] j

def WithdrawalRequestJson (lib : Lib) (j : Json) (x : WithdrawalRequest) : Prop :=
  IsObject false
    [needed (chars% "source_address") (IsBytes lib.toLib 20 · x.sourceAddress), needed (chars% "validator_pubkey") (IsKey ·
      x.validatorPubkey), needed (chars% "amount") (IsNumber lib.toLib · x.amount)] j

def ConsolidationRequestJson (lib : Lib) (j : Json) (x : ConsolidationRequest) : Prop :=
  IsObject false
    [needed (chars% "source_address") (IsBytes lib.toLib 20 · x.sourceAddress), needed (chars% "source_pubkey") (IsKey ·
      x.sourcePubkey), needed (chars% "target_pubkey") (IsKey · x.targetPubkey)] j

def ExecutionRequestsJson (lib : Lib) (j : Json) (x : ExecutionRequests) : Prop :=
  IsObject false
    [needed (chars% "deposits") (IsArray (DepositRequestJson lib) · x.deposits.1), needed (chars% "withdrawals") (IsArray
      (WithdrawalRequestJson lib) · x.withdrawals.1), needed (chars% "consolidations") (IsArray (ConsolidationRequestJson lib)
      · x.consolidations.1)] j

def PayloadBellatrixJson (lib : Lib) (j : Json) (x : PayloadBellatrix) : Prop :=
  IsObject true
    [needed (chars% "parent_hash") (IsWord lib.toLib · x.parentHash), needed (chars% "fee_recipient") (IsBytes lib.toLib 20 ·
      x.feeRecipient), needed (chars% "state_root") (IsWord lib.toLib · x.stateRoot), needed (chars% "receipts_root") (IsWord
      lib.toLib · x.receiptsRoot), needed (chars% "logs_bloom") (IsHex · x.logsBloom.1), needed (chars% "prev_randao") (IsWord
      lib.toLib · x.prevRandao), needed (chars% "block_number") (IsNumber lib.toLib · x.blockNumber), needed (chars%
      "gas_limit") (IsNumber lib.toLib · x.gasLimit), needed (chars% "gas_used") (IsNumber lib.toLib · x.gasUsed), needed
      (chars% "timestamp") (IsNumber lib.toLib · x.timestamp), needed (chars% "extra_data") (IsHex · x.extraData.1), needed
      (chars% "base_fee_per_gas") (IsBig lib.toLib · x.baseFeePerGas), needed (chars% "block_hash") (IsWord lib.toLib ·
      x.blockHash), needed (chars% "transactions") (IsArray IsTransaction · x.transactions.1)] j

def PayloadCapellaJson (lib : Lib) (j : Json) (x : PayloadCapella) : Prop :=
  IsObject true
    [needed (chars% "parent_hash") (IsWord lib.toLib · x.parentHash), needed (chars% "fee_recipient") (IsBytes lib.toLib 20 ·
      x.feeRecipient), needed (chars% "state_root") (IsWord lib.toLib · x.stateRoot), needed (chars% "receipts_root") (IsWord
      lib.toLib · x.receiptsRoot), needed (chars% "logs_bloom") (IsHex · x.logsBloom.1), needed (chars% "prev_randao") (IsWord
      lib.toLib · x.prevRandao), needed (chars% "block_number") (IsNumber lib.toLib · x.blockNumber), needed (chars%
      "gas_limit") (IsNumber lib.toLib · x.gasLimit), needed (chars% "gas_used") (IsNumber lib.toLib · x.gasUsed), needed
      (chars% "timestamp") (IsNumber lib.toLib · x.timestamp), needed (chars% "extra_data") (IsHex · x.extraData.1), needed
      (chars% "base_fee_per_gas") (IsBig lib.toLib · x.baseFeePerGas), needed (chars% "block_hash") (IsWord lib.toLib ·
      x.blockHash), needed (chars% "transactions") (IsArray IsTransaction · x.transactions.1), needed (chars% "withdrawals")
      (IsArray (WithdrawalJson lib) · x.withdrawals.1)] j

def PayloadDenebJson (lib : Lib) (j : Json) (x : PayloadDeneb) : Prop :=
  IsObject true
    [needed (chars% "parent_hash") (IsWord lib.toLib · x.parentHash), needed (chars% "fee_recipient") (IsBytes lib.toLib 20 ·
      x.feeRecipient), needed (chars% "state_root") (IsWord lib.toLib · x.stateRoot), needed (chars% "receipts_root") (IsWord
      lib.toLib · x.receiptsRoot), needed (chars% "logs_bloom") (IsHex · x.logsBloom.1), needed (chars% "prev_randao") (IsWord
      lib.toLib · x.prevRandao), needed (chars% "block_number") (IsNumber lib.toLib · x.blockNumber), needed (chars%
      "gas_limit") (IsNumber lib.toLib · x.gasLimit), needed (chars% "gas_used") (IsNumber lib.toLib · x.gasUsed), needed
      (chars% "timestamp") (IsNumber lib.toLib · x.timestamp), needed (chars% "extra_data") (IsHex · x.extraData.1), needed
      (chars% "base_fee_per_gas") (IsBig lib.toLib · x.baseFeePerGas), needed (chars% "block_hash") (IsWord lib.toLib ·
      x.blockHash), needed (chars% "transactions") (IsArray IsTransaction · x.transactions.1), needed (chars% "withdrawals")
      (IsArray (WithdrawalJson lib) · x.withdrawals.1), needed (chars% "blob_gas_used") (IsNumber lib.toLib · x.blobGasUsed),
      needed (chars% "excess_blob_gas") (IsNumber lib.toLib · x.excessBlobGas)] j

def BodyBellatrixJson (lib : Lib) (j : Json) (x : BodyBellatrix) : Prop :=
  IsObject true
    [needed (chars% "randao_reveal") (IsAnyHex · x.randaoReveal.1), needed (chars% "eth1_data") (Eth1DataJson lib · x.eth1Data),
      needed (chars% "graffiti") (IsWord lib.toLib · x.graffiti), needed (chars% "proposer_slashings") (IsArray
      (ProposerSlashingJson lib) · x.proposerSlashings.1), needed (chars% "attester_slashings") (IsArray (AttesterSlashingJson
      lib 2048) · x.attesterSlashings.1), needed (chars% "attestations") (IsArray (AttestationBaseJson lib) ·
      x.attestations.1), needed (chars% "deposits") (IsArray (DepositJson lib) · x.deposits.1), needed (chars%
      "voluntary_exits") (IsArray (SignedVoluntaryExitJson lib) · x.voluntaryExits.1), needed (chars% "sync_aggregate")
      (AggregateJson · x.syncAggregate), needed (chars% "execution_payload") (PayloadBellatrixJson lib · x.executionPayload)]
      j

def BodyCapellaJson (lib : Lib) (j : Json) (x : BodyCapella) : Prop :=
  IsObject true
    [needed (chars% "randao_reveal") (IsAnyHex · x.randaoReveal.1), needed (chars% "eth1_data") (Eth1DataJson lib · x.eth1Data),
      needed (chars% "graffiti") (IsWord lib.toLib · x.graffiti), needed (chars% "proposer_slashings") (IsArray
      (ProposerSlashingJson lib) · x.proposerSlashings.1), needed (chars% "attester_slashings") (IsArray (AttesterSlashingJson
      lib 2048) · x.attesterSlashings.1), needed (chars% "attestations") (IsArray (AttestationBaseJson lib) ·
      x.attestations.1), needed (chars% "deposits") (IsArray (DepositJson lib) · x.deposits.1), needed (chars%
      "voluntary_exits") (IsArray (SignedVoluntaryExitJson lib) · x.voluntaryExits.1), needed (chars% "sync_aggregate")
      (AggregateJson · x.syncAggregate), needed (chars% "execution_payload") (PayloadCapellaJson lib · x.executionPayload),
      needed (chars% "bls_to_execution_changes") (IsArray (SignedBlsChangeJson lib) · x.blsChanges.1)] j

def BodyDenebJson (lib : Lib) (j : Json) (x : BodyDeneb) : Prop :=
  IsObject true
    [needed (chars% "randao_reveal") (IsAnyHex · x.randaoReveal.1), needed (chars% "eth1_data") (Eth1DataJson lib · x.eth1Data),
      needed (chars% "graffiti") (IsWord lib.toLib · x.graffiti), needed (chars% "proposer_slashings") (IsArray
      (ProposerSlashingJson lib) · x.proposerSlashings.1), needed (chars% "attester_slashings") (IsArray (AttesterSlashingJson
      lib 2048) · x.attesterSlashings.1), needed (chars% "attestations") (IsArray (AttestationBaseJson lib) ·
      x.attestations.1), needed (chars% "deposits") (IsArray (DepositJson lib) · x.deposits.1), needed (chars%
      "voluntary_exits") (IsArray (SignedVoluntaryExitJson lib) · x.voluntaryExits.1), needed (chars% "sync_aggregate")
      (AggregateJson · x.syncAggregate), needed (chars% "execution_payload") (PayloadDenebJson lib · x.executionPayload),
      needed (chars% "bls_to_execution_changes") (IsArray (SignedBlsChangeJson lib) · x.blsChanges.1), needed (chars%
      "blob_kzg_commitments") (IsArray (fun j c => IsAnyHex j c.1) · x.blobCommitments.1)] j

def BodyElectraJson (lib : Lib) (j : Json) (x : BodyElectra) : Prop :=
  IsObject true
    [needed (chars% "randao_reveal") (IsAnyHex · x.randaoReveal.1), needed (chars% "eth1_data") (Eth1DataJson lib · x.eth1Data),
      needed (chars% "graffiti") (IsWord lib.toLib · x.graffiti), needed (chars% "proposer_slashings") (IsArray
      (ProposerSlashingJson lib) · x.proposerSlashings.1), needed (chars% "attester_slashings") (IsArray (AttesterSlashingJson
      lib 131072) · x.attesterSlashings.1), needed (chars% "attestations") (IsArray (AttestationElectraJson lib) ·
      x.attestations.1), needed (chars% "deposits") (IsArray (DepositJson lib) · x.deposits.1), needed (chars%
      "voluntary_exits") (IsArray (SignedVoluntaryExitJson lib) · x.voluntaryExits.1), needed (chars% "sync_aggregate")
      (AggregateJson · x.syncAggregate), needed (chars% "execution_payload") (PayloadDenebJson lib · x.executionPayload),
      needed (chars% "bls_to_execution_changes") (IsArray (SignedBlsChangeJson lib) · x.blsChanges.1), needed (chars%
      "blob_kzg_commitments") (IsArray (fun j c => IsAnyHex j c.1) · x.blobCommitments.1), needed (chars%
      "execution_requests") (ExecutionRequestsJson lib · x.executionRequests)] j

def BodyJson (lib : Lib) : (f : Fork) → Json → Body f → Prop
  | .bellatrix => BodyBellatrixJson lib
  | .capella => BodyCapellaJson lib
  | .deneb => BodyDenebJson lib
  | .electra => BodyElectraJson lib

def BlockJson (lib : Lib) (f : Fork) (j : Json) (x : Block f) : Prop :=
  IsObject true
    [needed (chars% "slot") (IsNumber lib.toLib · x.slot), needed (chars% "proposer_index") (IsNumber lib.toLib · x.proposerIndex),
      needed (chars% "parent_root") (IsWord lib.toLib · x.parentRoot), needed (chars% "state_root") (IsWord lib.toLib · x.stateRoot),
      needed (chars% "body") (BodyJson lib f · x.body)] j

def SignedJson (lib : Lib) (f : Fork) (j : Json) (x : Signed f) : Prop :=
  IsObject false [needed (chars% "message") (BlockJson lib f · x.message), needed (chars% "signature") (IsAnyHex · x.signature.1)] j

/-! ## Signatures of a wrong length -/

/-- The fields that are signatures. -/
def signatureNames : List (List Char) := [chars% "signature", chars% "randao_reveal", chars% "sync_committee_signature"]

/-- The numbers of fields of the structures with a signature, and where it stands in them. -/
def places : List (Nat × Nat) := [(2, 1), (3, 2), (4, 2), (4, 3), (5, 3), (10, 0), (11, 0), (12, 0), (13, 0)]

/-- Somewhere in the document there is a signature of other than 96 bytes: a field of an object with such a name, or, where arrays
stand for structures, a value in such a place. -/
inductive Wrong : Json → Prop where
  | named {ms : List (List Char × Json)} {n : List Char} {v : Json} {bs : Bytes} (hm : (n, v) ∈ ms) (hn : n ∈ signatureNames)
      (hb : IsAnyHex v bs) (hl : bs.length ≠ 96) : Wrong (.obj ms)
  | placed {vs : List Json} {k : Nat} {v : Json} {bs : Bytes} (hk : (vs.length, k) ∈ places) (hv : vs[k]? = some v)
      (hb : IsAnyHex v bs) (hl : bs.length ≠ 96) : Wrong (.arr vs)
  | arr {vs : List Json} {v : Json} (hv : v ∈ vs) (h : Wrong v) : Wrong (.arr vs)
  | obj {ms : List (List Char × Json)} {n : List Char} {v : Json} (hv : (n, v) ∈ ms) (h : Wrong v) : Wrong (.obj ms)

end Verif.Props.BlockJsonSpec
