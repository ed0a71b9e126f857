import Verif.Model.StateJson
import Verif.Props.BlockJsonSpec

/-! # Which JSON stands for which beacon state -/

namespace Verif.Props.StateJsonSpec
open Verif.SszT (Vec BList BytesN)
open Verif.JsonRpc (Json)
open Verif.StateJson (Lib)
open Verif.BeaconBlock (Eth1Data Checkpoint)
open Verif.BeaconState (ForkData Validator ExecBellatrix PendingDeposit PendingWithdrawal PendingConsolidation TailBellatrix
  TailCapella TailDeneb TailElectra Tail State FourBits AnyState)
open Verif.BeaconValue (SyncCommittee ExecCapella ExecDeneb Summary)
open Verif.HeaderValidator (Fork)
open Verif.Props.BridgeSpec (Numeral)
open LcJsonSpec
open BlockJsonSpec (IsQuoted Eth1DataJson CheckpointJson)
open scoped Verif.Provider

/-! ## Values, beside the ones of `Props/LcJsonSpec` and `Props/BlockJsonSpec` -/

/-- A number of 8 bits in quotes, or what the library takes for one. -/
def IsFlags (lib : Lib) (j : Json) (n : UInt8) : Prop :=
  (∃ t, j = .str t ∧ Numeral t n.toNat) ∨ (∀ t m, j = .str t → Numeral t m → 256 ≤ m) ∧ lib.flags j = some n

/-- Four bytes in hex digits with `0x`, or what the library takes for them. -/
def IsVersion (lib : Lib) (j : Json) (x : BytesN 4) : Prop :=
  IsHex j x.1 ∨ (∀ y : BytesN 4, ¬ IsHex j y.1) ∧ lib.four j = some x

/-! ## Structures -/

def ForkDataJson (lib : Lib) (j : Json) (x : ForkData) : Prop :=
  IsObject false
    [needed (chars% "previous_version") (IsVersion lib · x.previousVersion), needed (chars% "current_version") (IsVersion lib ·
      x.currentVersion), needed (chars% "epoch") (IsNumber lib.toBlock.toLib · x.epoch)] j

def ValidatorJson (lib : Lib) (j : Json) (x : Validator) : Prop :=
  IsObject false
    [needed (chars% "pubkey") (IsKey · x.pubkey), needed (chars% "withdrawal_credentials") (IsWord lib.toBlock.toLib ·
      x.withdrawalCredentials), needed (chars% "effective_balance") (IsNumber lib.toBlock.toLib · x.effectiveBalance), needed
      (chars% "slashed") (· = .bool x.slashed), needed (chars% "activation_eligibility_epoch") (IsNumber lib.toBlock.toLib ·
      x.activationEligibilityEpoch), needed (chars% "activation_epoch") (IsNumber lib.toBlock.toLib · x.activationEpoch),
      needed (chars% "exit_epoch") (IsNumber lib.toBlock.toLib · x.exitEpoch), needed (chars% "withdrawable_epoch") (IsNumber
      lib.toBlock.toLib · x.withdrawableEpoch)] j

def ExecBellatrixJson (lib : Lib) (j : Json) (x : ExecBellatrix) : Prop :=
  IsObject false
    [needed (chars% "parent_hash") (IsWord lib.toBlock.toLib · x.parentHash), needed (chars% "fee_recipient") (IsBytes
      lib.toBlock.toLib 20 · x.feeRecipient), needed (chars% "state_root") (IsWord lib.toBlock.toLib · x.stateRoot), needed
      (chars% "receipts_root") (IsWord lib.toBlock.toLib · x.receiptsRoot), needed (chars% "logs_bloom") (IsHex ·
      x.logsBloom.1), needed (chars% "prev_randao") (IsWord lib.toBlock.toLib · x.prevRandao), needed (chars% "block_number")
      (IsNumber lib.toBlock.toLib · x.blockNumber), needed (chars% "gas_limit") (IsNumber lib.toBlock.toLib · x.gasLimit),
      needed (chars% "gas_used") (IsNumber lib.toBlock.toLib · x.gasUsed), needed (chars% "timestamp") (IsNumber
      lib.toBlock.toLib · x.timestamp), needed (chars% "extra_data") (IsHex · x.extraData.1), needed (chars%
      "base_fee_per_gas") (IsBig lib.toBlock.toLib · x.baseFeePerGas), needed (chars% "block_hash") (IsWord lib.toBlock.toLib
      · x.blockHash), needed (chars% "transactions_root") (IsWord lib.toBlock.toLib · x.transactionsRoot)] j

def SummaryJson (lib : Lib) (j : Json) (x : Summary) : Prop :=
  IsObject false
    [needed (chars% "block_summary_root") (IsWord lib.toBlock.toLib · x.blockRoot), needed (chars% "state_summary_root") (IsWord
      lib.toBlock.toLib · x.stateRoot)] j

def PendingDepositJson (lib : Lib) (j : Json) (x : PendingDeposit) : Prop :=
  IsObject false
    [needed (chars% "pubkey") (IsKey · x.pubkey), needed (chars% "withdrawal_credentials") (IsWord lib.toBlock.toLib ·
      x.withdrawalCredentials), needed (chars% "amount") (IsNumber lib.toBlock.toLib · x.amount), needed (chars% "signature")
      (IsAnyHex · x.signature.1), needed (chars% "slot") (IsNumber lib.toBlock.toLib · x.slot)] j

def PendingWithdrawalJson (lib : Lib) (j : Json) (x : PendingWithdrawal) : Prop :=
  IsObject false
    [needed (chars% "validator_index") (IsNumber lib.toBlock.toLib · x.validatorIndex), needed (chars% "amount") (IsNumber
      lib.toBlock.toLib · x.amount), needed (chars% "withdrawable_epoch") (IsNumber lib.toBlock.toLib · x.withdrawableEpoch)]
      j

def PendingConsolidationJson (lib : Lib) (j : Json) (x : PendingConsolidation) : Prop :=
  IsObject false
    [needed (chars% "source_index") (IsNumber lib.toBlock.toLib · x.sourceIndex), needed (chars% "target_index") (IsNumber
      lib.toBlock.toLib · x.targetIndex)] j

def tailBellatrixFields (lib : Lib) (x : TailBellatrix) : List Field :=
  [needed (chars% "latest_execution_payload_header") (ExecBellatrixJson lib · x.exec)]

def tailCapellaFields (lib : Lib) (x : TailCapella) : List Field :=
  [needed (chars% "latest_execution_payload_header") (ExecCapellaJson lib.toBlock.toLib · x.exec), needed (chars%
    "next_withdrawal_index") (IsNumber lib.toBlock.toLib · x.nextWithdrawalIndex), needed (chars%
    "next_withdrawal_validator_index") (IsNumber lib.toBlock.toLib · x.nextWithdrawalValidatorIndex), needed (chars%
    "historical_summaries") (IsArray (SummaryJson lib) · x.summaries.1)]

def tailDenebFields (lib : Lib) (x : TailDeneb) : List Field :=
  [needed (chars% "latest_execution_payload_header") (ExecDenebJson lib.toBlock.toLib · x.exec), needed (chars%
    "next_withdrawal_index") (IsNumber lib.toBlock.toLib · x.nextWithdrawalIndex), needed (chars%
    "next_withdrawal_validator_index") (IsNumber lib.toBlock.toLib · x.nextWithdrawalValidatorIndex), needed (chars%
    "historical_summaries") (IsArray (SummaryJson lib) · x.summaries.1)]

def tailElectraFields (lib : Lib) (x : TailElectra) : List Field :=
  [needed (chars% "latest_execution_payload_header") (ExecDenebJson lib.toBlock.toLib · x.exec), needed (chars%
    "next_withdrawal_index") (IsNumber lib.toBlock.toLib · x.nextWithdrawalIndex), needed (chars%
    "next_withdrawal_validator_index") (IsNumber lib.toBlock.toLib · x.nextWithdrawalValidatorIndex), needed (chars%
    "historical_summaries") (IsArray (SummaryJson lib) · x.summaries.1), needed (chars% "deposit_requests_start_index")
    (IsNumber lib.toBlock.toLib · x.depositRequestsStartIndex), needed (chars% "deposit_balance_to_consume") (IsNumber
    lib.toBlock.toLib · x.depositBalanceToConsume), needed (chars% "exit_balance_to_consume") (IsNumber lib.toBlock.toLib ·
    x.exitBalanceToConsume), needed (chars% "earliest_exit_epoch") (IsNumber lib.toBlock.toLib · x.earliestExitEpoch), needed
    (chars% "consolidation_balance_to_consume") (IsNumber lib.toBlock.toLib · x.consolidationBalanceToConsume), needed (chars%
    "earliest_consolidation_epoch") (IsNumber lib.toBlock.toLib · x.earliestConsolidationEpoch), needed (chars%
    "pending_deposits") (IsArray (PendingDepositJson lib) · x.pendingDeposits.1), needed (chars%
    "pending_partial_withdrawals") (IsArray (PendingWithdrawalJson lib) · x.pendingWithdrawals.1), needed (chars%
    "pending_consolidations") (IsArray (PendingConsolidationJson lib) · x.pendingConsolidations.1)]

def tailFields (lib : Lib) : (f : Fork) → Tail f → List Field
  | .bellatrix => tailBellatrixFields lib
  | .capella => tailCapellaFields lib
  | .deneb => tailDenebFields lib
  | .electra => tailElectraFields lib

/-- The fields of a state. -/
def stateFields (lib : Lib) (f : Fork) (x : State f) : List Field :=
  [needed (chars% "genesis_time") (IsNumber lib.toBlock.toLib · x.genesisTime), needed (chars% "genesis_validators_root")
    (IsWord lib.toBlock.toLib · x.genesisValidatorsRoot), needed (chars% "slot") (IsNumber lib.toBlock.toLib · x.slot), needed
    (chars% "fork") (ForkDataJson lib · x.fork), needed (chars% "latest_block_header") (HeaderJson lib.toBlock.toLib ·
    x.latestBlockHeader), needed (chars% "block_roots") (IsArray (IsWord lib.toBlock.toLib) · x.blockRoots.1), needed (chars%
    "state_roots") (IsArray (IsWord lib.toBlock.toLib) · x.stateRoots.1), needed (chars% "historical_roots") (IsArray (IsWord
    lib.toBlock.toLib) · x.historicalRoots.1), needed (chars% "eth1_data") (Eth1DataJson lib.toBlock · x.eth1Data), needed
    (chars% "eth1_data_votes") (IsArray (Eth1DataJson lib.toBlock) · x.eth1DataVotes.1), needed (chars% "eth1_deposit_index")
    (IsNumber lib.toBlock.toLib · x.eth1DepositIndex), needed (chars% "validators") (IsArray (ValidatorJson lib) ·
    x.validators.1), needed (chars% "balances") (IsArray (IsQuoted lib.toBlock) · x.balances.1), needed (chars%
    "randao_mixes") (IsArray (IsWord lib.toBlock.toLib) · x.randaoMixes.1), needed (chars% "slashings") (IsArray (IsQuoted
    lib.toBlock) · x.slashings.1), needed (chars% "previous_epoch_participation") (IsArray (IsFlags lib) ·
    x.previousEpochParticipation.1), needed (chars% "current_epoch_participation") (IsArray (IsFlags lib) ·
    x.currentEpochParticipation.1), needed (chars% "justification_bits") (IsHex · [x.justificationBits.1]), needed (chars%
    "previous_justified_checkpoint") (CheckpointJson lib.toBlock · x.previousJustified), needed (chars%
    "current_justified_checkpoint") (CheckpointJson lib.toBlock · x.currentJustified), needed (chars% "finalized_checkpoint")
    (CheckpointJson lib.toBlock · x.finalized), needed (chars% "inactivity_scores") (IsArray (IsQuoted lib.toBlock) ·
    x.inactivityScores.1), needed (chars% "current_sync_committee") (CommitteeJson · x.currentSyncCommittee), needed (chars%
    "next_sync_committee") (CommitteeJson · x.nextSyncCommittee)] ++
  tailFields lib f x.tail

def StateJson (lib : Lib) (f : Fork) (j : Json) (x : State f) : Prop := IsObject true (stateFields lib f x) j

/-- The library takes numbers without quotes. -/
def TakesBare (lib : Lib) : Prop :=
  (∀ n : UInt64, lib.quoted (.num n.toNat) = some n) ∧ ∀ n : UInt8, lib.flags (.num n.toNat) = some n

end Verif.Props.StateJsonSpec
