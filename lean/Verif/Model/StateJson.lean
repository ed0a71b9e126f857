import Verif.Model.BlockJson
import Verif.Model.BeaconState

/-! # The JSON of beacon states (crates/ethportal-api/src/types/consensus/beacon_state.rs)

What `#[derive(Serialize, Deserialize)]` makes of beacon states, and how a consensus provider's answer with a state is read
(`get_beacon_state`, crates/ethereum-rpc-client/src/consensus). It builds on Model/LcJson and Model/BlockJson; what is said there
about libraries and about documents with several faults holds here too. As in Model/BeaconState, the fields in which the forks
differ come last and are one field `tail` of the model's states, but not of the documents. -/

namespace Verif.StateJson
open Verif.E2store (Res)
open Verif.SszT (Vec BList BytesN)
open Verif.JsonRpc (Json)
open Verif.HeaderValidator (Fork)
open Verif.BeaconBlock (Eth1Data Checkpoint)
open Verif.BeaconState (ForkData Validator ExecBellatrix PendingDeposit PendingWithdrawal PendingConsolidation TailBellatrix
  TailCapella TailDeneb TailElectra Tail State FourBits AnyState)
open Verif.BeaconValue (SyncCommittee ExecCapella ExecDeneb Summary)
open Verif.LcJson hiding Lib
open Verif.BlockJson (boundedList untagged)
open scoped Verif.Provider

/-- What the libraries accept beyond the usual forms. -/
structure Lib extends toBlock : BlockJson.Lib where
  /-- `quoted_u8` of `serde_utils`: values that are no numeral of 8 bits in quotes -/
  flags : Json → Option UInt8
  /-- `bytes_4_hex` of `serde_utils`: values that are not `0x` and eight hex digits -/
  four : Json → Option (BytesN 4)

/-- An element of a list with `deserialize_with = "quoted_u64_var_list::deserialize"` or `"quoted_u64_fixed_vec::deserialize"`
(beacon_state.rs:100, 107, 127). There is no `serialize_with`: it is written as a number, without quotes. -/
def bare (lib : Lib) : JTy UInt64 where
  ser n := .num n.toNat
  de := (BlockJson.quoted lib.toBlock).de

/-- `ParticipationFlags` (participation_flags.rs:6-11): likewise. -/
def flags (lib : Lib) : JTy UInt8 where
  ser n := .num n.toNat
  de j := match j with
    | .str s =>
      match HeadGen.parseU64 s with
      | some n => if n < 256 then .ok (UInt8.ofNat n) else ofOption (lib.flags j)
      | none => ofOption (lib.flags j)
    | _ => ofOption (lib.flags j)

/-- `[u8; 4]` with `bytes_4_hex` (beacon_state.rs:297-300). -/
def version (lib : Lib) : JTy (BytesN 4) where
  ser x := .str (Hex.hexEncode x.1)
  de j := match (prefixedHex j).bind (sized 4) with
    | .ok x => .ok x
    | _ => ofOption (lib.four j)

/-- `bool`. -/
def flag : JTy Bool := ⟨Json.bool, fun j => ofOption j.asBool⟩

/-- `BitVector<U4>` of `ssz_types`: its byte in hex. -/
def fourBits : JTy FourBits where
  ser x := .str (Hex.hexEncode [x.1])
  de j := (prefixedHex j).bind fun bs => ofOption (BeaconState.fourBits.codec.dec bs)

/-- Fields as those of another structure. -/
def membersAs {α β} (r : Members α) (f : α → β) (g : β → α) : Members β where
  names := r.names
  ser x := r.ser (g x)
  de look := (r.de look).map f

/-- `Fork` (beacon_state.rs:293-302); `Epoch` is read with `as_u64` (beacon_state.rs:304-308). -/
def forkData (lib : Lib) : JTy ForkData :=
  struct false
    (.cons (chars% "previous_version") (version lib) <| .cons (chars% "current_version") (version lib) <| .cons (chars% "epoch")
      (u64 lib.toBlock.toLib) .nil)
    (fun (a, b, c, _) => ⟨a, b, c⟩)
    (fun x => (x.previousVersion, x.currentVersion, x.epoch, ()))

/-- `Validator` (beacon_state.rs:369-382). -/
def validator (lib : Lib) : JTy Validator :=
  struct false
    (.cons (chars% "pubkey") pubkey <| .cons (chars% "withdrawal_credentials") (word lib.toBlock.toLib) <| .cons (chars%
      "effective_balance") (u64 lib.toBlock.toLib) <| .cons (chars% "slashed") flag <| .cons (chars%
      "activation_eligibility_epoch") (u64 lib.toBlock.toLib) <| .cons (chars% "activation_epoch") (u64 lib.toBlock.toLib) <|
      .cons (chars% "exit_epoch") (u64 lib.toBlock.toLib) <| .cons (chars% "withdrawable_epoch") (u64 lib.toBlock.toLib) .nil)
    (fun (a, b, c, d, e, f, g, h, _) => ⟨a, b, c, d, e, f, g, h⟩)
    (fun x => (x.pubkey, x.withdrawalCredentials, x.effectiveBalance, x.slashed, x.activationEligibilityEpoch, x.activationEpoch,
      x.exitEpoch, x.withdrawableEpoch, ()))

/-- `ExecutionPayloadHeaderBellatrix` (execution_payload.rs:213-275). -/
def execBellatrix (lib : Lib) : JTy ExecBellatrix :=
  struct false
    (.cons (chars% "parent_hash") (word lib.toBlock.toLib) <| .cons (chars% "fee_recipient") (fixed lib.toBlock.toLib 20) <| .cons
      (chars% "state_root") (word lib.toBlock.toLib) <| .cons (chars% "receipts_root") (word lib.toBlock.toLib) <| .cons
      (chars% "logs_bloom") (hexFixedVec 256) <| .cons (chars% "prev_randao") (word lib.toBlock.toLib) <| .cons (chars%
      "block_number") (u64 lib.toBlock.toLib) <| .cons (chars% "gas_limit") (u64 lib.toBlock.toLib) <| .cons (chars%
      "gas_used") (u64 lib.toBlock.toLib) <| .cons (chars% "timestamp") (u64 lib.toBlock.toLib) <| .cons (chars% "extra_data")
      (hexVarList 32) <| .cons (chars% "base_fee_per_gas") (bigDecimal lib.toBlock.toLib) <| .cons (chars% "block_hash") (word
      lib.toBlock.toLib) <| .cons (chars% "transactions_root") (word lib.toBlock.toLib) .nil)
    (fun (a, b, c, d, e, f, g, h, i, j, k, l, m, n, _) => ⟨a, b, c, d, e, f, g, h, i, j, k, l, m, n⟩)
    (fun x => (x.parentHash, x.feeRecipient, x.stateRoot, x.receiptsRoot, x.logsBloom, x.prevRandao, x.blockNumber, x.gasLimit,
      x.gasUsed, x.timestamp, x.extraData, x.baseFeePerGas, x.blockHash, x.transactionsRoot, ()))

/-- `HistoricalSummary` (historical_summaries.rs:18-22). -/
def summary (lib : Lib) : JTy Summary :=
  struct false
    (.cons (chars% "block_summary_root") (word lib.toBlock.toLib) <| .cons (chars% "state_summary_root") (word lib.toBlock.toLib)
      .nil)
    (fun (a, b, _) => ⟨a, b⟩)
    (fun x => (x.blockRoot, x.stateRoot, ()))

/-- `PendingDeposit` (pending_balance_deposit.rs:9-18). -/
def pendingDeposit (lib : Lib) : JTy PendingDeposit :=
  struct false
    (.cons (chars% "pubkey") pubkey <| .cons (chars% "withdrawal_credentials") (word lib.toBlock.toLib) <| .cons (chars% "amount")
      (u64 lib.toBlock.toLib) <| .cons (chars% "signature") signature <| .cons (chars% "slot") (u64 lib.toBlock.toLib) .nil)
    (fun (a, b, c, d, e, _) => ⟨a, b, c, d, e⟩)
    (fun x => (x.pubkey, x.withdrawalCredentials, x.amount, x.signature, x.slot, ()))

/-- `PendingPartialWithdrawal` (pending_partial_withdrawal.rs:9-16). -/
def pendingWithdrawal (lib : Lib) : JTy PendingWithdrawal :=
  struct false
    (.cons (chars% "validator_index") (u64 lib.toBlock.toLib) <| .cons (chars% "amount") (u64 lib.toBlock.toLib) <| .cons (chars%
      "withdrawable_epoch") (u64 lib.toBlock.toLib) .nil)
    (fun (a, b, c, _) => ⟨a, b, c⟩)
    (fun x => (x.validatorIndex, x.amount, x.withdrawableEpoch, ()))

/-- `PendingConsolidation` (pending_consolidation.rs:7-13). -/
def pendingConsolidation (lib : Lib) : JTy PendingConsolidation :=
  struct false
    (.cons (chars% "source_index") (u64 lib.toBlock.toLib) <| .cons (chars% "target_index") (u64 lib.toBlock.toLib) .nil)
    (fun (a, b, _) => ⟨a, b⟩)
    (fun x => (x.sourceIndex, x.targetIndex, ()))

/-- What only `BeaconStateBellatrix` and some other forks have (beacon_state.rs:136-192). -/
def tailBellatrix (lib : Lib) : Members TailBellatrix :=
  membersAs
    (.cons (chars% "latest_execution_payload_header") (execBellatrix lib) .nil)
    (fun (a, _) => ⟨a⟩)
    (fun x => (x.exec, ()))

/-- What only `BeaconStateCapella` and some other forks have (beacon_state.rs:136-192). -/
def tailCapella (lib : Lib) : Members TailCapella :=
  membersAs
    (.cons (chars% "latest_execution_payload_header") (LcJson.execCapella lib.toBlock.toLib) <| .cons (chars%
      "next_withdrawal_index") (u64 lib.toBlock.toLib) <| .cons (chars% "next_withdrawal_validator_index") (u64
      lib.toBlock.toLib) <| .cons (chars% "historical_summaries") (boundedList (summary lib) 16777216) .nil)
    (fun (a, b, c, d, _) => ⟨a, b, c, d⟩)
    (fun x => (x.exec, x.nextWithdrawalIndex, x.nextWithdrawalValidatorIndex, x.summaries, ()))

/-- What only `BeaconStateDeneb` and some other forks have (beacon_state.rs:136-192). -/
def tailDeneb (lib : Lib) : Members TailDeneb :=
  membersAs
    (.cons (chars% "latest_execution_payload_header") (LcJson.execDeneb lib.toBlock.toLib) <| .cons (chars%
      "next_withdrawal_index") (u64 lib.toBlock.toLib) <| .cons (chars% "next_withdrawal_validator_index") (u64
      lib.toBlock.toLib) <| .cons (chars% "historical_summaries") (boundedList (summary lib) 16777216) .nil)
    (fun (a, b, c, d, _) => ⟨a, b, c, d⟩)
    (fun x => (x.exec, x.nextWithdrawalIndex, x.nextWithdrawalValidatorIndex, x.summaries, ()))

/-- What only `BeaconStateElectra` and some other forks have (beacon_state.rs:136-192). -/
def tailElectra (lib : Lib) : Members TailElectra :=
  membersAs
    (.cons (chars% "latest_execution_payload_header") (LcJson.execDeneb lib.toBlock.toLib) <| .cons (chars%
      "next_withdrawal_index") (u64 lib.toBlock.toLib) <| .cons (chars% "next_withdrawal_validator_index") (u64
      lib.toBlock.toLib) <| .cons (chars% "historical_summaries") (boundedList (summary lib) 16777216) <| .cons (chars%
      "deposit_requests_start_index") (u64 lib.toBlock.toLib) <| .cons (chars% "deposit_balance_to_consume") (u64
      lib.toBlock.toLib) <| .cons (chars% "exit_balance_to_consume") (u64 lib.toBlock.toLib) <| .cons (chars%
      "earliest_exit_epoch") (u64 lib.toBlock.toLib) <| .cons (chars% "consolidation_balance_to_consume") (u64
      lib.toBlock.toLib) <| .cons (chars% "earliest_consolidation_epoch") (u64 lib.toBlock.toLib) <| .cons (chars%
      "pending_deposits") (boundedList (pendingDeposit lib) 134217728) <| .cons (chars% "pending_partial_withdrawals")
      (boundedList (pendingWithdrawal lib) 134217728) <| .cons (chars% "pending_consolidations") (boundedList
      (pendingConsolidation lib) 262144) .nil)
    (fun (a, b, c, d, e, f, g, h, i, j, k, l, m, _) => ⟨a, b, c, d, e, f, g, h, i, j, k, l, m⟩)
    (fun x => (x.exec, x.nextWithdrawalIndex, x.nextWithdrawalValidatorIndex, x.summaries, x.depositRequestsStartIndex,
      x.depositBalanceToConsume, x.exitBalanceToConsume, x.earliestExitEpoch, x.consolidationBalanceToConsume,
      x.earliestConsolidationEpoch, x.pendingDeposits, x.pendingWithdrawals, x.pendingConsolidations, ()))

def tail (lib : Lib) : (f : Fork) → Members (Tail f)
  | .bellatrix => tailBellatrix lib
  | .capella => tailCapella lib
  | .deneb => tailDeneb lib
  | .electra => tailElectra lib

/-- `BeaconState*` (beacon_state.rs:51-193). -/
def state (lib : Lib) (f : Fork) : JTy (State f) :=
  struct true
    (.cons (chars% "genesis_time") (u64 lib.toBlock.toLib) <| .cons (chars% "genesis_validators_root") (word lib.toBlock.toLib) <|
      .cons (chars% "slot") (u64 lib.toBlock.toLib) <| .cons (chars% "fork") (forkData lib) <| .cons (chars%
      "latest_block_header") (LcJson.header lib.toBlock.toLib) <| .cons (chars% "block_roots") (vector (word
      lib.toBlock.toLib) 8192) <| .cons (chars% "state_roots") (vector (word lib.toBlock.toLib) 8192) <| .cons (chars%
      "historical_roots") (boundedList (word lib.toBlock.toLib) 16777216) <| .cons (chars% "eth1_data") (BlockJson.eth1Data
      lib.toBlock) <| .cons (chars% "eth1_data_votes") (boundedList (BlockJson.eth1Data lib.toBlock) 2048) <| .cons (chars%
      "eth1_deposit_index") (u64 lib.toBlock.toLib) <| .cons (chars% "validators") (boundedList (validator lib) 1099511627776)
      <| .cons (chars% "balances") (boundedList (bare lib) 1099511627776) <| .cons (chars% "randao_mixes") (vector (word
      lib.toBlock.toLib) 65536) <| .cons (chars% "slashings") (vector (bare lib) 8192) <| .cons (chars%
      "previous_epoch_participation") (boundedList (flags lib) 1099511627776) <| .cons (chars% "current_epoch_participation")
      (boundedList (flags lib) 1099511627776) <| .cons (chars% "justification_bits") fourBits <| .cons (chars%
      "previous_justified_checkpoint") (BlockJson.checkpoint lib.toBlock) <| .cons (chars% "current_justified_checkpoint")
      (BlockJson.checkpoint lib.toBlock) <| .cons (chars% "finalized_checkpoint") (BlockJson.checkpoint lib.toBlock) <| .cons
      (chars% "inactivity_scores") (boundedList (bare lib) 1099511627776) <| .cons (chars% "current_sync_committee")
      LcJson.syncCommittee <| .cons (chars% "next_sync_committee") LcJson.syncCommittee <| tail lib f)
    (fun (a, b, c, d, e, g, h, i, j, k, l, m, n, o, p, q, r, s, t, u, v, w, x, y, tail) =>
      ⟨a, b, c, d, e, g, h, i, j, k, l, m, n, o, p, q, r, s, t, u, v, w, x, y, tail⟩)
    (fun x => (x.genesisTime, x.genesisValidatorsRoot, x.slot, x.fork, x.latestBlockHeader, x.blockRoots, x.stateRoots,
      x.historicalRoots, x.eth1Data, x.eth1DataVotes, x.eth1DepositIndex, x.validators, x.balances, x.randaoMixes,
      x.slashings, x.previousEpochParticipation, x.currentEpochParticipation, x.justificationBits, x.previousJustified,
      x.currentJustified, x.finalized, x.inactivityScores, x.currentSyncCommittee, x.nextSyncCommittee, x.tail))

/-- `BeaconState`, which is `untagged` (beacon_state.rs:67-68): one variant after the other. -/
def anyState (lib : Lib) : JTy AnyState := untagged (state lib)

/-- `get_beacon_state` with the JSON of an answer (consensus/mod.rs:142-151, 400-405). -/
def answer (lib : Lib) (j : Json) : Res (State .electra) := response (state lib .electra) j

end Verif.StateJson
