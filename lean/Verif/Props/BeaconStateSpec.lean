import Verif.Model.BeaconState
import Verif.Props.BeaconBlockSpec

/-! # Beacon states as the consensus specification has them

The bytes of a state and its hash, written down from the specification, as in BeaconBlockSpec. -/

namespace Verif.Props.BeaconStateSpec
open Verif Verif.SszT Verif.BeaconBlock Verif.BeaconState Verif.Props.BeaconBlockSpec
open Verif.HeaderValidator (Fork)
open Verif.BeaconValue (SyncCommittee ExecCapella ExecDeneb)

/-! ## Bytes -/

def forkBytes (x : ForkData) : Bytes := x.previousVersion.1 ++ x.currentVersion.1 ++ le8 x.epoch
def flagByte (b : Bool) : Bytes := [if b then 1 else 0]
def validatorBytes (v : Validator) : Bytes :=
  v.pubkey.1 ++ v.withdrawalCredentials.bytes ++ le8 v.effectiveBalance ++ flagByte v.slashed ++
    le8 v.activationEligibilityEpoch ++ le8 v.activationEpoch ++ le8 v.exitEpoch ++ le8 v.withdrawableEpoch
def committeeBytes (c : SyncCommittee) : Bytes := row (fun k => k.1) c.pubkeys.1 ++ c.aggregatePubkey.1
def summaryBytes (s : BeaconValue.Summary) : Bytes := s.blockRoot.bytes ++ s.stateRoot.bytes
def pendingDepositBytes (d : PendingDeposit) : Bytes :=
  d.pubkey.1 ++ d.withdrawalCredentials.bytes ++ le8 d.amount ++ d.signature.1 ++ le8 d.slot
def pendingWithdrawalBytes (w : PendingWithdrawal) : Bytes :=
  le8 w.validatorIndex ++ le8 w.amount ++ le8 w.withdrawableEpoch
def pendingConsolidationBytes (c : PendingConsolidation) : Bytes := le8 c.sourceIndex ++ le8 c.targetIndex

def execBellatrixBytes (p : ExecBellatrix) : Bytes :=
  layout [.inPlace p.parentHash.bytes, .inPlace p.feeRecipient.1, .inPlace p.stateRoot.bytes, .inPlace p.receiptsRoot.bytes,
    .inPlace p.logsBloom.1, .inPlace p.prevRandao.bytes, .inPlace (le8 p.blockNumber), .inPlace (le8 p.gasLimit),
    .inPlace (le8 p.gasUsed), .inPlace (le8 p.timestamp), .behind p.extraData.1, .inPlace (toLe 32 p.baseFeePerGas.toNat),
    .inPlace p.blockHash.bytes, .inPlace p.transactionsRoot.bytes]
def execCapellaBytes (p : ExecCapella) : Bytes :=
  layout [.inPlace p.parentHash.bytes, .inPlace p.feeRecipient.1, .inPlace p.stateRoot.bytes, .inPlace p.receiptsRoot.bytes,
    .inPlace p.logsBloom.1, .inPlace p.prevRandao.bytes, .inPlace (le8 p.blockNumber), .inPlace (le8 p.gasLimit),
    .inPlace (le8 p.gasUsed), .inPlace (le8 p.timestamp), .behind p.extraData.1, .inPlace (toLe 32 p.baseFeePerGas.toNat),
    .inPlace p.blockHash.bytes, .inPlace p.transactionsRoot.bytes, .inPlace p.withdrawalsRoot.bytes]
def execDenebBytes (p : ExecDeneb) : Bytes :=
  layout [.inPlace p.parentHash.bytes, .inPlace p.feeRecipient.1, .inPlace p.stateRoot.bytes, .inPlace p.receiptsRoot.bytes,
    .inPlace p.logsBloom.1, .inPlace p.prevRandao.bytes, .inPlace (le8 p.blockNumber), .inPlace (le8 p.gasLimit),
    .inPlace (le8 p.gasUsed), .inPlace (le8 p.timestamp), .behind p.extraData.1, .inPlace (toLe 32 p.baseFeePerGas.toNat),
    .inPlace p.blockHash.bytes, .inPlace p.transactionsRoot.bytes, .inPlace p.withdrawalsRoot.bytes,
    .inPlace (le8 p.blobGasUsed), .inPlace (le8 p.excessBlobGas)]

/-- The fields behind the two committees. -/
def tailParts : (f : Fork) → Tail f → List Part
  | .bellatrix, t => [.behind (execBellatrixBytes (TailBellatrix.exec t))]
  | .capella, t =>
    let t : TailCapella := t
    [.behind (execCapellaBytes t.exec), .inPlace (le8 t.nextWithdrawalIndex), .inPlace (le8 t.nextWithdrawalValidatorIndex),
      .behind (row summaryBytes t.summaries.1)]
  | .deneb, t =>
    let t : TailDeneb := t
    [.behind (execDenebBytes t.exec), .inPlace (le8 t.nextWithdrawalIndex), .inPlace (le8 t.nextWithdrawalValidatorIndex),
      .behind (row summaryBytes t.summaries.1)]
  | .electra, t =>
    let t : TailElectra := t
    [.behind (execDenebBytes t.exec), .inPlace (le8 t.nextWithdrawalIndex), .inPlace (le8 t.nextWithdrawalValidatorIndex),
      .behind (row summaryBytes t.summaries.1), .inPlace (le8 t.depositRequestsStartIndex),
      .inPlace (le8 t.depositBalanceToConsume), .inPlace (le8 t.exitBalanceToConsume), .inPlace (le8 t.earliestExitEpoch),
      .inPlace (le8 t.consolidationBalanceToConsume), .inPlace (le8 t.earliestConsolidationEpoch),
      .behind (row pendingDepositBytes t.pendingDeposits.1), .behind (row pendingWithdrawalBytes t.pendingWithdrawals.1),
      .behind (row pendingConsolidationBytes t.pendingConsolidations.1)]

def stateBytes {f : Fork} (s : State f) : Bytes :=
  layout ([.inPlace (le8 s.genesisTime), .inPlace s.genesisValidatorsRoot.bytes, .inPlace (le8 s.slot),
    .inPlace (forkBytes s.fork), .inPlace (headerBytes s.latestBlockHeader), .inPlace (row Id.bytes s.blockRoots.1),
    .inPlace (row Id.bytes s.stateRoots.1), .behind (row Id.bytes s.historicalRoots.1), .inPlace (eth1DataBytes s.eth1Data),
    .behind (row eth1DataBytes s.eth1DataVotes.1), .inPlace (le8 s.eth1DepositIndex),
    .behind (row validatorBytes s.validators.1), .behind (row le8 s.balances.1), .inPlace (row Id.bytes s.randaoMixes.1),
    .inPlace (row le8 s.slashings.1), .behind s.previousEpochParticipation.1, .behind s.currentEpochParticipation.1,
    .inPlace [s.justificationBits.1], .inPlace (checkpointBytes s.previousJustified),
    .inPlace (checkpointBytes s.currentJustified), .inPlace (checkpointBytes s.finalized),
    .behind (row le8 s.inactivityScores.1), .inPlace (committeeBytes s.currentSyncCommittee),
    .inPlace (committeeBytes s.nextSyncCommittee)] ++ tailParts f s.tail)

/-! ## Hashes -/

variable (H : Id → Id → Id)

def forkHash (x : ForkData) : Id :=
  tree H 2 [short H x.previousVersion.1, short H x.currentVersion.1, num x.epoch.toNat]
def validatorHash (v : Validator) : Id :=
  tree H 3 [key H v.pubkey.1, v.withdrawalCredentials, num v.effectiveBalance.toNat, num (if v.slashed then 1 else 0),
    num v.activationEligibilityEpoch.toNat, num v.activationEpoch.toNat, num v.exitEpoch.toNat, num v.withdrawableEpoch.toNat]
def committeeHash (c : SyncCommittee) : Id :=
  tree H 1 [tree H 9 (c.pubkeys.1.map fun k => key H k.1), key H c.aggregatePubkey.1]
def summaryHash (s : BeaconValue.Summary) : Id := tree H 1 [s.blockRoot, s.stateRoot]
def pendingDepositHash (d : PendingDeposit) : Id :=
  tree H 3 [key H d.pubkey.1, d.withdrawalCredentials, num d.amount.toNat, sig H d.signature.1, num d.slot.toNat]
def pendingWithdrawalHash (w : PendingWithdrawal) : Id :=
  tree H 2 [num w.validatorIndex.toNat, num w.amount.toNat, num w.withdrawableEpoch.toNat]
def pendingConsolidationHash (c : PendingConsolidation) : Id := tree H 1 [num c.sourceIndex.toNat, num c.targetIndex.toNat]

def execBellatrixHash (p : ExecBellatrix) : Id :=
  tree H 4 [p.parentHash, short H p.feeRecipient.1, p.stateRoot, p.receiptsRoot, tree H 3 (words p.logsBloom.1), p.prevRandao,
    num p.blockNumber.toNat, num p.gasLimit.toNat, num p.gasUsed.toNat, num p.timestamp.toNat, extraHash H p.extraData.1,
    num p.baseFeePerGas.toNat, p.blockHash, p.transactionsRoot]
def execCapellaHash (p : ExecCapella) : Id :=
  tree H 4 [p.parentHash, short H p.feeRecipient.1, p.stateRoot, p.receiptsRoot, tree H 3 (words p.logsBloom.1), p.prevRandao,
    num p.blockNumber.toNat, num p.gasLimit.toNat, num p.gasUsed.toNat, num p.timestamp.toNat, extraHash H p.extraData.1,
    num p.baseFeePerGas.toNat, p.blockHash, p.transactionsRoot, p.withdrawalsRoot]
def execDenebHash (p : ExecDeneb) : Id :=
  tree H 5 [p.parentHash, short H p.feeRecipient.1, p.stateRoot, p.receiptsRoot, tree H 3 (words p.logsBloom.1), p.prevRandao,
    num p.blockNumber.toNat, num p.gasLimit.toNat, num p.gasUsed.toNat, num p.timestamp.toNat, extraHash H p.extraData.1,
    num p.baseFeePerGas.toNat, p.blockHash, p.transactionsRoot, p.withdrawalsRoot, num p.blobGasUsed.toNat,
    num p.excessBlobGas.toNat]

/-- A list of at most 2^40 bytes, in 2^35 leaves of 32 bytes. -/
def bytesHash (d : Nat) (l : List UInt8) : Id := H (tree H d (words l)) (num l.length)

def summariesHash (l : List BeaconValue.Summary) : Id := listOf H 24 (summaryHash H) l

/-- The hashes of the fields behind the two committees. -/
def tailHashes : (f : Fork) → Tail f → List Id
  | .bellatrix, t => [execBellatrixHash H (TailBellatrix.exec t)]
  | .capella, t =>
    let t : TailCapella := t
    [execCapellaHash H t.exec, num t.nextWithdrawalIndex.toNat, num t.nextWithdrawalValidatorIndex.toNat,
      summariesHash H t.summaries.1]
  | .deneb, t =>
    let t : TailDeneb := t
    [execDenebHash H t.exec, num t.nextWithdrawalIndex.toNat, num t.nextWithdrawalValidatorIndex.toNat,
      summariesHash H t.summaries.1]
  | .electra, t =>
    let t : TailElectra := t
    [execDenebHash H t.exec, num t.nextWithdrawalIndex.toNat, num t.nextWithdrawalValidatorIndex.toNat,
      summariesHash H t.summaries.1, num t.depositRequestsStartIndex.toNat, num t.depositBalanceToConsume.toNat,
      num t.exitBalanceToConsume.toNat, num t.earliestExitEpoch.toNat, num t.consolidationBalanceToConsume.toNat,
      num t.earliestConsolidationEpoch.toNat, listOf H 27 (pendingDepositHash H) t.pendingDeposits.1,
      listOf H 27 (pendingWithdrawalHash H) t.pendingWithdrawals.1,
      listOf H 18 (pendingConsolidationHash H) t.pendingConsolidations.1]

/-- The hashes of the fields, in order. -/
def stateHashes {f : Fork} (s : State f) : List Id :=
  [num s.genesisTime.toNat, s.genesisValidatorsRoot, num s.slot.toNat, forkHash H s.fork, headerHash H s.latestBlockHeader,
    tree H 13 s.blockRoots.1, tree H 13 s.stateRoots.1, listOf H 24 id s.historicalRoots.1, eth1DataHash H s.eth1Data,
    listOf H 11 (eth1DataHash H) s.eth1DataVotes.1, num s.eth1DepositIndex.toNat, listOf H 40 (validatorHash H) s.validators.1,
    indicesHash H 38 s.balances.1, tree H 16 s.randaoMixes.1, tree H 11 (words (row le8 s.slashings.1)),
    bytesHash H 35 s.previousEpochParticipation.1, bytesHash H 35 s.currentEpochParticipation.1,
    num s.justificationBits.1.toNat, checkpointHash H s.previousJustified, checkpointHash H s.currentJustified,
    checkpointHash H s.finalized, indicesHash H 38 s.inactivityScores.1, committeeHash H s.currentSyncCommittee,
    committeeHash H s.nextSyncCommittee] ++ tailHashes H f s.tail

/-- Up to Deneb a state has at most 32 fields, in Electra it has 37. -/
def stateDepth : Fork → Nat
  | .bellatrix => 5
  | .capella => 5
  | .deneb => 5
  | .electra => 6

def stateHash {f : Fork} (s : State f) : Id := tree H (stateDepth f) (stateHashes H s)

/-- What is hashed on the way to the hash of a state. -/
def hashedState {f : Fork} (s : State f) : List (Id × Id) := ((state f).tree s).pairs H

end Verif.Props.BeaconStateSpec
