import Verif.Model.BeaconBridge
import Verif.Props.BeaconValidatorSpec

/-! # What the beacon bridge is meant to announce

A schedule is a list of ticks and steps of tasks; each step sees what the clock, the consensus client and the
census answer at that moment. -/

namespace Verif.Props.BeaconFeed
open Verif.BeaconValue Verif.SszT Verif.Merkle Verif.BeaconBridge
open Verif.BeaconValidator (summariesRoot)
open Verif.HeaderValidator (leNode)

variable {Peer : Type}

/-- Everything that was answered along a schedule. -/
def answers (evs : List (Event Peer)) : List (World Peer) :=
  evs.filterMap fun e => match e with | .run _ w => some w | .tick => none

/-- The root of a beacon state: the tree of depth 6 over its 37 fields, of which the slot is number 2 and the
summaries number 27. -/
def stateRootOf (H : Id → Id → Id) (st : BeaconState) : Id :=
  treeRoot H 6 fun i =>
    (st.first.1 ++ [leNode st.slot.toNat] ++ st.middle.1 ++ [summariesRoot H st.summaries.1] ++ st.last.1).getD i 0

/-- What was announced comes from the answers, and the key says what the value is. -/
def Genuine (H : Id → Id → Id) (ws : List (World Peer)) : ContentKey.Beacon → Value → Prop
  | .bootstrap root, v =>
    (∃ w ∈ ws, w.finalizedBlock = some root) ∧
    ∃ w ∈ ws, ∃ b, w.bootstrap root = some b ∧ v = .bootstrap ⟨.electra, b⟩
  | .updatesByRange period count, v =>
    count = 1 ∧ (∃ w ∈ ws, w.slot.toNat / 8192 = period.toNat) ∧
    ∃ w ∈ ws, ∃ u rest h, w.updates period 1 = some (u :: rest) ∧
      u.finalized.beacon.slot.toNat / 8192 = period.toNat ∧ v = .updates ⟨[⟨.electra, u⟩], h⟩
  | .finalityUpdate slot, v =>
    ∃ w ∈ ws, ∃ u, w.finality = some u ∧ u.finalized.beacon.slot = slot ∧ v = .finality ⟨.electra, u⟩
  | .optimisticUpdate slot, v =>
    ∃ w ∈ ws, ∃ u, w.optimistic = some u ∧ u.signatureSlot = slot ∧ v = .optimistic ⟨.electra, u⟩
  | .historicalSummaries epoch, v =>
    (∃ w ∈ ws, ∃ root, w.finalizedState = some root) ∧
    ∃ w ∈ ws, ∃ st proof, w.state = some st ∧ st.slot.toNat / 32 = epoch.toNat ∧
      v = .summaries .electra ⟨epoch, st.summaries, proof⟩ ∧
      merkleRootFromBranch H (summariesRoot H st.summaries.1) proof.1 27 = stateRootOf H st

/-- The roots, periods and slots under which bootstraps, updates and finality updates were announced, in order. -/
def bootRoots (log : List (Announcement Peer)) : List Id :=
  log.filterMap fun a => match a.key with | .bootstrap root => some root | _ => none
def periods (log : List (Announcement Peer)) : List UInt64 :=
  log.filterMap fun a => match a.key with | .updatesByRange period _ => some period | _ => none
def finalSlots (log : List (Announcement Peer)) : List UInt64 :=
  log.filterMap fun a => match a.key with | .finalityUpdate slot => some slot | _ => none
/-- The epochs of the summaries that were announced. -/
def epochs (log : List (Announcement Peer)) : List UInt64 :=
  log.filterMap fun a => match a.key with | .historicalSummaries epoch => some epoch | _ => none
/-- The state roots to which the announced proofs of the summaries lead. -/
def provenRoots (H : Id → Id → Id) (log : List (Announcement Peer)) : List Id :=
  log.filterMap fun a => match a.value with
    | .summaries _ x => some (merkleRootFromBranch H (summariesRoot H x.summaries.1) x.proof.1 27)
    | _ => none

/-- No two neighbours are equal. -/
def NoRepeat {α : Type} (l : List α) : Prop := ∀ pre a b post, l = pre ++ a :: b :: post → a ≠ b

/-- The task serves bootstraps and has not begun the download: it still asks for the finalized root, or reports
an error. -/
def askingBootstrap : Task → Bool
  | .bootCheck | .bootAsk | .bootCompare _ | .bootMark _ | .bootFailed => true
  | _ => false
def askingSummaries : Task → Bool
  | .sumCheck | .sumAsk | .sumCompare _ | .sumMark _ => true
  | _ => false
/-- The task serves bootstraps (and has not ended). -/
def servingBootstrap : Task → Bool
  | .bootCheck | .bootAsk | .bootCompare _ | .bootMark _ | .bootFetch _ | .bootStore _ | .bootClear
  | .bootFailed => true
  | _ => false
def servingUpdate : Task → Bool
  | .updateClock | .updateCompare _ | .updateFetch _ | .updateStore _ => true
  | _ => false
def servingFinality : Task → Bool
  | .finalFetch | .finalCompare _ | .finalStore _ => true
  | _ => false
def servingSummaries : Task → Bool
  | .sumCheck | .sumAsk | .sumCompare _ | .sumMark _ | .sumFetch _ | .sumStore _ | .sumClear => true
  | _ => false

/-- Whenever the clock ticks, no task is at such a point any more. -/
def InTime (H : Id → Id → Id) (point : Task → Bool) (evs : List (Event Peer)) : Prop :=
  ∀ pre post, evs = pre ++ .tick :: post → ∀ t ∈ (exec H Bridge.start pre).tasks, point t = false

/-- The state that is downloaded is the one whose root was reported. -/
def Consistent (H : Id → Id → Id) (evs : List (Event Peer)) : Prop :=
  ∀ pre i w post root st, evs = pre ++ .run i w :: post → (exec H Bridge.start pre).tasks[i]? = some (.sumFetch root) →
    w.state = some st → stateRootOf H st = root

/-- No request for a state fails. -/
def NoStateFails (H : Id → Id → Id) (evs : List (Event Peer)) : Prop :=
  ∀ pre i w post root, evs = pre ++ .run i w :: post → (exec H Bridge.start pre).tasks[i]? = some (.sumFetch root) →
    w.state ≠ none

/-- What a peer's own view must be for it to accept a value; without a running light client, only bootstraps are
checked, for their age. -/
def Agrees (env : LightClient.Env) (net : BeaconValidator.Net) (now : Nat) (oracle : BeaconValidator.Oracle) :
    Value → Prop
  | .bootstrap v =>
    now ≤ v.2.header.beacon.slot.toNat + 864000 ∧
    ∀ h, oracle.finalizedHeader = some h → v.2.header.beacon = h
  | .updates l => ∀ s, oracle.store = some s → ∀ v ∈ l.1, ∃ u, v = ⟨.electra, u⟩ ∧ BeaconRules.UpdateOk env net now s u
  | .finality v => ∀ s, oracle.store = some s → ∃ u, v = ⟨.electra, u⟩ ∧ BeaconRules.FinalityOk env net now s u
  | .optimistic v => ∀ s, oracle.store = some s → ∃ u, v = ⟨.electra, u⟩ ∧ BeaconRules.OptimisticOk env net now s u
  | .summaries _ x => ∀ root, oracle.stateRoot = some root →
    merkleRootFromBranch env.H (summariesRoot env.H x.summaries.1) x.proof.1 27 = root

end Verif.Props.BeaconFeed
