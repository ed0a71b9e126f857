import Verif.Model.BeaconValidator
import Verif.Model.HeaderValidator

/-! # The beacon bridge in mode `latest` (bin/portal-bridge/src/bridge/beacon.rs)

Every 12 seconds five tasks are spawned. They run at the same time and share four values, each behind a lock.
A task is modelled by the point at which it waits: for a lock or for an answer of the consensus client. What
lies between two such points is one step. The schedule and all answers are chosen from outside. -/

namespace Verif.BeaconBridge
open Verif.BeaconValue Verif.SszT Verif.Merkle
open Verif.HeaderValidator (buildProof leNode)
open Verif.BeaconValidator (summariesRoot)

/-- `BeaconStateElectra` (ethportal-api/src/types/consensus/beacon_state.rs:71-193): the slot, the summaries, and
the hash tree roots of the other fields, in order. -/
structure BeaconState where
  first : Vec Id 2
  slot : UInt64
  middle : Vec Id 24
  summaries : BList Summary 16777216
  last : Vec Id 9

/-- The 37 leaves (beacon_state.rs:245-283). -/
def BeaconState.leaves (H : Id → Id → Id) (s : BeaconState) : List Id :=
  s.first.1 ++ leNode s.slot.toNat :: s.middle.1 ++ summariesRoot H s.summaries.1 :: s.last.1

/-- `build_historical_summaries_proof` (beacon_state.rs:244-287); `none` is the failed `expect`. -/
def BeaconState.summariesProof (H : Id → Id → Id) (s : BeaconState) : Option (Vec Id 6) :=
  let p := buildProof H (s.leaves H) 27
  if h : p.length = 6 then some ⟨p, h⟩ else none

/-- What the clock, the consensus client and the census answer at some moment; `none` is an error.
`request`s of the consensus client with its fallback and timeouts (ethereum-rpc-client/src/consensus/mod.rs:74-151)
are taken as one question with one answer. -/
structure World (Peer : Type) where
  /-- `network_spec().current_slot()` -/
  slot : UInt64
  /-- `get_beacon_block_root("finalized")` -/
  finalizedBlock : Option Id
  /-- `get_light_client_bootstrap(root)` -/
  bootstrap : Id → Option (Bootstrap .electra)
  /-- `get_light_client_updates(start_period, count)` -/
  updates : UInt64 → UInt64 → Option (List (Update .electra))
  /-- `get_light_client_finality_update()` -/
  finality : Option (FinalityUpdate .electra)
  /-- `get_light_client_optimistic_update()` -/
  optimistic : Option (OptimisticUpdate .electra)
  /-- `get_beacon_state_finalized_root()` -/
  finalizedState : Option Id
  /-- `get_beacon_state("finalized")` -/
  state : Option BeaconState
  /-- `census.select_peers(Subnetwork::Beacon, key)` -/
  peers : ContentKey.Beacon → Option (List Peer)

/-- The values behind the locks (beacon.rs:44-64, 111-114). -/
structure Shared where
  period : UInt64 := 0
  bootRoot : Id := 0
  bootBusy : Bool := false
  finalSlot : UInt64 := 0
  stateRoot : Id := 0
  stateBusy : Bool := false

/-- Where a task waits. -/
inductive Task where
  /-- `serve_light_client_bootstrap` (beacon.rs:253-302): before line 260, 267, 272, 277, 281-284, 298, 299; before
  line 166, after an error. -/
  | bootCheck
  | bootAsk
  | bootCompare (root : Id)
  | bootMark (root : Id)
  | bootFetch (root : Id)
  | bootStore (root : Id)
  | bootClear
  | bootFailed
  /-- `serve_light_client_update` (beacon.rs:304-363): before line 311, 312, 328, 360. -/
  | updateClock
  | updateCompare (period : UInt64)
  | updateFetch (period : UInt64)
  | updateStore (period : UInt64)
  /-- `serve_light_client_finality_update` (beacon.rs:384-422): before line 391, 398, 419. -/
  | finalFetch
  | finalCompare (u : FinalityUpdate .electra)
  | finalStore (slot : UInt64)
  /-- `serve_light_client_optimistic_update` (beacon.rs:365-382): before line 371. -/
  | optimisticFetch
  /-- `serve_historical_summaries_with_proof` (beacon.rs:424-482): before line 431, 438, 440, 452, 453, 478, 479. -/
  | sumCheck
  | sumAsk
  | sumCompare (root : Id)
  | sumMark (root : Id)
  | sumFetch (root : Id)
  | sumStore (root : Id)
  | sumClear
  | finished
  /-- The task panicked; the others go on. -/
  | aborted

/-- Content handed to `spawn_offer_tasks`, with the peers that it is offered to. -/
structure Announcement (Peer : Type) where
  key : ContentKey.Beacon
  value : Value
  peers : List Peer

variable {Peer : Type}

/-- `spawn_offer_tasks` (beacon.rs:485-577): one offer for each peer that the census selects, none if it fails.
The outcome of the offers only goes to the census, the report and the metrics. -/
def announce (w : World Peer) (key : ContentKey.Beacon) (value : Value) : Announcement Peer :=
  ⟨key, value, (w.peers key).getD []⟩

/-- `SLOTS_PER_HISTORICAL_ROOT` and `SLOTS_PER_EPOCH` (consensus/constants.rs). -/
def slotsPerPeriod : UInt64 := 8192
def slotsPerEpoch : UInt64 := 32

/-- beacon.rs:253-302 and 155-169. -/
def stepBootstrap (w : World Peer) (s : Shared) : Task → Task × Shared × List (Announcement Peer)
  | .bootCheck => if s.bootBusy then (.finished, s, []) else (.bootAsk, s, [])
  | .bootAsk =>
    match w.finalizedBlock with
    | none => (.bootFailed, s, [])
    | some root => (.bootCompare root, s, [])
  | .bootCompare root => if root = s.bootRoot then (.finished, s, []) else (.bootMark root, s, [])
  | .bootMark root => (.bootFetch root, { s with bootBusy := true }, [])
  | .bootFetch root =>
    match w.bootstrap root with
    | none => (.bootFailed, s, [])
    | some b => (.bootStore root, s, [announce w (.bootstrap root) (.bootstrap ⟨.electra, b⟩)])
  | .bootStore root => (.bootClear, { s with bootRoot := root }, [])
  | .bootClear => (.finished, { s with bootBusy := false }, [])
  | .bootFailed => (.finished, { s with bootBusy := false }, [])
  | t => (t, s, [])

/-- beacon.rs:304-363; `remove(0)` of an empty answer panics. -/
def stepUpdate (w : World Peer) (s : Shared) : Task → Task × Shared × List (Announcement Peer)
  | .updateClock => (.updateCompare (w.slot / slotsPerPeriod), s, [])
  | .updateCompare period =>
    if period = s.period then (.finished, s, [])
    else if period < s.period then (.finished, s, [])
    else (.updateFetch period, s, [])
  | .updateFetch period =>
    match w.updates period 1 with
    | none => (.finished, s, [])
    | some [] => (.aborted, s, [])
    | some (u :: _) =>
      if u.finalized.beacon.slot / slotsPerPeriod ≠ period then (.finished, s, [])
      else
        (.updateStore period, s,
          [announce w (.updatesByRange period 1) (.updates ⟨[⟨.electra, u⟩], Nat.le_of_ble_eq_true rfl⟩)])
  | .updateStore period => (.finished, { s with period := period }, [])
  | t => (t, s, [])

/-- beacon.rs:384-422. -/
def stepFinality (w : World Peer) (s : Shared) : Task → Task × Shared × List (Announcement Peer)
  | .finalFetch =>
    match w.finality with
    | none => (.finished, s, [])
    | some u => (.finalCompare u, s, [])
  | .finalCompare u =>
    let slot := u.finalized.beacon.slot
    if slot = s.finalSlot then (.finished, s, [])
    else if slot < s.finalSlot then (.finished, s, [])
    else (.finalStore slot, s, [announce w (.finalityUpdate slot) (.finality ⟨.electra, u⟩)])
  | .finalStore slot => (.finished, { s with finalSlot := slot }, [])
  | t => (t, s, [])

/-- beacon.rs:365-382. -/
def stepOptimistic (w : World Peer) (s : Shared) : Task → Task × Shared × List (Announcement Peer)
  | .optimisticFetch =>
    match w.optimistic with
    | none => (.finished, s, [])
    | some u => (.finished, s, [announce w (.optimisticUpdate u.signatureSlot) (.optimistic ⟨.electra, u⟩)])
  | t => (t, s, [])

/-- beacon.rs:424-482 and 236-249: an error ends the task and changes nothing. -/
def stepSummaries (H : Id → Id → Id) (w : World Peer) (s : Shared) :
    Task → Task × Shared × List (Announcement Peer)
  | .sumCheck => if s.stateBusy then (.finished, s, []) else (.sumAsk, s, [])
  | .sumAsk =>
    match w.finalizedState with
    | none => (.finished, s, [])
    | some root => (.sumCompare root, s, [])
  | .sumCompare root => if root = s.stateRoot then (.finished, s, []) else (.sumMark root, s, [])
  | .sumMark root => (.sumFetch root, { s with stateBusy := true }, [])
  | .sumFetch root =>
    match w.state with
    | none => (.finished, s, [])
    | some st =>
      let epoch := st.slot / slotsPerEpoch
      match st.summariesProof H with
      | none => (.aborted, s, [])
      | some proof =>
        (.sumStore root, s,
          [announce w (.historicalSummaries epoch) (.summaries .electra ⟨epoch, st.summaries, proof⟩)])
  | .sumStore root => (.sumClear, { s with stateRoot := root }, [])
  | .sumClear => (.finished, { s with stateBusy := false }, [])
  | t => (t, s, [])

/-- One step of a task. -/
def stepTask (H : Id → Id → Id) (w : World Peer) (s : Shared) (t : Task) :
    Task × Shared × List (Announcement Peer) :=
  match t with
  | .bootCheck | .bootAsk | .bootCompare _ | .bootMark _ | .bootFetch _ | .bootStore _ | .bootClear
  | .bootFailed => stepBootstrap w s t
  | .updateClock | .updateCompare _ | .updateFetch _ | .updateStore _ => stepUpdate w s t
  | .finalFetch | .finalCompare _ | .finalStore _ => stepFinality w s t
  | .optimisticFetch => stepOptimistic w s t
  | .sumCheck | .sumAsk | .sumCompare _ | .sumMark _ | .sumFetch _ | .sumStore _ | .sumClear =>
    stepSummaries H w s t
  | .finished | .aborted => (t, s, [])

/-- The running bridge: the shared values, the tasks spawned so far, what was announced so far. -/
structure Bridge (Peer : Type) where
  shared : Shared := {}
  tasks : List Task := []
  log : List (Announcement Peer) := []

/-- `launch_latest` before the first tick (beacon.rs:111-114). -/
def Bridge.start : Bridge Peer := {}

/-- `serve_latest` (beacon.rs:141-250). -/
def spawned : List Task := [.bootCheck, .updateClock, .finalFetch, .optimisticFetch, .sumCheck]

/-- A tick of the interval (beacon.rs:128-137), or a step of task `i`. -/
inductive Event (Peer : Type) where
  | tick
  | run (i : Nat) (w : World Peer)

def apply (H : Id → Id → Id) (b : Bridge Peer) : Event Peer → Bridge Peer
  | .tick => { b with tasks := b.tasks ++ spawned }
  | .run i w =>
    match b.tasks[i]? with
    | none => b
    | some t =>
      let r := stepTask H w b.shared t
      ⟨r.2.1, b.tasks.set i r.1, b.log ++ r.2.2⟩

/-- `launch_latest` (beacon.rs:110-138) along a schedule. -/
def exec (H : Id → Id → Id) (b : Bridge Peer) (evs : List (Event Peer)) : Bridge Peer :=
  evs.foldl (apply H) b

end Verif.BeaconBridge
