import Verif.Model.Events

/-! # The slot clock of a network and what is timed by it

`crates/ethportal-api/src/types/network_spec.rs`, `get_slot_interval` of `crates/subnetworks/beacon/src/network.rs`,
`duration_until_next_update` of `bin/portal-bridge/src/utils.rs` and `launch_latest` of `bin/portal-bridge/src/bridge/beacon.rs`.
Times are nanoseconds since 1970. Every reading of the clock is a parameter of its own. `Instant` and `SystemTime` are taken to
be one clock: both advance alike while the clock is not set. Times overflow neither `SystemTime` nor `Duration`. -/

namespace Verif.SlotClock
open Verif.E2store (Res)
open Verif.Events (Network)

/-- A second. -/
def second : Nat := 1000000000

/-- `SECONDS_PER_SLOT` (consensus/constants.rs:25). -/
def slotTime : Nat := 12 * second

/-- `beacon_genesis_timestamp` of the three networks (network_spec.rs:21-25, 174, 194, 214). -/
def genesis : Network → Nat
  | .mainnet => 1606824023 * second
  | .angelfood => 1606824023 * second
  | .sepolia => 1655733600 * second

/-- `slot_to_timestamp` (network_spec.rs:131-133): the slot is cast to 32 bits. -/
def slotToTimestamp (net : Network) (slot : UInt64) : Nat := genesis net + slotTime * slot.toUInt32.toNat

/-- `slot_to_timestamp_u64` (network_spec.rs:135-140). -/
def slotToTimestampU64 (net : Network) (slot : UInt64) : UInt64 := UInt64.ofNat (slotToTimestamp net slot / second)

/-- `current_slot` (network_spec.rs:142-149): `expect` fails before genesis. -/
def currentSlot (net : Network) (now : Nat) : Res UInt64 :=
  if now < genesis net then .panic
  else .ok (UInt64.ofNat ((now - genesis net) / second / (slotTime / second)))

/-- `get_slot_interval` (beacon/src/network.rs:186-194) with its three readings of the clock: the time of the first tick. -/
def slotInterval (net : Network) (now now1 now2 : Nat) : Res Nat :=
  (currentSlot net now1).bind fun current =>
    let next := slotToTimestamp net (current + 1)
    if next < now then .panic else .ok (now2 + (next - now))

/-- Ticks of an interval that is not told what to do when ticks are missed (`MissedTickBehavior::Burst` of tokio, the default):
the time of the tick after `k` others. -/
def burst (first k : Nat) : Nat := first + k * slotTime

/-- The loop of `duration_until_next_update` (utils.rs:62-69) with the readings of the clock in its rounds, and at most `fuel`
rounds. -/
def untilLoop (readings : Nat → Nat) : Nat → Nat → Nat → Option (Nat × Nat)
  | 0, _, _ => none
  | fuel + 1, i, next =>
    if readings i ≤ next then some (i, next - readings i) else untilLoop readings fuel (i + 1) (next + slotTime)

/-- `duration_until_next_update` (utils.rs:56-70): the last reading of the clock and the time to wait. `.err` stands for a loop
that has not ended after `fuel` rounds. -/
def untilNextUpdate (net : Network) (now : Nat) (readings : Nat → Nat) (fuel : Nat) : Res (Nat × Nat) :=
  (currentSlot net now).bind fun current =>
    match untilLoop readings fuel 0 (slotToTimestamp net current + 4 * second) with
    | some x => .ok x
    | none => .err

/-- The deadline of an interval after a tick, as in tokio (`Interval::poll_tick`, `MissedTickBehavior::Skip`, which beacon.rs:124-126
sets): with `deadline` the one that has passed and `now` the time of the tick. -/
def skip (deadline now : Nat) : Nat :=
  if now > deadline + 5000000 then now + slotTime - (now - deadline) % slotTime else deadline + slotTime

/-- The loop of `launch_latest` (beacon.rs:128-137) with the times of its ticks: the deadline and the time of each round. -/
def rounds : Nat → List Nat → List (Nat × Nat)
  | _, [] => []
  | deadline, now :: l => (deadline, now) :: rounds (skip deadline now) l

end Verif.SlotClock
