import Verif.Model.SlotClock

/-! # Specification of the slot clock -/

namespace Verif.Props.SlotClockSpec
open Verif.Events (Network)

/-- The start of the chain in seconds: 2020-12-01 12:00:23 UTC, and 2022-06-20 14:00:00 UTC on Sepolia. -/
def chainStart : Network → Nat
  | .sepolia => 1655733600
  | _ => 1606824023

/-- When a slot starts, in nanoseconds: 12 seconds for each slot before it. -/
def start (net : Network) (slot : Nat) : Nat := (chainStart net + 12 * slot) * 1000000000

/-- A time is in a slot. -/
def During (net : Network) (slot t : Nat) : Prop := start net slot ≤ t ∧ t < start net (slot + 1)

/-- When new data of a slot is asked for: 4 seconds after its start. -/
def due (net : Network) (slot : Nat) : Nat := start net slot + 4000000000

/-- Readings of a clock that is not set back. -/
def Steady (readings : Nat → Nat) : Prop := ∀ i j, i ≤ j → readings i ≤ readings j

/-- Each round of a bridge begins when its time has come, or later. -/
def Timely : List (Nat × Nat) → Prop := fun l => ∀ x ∈ l, x.1 ≤ x.2

end Verif.Props.SlotClockSpec
