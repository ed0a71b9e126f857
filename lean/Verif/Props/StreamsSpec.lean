import Verif.Model.Streams

/-! # What C90 is stated with -/

namespace Verif.Props.StreamsSpec
open Verif Verif.Streams

/-- The streams that were started, in order. -/
def started : List Event → List (Args × Fate)
  | [] => []
  | .start a f :: evs => (a, f) :: started evs
  | .advance _ :: evs => started evs

/-- A stream has ended. -/
def Ended (t : Task) : Prop := ∃ o d, t.phase = .ended o d

instance (t : Task) : Decidable (Ended t) :=
  match h : t.phase with
  | .ended o d => .isTrue ⟨o, d, h⟩
  | .connecting => .isFalse (by rintro ⟨_, _, e⟩; rw [h] at e; cases e)
  | .moving => .isFalse (by rintro ⟨_, _, e⟩; rw [h] at e; cases e)
  | .closing => .isFalse (by rintro ⟨_, _, e⟩; rw [h] at e; cases e)

/-- A stream ended with a certain outcome. -/
def EndedWith (o : Outcome) (t : Task) : Bool :=
  match t.phase with
  | .ended o' _ => o' == o
  | _ => false

/-- The calls of the socket for one stream. -/
def callsOf (s : State) (i : Nat) : List Call := (s.calls.filter fun c => c.1 == i).map (·.2)

/-- How often a stream was given an answer after it was started. -/
def turns (i : Nat) : Nat → List Event → Nat
  | _, [] => 0
  | n, .start _ _ :: evs => turns i (n + 1) evs
  | n, .advance j :: evs => (if j = i ∧ i < n then 1 else 0) + turns i n evs

end Verif.Props.StreamsSpec
