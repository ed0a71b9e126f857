import Verif.Model.AcceptQueue

/-! # Specification of the accept queue, from what its callers see

The record of a key is read off the history of calls: which peers have offered it since its transfer
was accepted (the first one is the peer it was accepted from), and when it was last offered. -/

namespace Verif.Props
open Verif.AQ

variable {K P : Type} [DecidableEq K] [DecidableEq P]

/-- One step of the record of key `k`. -/
def recordStep (k : K) (r : Option (Nat × List P)) : Event K P → Option (Nat × List P)
  | .offered now k' p accepted =>
    if k' = k then
      if accepted then some (now, [p])
      else r.map (fun x => (now, if p ∈ x.2 then x.2 else x.2 ++ [p]))
    else r
  | .done k' => if k' = k then none else r
  | .failed k' _ => if k' = k then none else r

/-- The transfer of `k` under way after a history: when `k` was last offered, and by whom it has been
offered since it was accepted. `none` when no transfer was accepted since the last one ended. -/
def record (k : K) (hist : List (Event K P)) : Option (Nat × List P) :=
  hist.foldl (recordStep k) none

/-- The clock does not go back: the instants of the offers are in order. -/
def ClockOk (c : Nat) : List (Op K P) → Prop
  | [] => True
  | .add now _ _ _ :: os => c ≤ now ∧ ClockOk now os
  | .remove _ :: os => ClockOk c os
  | .failed _ _ :: os => ClockOk c os

/-- Instant of the last offer, `c` if there is none. -/
def lastOffer (c : Nat) : List (Op K P) → Nat
  | [] => c
  | .add now _ _ _ :: os => lastOffer now os
  | .remove _ :: os => lastOffer c os
  | .failed _ _ :: os => lastOffer c os

end Verif.Props
