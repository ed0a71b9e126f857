import Verif.Props.QuerySpec
import Verif.Model.NodeLookup

/-! # Specification: node lookups

A history is the list of what happened during a lookup, each event with what others see of it. The record of a lookup is
that of Props/QuerySpec: whom it knows, whom it asked and until when an answer is awaited, who answered and who failed. -/

namespace Verif.Props.NodeLookups
open Verif.NodeLookup
open Verif.Query (Config QState)
open Verif.Lookup (Enr)

abbrev History := List (Ev × List Out)

/-- What an event means to the record. -/
def seen : Ev × List Out → List Props.Seen
  | (.nodes source enrs, _) => [.success source.id (enrs.map Enr.id)]
  | (.poll now _, [.request e _]) => [.polled now (.waiting (some e.id))]
  | (.poll now _, [.skipped p]) => [.polled now (.waiting (some p)), .failure p]
  | (.poll now _, _) => [.polled now (.waiting none)]

/-- The record after a history. -/
def log (c : Ctx) (peers : List Enr) (h : History) : Record :=
  (h.flatMap seen).foldl (Record.see c.cfg) (Record.start c.cfg (peers.map Enr.id))

/-- The records of nodes in the answers of peers, in order. -/
def named (h : History) : List Enr :=
  h.flatMap fun x => match x.1 with
    | .nodes _ enrs => enrs
    | .poll _ _ => []

/-- The time of the first poll. -/
def firstPoll : History → Option Nat
  | [] => none
  | (.poll now _, _) :: _ => some now
  | (.nodes _ _, _) :: h => firstPoll h

/-- What discv5, the routing table and other lookups know about a node is a record of that node. -/
def Sane (es : List Ev) : Prop := ∀ now known, Ev.poll now known ∈ es → ∀ id e, known id = some e → e.id = id

/-- No answer was given. -/
def Quiet (h : History) : Prop := ∀ x ∈ h, ∀ l, Out.answer l ∉ x.2

/-- These distances are right for asking the node `id` about `target`: as many as wanted, the first one is the log2
distance of the two, none is larger than 256, and no other distance is nearer to the first one. -/
def GoodDistances (target id : Id) (n : Nat) (ds : List Nat) : Prop :=
  ds.length = n ∧ ds.Nodup ∧ (∀ x ∈ ds, x ≤ 256) ∧
  ∃ d, distLog2 (xorDistance id target) = some d ∧ (1 ≤ n → ds.head? = some d) ∧
    ∀ x ≤ 256, x ∉ ds → ∀ y ∈ ds, (y - d) + (d - y) ≤ (x - d) + (d - x)

end Verif.Props.NodeLookups
