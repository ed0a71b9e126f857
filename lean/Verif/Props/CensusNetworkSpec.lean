import Verif.Model.CensusNetwork

/-! # What the bridge may believe about its peers (specification)

Everything is said in terms of the exchanges with the peers: the pings that the bridge sends and what
comes back. -/

namespace Verif.Props.CensusLife
open Verif.CensusNet

/-- What an exchange shows. `passed r c d`: the peer is alive; its record is `r`, its client type `c`
and its radius `d`. `odd`: the peer answers the ping with something other than its capabilities. -/
inductive Verdict where
  | passed (record : Enr) (client radius : Nat)
  | failed
  | odd

/-- The verdict on an exchange. A peer that claims to have a newer record than the one used to reach
it has to send a record of its own. -/
def verdict (x : Exchange) : Verdict :=
  match x.check.reply.pong with
  | none => .failed
  | some ⟨_, none⟩ => .odd
  | some ⟨claimed, some (client, radius)⟩ =>
    if claimed ≤ x.enr.seq then .passed x.enr client radius
    else
      match (x.check.reply.nodes.getD []).find? (fun e => decide (e.id = x.enr.id)) with
      | some own => .passed own client radius
      | none => .failed

/-- The exchange counts as a failed check. -/
def isFailed (x : Exchange) : Bool :=
  match verdict x with
  | .failed => true
  | _ => false

/-- What is known about a peer: its record, client type and radius, the results of its checks (the
newest first) and the time of the last result. -/
structure Known where
  record : Enr
  client : Nat
  radius : Nat
  results : List Bool
  last : Nat

/-- The last ten checks have all failed. -/
def givenUp (results : List Bool) : Bool := results.take 10 == List.replicate 10 false

/-- The newer of the known record and a given one. -/
def newer (k : Option Known) (r : Enr) : Enr :=
  match k with
  | some old => if r.seq < old.record.seq then old.record else r
  | none => r

/-- The results so far. -/
def past (k : Option Known) : List Bool :=
  match k with
  | some old => old.results
  | none => []

/-- How an exchange changes what is known about the peer. -/
def learn (k : Option Known) (x : Exchange) : Option Known :=
  match verdict x with
  | .passed r client radius =>
    some ⟨newer k r, client, radius, true :: past k, x.check.done⟩
  | .failed =>
    match k with
    | none => none
    | some old =>
      if givenUp (false :: old.results) then none
      else some { old with results := false :: old.results, last := x.check.done }
  | .odd => k

/-- What is known about the node `id` after the given exchanges. -/
def known (id : Id) (log : List Exchange) : Option Known :=
  (log.filter (fun x => decide (x.enr.id = id))).foldl learn none

/-- No exchange with `id` was odd. -/
def NoOdd (id : Id) (log : List Exchange) : Prop :=
  ∀ x ∈ log, x.enr.id = id → verdict x ≠ .odd

/-- Five minutes, in milliseconds. -/
def fiveMinutes : Nat := 5 * 60 * 1000

/-- An action does not come across the node `id` by a lookup. -/
def Unmentioned (id : Id) : Action → Prop
  | .reinit rounds => ∀ r ∈ rounds, ∀ l, some l ∈ r.found → ∀ e ∈ l, e.id ≠ id
  | .discovery found _ => ∀ l, found = some l → ∀ e ∈ l, e.id ≠ id
  | .check _ _ => True
  | .offer _ _ _ => True

/-- The view after the given rounds of exploration. -/
def explored (s : State) : List Round → State
  | [] => s
  | r :: rs => explored (initRound s r).1 rs

/-- A round that adds fewer new peers than a tenth of all peers. -/
def FewNew (before after : State) : Prop :=
  10 * after.entries.length < 10 * before.entries.length + after.entries.length

end Verif.Props.CensusLife
