import Verif.Model.Events

/-! # C74: who is meant by a request or an event

The identifiers are written as bytes, as they stand in the Portal specification, and not as the hex
strings of the code. -/

namespace Verif.Props.EventsSpec
open Verif.Events
open Verif.Capacity (Subnetwork)

/-- The identifier of each subnetwork on the wire: two bytes on the main network, two other ones on
the test networks, and the letters `utp` everywhere. -/
def wireId : Network → Subnetwork → Option Bytes
  | _, .utp => some [0x75, 0x74, 0x70]
  | .mainnet, .history => some [0x50, 0x00]
  | .mainnet, .state => some [0x50, 0x0a]
  | .mainnet, .legacyHistory => some [0x50, 0x0b]
  | .mainnet, .beacon => some [0x50, 0x0c]
  | .mainnet, .canonicalIndices => some [0x50, 0x0d]
  | .mainnet, .verkleState => some [0x50, 0x0e]
  | .mainnet, .transactionGossip => some [0x50, 0x0f]
  | _, .history => none
  | _, .state => some [0x50, 0x4a]
  | _, .legacyHistory => some [0x50, 0x4b]
  | _, .beacon => some [0x50, 0x4c]
  | _, .canonicalIndices => some [0x50, 0x4d]
  | _, .verkleState => some [0x50, 0x4e]
  | _, .transactionGossip => some [0x50, 0x4f]

/-- The parties in a node that can be handed something. -/
inductive Party where
  | legacyHistory | state | beacon | utp
deriving DecidableEq, Repr

def Party.sub : Party → Subnetwork
  | .legacyHistory => .legacyHistory
  | .state => .state
  | .beacon => .beacon
  | .utp => .utp

/-- What a party has been handed so far; `none` if it was not started. -/
def inbox (n : Node) : Party → Option (List Msg)
  | .legacyHistory => n.legacyHistory.map (·.queue)
  | .state => n.state.map (·.queue)
  | .beacon => n.beacon.map (·.queue)
  | .utp => some n.utp.queue

/-- The party still listens. -/
def listens (n : Node) : Party → Bool
  | .legacyHistory => n.legacyHistory.any (·.alive)
  | .state => n.state.any (·.alive)
  | .beacon => n.beacon.any (·.alive)
  | .utp => n.utp.alive

/-- A request is meant for the party whose identifier it carries. An event is meant for every
subnetwork, or for those it names, except the one it comes from; never for uTP. -/
def meantFor (net : Network) (p : Party) : Input → Option Msg
  | .talk r => if some r.protocol = wireId net p.sub then some (.talk r) else none
  | .event e =>
    if p ≠ .utp ∧ e.source ≠ p.sub ∧ (∀ ds, e.destination = some ds → p.sub ∈ ds) then
      some (.event e)
    else none
  | _ => none

/-- The inputs up to the point where the party went away. -/
def whileThere (p : Party) (is : List Input) : List Input :=
  is.takeWhile fun i => i ≠ .gone p.sub

/-- The address that was put last for a node. -/
def lastPut (ops : List CacheOp) (id : Id) : Option NodeAddr :=
  (ops.reverse.findSome? fun op => match op with
    | .put a => if a.id = id then some a else none
    | .get _ => none)

/-- When the beacon chain of a network began, in Unix seconds: 18597 days, 12 hours and 23 seconds after the epoch
(1 December 2020) for the main network and its test network, 19163 days and 14 hours (20 June 2022) for Sepolia. -/
def chainBegan : Network → Nat
  | .mainnet => 18597 * 86400 + 12 * 3600 + 23
  | .angelfood => 18597 * 86400 + 12 * 3600 + 23
  | .sepolia => 19163 * 86400 + 14 * 3600

end Verif.Props.EventsSpec
