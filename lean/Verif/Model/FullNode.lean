import Verif.Model.BeaconNode
import Verif.Model.HistoryNode
import Verif.Model.StateNode

/-! # A node with the beacon, the legacy history and the state network

One process runs the three networks (bin/trin/src/run.rs:96-203). They share one header oracle
(bin/trin/src/run.rs:121-122, crates/validation/src/oracle.rs:22-32). The validator of the history network asks it for
historical summaries, and it passes the question to the beacon network of the same process (oracle.rs:137-157,
crates/validation/src/historical_summaries_provider.rs:34-68). Apart from that the networks have nothing in common: each has
its own store (Model/BeaconNode, Model/HistoryNode, Model/StateNode). Their events happen in any order. A process that ends
and starts again does so for all networks; here each network is started again by an event of its own, so that there are more
runs here than in the program, not fewer. -/

namespace Verif.FullNode

variable {Hd Tx Rc Wd : Type}

/-- What is fixed. -/
structure Node (Hd Tx Rc Wd : Type) where
  light : LightClient.Env
  history : HistoryNode.Node Hd Tx Rc Wd
  state : StateNode.Node

structure State where
  beacon : BeaconNode.State
  history : HistoryNode.State
  state : StateNode.State

inductive Ev where
  | beacon (e : BeaconNode.Ev)
  | history (e : HistoryNode.Ev)
  | state (e : StateNode.Ev)

/-- `get_historical_summary` of the header oracle at this moment (oracle.rs:137-157): whatever is validated, the summaries are
those that the beacon network of this process has. -/
def atMoment (n : Node Hd Tx Rc Wd) (b : BeaconNode.State) : HistoryNode.Ev → HistoryNode.Ev
  | .arrived key content m => .arrived key content { m with source := BeaconNode.summariesFor n.light b }
  | e => e

/-- One event (bin/trin/src/run.rs:96-203). `none`: a store cannot be opened, or fails (C21, C27: this does not happen). -/
def step (n : Node Hd Tx Rc Wd) (s : State) : Ev → Option State
  | .beacon e => (BeaconNode.step n.light s.beacon e).map fun b => { s with beacon := b }
  | .history e =>
    match HistoryNode.step n.history s.history (atMoment n s.beacon e) with
    | .ok h => some { s with history := h }
    | .error _ => none
  | .state e =>
    match StateNode.step n.state s.state e with
    | .ok t => some { s with state := t }
    | .error _ => none

def run (n : Node Hd Tx Rc Wd) : State → List Ev → Option State
  | s, [] => some s
  | s, e :: es =>
    match step n s e with
    | some s => run n s es
    | none => none

end Verif.FullNode
