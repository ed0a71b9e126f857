import Verif.Model.Routing
import Verif.Props.Ping

/-! # Specification of the routing table

First what is assumed of the table of discv5, without filters as in the overlay's configuration; then what an
observer of the events knows about a peer. -/

namespace Verif.Routing
open Verif.Wire Verif.PingExt
open Verif.Ping (Node Env)
open Verif.Props (Reports)

variable {E : Type}

/-- What may happen to an entry when its bucket is accessed: nothing; it leaves, if it is disconnected or only
pending; a pending one becomes present. -/
inductive Drift : Option (Entry E) → Option (Entry E) → Prop
  | same (x : Option (Entry E)) : Drift x x
  | left (e : Entry E) (h : e.status.connected = false ∨ e.pending = true) : Drift (some e) none
  | applied (e : Entry E) : Drift (some e) (some { e with pending := false })

/-- What an insertion of a node does to its own entry, by result. -/
inductive Inserts (n : Node E) (st : Status) : Option (Entry E) → InsertResult → Option (Entry E) → Prop
  | inserted (old : Option (Entry E)) (h : ∀ e, old = some e → e.pending = true) :
      Inserts n st old .inserted (some ⟨n, st, false⟩)
  | pending (old : Option (Entry E)) (d : Id) (h : ∀ e, old = some e → e.pending = true) :
      Inserts n st old (.pending d) (some ⟨n, st, true⟩)
  | statusUpdated (e : Entry E) : Inserts n st (some e) (.statusUpdated (!e.status.connected && st.connected))
      (some ⟨n, st, false⟩)
  | updated (e : Entry E) : Inserts n st (some e) (.updated (!e.status.connected && st.connected))
      (some ⟨n, st, false⟩)
  | valueUpdated (e : Entry E) (h : e.status.connected = st.connected) :
      Inserts n st (some e) .valueUpdated (some ⟨n, st, false⟩)
  | updatedPending (e : Entry E) : Inserts n st (some e) .updatedPending (some ⟨n, st, true⟩)
  | removed (old : Option (Entry E)) : Inserts n st old .failed none
  | refused (old : Option (Entry E)) (h : ∀ e, old = some e → e.pending = true) : Inserts n st old .failed old

/-- What is assumed of the functions of the table. -/
structure Lawful (env : Env E) (localId : Id) (lib : Lib E) : Prop where
  settle : ∀ t k j, Drift (t j) (lib.settle t k j)
  insertOthers : ∀ t n st j, j ≠ env.nodeId n.enr → Drift (t j) ((lib.insert t n st).2 j)
  insertHere : ∀ t n st,
    Inserts n st (t (env.nodeId n.enr)) (lib.insert t n st).1 ((lib.insert t n st).2 (env.nodeId n.enr))
  insertSelf : ∀ t n st, env.nodeId n.enr = localId → (lib.insert t n st).1 = .failed
  updateOthers : ∀ t n j, j ≠ env.nodeId n.enr → Drift (t j) ((lib.update t n).2 j)
  updateDone : ∀ t n, (lib.update t n).1 = false → ∃ e pending, t (env.nodeId n.enr) = some e ∧
    (lib.update t n).2 (env.nodeId n.enr) = some ⟨n, e.status, pending⟩ ∧ (pending = true → e.pending = true)
  updateFailed : ∀ t n, (lib.update t n).1 = true → (lib.update t n).2 (env.nodeId n.enr) = none ∧
    ∀ e, t (env.nodeId n.enr) = some e → e.pending = true
  statusOthers : ∀ t k c j, j ≠ k → Drift (t j) ((lib.updateStatus t k c).2 j)
  statusDone : ∀ t k c, (lib.updateStatus t k c).1 = false → ∃ e pending, t k = some e ∧
    (lib.updateStatus t k c).2 k = some ⟨e.node, ⟨c, e.status.incoming⟩, pending⟩ ∧ (pending = true → e.pending = true)
  statusFailed : ∀ t k c, (lib.updateStatus t k c).1 = true → (lib.updateStatus t k c).2 k = none
  removeOthers : ∀ t k j, j ≠ k → Drift (t j) (lib.remove t k j)
  removeHere : ∀ t k, lib.remove t k k = none ∨
    ∃ e, t k = some e ∧ e.pending = true ∧ Drift (t k) (lib.remove t k k)

/-- The cache of node addresses has the record of the node it is asked for. -/
def Event.Consistent (env : Env E) : Event E → Prop
  | .request source (some enr) _ => env.nodeId enr = source
  | _ => True

/-- The peer sent a request or answered one, or the user added it. -/
def Active (env : Env E) (k : Id) : Event E → Prop
  | .request source _ _ => source = k
  | .response source _ => env.nodeId source = k
  | .addEnr enr => env.nodeId enr = k
  | _ => False

/-- A request to the peer failed. -/
def Fails (env : Env E) (k : Id) : Event E → Prop
  | .failure destination => env.nodeId destination = k
  | _ => False

/-- The peer announces a radius, in a ping or in a pong. -/
def Announces (env : Env E) (k : Id) (r : Nat) : Event E → Prop
  | .request source _ (some m) => source = k ∧ Reports env m r
  | .response source (.pong m) => env.nodeId source = k ∧ Reports env m r
  | _ => False

/-- In none of the tables so far the entry of the node is pending. -/
def NeverPending (s : State E) (k : Id) : Prop := ∀ t ∈ s.table :: s.past, ∀ e, t k = some e → e.pending = false

end Verif.Routing
