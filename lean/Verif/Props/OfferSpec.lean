import Verif.Model.Offer

/-! # Specification helpers for offers -/

namespace Verif.Props

/-- The elements of a list whose verdict is `accepted`, in order; verdicts and elements are paired by
position, and what has no partner is not selected. -/
def selected {α : Type} : List AcceptCode → List α → List α
  | c :: cs, x :: xs => if c = .accepted then x :: selected cs xs else selected cs xs
  | _, _ => []

end Verif.Props

namespace Verif.Props
open Verif.Offer Verif.AQ

variable {K P : Type} [DecidableEq K] [DecidableEq P]

/-- The offer can be answered at all: at most 64 keys, the ENR of the peer is known and there is a
common protocol version `v`. -/
def Answerable (h : Host K P) (keys : List Bytes) (v : Versions.Version) : Prop :=
  keys.length ≤ 64 ∧ ∃ enr, h.enr = some enr ∧ h.version enr = .ok v

/-- `I` holds of a store and survives `put` of wanted content that satisfies `W`. If a program keeps
every such `I`, all it did to the store was to `put` content satisfying `W`. -/
def PutClosed {St : Type} (ops : StoreOps St K) (W : K → Bytes → Prop) (I : St → Prop) : Prop :=
  ∀ s k v s' dropped, I s → W k v → ops.wants s k = some .store →
    ops.put s k v = some (s', dropped) → I s'

/-- The peers that offered a key after the one it was accepted from, as the queue holds them. -/
def others (q : List (Entry K P)) (k : K) : List P :=
  match lookup q k with
  | some e => e.fallback
  | none => []

/-- Content the store pruned when something was put into it, with propagation of it turned on. -/
def Dropped {St : Type} (env : TaskEnv St K P) (x : K × Bytes) : Prop :=
  env.gossipDropped = true ∧ ∃ st k v st' dropped, env.ops.put st k v = some (st', dropped) ∧ x ∈ dropped

/-- `v` arrived for the accepted key `k` at its place in the transfer. -/
def Delivered (accepted : List K) (data : Option Bytes) (k : K) (v : Bytes) : Prop :=
  ∃ bytes pairs, data = some bytes ∧ decodePayload accepted bytes = some pairs ∧ (k, v) ∈ pairs

/-- `v` was returned for the accepted key `k` by a peer that had offered it as well. -/
def Fetched {St : Type} (env : TaskEnv St K P) (q : List (Entry K P)) (accepted : List K) (k : K)
    (v : Bytes) : Prop :=
  k ∈ accepted ∧ env.affected k = true ∧ ∃ p ∈ others q k, env.fetch k p = some v

end Verif.Props
