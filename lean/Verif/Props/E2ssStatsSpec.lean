import Verif.Model.E2ssStats
import Verif.Props.E2ssSpec

/-! # Specification of the check of state snapshots -/

namespace Verif.Props.Snapshot
open Verif.E2ss

/-- Numbers above zero, in increasing order. -/
def Increasing (l : List Nat) : Prop := (∀ x ∈ l, 0 < x) ∧ l.Pairwise (· < ·)

/-- What the tool looks at: accounts in the order of their hashes, each with the code of its code hash, with storage in full
parts except for the last, in the order of the hashes. -/
structure Orderly (K : Bytes → Id) (gs : List Group) : Prop where
  accounts : Increasing (gs.map fun g => g.account.addressHash.toNat)
  code : ∀ g ∈ gs, K g.account.bytecode = g.account.state.codeHash
  full : ∀ g ∈ gs, ∀ i p, g.parts[i]? = some p → i + 1 < g.parts.length → p.length = 10000000
  slots : ∀ g ∈ gs, Increasing (g.slots.map fun x => x.index.toNat)

/-- What there is to count. -/
def counts (gs : List Group) : Stats where
  accounts := gs.length
  bytecodes := (gs.filter fun g => g.account.bytecode ≠ []).length
  storageEntries := (gs.map fun g => g.parts.length).sum
  storageItems := (gs.map fun g => g.slots.length).sum

/-- No hash is zero. -/
def NoZero (gs : List Group) : Prop :=
  (∀ g ∈ gs, g.account.addressHash ≠ 0) ∧ ∀ g ∈ gs, ∀ x ∈ g.slots, x.index ≠ 0

end Verif.Props.Snapshot
