import Verif.Model.Distance

/-! # Specification of Merkle trees, independent of the code -/

namespace Verif.Merkle

/-- The root of the full binary tree of depth `d` whose leaf number `i` is `f i`. -/
def treeRoot (H : Id → Id → Id) : Nat → (Nat → Id) → Id
  | 0, f => f 0
  | d + 1, f => H (treeRoot H d f) (treeRoot H d fun i => f (2 ^ d + i))

/-- The pairs hashed to compute that root. -/
def treePairs (H : Id → Id → Id) : Nat → (Nat → Id) → List (Id × Id)
  | 0, _ => []
  | d + 1, f => (treeRoot H d f, treeRoot H d fun i => f (2 ^ d + i)) ::
      (treePairs H d f ++ treePairs H d fun i => f (2 ^ d + i))

/-- The pairs hashed on the way from a leaf to the root: at each level the sibling goes left if the index
is odd. -/
def branchPairs (H : Id → Id → Id) : Id → List Id → Nat → List (Id × Id)
  | _, [], _ => []
  | leaf, s :: rest, index =>
    if index % 2 = 1 then (s, leaf) :: branchPairs H (H s leaf) rest (index / 2)
    else (leaf, s) :: branchPairs H (H leaf s) rest (index / 2)

/-- A collision between the pairs of two given lists: one pair of each, different, with the same hash.
(That some collision exists at all is true of every hash function; what soundness theorems give is a
collision among the pairs that were hashed.) -/
def CollisionBetween (H : Id → Id → Id) (A B : List (Id × Id)) : Prop :=
  ∃ p ∈ A, ∃ q ∈ B, p ≠ q ∧ H p.1 p.2 = H q.1 q.2

/-- The root of the tree of depth `d` over a leaf list padded with zeros. -/
def listRoot (H : Id → Id → Id) (d : Nat) (leaves : List Id) : Id :=
  treeRoot H d fun i => leaves.getD i 0

/-- SHA-256 of two 32-byte values one after the other, as a function of an arbitrary hash function. -/
def hash2 (sha256 : Bytes → Id) (a b : Id) : Id := sha256 (a.bytes ++ b.bytes)

end Verif.Merkle
