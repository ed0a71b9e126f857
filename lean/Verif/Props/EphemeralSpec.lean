import Verif.Model.Ephemeral

/-! # What the ephemeral history bridge should do (C69) -/

namespace Verif.Props
open Verif Verif.Ephemeral

/-- The blocks are a chain that goes back from the block with root `head`. -/
inductive ChainFrom (u : Rules) : Id → List Block → Prop where
  | nil (head : Id) : ChainFrom u head []
  | cons (b : Block) (bs : List Block) : ChainFrom u b.parent bs → ChainFrom u (u.root b) (b :: bs)

/-- A chain of beacon blocks, the block with index `k` having execution block number `k`. The blocks up to `len` have
different roots. -/
structure BeaconChain (u : Rules) (chain : Nat → Block) (len : Nat) : Prop where
  number : ∀ k, (chain k).number = k
  parent : ∀ k, (chain (k + 1)).parent = u.root (chain k)
  slot : ∀ k, (chain k).slot < (chain (k + 1)).slot
  builds : ∀ k, u.builds (chain k) = true
  distinct : ∀ j k, j ≤ len → k ≤ len → u.root (chain j) = u.root (chain k) → j = k

/-- The nodes know the chain and answer correctly. -/
def Answers {R : Type} (u : Rules) (chain : Nat → Block) (len : Nat) (receipts : Nat → R) (api : Api R) : Prop :=
  ∀ k, k ≤ len → api.block (u.root (chain k)) = some (chain k) ∧ api.receipts (u.root (chain k)) k = some (receipts k)

/-- The blocks `lo ≤ k < hi`, the last one first. -/
def blocksBack (chain : Nat → Block) (lo hi : Nat) : List Block :=
  ((List.range (hi - lo)).map fun k => chain (lo + k)).reverse

/-- The headers that were offered with proofs, in the order of the chain. -/
def provenHeaders {R : Type} : List (Effect R) → List Block
  | [] => []
  | .bundle _ _ :: es => provenHeaders es
  | .headers _ bs :: es => bs.reverse ++ provenHeaders es

/-- A bridge that follows a chain without a reorg from block `start` on: heads arrive in order, and never more than 13
blocks are missed; updates are for one of the last 20 blocks; a checkpoint at the start of a period arrives when at
least 31 blocks follow it, it names the block in the first slot of the period, and none is missed. `lo` is the oldest
block that was not offered with a proof yet, `i` the head. -/
inductive FollowsChain {R : Type} (u : Rules) (chain : Nat → Block) (len : Nat) (receipts : Nat → R) (start : Nat) :
    List (Event R) → Nat → Nat → Prop where
  | start (api : Api R) : start + 12 ≤ len → Answers u chain len receipts api →
      FollowsChain u chain len receipts start [.head (u.root (chain (start + 12))) api] start (start + 12)
  | head {es : List (Event R)} {lo i : Nat} (j : Nat) (api : Api R) : FollowsChain u chain len receipts start es lo i → i ≤ j → j ≤ i + 13 → j ≤ len →
      Answers u chain len receipts api →
      FollowsChain u chain len receipts start (es ++ [.head (u.root (chain j)) api]) lo j
  | update {es : List (Event R)} {lo i : Nat} (k : Nat) : FollowsChain u chain len receipts start es lo i → k ≤ i → i ≤ k + 19 →
      FollowsChain u chain len receipts start (es ++ [.update (u.root (chain k))]) lo i
  | other {es : List (Event R)} {lo i : Nat} (epoch : Nat) (block state : Id) : FollowsChain u chain len receipts start es lo i →
      epoch % 256 ≠ 0 → FollowsChain u chain len receipts start (es ++ [.final epoch block state]) lo i
  | final {es : List (Event R)} {lo i : Nat} (f period : Nat) (state : Id) : FollowsChain u chain len receipts start es lo i →
      lo ≤ f → f + 31 ≤ i → (chain f).slot = 8192 * (period + 1) → 8192 * period ≤ (chain lo).slot →
      (chain f).slot < 2 ^ 64 →
      FollowsChain u chain len receipts start (es ++ [.final (256 * (period + 1)) (u.root (chain f)) state]) f i

end Verif.Props
