import Verif.Model.Distance

/-! # Merkle proofs and the right-sparse Merkle tree (crates/validation/src/merkle/proof.rs)

A `B256` is an `Id`. The hash of two nodes, `hash32_concat` and `hash` of the 64 concatenated bytes in
the Rust code, is an arbitrary function `H`. -/

namespace Verif.Merkle

/-- `merkle_root_from_branch` (merkle/proof.rs:383-395), the loop: `i` is the position in the branch. -/
def rootFrom (H : Id → Id → Id) (index : Nat) : Nat → Id → List Id → Id
  | _, acc, [] => acc
  | i, acc, s :: rest =>
    rootFrom H index (i + 1)
      (if (index >>> i) &&& 1 = 1 then H s acc else H acc s) rest

/-- `merkle_root_from_branch` (merkle/proof.rs:378-395) for a branch of the length asserted there. -/
def merkleRootFromBranch (H : Id → Id → Id) (leaf : Id) (branch : List Id) (index : Nat) : Id :=
  rootFrom H index 0 leaf branch

/-- `verify_merkle_proof` (merkle/proof.rs:363-375). `depth` and `index` are `usize`; the shift
`index >> i` needs depth ≤ 64, every caller passes at most 15. -/
def verifyMerkleProof (H : Id → Id → Id) (leaf : Id) (branch : List Id) (depth index : Nat)
    (root : Id) : Bool :=
  if branch.length = depth then merkleRootFromBranch H leaf branch index == root else false

/-- `ZERO_HASHES` of the `ethereum_hashing` crate. -/
def zeroHash (H : Id → Id → Id) : Nat → Id
  | 0 => 0
  | d + 1 => H (zeroHash H d) (zeroHash H d)

/-- `MerkleTree` (merkle/proof.rs:25-36). -/
inductive Tree where
  | finalized (h : Id)
  | leaf (h : Id)
  | node (h : Id) (l r : Tree)
  | zero (depth : Nat)
deriving DecidableEq, Repr

/-- `MerkleTree::hash` (merkle/proof.rs:166-173). The Rust table has 49 entries; the tree depth used by
the repo is 13. -/
def Tree.hash (H : Id → Id → Id) : Tree → Id
  | .finalized h => h
  | .leaf h => h
  | .node h _ _ => h
  | .zero d => zeroHash H d

/-- `MerkleTree::create` (merkle/proof.rs:72-103); `none` is the failed assertion of line 81 (more than
one leaf at depth 0). -/
def create (H : Id → Id → Id) : (depth : Nat) → (leaves : List Id) → Option Tree
  | d, [] => some (.zero d)
  | 0, [x] => some (.leaf x)
  | 0, _ :: _ :: _ => none
  | d + 1, x :: xs => do
    let cap := 2 ^ d
    let (ls, rs) := if (x :: xs).length ≤ cap then (x :: xs, []) else (x :: xs).splitAt cap
    let l ← create H d ls
    let r ← create H d rs
    some (.node (H (l.hash H) (r.hash H)) l r)

/-- `MerkleTreeError` (merkle/proof.rs:38-60), the variants used here; `panic` is a failed assertion or
`unwrap`. -/
inductive Err where
  | leafReached
  | merkleTreeFull
  | invalid
  | depthTooSmall
  | zeroNodeFinalized
  | finalizedNodePushed
  | proofEncounteredFinalizedNode
  | pleaseNotifyTheDevs
  | emptyBranchWithNonZeroDeposits (n : Nat)
  | endOfTree
  | panic
deriving DecidableEq, Repr

def createE (H : Id → Id → Id) (depth : Nat) (leaves : List Id) : Except Err Tree :=
  match create H depth leaves with
  | some t => .ok t
  | none => .error .panic

/-- A node over two subtrees with its hash (proof.rs:95-100, 154-157, 284-288). -/
def mkNode (H : Id → Id → Id) (l r : Tree) : Tree := .node (H (l.hash H) (r.hash H)) l r

/-- `MerkleTree::push_leaf` (merkle/proof.rs:107-163). The Rust method mutates; it changes nothing
when it returns an error. -/
def pushLeaf (H : Id → Id → Id) (elem : Id) : (depth : Nat) → Tree → Except Err Tree
  | 0, _ => .error .depthTooSmall
  | _ + 1, .leaf _ => .error .leafReached
  | d + 1, .zero _ => createE H (d + 1) [elem]
  | _ + 1, .finalized _ => .error .finalizedNodePushed
  | d + 1, .node _ l r =>
    match l, r with
    | .leaf _, .leaf _ => .error .merkleTreeFull
    | .finalized _, .leaf _ => .error .merkleTreeFull
    | .node _ _ _, .node _ _ _ => do
      let r' ← pushLeaf H elem d r
      .ok (mkNode H l r')
    | .finalized _, .node _ _ _ => do
      let r' ← pushLeaf H elem d r
      .ok (mkNode H l r')
    | .zero _, .zero _ => do
      let l' ← createE H d [elem]
      .ok (mkNode H l' r)
    | .leaf _, .zero _ => do
      let r' ← createE H d [elem]
      .ok (mkNode H l r')
    | .finalized _, .zero _ => do
      let r' ← createE H d [elem]
      .ok (mkNode H l r')
    | .node _ _ _, .zero _ =>
      match pushLeaf H elem d l with
      | .ok l' => .ok (mkNode H l' r)
      | .error .merkleTreeFull => do
        let r' ← createE H d [elem]
        .ok (mkNode H l r')
      | .error e => .error e
    | _, _ => .error .invalid

/-- `left_and_right_branches` (merkle/proof.rs:176-182). -/
def Tree.branches : Tree → Option (Tree × Tree)
  | .finalized _ => none
  | .leaf _ => none
  | .node _ l r => some (l, r)
  | .zero 0 => none
  | .zero (d + 1) => some (.zero d, .zero d)

/-- `MerkleTree::generate_proof` (merkle/proof.rs:295-330): the leaf and the branch, bottom-up. The
loop pushes the siblings top-down and reverses them at the end; here each sibling is appended after the
ones below it. Line 324 asserts in debug builds that a populated leaf was reached; not modelled. -/
def generateProof (H : Id → Id → Id) (index : Nat) : (depth : Nat) → Tree → Except Err (Id × List Id)
  | 0, t => .ok (t.hash H, [])
  | d + 1, t =>
    match t with
    | .finalized _ => .error .proofEncounteredFinalizedNode
    | t =>
      match t.branches with
      | none => .error .panic
      | some (l, r) =>
        if (index >>> d) &&& 1 = 1 then do
          let (leaf, p) ← generateProof H index d r
          .ok (leaf, p ++ [l.hash H])
        else do
          let (leaf, p) ← generateProof H index d l
          .ok (leaf, p ++ [r.hash H])

/-- `MerkleTree::finalize_deposits` (merkle/proof.rs:190-224). When it fails the Rust method may have
changed the left part of the tree; only the error is modelled. -/
def finalizeDeposits (n : Nat) : (level : Nat) → Tree → Except Err Tree
  | _, .finalized h => .ok (.finalized h)
  | _, .zero _ => .error .zeroNodeFinalized
  | 0, .leaf h => .ok (.finalized h)
  | _ + 1, .leaf _ => .error .pleaseNotifyTheDevs
  | 0, .node _ _ _ => .error .pleaseNotifyTheDevs
  | d + 1, .node h l r =>
    if 2 ^ (d + 1) ≤ n then .ok (.finalized h)
    else do
      let l' ← finalizeDeposits n d l
      if n > 2 ^ (d + 1) / 2 then
        let r' ← finalizeDeposits (n - 2 ^ (d + 1) / 2) d r
        .ok (.node h l' r')
      else .ok (.node h l' r)

/-- `get_finalized_hashes` (merkle/proof.rs:226-241). -/
def finalizedHashes : Tree → List Id
  | .zero _ => []
  | .leaf _ => []
  | .finalized h => [h]
  | .node _ l r => finalizedHashes l ++ finalizedHashes r

/-- `from_finalized_snapshot` (merkle/proof.rs:243-289). -/
def fromSnapshot (H : Id → Id → Id) : (level : Nat) → (branch : List Id) → (count : Nat) →
    Except Err Tree
  | level, [], count => if count = 0 then .ok (.zero level) else
      .error (.emptyBranchWithNonZeroDeposits count)
  | 0, h :: _, count => if count = 1 then .ok (.finalized h) else .error .endOfTree
  | d + 1, h :: rest, count =>
    if count = 2 ^ (d + 1) then .ok (.finalized h)
    else if 2 ^ d ≤ count then do
      let r ← fromSnapshot H d rest (count - 2 ^ d)
      .ok (mkNode H (.finalized h) r)
    else do
      let l ← fromSnapshot H d (h :: rest) count
      .ok (mkNode H l (.zero d))

end Verif.Merkle
