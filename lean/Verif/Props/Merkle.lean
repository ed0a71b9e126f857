import Verif.Lemmas.Merkle
import Verif.Lemmas.Distance

/-! # C29, C30: Merkle proofs and trees -/

namespace Verif.Props
open Verif.Merkle

/-- C29: a branch of the wrong length is rejected. -/
theorem C29_length (H : Id → Id → Id) (leaf : Id) (branch : List Id) (depth index : Nat) (root : Id)
    (h : branch.length ≠ depth) : verifyMerkleProof H leaf branch depth index root = false := by
  simp [verifyMerkleProof, h]

/-- C29: against the root of a tree only the leaf at the claimed position is accepted, unless a pair
hashed along the branch collides with a pair hashed in the tree. Index bits above the depth are ignored. -/
theorem C29_sound (H : Id → Id → Id) (f : Nat → Id) (leaf : Id) (branch : List Id) (depth index : Nat)
    (h : verifyMerkleProof H leaf branch depth index (treeRoot H depth f) = true) :
    leaf = f (index % 2 ^ depth) ∨
      CollisionBetween H (branchPairs H leaf branch index) (treePairs H depth f) := by
  obtain ⟨hl, hr⟩ := (verify_iff ..).mp h
  exact (root_sound H index depth f leaf branch hl hr).imp (·.1) id

/-- C29: two accepted proofs for the same root, depth and index have the same leaf and the same
branch, unless pairs hashed along the two branches collide. The root is arbitrary. -/
theorem C29_binding (H : Id → Id → Id) (l₁ l₂ : Id) (b₁ b₂ : List Id) (depth index : Nat) (root : Id)
    (h₁ : verifyMerkleProof H l₁ b₁ depth index root = true)
    (h₂ : verifyMerkleProof H l₂ b₂ depth index root = true) :
    (l₁ = l₂ ∧ b₁ = b₂) ∨
      CollisionBetween H (branchPairs H l₁ b₁ index) (branchPairs H l₂ b₂ index) := by
  obtain ⟨hl1, hr1⟩ := (verify_iff ..).mp h₁
  obtain ⟨hl2, hr2⟩ := (verify_iff ..).mp h₂
  exact root_binding H index depth _ _ _ _ hl1 hl2 (hr1.trans hr2.symm)

/-- C29: every leaf of every tree has an accepted branch. -/
theorem C29_complete (H : Id → Id → Id) (f : Nat → Id) (depth index : Nat) (hi : index < 2 ^ depth) :
    ∃ branch, verifyMerkleProof H (f index) branch depth index (treeRoot H depth f) = true := by
  refine ⟨branchOf H index depth f, (verify_iff ..).mpr ⟨branchOf_length .., ?_⟩⟩
  have := root_branchOf H index depth f
  rwa [Nat.mod_eq_of_lt hi] at this

/-- C29: for SHA-256 of the concatenation, such a collision is one of SHA-256 itself: two different
64-byte inputs that were hashed. -/
theorem C29_collision (sha256 : Bytes → Id) (A B : List (Id × Id))
    (h : CollisionBetween (hash2 sha256) A B) :
    ∃ p ∈ A, ∃ q ∈ B, p.1.bytes ++ p.2.bytes ≠ q.1.bytes ++ q.2.bytes ∧
      sha256 (p.1.bytes ++ p.2.bytes) = sha256 (q.1.bytes ++ q.2.bytes) := by
  obtain ⟨p, hp, q, hq, hne, hc⟩ := h
  refine ⟨p, hp, q, hq, ?_, hc⟩
  intro he
  obtain ⟨h1, h2⟩ := List.append_inj he (by simp [Id.bytes_length])
  exact hne (Prod.ext (Id.bytes_injective h1) (Id.bytes_injective h2))

/-- C30: a leaf list that fits is turned into a tree whose hash is the root over the list padded with
zeros, and the proof generated for any index carries the leaf at that index and is accepted. -/
theorem C30_generated_proof_verifies (H : Id → Id → Id) (depth : Nat) (leaves : List Id) (index : Nat)
    (hl : leaves.length ≤ 2 ^ depth) (hi : index < 2 ^ depth) :
    ∃ t leaf branch, create H depth leaves = some t ∧ t.hash H = listRoot H depth leaves ∧
      generateProof H index depth t = .ok (leaf, branch) ∧ leaf = leaves.getD index 0 ∧
      branch.length = depth ∧ verifyMerkleProof H leaf branch depth index (t.hash H) = true := by
  obtain ⟨t, h1, rep⟩ := create_rep H depth leaves hl
  have hp := rep.proof index
  rw [Nat.mod_eq_of_lt hi] at hp
  refine ⟨t, _, _, h1, rep.hash, hp, rfl, branchOf_length .., ?_⟩
  refine (verify_iff ..).mpr ⟨branchOf_length .., ?_⟩
  have := root_branchOf H index depth (fun i => leaves.getD i 0)
  rw [Nat.mod_eq_of_lt hi] at this
  rw [this, rep.hash]

/-- C30: pushing a leaf into the tree of a list that is not full gives the tree of the extended list. -/
theorem C30_push (H : Id → Id → Id) (depth : Nat) (leaves : List Id) (t : Tree) (x : Id)
    (ht : create H depth leaves = some t) (hl : leaves.length < 2 ^ depth) (hd : 0 < depth) :
    ∃ t', pushLeaf H x depth t = .ok t' ∧ create H depth (leaves ++ [x]) = some t' ∧
      t'.hash H = listRoot H depth (leaves ++ [x]) := by
  cases depth with
  | zero => omega
  | succ d =>
    have hfit : (leaves ++ [x]).length ≤ 2 ^ (d + 1) := by simp; omega
    obtain ⟨t', h1, rep⟩ := create_rep H (d + 1) (leaves ++ [x]) hfit
    refine ⟨t', ?_, h1, rep.hash⟩
    rw [push_create H x d leaves t ht (Nat.le_of_lt hl), if_pos hl, createE_of_create h1]

/-- C30: any number of pushes, starting from the empty tree: the tree is always the one built from all
pushed leaves, and the tree reports that it is full exactly after 2^depth leaves. -/
theorem C30_push_all (H : Id → Id → Id) (depth : Nat) (hd : 0 < depth) (xs : List Id)
    (hl : xs.length ≤ 2 ^ depth) :
    ∃ t, xs.foldlM (fun t x => pushLeaf H x depth t) (.zero depth) = .ok t ∧
      create H depth xs = some t ∧ t.hash H = listRoot H depth xs ∧
      (xs.length = 2 ^ depth → ∀ x, pushLeaf H x depth t = .error .merkleTreeFull) := by
  cases depth with
  | zero => omega
  | succ d =>
    have key : ∀ (ys done : List Id) (t : Tree), create H (d + 1) done = some t →
        (done ++ ys).length ≤ 2 ^ (d + 1) →
        ∃ t', ys.foldlM (fun t x => pushLeaf H x (d + 1) t) t = .ok t' ∧
          create H (d + 1) (done ++ ys) = some t' := by
      intro ys
      induction ys with
      | nil => intro done t h _; exact ⟨t, rfl, by simpa using h⟩
      | cons y ys ih =>
        intro done t h hle
        have hlt : done.length < 2 ^ (d + 1) := by simp at hle; omega
        obtain ⟨t1, p1, p2, _⟩ := C30_push H (d + 1) done t y h hlt (by omega)
        obtain ⟨t', q1, q2⟩ := ih (done ++ [y]) t1 p2 (by simpa using hle)
        refine ⟨t', ?_, by simpa using q2⟩
        rw [List.foldlM_cons, p1]
        exact q1
    obtain ⟨t, h1, h2⟩ := key xs [] _ (create_nil H (d + 1)) (by simpa using hl)
    rw [List.nil_append] at h2
    refine ⟨t, h1, h2, create_hash h2 hl, fun hfull x => ?_⟩
    rw [push_create H x d xs t h2 hl, if_neg (by omega)]

/-- C30: finalising the first n leaves keeps the root, and the snapshot of the finalised hashes restores
a tree whose root is the one over exactly those n leaves. -/
theorem C30_finalize_snapshot (H : Id → Id → Id) (depth n : Nat) (leaves : List Id) (t : Tree)
    (ht : create H depth leaves = some t) (hl : leaves.length ≤ 2 ^ depth) (h1 : 1 ≤ n)
    (hn : n ≤ leaves.length) :
    ∃ t' s, finalizeDeposits n depth t = .ok t' ∧ t'.hash H = t.hash H ∧
      fromSnapshot H depth (finalizedHashes t') n = .ok s ∧
      s.hash H = listRoot H depth (leaves.take n) := by
  obtain ⟨t', f1, f2, f3⟩ := finalize_create H depth n leaves t ht hl h1 (by omega)
  obtain ⟨s, s1, s2⟩ := fromSnapshot_hashes H depth n leaves h1 (by omega) hn
  exact ⟨t', s, f1, f2, by rw [f3]; exact s1, s2⟩

/-- A toy hash for the examples. -/
def toyH (a b : Id) : Id := a * 3 + b * 5 + 1

/-- A tree of depth 2 with three leaves: the proof for index 2 is accepted, and not for index 1. -/
example : ∃ t p, create toyH 2 [7, 8, 9] = some t ∧ generateProof toyH 2 2 t = .ok (9, p) ∧
    verifyMerkleProof toyH 9 p 2 2 (t.hash toyH) = true ∧
    verifyMerkleProof toyH 9 p 2 1 (t.hash toyH) = false :=
  ⟨_, _, rfl, rfl, by decide, by decide⟩

/-- In that tree no pair of a valid branch collides with a pair of the tree: C29_sound gives the leaf. -/
example : ¬ CollisionBetween toyH (branchPairs toyH 9 [0, 62] 2)
    (treePairs toyH 2 fun i => [7, 8, 9].getD i 0) := by
  simp only [CollisionBetween, branchPairs, treePairs, treeRoot, toyH]
  decide

/-- Hypotheses of C29_binding and C30_push met by that tree. -/
example : ∃ t t', create toyH 2 [7, 8, 9] = some t ∧ pushLeaf toyH 10 2 t = .ok t' ∧
    t'.hash toyH ≠ t.hash toyH ∧ ∃ t'', finalizeDeposits 3 2 t = .ok t'' ∧ t'' ≠ t :=
  ⟨_, _, rfl, rfl, by decide, _, rfl, by decide⟩

end Verif.Props
