import Verif.Model.HeaderValidator
import Verif.Lemmas.Merkle

namespace Verif.HeaderValidator
open Verif.Merkle

theorem xor_one (n : Nat) : n ^^^ 1 = if n % 2 = 1 then n - 1 else n + 1 := by
  have h1 : (n ^^^ 1) / 2 = n / 2 := by
    have := Nat.xor_div_two (a := n) (b := 1)
    simpa using this
  have h2 : (n ^^^ 1) % 2 = (n + 1) % 2 := by
    rw [← Nat.and_one_is_mod, Nat.and_xor_distrib_right, Nat.and_one_is_mod]
    rcases Nat.mod_two_eq_zero_or_one n with h | h <;> rw [h] <;> simp <;> omega
  split <;> omega

theorem treeRoot_pair (H : Id → Id → Id) : ∀ (d : Nat) (f : Nat → Id),
    treeRoot H (d + 1) f = treeRoot H d fun i => H (f (2 * i)) (f (2 * i + 1))
  | 0, f => rfl
  | d + 1, f => by
    rw [treeRoot, treeRoot_pair H d f, treeRoot_pair H d]
    rw [treeRoot]
    congr 2
    funext i
    have : 2 ^ (d + 1) + 2 * i = 2 * (2 ^ d + i) := by rw [Nat.pow_succ]; omega
    rw [← this]
    rfl

theorem pairUp_getD (H : Id → Id → Id) : ∀ (l : List Id) (i : Nat), 2 * i + 1 < l.length →
    (pairUp H l).getD i 0 = H (l.getD (2 * i) 0) (l.getD (2 * i + 1) 0)
  | [], i, h => by simp at h
  | [_], i, h => by simp at h
  | a :: b :: l, 0, _ => rfl
  | a :: b :: l, i + 1, h => by
    simp only [List.length_cons] at h
    have := pairUp_getD H l i (by omega)
    rw [pairUp, List.getD_cons_succ, this, show 2 * (i + 1) = 2 * i + 1 + 1 by omega]
    rfl

theorem pairUp_length (H : Id → Id → Id) : ∀ (n : Nat) (l : List Id), l.length = 2 * n →
    (pairUp H l).length = n
  | 0, l, h => by
    have := List.length_eq_zero_iff.mp (by simpa using h)
    subst this; rfl
  | n + 1, [], h => by simp at h
  | n + 1, [_], h => by simp at h; omega
  | n + 1, a :: b :: l, h => by
    simp only [List.length_cons] at h
    rw [pairUp, List.length_cons, pairUp_length H n l (by omega)]

theorem libProof_length (H : Id → Id → Id) : ∀ (d : Nat) (l : List Id) (i : Nat),
    (libProof H d l i).length = d
  | 0, _, _ => rfl
  | d + 1, l, i => by rw [libProof, List.length_cons, libProof_length H d]

theorem libProof_root (H : Id → Id → Id) : ∀ (d : Nat) (l : List Id) (i : Nat), l.length = 2 ^ d →
    i < 2 ^ d → merkleRootFromBranch H (l.getD i 0) (libProof H d l i) i = listRoot H d l
  | 0, l, i, _, hi => by
    have : i = 0 := by simpa using hi
    subst this; rfl
  | d + 1, l, i, hl, hi => by
    have e : 2 ^ (d + 1) = 2 * 2 ^ d := by rw [Nat.pow_succ, Nat.mul_comm]
    have ih := libProof_root H d (pairUp H l) (i / 2) (pairUp_length H _ _ (by omega)) (by omega)
    rw [libProof, root_cons, xor_one]
    have hroot : listRoot H (d + 1) l = listRoot H d (pairUp H l) := by
      simp only [listRoot]
      rw [treeRoot_pair]
      apply treeRoot_congr
      intro j hj
      rw [pairUp_getD H l j (by omega)]
    rw [hroot, ← ih, pairUp_getD H l (i / 2) (by omega)]
    congr 1
    by_cases ho : i % 2 = 1
    · rw [if_pos ho, if_pos ho, show 2 * (i / 2) = i - 1 by omega, show i - 1 + 1 = i by omega]
    · rw [if_neg ho, if_neg ho, show 2 * (i / 2) = i by omega]

theorem depthFor_le (n : Nat) : n ≤ 2 ^ depthFor n := by
  unfold depthFor
  split
  · next h => simpa using h
  · next h =>
    have := Nat.lt_log2_self (n := n - 1)
    omega

theorem listRoot_pad (H : Id → Id → Id) (d : Nat) (l : List Id) (k : Nat) :
    listRoot H d (l ++ List.replicate k 0) = listRoot H d l := by
  simp only [listRoot]
  apply treeRoot_congr
  intro i _
  simp only [List.getD_eq_getElem?_getD, List.getElem?_append]
  split
  · rfl
  · next h =>
    rw [List.getElem?_eq_none (Nat.le_of_not_lt h), List.getElem?_replicate]
    split <;> rfl

theorem buildProof_length (H : Id → Id → Id) (l : List Id) (i : Nat) :
    (buildProof H l i).length = depthFor l.length := libProof_length ..

/-- The library proof leads from the leaf to the root. -/
theorem buildProof_root (H : Id → Id → Id) (l : List Id) (i : Nat) (hi : i < l.length) :
    merkleRootFromBranch H (l.getD i 0) (buildProof H l i) i = containerRoot H l := by
  have hd := depthFor_le l.length
  have := libProof_root H (depthFor l.length)
    (l ++ List.replicate (2 ^ depthFor l.length - l.length) 0) i (by simp; omega) (by omega)
  rw [listRoot_pad] at this
  rw [containerRoot, ← this, buildProof]
  congr 1
  simp [List.getD_eq_getElem?_getD, List.getElem?_append, hi]

theorem buildProof_root_mod (H : Id → Id → Id) (l : List Id) (i idx : Nat) (hi : i < l.length)
    (h : idx % 2 ^ depthFor l.length = i) :
    merkleRootFromBranch H (l.getD i 0) (buildProof H l i) idx = containerRoot H l := by
  rw [← buildProof_root H l i hi]
  apply root_mod
  rw [buildProof_length, h, Nat.mod_eq_of_lt]
  exact Nat.lt_of_lt_of_le hi (depthFor_le _)

/-- Splitting a branch of known length. -/
theorem split_branch {α} (l : List α) (m n : Nat) (h : l.length = m + n) :
    ∃ a b, l = a ++ b ∧ a.length = m ∧ b.length = n :=
  ⟨l.take m, l.drop m, (List.take_append_drop m l).symm, by simp; omega, by simp; omega⟩

end Verif.HeaderValidator
