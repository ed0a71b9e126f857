import Verif.Model.FindNodeDistances
import Verif.Lemmas.FindNodeDistances

/-! # C17: distances of a FIND_NODES request

`absDiff x y` is `|x - y|`. -/

namespace Verif.Props

/-- For two different nodes and every size from 1 to 127 the request terminates without panicking and
carries exactly `size` pairwise different distances, none above 256, starting with the exact log
distance of the two nodes; and each valid distance left out is at least as far from the exact one as
each distance included. -/
theorem C17_distances (target peer : Id) (hne : target ≠ peer) (size : Nat) (h0 : 1 ≤ size)
    (hs : size ≤ 127) :
    ∃ d rest, distLog2 (xorDistance peer target) = some d ∧
      findnodeLog2Distance target peer size = .ok (d :: rest) ∧
      (d :: rest).length = size ∧ (d :: rest).Nodup ∧ (∀ x ∈ d :: rest, x ≤ 256) ∧
      (∀ x ≤ 256, x ∉ d :: rest → ∀ y ∈ d :: rest, absDiff y d ≤ absDiff x d) := by
  have hpos : xorDistance peer target ≠ 0 := by
    intro h; exact hne (xorDistance_eq_zero.1 h).symm
  cases hd : distLog2 (xorDistance peer target) with
  | none => exact absurd (distLog2_eq_none.1 hd) hpos
  | some d =>
    have hdle : d ≤ 256 := (distLog2_spec (xorDistance_lt _ _) hd).2.1
    obtain ⟨r, hr, hp, -, hex⟩ := log2DistanceLoop_spec d size hdle hs 127 1 [d] (by omega)
      (loopInv_init d hdle) (by omega)
    have hlen := hex (by simpa using h0)
    obtain ⟨t, rfl⟩ := hp.first
    refine ⟨d, t, rfl, ?_, hlen, hp.nodup, hp.valid, hp.nearest⟩
    unfold findnodeLog2Distance
    rw [if_neg (by omega), hd]
    simp only [hr]
    rw [← hlen, List.take_length]

/-- Size 0 gives an empty request. -/
theorem C17_zero (target peer : Id) (hne : target ≠ peer) :
    findnodeLog2Distance target peer 0 = .ok [] := by
  have hpos : xorDistance peer target ≠ 0 := by
    intro h; exact hne (xorDistance_eq_zero.1 h).symm
  cases hd : distLog2 (xorDistance peer target) with
  | none => exact absurd (distLog2_eq_none.1 hd) hpos
  | some d =>
    unfold findnodeLog2Distance
    rw [if_neg (by omega), hd]
    simp [log2DistanceLoop]

/-- Asking a node for itself is reported, not turned into a request. -/
theorem C17_self_iff (target peer : Id) (size : Nat) (hs : size ≤ 127) :
    findnodeLog2Distance target peer size = .selfTarget ↔ target = peer := by
  constructor
  · intro h
    apply Classical.byContradiction; intro hne
    rcases Nat.eq_zero_or_pos size with rfl | h0
    · rw [C17_zero target peer hne] at h; cases h
    · obtain ⟨d, rest, -, hok, -⟩ := C17_distances target peer hne size h0 hs
      rw [hok] at h; cases h
  · rintro rfl
    unfold findnodeLog2Distance
    rw [if_neg (by omega), distLog2_eq_none.2 (xorDistance_self target)]

/-- The example in the code's comment: log distance 12, five distances. -/
example : log2DistanceLoop 12 5 127 1 [12] = some [12, 13, 11, 14, 10] := by decide
example : (4095 : Id) ≠ 0 := by decide

end Verif.Props
