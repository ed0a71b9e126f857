import Verif.Model.Distance
import Verif.Lemmas.Distance

/-!
# C01: XOR distance is a metric with a unique bucket index

Specification side: ids are 256-bit vectors, the intended distance is the number whose
bits are the exclusive-or of the ids' bits. `xorDistance` is the byte loop of the code.
-/

namespace Verif.Props

/-- The byte loop computes the 256-bit exclusive-or, bit by bit. -/
theorem C01_distance_bits (x y : Id) (i : Nat) :
    (xorDistance x y).testBit i = (x.getLsbD i ^^ y.getLsbD i) ∧ xorDistance x y < 2 ^ 256 := by
  refine ⟨?_, xorDistance_lt x y⟩
  rw [xorDistance_eq, Nat.testBit_xor]
  rfl

/-- Distance is zero exactly for equal ids. -/
theorem C01_distance_zero_iff (x y : Id) : xorDistance x y = 0 ↔ x = y := xorDistance_eq_zero

/-- Distance is symmetric. -/
theorem C01_distance_symm (x y : Id) : xorDistance x y = xorDistance y x := xorDistance_comm x y

/-- Triangle inequality. -/
theorem C01_distance_triangle (x y z : Id) :
    xorDistance x z ≤ xorDistance x y + xorDistance y z := xorDistance_triangle x y z

/-- Around a fixed centre every 256-bit distance is realised by exactly one id. -/
theorem C01_distance_unique (x : Id) (d : Nat) (hd : d < 2 ^ 256) :
    ∃ y : Id, xorDistance x y = d ∧ ∀ z : Id, xorDistance x z = d → z = y := by
  refine ⟨BitVec.ofNat 256 (x.toNat ^^^ d), ?_, ?_⟩
  · have hlt : x.toNat ^^^ d < 2 ^ 256 := Nat.xor_lt_two_pow x.isLt hd
    rw [xorDistance_eq, BitVec.toNat_ofNat, Nat.mod_eq_of_lt hlt, ← Nat.xor_assoc, Nat.xor_self,
      Nat.zero_xor]
  · intro z hz
    rw [xorDistance_eq] at hz
    apply BitVec.eq_of_toNat_eq
    have hlt : x.toNat ^^^ d < 2 ^ 256 := Nat.xor_lt_two_pow x.isLt hd
    rw [BitVec.toNat_ofNat, Nat.mod_eq_of_lt hlt, ← hz, ← Nat.xor_assoc, Nat.xor_self,
      Nat.zero_xor]

/-- The logarithmic distance is absent exactly for equal ids. -/
theorem C01_log2_none_iff (x y : Id) : distLog2 (xorDistance x y) = none ↔ x = y := by
  rw [distLog2_eq_none, xorDistance_eq_zero]

/-- The logarithmic distance is the unique `l` in 1..256 with `2^(l-1) ≤ distance < 2^l`. -/
theorem C01_log2_iff (d l : Nat) (hd : d < 2 ^ 256) :
    distLog2 d = some l ↔ (1 ≤ l ∧ l ≤ 256 ∧ 2 ^ (l - 1) ≤ d ∧ d < 2 ^ l) :=
  ⟨distLog2_spec hd, fun ⟨a, b, c, e⟩ => distLog2_of_bracket a b c e⟩

/-- The 32-bit prefix used by the store's distance column is the distance divided by `2^224`,
hence monotone in the distance. -/
theorem C01_prefix32 (d : Nat) (hd : d < 2 ^ 256) :
    distBigEndianU32 d = d / 2 ^ 224 ∧
    ∀ e, d ≤ e → e < 2 ^ 256 → distBigEndianU32 d ≤ distBigEndianU32 e := by
  refine ⟨distBigEndianU32_eq hd, fun e hle he => ?_⟩
  rw [distBigEndianU32_eq hd, distBigEndianU32_eq he]
  exact Nat.div_le_div_right hle

/- Non-trivial instances: two ids differing in bit 8 and bit 0 are at distance 257, log distance 9. -/
example : xorDistance (0x1ff#256) (0x0fe#256) = 257 := by rw [xorDistance_eq]; decide
example : distLog2 257 = some 9 := by decide +kernel
example : ∃ x y z : Id, x ≠ y ∧ y ≠ z ∧ xorDistance x z < xorDistance x y + xorDistance y z :=
  ⟨0#256, 1#256, 0#256, by decide, by decide, by simp only [xorDistance_eq]; decide⟩

end Verif.Props
