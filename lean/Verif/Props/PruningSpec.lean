import Verif.Model.Double

/-! # Specification for C106: doubles, and what the pruning strategy computes with them -/

namespace Verif.PruningSpec

/-- `2 ^ e`, in units of 2^-1074, is the distance between the doubles around `p / q`: a significand has 53 binary digits. -/
def Spacing (p q e : Nat) : Prop := (e = 0 ∨ 2 ^ 52 * 2 ^ e * q ≤ p) ∧ p < 2 ^ 53 * 2 ^ e * q

/-- The significand `k` with spacing `2 ^ e` is nearer to `p / q` than any other. -/
def Nearest (p q e k : Nat) : Prop := 2 * k * (q * 2 ^ e) < 2 * p + q * 2 ^ e ∧ 2 * p < 2 * k * (q * 2 ^ e) + q * 2 ^ e

/-- `p / q` is exactly between the significands `k` and `k + 1`. -/
def Between (p q e k : Nat) : Prop := 2 * p = (2 * k + 1) * (q * 2 ^ e)

/-- `a ≤ b`, but for a millionth six times over. -/
def AtMost (a b : Nat) : Prop := 999999 ^ 3 * a ≤ 1000001 ^ 3 * b

end Verif.PruningSpec
