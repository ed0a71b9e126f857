import Verif.Model.NodeId
import Verif.Lemmas.Distance

namespace Verif

theorem fromBe_replicate_zero (n : Nat) (bs : Bytes) :
    fromBe (List.replicate n 0 ++ bs) = fromBe bs := by
  induction n with
  | zero => simp
  | succ n ih => rw [List.replicate_succ, List.cons_append, fromBe_cons, ih]; simp

theorem random32_length {lz : Nat} {pick : UInt8} {fill : Bytes} (h : RandomOk lz pick fill) :
    (random32 lz pick fill).length = 32 := by
  have := h.2.2
  simp [random32]; omega

theorem pickRange_eq (lz : Nat) : pickRange lz = (2 ^ (7 - lz % 8), 2 ^ (8 - lz % 8)) := by
  unfold pickRange
  have hk : lz % 8 < 8 := Nat.mod_lt _ (by decide)
  generalize lz % 8 = k at hk
  have : ∀ k : Fin 8, (if k.val = 0 then (128, 256) else (128 / 2 ^ k.val, 2 * (128 / 2 ^ k.val))) =
      (2 ^ (7 - k.val), 2 ^ (8 - k.val)) := by decide
  exact this ⟨k, hk⟩

theorem random32_bracket {lz : Nat} {pick : UInt8} {fill : Bytes} (hlz : lz ≤ 255)
    (h : RandomOk lz pick fill) :
    2 ^ (255 - lz) ≤ fromBe (random32 lz pick fill) ∧
    fromBe (random32 lz pick fill) < 2 ^ (256 - lz) := by
  obtain ⟨h1, h2, h3⟩ := h
  rw [pickRange_eq] at h1 h2
  simp only at h1 h2
  rw [random32, fromBe_replicate_zero, fromBe_cons]
  have hf := fromBe_lt fill
  have hfl : fill.length = 31 - lz / 8 := by omega
  rw [hfl] at hf ⊢
  rw [show (256 : Nat) ^ (31 - lz / 8) = 2 ^ (8 * (31 - lz / 8)) by rw [Nat.pow_mul]] at hf ⊢
  constructor
  · have e : 255 - lz = (7 - lz % 8) + 8 * (31 - lz / 8) := by omega
    rw [e, Nat.pow_add]
    exact Nat.le_trans (Nat.mul_le_mul_right _ h1) (Nat.le_add_right _ _)
  · have e : 256 - lz = (8 - lz % 8) + 8 * (31 - lz / 8) := by omega
    rw [e, Nat.pow_add]
    have : (pick.toNat + 1) * 2 ^ (8 * (31 - lz / 8)) ≤
        2 ^ (8 - lz % 8) * 2 ^ (8 * (31 - lz / 8)) := Nat.mul_le_mul_right _ h2
    rw [Nat.add_mul] at this
    omega

end Verif
