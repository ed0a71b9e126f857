import Verif.Model.ContentId
import Verif.Lemmas.Distance

namespace Verif

theorem cycleBitmap_getLsbD (i : Nat) : cycleBitmap.getLsbD i = decide (i < 16) := by
  by_cases h : i < 64
  · have : ∀ j : Fin 64, cycleBitmap.getLsbD j = decide (j.val < 16) := by decide
    exact this ⟨i, h⟩
  · rw [BitVec.getLsbD_of_ge _ _ (by omega)]
    simp; omega

theorem rangeIdPrefix_bit (bn : BitVec 64) (i : Nat) (hi : i < 64) :
    (rangeIdPrefix bn).getLsbD i =
      if 48 ≤ i then bn.getLsbD (i - 48) else bn.getLsbD (63 - i) := by
  unfold rangeIdPrefix
  simp only [BitVec.getLsbD_or, BitVec.getLsbD_reverse, BitVec.getMsbD_eq_getLsbD,
    BitVec.getLsbD_rotateRight, BitVec.getLsbD_and, BitVec.getLsbD_not, cycleBitmap_getLsbD]
  by_cases h : 48 ≤ i
  · have h1 : decide (i < 64 - 16 % 64) = false := by simp; omega
    have h2 : decide (64 - 1 - i < 16) = true := by simp; omega
    have h3 : decide (i - (64 - 16 % 64) < 16) = true := by simp; omega
    rw [if_pos h, h1, h2, h3]
    simp [hi]
  · have h1 : decide (i < 64 - 16 % 64) = true := by simp; omega
    have h2 : decide (64 - 1 - i < 16) = false := by simp; omega
    have h3 : decide (16 % 64 + i < 16) = false := by simp
    have h4 : decide (64 - 1 - i < 64) = true := by simp; omega
    rw [if_neg h, h1, h2, h3, h4]
    simp [hi]

theorem rangeContentId_bit (bn : BitVec 64) (ct : UInt8) (i : Nat) :
    (rangeContentId bn ct).getLsbD i =
      if i < 192 then (decide (i < 64) && ct.toBitVec.getLsbD i)
      else (rangeIdPrefix bn).getLsbD (i - 192) := by
  unfold rangeContentId
  rw [BitVec.getLsbD_append]
  by_cases h : i < 192
  · rw [if_pos h]
    simp only [h, if_true, BitVec.getLsbD_append, BitVec.getLsbD_setWidth]
    by_cases h2 : i < 64
    · simp [h2]
    · simp [h2]
  · simp [h]

end Verif
