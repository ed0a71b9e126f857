import Verif.Model.ContentId
import Verif.Lemmas.ContentId

/-! # C07: range content ids -/

namespace Verif.Props

/-- Layout of a range content id, bit by bit, most significant first: the low 16 bits of the block
number, then its upper 48 bits in reverse order, 184 zero bits and the content type in the last byte. -/
theorem C07_layout (bn : BitVec 64) (ct : UInt8) :
    (∀ i, i < 16 → (rangeContentId bn ct).getLsbD (240 + i) = bn.getLsbD i) ∧
    (∀ i, 16 ≤ i → i < 64 → (rangeContentId bn ct).getLsbD (255 - i) = bn.getLsbD i) ∧
    (∀ i, 8 ≤ i → i < 192 → (rangeContentId bn ct).getLsbD i = false) ∧
    (∀ i, i < 8 → (rangeContentId bn ct).getLsbD i = ct.toBitVec.getLsbD i) := by
  refine ⟨fun i hi => ?_, fun i h1 h2 => ?_, fun i h1 h2 => ?_, fun i hi => ?_⟩
  · rw [rangeContentId_bit, if_neg (by omega), rangeIdPrefix_bit _ _ (by omega), if_pos (by omega),
      show 240 + i - 192 - 48 = i by omega]
  · by_cases h3 : i < 64
    · rw [rangeContentId_bit, if_neg (by omega), rangeIdPrefix_bit _ _ (by omega),
        if_neg (by omega), show 63 - (255 - i - 192) = i by omega]
    · omega
  · rw [rangeContentId_bit, if_pos h2, BitVec.getLsbD_of_ge _ _ h1]; simp
  · rw [rangeContentId_bit, if_pos (by omega)]
    simp; omega

/-- Different (block number, content type) pairs have different content ids. -/
theorem C07_injective (bn bn' : BitVec 64) (ct ct' : UInt8)
    (h : rangeContentId bn ct = rangeContentId bn' ct') : bn = bn' ∧ ct = ct' := by
  obtain ⟨a1, a2, _, a4⟩ := C07_layout bn ct
  obtain ⟨b1, b2, _, b4⟩ := C07_layout bn' ct'
  constructor
  · apply BitVec.eq_of_getLsbD_eq
    intro i hi
    by_cases h16 : i < 16
    · rw [← a1 i h16, ← b1 i h16, h]
    · rw [← a2 i (by omega) hi, ← b2 i (by omega) hi, h]
  · apply UInt8.toBitVec_inj.mp
    apply BitVec.eq_of_getLsbD_eq
    intro i hi
    rw [← a4 i hi, ← b4 i hi, h]

/-- The leading 16 bits of the id are the block number modulo 65536. -/
theorem C07_leading_bits (bn : BitVec 64) (ct : UInt8) :
    (rangeContentId bn ct).toNat / 2 ^ 240 = bn.toNat % 2 ^ 16 := by
  apply Nat.eq_of_testBit_eq
  intro i
  rw [Nat.testBit_div_two_pow, Nat.testBit_mod_two_pow]
  by_cases hi : i < 16
  · have := (C07_layout bn ct).1 i hi
    simp only [hi, decide_true, Bool.true_and]
    rw [Nat.add_comm]
    exact this
  · simp only [hi, decide_false, Bool.false_and]
    have := BitVec.getLsbD_of_ge (rangeContentId bn ct) (240 + i) (by omega)
    rw [Nat.add_comm]
    exact this

/-- Hence among any 65536 consecutive block numbers all leading 16-bit prefixes are different. -/
theorem C07_cycle_spread (bn bn' : BitVec 64) (ct ct' : UInt8)
    (hlt : bn.toNat < bn'.toNat) (hrun : bn'.toNat < bn.toNat + 65536) :
    (rangeContentId bn ct).toNat / 2 ^ 240 ≠ (rangeContentId bn' ct').toNat / 2 ^ 240 := by
  rw [C07_leading_bits, C07_leading_bits]
  omega

/- Test vectors of the repository (content_id.rs:45-54). -/
example : rangeContentId 12345678#64 0 =
    0x614e3d0000000000000000000000000000000000000000000000000000000000#256 := by decide +kernel
example : rangeContentId 12345678#64 1 =
    0x614e3d0000000000000000000000000000000000000000000000000000000001#256 := by decide +kernel
/- The hypotheses of `C07_cycle_spread` are met across a cycle border. -/
example : (65530#64).toNat < (131065#64).toNat ∧ (131065#64).toNat < (65530#64).toNat + 65536 := by
  decide

end Verif.Props
