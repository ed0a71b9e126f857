import Verif.Model.AcceptCode
import Verif.Lemmas.Bytes

namespace Verif

theorem AcceptCode.ofByte_toByte (c : AcceptCode) : AcceptCode.ofByte c.toByte = c := by
  cases c <;> rfl

theorem bitsToNat_append (as bs : List Bool) :
    bitsToNat (as ++ bs) = bitsToNat as + 2 ^ as.length * bitsToNat bs := by
  induction as with
  | nil => simp [bitsToNat]
  | cons a as ih =>
    simp only [List.cons_append, bitsToNat, ih, List.length_cons, Nat.pow_succ]
    rw [Nat.mul_add, Nat.add_assoc, ← Nat.mul_assoc, Nat.mul_comm 2 (2 ^ as.length)]

theorem bitsToNat_lt (bs : List Bool) : bitsToNat bs < 2 ^ bs.length := by
  induction bs with
  | nil => simp [bitsToNat]
  | cons b bs ih =>
    simp only [bitsToNat, List.length_cons, Nat.pow_succ]
    split <;> omega

@[simp] theorem natToBits_length (n v : Nat) : (natToBits n v).length = n := by
  induction n generalizing v with
  | zero => rfl
  | succ n ih => simp [natToBits, ih]

theorem natToBits_bitsToNat (bs : List Bool) (k : Nat) :
    natToBits bs.length (bitsToNat bs + 2 ^ bs.length * k) = bs := by
  induction bs with
  | nil => rfl
  | cons b bs ih =>
    simp only [List.length_cons, natToBits, bitsToNat, Nat.pow_succ]
    have e : (if b = true then 1 else 0) + 2 * bitsToNat bs + 2 ^ bs.length * 2 * k =
        (if b = true then 1 else 0) + 2 * (bitsToNat bs + 2 ^ bs.length * k) := by
      rw [Nat.mul_add, Nat.mul_comm (2 ^ bs.length) 2, Nat.mul_assoc]; omega
    rw [e]
    have h1 : ((if b = true then 1 else 0) + 2 * (bitsToNat bs + 2 ^ bs.length * k)) / 2 =
        bitsToNat bs + 2 ^ bs.length * k := by split <;> omega
    rw [h1, ih]
    congr 1
    cases b <;> simp

theorem bitsToNat_natToBits (n v : Nat) : bitsToNat (natToBits n v) = v % 2 ^ n := by
  induction n generalizing v with
  | zero => simp [natToBits, bitsToNat, Nat.mod_one]
  | succ n ih =>
    simp only [natToBits, bitsToNat, ih]
    rw [Nat.pow_succ, Nat.mul_comm (2 ^ n) 2, Nat.mod_mul]
    rcases Nat.mod_two_eq_zero_or_one v with h | h <;> simp [h]

theorem bitsToNat_delim (bits : List Bool) :
    bitsToNat (bits ++ [true]) = bitsToNat bits + 2 ^ bits.length := by
  rw [bitsToNat_append]; simp [bitsToNat]

theorem highestSetBit_delim (bits : List Bool) :
    highestSetBit (bitsToNat (bits ++ [true])) = some bits.length := by
  rw [bitsToNat_delim]
  have h := bitsToNat_lt bits
  have h0 : bitsToNat bits + 2 ^ bits.length ≠ 0 := by
    have := Nat.two_pow_pos bits.length; omega
  unfold highestSetBit
  rw [if_neg h0, Option.some.injEq, Nat.log2_eq_iff h0]
  constructor
  · omega
  · rw [Nat.pow_succ]; omega

theorem pow256_eq (n : Nat) : (256 : Nat) ^ n = 2 ^ (8 * n) := by rw [Nat.pow_mul]

theorem bitlist_fits (bits : List Bool) :
    bitsToNat (bits ++ [true]) < 256 ^ (bits.length / 8 + 1) := by
  have h := bitsToNat_lt (bits ++ [true])
  rw [pow256_eq]
  refine Nat.lt_of_lt_of_le h (Nat.pow_le_pow_right (by decide) ?_)
  simp; omega

theorem bitlist_roundtrip (limit : Nat) (bits : List Bool) (h : bits.length ≤ limit) :
    bitlistDecode limit (bitlistEncode bits) = some bits := by
  unfold bitlistDecode bitlistEncode
  simp only [fromLe_toLe_of_lt (bitlist_fits bits), highestSetBit_delim, toLe_length, ne_eq,
    not_true, if_false, h, if_true, Option.some.injEq]
  rw [bitsToNat_delim]
  have := natToBits_bitsToNat bits 1
  simpa using this

/-- Bit list encodings are canonical: whatever decodes is the encoding of the result. -/
theorem bitlist_canonical (limit : Nat) (bs : Bytes) (bits : List Bool)
    (h : bitlistDecode limit bs = some bits) : bs = bitlistEncode bits ∧ bits.length ≤ limit := by
  unfold bitlistDecode at h
  simp only at h
  split at h
  · simp at h
  · rename_i len hl
    split at h
    · simp at h
    · rename_i hlen
      split at h
      · rename_i hlim
        simp only [Option.some.injEq] at h
        subst h
        refine ⟨?_, by simpa using hlim⟩
        unfold highestSetBit at hl
        split at hl
        · simp at hl
        · rename_i h0
          simp only [Option.some.injEq] at hl
          rw [Nat.log2_eq_iff h0] at hl
          unfold bitlistEncode
          rw [natToBits_length, bitsToNat_delim, bitsToNat_natToBits, natToBits_length]
          have hl2 := hl.2
          rw [Nat.pow_succ] at hl2
          have hmod : fromLe bs % 2 ^ len + 2 ^ len = fromLe bs := by
            rw [Nat.mod_eq_sub_mod hl.1, Nat.mod_eq_of_lt (by omega)]; omega
          rw [hmod]
          have : len / 8 + 1 = bs.length := by omega
          rw [this, toLe_fromLe]
      · simp at h

end Verif
