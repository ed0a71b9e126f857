import Verif.Model.Distance
import Verif.Lemmas.Bytes

namespace Verif

theorem xor_byte_append (a b : Nat) (x y : Nat) (n : Nat) (hx : x < 2 ^ n) (hy : y < 2 ^ n) :
    (a * 2 ^ n + x) ^^^ (b * 2 ^ n + y) = (a ^^^ b) * 2 ^ n + (x ^^^ y) := by
  have hxy : x ^^^ y < 2 ^ n := Nat.xor_lt_two_pow hx hy
  apply Nat.eq_of_testBit_eq
  intro i
  rw [Nat.testBit_xor, Nat.mul_comm a, Nat.mul_comm b, Nat.mul_comm (a ^^^ b),
    Nat.testBit_two_pow_mul_add _ hx, Nat.testBit_two_pow_mul_add _ hy,
    Nat.testBit_two_pow_mul_add _ hxy]
  split <;> simp [Nat.testBit_xor]

theorem fromBe_zipWith_xor (x y : Bytes) (h : x.length = y.length) :
    fromBe (List.zipWith (· ^^^ ·) x y) = fromBe x ^^^ fromBe y := by
  induction x generalizing y with
  | nil =>
    have : y = [] := by simpa using h.symm
    subst this; simp [fromBe]
  | cons a x ih =>
    cases y with
    | nil => simp at h
    | cons b y =>
      have hl : x.length = y.length := by simpa using h
      simp only [List.zipWith_cons_cons]
      rw [fromBe_cons, fromBe_cons, fromBe_cons, ih y hl]
      have hlz : (List.zipWith (fun x1 x2 => x1 ^^^ x2) x y).length = x.length := by
        simp [hl]
      rw [hlz, ← hl]
      have e : (256 : Nat) ^ x.length = 2 ^ (8 * x.length) := by
        rw [Nat.pow_mul]
      have hx := fromBe_lt x
      have hy := fromBe_lt y
      rw [← hl] at hy
      rw [e] at hx hy ⊢
      rw [xor_byte_append _ _ _ _ _ hx hy]
      simp

theorem Id.fromBe_bytes (x : Id) : fromBe x.bytes = x.toNat := by
  rw [Id.bytes, fromBe_toBe_of_lt]
  have := x.isLt
  have e : (256 : Nat) ^ 32 = 2 ^ 256 := by decide
  omega

theorem xorDistance_eq (x y : Id) : xorDistance x y = x.toNat ^^^ y.toNat := by
  rw [xorDistance, xorDistanceBytes, fromBe_zipWith_xor _ _ (by simp [Id.bytes]),
    Id.fromBe_bytes, Id.fromBe_bytes]

theorem xorDistance_lt (x y : Id) : xorDistance x y < 2 ^ 256 := by
  rw [xorDistance_eq]; exact Nat.xor_lt_two_pow x.isLt y.isLt

theorem xorDistance_self (x : Id) : xorDistance x x = 0 := by
  rw [xorDistance_eq, Nat.xor_self]

theorem xorDistance_comm (x y : Id) : xorDistance x y = xorDistance y x := by
  rw [xorDistance_eq, xorDistance_eq, Nat.xor_comm]

theorem xorDistance_inj {x y z : Id} (h : xorDistance x y = xorDistance x z) : y = z := by
  rw [xorDistance_eq, xorDistance_eq] at h
  apply BitVec.eq_of_toNat_eq
  have := congrArg (fun t => x.toNat ^^^ t) h
  simpa [← Nat.xor_assoc] using this

theorem xorDistance_eq_zero {x y : Id} : xorDistance x y = 0 ↔ x = y := by
  constructor
  · intro h
    apply xorDistance_inj (x := y)
    rw [xorDistance_comm y x, h, xorDistance_self]
  · rintro rfl; exact xorDistance_self x

theorem Nat.xor_le_add' (a b : Nat) : a ^^^ b ≤ a + b := by
  induction a using Nat.strongRecOn generalizing b with
  | _ a ih =>
    rcases Nat.eq_zero_or_pos a with rfl | ha
    · simp
    · have h2 := ih (a / 2) (by omega) (b / 2)
      rw [← Nat.xor_div_two] at h2
      have hm : (a ^^^ b) % 2 ≤ a % 2 + b % 2 := by
        have h := Nat.xor_mod_two_pow (a := a) (b := b) (n := 1)
        rw [Nat.pow_one] at h
        rw [h]
        rcases Nat.mod_two_eq_zero_or_one a with e | e <;>
          rcases Nat.mod_two_eq_zero_or_one b with f | f <;> simp [e, f]
      omega

theorem xorDistance_triangle (x y z : Id) :
    xorDistance x z ≤ xorDistance x y + xorDistance y z := by
  rw [xorDistance_eq, xorDistance_eq, xorDistance_eq]
  have h : x.toNat ^^^ z.toNat = (x.toNat ^^^ y.toNat) ^^^ (y.toNat ^^^ z.toNat) := by
    rw [Nat.xor_assoc, ← Nat.xor_assoc y.toNat, Nat.xor_self, Nat.zero_xor]
  rw [h]
  exact Nat.xor_le_add' _ _

theorem leadingZeros_le (w d : Nat) : leadingZeros w d ≤ w := by
  induction w with
  | zero => simp [leadingZeros]
  | succ w ih => unfold leadingZeros; split <;> omega

theorem leadingZeros_spec (w d : Nat) (hd : d < 2 ^ w) (h0 : d ≠ 0) :
    leadingZeros w d < w ∧ 2 ^ (w - leadingZeros w d - 1) ≤ d ∧ d < 2 ^ (w - leadingZeros w d) := by
  induction w with
  | zero => simp at hd; omega
  | succ w ih =>
    unfold leadingZeros
    split
    · rename_i hb
      refine ⟨by omega, ?_, by simpa using hd⟩
      simpa using Nat.ge_two_pow_of_testBit hb
    · rename_i hb
      have hlt : d < 2 ^ w := by
        by_cases hc : d < 2 ^ w
        · exact hc
        · exfalso
          apply hb
          rw [Nat.testBit_eq_decide_div_mod_eq]
          have h1 : d / 2 ^ w = 1 := by
            have : d / 2 ^ w < 2 := by
              rw [Nat.div_lt_iff_lt_mul (Nat.two_pow_pos w)]
              rw [Nat.pow_succ] at hd; omega
            have : 1 ≤ d / 2 ^ w := by
              rw [Nat.le_div_iff_mul_le (Nat.two_pow_pos w)]; omega
            omega
          simp [h1]
      obtain ⟨h1, h2, h3⟩ := ih hlt
      refine ⟨by omega, ?_, ?_⟩
      · have : w + 1 - (1 + leadingZeros w d) - 1 = w - leadingZeros w d - 1 := by omega
        rw [this]; exact h2
      · have : w + 1 - (1 + leadingZeros w d) = w - leadingZeros w d := by omega
        rw [this]; exact h3

theorem distLog2_spec {d l : Nat} (hd : d < 2 ^ 256) (h : distLog2 d = some l) :
    1 ≤ l ∧ l ≤ 256 ∧ 2 ^ (l - 1) ≤ d ∧ d < 2 ^ l := by
  unfold distLog2 at h
  split at h
  · simp at h
  · rename_i h0
    obtain ⟨h1, h2, h3⟩ := leadingZeros_spec 256 d hd h0
    simp only [Option.some.injEq] at h
    subst h
    exact ⟨by omega, by omega, h2, h3⟩

theorem distLog2_eq_none {d : Nat} : distLog2 d = none ↔ d = 0 := by
  unfold distLog2; split <;> simp_all

theorem pow_bracket_unique {d l m : Nat} (hl : 1 ≤ l) (hm : 1 ≤ m)
    (h1 : 2 ^ (l - 1) ≤ d) (h2 : d < 2 ^ l)
    (h3 : 2 ^ (m - 1) ≤ d) (h4 : d < 2 ^ m) : l = m := by
  have a : l - 1 < m := (Nat.pow_lt_pow_iff_right (by decide : 1 < 2)).mp (Nat.lt_of_le_of_lt h1 h4)
  have b : m - 1 < l := (Nat.pow_lt_pow_iff_right (by decide : 1 < 2)).mp (Nat.lt_of_le_of_lt h3 h2)
  omega

theorem distLog2_of_bracket {d l : Nat} (hl : 1 ≤ l) (hl' : l ≤ 256)
    (h1 : 2 ^ (l - 1) ≤ d) (h2 : d < 2 ^ l) : distLog2 d = some l := by
  have hd0 : d ≠ 0 := by have := Nat.two_pow_pos (l - 1); omega
  cases h : distLog2 d with
  | none => exact absurd (distLog2_eq_none.mp h) hd0
  | some m =>
    have hd : d < 2 ^ 256 := Nat.lt_of_lt_of_le h2 (Nat.pow_le_pow_right (by decide) hl')
    obtain ⟨a, b, c, e⟩ := distLog2_spec hd h
    rw [pow_bracket_unique a hl c e h1 h2]

theorem take_toBe (n k v : Nat) : (toBe (n + k) v).take n = toBe n (v / 256 ^ k) := by
  induction k generalizing v with
  | zero => simp [List.take_of_length_le]
  | succ k ih =>
    have : n + (k + 1) = (n + k) + 1 := by omega
    rw [this, toBe, List.take_append_of_le_length (by simp), ih, Nat.div_div_eq_div_mul,
      Nat.pow_succ, Nat.mul_comm 256]

theorem distBigEndianU32_eq {d : Nat} (hd : d < 2 ^ 256) : distBigEndianU32 d = d / 2 ^ 224 := by
  unfold distBigEndianU32 distBigEndian
  have e := take_toBe 4 28 d
  rw [show (4 + 28 : Nat) = 32 from rfl] at e
  have h28 : (256 : Nat) ^ 28 = 2 ^ 224 := by decide
  rw [e, h28, fromBe_toBe_of_lt]
  · rw [Nat.div_lt_iff_lt_mul (by decide)]
    have : (256 : Nat) ^ 4 * 2 ^ 224 = 2 ^ 256 := by decide
    omega

theorem Id.bytes_length (a : Id) : a.bytes.length = 32 := by simp [Id.bytes, toBe_length]

theorem Id.bytes_injective {a b : Id} (h : a.bytes = b.bytes) : a = b := by
  have := congrArg fromBe h
  rw [Id.fromBe_bytes, Id.fromBe_bytes] at this
  exact BitVec.eq_of_toNat_eq this

end Verif
