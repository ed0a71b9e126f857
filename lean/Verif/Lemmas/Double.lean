import Verif.Model.Double
import Verif.Lemmas.Store

/-! Helper lemmas about doubles: how far a rounded value is from the exact one. -/

namespace Verif.Double

theorem nearest_err (p q : Nat) (hq : 0 < q) : 2 * (nearest p q * q) ≤ 2 * p + q ∧ 2 * p ≤ 2 * (nearest p q * q) + q := by
  have h1 := Nat.div_add_mod p q
  have h2 := Nat.mod_lt p hq
  rw [Nat.mul_comm] at h1
  have hs : (p / q + 1) * q = p / q * q + q := by rw [Nat.add_mul, Nat.one_mul]
  unfold nearest
  simp only
  generalize hd : p / q * q = d at *
  split
  · rw [hd]; omega
  · split
    · rw [hs]; omega
    · split
      · rw [hd]; omega
      · rw [hs]; omega

theorem expo_le (p q : Nat) (hq : 0 < q) (h : 2 ^ 52 * q ≤ p) : 2 ^ 52 * (q * 2 ^ expo p q) ≤ p := by
  have h0 : 2 ^ 52 ≤ p / q := (Nat.le_div_iff_mul_le hq).mpr h
  have hne : p / q ≠ 0 := by
    intro h; rw [h] at h0; exact absurd h0 (by decide)
  have h1 : 52 ≤ (p / q).log2 := (Nat.le_log2 hne).mpr h0
  have h2 : 2 ^ (p / q).log2 ≤ p / q := Nat.log2_self_le hne
  have h3 : 2 ^ 52 * 2 ^ expo p q = 2 ^ (p / q).log2 := by
    rw [← Nat.pow_add]
    unfold expo
    congr 1
    omega
  have h4 : 2 ^ 52 * 2 ^ expo p q ≤ p / q := by rw [h3]; exact h2
  have h5 := (Nat.le_div_iff_mul_le hq).mp h4
  calc 2 ^ 52 * (q * 2 ^ expo p q) = 2 ^ 52 * 2 ^ expo p q * q := by
        rw [Nat.mul_comm q, Nat.mul_assoc]
    _ ≤ p := h5

theorem lt_expo (p q : Nat) (hq : 0 < q) : p < 2 ^ 53 * (q * 2 ^ expo p q) := by
  have h0 : p / q < 2 ^ 53 * 2 ^ expo p q := by
    by_cases hz : p / q = 0
    · rw [hz]; exact Nat.mul_pos (by decide) (Nat.two_pow_pos _)
    · rw [← Nat.pow_add]
      refine Nat.lt_of_lt_of_le (Nat.lt_log2_self (n := p / q)) ?_
      apply Nat.pow_le_pow_right (by decide)
      unfold expo
      omega
  have h1 := (Nat.div_lt_iff_lt_mul hq).mp h0
  calc p < 2 ^ 53 * 2 ^ expo p q * q := h1
    _ = 2 ^ 53 * (q * 2 ^ expo p q) := by rw [Nat.mul_comm q, Nat.mul_assoc]

theorem round_mul (p q : Nat) : round p q * q = nearest p (q * 2 ^ expo p q) * (q * 2 ^ expo p q) := by
  unfold round
  rw [Nat.mul_assoc, Nat.mul_comm (2 ^ _) q]

/-- The relative error of rounding. -/
theorem round_err (p q : Nat) (hq : 0 < q) (h : 2 ^ 52 * q ≤ p ∨ p = 0) :
    2 ^ 53 * (round p q * q) ≤ (2 ^ 53 + 1) * p ∧ 2 ^ 53 * p ≤ 2 ^ 53 * (round p q * q) + p := by
  rcases h with h | rfl
  · have hQ : 0 < q * 2 ^ expo p q := Nat.mul_pos hq (Nat.two_pow_pos _)
    have h1 := nearest_err p _ hQ
    have h2 := expo_le p q hq h
    rw [← round_mul] at h1
    omega
  · have : round 0 q = 0 := by
      unfold round nearest
      simp
    rw [this]
    simp

/-- A coarser bound that is easier to work with. -/
theorem round_err6 (p q : Nat) (hq : 0 < q) (h : 2 ^ 52 * q ≤ p ∨ p = 0) :
    1000000 * (round p q * q) ≤ 1000001 * p ∧ 999999 * p ≤ 1000000 * (round p q * q) := by
  have := round_err p q hq h
  omega

theorem one_pos : 0 < one := Nat.two_pow_pos _

theorem one_eq (k : Nat) (h : k ≤ 1074) : one = 2 ^ k * 2 ^ (1074 - k) := by
  unfold one
  rw [← Nat.pow_add]
  congr 1
  omega

theorem one_large : 2 ^ 52 ≤ one := by
  unfold one
  exact Nat.pow_le_pow_right (by decide) (by decide)

theorem ofNat_err (n : Nat) : 1000000 * ofNat n ≤ 1000001 * (n * one) ∧ 999999 * (n * one) ≤ 1000000 * ofNat n := by
  have := round_err6 (n * one) 1 (by decide) (by
    rcases Nat.eq_zero_or_pos n with rfl | hn
    · right; simp
    · left
      have := Nat.mul_le_mul hn (Nat.le_refl one)
      have := one_large
      omega)
  simpa [ofNat] using this

theorem ofNat_err53 (n : Nat) : 2 ^ 53 * ofNat n ≤ (2 ^ 53 + 1) * (n * one) ∧ 2 ^ 53 * (n * one) ≤ 2 ^ 53 * ofNat n + n * one := by
  have := round_err (n * one) 1 (by decide) (by
    rcases Nat.eq_zero_or_pos n with rfl | hn
    · right; simp
    · left
      have := Nat.mul_le_mul hn (Nat.le_refl one)
      have := one_large
      omega)
  simpa [ofNat] using this

/-- Doubles are kept: a multiple `k` of a power of two, `k` of 53 digits at most. -/
theorem round_double (k e q : Nat) (hq : 0 < q) (hk : k < 2 ^ 53) : round (k * 2 ^ e * q) q = k * 2 ^ e := by
  rcases Nat.eq_zero_or_pos k with rfl | hpos
  · unfold round nearest
    simp
  have hdiv : k * 2 ^ e * q / q = k * 2 ^ e := Nat.mul_div_cancel _ hq
  have hle : expo (k * 2 ^ e * q) q ≤ e := by
    unfold expo
    rw [hdiv]
    have : (k * 2 ^ e).log2 < 53 + e := by
      rw [Nat.log2_lt (by have := Nat.two_pow_pos e; exact Nat.ne_of_gt (Nat.mul_pos hpos this)), Nat.pow_add]
      exact Nat.mul_lt_mul_of_pos_right hk (Nat.two_pow_pos e)
    omega
  unfold round
  generalize expo (k * 2 ^ e * q) q = x at *
  have hx : 2 ^ e = 2 ^ (e - x) * 2 ^ x := by rw [← Nat.pow_add]; congr 1; omega
  have hQ : 0 < q * 2 ^ x := Nat.mul_pos hq (Nat.two_pow_pos _)
  have hp : k * 2 ^ e * q = k * 2 ^ (e - x) * (q * 2 ^ x) := by
    rw [hx]; simp only [Nat.mul_assoc, Nat.mul_comm, Nat.mul_left_comm]
  have hn : nearest (k * 2 ^ e * q) (q * 2 ^ x) = k * 2 ^ (e - x) := by
    unfold nearest
    simp only
    rw [hp, Nat.mul_mod_left, Nat.mul_div_cancel _ hQ, if_pos (by omega)]
  rw [hn, hx, Nat.mul_assoc]

theorem ofNat_small (n : Nat) (h : n < 2 ^ 53) : ofNat n = n * one := by
  have := round_double n 1074 1 (by decide) h
  unfold ofNat one
  rw [Nat.mul_one] at this
  exact this

theorem lit95 : lit 95 100 = 8556839292003942 * 2 ^ 1021 := by decide +kernel
theorem add12 : add one (lit 2 10) = 5404319552844595 * 2 ^ 1022 := by decide +kernel
theorem sub08 : sub one (lit 2 10) = 7205759403792794 * 2 ^ 1021 := by decide +kernel

end Verif.Double

namespace Verif.Store
open Verif.Double

/-- Rounding to a whole number. -/
theorem whole_err (a : Nat) : 2 * (whole a * one) ≤ 2 * a + one ∧ 2 * a < 2 * (whole a * one) + one := by
  have h := Nat.div_add_mod (2 * a + one) (2 * one)
  have h2 := Nat.mod_lt (2 * a + one) (y := 2 * one) (by have := one_pos; omega)
  unfold whole
  generalize (2 * a + one) / (2 * one) = d at *
  have : 2 * one * d = 2 * (d * one) := by rw [Nat.mul_assoc, Nat.mul_comm one]
  omega

theorem target_le (c : Nat) : 200000000000000 * Arith.double.target c ≤ 190000380000190 * c + 100000000000000 := by
  have h1 := (ofNat_err c).1
  have h2 : 1000000 * (mul (ofNat c) (lit 95 100) * one) ≤ 1000001 * (ofNat c * lit 95 100) := by
    refine (round_err6 _ one one_pos ?_).1
    rcases Nat.eq_zero_or_pos c with rfl | hc
    · right
      have h0 : ofNat 0 = 0 := by rw [ofNat_small 0 (by decide)]; simp
      rw [h0, Nat.zero_mul]
    · left
      have h3 := (ofNat_err c).2
      have h4 : one ≤ 2 * ofNat c := by
        have := Nat.mul_le_mul hc (Nat.le_refl one)
        omega
      have h5 : 2 ^ 53 ≤ lit 95 100 := by decide +kernel
      have h6 := Nat.mul_le_mul h4 h5
      generalize lit 95 100 = f at *
      generalize ofNat c = C at *
      generalize one = S at *
      apply Nat.le_of_mul_le_mul_left (c := 2) _ (by decide)
      calc 2 * (2 ^ 52 * S) = S * 2 ^ 53 := by
            rw [Nat.mul_comm S, ← Nat.mul_assoc]
        _ ≤ 2 * C * f := h6
        _ = 2 * (C * f) := Nat.mul_assoc _ _ _
  have h3 : 100 * lit 95 100 ≤ 95 * one := by decide +kernel
  have hw := (whole_err (mul (ofNat c) (lit 95 100))).1
  have ht : Arith.double.target c ≤ whole (mul (ofNat c) (lit 95 100)) := by
    simp only [Arith.double, asU64]; omega
  generalize mul (ofNat c) (lit 95 100) = T at *
  generalize whole T = w at *
  generalize lit 95 100 = f at *
  generalize ofNat c = C at *
  have hS := one_pos
  generalize one = S at *
  -- T * S ≤ (1 + ε) * C * f, and C ≤ (1 + ε) * c * S, f ≤ 0.95 * S
  have e1 : 1000000 * C * (100 * f) ≤ 1000001 * (c * S) * (95 * S) := Nat.mul_le_mul h1 h3
  have e2 : 1000000 * 1000000 * 100 * (T * S) ≤ 1000001 * (1000001 * 95 * (c * S)) * S := by
    calc 1000000 * 1000000 * 100 * (T * S) = 1000000 * 100 * (1000000 * (T * S)) := by grind
      _ ≤ 1000000 * 100 * (1000001 * (C * f)) := Nat.mul_le_mul_left _ h2
      _ = 1000001 * (1000000 * C * (100 * f)) := by grind
      _ ≤ 1000001 * (1000001 * (c * S) * (95 * S)) := Nat.mul_le_mul_left _ e1
      _ = 1000001 * (1000001 * 95 * (c * S)) * S := by grind
  have e3 : 1000000 * 1000000 * 100 * T ≤ 1000001 * (1000001 * 95 * (c * S)) := by
    apply Nat.le_of_mul_le_mul_right (c := S) _ hS
    calc 1000000 * 1000000 * 100 * T * S = 1000000 * 1000000 * 100 * (T * S) := by grind
      _ ≤ _ := e2
  have e4 : 200000000000000 * w * S ≤ (190000380000190 * c + 100000000000000) * S := by
    calc 200000000000000 * w * S = 100000000000000 * (2 * (w * S)) := by grind
      _ ≤ 100000000000000 * (2 * T + S) := Nat.mul_le_mul_left _ hw
      _ = 2 * (1000000 * 1000000 * 100 * T) + 100000000000000 * S := by grind
      _ ≤ 2 * (1000001 * (1000001 * 95 * (c * S))) + 100000000000000 * S := by omega
      _ = (190000380000190 * c + 100000000000000) * S := by grind
  have := Nat.le_of_mul_le_mul_right e4 hS
  omega

theorem round_small (p q : Nat) (hq : 0 < q) (h : p < 2 ^ 52 * q) : round p q ≤ 2 ^ 52 := by
  have h0 : p / q < 2 ^ 52 := (Nat.div_lt_iff_lt_mul hq).mpr h
  have he : expo p q = 0 := by
    unfold expo
    by_cases hz : p / q = 0
    · rw [hz]; decide
    · have := (Nat.log2_lt hz).mpr h0
      omega
  unfold round
  rw [he]
  simp only [Nat.pow_zero, Nat.mul_one]
  unfold nearest
  simp only
  split
  · omega
  · split
    · omega
    · split <;> omega

/-- The average size of an entry. -/
def avg (n total extra : Nat) : Nat := add (div (ofNat total) (ofNat n)) (ofNat extra)

theorem fit_eq (t n total extra : Nat) :
    Arith.double.fit t n total extra = asU64 (floor (div (ofNat t) (avg n total extra))) := rfl

theorem div_err (n total : Nat) (hn : 0 < n) (hb : n < 2 ^ 64) :
    1000000 * (div (ofNat total) (ofNat n) * ofNat n) ≤ 1000001 * (ofNat total * one) ∧
    999999 * (ofNat total * one) ≤ 1000000 * (div (ofNat total) (ofNat n) * ofNat n) := by
  have hN := ofNat_err n
  have hpos : 0 < ofNat n := by
    have h := Nat.mul_pos hn one_pos
    omega
  refine round_err6 _ _ hpos ?_
  rcases Nat.eq_zero_or_pos total with rfl | ht
  · right
    rw [ofNat_small 0 (by decide)]
    simp
  · left
    have hT := (ofNat_err total).2
    have h1 : one ≤ 2 * ofNat total := by
      have := Nat.mul_le_mul ht (Nat.le_refl one)
      omega
    have h2 : ofNat n ≤ 2 * (n * one) := by omega
    have h3 : n * one ≤ 2 ^ 64 * one := Nat.mul_le_mul_right _ (Nat.le_of_lt hb)
    have h4 : 2 ^ 120 ≤ one := by
      unfold one
      exact Nat.pow_le_pow_right (by decide) (by decide)
    generalize ofNat total = T at *
    generalize ofNat n = N at *
    generalize one = S at *
    have h5 : 2 ^ 120 * S ≤ 2 * (T * S) := by
      calc 2 ^ 120 * S ≤ S * S := Nat.mul_le_mul_right _ h4
        _ ≤ 2 * T * S := Nat.mul_le_mul_right _ h1
        _ = 2 * (T * S) := Nat.mul_assoc _ _ _
    generalize T * S = P at *
    generalize n * S = Q at *
    clear hT hN
    omega

theorem avg_err (n total extra : Nat) (hn : 0 < n) (hb : n < 2 ^ 64) :
    1000000 * avg n total extra ≤ 1000001 * (div (ofNat total) (ofNat n) + ofNat extra) ∧
    999999 * (div (ofNat total) (ofNat n) + ofNat extra) ≤ 1000000 * avg n total extra := by
  have h := round_err6 (div (ofNat total) (ofNat n) + ofNat extra) 1 (by decide) (by
    rcases Nat.eq_zero_or_pos extra with rfl | he
    · rcases Nat.eq_zero_or_pos total with rfl | ht
      · right
        rw [ofNat_small 0 (by decide)]
        unfold div round nearest
        simp
      · left
        have hd := (div_err n total hn hb).2
        have hT := (ofNat_err total).2
        have hN := (ofNat_err n).1
        have h1 : one ≤ 2 * ofNat total := by
          have := Nat.mul_le_mul ht (Nat.le_refl one)
          omega
        have h2 : ofNat n ≤ 2 * (n * one) := by omega
        have h3 : n * one ≤ 2 ^ 64 * one := Nat.mul_le_mul_right _ (Nat.le_of_lt hb)
        have h4 : 2 ^ 120 ≤ one := by
          unfold one
          exact Nat.pow_le_pow_right (by decide) (by decide)
        have hS := one_pos
        generalize div (ofNat total) (ofNat n) = d at *
        generalize ofNat total = T at *
        generalize ofNat n = N at *
        generalize ofNat 0 = X at *
        generalize one = S at *
        have h2' : N ≤ 2 ^ 65 * S := by
          generalize n * S = Q at *
          clear hT hN hd
          omega
        have h5 : 2 ^ 120 * S ≤ 2 * (T * S) := by
          calc 2 ^ 120 * S ≤ S * S := Nat.mul_le_mul_right _ h4
            _ ≤ 2 * T * S := Nat.mul_le_mul_right _ h1
            _ = 2 * (T * S) := Nat.mul_assoc _ _ _
        have h6 : d * N ≤ d * 2 ^ 65 * S := by
          rw [Nat.mul_assoc]
          exact Nat.mul_le_mul_left _ h2'
        have h7 : 999999 * 2 ^ 119 * S ≤ 1000000 * (d * 2 ^ 65) * S := by
          have h5' : 2 ^ 119 * S ≤ T * S := by
            clear h6 h2' h2 h3 h4 hd hT hN
            generalize T * S = P at *
            omega
          calc 999999 * 2 ^ 119 * S = 999999 * (2 ^ 119 * S) := Nat.mul_assoc _ _ _
            _ ≤ 999999 * (T * S) := Nat.mul_le_mul_left _ h5'
            _ ≤ 1000000 * (d * N) := hd
            _ ≤ 1000000 * (d * 2 ^ 65 * S) := Nat.mul_le_mul_left _ h6
            _ = 1000000 * (d * 2 ^ 65) * S := by rw [Nat.mul_assoc 1000000]
        have h8 := Nat.le_of_mul_le_mul_right h7 hS
        clear h7 h6 h5 h2' h2 h3 hd hT hN h4
        omega
    · left
      have hX := (ofNat_err extra).2
      have := Nat.mul_le_mul he (Nat.le_refl one)
      have h4 : 2 ^ 120 ≤ one := by
        unfold one
        exact Nat.pow_le_pow_right (by decide) (by decide)
      generalize one = S at *
      omega)
  simpa [avg, add] using h

/-- The average, from below. -/
theorem avg_ge (n total extra : Nat) (hn : 0 < n) (hb : n < 2 ^ 64) :
    999999 ^ 3 * (total + n * extra) * one ≤ 1000001 * 1000000 ^ 2 * n * avg n total extra := by
  have ha := (avg_err n total extra hn hb).2
  have hd := (div_err n total hn hb).2
  have hT := (ofNat_err total).2
  have hN := (ofNat_err n).1
  have hX := (ofNat_err extra).2
  have hS := one_pos
  generalize avg n total extra = a at *
  generalize div (ofNat total) (ofNat n) = d at *
  generalize ofNat total = T at *
  generalize ofNat n = N at *
  generalize ofNat extra = X at *
  generalize one = S at *
  have e1 : 999999 ^ 2 * (total * S) ≤ 1000001 * 1000000 * n * d := by
    apply Nat.le_of_mul_le_mul_right (c := S) _ hS
    calc 999999 ^ 2 * (total * S) * S = 999999 * (999999 * (total * S)) * S := by grind
      _ ≤ 999999 * (1000000 * T) * S := Nat.mul_le_mul_right _ (Nat.mul_le_mul_left _ hT)
      _ = 1000000 * (999999 * (T * S)) := by grind
      _ ≤ 1000000 * (1000000 * (d * N)) := Nat.mul_le_mul_left _ hd
      _ = 1000000 * d * (1000000 * N) := by grind
      _ ≤ 1000000 * d * (1000001 * (n * S)) := Nat.mul_le_mul_left _ hN
      _ = 1000001 * 1000000 * n * d * S := by grind
  have e2 : 999999 ^ 2 * (n * extra * S) ≤ 1000001 * 1000000 * n * X := by
    calc 999999 ^ 2 * (n * extra * S) = 999999 * n * (999999 * (extra * S)) := by grind
      _ ≤ 999999 * n * (1000000 * X) := Nat.mul_le_mul_left _ hX
      _ ≤ 1000001 * n * (1000000 * X) := Nat.mul_le_mul_right _ (Nat.mul_le_mul_right _ (by decide))
      _ = 1000001 * 1000000 * n * X := by grind
  calc 999999 ^ 3 * (total + n * extra) * S
      = 999999 * (999999 ^ 2 * (total * S) + 999999 ^ 2 * (n * extra * S)) := by grind
    _ ≤ 999999 * (1000001 * 1000000 * n * d + 1000001 * 1000000 * n * X) :=
        Nat.mul_le_mul_left _ (Nat.add_le_add e1 e2)
    _ = 1000001 * 1000000 * n * (999999 * (d + X)) := by grind
    _ ≤ 1000001 * 1000000 * n * (1000000 * a) := Nat.mul_le_mul_left _ ha
    _ = 1000001 * 1000000 ^ 2 * n * a := by grind

/-- The average, from above. -/
theorem avg_le (n total extra : Nat) (hn : 0 < n) (hb : n < 2 ^ 64) :
    999999 * 1000000 ^ 2 * n * avg n total extra ≤ 1000001 ^ 3 * (total + n * extra) * one := by
  have ha := (avg_err n total extra hn hb).1
  have hd := (div_err n total hn hb).1
  have hT := (ofNat_err total).1
  have hN := (ofNat_err n).2
  have hX := (ofNat_err extra).1
  have hS := one_pos
  generalize avg n total extra = a at *
  generalize div (ofNat total) (ofNat n) = d at *
  generalize ofNat total = T at *
  generalize ofNat n = N at *
  generalize ofNat extra = X at *
  generalize one = S at *
  have e1 : 999999 * 1000000 * n * d ≤ 1000001 ^ 2 * (total * S) := by
    apply Nat.le_of_mul_le_mul_right (c := S) _ hS
    calc 999999 * 1000000 * n * d * S = 1000000 * d * (999999 * (n * S)) := by grind
      _ ≤ 1000000 * d * (1000000 * N) := Nat.mul_le_mul_left _ hN
      _ = 1000000 * (1000000 * (d * N)) := by grind
      _ ≤ 1000000 * (1000001 * (T * S)) := Nat.mul_le_mul_left _ hd
      _ = 1000001 * (1000000 * T) * S := by grind
      _ ≤ 1000001 * (1000001 * (total * S)) * S := Nat.mul_le_mul_right _ (Nat.mul_le_mul_left _ hT)
      _ = 1000001 ^ 2 * (total * S) * S := by grind
  have e2 : 999999 * 1000000 * n * X ≤ 1000001 ^ 2 * (n * extra * S) := by
    calc 999999 * 1000000 * n * X = 999999 * n * (1000000 * X) := by grind
      _ ≤ 999999 * n * (1000001 * (extra * S)) := Nat.mul_le_mul_left _ hX
      _ ≤ 1000001 * n * (1000001 * (extra * S)) := Nat.mul_le_mul_right _ (Nat.mul_le_mul_right _ (by decide))
      _ = 1000001 ^ 2 * (n * extra * S) := by grind
  calc 999999 * 1000000 ^ 2 * n * a
      = 999999 * 1000000 * n * (1000000 * a) := by grind
    _ ≤ 999999 * 1000000 * n * (1000001 * (d + X)) := Nat.mul_le_mul_left _ ha
    _ = 1000001 * (999999 * 1000000 * n * d + 999999 * 1000000 * n * X) := by grind
    _ ≤ 1000001 * (1000001 ^ 2 * (total * S) + 1000001 ^ 2 * (n * extra * S)) :=
        Nat.mul_le_mul_left _ (Nat.add_le_add e1 e2)
    _ = 1000001 ^ 3 * (total + n * extra) * S := by grind

theorem fit_floor_le (t n total extra : Nat) (hn : 0 < n) (hb : n < 2 ^ 64) (hu : 0 < total + n * extra) :
    999999 ^ 3 * (floor (div (ofNat t) (avg n total extra)) * (total + n * extra)) ≤ 1000001 ^ 3 * (t * n) := by
  have ha := avg_ge n total extra hn hb
  have hS := one_pos
  have hapos : 0 < avg n total extra := by
    rcases Nat.eq_zero_or_pos (avg n total extra) with h | h
    · rw [h, Nat.mul_zero] at ha
      have := Nat.mul_pos (Nat.mul_pos (show 0 < 999999 ^ 3 by decide) hu) hS
      omega
    · exact h
  have hfl : floor (div (ofNat t) (avg n total extra)) * one ≤ div (ofNat t) (avg n total extra) := Nat.div_mul_le_self _ _
  rcases Nat.eq_zero_or_pos (floor (div (ofNat t) (avg n total extra))) with h0 | h0
  · rw [h0]; simp
  have hD : 1000000 * (div (ofNat t) (avg n total extra) * avg n total extra) ≤ 1000001 * (ofNat t * one) := by
    refine (round_err6 _ _ hapos ?_).1
    left
    apply Decidable.byContradiction
    intro h
    have h1 := round_small _ _ hapos (Nat.lt_of_not_le h)
    have h2 : one ≤ div (ofNat t) (avg n total extra) := by
      have := Nat.mul_le_mul h0 (Nat.le_refl one)
      omega
    have h4 : 2 ^ 120 ≤ one := by
      unfold one
      exact Nat.pow_le_pow_right (by decide) (by decide)
    have h3 : 2 ^ 120 ≤ 2 ^ 52 := Nat.le_trans h4 (Nat.le_trans h2 h1)
    exact absurd h3 (by decide)
  have hT := (ofNat_err t).1
  generalize avg n total extra = a at *
  generalize floor (div (ofNat t) a) = f at *
  generalize div (ofNat t) a = D at *
  generalize ofNat t = T at *
  generalize total + n * extra = u at *
  generalize one = S at *
  have e1 : 1000000 ^ 2 * (f * a) ≤ 1000001 ^ 2 * (t * S) := by
    apply Nat.le_of_mul_le_mul_right (c := S) _ hS
    calc 1000000 ^ 2 * (f * a) * S = 1000000 ^ 2 * a * (f * S) := by grind
      _ ≤ 1000000 ^ 2 * a * D := Nat.mul_le_mul_left _ hfl
      _ = 1000000 * (1000000 * (D * a)) := by grind
      _ ≤ 1000000 * (1000001 * (T * S)) := Nat.mul_le_mul_left _ hD
      _ = 1000001 * (1000000 * T) * S := by grind
      _ ≤ 1000001 * (1000001 * (t * S)) * S := Nat.mul_le_mul_right _ (Nat.mul_le_mul_left _ hT)
      _ = 1000001 ^ 2 * (t * S) * S := by grind
  apply Nat.le_of_mul_le_mul_right (c := S) _ hS
  calc 999999 ^ 3 * (f * u) * S = f * (999999 ^ 3 * u * S) := by grind
    _ ≤ f * (1000001 * 1000000 ^ 2 * n * a) := Nat.mul_le_mul_left _ ha
    _ = 1000001 * n * (1000000 ^ 2 * (f * a)) := by grind
    _ ≤ 1000001 * n * (1000001 ^ 2 * (t * S)) := Nat.mul_le_mul_left _ e1
    _ = 1000001 ^ 3 * (t * n) * S := by grind

theorem fit_floor_ge (t n total extra : Nat) (hn : 0 < n) (hb : n < 2 ^ 64) (hu : 0 < total + n * extra)
    (hub : total + n * extra < 2 ^ 200) :
    999999 ^ 3 * (t * n) ≤ 1000001 ^ 3 * ((floor (div (ofNat t) (avg n total extra)) + 1) * (total + n * extra)) := by
  have hl := avg_ge n total extra hn hb
  have ha := avg_le n total extra hn hb
  have hS := one_pos
  have hapos : 0 < avg n total extra := by
    rcases Nat.eq_zero_or_pos (avg n total extra) with h | h
    · rw [h, Nat.mul_zero] at hl
      have := Nat.mul_pos (Nat.mul_pos (show 0 < 999999 ^ 3 by decide) hu) hS
      omega
    · exact h
  have hfl : div (ofNat t) (avg n total extra) ≤ (floor (div (ofNat t) (avg n total extra)) + 1) * one := by
    have h1 := Nat.div_add_mod (div (ofNat t) (avg n total extra)) one
    have h2 := Nat.mod_lt (div (ofNat t) (avg n total extra)) hS
    unfold floor
    rw [Nat.add_mul, Nat.one_mul, Nat.mul_comm _ one]
    omega
  have hD : 999999 * (ofNat t * one) ≤ 1000000 * (div (ofNat t) (avg n total extra) * avg n total extra) := by
    refine (round_err6 _ _ hapos ?_).2
    rcases Nat.eq_zero_or_pos t with rfl | ht
    · right
      rw [ofNat_small 0 (by decide)]
      simp
    · left
      have hT := (ofNat_err t).2
      have h1 : one ≤ 2 * ofNat t := by
        have := Nat.mul_le_mul ht (Nat.le_refl one)
        omega
      have h4 : 2 ^ 300 ≤ one := by
        unfold one
        exact Nat.pow_le_pow_right (by decide) (by decide)
      have h5 : avg n total extra ≤ 2 ^ 201 * one := by
        have h6 : avg n total extra ≤ n * avg n total extra := Nat.le_mul_of_pos_left _ hn
        have h7 : (total + n * extra) * one ≤ 2 ^ 200 * one := Nat.mul_le_mul_right _ (Nat.le_of_lt hub)
        rw [Nat.mul_assoc (999999 * 1000000 ^ 2) n, Nat.mul_assoc (1000001 ^ 3)] at ha
        generalize n * avg n total extra = y at *
        generalize (total + n * extra) * one = z at *
        clear hfl hl hT
        omega
      clear hfl hl ha hT
      generalize avg n total extra = a at *
      generalize ofNat t = T at *
      generalize one = S at *
      have h8 : 2 ^ 300 * S ≤ 2 * (T * S) := by
        calc 2 ^ 300 * S ≤ S * S := Nat.mul_le_mul_right _ h4
          _ ≤ 2 * T * S := Nat.mul_le_mul_right _ h1
          _ = 2 * (T * S) := Nat.mul_assoc _ _ _
      generalize T * S = P at *
      omega
  have hT := (ofNat_err t).2
  generalize avg n total extra = a at *
  generalize floor (div (ofNat t) a) + 1 = f at *
  generalize div (ofNat t) a = D at *
  generalize ofNat t = T at *
  generalize total + n * extra = u at *
  generalize one = S at *
  have e1 : 999999 ^ 2 * (t * S) ≤ 1000000 ^ 2 * (f * a) := by
    apply Nat.le_of_mul_le_mul_right (c := S) _ hS
    calc 999999 ^ 2 * (t * S) * S = 999999 * (999999 * (t * S)) * S := by grind
      _ ≤ 999999 * (1000000 * T) * S := Nat.mul_le_mul_right _ (Nat.mul_le_mul_left _ hT)
      _ = 1000000 * (999999 * (T * S)) := by grind
      _ ≤ 1000000 * (1000000 * (D * a)) := Nat.mul_le_mul_left _ hD
      _ = 1000000 ^ 2 * a * D := by grind
      _ ≤ 1000000 ^ 2 * a * (f * S) := Nat.mul_le_mul_left _ hfl
      _ = 1000000 ^ 2 * (f * a) * S := by grind
  apply Nat.le_of_mul_le_mul_right (c := S) _ hS
  calc 999999 ^ 3 * (t * n) * S = 999999 * n * (999999 ^ 2 * (t * S)) := by grind
    _ ≤ 999999 * n * (1000000 ^ 2 * (f * a)) := Nat.mul_le_mul_left _ e1
    _ = f * (999999 * 1000000 ^ 2 * n * a) := by grind
    _ ≤ f * (1000001 ^ 3 * u * S) := Nat.mul_le_mul_left _ ha
    _ = 1000001 ^ 3 * (f * u) * S := by grind

theorem asU64_le (n : Nat) : asU64 n ≤ n := Nat.min_le_left _ _
theorem asU64_lt (n : Nat) : asU64 n < 2 ^ 64 := by unfold asU64; omega
theorem asU64_eq (n : Nat) (h : n < 2 ^ 64) : asU64 n = n := by unfold asU64; omega

theorem double_sound : Arith.double.Sound := by
  intro cap count total extra hcap hcount hover
  by_cases hb : count < 2 ^ 64
  · apply Decidable.byContradiction
    intro h
    have h1 : count ≤ floor (div (ofNat (Arith.double.target cap)) (avg count total extra)) :=
      Nat.le_trans (Nat.le_of_not_lt h) (asU64_le _)
    have h2 := fit_floor_le (Arith.double.target cap) count total extra hcount hb (by omega)
    have ht := target_le cap
    generalize floor (div (ofNat (Arith.double.target cap)) (avg count total extra)) = f at *
    generalize Arith.double.target cap = t at *
    generalize total + count * extra = u at *
    have h3 : 999999 ^ 3 * u * count ≤ 1000001 ^ 3 * t * count := by
      calc 999999 ^ 3 * u * count = 999999 ^ 3 * (count * u) := by grind
        _ ≤ 999999 ^ 3 * (f * u) := Nat.mul_le_mul_left _ (Nat.mul_le_mul_right _ h1)
        _ ≤ 1000001 ^ 3 * (t * count) := h2
        _ = 1000001 ^ 3 * t * count := by grind
    have h4 := Nat.le_of_mul_le_mul_right h3 hcount
    omega
  · exact Nat.lt_of_lt_of_le (asU64_lt _) (Nat.le_of_not_lt hb)

/-- A product with a double `F * 2 ^ g`, rounded to a whole number. -/
theorem whole_mul (F n : Nat) (f : Nat) (hn : n < 2 ^ 53) (hf : 2 ^ 52 ≤ f) (hF : 2 ^ 53 * f = F * one) :
    2 ^ 54 * 2 ^ 53 * whole (mul (ofNat n) f) ≤ 2 * (2 ^ 53 + 1) * (n * F) + 2 ^ 53 * 2 ^ 53 ∧
    2 * 2 ^ 53 * (n * F) ≤ 2 ^ 54 * 2 ^ 53 * whole (mul (ofNat n) f) + 2 * (n * F) + 2 ^ 53 * 2 ^ 53 := by
  have hr := round_err (ofNat n * f) one one_pos (by
    rw [ofNat_small n hn]
    rcases Nat.eq_zero_or_pos n with rfl | hpos
    · right; simp
    · left
      have h2 := hf
      calc 2 ^ 52 * one = 1 * one * 2 ^ 52 := by rw [Nat.one_mul, Nat.mul_comm]
        _ ≤ n * one * f := Nat.mul_le_mul (Nat.mul_le_mul_right _ hpos) h2)
  have hw := whole_err (mul (ofNat n) f)
  have hS := one_pos
  change 2 ^ 53 * (mul (ofNat n) f * one) ≤ _ ∧ _ ≤ 2 ^ 53 * (mul (ofNat n) f * one) + _ at hr
  rw [ofNat_small n hn] at hr hw ⊢
  generalize mul (n * one) f = T at *
  generalize whole T = w at *
  generalize one = S at *
  have hT : 2 ^ 53 * T ≤ (2 ^ 53 + 1) * (n * f) ∧ 2 ^ 53 * (n * f) ≤ 2 ^ 53 * T + n * f := by
    constructor
    · apply Nat.le_of_mul_le_mul_right (c := S) _ hS
      have := hr.1
      grind
    · apply Nat.le_of_mul_le_mul_right (c := S) _ hS
      have := hr.2
      grind
  have hnf : 2 ^ 53 * (n * f) = n * F * S := by grind
  constructor
  · apply Nat.le_of_mul_le_mul_right (c := S) _ hS
    have e1 : 2 ^ 54 * 2 ^ 53 * w * S = 2 ^ 53 * 2 ^ 53 * (2 * (w * S)) := by grind
    have e2 : (2 * (2 ^ 53 + 1) * (n * F) + 2 ^ 53 * 2 ^ 53) * S = 2 * (2 ^ 53 + 1) * (n * F * S) + 2 ^ 53 * 2 ^ 53 * S := by grind
    rw [e1, e2]
    have := hw.1
    generalize n * F * S = y at *
    generalize w * S = z at *
    generalize n * f = x at *
    omega
  · apply Nat.le_of_mul_le_mul_right (c := S) _ hS
    have e1 : (2 ^ 54 * 2 ^ 53 * w + 2 * (n * F) + 2 ^ 53 * 2 ^ 53) * S
        = 2 ^ 53 * 2 ^ 53 * (2 * (w * S)) + 2 * (n * F * S) + 2 ^ 53 * 2 ^ 53 * S := by grind
    have e2 : 2 * 2 ^ 53 * (n * F) * S = 2 * 2 ^ 53 * (n * F * S) := by grind
    rw [e1, e2]
    have := hw.2
    generalize n * F * S = y at *
    generalize w * S = z at *
    generalize n * f = x at *
    omega

theorem target_near (c : Nat) (h : c ≤ 2 ^ 46) :
    20 * Arith.double.target c ≤ 19 * c + 10 ∧ 19 * c ≤ 20 * Arith.double.target c + 10 := by
  have hm := whole_mul 8556839292003942 c (lit 95 100) (by omega) (by decide +kernel) (by decide +kernel)
  have he : Arith.double.target c = whole (mul (ofNat c) (lit 95 100)) := by
    refine asU64_eq _ ?_
    generalize whole _ = w at *
    omega
  rw [he]
  generalize whole _ = w at *
  omega

theorem fast_eq (m : Nat) (h : m ≤ 2 ^ 46) : Arith.double.scale .fast m = (12 * m + 5) / 10 := by
  have hm := whole_mul 10808639105689190 m (add one (lit 2 10)) (by omega) (by decide +kernel) (by decide +kernel)
  have hc : mul (add one (lit 2 10)) (ofNat m) = mul (ofNat m) (add one (lit 2 10)) := by
    unfold mul; rw [Nat.mul_comm]
  show asU64 (whole (mul (add one (lit 2 10)) (ofNat m))) = _
  rw [hc]
  generalize whole _ = w at *
  rw [asU64_eq _ (by omega)]
  omega

theorem slow_eq (m : Nat) (h : m ≤ 2 ^ 46) : Arith.double.scale .slow m = (8 * m + 5) / 10 := by
  have hm := whole_mul 7205759403792794 m (sub one (lit 2 10)) (by omega) (by decide +kernel) (by decide +kernel)
  have hc : mul (sub one (lit 2 10)) (ofNat m) = mul (ofNat m) (sub one (lit 2 10)) := by
    unfold mul; rw [Nat.mul_comm]
  show asU64 (whole (mul (sub one (lit 2 10)) (ofNat m))) = _
  rw [hc]
  generalize whole _ = w at *
  rw [asU64_eq _ (by omega)]
  omega

/-- A significand nearest to `p / q` decides the double. -/
theorem nearest_of (p Q k : Nat) (hQ : 0 < Q) (h1 : 2 * k * Q < 2 * p + Q) (h2 : 2 * p < 2 * k * Q + Q) : nearest p Q = k := by
  have he := nearest_err p Q hQ
  generalize nearest p Q = n at *
  have a1 : n < k + 1 := by
    apply Nat.lt_of_mul_lt_mul_right (a := Q)
    rw [Nat.add_mul]
    have : 2 * k * Q = 2 * (k * Q) := Nat.mul_assoc _ _ _
    omega
  have a2 : k < n + 1 := by
    apply Nat.lt_of_mul_lt_mul_right (a := Q)
    rw [Nat.add_mul]
    have : 2 * k * Q = 2 * (k * Q) := Nat.mul_assoc _ _ _
    omega
  omega

theorem nearest_tie (p Q k : Nat) (hQ : 0 < Q) (h : 2 * p = (2 * k + 1) * Q) :
    nearest p Q = if k % 2 = 0 then k else k + 1 := by
  have hd : p / Q = k := by
    apply Nat.div_eq_of_lt_le
    · grind
    · grind
  have hm := Nat.div_add_mod p Q
  rw [hd] at hm
  have hr : 2 * (p % Q) = Q := by grind
  unfold nearest
  simp only
  rw [hd, if_neg (by omega), if_neg (by omega)]

theorem expo_unique (p q e : Nat) (hq : 0 < q) (h1 : e = 0 ∨ 2 ^ 52 * 2 ^ e * q ≤ p) (h2 : p < 2 ^ 53 * 2 ^ e * q) :
    expo p q = e := by
  have hlt : p / q < 2 ^ 53 * 2 ^ e := (Nat.div_lt_iff_lt_mul hq).mpr h2
  rw [← Nat.pow_add] at hlt
  unfold expo
  rcases h1 with rfl | h1
  · by_cases hz : p / q = 0
    · rw [hz]; decide
    · have := (Nat.log2_lt hz).mpr hlt
      omega
  · have hle : 2 ^ 52 * 2 ^ e ≤ p / q := (Nat.le_div_iff_mul_le hq).mpr h1
    rw [← Nat.pow_add] at hle
    have hz : p / q ≠ 0 := by
      have := Nat.two_pow_pos (52 + e)
      omega
    have a := (Nat.log2_lt hz).mpr hlt
    have b := (Nat.le_log2 hz).mpr hle
    omega

end Verif.Store
