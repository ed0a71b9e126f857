import Verif.Model.NodeId
import Verif.Lemmas.NodeId

/-! # C43: bucket-refresh targets fall in the intended bucket -/

namespace Verif.Props

/-- For each node, bucket and outcome of the random source, the generated id has 32 bytes and lies at
logarithmic distance exactly `bucket + 1`. -/
theorem C43_bucket (loc : Id) (bucket pick : UInt8) (fill : Bytes)
    (h : RandomOk (255 - bucket.toNat) pick fill) :
    (generateRandomNodeId bucket loc pick fill).length = 32 ∧
    distLog2 (xorDistanceBytes loc.bytes (generateRandomNodeId bucket loc pick fill)) =
      some (bucket.toNat + 1) := by
  have hb : bucket.toNat < 256 := bucket.toNat_lt
  unfold generateRandomNodeId
  refine ⟨by simp [distBigEndian], ?_⟩
  have hl := random32_length h
  have hlt := fromBe_lt (random32 (255 - bucket.toNat) pick fill)
  rw [hl] at hlt
  have hloc : loc.bytes.length = 32 := by simp [Id.bytes]
  have e256 : (256 : Nat) ^ 32 = 2 ^ 256 := by decide
  have hx : loc.toNat ^^^ fromBe (random32 (255 - bucket.toNat) pick fill) < 256 ^ 32 := by
    rw [e256] at hlt ⊢
    exact Nat.xor_lt_two_pow loc.isLt hlt
  have hdist : xorDistanceBytes loc.bytes (distBigEndian
      (xorDistanceBytes loc.bytes (random32 (255 - bucket.toNat) pick fill))) =
      fromBe (random32 (255 - bucket.toNat) pick fill) := by
    unfold xorDistanceBytes
    rw [fromBe_zipWith_xor _ _ (by simp [distBigEndian, hloc]),
      fromBe_zipWith_xor _ _ (by rw [hloc, hl]), Id.fromBe_bytes, distBigEndian,
      fromBe_toBe_of_lt hx, ← Nat.xor_assoc, Nat.xor_self, Nat.zero_xor]
  simp only
  rw [hdist]
  obtain ⟨h1, h2⟩ := random32_bracket (by omega) h
  apply distLog2_of_bracket (by omega) (by omega)
  · have : 255 - (255 - bucket.toNat) = bucket.toNat + 1 - 1 := by omega
    rw [← this]; exact h1
  · have : 256 - (255 - bucket.toNat) = bucket.toNat + 1 := by omega
    rw [← this]; exact h2

/-- Conversely the random source can produce every distance of the bucket, so the refresh is not
restricted to part of it: each distance `d` with `log2 d = bucket + 1` comes from some outcome. -/
theorem C43_bucket_complete (bucket : UInt8) (d : Nat)
    (hd : 2 ^ bucket.toNat ≤ d) (hd' : d < 2 ^ (bucket.toNat + 1)) :
    ∃ pick fill, RandomOk (255 - bucket.toNat) pick fill ∧
      fromBe (random32 (255 - bucket.toNat) pick fill) = d := by
  have hb : bucket.toNat < 256 := bucket.toNat_lt
  generalize hlz : 255 - bucket.toNat = lz
  have hlz' : lz ≤ 255 := by omega
  have hbk : bucket.toNat = 255 - lz := by omega
  rw [hbk] at hd hd'
  have e8 : (256 : Nat) ^ (31 - lz / 8) = 2 ^ (8 * (31 - lz / 8)) := by rw [Nat.pow_mul]
  have e1 : 255 - lz = (7 - lz % 8) + 8 * (31 - lz / 8) := by omega
  have e2 : 255 - lz + 1 = (8 - lz % 8) + 8 * (31 - lz / 8) := by omega
  have hpos := Nat.two_pow_pos (8 * (31 - lz / 8))
  have hq1 : 2 ^ (7 - lz % 8) ≤ d / 2 ^ (8 * (31 - lz / 8)) := by
    rw [Nat.le_div_iff_mul_le hpos, ← Nat.pow_add, ← e1]; exact hd
  have hq2 : d / 2 ^ (8 * (31 - lz / 8)) < 2 ^ (8 - lz % 8) := by
    rw [Nat.div_lt_iff_lt_mul hpos, ← Nat.pow_add, ← e2]; exact hd'
  have hq3 : 2 ^ (8 - lz % 8) ≤ 2 ^ 8 := Nat.pow_le_pow_right (by decide) (by omega)
  have hpick : (UInt8.ofNat (d / 2 ^ (8 * (31 - lz / 8)))).toNat =
      d / 2 ^ (8 * (31 - lz / 8)) := by
    simp [UInt8.toNat_ofNat']; omega
  refine ⟨UInt8.ofNat (d / 2 ^ (8 * (31 - lz / 8))),
    toBe (31 - lz / 8) (d % 2 ^ (8 * (31 - lz / 8))), ⟨?_, ?_, ?_⟩, ?_⟩
  · rw [pickRange_eq, hpick]; exact hq1
  · rw [pickRange_eq, hpick]; exact hq2
  · simp; omega
  · rw [random32, fromBe_replicate_zero, fromBe_cons, hpick, toBe_length, fromBe_toBe, e8,
      Nat.mod_mod]
    exact Nat.div_add_mod' d _

/-- `generate_random_node_ids`: `2^n` ids, and the `n` leading bits of the id with index `i` are `i`,
so they are pairwise different whatever the random source does. -/
theorem C43_unique_bits (n : Nat) (hn : n ≤ 8) (rnd : Nat → UInt8 × Bytes) :
    ∃ ids, generateRandomNodeIds n rnd = some ids ∧ ids.length = 2 ^ n ∧
      ∀ i, i < 2 ^ n → ∃ first rest, ids[i]? = some (first :: rest) ∧
        first.toNat / 2 ^ (8 - n) = i ∧ rest = (rnd i).2 := by
  unfold generateRandomNodeIds
  rw [if_pos hn]
  refine ⟨_, rfl, by simp, fun i hi => ?_⟩
  rw [List.getElem?_map, List.getElem?_range hi]
  refine ⟨_, _, rfl, ?_, rfl⟩
  have hi8 : i < 256 := Nat.lt_of_lt_of_le hi
    (Nat.le_trans (Nat.pow_le_pow_right (by decide) hn) (by decide))
  -- the masked random part is below 2^(8-n), the index part is i * 2^(8-n)
  have hmask : ((rnd i).1 &&& (if n < 8 then 255 >>> (UInt8.ofNat n) else (0 : UInt8))).toNat
      < 2 ^ (8 - n) := by
    rw [UInt8.toNat_and]
    by_cases h8 : n < 8
    · rw [if_pos h8, UInt8.toNat_shiftRight]
      have h1 : (UInt8.ofNat n).toNat % 8 = n := by simp [UInt8.toNat_ofNat']; omega
      rw [h1]
      have h2 : ∀ k : Fin 8, (255 : UInt8).toNat >>> k.val = 2 ^ (8 - k.val) - 1 := by decide
      have h3 := h2 ⟨n, h8⟩
      simp only at h3
      rw [h3, Nat.and_two_pow_sub_one_eq_mod]
      exact Nat.mod_lt _ (Nat.two_pow_pos _)
    · have : n = 8 := by omega
      subst this
      simp
  have hhi : (if 8 - n < 8 then (UInt8.ofNat i) <<< (UInt8.ofNat (8 - n)) else (0 : UInt8)).toNat
      = i * 2 ^ (8 - n) := by
    by_cases h0 : 8 - n < 8
    · rw [if_pos h0, UInt8.toNat_shiftLeft]
      have h1 : (UInt8.ofNat (8 - n)).toNat % 8 = 8 - n := by simp [UInt8.toNat_ofNat']; omega
      have h2 : (UInt8.ofNat i).toNat = i := by simp [UInt8.toNat_ofNat']; omega
      rw [h1, h2, Nat.shiftLeft_eq, Nat.mod_eq_of_lt]
      have : i * 2 ^ (8 - n) < 2 ^ n * 2 ^ (8 - n) :=
        Nat.mul_lt_mul_of_pos_right hi (Nat.two_pow_pos _)
      rw [← Nat.pow_add] at this
      have e : n + (8 - n) = 8 := by omega
      rw [e] at this; exact this
    · have : n = 0 := by omega
      subst this
      have : i = 0 := by simpa using hi
      subst this
      simp
  simp only [UInt8.toNat_or, hhi]
  have hor := Nat.shiftLeft_add_eq_or_of_lt (a := i) hmask
  rw [Nat.shiftLeft_eq] at hor
  rw [Nat.or_comm, ← hor, Nat.mul_comm, Nat.mul_add_div (Nat.two_pow_pos _),
    Nat.div_eq_of_lt hmask, Nat.add_zero]

/-- Outside the supported range the function panics. -/
theorem C43_unique_bits_panics (n : Nat) (hn : 8 < n) (rnd : Nat → UInt8 × Bytes) :
    generateRandomNodeIds n rnd = none := by
  unfold generateRandomNodeIds; rw [if_neg (by omega)]

/- A concrete outcome: bucket 250 needs 5 leading zero bits, the pick is in 4..7. -/
example : RandomOk (255 - (250 : UInt8).toNat) 5 (List.replicate 31 0xab) := by
  refine ⟨by decide, by decide, by simp⟩

end Verif.Props
