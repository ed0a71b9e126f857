import Verif.Model.Epochs

/-! # C46: splitting a block range into epochs

An entry `(e, none)` stands for all 8192 blocks of epoch `e`, `(e, some (a, b))` for blocks `a..=b`. -/

namespace Verif.Props
open Verif.Epochs

/-- Block `n` is in the part described by an entry. -/
def InPart (n : Nat) : Nat × Option (Nat × Nat) → Prop
  | (e, none) => e * 8192 ≤ n ∧ n < (e + 1) * 8192
  | (_, some (a, b)) => a ≤ n ∧ n ≤ b

theorem epochPart_eq {start stop e : Nat} (he : e * 8192 + 8192 < 2 ^ 64) :
    epochPart start stop e =
      some (e, if start ≤ e * 8192 ∧ e * 8192 + 8191 ≤ stop then none
        else some (max start (e * 8192), min stop (e * 8192 + 8191))) := by
  unfold epochPart
  simp only [if_pos he]
  have : e * 8192 + 8192 - 1 = e * 8192 + 8191 := by omega
  rw [this]
  split <;> rfl

/-- Below the last epoch of `u64` the split succeeds and its entries are exactly those. -/
theorem blockRange_mem {start stop : Nat} (hstop : stop + 8192 < 2 ^ 64) :
    ∃ l, blockRangeToEpochs start stop = some l ∧ (l.map Prod.fst).Nodup ∧
      ∀ p, p ∈ l ↔ start / 8192 ≤ p.1 ∧ p.1 ≤ stop / 8192 ∧
        epochPart start stop p.1 = some p := by
  unfold blockRangeToEpochs
  generalize hc : stop / 8192 + 1 - start / 8192 = c
  have key : ∀ c b, (∀ e, b ≤ e → e < b + c → e ≤ stop / 8192) →
      ∃ l, (List.range' b c).mapM (epochPart start stop) = some l ∧ l.map Prod.fst = List.range' b c ∧
        ∀ p, p ∈ l ↔ b ≤ p.1 ∧ p.1 < b + c ∧ epochPart start stop p.1 = some p := by
    intro c
    induction c with
    | zero =>
      intro b _
      refine ⟨[], rfl, rfl, ?_⟩
      intro p; simp; intros; omega
    | succ c ih =>
      intro b hb
      obtain ⟨l, hl, hn, hm⟩ := ih (b + 1) (fun e h1 h2 => hb e (by omega) (by omega))
      have hbs : b ≤ stop / 8192 := hb b (by omega) (by omega)
      have hbp : b * 8192 + 8192 < 2 ^ 64 := by omega
      have hbe := epochPart_eq (start := start) (stop := stop) hbp
      rw [List.range'_succ, List.mapM_cons, hbe]
      rw [hl]
      refine ⟨_, rfl, by simp [hn], ?_⟩
      intro p
      rw [List.mem_cons, hm]
      constructor
      · rintro (rfl | h)
        · exact ⟨by simp, by simp, hbe⟩
        · exact ⟨by omega, by omega, h.2.2⟩
      · rintro ⟨h1, h2, h3⟩
        by_cases hpb : p.1 = b
        · left
          rw [hpb, hbe] at h3
          exact (Option.some.inj h3).symm
        · right; exact ⟨by omega, by omega, h3⟩
  obtain ⟨l, hl, hn, hm⟩ := key c (start / 8192) (fun e h1 h2 => by omega)
  refine ⟨l, hl, by rw [hn]; exact List.nodup_range', ?_⟩
  intro p
  rw [hm]
  constructor
  · rintro ⟨h1, h2, h3⟩; exact ⟨h1, by omega, h3⟩
  · rintro ⟨h1, h2, h3⟩; exact ⟨h1, by omega, h3⟩

/-- The split of a range covers exactly the blocks of the range: every block of the range is in the
part of exactly one entry, every block in a part is in the range and in that part's epoch, and an
entry is marked complete exactly when all 8192 blocks of its epoch are in the range.
Missing: ranges that end in the last epoch of u64, see `C46_overflow_violated`. -/
theorem C46_cover_partial (start stop : Nat) (hle : start ≤ stop) (hstop : stop + 8192 < 2 ^ 64) :
    ∃ l, blockRangeToEpochs start stop = some l ∧ (l.map Prod.fst).Nodup ∧
      (∀ n, start ≤ n → n ≤ stop → ∃ p ∈ l, InPart n p ∧ ∀ q ∈ l, InPart n q → q = p) ∧
      (∀ p ∈ l, ∀ n, InPart n p → start ≤ n ∧ n ≤ stop ∧ n / 8192 = p.1) ∧
      (∀ p ∈ l, p.2 = none ↔ ∀ n, n / 8192 = p.1 → start ≤ n ∧ n ≤ stop) ∧
      (∀ p ∈ l, ∃ n, InPart n p) := by
  obtain ⟨l, hl, hn, hm⟩ := blockRange_mem (start := start) hstop
  have shape : ∀ p ∈ l, p.1 * 8192 + 8192 < 2 ^ 64 ∧ start / 8192 ≤ p.1 ∧ p.1 ≤ stop / 8192 ∧
      p.2 = if start ≤ p.1 * 8192 ∧ p.1 * 8192 + 8191 ≤ stop then none
        else some (max start (p.1 * 8192), min stop (p.1 * 8192 + 8191)) := by
    intro p hp
    obtain ⟨h1, h2, h3⟩ := (hm p).1 hp
    have hb : p.1 * 8192 + 8192 < 2 ^ 64 := by omega
    rw [epochPart_eq hb] at h3
    have := Option.some.inj h3
    exact ⟨hb, h1, h2, (congrArg Prod.snd this).symm⟩
  have inpart : ∀ p ∈ l, ∀ n, InPart n p ↔ start ≤ n ∧ n ≤ stop ∧ n / 8192 = p.1 := by
    intro p hp n
    obtain ⟨h0, h1, h2, h3⟩ := shape p hp
    obtain ⟨e, o⟩ := p
    simp only at h0 h1 h2 h3
    subst h3
    split
    · simp only [InPart]; omega
    · simp only [InPart]; omega
  refine ⟨l, hl, hn, ?_, fun p hp n h => (inpart p hp n).1 h, ?_, ?_⟩
  · intro n h1 h2
    have hb : n / 8192 * 8192 + 8192 < 2 ^ 64 := by omega
    refine ⟨_, (hm (n / 8192, _)).2 ⟨?_, ?_, epochPart_eq hb⟩, ?_, ?_⟩
    · exact Nat.div_le_div_right h1
    · exact Nat.div_le_div_right h2
    · apply (inpart _ ((hm (n / 8192, _)).2 ⟨Nat.div_le_div_right h1, Nat.div_le_div_right h2,
        epochPart_eq hb⟩) n).2
      exact ⟨h1, h2, rfl⟩
    · intro q hq hqn
      obtain ⟨-, -, hq1⟩ := (inpart q hq n).1 hqn
      obtain ⟨-, -, hq2⟩ := (hm q).1 hq
      rw [← hq1, epochPart_eq hb] at hq2
      exact (Option.some.inj hq2).symm
  · intro p hp
    obtain ⟨h0, h1, h2, h3⟩ := shape p hp
    rw [h3]
    constructor
    · intro h
      split at h
      · intro n hn; omega
      · cases h
    · intro h
      have ha := h (p.1 * 8192) (by omega)
      have hb := h (p.1 * 8192 + 8191) (by omega)
      rw [if_pos ⟨ha.1, hb.2⟩]
  · intro p hp
    obtain ⟨h0, h1, h2, h3⟩ := shape p hp
    refine ⟨max start (p.1 * 8192), (inpart p hp _).2 ?_⟩
    omega

/-- A build with overflow checks panics on every range that ends in the last epoch of `u64`. -/
theorem C46_overflow_violated (start stop : Nat) (hle : start ≤ stop) (hstop : 2 ^ 64 ≤ stop + 8192) :
    blockRangeToEpochs start stop = none := by
  have hp : epochPart start stop (stop / 8192) = none := by
    unfold epochPart
    simp only
    rw [if_neg (by omega)]
  unfold blockRangeToEpochs
  have e : stop / 8192 + 1 - start / 8192 = (stop / 8192 - start / 8192) + 1 := by omega
  rw [e, List.range'_concat, List.mapM_append]
  have e2 : start / 8192 + 1 * (stop / 8192 - start / 8192) = stop / 8192 := by omega
  rw [e2, List.mapM_cons, hp]
  cases List.mapM (epochPart start stop) (List.range' (start / 8192) (stop / 8192 - start / 8192)) <;> rfl

example : blockRangeToEpochs (2 ^ 64 - 2) (2 ^ 64 - 1) = none := C46_overflow_violated _ _ (by decide) (by decide)

/-- An inverted range inside one epoch yields an inverted part (an empty one), not an empty map. -/
example : blockRangeToEpochs 10 5 = some [(0, some (10, 5))] := by decide

example : blockRangeToEpochs 5000 20000 =
    some [(0, some (5000, 8191)), (1, none), (2, some (16384, 20000))] := by decide

end Verif.Props
