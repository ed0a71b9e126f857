import Verif.Props.SlotClockSpec

/-! # C113: the slot clock -/

namespace Verif.Props
open Verif.E2store (Res)
open Verif.Events (Network)
open Verif.SlotClock Verif.Props.SlotClockSpec

theorem clock_start (net : Network) (s : Nat) : genesis net + slotTime * s = start net s := by
  cases net <;> simp only [genesis, slotTime, second, start, chainStart] <;> omega

theorem clock_step (net : Network) (s k : Nat) : start net (s + k) = start net s + k * 12000000000 := by
  simp only [start]; omega

theorem clock_mono (net : Network) {s t : Nat} (h : s ≤ t) : start net s ≤ start net t := by
  simp only [start]; omega

theorem during_unique {net : Network} {s s' t : Nat} (h : During net s t) (h' : During net s' t) : s = s' := by
  simp only [During, start] at h h'
  omega

theorem currentSlot_eq {net : Network} {s t : Nat} (h : During net s t) (hs : s < 2 ^ 64) :
    currentSlot net t = .ok (UInt64.ofNat s) := by
  have h0 := clock_start net s
  have h1 := clock_start net (s + 1)
  obtain ⟨ha, hb⟩ := h
  rw [← h0] at ha
  rw [← h1] at hb
  simp only [slotTime, second] at ha hb
  unfold currentSlot
  rw [if_neg (by omega)]
  simp only [slotTime, second]
  congr 2
  generalize genesis net = g at *
  omega

theorem slotToTimestamp_eq (net : Network) {slot : UInt64} (h : slot.toNat < 2 ^ 32) :
    slotToTimestamp net slot = start net slot.toNat := by
  unfold slotToTimestamp
  rw [UInt64.toNat_toUInt32, Nat.mod_eq_of_lt h, clock_start]

theorem ofNat_small {s : Nat} (h : s < 2 ^ 32) : (UInt64.ofNat s).toNat = s := by
  rw [UInt64.toNat_ofNat']
  omega

/-- The present slot is the one that has started and whose successor has not; before the chain starts the clock aborts. -/
theorem C113_slot (net : Network) (t : Nat) (ht : t < start net (2 ^ 64)) :
    (∀ s : UInt64, currentSlot net t = .ok s ↔ During net s.toNat t) ∧
    (currentSlot net t = .panic ↔ t < start net 0) ∧ currentSlot net t ≠ .err := by
  have hz : genesis net = start net 0 := by have := clock_start net 0; omega
  by_cases hg : t < genesis net
  · have hp : currentSlot net t = .panic := by unfold currentSlot; rw [if_pos hg]
    rw [hp]
    refine ⟨fun s => ⟨by simp, fun h => ?_⟩, ⟨fun _ => by rw [← hz]; exact hg, fun _ => rfl⟩, by simp⟩
    have := clock_mono net (Nat.zero_le s.toNat)
    have := h.1
    omega
  · have hd : During net ((t - start net 0) / 12000000000) t := by
      have h1 := clock_step net 0 ((t - start net 0) / 12000000000)
      have h2 := clock_step net 0 ((t - start net 0) / 12000000000 + 1)
      simp only [Nat.zero_add] at h1 h2
      constructor
      · omega
      · omega
    have hs : (t - start net 0) / 12000000000 < 2 ^ 64 := by
      have := clock_step net 0 (2 ^ 64)
      simp only [Nat.zero_add] at this
      omega
    have he := currentSlot_eq hd hs
    refine ⟨fun s => ⟨fun h => ?_, fun h => ?_⟩, ⟨fun h => ?_, fun h => ?_⟩, fun h => ?_⟩
    · rw [he] at h
      cases h
      rw [UInt64.toNat_ofNat', Nat.mod_eq_of_lt hs]
      exact hd
    · rw [currentSlot_eq h s.toNat_lt, UInt64.ofNat_toNat]
    · rw [he] at h; cases h
    · omega
    · rw [he] at h; cases h

/-- The start of a slot, for slots before 2^32 (more than 1600 years).
Missing: later slots, see `C113_start_violated`. -/
theorem C113_start_partial (net : Network) (slot : UInt64) (h : slot.toNat < 2 ^ 32) :
    slotToTimestamp net slot = start net slot.toNat ∧
    (slotToTimestampU64 net slot).toNat = chainStart net + 12 * slot.toNat ∧
    currentSlot net (slotToTimestamp net slot) = .ok slot := by
  have h1 := slotToTimestamp_eq net h
  refine ⟨h1, ?_, ?_⟩
  · unfold slotToTimestampU64
    rw [h1, UInt64.toNat_ofNat']
    simp only [start, second]
    rw [Nat.mul_div_cancel _ (by decide)]
    cases net <;> simp only [chainStart] <;> omega
  · rw [h1, currentSlot_eq (s := slot.toNat) ⟨Nat.le_refl _, by simp only [start]; omega⟩ slot.toNat_lt, UInt64.ofNat_toNat]

/-- The start of every slot from 2^32 on is wrong: it is that of a slot long ago. -/
theorem C113_start_violated (net : Network) (slot : UInt64) (h : 2 ^ 32 ≤ slot.toNat) :
    slotToTimestamp net slot = start net (slot.toNat % 2 ^ 32) ∧ slotToTimestamp net slot < start net slot.toNat := by
  have h1 : slotToTimestamp net slot = start net (slot.toNat % 2 ^ 32) := by
    unfold slotToTimestamp
    rw [UInt64.toNat_toUInt32, clock_start]
  refine ⟨h1, ?_⟩
  rw [h1]
  simp only [start]
  omega

/-- What the node does at each slot is never early and late by the time between its readings of the clock at most: the tick after
`k` others comes when the slot after those has started. It aborts only if the clock is set back meanwhile. -/
theorem C113_ticks (net : Network) (s now now1 now2 : Nat) (hs : s + 1 < 2 ^ 32) (h1 : During net s now1) :
    (slotInterval net now now1 now2 = .panic ↔ start net (s + 1) < now) ∧
    (now ≤ now1 → now ≤ now2 → ∃ first, slotInterval net now now1 now2 = .ok first ∧
      ∀ k, start net (s + 1 + k) ≤ burst first k ∧ burst first k = start net (s + 1 + k) + (now2 - now)) := by
  have hc := currentSlot_eq h1 (by omega)
  have hn : slotToTimestamp net (UInt64.ofNat s + 1) = start net (s + 1) := by
    have : (UInt64.ofNat s + 1).toNat = s + 1 := by
      rw [UInt64.toNat_add, ofNat_small (by omega)]
      show (s + 1) % 2 ^ 64 = s + 1
      omega
    rw [slotToTimestamp_eq net (by omega), this]
  have he : slotInterval net now now1 now2 = if start net (s + 1) < now then .panic else .ok (now2 + (start net (s + 1) - now)) := by
    unfold slotInterval
    rw [hc]
    simp only [Res.bind, hn]
  refine ⟨?_, fun ha hb => ?_⟩
  · rw [he]
    split <;> simp [*]
  · have hlt : ¬ start net (s + 1) < now := by have := h1.2; omega
    refine ⟨now2 + (start net (s + 1) - now), by rw [he, if_neg hlt], fun k => ?_⟩
    have := clock_step net (s + 1) k
    simp only [burst, slotTime, second]
    omega

theorem untilLoop_sound (readings : Nat → Nat) : ∀ (fuel i next j d : Nat), untilLoop readings fuel i next = some (j, d) →
    i ≤ j ∧ readings j + d = next + (j - i) * slotTime ∧ ∀ m, i ≤ m → m < j → next + (m - i) * slotTime < readings m := by
  intro fuel
  induction fuel with
  | zero => intro i next j d h; cases h
  | succ fuel ih =>
    intro i next j d h
    unfold untilLoop at h
    split at h
    · cases h
      exact ⟨Nat.le_refl _, by simp only [Nat.sub_self, Nat.zero_mul]; omega, fun m h1 h2 => by omega⟩
    · rename_i hlt
      obtain ⟨h1, h2, h3⟩ := ih (i + 1) (next + slotTime) j d h
      simp only [slotTime, second] at *
      refine ⟨by omega, by omega, fun m g1 g2 => ?_⟩
      by_cases hm : m = i
      · subst hm; omega
      · have := h3 m (by omega) g2
        omega

theorem untilLoop_ends (readings : Nat → Nat) : ∀ (fuel i next k : Nat), i ≤ k → k < i + fuel →
    readings k ≤ next + (k - i) * slotTime → ∃ x, untilLoop readings fuel i next = some x := by
  intro fuel
  induction fuel with
  | zero => intro i next k h1 h2 _; omega
  | succ fuel ih =>
    intro i next k h1 h2 h3
    unfold untilLoop
    split
    · exact ⟨_, rfl⟩
    · rename_i hlt
      simp only [slotTime, second] at *
      have hk : i ≠ k := by
        rintro rfl
        simp only [Nat.sub_self, Nat.zero_mul] at h3
        omega
      exact ih (i + 1) (next + 12 * 1000000000) k (by omega) (by omega) (by omega)

/-- The bridge waits for the next time at which data is due: 4 seconds into a slot, the first such time from the last reading of
the clock on, and so no longer than a slot. -/
theorem C113_update (net : Network) (s now : Nat) (hs : s < 2 ^ 32) (h0 : During net s now) (readings : Nat → Nat)
    (hr : Steady readings) (hn : now ≤ readings 0) (fuel i d : Nat)
    (h : untilNextUpdate net now readings fuel = .ok (i, d)) :
    ∃ s', s ≤ s' ∧ readings i + d = due net s' ∧ d < 12000000000 ∧ ∀ t, readings i ≤ due net t → due net s' ≤ due net t := by
  unfold untilNextUpdate at h
  rw [currentSlot_eq h0 (by omega)] at h
  simp only [Res.bind] at h
  rw [slotToTimestamp_eq net (by rw [ofNat_small hs]; exact hs), ofNat_small hs] at h
  cases hl : untilLoop readings fuel 0 (start net s + 4 * second) with
  | none => rw [hl] at h; cases h
  | some x =>
    rw [hl] at h
    cases h
    obtain ⟨_, h2, h3⟩ := untilLoop_sound readings fuel 0 _ i d hl
    have hk := clock_step net s i
    have hd : d < 12000000000 := by
      cases i with
      | zero =>
        simp only [second, slotTime] at h2
        have := h0.1
        omega
      | succ i =>
        have g1 := h3 i (Nat.zero_le _) (Nat.lt_succ_self _)
        have g2 := hr i (i + 1) (Nat.le_succ _)
        simp only [second, slotTime] at g1 h2
        omega
    refine ⟨s + i, by omega, ?_, hd, fun t ht => ?_⟩
    · simp only [due, second, slotTime] at *
      omega
    · simp only [due, start, second, slotTime] at *
      omega

/-- The wait is found as soon as a reading of the clock is not after the time that this round looks at; in the first two rounds, if
the second begins within 4 seconds. -/
theorem C113_update_ends (net : Network) (s now : Nat) (hs : s < 2 ^ 32) (h0 : During net s now) (readings : Nat → Nat) :
    (∀ k fuel, readings k ≤ due net (s + k) → k < fuel → ∃ x, untilNextUpdate net now readings fuel = .ok x) ∧
    (readings 1 ≤ now + 4000000000 → ∃ x, untilNextUpdate net now readings 2 = .ok x) := by
  have main : ∀ k fuel, readings k ≤ due net (s + k) → k < fuel → ∃ x, untilNextUpdate net now readings fuel = .ok x := by
    intro k fuel hk hf
    unfold untilNextUpdate
    rw [currentSlot_eq h0 (by omega)]
    simp only [Res.bind]
    rw [slotToTimestamp_eq net (by rw [ofNat_small hs]; exact hs), ofNat_small hs]
    have := clock_step net s k
    obtain ⟨x, hx⟩ := untilLoop_ends readings fuel 0 (start net s + 4 * second) k (Nat.zero_le _) (by omega) (by
      simp only [due, second, slotTime] at *
      omega)
    exact ⟨x, by rw [hx]⟩
  refine ⟨main, fun h => main 1 2 ?_ (by decide)⟩
  have := clock_step net s 1
  have h1 := h0.2
  simp only [due]
  omega

theorem skip_eq (deadline now : Nat) (h : deadline ≤ now) : ∃ m, 0 < m ∧ skip deadline now = deadline + m * slotTime ∧
    (now ≤ deadline + 5000000 → m = 1) ∧ (deadline + 5000000 < now → now < skip deadline now ∧ skip deadline now ≤ now + slotTime) := by
  unfold skip
  split
  · rename_i hlt
    refine ⟨(now - deadline) / slotTime + 1, Nat.succ_pos _, ?_, by omega, fun _ => ?_⟩
    · simp only [slotTime, second]; omega
    · simp only [slotTime, second]; omega
  · exact ⟨1, by decide, by simp [slotTime, second], fun _ => rfl, by omega⟩

/-- The rounds of the bridge: all are for different times, 12 seconds or a multiple apart, in their order; a round that was late
is followed by the first such time after it, without extras for the times that were missed, and otherwise by the next. -/
theorem C113_rounds (first : Nat) (times : List Nat) (h : Timely (rounds first times)) :
    ((rounds first times).map Prod.snd = times) ∧
    (∀ x ∈ rounds first times, ∃ m, x.1 = first + m * 12000000000) ∧
    ((rounds first times).map Prod.fst).Pairwise (· < ·) ∧
    ∀ i x y, (rounds first times)[i]? = some x → (rounds first times)[i + 1]? = some y →
      (x.2 ≤ x.1 + 5000000 → y.1 = x.1 + 12000000000) ∧
      (x.1 + 5000000 < x.2 → x.2 < y.1 ∧ ∀ m, x.2 < first + m * 12000000000 → y.1 ≤ first + m * 12000000000) := by
  have hst : slotTime = 12000000000 := rfl
  induction times generalizing first with
  | nil => exact ⟨rfl, by simp [rounds], by simp [rounds], by simp [rounds]⟩
  | cons now l ih =>
    have hf : first ≤ now := h (first, now) List.mem_cons_self
    obtain ⟨m, m0, m1, m2, m3⟩ := skip_eq first now hf
    obtain ⟨i1, i2, i3, i4⟩ := ih (skip first now) (fun x hx => h x (List.mem_cons_of_mem _ hx))
    rw [hst] at m1 m3
    refine ⟨by simp only [rounds, List.map_cons, i1], ?_, ?_, ?_⟩
    · intro x hx
      rcases List.mem_cons.1 hx with rfl | hx
      · exact ⟨0, by simp⟩
      · obtain ⟨k, hk⟩ := i2 x hx
        exact ⟨m + k, by rw [hk, m1]; omega⟩
    · simp only [rounds, List.map_cons, List.pairwise_cons]
      refine ⟨?_, i3⟩
      intro y hy
      obtain ⟨x, hx, rfl⟩ := List.mem_map.1 hy
      obtain ⟨k, hk⟩ := i2 x hx
      omega
    · intro i x y hx hy
      cases i with
      | zero =>
        simp only [rounds, List.getElem?_cons_zero, Option.some.injEq] at hx
        subst hx
        cases l with
        | nil => simp [rounds] at hy
        | cons n l =>
          simp only [rounds, List.getElem?_cons_succ, List.getElem?_cons_zero, Option.some.injEq] at hy
          subst hy
          simp only
          refine ⟨fun hle => ?_, fun hlt => ?_⟩
          · have := m2 hle; subst this; omega
          · have := m3 hlt
            refine ⟨this.1, fun k hk => ?_⟩
            omega
      | succ i =>
        simp only [rounds, List.getElem?_cons_succ] at hx hy
        obtain ⟨g1, g2⟩ := i4 i x y hx hy
        refine ⟨g1, fun hlt => ⟨(g2 hlt).1, fun k hk => ?_⟩⟩
        have hxm : ∃ k, x.1 = skip first now + k * 12000000000 := i2 x (List.mem_of_getElem? hx)
        obtain ⟨j, hj⟩ := hxm
        have hxt : x.1 ≤ x.2 := h x (List.mem_cons_of_mem _ (List.mem_of_getElem? hx))
        have := (g2 hlt).2 (k - m) (by omega)
        omega

/-- All rounds of the bridge together: each is for a slot of its own, comes 4 seconds into it or later by what the start of the
interval took, and the slots are those from the present on, in their order. -/
theorem C113_bridge (net : Network) (s now : Nat) (hs : s < 2 ^ 32) (h0 : During net s now) (readings : Nat → Nat)
    (hr : Steady readings) (hn : now ≤ readings 0) (fuel i d : Nat)
    (h : untilNextUpdate net now readings fuel = .ok (i, d)) (now2 : Nat) (h2 : readings i ≤ now2) (times : List Nat)
    (ht : Timely (rounds (now2 + d) times)) :
    ∃ slots : List Nat, slots.length = times.length ∧ slots.Pairwise (· < ·) ∧ (∀ t ∈ slots, s ≤ t) ∧
      (rounds (now2 + d) times).map Prod.fst = slots.map fun t => due net t + (now2 - readings i) := by
  obtain ⟨s', g1, g2, _, _⟩ := C113_update net s now hs h0 readings hr hn fuel i d h
  obtain ⟨r1, r2, r3, _⟩ := C113_rounds (now2 + d) times ht
  have hmap : ∀ l : List (Nat × Nat), (∀ x ∈ l, ∃ m, x.1 = (now2 + d) + m * 12000000000) → (l.map Prod.fst).Pairwise (· < ·) →
      ∃ slots : List Nat, slots.length = l.length ∧ slots.Pairwise (· < ·) ∧ (∀ t ∈ slots, s ≤ t) ∧
        l.map Prod.fst = slots.map fun t => due net t + (now2 - readings i) := by
    intro l
    induction l with
    | nil => intro _ _; exact ⟨[], rfl, List.Pairwise.nil, by simp, rfl⟩
    | cons x l ih =>
      intro hm hp
      simp only [List.map_cons, List.pairwise_cons] at hp
      obtain ⟨m, hx⟩ := hm x List.mem_cons_self
      obtain ⟨sl, q1, q2, q3, q4⟩ := ih (fun y hy => hm y (List.mem_cons_of_mem _ hy)) hp.2
      have hstep := clock_step net s' m
      have hxe : x.1 = due net (s' + m) + (now2 - readings i) := by
        simp only [due] at *
        omega
      refine ⟨(s' + m) :: sl, by simp [q1], List.pairwise_cons.2 ⟨?_, q2⟩, ?_, ?_⟩
      · intro t htm
        have := hp.1 (due net t + (now2 - readings i)) (by rw [q4]; exact List.mem_map.2 ⟨t, htm, rfl⟩)
        simp only [due, start] at *
        omega
      · intro t htm
        rcases List.mem_cons.1 htm with rfl | htm
        · omega
        · exact q3 t htm
      · simp only [List.map_cons, q4, hxe]
  obtain ⟨sl, q1, q2, q3, q4⟩ := hmap (rounds (now2 + d) times) r2 r3
  refine ⟨sl, ?_, q2, q3, q4⟩
  have := congrArg List.length r1
  rw [List.length_map] at this
  omega

/-! ## The theorems apply -/

namespace SlotClockExample

/-- 2023-11-14 22:13:20.5 UTC is in slot 7764664 of mainnet; the node ticks 2.5 s later, at the start of the next slot. -/
example : During .mainnet 7764664 1700000000500000000 ∧ currentSlot .mainnet 1700000000500000000 = .ok 7764664 ∧
    slotInterval .mainnet 1700000000500000000 1700000000500000000 1700000000500000000 = .ok 1700000003000000000 ∧
    currentSlot .mainnet 1500000000000000000 = .panic := by
  refine ⟨⟨by decide, by decide⟩, by decide, by decide, by decide⟩

/-- The clock was set back by 20 seconds between two readings. -/
example : slotInterval .mainnet 1700000000500000000 1699999980500000000 1699999980500000000 = .panic := by decide

/-- The bridge waits for 6.5 seconds, as data of the slot was due 5.5 seconds ago. -/
example : Steady (fun _ => 1700000000500000000) ∧
    untilNextUpdate .mainnet 1700000000500000000 (fun _ => 1700000000500000000) 2 = .ok (1, 6500000000) ∧
    due .mainnet 7764665 = 1700000007000000000 := by
  refine ⟨fun _ _ _ => Nat.le_refl _, by decide, by decide⟩

/-- A round that begins 30 seconds late is followed by one 6 seconds later. -/
example : rounds 1000000000 [1000000001, 43000000000, 49000000005] =
    [(1000000000, 1000000001), (13000000000, 43000000000), (49000000000, 49000000005)] ∧
    Timely (rounds 1000000000 [1000000001, 43000000000, 49000000005]) := by
  have : rounds 1000000000 [1000000001, 43000000000, 49000000005] =
    [(1000000000, 1000000001), (13000000000, 43000000000), (49000000000, 49000000005)] := by decide
  refine ⟨this, ?_⟩
  rw [this]
  intro x hx
  simp only [List.mem_cons, List.not_mem_nil, or_false] at hx
  rcases hx with rfl | rfl | rfl <;> decide

/-- Slot 2^32 has the time of slot 0. -/
example : slotToTimestamp .mainnet 4294967296 = start .mainnet 0 := by decide

end SlotClockExample

end Verif.Props
