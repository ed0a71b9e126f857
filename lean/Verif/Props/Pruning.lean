import Verif.Props.PruningSpec
import Verif.Props.Store
import Verif.Lemmas.Double

/-! # C106: pruning computed with doubles -/

namespace Verif.Props
open Verif.Store
open Verif.Double hiding expo_le

/-- Results of the operations are the nearest doubles, of two equally near ones the one with the even significand. -/
theorem C106_rounding (p q e k : Nat) (hq : 0 < q) (hs : PruningSpec.Spacing p q e) :
    (PruningSpec.Nearest p q e k → Verif.Double.round p q = k * 2 ^ e) ∧
    (PruningSpec.Between p q e k → Verif.Double.round p q = (if k % 2 = 0 then k else k + 1) * 2 ^ e) := by
  have he := expo_unique p q e hq hs.1 hs.2
  have hQ : 0 < q * 2 ^ e := Nat.mul_pos hq (Nat.two_pow_pos _)
  unfold Verif.Double.round
  rw [he]
  exact ⟨fun h => by rw [nearest_of p _ k hQ h.1 h.2], fun h => by rw [nearest_tie p _ k hQ h]⟩

/-- Every positive quotient has a spacing and a significand that is nearest or one of the two nearest. -/
theorem C106_rounding_total (p q : Nat) (hq : 0 < q) :
    ∃ e k, PruningSpec.Spacing p q e ∧ (PruningSpec.Nearest p q e k ∨ PruningSpec.Between p q e k) := by
  refine ⟨expo p q, ?_⟩
  have hsp : PruningSpec.Spacing p q (expo p q) := by
    refine ⟨?_, ?_⟩
    · by_cases h : 2 ^ 52 * q ≤ p
      · right
        have := Verif.Double.expo_le p q hq h
        rw [Nat.mul_comm q, ← Nat.mul_assoc] at this
        exact this
      · left
        have h0 : p / q < 2 ^ 52 := (Nat.div_lt_iff_lt_mul hq).mpr (Nat.lt_of_not_le h)
        unfold expo
        by_cases hz : p / q = 0
        · rw [hz]; decide
        · have := (Nat.log2_lt hz).mpr h0
          omega
    · have := lt_expo p q hq
      rw [Nat.mul_comm q, ← Nat.mul_assoc] at this
      exact this
  have hQ : 0 < q * 2 ^ expo p q := Nat.mul_pos hq (Nat.two_pow_pos _)
  unfold PruningSpec.Nearest PruningSpec.Between
  generalize q * 2 ^ expo p q = Q at *
  have h1 := Nat.div_add_mod p Q
  have h2 := Nat.mod_lt p hQ
  have e1 : 2 * (p / Q) * Q = 2 * (Q * (p / Q)) := by grind
  have e2 : 2 * (p / Q + 1) * Q = 2 * (Q * (p / Q)) + 2 * Q := by grind
  have e3 : (2 * (p / Q) + 1) * Q = 2 * (Q * (p / Q)) + Q := by grind
  by_cases a : 2 * (p % Q) < Q
  · exact ⟨p / Q, hsp, .inl ⟨by omega, by omega⟩⟩
  · by_cases b : Q < 2 * (p % Q)
    · exact ⟨p / Q + 1, hsp, .inl ⟨by omega, by omega⟩⟩
    · exact ⟨p / Q, hsp, .inr (by omega)⟩

/-- The capacity pruning aims for is 95 percent of the capacity, to the nearest byte. -/
theorem C106_target (c : Nat) (h : c ≤ 2 ^ 46) :
    20 * Arith.double.target c ≤ 19 * c + 10 ∧ 19 * c ≤ 20 * Arith.double.target c + 10 := target_near c h

/-- The number of entries to remove, for a store above a capacity other than zero: at least one, and no more than
the limit. The entries kept are no more than fit in the target (unless the limit was reached), and with one entry
more they are no less, when entries have the average size and but for the precision of doubles. -/
theorem C106_count (env : Env) (ha : env.arith = .double) (cfg : Config) (s : Store) (hc : 0 < cfg.capacity)
    (hover : cfg.capacity < s.usage cfg) (hn : 0 < s.count) (hb : s.count < 2 ^ 63) (ht : cfg.capacity < 2 ^ 62)
    (hu : s.usage cfg < 2 ^ 64) (hsize : s.count ≤ s.usage cfg) (hm : 0 < s.maxPrune) :
    0 < pruningCount env cfg s ∧ pruningCount env cfg s ≤ s.maxPrune ∧ pruningCount env cfg s ≤ s.count ∧
    PruningSpec.AtMost (env.arith.target cfg.capacity * s.count) ((s.count - pruningCount env cfg s + 1) * s.usage cfg) ∧
    (pruningCount env cfg s < s.maxPrune →
      PruningSpec.AtMost ((s.count - pruningCount env cfg s) * s.usage cfg) (env.arith.target cfg.capacity * s.count)) := by
  have hsound : env.arith.fit (env.arith.target cfg.capacity) s.count s.total cfg.extra < s.count := by
    rw [ha]; exact double_sound _ _ _ _ hc hn hover
  have hpc : pruningCount env cfg s = min (s.count - env.arith.fit (env.arith.target cfg.capacity) s.count s.total cfg.extra) s.maxPrune := by
    unfold pruningCount estimate Store.shouldPrune
    rw [if_neg (by simp; exact hover), if_neg (by omega), if_neg (by omega)]
    simp only
    rw [if_pos hsound]
  rw [ha] at hsound hpc ⊢
  have hge := fit_floor_ge (Arith.double.target cfg.capacity) s.count s.total cfg.extra hn (by omega)
    (by unfold Store.usage at hover; omega) (by unfold Store.usage at hu; omega)
  have hle := fit_floor_le (Arith.double.target cfg.capacity) s.count s.total cfg.extra hn (by omega)
    (by unfold Store.usage at hover; omega)
  have htl := target_le cfg.capacity
  change _ ≤ _ * ((_ + 1) * s.usage cfg) at hge
  change _ * (_ * s.usage cfg) ≤ _ at hle
  have hfit : Arith.double.fit (Arith.double.target cfg.capacity) s.count s.total cfg.extra =
      floor (div (ofNat (Arith.double.target cfg.capacity)) (avg s.count s.total cfg.extra)) := by
    rw [fit_eq]
    apply asU64_eq
    have hfn : 999999 ^ 3 * floor (div (ofNat (Arith.double.target cfg.capacity)) (avg s.count s.total cfg.extra)) ≤
        1000001 ^ 3 * Arith.double.target cfg.capacity := by
      apply Nat.le_of_mul_le_mul_right (c := s.usage cfg) _ (by omega)
      calc _ = 999999 ^ 3 * (floor (div (ofNat (Arith.double.target cfg.capacity)) (avg s.count s.total cfg.extra)) * s.usage cfg) := Nat.mul_assoc _ _ _
        _ ≤ 1000001 ^ 3 * (Arith.double.target cfg.capacity * s.count) := hle
        _ = 1000001 ^ 3 * Arith.double.target cfg.capacity * s.count := (Nat.mul_assoc _ _ _).symm
        _ ≤ 1000001 ^ 3 * Arith.double.target cfg.capacity * s.usage cfg := Nat.mul_le_mul_left _ hsize
    omega
  rw [← hfit] at hge hle
  generalize Arith.double.fit (Arith.double.target cfg.capacity) s.count s.total cfg.extra = f at *
  refine ⟨by omega, by omega, by omega, ?_, ?_⟩
  · have h1 : f + 1 ≤ s.count - pruningCount env cfg s + 1 := by omega
    exact Nat.le_trans hge (Nat.mul_le_mul_left _ (Nat.mul_le_mul_right _ h1))
  · intro h
    have h1 : s.count - pruningCount env cfg s = f := by omega
    rw [h1]
    exact hle

/-- A store whose pruning is computed with doubles stays within its capacity, whatever happens. -/
theorem C106_capacity (env : Env) (hq : Sql env) (ha : env.arith = .double) (cfg : Config) (s : Store)
    (hr : Reachable env (cfg, s)) : realUsage cfg s.rows ≤ cfg.capacity ∧ s.usage cfg ≤ cfg.capacity := by
  have := C21_capacity env hq (by rw [ha]; exact double_sound) cfg s hr
  omega

/-- So does one that is opened on the database of another. -/
theorem C106_open (env : Env) (hq : Sql env) (ha : env.arith = .double) (node : Id) (rows : List Row)
    (hl : LeftBehind env node rows) (cfg : Config) (sps : List Speed) (s : Store)
    (h : create env cfg sps rows = .ok s) : realUsage cfg s.rows ≤ cfg.capacity :=
  (C23_open env hq node rows hl cfg sps s h).2.2.2.2.1 (by rw [ha]; exact double_sound)

/-- After an insertion that exceeds the capacity the radius is the distance of a farthest entry in the indexed
precision, capped by the maximum. -/
theorem C106_radius (env : Env) (hq : Sql env) (ha : env.arith = .double) (cfg : Config) (s s' : Store)
    (hr : Reachable env (cfg, s)) (sps : List Speed) (key value : Bytes) (dropped : List (Bytes × Bytes))
    (h : insert env cfg sps s key value = .ok (s', dropped))
    (hover : cfg.capacity < s.usage cfg + contentSize key value + cfg.extra) :
    (s'.rows = [] ∧ s'.radius = if cfg.capacity = 0 then 0 else cfg.maxRadius) ∨
    (∃ far ∈ s'.rows, s'.radius = min (xorDistance cfg.node (env.idOf far.key)) cfg.maxRadius ∧
      (∀ r ∈ s'.rows, prefix32 (xorDistance cfg.node (env.idOf r.key)) ≤
        prefix32 (xorDistance cfg.node (env.idOf far.key)))) := by
  rcases C22_radius env hq (by rw [ha]; exact double_sound) cfg s s' hr sps key value dropped h hover with h | ⟨far, h1, h2, h3, -⟩
  · exact .inl h
  · exact .inr ⟨far, h1, h2, h3⟩

/-- The limit after a statement: a fifth more after a fast one, a fifth less after a slow one, to the nearest entry,
and at least one. -/
theorem C106_limit (env : Env) (ha : env.arith = .double) (m : Nat) (h : m ≤ 2 ^ 46) :
    observe env .fast m = max ((12 * m + 5) / 10) 1 ∧ observe env .slow m = max ((8 * m + 5) / 10) 1 ∧
    observe env .optimal m = m := by
  unfold observe
  rw [ha]
  exact ⟨by rw [fast_eq m h], by rw [slow_eq m h], rfl⟩

theorem observe_pos (env : Env) (sp : Speed) (m : Nat) (h : 0 < m) : 0 < observe env sp m := by
  cases sp <;> simp only [observe] <;> omega

/-- The limit is never zero. -/
theorem C106_limit_positive (env : Env) (speeds : List Speed) (m : Nat) (h : 0 < m) : 0 < limitAfter env m speeds := by
  unfold limitAfter
  induction speeds generalizing m with
  | nil => exact h
  | cons sp rest ih => exact ih _ (observe_pos env sp m h)

/-- A limit of three or more grows after a fast statement and shrinks after a slow one, so that it follows the speed of
the disk. What is missing: below three it does not. -/
theorem C106_limit_follows_partial (env : Env) (ha : env.arith = .double) (m : Nat) (h : m ≤ 2 ^ 46) (h3 : 3 ≤ m) :
    m < observe env .fast m ∧ observe env .slow m < m := by
  have := C106_limit env ha m h
  rw [this.1, this.2.1]
  omega

theorem observe_two (env : Env) (ha : env.arith = .double) (sp : Speed) (m : Nat) (h : 0 < m ∧ m ≤ 2) :
    observe env sp m = m := by
  have := C106_limit env ha m (by omega)
  cases sp
  · rw [this.1]; omega
  · exact this.2.2
  · rw [this.2.1]; omega

theorem limit_stays (env : Env) (ha : env.arith = .double) (speeds : List Speed) (m : Nat) (h : 0 < m ∧ m ≤ 2) :
    limitAfter env m speeds = m := by
  unfold limitAfter
  induction speeds generalizing m with
  | nil => rfl
  | cons sp rest ih => rw [List.foldl_cons, observe_two env ha sp m h]; exact ih m h

theorem limitAfter_append (env : Env) (m : Nat) (a b : List Speed) :
    limitAfter env m (a ++ b) = limitAfter env (limitAfter env m a) b := by
  unfold limitAfter; rw [List.foldl_append]

/-- Seventeen slow statements bring the limit of a new strategy from 100 to two; it stays two whatever the speed of the
statements that follow, however fast they are. -/
theorem C106_limit_stuck_violated (env : Env) (ha : env.arith = .double) (later : List Speed) :
    limitAfter env 100 (List.replicate 17 .slow ++ later) = 2 := by
  rw [limitAfter_append]
  have h : limitAfter env 100 (List.replicate 17 .slow) = 2 := by
    have hs : ∀ m ≤ 2 ^ 46, observe env .slow m = max ((8 * m + 5) / 10) 1 := fun m h => (C106_limit env ha m h).2.1
    have step : ∀ (k m : Nat), m ≤ 2 ^ 46 → limitAfter env m (List.replicate (k + 1) .slow) =
        limitAfter env (max ((8 * m + 5) / 10) 1) (List.replicate k .slow) := by
      intro k m h
      unfold limitAfter
      rw [List.replicate_succ, List.foldl_cons, hs m h]
    rw [step _ _ (by decide), step _ _ (by decide), step _ _ (by decide), step _ _ (by decide), step _ _ (by decide),
      step _ _ (by decide), step _ _ (by decide), step _ _ (by decide), step _ _ (by decide), step _ _ (by decide),
      step _ _ (by decide), step _ _ (by decide), step _ _ (by decide), step _ _ (by decide), step _ _ (by decide),
      step _ _ (by decide), step _ _ (by decide)]
    rfl
  rw [h]
  exact limit_stays env ha later 2 (by decide)

theorem pruneLoop_limit (env : Env) (ha : env.arith = .double) (cfg : Config) (m : Nat) (hm : 0 < m ∧ m ≤ 2) :
    ∀ (fuel : Nat) (sps : List Speed) (s : Store) (d : List Row) (r : Store × List Row × Bool), s.maxPrune = m →
      pruneLoop env cfg fuel sps s d = .ok r → r.1.maxPrune = m := by
  intro fuel
  induction fuel with
  | zero => intro sps s d r _ h; cases h
  | succ fuel ih =>
    intro sps s d r hs h
    unfold pruneLoop at h
    split at h
    · rename_i s1 ht
      cases h
      unfold pruneTurn at ht
      split at ht
      · cases ht; exact hs
      · simp only at ht
        split at ht
        · cases ht
        · split at ht
          · cases ht
            show observe env _ s.maxPrune = m
            rw [hs]; exact observe_two env ha _ m hm
          · split at ht <;> cases ht
    · rename_i s1 ht
      cases h
      unfold pruneTurn at ht
      split at ht
      · cases ht
      · simp only at ht
        split at ht
        · cases ht; exact hs
        · split at ht
          · cases ht
          · split at ht <;> cases ht
    · cases h
    · rename_i s1 del ht
      refine ih _ _ _ _ ?_ h
      unfold pruneTurn at ht
      split at ht
      · cases ht
      · simp only at ht
        split at ht
        · cases ht
        · split at ht
          · cases ht
          · split at ht
            · cases ht
            · cases ht
              show observe env _ s.maxPrune = m
              rw [hs]; exact observe_two env ha _ m hm

theorem setRadius_limit (env : Env) (cfg : Config) (s : Store) : (setRadius env cfg s).maxPrune = s.maxPrune := by
  unfold setRadius
  split <;> rfl

/-- A store with a limit of one or two keeps it through every insertion, however fast its pruning statements are. -/
theorem C106_store_stuck_violated (env : Env) (ha : env.arith = .double) (cfg : Config) (s s' : Store) (sps : List Speed)
    (key value : Bytes) (dropped : List (Bytes × Bytes)) (hm : 0 < s.maxPrune ∧ s.maxPrune ≤ 2)
    (h : insert env cfg sps s key value = .ok (s', dropped)) : s'.maxPrune = s.maxPrune := by
  unfold Verif.Store.insert at h
  split at h
  · cases h
  · simp only at h
    split at h
    · split at h
      · cases h
      · rename_i s1 d1 hp
        cases h
        unfold prune at hp
        split at hp
        · cases hp; rfl
        · split at hp
          · cases hp
          · rename_i s2 d2 hl
            cases hp
            rw [setRadius_limit]
            exact pruneLoop_limit env ha cfg s.maxPrune hm _ _ (inserted env cfg s key value) _ _ rfl hl
          · rename_i s2 d2 hl
            cases hp
            exact pruneLoop_limit env ha cfg s.maxPrune hm _ _ (inserted env cfg s key value) _ _ rfl hl
    · cases h; rfl

/-! ## Examples -/

namespace PruningExample

/-- The store of the examples of C20 to C24, with doubles. -/
def env : Env := ⟨StoreExample.env.idOf, StoreExample.env.order, .double⟩
theorem sql : Sql env := ⟨StoreExample.sql.1, StoreExample.sql.2⟩
theorem started : create env StoreExample.cfg [] [] = .ok StoreExample.start := by decide +kernel

/-- 1/10 and 2/10 are not 3/10. -/
example : add (lit 1 10) (lit 2 10) ≠ lit 3 10 := by decide +kernel
/-- 2^53 + 1 is halfway between two doubles. -/
example : PruningSpec.Spacing ((2 ^ 53 + 1) * 2 ^ 60) 1 61 ∧ PruningSpec.Between ((2 ^ 53 + 1) * 2 ^ 60) 1 61 (2 ^ 52) ∧
    Verif.Double.round ((2 ^ 53 + 1) * 2 ^ 60) 1 = 2 ^ 52 * 2 ^ 61 := by
  refine ⟨⟨.inr (by decide), by decide⟩, show _ = _ by decide +kernel, by decide +kernel⟩
/-- One third. -/
example : lit 1 3 = 6004799503160661 * 2 ^ 1020 := by decide +kernel
/-- The target of 1 GB, and of 3 bytes. -/
example : Arith.double.target 1000000000 = 950000000 ∧ Arith.double.target 3 = 3 := by decide +kernel
/-- 101 entries of 100 bytes in 10000 bytes: 95 fit the target, six go. -/
example : pruningCount env { StoreExample.cfg with capacity := 10000 } ⟨[], 0, 100, 101, 10100⟩ = 6 := by decide +kernel
/-- A history that reaches a store that has removed entries. -/
example : (run env (StoreExample.cfg, StoreExample.start)
    [StoreExample.ins (StoreExample.near 1), StoreExample.ins (StoreExample.near 2), StoreExample.ins (StoreExample.near 3),
      StoreExample.ins (StoreExample.near 4)]).map
    (fun st => (st.2.rows.length, st.2.total, st.2.maxPrune)) = .ok (2, 66, 100) := by decide +kernel
/-- Fast statements. -/
example : limitAfter env 100 [.fast, .fast, .slow, .optimal] = 115 := by decide +kernel
/-- The limit is stuck although a thousand fast statements follow. -/
example : limitAfter env 100 (List.replicate 17 .slow ++ List.replicate 1000 .fast) = 2 :=
  C106_limit_stuck_violated env rfl _

end PruningExample

end Verif.Props
