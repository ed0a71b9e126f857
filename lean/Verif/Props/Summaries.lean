import Verif.Model.HeaderValidator
import Verif.Props.ChainHead

/-! # C35: the right historical summary -/

namespace Verif.Props
open Verif.HeaderValidator

/-- The first slot of Capella: epoch 194048 of 32 slots. -/
abbrev firstCapellaSlot : Nat := 6209536

/-- C35: slots before Capella are refused, without touching the cache. -/
theorem C35_before_capella (cache : List Summary) (source) (slot : Nat) (h : slot < firstCapellaSlot) :
    getSummary cache source slot = (none, cache) := by
  have : ChainHead.historicalSummaryIndex slot = none := by
    unfold ChainHead.historicalSummaryIndex; rw [if_pos (by simpa using h)]
  simp [getSummary, this]

theorem index_of_capella (slot : Nat) (h : firstCapellaSlot ≤ slot) :
    ChainHead.historicalSummaryIndex slot = some ((slot - firstCapellaSlot) / 8192) := by
  unfold ChainHead.historicalSummaryIndex; rw [if_neg (by simp; omega)]

/-- C35: a cached list that reaches the index is used as it is, and the source is not consulted. -/
theorem C35_cache_hit (cache : List Summary) (source) (slot : Nat) (h : firstCapellaSlot ≤ slot)
    (hi : (slot - firstCapellaSlot) / 8192 < cache.length) :
    getSummary cache source slot = (some cache[(slot - firstCapellaSlot) / 8192], cache) := by
  unfold getSummary
  rw [index_of_capella slot h]
  simp only [List.getElem?_eq_getElem hi]

/-- C35: otherwise the source decides. Its list is used, and replaces the cache, exactly when it reaches
the index. -/
theorem C35_cache_miss (cache : List Summary) (source) (slot : Nat) (h : firstCapellaSlot ≤ slot)
    (hi : cache.length ≤ (slot - firstCapellaSlot) / 8192) :
    getSummary cache source slot = match source (slot / 32) with
      | none => (none, cache)
      | some l => if hl : (slot - firstCapellaSlot) / 8192 < l.length then
          (some l[(slot - firstCapellaSlot) / 8192], l) else (none, cache) := by
  unfold getSummary
  rw [index_of_capella slot h]
  simp only [List.getElem?_eq_none hi]
  cases source (slot / 32) with
  | none => rfl
  | some l =>
    simp only
    by_cases hl : (slot - firstCapellaSlot) / 8192 < l.length
    · rw [dif_pos hl, List.getElem?_eq_getElem hl]
    · rw [dif_neg hl, List.getElem?_eq_none (Nat.le_of_not_lt hl)]

/-- A sequence of lookups, each with what the source answers at that moment. -/
def lookups (cache : List Summary) :
    List (Nat × (Nat → Option (List Summary))) → List (Option Summary) × List Summary
  | [] => ([], cache)
  | (slot, source) :: rest =>
    let r := getSummary cache source slot
    let r' := lookups r.2 rest
    (r.1 :: r'.1, r'.2)

/-- C35: if every list the source ever gives is a prefix of the trusted list, then in every history of
lookups each answer is the trusted summary of the period of its slot, and the cache stays a prefix of the
trusted list. -/
theorem C35_all_lookups (trusted : List Summary) : ∀ (reqs : List (Nat × (Nat → Option (List Summary))))
    (cache : List Summary), cache <+: trusted →
    (∀ q ∈ reqs, ∀ e l, q.2 e = some l → l <+: trusted) →
    (lookups cache reqs).2 <+: trusted ∧
    ∀ (i : Nat) (s : Summary) (q : Nat × (Nat → Option (List Summary))), (lookups cache reqs).1[i]? = some (some s) → reqs[i]? = some q →
      firstCapellaSlot ≤ q.1 ∧ trusted[(q.1 - firstCapellaSlot) / 8192]? = some s := by
  intro reqs
  induction reqs with
  | nil => intro cache hc _; exact ⟨hc, fun i s q h => by simp [lookups] at h⟩
  | cons q reqs ih =>
    intro cache hc hs
    obtain ⟨slot, source⟩ := q
    have step : (getSummary cache source slot).2 <+: trusted ∧
        ∀ s, (getSummary cache source slot).1 = some s →
          firstCapellaSlot ≤ slot ∧ trusted[(slot - firstCapellaSlot) / 8192]? = some s := by
      have get : ∀ (l : List Summary) (i : Nat) (s : Summary), l <+: trusted → l[i]? = some s →
          trusted[i]? = some s := by
        intro l i s hl hi
        obtain ⟨rest, rfl⟩ := hl
        obtain ⟨hlt, _⟩ := List.getElem?_eq_some_iff.mp hi
        rw [List.getElem?_append_left hlt, hi]
      by_cases hcap : firstCapellaSlot ≤ slot
      · unfold getSummary
        rw [index_of_capella slot hcap]
        simp only
        cases hg : cache[(slot - firstCapellaSlot) / 8192]? with
        | some s =>
          refine ⟨hc, fun s' e => ⟨hcap, ?_⟩⟩
          cases e
          exact get _ _ _ hc hg
        | none =>
          simp only
          cases hsrc : source (slot / 32) with
          | none => exact ⟨hc, fun s' e => by cases e⟩
          | some l =>
            simp only
            have hl := hs _ (List.mem_cons_self ..) _ _ hsrc
            cases hg2 : l[(slot - firstCapellaSlot) / 8192]? with
            | none => exact ⟨hc, fun s' e => by cases e⟩
            | some s =>
              refine ⟨hl, fun s' e => ⟨hcap, ?_⟩⟩
              cases e
              exact get _ _ _ hl hg2
      · rw [C35_before_capella cache source slot (by omega)]
        exact ⟨hc, fun s e => by cases e⟩
    obtain ⟨h1, h2⟩ := ih (getSummary cache source slot).2 step.1
      (fun q hq => hs q (List.mem_cons_of_mem _ hq))
    refine ⟨h1, ?_⟩
    intro i s q hi hq
    cases i with
    | zero =>
      simp only [lookups, List.getElem?_cons_zero, Option.some.injEq] at hi hq
      subst hq
      exact step.2 s hi
    | succ i =>
      simp only [lookups, List.getElem?_cons_succ] at hi hq
      exact h2 i s q hi hq

/-- A miss that refreshes the cache, then a hit that does not ask. -/
example : lookups [] [(6209536 + 8192, fun _ => some [⟨1, 2⟩, ⟨3, 4⟩]), (6209536, fun _ => none),
    (6209536 + 3 * 8192, fun _ => some [⟨1, 2⟩])] =
    ([some ⟨3, 4⟩, some ⟨1, 2⟩, none], [⟨1, 2⟩, ⟨3, 4⟩]) := by decide

end Verif.Props
