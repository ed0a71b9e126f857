import Verif.Model.ChainHead

/-! # C28: the tracked chain head never regresses

`attestedOf` / `finalizedOf` / `summariesOf` list the headers and summary lists delivered by a
history of operations. -/

namespace Verif.Props
open Verif.ChainHead

def attestedOf {σ} : Op σ → List Header
  | .update a _ => [a]
  | .optimisticUpdate a => [a]
  | .finalityUpdate a _ => [a]
  | .summaries _ => []

def finalizedOf {σ} : Op σ → List Header
  | .update _ f => [f]
  | .optimisticUpdate _ => []
  | .finalityUpdate _ f => [f]
  | .summaries _ => []

def summariesOf {σ} : Op σ → List (List σ)
  | .summaries l => [l]
  | _ => []

variable {σ : Type}

/-- One operation changes a tracked header only to a delivered one with a strictly higher slot, and the
summaries only to a delivered strictly longer list. -/
theorem C28_step (s : Store σ) (op : Op σ) :
    ((s.step op).latest = s.latest ∨
      ((s.step op).latest ∈ attestedOf op ∧ s.latest.slot < (s.step op).latest.slot)) ∧
    ((s.step op).finalized = s.finalized ∨
      ((s.step op).finalized ∈ finalizedOf op ∧ s.finalized.slot < (s.step op).finalized.slot)) ∧
    ((s.step op).summaries = s.summaries ∨
      ((s.step op).summaries ∈ summariesOf op ∧
        s.summaries.length < (s.step op).summaries.length)) := by
  cases op <;>
    simp only [Store.step, Store.updateLatest, Store.updateFinalized, Store.updateSummaries,
      attestedOf, finalizedOf, summariesOf] <;>
    repeat' split <;> simp_all

/-- And it does take a delivered header (list) that is newer. -/
theorem C28_step_takes (s : Store σ) (op : Op σ) :
    (∀ h ∈ attestedOf op, h.slot ≤ (s.step op).latest.slot) ∧
    (∀ h ∈ finalizedOf op, h.slot ≤ (s.step op).finalized.slot) ∧
    (∀ l ∈ summariesOf op, l.length ≤ (s.step op).summaries.length) := by
  cases op <;>
    simp only [Store.step, Store.updateLatest, Store.updateFinalized, Store.updateSummaries,
      attestedOf, finalizedOf, summariesOf] <;>
    refine ⟨?_, ?_, ?_⟩ <;> intro x hx <;> simp at hx <;> subst hx <;>
    (repeat' split) <;> simp_all

/-- Over every history: a later reader never sees a lower slot or a shorter list than an earlier one
(`ops₁` is what happened before the first read, `ops₂` what happened between the two reads). -/
theorem C28_monotone (s : Store σ) (ops₁ ops₂ : List (Op σ)) :
    (s.run ops₁).latest.slot ≤ (s.run (ops₁ ++ ops₂)).latest.slot ∧
    (s.run ops₁).finalized.slot ≤ (s.run (ops₁ ++ ops₂)).finalized.slot ∧
    (s.run ops₁).summaries.length ≤ (s.run (ops₁ ++ ops₂)).summaries.length := by
  unfold Store.run
  rw [List.foldl_append]
  generalize List.foldl Store.step s ops₁ = s'
  induction ops₂ generalizing s' with
  | nil => simp
  | cons op ops ih =>
    obtain ⟨h1, h2, h3⟩ := C28_step s' op
    obtain ⟨i1, i2, i3⟩ := ih (s'.step op)
    simp only [List.foldl_cons]
    refine ⟨Nat.le_trans ?_ i1, Nat.le_trans ?_ i2, Nat.le_trans ?_ i3⟩
    · rcases h1 with h | ⟨-, h⟩
      · rw [h]; exact Nat.le_refl _
      · omega
    · rcases h2 with h | ⟨-, h⟩
      · rw [h]; exact Nat.le_refl _
      · omega
    · rcases h3 with h | ⟨-, h⟩
      · rw [h]; exact Nat.le_refl _
      · omega

/-- Exactly the greatest slot delivered so far (or the initial one) is tracked, and the tracked header
is one of those. -/
theorem C28_is_maximum (s : Store σ) (ops : List (Op σ)) :
    ((s.run ops).latest ∈ s.latest :: ops.flatMap attestedOf) ∧
    (∀ h ∈ s.latest :: ops.flatMap attestedOf, h.slot ≤ (s.run ops).latest.slot) ∧
    ((s.run ops).finalized ∈ s.finalized :: ops.flatMap finalizedOf) ∧
    (∀ h ∈ s.finalized :: ops.flatMap finalizedOf, h.slot ≤ (s.run ops).finalized.slot) := by
  induction ops generalizing s with
  | nil => simp [Store.run]
  | cons op ops ih =>
    obtain ⟨m1, m2, m3, m4⟩ := ih (s.step op)
    obtain ⟨h1, h2, -⟩ := C28_step s op
    obtain ⟨t1, t2, -⟩ := C28_step_takes s op
    have hrun : s.run (op :: ops) = (s.step op).run ops := rfl
    rw [hrun]
    simp only [List.flatMap_cons, List.mem_cons, List.mem_append] at *
    refine ⟨?_, ?_, ?_, ?_⟩
    · rcases m1 with m1 | m1
      · rcases h1 with h | ⟨h, -⟩
        · left; rw [m1, h]
        · right; left; rw [m1]; exact h
      · right; right; exact m1
    · intro x hx
      rcases hx with rfl | hx | hx
      · have := m2 _ (Or.inl rfl)
        rcases h1 with h | ⟨-, h⟩
        · rw [h] at this; exact this
        · omega
      · have := m2 _ (Or.inl rfl)
        have := t1 x hx
        omega
      · exact m2 x (Or.inr hx)
    · rcases m3 with m3 | m3
      · rcases h2 with h | ⟨h, -⟩
        · left; rw [m3, h]
        · right; left; rw [m3]; exact h
      · right; right; exact m3
    · intro x hx
      rcases hx with rfl | hx | hx
      · have := m4 _ (Or.inl rfl)
        rcases h2 with h | ⟨-, h⟩
        · rw [h] at this; exact this
        · omega
      · have := m4 _ (Or.inl rfl)
        have := t2 x hx
        omega
      · exact m4 x (Or.inr hx)

/-- If every delivered update is itself ordered (finalized not after attested), the finalized header is
never ahead of the latest header. -/
theorem C28_finalized_le_latest (s : Store σ) (ops : List (Op σ))
    (h0 : s.finalized.slot ≤ s.latest.slot)
    (hops : ∀ op ∈ ops, ∀ a ∈ attestedOf op, ∀ f ∈ finalizedOf op, f.slot ≤ a.slot) :
    (s.run ops).finalized.slot ≤ (s.run ops).latest.slot := by
  induction ops generalizing s with
  | nil => exact h0
  | cons op ops ih =>
    apply ih (s.step op)
    · obtain ⟨h1, h2, -⟩ := C28_step s op
      obtain ⟨t1, -, -⟩ := C28_step_takes s op
      have hop := hops op (by simp)
      have hlat : s.latest.slot ≤ (s.step op).latest.slot := by
        rcases h1 with h | ⟨-, h⟩
        · rw [h]; exact Nat.le_refl _
        · omega
      rcases h2 with h | ⟨h, -⟩
      · rw [h]; omega
      · cases op with
        | optimisticUpdate a => simp [finalizedOf] at h
        | summaries l => simp [finalizedOf] at h
        | update a f | finalityUpdate a f =>
          have e1 := hop a (by simp [attestedOf]) _ h
          have e2 := t1 a (by simp [attestedOf])
          omega
    · intro o ho; exact hops o (by simp [ho])

/-- Summary lookups: if all delivered lists agree with one canonical list (they are valid), then an
answered lookup keeps its answer for ever, and every answer is the canonical summary of that slot's
period. -/
theorem C28_summary_lookup (canon : List σ) (s : Store σ) (hs : s.summaries <+: canon)
    (ops : List (Op σ)) (hops : ∀ op ∈ ops, ∀ l ∈ summariesOf op, l <+: canon)
    (slot : Nat) (x : σ) :
    (s.historicalSummary slot = some x → (s.run ops).historicalSummary slot = some x) ∧
    ((s.run ops).historicalSummary slot = some x →
      capellaSlot ≤ slot ∧ canon[(slot - capellaSlot) / 8192]? = some x) := by
  have hpre : (s.run ops).summaries <+: canon ∧
      s.summaries.length ≤ (s.run ops).summaries.length := by
    induction ops generalizing s with
    | nil => exact ⟨hs, Nat.le_refl _⟩
    | cons op ops ih =>
      obtain ⟨-, -, h3⟩ := C28_step s op
      have hs' : (s.step op).summaries <+: canon := by
        rcases h3 with h | ⟨h, -⟩
        · rw [h]; exact hs
        · exact hops op (by simp) _ h
      obtain ⟨i1, i2⟩ := ih (s.step op) hs' (fun o ho => hops o (by simp [ho]))
      refine ⟨i1, Nat.le_trans ?_ i2⟩
      rcases h3 with h | ⟨-, h⟩
      · rw [h]; exact Nat.le_refl _
      · omega
  have agree : ∀ (l : List σ) (i : Nat), l <+: canon → i < l.length → l[i]? = canon[i]? := by
    intro l i hl hi
    obtain ⟨t, rfl⟩ := hl
    rw [List.getElem?_append_left hi]
  unfold Store.historicalSummary historicalSummaryIndex
  by_cases hc : slot < capellaSlot
  · simp [hc]
  · simp only [if_neg hc]
    constructor
    · intro h
      have hi : (slot - capellaSlot) / 8192 < s.summaries.length :=
        (List.getElem?_eq_some_iff.1 h).1
      rw [agree _ _ hpre.1 (by omega), ← agree _ _ hs hi]; exact h
    · intro h
      have hi := (List.getElem?_eq_some_iff.1 h).1
      rw [← agree _ _ hpre.1 hi]
      exact ⟨by omega, h⟩

/-- No summary before Capella, whatever was delivered. -/
theorem C28_summary_pre_capella (s : Store σ) (slot : Nat) (h : slot < capellaSlot) :
    s.historicalSummary slot = none := by
  unfold Store.historicalSummary historicalSummaryIndex; rw [if_pos h]

example : ((⟨⟨5, 0⟩, ⟨3, 0⟩, [7]⟩ : Store Nat).run
    [.optimisticUpdate ⟨9, 1⟩, .finalityUpdate ⟨8, 2⟩ ⟨6, 2⟩, .summaries [7, 8]]).latest = ⟨9, 1⟩ ∧
    capellaSlot = 6209536 := by decide

end Verif.Props
