import Verif.Model.Sort

namespace Verif

variable {α : Type} {le : α → α → Bool}

theorem insertBy_perm (a : α) : ∀ l : List α, (insertBy le a l).Perm (a :: l)
  | [] => List.Perm.refl _
  | b :: l => by
    rw [insertBy]
    split
    · exact List.Perm.refl _
    · exact ((insertBy_perm a l).cons b).trans (List.Perm.swap a b l)

theorem sortBy_perm : ∀ l : List α, (sortBy le l).Perm l
  | [] => List.Perm.refl _
  | a :: l => (insertBy_perm a _).trans ((sortBy_perm l).cons a)

theorem insertBy_sorted (htot : ∀ a b, le a b = true ∨ le b a = true)
    (htr : ∀ a b c, le a b = true → le b c = true → le a c = true) (a : α) :
    ∀ l : List α, l.Pairwise (fun x y => le x y = true) →
      (insertBy le a l).Pairwise (fun x y => le x y = true)
  | [], _ => by simp [insertBy]
  | b :: l, h => by
    rw [insertBy]
    obtain ⟨h1, h2⟩ := List.pairwise_cons.1 h
    split
    · next hab =>
      rw [List.pairwise_cons]
      refine ⟨?_, h⟩
      intro x hx
      rcases List.mem_cons.1 hx with rfl | hx
      · exact hab
      · exact htr _ _ _ hab (h1 x hx)
    · next hab =>
      rw [List.pairwise_cons]
      refine ⟨?_, insertBy_sorted htot htr a l h2⟩
      intro x hx
      rcases List.mem_cons.1 ((insertBy_perm a l).mem_iff.1 hx) with rfl | hx
      · exact (htot b x).resolve_right hab
      · exact h1 x hx

theorem sortBy_sorted (htot : ∀ a b, le a b = true ∨ le b a = true)
    (htr : ∀ a b c, le a b = true → le b c = true → le a c = true) :
    ∀ l : List α, (sortBy le l).Pairwise (fun x y => le x y = true)
  | [] => by simp [sortBy]
  | a :: l => insertBy_sorted htot htr a _ (sortBy_sorted htot htr l)

theorem mem_sortBy {a : α} {l : List α} : a ∈ sortBy le l ↔ a ∈ l := (sortBy_perm l).mem_iff

theorem length_sortBy (l : List α) : (sortBy le l).length = l.length := (sortBy_perm l).length_eq

/-- Sorting by a natural-number key. -/
theorem sortBy_key_sorted (f : α → Nat) (l : List α) :
    (sortBy (fun a b => decide (f a ≤ f b)) l).Pairwise (fun a b => f a ≤ f b) := by
  have := sortBy_sorted (le := fun a b => decide (f a ≤ f b))
    (fun a b => by simp only [decide_eq_true_eq]; omega)
    (fun a b c h1 h2 => by simp only [decide_eq_true_eq] at *; omega) l
  simpa using this

/-- Stability: elements that compare equal keep their order. -/
theorem sortBy_stable_filter (f : α → Nat) (k : Nat) : ∀ l : List α,
    (sortBy (fun a b => decide (f a ≤ f b)) l).filter (fun a => f a = k) =
      l.filter fun a => f a = k
  | [] => rfl
  | a :: l => by
    have ih := sortBy_stable_filter f k l
    have hins : ∀ s : List α, (insertBy (fun a b => decide (f a ≤ f b)) a s).filter
        (fun x => f x = k) = if f a = k then a :: s.filter (fun x => f x = k)
          else s.filter (fun x => f x = k) := by
      intro s
      induction s with
      | nil => by_cases h : f a = k <;> simp [insertBy, h]
      | cons b s ihs =>
        rw [insertBy]
        split
        · by_cases h : f a = k <;> simp [h]
        · next hab =>
          simp only [decide_eq_true_eq] at hab
          rw [List.filter_cons, ihs, List.filter_cons]
          by_cases h : f a = k
          · have : ¬ f b = k := by omega
            simp [h, this]
          · by_cases h2 : f b = k <;> simp [h, h2]
    rw [sortBy, hins, ih, List.filter_cons]
    by_cases h : f a = k <;> simp [h]

end Verif
