import Verif.Model.FindNodeDistances
import Verif.Lemmas.Distance

namespace Verif

/-- Absolute difference of two distances. -/
def absDiff (x y : Nat) : Nat := (x - y) + (y - x)

/-- What holds of the list whenever the loop head is reached. -/
structure LoopInv (d k : Nat) (l : List Nat) : Prop where
  nodup : l.Nodup
  mem : ∀ x, x ∈ l ↔ x ≤ 256 ∧ absDiff x d < k
  long : k ≤ l.length
  first : ∃ t, l = d :: t

/-- What holds of the list when the loop ends. -/
structure LoopPost (d : Nat) (l : List Nat) : Prop where
  nodup : l.Nodup
  valid : ∀ x ∈ l, x ≤ 256
  nearest : ∀ x ≤ 256, x ∉ l → ∀ y ∈ l, absDiff y d ≤ absDiff x d
  first : ∃ t, l = d :: t

theorem LoopInv.post {d k : Nat} {l : List Nat} (h : LoopInv d k l) : LoopPost d l := by
  refine ⟨h.nodup, fun x hx => ((h.mem x).1 hx).1, ?_, h.first⟩
  intro x hx hxl y hy
  have h1 := ((h.mem y).1 hy).2
  have h2 : ¬ absDiff x d < k := fun hlt => hxl ((h.mem x).2 ⟨hx, hlt⟩)
  omega

theorem log2DistanceLoop_done {d size fuel k : Nat} {l : List Nat} (h : ¬ l.length < size) :
    log2DistanceLoop d size fuel k l = some l := by
  cases fuel <;> (unfold log2DistanceLoop; rw [if_neg h])

theorem log2DistanceLoop_spec (d size : Nat) (hd : d ≤ 256) (hs : size ≤ 127) :
    ∀ fuel k l, 1 ≤ k → LoopInv d k l → k + fuel = 128 →
      ∃ r, log2DistanceLoop d size fuel k l = some r ∧ LoopPost d r ∧ size ≤ r.length ∧
        (l.length ≤ size → r.length = size) := by
  intro fuel
  induction fuel with
  | zero =>
    intro k l hk hinv hf
    have hlong := hinv.long
    exact ⟨l, log2DistanceLoop_done (by omega), hinv.post, by omega, by omega⟩
  | succ fuel ih =>
    intro k l hk hinv hf
    by_cases hlen : l.length < size
    · unfold log2DistanceLoop
      rw [if_pos hlen]
      obtain ⟨t, ht⟩ := hinv.first
      have hlong := hinv.long
      -- the two candidate values are not in the list
      have hup : d + k ∉ l := fun hm => by
        have := ((hinv.mem _).1 hm).2; unfold absDiff at this; omega
      have hdn : k ≤ d → d - k ∉ l := fun hkd hm => by
        have := ((hinv.mem _).1 hm).2; unfold absDiff at this; omega
      by_cases h1 : d + k ≤ 256
      · simp only [if_pos h1]
        by_cases h2 : (l ++ [d + k]).length < size
        · simp only [if_pos h2]
          simp only [List.length_append, List.length_singleton] at h2
          by_cases h3 : k ≤ d
          · simp only [if_pos h3]
            obtain ⟨r, hr, hp, hsz, hex⟩ := ih (k + 1) (l ++ [d + k] ++ [d - k]) (by omega) (by
              refine ⟨?_, ?_, ?_, ?_⟩
              · rw [List.nodup_append, List.nodup_append]
                refine ⟨⟨hinv.nodup, by simp, ?_⟩, by simp, ?_⟩
                · intro a ha b hb; simp at hb; subst hb; rintro rfl; exact hup ha
                · intro a ha b hb; simp at hb; subst hb; rintro rfl
                  simp at ha
                  rcases ha with ha | ha
                  · exact hdn h3 ha
                  · omega
              · intro x
                simp only [List.mem_append, List.mem_singleton, hinv.mem]
                unfold absDiff; omega
              · simp; omega
              · exact ⟨t ++ [d + k] ++ [d - k], by rw [ht]; rfl⟩) (by omega)
            refine ⟨r, hr, hp, hsz, fun _ => hex ?_⟩
            simp; omega
          · simp only [if_neg h3]
            obtain ⟨r, hr, hp, hsz, hex⟩ := ih (k + 1) (l ++ [d + k]) (by omega) (by
              refine ⟨?_, ?_, ?_, ?_⟩
              · rw [List.nodup_append]
                refine ⟨hinv.nodup, by simp, ?_⟩
                intro a ha b hb; simp at hb; subst hb; rintro rfl; exact hup ha
              · intro x
                simp only [List.mem_append, List.mem_singleton, hinv.mem]
                unfold absDiff; omega
              · simp; omega
              · exact ⟨t ++ [d + k], by rw [ht]; rfl⟩) (by omega)
            refine ⟨r, hr, hp, hsz, fun _ => hex ?_⟩
            simp; omega
        · simp only [if_neg h2]
          refine ⟨_, log2DistanceLoop_done h2, ⟨?_, ?_, ?_, ?_⟩, by omega, fun _ => ?_⟩
          · rw [List.nodup_append]
            refine ⟨hinv.nodup, by simp, ?_⟩
            intro a ha b hb; simp at hb; subst hb; rintro rfl; exact hup ha
          · intro x hx
            simp only [List.mem_append, List.mem_singleton, hinv.mem] at hx
            omega
          · intro x hx hxl y hy
            simp only [List.mem_append, List.mem_singleton, hinv.mem] at hxl hy
            unfold absDiff at *; omega
          · exact ⟨t ++ [d + k], by rw [ht]; rfl⟩
          · simp at h2 ⊢; omega
      · simp only [if_neg h1, if_pos hlen]
        have h3 : k ≤ d := by omega
        simp only [if_pos h3]
        obtain ⟨r, hr, hp, hsz, hex⟩ := ih (k + 1) (l ++ [d - k]) (by omega) (by
          refine ⟨?_, ?_, ?_, ?_⟩
          · rw [List.nodup_append]
            refine ⟨hinv.nodup, by simp, ?_⟩
            intro a ha b hb; simp at hb; subst hb; rintro rfl; exact hdn h3 ha
          · intro x
            simp only [List.mem_append, List.mem_singleton, hinv.mem]
            unfold absDiff; omega
          · simp; omega
          · exact ⟨t ++ [d - k], by rw [ht]; rfl⟩) (by omega)
        refine ⟨r, hr, hp, hsz, fun _ => hex ?_⟩
        simp; omega
    · exact ⟨l, log2DistanceLoop_done hlen, hinv.post, by omega, by omega⟩

theorem loopInv_init (d : Nat) (hd : d ≤ 256) : LoopInv d 1 [d] := by
  refine ⟨by simp, ?_, by simp, ⟨[], rfl⟩⟩
  intro x
  simp only [List.mem_singleton]; unfold absDiff; omega

end Verif
