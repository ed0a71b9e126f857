import Verif.Model.Capacity

/-! # C25: splitting the storage capacity

`Active s` says that `s` is one of the three subnetworks with a store. -/

namespace Verif.Props
open Verif.Capacity

def Active (s : Subnetwork) : Prop := s = .legacyHistory ∨ s = .state ∨ s = .beacon

/-- Sum of the capacities handed out for a list of subnetworks; `none` if one of them is refused. -/
def sumCapacity (cfg : Config) : List Subnetwork → Option Nat
  | [] => some 0
  | s :: ss =>
    match create cfg s, sumCapacity cfg ss with
    | .ok c, some t => some (c + t)
    | _, _ => none

/-- Weight as a plain number (legacy history and state 1, all others 0). -/
def weightOf (s : Subnetwork) : Nat := if s = .legacyHistory ∨ s = .state then 1 else 0

theorem capacityWeight_active {s : Subnetwork} (h : Active s) :
    capacityWeight s = .ok (weightOf s) := by
  rcases h with rfl | rfl | rfl <;> rfl

def weightSum : List Subnetwork → Nat
  | [] => 0
  | s :: ss => weightOf s + weightSum ss

theorem totalWeight_active {ss : List Subnetwork} (h : ∀ s ∈ ss, Active s) :
    totalWeight ss = .ok (weightSum ss) := by
  induction ss with
  | nil => rfl
  | cons s ss ih =>
    unfold totalWeight
    rw [capacityWeight_active (h s (by simp)), ih (fun t ht => h t (by simp [ht]))]
    rfl

theorem create_active {total : Nat} {subs : List Subnetwork} (h : ∀ s ∈ subs, Active s)
    {s : Subnetwork} (hs : s ∈ subs) :
    create (.combined total subs) s =
      .ok (if weightSum subs = 0 then 0 else bytesInMb * total * weightOf s / weightSum subs) := by
  unfold create
  have : (subs.contains s) = true := by simpa using hs
  simp only [this, Bool.not_true, Bool.false_eq_true, if_false]
  rw [capacityWeight_active (h s hs), totalWeight_active h]
  simp only
  split <;> rfl

/-- Every enabled subnetwork gets a capacity; the capacities of the enabled subnetworks add up to at
most the configured total, and when a weighted subnetwork is enabled, to more than the total minus
one byte for each enabled one. -/
theorem C25_combined_total (total : Nat) (subs : List Subnetwork) (h : ∀ s ∈ subs, Active s) :
    ∃ sum, sumCapacity (.combined total subs) subs = some sum ∧ sum ≤ total * 1000000 ∧
      ((.legacyHistory ∈ subs ∨ .state ∈ subs) → total * 1000000 < sum + subs.length) := by
  -- general statement for a part `l` of the enabled list
  have key : ∀ l : List Subnetwork, (∀ s ∈ l, s ∈ subs) →
      ∃ sum, sumCapacity (.combined total subs) l = some sum ∧
        sum * weightSum subs ≤ bytesInMb * total * weightSum l ∧
        (0 < weightSum subs → bytesInMb * total * weightSum l ≤
          sum * weightSum subs + l.length * (weightSum subs - 1)) := by
    intro l
    induction l with
    | nil => intro _; exact ⟨0, rfl, by simp, by simp [weightSum]⟩
    | cons s l ih =>
      intro hl
      obtain ⟨t, ht, h1, h2⟩ := ih (fun x hx => hl x (by simp [hx]))
      refine ⟨_, by unfold sumCapacity; rw [create_active h (hl s (by simp)), ht], ?_, ?_⟩
      · by_cases hw : weightSum subs = 0
        · rw [hw]; simp
        · rw [if_neg hw, Nat.add_mul]
          rw [show weightSum (s :: l) = weightOf s + weightSum l from rfl, Nat.mul_add]
          have := Nat.div_mul_le_self (bytesInMb * total * weightOf s) (weightSum subs)
          omega
      · intro hw
        rw [if_neg (by omega), Nat.add_mul]
        rw [show weightSum (s :: l) = weightOf s + weightSum l from rfl, Nat.mul_add]
        have h3 := h2 hw
        have hdm := Nat.div_add_mod (bytesInMb * total * weightOf s) (weightSum subs)
        have hm := Nat.mod_lt (bytesInMb * total * weightOf s) hw
        rw [Nat.mul_comm] at hdm
        simp only [List.length_cons, Nat.add_mul, Nat.one_mul]
        omega
  obtain ⟨sum, hs, h1, h2⟩ := key subs (fun _ hx => hx)
  refine ⟨sum, hs, ?_, ?_⟩
  · by_cases hw : weightSum subs = 0
    · -- nothing weighted is enabled: every capacity is 0
      have : ∀ l : List Subnetwork, (∀ s ∈ l, s ∈ subs) →
          sumCapacity (.combined total subs) l = some 0 := by
        intro l
        induction l with
        | nil => intro _; rfl
        | cons s l ih =>
          intro hl
          unfold sumCapacity
          rw [create_active h (hl s (by simp)), ih (fun x hx => hl x (by simp [hx])), if_pos hw]
      rw [this subs (fun _ hx => hx)] at hs
      cases hs
      omega
    · have hb : bytesInMb = 1000000 := rfl
      have := Nat.le_of_mul_le_mul_right h1 (by omega)
      rw [hb, Nat.mul_comm] at this
      exact this
  · intro hen
    have hw : 0 < weightSum subs := by
      have : ∀ l : List Subnetwork, (.legacyHistory ∈ l ∨ .state ∈ l) → 0 < weightSum l := by
        intro l
        induction l with
        | nil => simp
        | cons x l ih =>
          intro hx
          unfold weightSum
          simp only [List.mem_cons] at hx
          rcases hx with (h' | h') | (h' | h')
          · rw [← h']; simp [weightOf]; omega
          · have := ih (Or.inl h'); omega
          · rw [← h']; simp [weightOf]; omega
          · have := ih (Or.inr h'); omega
      exact this subs hen
    have hlen : 0 < subs.length := by
      rcases hen with h' | h' <;> exact List.length_pos_of_mem h'
    have h3 := h2 hw
    have hb : bytesInMb = 1000000 := rfl
    apply Classical.byContradiction
    intro hcon
    have hle : sum + subs.length ≤ bytesInMb * total := by rw [hb]; omega
    have h4 := Nat.mul_le_mul_right (weightSum subs) hle
    rw [Nat.add_mul] at h4
    have h5 : subs.length * (weightSum subs - 1) < subs.length * weightSum subs :=
      Nat.mul_lt_mul_of_pos_left (by omega) hlen
    omega

/-- Equally weighted subnetworks get equal shares, whatever else is enabled. -/
theorem C25_equal_shares (total : Nat) (subs : List Subnetwork)
    (h1 : .legacyHistory ∈ subs) (h2 : .state ∈ subs) :
    create (.combined total subs) .legacyHistory = create (.combined total subs) .state := by
  unfold create
  have e1 : subs.contains .legacyHistory = true := by simpa using h1
  have e2 : subs.contains .state = true := by simpa using h2
  simp only [e1, e2, Bool.not_true, Bool.false_eq_true, if_false]
  rfl

/-- A subnetwork that is not enabled is refused. -/
theorem C25_not_enabled (total : Nat) (subs : List Subnetwork) (s : Subnetwork) (h : s ∉ subs) :
    create (.combined total subs) s = .error .refused := by
  unfold create
  have : subs.contains s = false := by simpa using h
  simp only [this, Bool.not_false, if_true]

/-- With explicit limits each subnetwork gets its own limit, and one without a limit (or without a
store) is refused. -/
theorem C25_specific (b l s : Option Nat) (sub : Subnetwork) (c : Nat) :
    create (.specific b l s) sub = .ok c ↔
      ∃ mb, c = mb * 1000000 ∧ ((sub = .beacon ∧ b = some mb) ∨
        (sub = .legacyHistory ∧ l = some mb) ∨ (sub = .state ∧ s = some mb)) := by
  have hb : bytesInMb = 1000000 := rfl
  cases sub <;> cases b <;> cases l <;> cases s <;>
    simp [create, hb, eq_comm]

theorem C25_specific_refused (b l s : Option Nat) (sub : Subnetwork) :
    create (.specific b l s) sub = .error .refused ↔
      ¬ ∃ c, create (.specific b l s) sub = .ok c := by
  cases sub <;> cases b <;> cases l <;> cases s <;> simp [create]

/-- Enabling a subnetwork that has no store makes every other combined allocation panic: the weight
table has no entry for it. (The command line refuses such lists earlier.) -/
theorem C25_inactive_panics (total : Nat) :
    create (.combined total [.legacyHistory, .history]) .legacyHistory = .error .panic := rfl

example : (∀ s ∈ [Subnetwork.legacyHistory, .state, .beacon], Active s) ∧
    sumCapacity (.combined 3 [.legacyHistory, .state, .beacon]) [.legacyHistory, .state, .beacon] =
      some 3000000 := by
  refine ⟨by simp [Active], by decide⟩

end Verif.Props
