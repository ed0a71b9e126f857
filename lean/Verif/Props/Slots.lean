import Verif.Model.Semaphore

/-! # C47: transfer slots are never over-committed -/

namespace Verif.Props
open Verif.Slots

/-- Specification: the transfers in progress, from the history alone. A transfer is in progress from
a granted request until its end. `grants` says which requests were granted. -/
def active (d : Direction) : List (Op × Bool) → List Nat
  | [] => []
  | (.acquire d' t, granted) :: older =>
    if d' = d ∧ granted then t :: active d older else active d older
  | (.release d' t, _) :: older =>
    if d' = d then (active d older).erase t else active d older

/-- The history of a run, newest event first, with the answers given. -/
def history : State → List Op → List (Op × Bool) → List (Op × Bool)
  | _, [], h => h
  | s, o :: ops, h => history (step s o).1 ops ((o, (step s o).2) :: h)

def SlotInv (limit : Nat) (s : State) (h : List (Op × Bool)) : Prop :=
  ∀ d, (s.get d).held = active d h ∧ (s.get d).available + (s.get d).held.length = limit

theorem get_set (s : State) (d d' : Direction) (x : Sem) :
    (s.set d x).get d' = if d' = d then x else s.get d' := by
  cases d <;> cases d' <;> rfl

theorem slotInv_step {limit : Nat} {s : State} {h : List (Op × Bool)} (o : Op)
    (hi : SlotInv limit s h) : SlotInv limit (step s o).1 ((o, (step s o).2) :: h) := by
  intro d
  obtain ⟨hh, hc⟩ := hi d
  cases o with
  | acquire d' t =>
    simp only [step, get_set, active]
    by_cases hd : d = d'
    · subst hd
      simp only [if_true, Sem.acquire, true_and]
      by_cases h0 : (s.get d).available = 0
      · simp only [h0, if_true, Bool.false_eq_true, if_false]
        exact ⟨hh, by omega⟩
      · simp only [if_neg h0, if_true, List.length_cons, hh]
        rw [hh] at hc
        exact ⟨trivial, by omega⟩
    · have hd2 : ¬ (d' = d) := fun e => hd e.symm
      simp only [if_neg hd, hd2, false_and, if_false]
      exact ⟨hh, hc⟩
  | release d' t =>
    simp only [step, get_set, active]
    by_cases hd : d = d'
    · subst hd
      simp only [if_true, Sem.release]
      by_cases hm : t ∈ (s.get d).held
      · rw [if_pos hm]
        have hl := List.length_erase_of_mem hm
        have hpos : 0 < (s.get d).held.length := List.length_pos_of_mem hm
        simp only [hl, ← hh]
        exact ⟨trivial, by omega⟩
      · rw [if_neg hm]
        rw [hh] at hm
        rw [List.erase_of_not_mem hm]
        exact ⟨hh, hc⟩
    · have hd2 : ¬ (d' = d) := fun e => hd e.symm
      simp only [if_neg hd, if_neg hd2]
      exact ⟨hh, hc⟩

theorem slotInv_run (limit : Nat) : ∀ (ops : List Op) (s : State) (h : List (Op × Bool)),
    SlotInv limit s h → SlotInv limit (run s ops) (history s ops h)
  | [], _, _, hi => hi
  | o :: ops, _, _, hi => slotInv_run limit ops _ _ (slotInv_step o hi)

theorem slotInv_init (limit : Nat) : SlotInv limit (init limit) [] := by
  intro d; cases d <;> exact ⟨rfl, rfl⟩

/-- In every interleaving of acquisitions and ends of transfers, in both directions, at most `limit`
transfers are in progress in each direction. -/
theorem C47_never_over_limit (limit : Nat) (ops : List Op) (d : Direction) :
    (active d (history (init limit) ops [])).length ≤ limit := by
  have h := slotInv_run limit ops _ _ (slotInv_init limit) d
  rw [← h.1]; omega

/-- A slot is granted exactly when fewer than `limit` transfers are in progress in that direction: no
slot is ever lost, and the other direction plays no role. -/
theorem C47_granted_iff_free (limit : Nat) (ops : List Op) (d : Direction) (t : Nat) :
    (step (run (init limit) ops) (.acquire d t)).2 = true ↔
      (active d (history (init limit) ops [])).length < limit := by
  have h := slotInv_run limit ops _ _ (slotInv_init limit) d
  rw [← h.1]
  simp only [step, Sem.acquire]
  split <;> simp <;> omega

/-- When every transfer has ended, all slots are free again. -/
theorem C47_all_returned (limit : Nat) (ops : List Op) (d : Direction)
    (hidle : active d (history (init limit) ops []) = []) :
    ((run (init limit) ops).get d).available = limit := by
  have h := slotInv_run limit ops _ _ (slotInv_init limit) d
  rw [h.1, hidle] at h; simpa using h.2

/-- Ending a transfer frees exactly one slot, and ending it again frees nothing. -/
theorem C47_release_once (limit : Nat) (ops : List Op) (d : Direction) (t : Nat)
    (hact : (active d (history (init limit) ops [])).count t = 1) :
    let s := run (init limit) ops
    let s1 := (step s (.release d t)).1
    (s1.get d).available = (s.get d).available + 1 ∧ (step s1 (.release d t)).1.get d = s1.get d := by
  have h := slotInv_run limit ops _ _ (slotInv_init limit) d
  rw [← h.1] at hact
  have hm : t ∈ ((run (init limit) ops).get d).held := by
    apply List.count_pos_iff.mp; omega
  have hn : t ∉ ((run (init limit) ops).get d).held.erase t := by
    intro hc
    have := List.count_pos_iff.mpr hc
    rw [List.count_erase_self] at this; omega
  simp only [step, get_set, if_true, Sem.release, if_pos hm, if_neg hn]
  exact ⟨trivial, trivial⟩

-- two slots: the third request is refused, until one transfer ends; the other direction is free
example : (history (init 2)
    [.acquire .inbound 1, .acquire .inbound 2, .acquire .inbound 3, .acquire .outbound 9,
     .release .inbound 1, .acquire .inbound 4] []).map (·.2) = [true, true, true, false, true, true] := by
  decide
example : active .inbound (history (init 2)
    [.acquire .inbound 1, .acquire .inbound 2, .acquire .inbound 3,
     .release .inbound 1, .acquire .inbound 4] []) = [4, 2] := by decide
example : (active .inbound (history (init 2) [.acquire .inbound 1] [])).count 1 = 1 := by decide

end Verif.Props
