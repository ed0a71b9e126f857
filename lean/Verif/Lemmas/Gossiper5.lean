import Verif.Lemmas.Gossiper4

/-! # Times of offers -/

namespace Verif.Gossiper
open Verif Verif.Props.GossiperLife

theorem elapsed_append (a b : List Event) : elapsed (a ++ b) = elapsed a + elapsed b := by
  induction a with
  | nil => simp [elapsed]
  | cons e es ih => cases e <;> simp [elapsed, ih, Nat.add_assoc]

/-- Every offer that is under way was sent at the time noted in the task. -/
structure Timed (evs : List Event) (s : State) (log : Log) : Prop where
  clock : s.clock = elapsed evs
  flying : ∀ (j i : Nat) (t : Task), s.task j i = some t → ∀ p since, (p, since) ∈ t.flying →
    since ≤ s.clock ∧ ∃ items, (since, Effect.offer ⟨j, t.series, i⟩ p items) ∈ log

theorem task_setTask {s : State} {j i : Nat} {t' : Task} {j' i' : Nat} {u : Task}
    (h : (s.setTask j i t').task j' i' = some u) : (j' = j ∧ i' = i ∧ u = t') ∨ s.task j' i' = some u := by
  unfold State.setTask at h
  split at h
  · exact .inr h
  · next job hj =>
    simp only [State.task] at h ⊢
    by_cases e : j = j'
    · subst e
      rw [List.getElem?_set_self (List.getElem?_eq_some_iff.mp hj).1] at h
      simp only at h
      rw [hj]
      simp only
      by_cases e' : i = i'
      · subst e'
        rw [List.getElem?_set] at h
        split at h
        · split at h
          · exact .inl ⟨trivial, rfl, (Option.some.inj h).symm⟩
          · cases h
        · exact .inr h
      · rw [List.getElem?_set_ne e'] at h
        exact .inr h
    · rw [List.getElem?_set_ne e] at h
      exact .inr h

theorem setTask_clock (s : State) (j i : Nat) (t : Task) : (s.setTask j i t).clock = s.clock := by
  unfold State.setTask; split <;> rfl

theorem take_clock (s : State) (p : Pool) : (s.take p).clock = s.clock := by cases p <;> rfl
theorem give_clock (s : State) (p : Pool) : (s.give p).clock = s.clock := by cases p <;> rfl
theorem take_task (s : State) (p : Pool) (j i : Nat) : (s.take p).task j i = s.task j i := by cases p <;> rfl
theorem give_task (s : State) (p : Pool) (j i : Nat) : (s.give p).task j i = s.task j i := by cases p <;> rfl

theorem Timed.step {evs : List Event} {s : State} {log : Log} (T : Timed evs s log) {e : Event} {s' : State} {fx : List Effect}
    (h : Gossiper.step s e = some (s', fx)) :
    Timed (evs ++ [e]) s' (log ++ fx.map (fun x => (s.clock, x))) := by
  have grow : ∀ j i (t : Task) p since, s.task j i = some t → (p, since) ∈ t.flying →
      since ≤ s.clock ∧ ∃ items, (since, Effect.offer ⟨j, t.series, i⟩ p items) ∈ log ++ fx.map (fun x => (s.clock, x)) := by
    intro j i t p since ht hp
    obtain ⟨h1, items, h2⟩ := T.flying j i t ht p since hp
    exact ⟨h1, items, List.mem_append_left _ h2⟩
  have fresh : ∀ (job : Job), (∀ t ∈ job.tasks, t.flying = []) → ∀ j i (t : Task),
      ({ s with jobs := s.jobs ++ [job] } : State).task j i = some t → s.task j i = some t ∨ t.flying = [] := by
    intro job hjob j i t ht
    simp only [State.task] at ht ⊢
    rcases Nat.lt_trichotomy j s.jobs.length with hlt | heq | hgt
    · rw [List.getElem?_append_left hlt] at ht; exact .inl ht
    · subst heq
      rw [List.getElem?_append_right (Nat.le_refl _), Nat.sub_self] at ht
      simp only [List.getElem?_cons_zero] at ht
      exact .inr (hjob t (List.mem_of_getElem? ht))
    · rw [List.getElem?_eq_none (by simp; omega)] at ht
      cases ht
  have set : ∀ (job' : Job) (job : Job) (j0 : Nat), s.jobs[j0]? = some job →
      (∀ (i : Nat) (t : Task), job'.tasks[i]? = some t → job.tasks[i]? = some t ∨ t.flying = []) → ∀ j i (t : Task),
      (s.setJob j0 job').task j i = some t → s.task j i = some t ∨ t.flying = [] := by
    intro job' job j0 hj hjob j i t ht
    simp only [State.task, State.setJob] at ht ⊢
    by_cases e : j0 = j
    · subst e
      rw [List.getElem?_set_self (List.getElem?_eq_some_iff.mp hj).1] at ht
      rw [hj]
      exact hjob i t ht
    · rw [List.getElem?_set_ne e] at ht
      exact .inl ht
  have close : s'.clock = s.clock → (∀ j i (t : Task), s'.task j i = some t → s.task j i = some t ∨ t.flying = []) →
      elapsed [e] = 0 → Timed (evs ++ [e]) s' (log ++ fx.map (fun x => (s.clock, x))) := by
    intro hc ht he
    refine ⟨by rw [hc, T.clock, elapsed_append, he, Nat.add_zero], ?_⟩
    intro j i t h1 p since hp
    rw [hc]
    rcases ht j i t h1 with h2 | h2
    · exact grow j i t p since h2 hp
    · rw [h2] at hp; cases hp
  cases e with
  | bundle blocks =>
    cases h
    exact close rfl (fresh _ (by simp [bundleJob, Task.new])) rfl
  | final blocks =>
    cases h
    refine close rfl (fresh _ ?_) rfl
    unfold finalJob
    split
    · simp
    · simp [contentTasks, Task.new]
  | choose j i peers =>
    simp only [Gossiper.step, chooseStep] at h
    split at h
    · cases h
    next t ht =>
    split at h
    · next hw =>
      cases h
      refine ⟨by rw [setTask_clock, T.clock, elapsed_append]; rfl, ?_⟩
      intro j' i' u hu p since hp
      rw [setTask_clock]
      rcases task_setTask hu with ⟨rfl, rfl, rfl⟩ | hu
      · exact grow _ _ t p since ht hp
      · exact grow _ _ u p since hu hp
    · cases h
  | send j i =>
    simp only [Gossiper.step, sendStep] at h
    split at h
    · cases h
    next t ht =>
    split at h
    · split at h
      · cases h
      cases h
      refine ⟨by rw [setTask_clock, take_clock, T.clock, elapsed_append]; rfl, ?_⟩
      intro j' i' u hu p since hp
      rw [setTask_clock, take_clock]
      rcases task_setTask hu with ⟨rfl, rfl, rfl⟩ | hu
      · simp only [List.mem_append, List.mem_singleton] at hp
        rcases hp with hp | hp
        · exact grow _ _ t p since ht hp
        · cases hp
          exact ⟨Nat.le_refl _, t.items, by simp⟩
      · rw [take_task] at hu
        exact grow _ _ u p since hu hp
    · cases h
  | finish j i k reply =>
    simp only [Gossiper.step, finishStep] at h
    split at h
    · cases h
    next t ht =>
    split at h
    · cases h
    split at h
    · cases h
    cases h
    refine ⟨by rw [setTask_clock, give_clock, T.clock, elapsed_append]; rfl, ?_⟩
    intro j' i' u hu p since hp
    rw [setTask_clock, give_clock]
    rcases task_setTask hu with ⟨rfl, rfl, rfl⟩ | hu
    · exact grow _ _ t p since ht (List.mem_of_mem_eraseIdx hp)
    · rw [give_task] at hu
      exact grow _ _ u p since hu hp
  | rest j =>
    simp only [Gossiper.step, restStep] at h
    split at h
    · cases h
    next job hj =>
    split at h
    · cases h
      exact close rfl (set _ job j hj fun i t ht => .inl ht) rfl
    · cases h
  | wake j =>
    simp only [Gossiper.step, wakeStep] at h
    split at h
    · cases h
    next job hj =>
    split at h
    · split at h
      · cases h
        refine close rfl (set _ job j hj fun i t ht => .inr ?_) rfl
        have := List.mem_of_getElem? ht
        simp only [contentTasks, List.mem_map] at this
        obtain ⟨it, -, rfl⟩ := this
        rfl
      · cases h
    · cases h
  | close j =>
    simp only [Gossiper.step, closeStep] at h
    split at h
    · cases h
    next job hj =>
    split at h
    · cases h
      exact close rfl (set _ job j hj fun i t ht => .inl ht) rfl
    · cases h
  | tick d =>
    cases h
    refine ⟨by rw [elapsed_append, ← T.clock]; rfl, ?_⟩
    intro j i t ht p since hp
    have := grow j i t p since ht hp
    exact ⟨Nat.le_trans this.1 (Nat.le_add_right _ _), this.2⟩

theorem run_timed {h f : Nat} {evs : List Event} {s : State} {log : Log} (hr : run (State.new h f) evs = some (s, log)) :
    Timed evs s log :=
  run_ind (P := Timed) ⟨rfl, by intro j i t ht; simp [State.new, State.task] at ht⟩ (fun _ _ _ _ _ _ _ T hs => T.step hs) _ _ _ hr

/-- An offer that is not over belongs to a task of the present stage, and is noted there. -/
theorem Inv.underWay {h f : Nat} {evs : List Event} {s : State} {log : Log} (I : Inv h f evs s log) (u : Tid)
    (hu : (over u log).length < (offered u log).length) : ∃ t, s.task u.job u.task = some t ∧ t.series = u.series ∧ t.flying ≠ [] := by
  obtain ⟨j, b, i⟩ := u
  have hmem : ∃ x ∈ log, who x.2 = some (⟨j, b, i⟩ : Tid) := by
    apply Classical.byContradiction
    intro hc
    have : Silent ⟨j, b, i⟩ log := fun x hx hw => hc ⟨x, hx, hw⟩
    rw [offered_silent this] at hu
    simp at hu
  obtain ⟨x, hx, hw⟩ := hmem
  obtain ⟨job, hj, he⟩ := I.early x hx _ hw
  obtain ⟨c, items, hc, hri⟩ := I.mention x hx _ hw
  obtain ⟨c', hc', hsh⟩ := I.shape j job hj
  rw [hc] at hc'
  cases hc'
  simp only at hj hc he
  have key : ∃ t, job.tasks[i]? = some t ∧ t.series = b := by
    cases b with
    | false =>
      have hs := he rfl
      simp only [Right] at hri
      obtain ⟨it, h1, -⟩ := hri
      have h2 : (job.tasks.map sig)[i]? = some ([it], poolOf c, false) := by
        rw [hsh.sigs, hs]
        show ((itemsOf c).map fun i => ([i], poolOf c, false))[i]? = _
        rw [List.getElem?_map, itemsOf_get, h1]
        rfl
      rw [List.getElem?_map] at h2
      cases ht : job.tasks[i]? with
      | none => rw [ht] at h2; cases h2
      | some t => exact ⟨t, rfl, by rw [hsh.series ht, hs]⟩
    | true =>
      simp only [Right] at hri
      obtain ⟨rfl, blocks, rfl, -⟩ := hri
      cases hs : inSeries job.stage with
      | false =>
        exfalso
        obtain ⟨ps, -, h2, h3⟩ := I.past j job hj hs blocks hc
        rw [h2, h3.length_eq, List.length_map] at hu
        exact Nat.lt_irrefl _ hu
      | true =>
        have h2 := hsh.sigs
        rw [hs, if_pos rfl] at h2
        cases ht : job.tasks with
        | nil => rw [ht] at h2; cases h2
        | cons t ts => exact ⟨t, rfl, by rw [hsh.series (i := 0) (t := t) (by rw [ht]; rfl), hs]⟩
  obtain ⟨t, ht, hb⟩ := key
  refine ⟨t, by simp only [State.task, hj, ht], hb, ?_⟩
  intro hf
  have h1 := I.task j job i t hj ht
  rw [hb] at h1
  unfold TaskOk at h1
  split at h1
  · rw [h1.2.1] at hu; simp at hu
  · obtain ⟨ps, g, -, -, h3, h4⟩ := h1
    rw [hf, List.map_nil, List.append_nil] at h4
    rw [h3, h4.length_eq, List.length_map] at hu
    exact Nat.lt_irrefl _ hu

end Verif.Gossiper
