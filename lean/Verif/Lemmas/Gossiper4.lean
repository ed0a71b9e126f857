import Verif.Lemmas.Gossiper3

/-! # The gossiper comes to an end -/

namespace Verif.Gossiper
open Verif.Props.GossiperLife
open Verif.Census (OfferTrace)

variable {h f : Nat} {evs : List Event} {s s' : State} {log : Log} {fx : List Effect}

def taskWork (m : Nat) (t : Task) : Nat :=
  (match t.waiting with
    | none => 2 * m + 1
    | some w => 2 * w.length) + t.flying.length

def stageWork (m n : Nat) : Stage → Nat
  | .headers => 3 + n * (2 * m + 1)
  | .resting _ => 2 + n * (2 * m + 1)
  | .contents => 1
  | _ => 0

def jobWork (m : Nat) (job : Job) : Nat :=
  (job.tasks.map (taskWork m)).sum + stageWork m job.contents.length job.stage

def work (m : Nat) (s : State) : Nat := (s.jobs.map (jobWork m)).sum

theorem work_task (m : Nat) {j i : Nat} {job : Job} {t t' : Task} (hj : s.jobs[j]? = some job)
    (ht : job.tasks[i]? = some t) (hlt : taskWork m t' < taskWork m t) (hjobs : s'.jobs =
      s.jobs.set j { job with tasks := job.tasks.set i t' }) : work m s' < work m s := by
  have h1 := sum_set (jobWork m) s.jobs j job { job with tasks := job.tasks.set i t' } hj
  have h2 := sum_set (taskWork m) job.tasks i t t' ht
  have h3 : jobWork m job = (job.tasks.map (taskWork m)).sum + stageWork m job.contents.length job.stage := rfl
  have h4 : jobWork m { job with tasks := job.tasks.set i t' }
      = ((job.tasks.set i t').map (taskWork m)).sum + stageWork m job.contents.length job.stage := rfl
  have h5 : work m s' = ((s.jobs.set j { job with tasks := job.tasks.set i t' }).map (jobWork m)).sum := by
    unfold work; rw [hjobs]
  have h6 : work m s = (s.jobs.map (jobWork m)).sum := rfl
  omega

theorem work_job (m : Nat) {j : Nat} {job job' : Job} (hj : s.jobs[j]? = some job)
    (hlt : jobWork m job' < jobWork m job) : work m (s.setJob j job') < work m s := by
  have h1 := sum_set (jobWork m) s.jobs j job job' hj
  have h5 : work m (s.setJob j job') = ((s.jobs.set j job').map (jobWork m)).sum := rfl
  have h6 : work m s = (s.jobs.map (jobWork m)).sum := rfl
  omega

theorem contentTasks_work (m : Nat) (p : Pool) (items : List Item) :
    ((contentTasks p items).map (taskWork m)).sum = items.length * (2 * m + 1) := by
  induction items with
  | nil => simp [contentTasks]
  | cons a l ih =>
    simp only [contentTasks, List.map_cons, List.sum_cons, List.length_cons] at ih ⊢
    rw [ih, Nat.add_mul l.length 1]
    simp only [taskWork, Task.new, List.length_nil]
    omega

/-- Every move takes some of the work away. -/
theorem step_work (m : Nat) {e : Event} (hs : step s e = some (s', fx)) (hw : Works m e = true) :
    (if isMove e then 1 else 0) + work m s' ≤ work m s := by
  cases e with
  | bundle b => cases hw
  | final b => cases hw
  | tick d =>
    simp only [Gossiper.step, Option.some.injEq, Prod.mk.injEq] at hs
    obtain ⟨rfl, rfl⟩ := hs
    simp [isMove, work]
  | choose j i ps =>
    simp only [isMove, if_true]
    simp only [Gossiper.step, chooseStep] at hs
    split at hs
    · cases hs
    · rename_i t ht
      obtain ⟨job, hj, hi⟩ := task_some ht
      split at hs
      · rename_i hwait
        rw [setTask_some hj] at hs
        simp only [Option.some.injEq, Prod.mk.injEq] at hs
        obtain ⟨rfl, rfl⟩ := hs
        have hlen : (ps.getD []).length ≤ m := by
          cases ps with
          | none => simp
          | some l => simpa [Works] using hw
        rw [Nat.add_comm]
        exact work_task m hj hi (t' := { t with waiting := some (ps.getD []) })
          (by simp only [taskWork, hwait]; omega) rfl
      · cases hs
  | send j i =>
    simp only [isMove, if_true]
    simp only [Gossiper.step, sendStep] at hs
    split at hs
    · cases hs
    · rename_i t ht
      obtain ⟨job, hj, hi⟩ := task_some ht
      split at hs
      · rename_i p w hwait
        split at hs
        · cases hs
        · rw [take_free] at hs
          rw [setTask_some (s := ⟨s.clock, s.headFree - (if t.pool = .head then 1 else 0),
            s.finalFree - (if t.pool = .final then 1 else 0), s.jobs⟩) hj] at hs
          simp only [Option.some.injEq, Prod.mk.injEq] at hs
          obtain ⟨rfl, rfl⟩ := hs
          rw [Nat.add_comm]
          exact work_task m hj hi (t' := { t with waiting := some w, flying := t.flying ++ [(p, s.clock)] })
            (by simp only [taskWork, hwait, List.length_cons, List.length_append, List.length_nil]; omega) rfl
      · cases hs
  | finish j i k r =>
    simp only [isMove, if_true]
    simp only [Gossiper.step, finishStep] at hs
    split at hs
    · cases hs
    · rename_i t ht
      obtain ⟨job, hj, hi⟩ := task_some ht
      split at hs
      · cases hs
      · rename_i p since hk
        split at hs
        · cases hs
        · rw [give_free] at hs
          rw [setTask_some (s := ⟨s.clock, s.headFree + (if t.pool = .head then 1 else 0),
            s.finalFree + (if t.pool = .final then 1 else 0), s.jobs⟩) hj] at hs
          simp only [Option.some.injEq, Prod.mk.injEq] at hs
          obtain ⟨rfl, rfl⟩ := hs
          have hlen : (t.flying.eraseIdx k).length + 1 = t.flying.length := by
            have := (perm_eraseIdx _ _ _ hk).length_eq
            simpa using this
          rw [Nat.add_comm]
          exact work_task m hj hi (t' := { t with flying := t.flying.eraseIdx k })
            (by simp only [taskWork]; omega) rfl
  | rest j =>
    simp only [isMove, if_true]
    simp only [Gossiper.step, restStep] at hs
    split at hs
    · cases hs
    · rename_i job hj
      split at hs
      · rename_i hcond
        simp only [Option.some.injEq, Prod.mk.injEq] at hs
        obtain ⟨rfl, rfl⟩ := hs
        have := work_job m hj (job' := { job with stage := .resting s.clock })
          (by simp only [jobWork, hcond.1, stageWork]; omega)
        omega
      · cases hs
  | wake j =>
    simp only [isMove, if_true]
    simp only [Gossiper.step, wakeStep] at hs
    split at hs
    · cases hs
    · rename_i job hj
      split at hs
      · rename_i since hst
        split at hs
        · simp only [Option.some.injEq, Prod.mk.injEq] at hs
          obtain ⟨rfl, rfl⟩ := hs
          have := work_job m hj
            (job' := { job with stage := .contents, tasks := contentTasks .head job.contents })
            (by simp only [jobWork, hst, stageWork, contentTasks_work]; omega)
          omega
        · cases hs
      · cases hs
  | close j =>
    simp only [isMove, if_true]
    simp only [Gossiper.step, closeStep] at hs
    split at hs
    · cases hs
    · rename_i job hj
      split at hs
      · rename_i hcond
        simp only [Option.some.injEq, Prod.mk.injEq] at hs
        obtain ⟨rfl, rfl⟩ := hs
        have := work_job m hj (job' := { job with stage := .done })
          (by simp only [jobWork, hcond.1, stageWork]; omega)
        omega
      · cases hs

theorem run_work (m : Nat) : ∀ (evs : List Event) (s s' : State) (log : Log),
    run s evs = some (s', log) → (∀ e ∈ evs, Works m e = true) →
      evs.countP isMove + work m s' ≤ work m s
  | [], s, s', log, hr, _ => by
    simp only [run, Option.some.injEq, Prod.mk.injEq] at hr
    rw [hr.1]; simp
  | e :: es, s, s', log, hr, hw => by
    simp only [run] at hr
    cases hs : step s e with
    | none => simp [hs] at hr
    | some r =>
      simp only [hs] at hr
      cases hq : run r.1 es with
      | none => simp [hq] at hr
      | some q =>
        simp only [hq, Option.some.injEq, Prod.mk.injEq] at hr
        obtain ⟨rfl, -⟩ := hr
        have h1 := step_work m (s' := r.1) (fx := r.2) hs (hw e (by simp))
        have h2 := run_work m es r.1 q.1 q.2 hq (fun e he => hw e (by simp [he]))
        rw [List.countP_cons]
        omega

/-- An offer that is under way can end. -/
theorem can_finish {j i : Nat} {job : Job} {t : Task} (hj : s.jobs[j]? = some job)
    (hi : job.tasks[i]? = some t) (hf : t.flying ≠ []) : ∃ r, step s (.finish j i 0 .error) = some r := by
  cases hfl : t.flying with
  | nil => exact absurd hfl hf
  | cons p ps =>
    simp [Gossiper.step, finishStep, State.task, hj, hi, hfl]

/-- Unless everything is over there is something to do. -/
theorem Inv.progress (I : Inv h f evs s log) (hh : 0 < h) (hfp : 0 < f) {j : Nat} {job : Job}
    (hj : s.jobs[j]? = some job) (hn : ¬ JobOver job) :
    ∃ d e, isMove e = true ∧ Works 0 e = true ∧
      ∃ r, Gossiper.step { s with clock := s.clock + d } e = some r := by
  by_cases hall : ∀ t ∈ job.tasks, t.isDone = true
  · cases hst : job.stage with
    | headers =>
      refine ⟨0, .rest j, rfl, rfl, ?_⟩
      have : job.tasks.all Task.isDone = true := List.all_eq_true.mpr hall
      simp [Gossiper.step, restStep, hj, hst, this]
    | resting n =>
      refine ⟨n + headerSaturationDelay, .wake j, rfl, rfl, ?_⟩
      simp only [Gossiper.step, wakeStep, hj, hst]
      rw [if_pos (by omega)]
      exact ⟨_, rfl⟩
    | contents =>
      refine ⟨0, .close j, rfl, rfl, ?_⟩
      have : job.tasks.all Task.isDone = true := List.all_eq_true.mpr hall
      simp [Gossiper.step, closeStep, hj, hst, this]
    | done => exact absurd (.inl hst) hn
    | aborted =>
      exact absurd (.inr ⟨hst, fun t ht => (isDone_iff t).mp (hall t ht)⟩) hn
  · have : ∃ t, t ∈ job.tasks ∧ ¬ t.isDone = true := by
      apply Classical.byContradiction
      intro hc
      exact hall fun t ht => Classical.byContradiction fun hd => hc ⟨t, ht, hd⟩
    obtain ⟨t, ht, hnd⟩ := this
    obtain ⟨i, hi⟩ := List.mem_iff_getElem?.mp ht
    cases hw : t.waiting with
    | none =>
      refine ⟨0, .choose j i none, rfl, rfl, ?_⟩
      simp [Gossiper.step, chooseStep, State.task, hj, hi, hw]
    | some w =>
      cases w with
      | nil =>
        refine ⟨0, .finish j i 0 .error, rfl, rfl, can_finish hj hi ?_⟩
        intro h0
        exact hnd ((isDone_iff t).mpr ⟨hw, h0⟩)
      | cons p w =>
        by_cases hfree : s.free t.pool = 0
        · have hpos : 0 < flights t.pool s := by
            have g1 := I.headFl
            have g2 := I.finalFl
            cases hp : t.pool <;> rw [hp] at hfree <;> simp only [State.free] at hfree <;> omega
          obtain ⟨j', job', hj', hp⟩ := sum_pos _ _ hpos
          obtain ⟨i', t', hi', hp'⟩ := sum_pos _ _ hp
          refine ⟨0, .finish j' i' 0 .error, rfl, rfl, can_finish hj' hi' ?_⟩
          intro h0
          simp [taskFlights, h0] at hp'
        · refine ⟨0, .send j i, rfl, rfl, ?_⟩
          have : ({ s with clock := s.clock + 0 } : State).free t.pool = s.free t.pool := by
            cases t.pool <;> rfl
          simp [Gossiper.step, sendStep, State.task, hj, hi, hw, hfree]

/-- Some schedule ends everything. -/
theorem can_end (hh : 0 < h) (hfp : 0 < f) : ∀ (n : Nat) (evs : List Event) (s : State) (log : Log),
    run (State.new h f) evs = some (s, log) → work 0 s ≤ n →
      ∃ evs' s' log', (∀ e ∈ evs', Works 0 e = true) ∧ run s evs' = some (s', log') ∧
        ∀ job ∈ s'.jobs, JobOver job := by
  intro n
  induction n with
  | zero =>
    intro evs s log hr hw
    refine ⟨[], s, [], by simp, rfl, ?_⟩
    intro job hjob
    apply Classical.byContradiction
    intro hn
    obtain ⟨j, hj⟩ := List.mem_iff_getElem?.mp hjob
    obtain ⟨d, e, h1, h2, r, h3⟩ := (run_inv hr).progress hh hfp hj hn
    have := step_work 0 (s' := r.1) (fx := r.2) h3 h2
    rw [h1] at this
    have h4 : work 0 { s with clock := s.clock + d } = work 0 s := rfl
    simp only [if_true] at this
    omega
  | succ n ih =>
    intro evs s log hr hw
    by_cases hover : ∀ job ∈ s.jobs, JobOver job
    · exact ⟨[], s, [], by simp, rfl, hover⟩
    · have : ∃ job, job ∈ s.jobs ∧ ¬ JobOver job := by
        apply Classical.byContradiction
        intro hc
        exact hover fun t ht => Classical.byContradiction fun hd => hc ⟨t, ht, hd⟩
      obtain ⟨job, hjob, hn⟩ := this
      obtain ⟨j, hj⟩ := List.mem_iff_getElem?.mp hjob
      obtain ⟨d, e, h1, h2, r, h3⟩ := (run_inv hr).progress hh hfp hj hn
      have hwk := step_work 0 (s' := r.1) (fx := r.2) h3 h2
      rw [h1] at hwk
      have h4 : work 0 { s with clock := s.clock + d } = work 0 s := rfl
      simp only [if_true] at hwk
      have htwo : run s [.tick d, e] = some (r.1, r.2.map (fun x => (s.clock + d, x))) := by
        simp [run, Gossiper.step.eq_def s (.tick d), h3]
      have hr' : run (State.new h f) (evs ++ [.tick d, e])
          = some (r.1, log ++ r.2.map (fun x => (s.clock + d, x))) := by
        rw [run_append, hr]
        simp only [htwo]
      obtain ⟨evs', s', log', g1, g2, g3⟩ := ih _ _ _ hr' (by omega)
      refine ⟨[.tick d, e] ++ evs', s', r.2.map (fun x => (s.clock + d, x)) ++ log', ?_, ?_, g3⟩
      · intro x hx
        rcases List.mem_append.mp hx with hx | hx
        · rcases List.mem_cons.mp hx with rfl | hx
          · rfl
          · rw [List.mem_singleton] at hx; rw [hx]; exact h2
        · exact g1 x hx
      · rw [run_append, htwo]
        simp only [g2]

/-! ## No permits -/

theorem no_permit (hr : run (State.new h 0) evs = some (s, log)) :
    ∀ τ u p items, (τ, Effect.offer u p items) ∈ log → isFinal evs u.job = false := by
  have key : ∀ evs s log, run (State.new h 0) evs = some (s, log) → Inv h 0 evs s log ∧ s.finalFree = 0 ∧
      ∀ τ u p items, (τ, Effect.offer u p items) ∈ log → isFinal evs u.job = false := by
    apply run_ind (P := fun evs s log => Inv h 0 evs s log ∧ s.finalFree = 0 ∧
      ∀ τ u p items, (τ, Effect.offer u p items) ∈ log → isFinal evs u.job = false)
    · exact ⟨Inv.init h 0, rfl, by intro τ u p items hx; cases hx⟩
    · intro evs s log e s' fx hr ⟨I, h0, hno⟩ hs
      have I' := I.step hs
      refine ⟨I', ?_, ?_⟩
      · have := I'.finalFl; omega
      · intro τ u p items hx
        rcases List.mem_append.mp hx with hx | hx
        · have h1 := hno τ u p items hx
          have hlt := I.known hx (u := u) rfl
          unfold isFinal at h1 ⊢
          rw [calls_append, List.getElem?_append_left hlt]
          exact h1
        · obtain ⟨x, hx1, hx2⟩ := List.mem_map.mp hx
          simp only [Prod.mk.injEq] at hx2
          obtain ⟨-, rfl⟩ := hx2
          cases e with
          | bundle b =>
            simp only [Gossiper.step, Option.some.injEq, Prod.mk.injEq] at hs
            rw [← hs.2] at hx1
            cases hx1
          | final b =>
            simp only [Gossiper.step, Option.some.injEq, Prod.mk.injEq] at hs
            rw [← hs.2] at hx1
            cases hx1
          | tick b =>
            simp only [Gossiper.step, Option.some.injEq, Prod.mk.injEq] at hs
            rw [← hs.2] at hx1
            cases hx1
          | choose j i ps =>
            simp only [Gossiper.step, chooseStep] at hs
            split at hs
            · cases hs
            · split at hs
              · simp only [Option.some.injEq, Prod.mk.injEq] at hs
                rw [← hs.2] at hx1
                simp at hx1
              · cases hs
          | send j i =>
            simp only [Gossiper.step, sendStep] at hs
            split at hs
            · cases hs
            · rename_i t ht
              split at hs
              · split at hs
                · cases hs
                · rename_i hfree
                  simp only [Option.some.injEq, Prod.mk.injEq] at hs
                  rw [← hs.2] at hx1
                  simp only [List.mem_singleton, Effect.offer.injEq] at hx1
                  obtain ⟨job, hj, hi⟩ := task_some ht
                  obtain ⟨c, hc, hsh⟩ := I.shape j job hj
                  have hp := hsh.pool hi
                  have hpool : t.pool ≠ .final := by
                    intro h1; rw [h1] at hfree; exact hfree h0
                  have hc' : (calls (evs ++ [Event.send j i]))[u.job]? = some c := by
                    rw [calls_none rfl, hx1.1]; exact hc
                  rw [(isBundle_iff hc').2, ← hp]
                  simpa using hpool
              · cases hs
          | finish j i k r =>
            simp only [Gossiper.step, finishStep] at hs
            split at hs
            · cases hs
            · split at hs
              · cases hs
              · split at hs
                · cases hs
                · simp only [Option.some.injEq, Prod.mk.injEq] at hs
                  rw [← hs.2] at hx1
                  rcases List.mem_cons.mp hx1 with h1 | h1
                  · cases h1
                  · split at h1
                    · cases h1
                    · simp at h1
          | rest j =>
            simp only [Gossiper.step, restStep] at hs
            split at hs
            · cases hs
            · split at hs
              · simp only [Option.some.injEq, Prod.mk.injEq] at hs
                rw [← hs.2] at hx1
                simp at hx1
              · cases hs
          | wake j =>
            simp only [Gossiper.step, wakeStep] at hs
            split at hs
            · cases hs
            · split at hs
              · split at hs
                · simp only [Option.some.injEq, Prod.mk.injEq] at hs
                  rw [← hs.2] at hx1
                  simp at hx1
                · cases hs
              · cases hs
          | close j =>
            simp only [Gossiper.step, closeStep] at hs
            split at hs
            · cases hs
            · split at hs
              · simp only [Option.some.injEq, Prod.mk.injEq] at hs
                rw [← hs.2] at hx1
                simp at hx1
              · cases hs
  exact (key evs s log hr).2.2

end Verif.Gossiper
