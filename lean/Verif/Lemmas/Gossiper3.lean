import Verif.Lemmas.Gossiper2

/-! # Every event keeps the invariant -/

namespace Verif.Gossiper
open Verif.Props.GossiperLife
open Verif.Census (OfferTrace)

variable {h f : Nat} {evs : List Event} {s s' : State} {log : Log} {fx : List Effect}

theorem task_some {j i : Nat} {t : Task} (ht : s.task j i = some t) :
    ∃ job, s.jobs[j]? = some job ∧ job.tasks[i]? = some t := by
  unfold State.task at ht
  split at ht
  · cases ht
  · rename_i job hj
    exact ⟨job, hj, ht⟩

theorem setTask_some {j i : Nat} {t : Task} {job : Job} (hj : s.jobs[j]? = some job) :
    s.setTask j i t = { s with jobs := s.jobs.set j { job with tasks := job.tasks.set i t } } := by
  unfold State.setTask
  rw [hj]

theorem Inv.bundle (I : Inv h f evs s log) (blocks : List Block) :
    Inv h f (evs ++ [.bundle blocks]) { s with jobs := s.jobs ++ [bundleJob blocks] } log := by
  refine I.call _ (.bundle blocks) _ rfl ?_ ?_ (fun _ => rfl) ?_
  · refine ⟨rfl, rfl, fun _ => ⟨_, rfl⟩, fun _ => trivial, ?_, ?_⟩
    · intro h; cases h
    · intro h; rcases h with ⟨n, h⟩ | h <;> cases h
  · intro t ht
    simp only [bundleJob, List.mem_singleton] at ht
    exact ⟨_, _, _, ht⟩
  · intro n h; cases h

theorem Inv.finalCall (I : Inv h f evs s log) (blocks : Option (List (Option Built))) :
    Inv h f (evs ++ [.final blocks]) { s with jobs := s.jobs ++ [finalJob blocks] } log := by
  have hstage : (finalJob blocks).stage = .contents ∨ (finalJob blocks).stage = .aborted := by
    cases blocks with
    | none => exact .inr rfl
    | some l =>
      simp only [finalJob]
      split
      · exact .inr rfl
      · exact .inl rfl
  have hser : inSeries (finalJob blocks).stage = false := by
    rcases hstage with h | h <;> rw [h] <;> rfl
  refine I.call _ (.final blocks) _ rfl ?_ ?_ ?_ ?_
  · refine ⟨?_, ?_, ?_, ?_, fun _ => ⟨_, rfl⟩, ?_⟩
    · cases blocks <;> rfl
    · rw [hser]
      cases blocks with
      | none => rfl
      | some l =>
        simp only [finalJob, contentTasks, List.map_map, itemsOf, poolOf]
        rfl
    · intro h1; rw [hser] at h1; cases h1
    · intro h1
      cases blocks with
      | none => rcases h1 with h1 | h1 <;> cases h1
      | some l =>
        refine ⟨l, rfl, ?_⟩
        intro hm
        simp only [finalJob, List.contains_iff_mem, hm, if_true] at h1
        rcases h1 with h1 | h1 <;> cases h1
    · intro h1
      rcases h1 with ⟨n, h1⟩ | h1 <;> rcases hstage with h | h <;> rw [h] at h1 <;> cases h1
  · intro t ht
    cases blocks with
    | none => cases ht
    | some l =>
      simp only [finalJob, contentTasks, List.mem_map] at ht
      obtain ⟨i, _, rfl⟩ := ht
      exact ⟨_, _, _, rfl⟩
  · intro h; obtain ⟨b, h⟩ := h; cases h
  · intro n h1
    rcases hstage with h | h <;> rw [h] at h1 <;> cases h1

theorem Inv.choose (I : Inv h f evs s log) {j i : Nat} {ps : Option (List Id)}
    (hs : chooseStep s j i ps = some (s', fx)) :
    Inv h f (evs ++ [.choose j i ps]) s' (log ++ fx.map (fun x => (s.clock, x))) := by
  unfold chooseStep at hs
  split at hs
  · cases hs
  · rename_i t ht
    obtain ⟨job, hj, hi⟩ := task_some ht
    split at hs
    · rename_i hw
      rw [setTask_some hj] at hs
      simp only [Option.some.injEq, Prod.mk.injEq] at hs
      obtain ⟨rfl, rfl⟩ := hs
      have hT := I.task j job i t hj hi
      simp only [TaskOk, hw] at hT
      obtain ⟨c1, c2, c3, c4⟩ := hT
      refine I.act (e := .choose j i ps)
          (t' := { t with waiting := some (ps.getD []) }) rfl hj hi ?_ rfl _ _ _ ?_ ?_ ?_ ?_ ?_ ?_ ?_ ?_
      · simp [Task.isDone, hw]
      · intro x hx
        simp only [List.map_cons, List.map_nil, List.mem_singleton] at hx
        subst hx
        refine ⟨rfl, ?_, by simp, by simp⟩
        intro u hu; simp only [who, Option.some.injEq] at hu; exact hu.symm
      · refine ⟨ps.getD [], [], ?_, rfl, ?_, ?_⟩
        · rw [chosen_append, c1]; simp [chosen]
        · rw [offered_append, c2]; simp [offered]
        · rw [over_append, c3]; simp [over, c4]
      · intro a x b hl ⟨u, p, items, hx⟩
        cases a with
        | nil => rfl
        | cons y ys =>
          simp at hl
      · rw [sent_append, closed_append]
        simpa [sent, closed] using I.head
      · rw [sent_append, closed_append]
        simpa [sent, closed] using I.final
      · have := flights_setTask .head hj hi (t' := { t with waiting := some (ps.getD []) }) rfl
        have h2 := I.headFl
        simp only [flights] at this h2 ⊢
        omega
      · have := flights_setTask .final hj hi (t' := { t with waiting := some (ps.getD []) }) rfl
        have h2 := I.finalFl
        simp only [flights] at this h2 ⊢
        omega
      · rfl
    · cases hs

theorem isBundle_iff {j : Nat} {c : Call} (hc : (calls evs)[j]? = some c) :
    isBundle evs j = decide (poolOf c = .head) ∧ isFinal evs j = decide (poolOf c = .final) := by
  unfold isBundle isFinal
  rw [hc]
  cases c <;> simp [poolOf]

theorem take_free (s : State) (p : Pool) : s.take p =
    ⟨s.clock, s.headFree - (if p = .head then 1 else 0), s.finalFree - (if p = .final then 1 else 0),
      s.jobs⟩ := by
  cases p <;> simp [State.take]

theorem give_free (s : State) (p : Pool) : s.give p =
    ⟨s.clock, s.headFree + (if p = .head then 1 else 0), s.finalFree + (if p = .final then 1 else 0),
      s.jobs⟩ := by
  cases p <;> simp [State.give]

theorem Inv.sendOffer (I : Inv h f evs s log) {j i : Nat} (hs : sendStep s j i = some (s', fx)) :
    Inv h f (evs ++ [.send j i]) s' (log ++ fx.map (fun x => (s.clock, x))) := by
  unfold sendStep at hs
  split at hs
  · cases hs
  · rename_i t ht
    obtain ⟨job, hj, hi⟩ := task_some ht
    split at hs
    · rename_i p w hw
      split at hs
      · cases hs
      · rename_i hfree
        rw [take_free] at hs
        rw [setTask_some (s := ⟨s.clock, s.headFree - (if t.pool = .head then 1 else 0),
          s.finalFree - (if t.pool = .final then 1 else 0), s.jobs⟩) hj] at hs
        simp only [Option.some.injEq, Prod.mk.injEq] at hs
        obtain ⟨rfl, rfl⟩ := hs
        obtain ⟨c, hc, hsh⟩ := I.shape j job hj
        have hpool := hsh.pool hi
        obtain ⟨hb1, hb2⟩ := isBundle_iff hc
        have hT := I.task j job i t hj hi
        simp only [TaskOk, hw] at hT
        obtain ⟨peers, gone, c1, c2, c3, c4⟩ := hT
        have hfl := fun q => flights_setTask q hj hi
          (t' := { t with waiting := some w, flying := t.flying ++ [(p, s.clock)] }) rfl
        have g1 := hfl .head
        have g2 := hfl .final
        have g3 := I.headFl
        have g4 := I.finalFl
        have g5 := I.head
        have g6 := I.final
        simp only [List.length_append, List.length_singleton] at g1 g2
        refine I.act (e := .send j i)
          (t' := { t with waiting := some w, flying := t.flying ++ [(p, s.clock)] }) rfl hj hi ?_ rfl _ _ _ ?_ ?_ ?_ ?_ ?_ ?_ ?_ ?_
        · simp [Task.isDone, hw]
        · intro x hx
          simp only [List.map_cons, List.map_nil, List.mem_singleton] at hx
          subst hx
          refine ⟨rfl, ?_, by simp, ?_⟩
          · intro u hu; simp only [who, Option.some.injEq] at hu; exact hu.symm
          · intro u q items hq
            simp only [Effect.offer.injEq] at hq
            exact hq.2.2.symm
        · refine ⟨peers, gone ++ [p], ?_, ?_, ?_, ?_⟩
          · rw [chosen_append, c1]; simp [chosen]
          · rw [c2]; simp
          · rw [offered_append, c3]; simp [offered]
          · rw [over_append]
            simp only [List.map_cons, List.map_nil, over, List.filterMap_cons, List.filterMap_nil,
              List.append_nil, List.map_append]
            rw [← List.append_assoc]
            exact c4.append_right _
        · intro a x b hl ⟨u, q, items, hx⟩
          cases a with
          | nil => rfl
          | cons y ys => simp at hl
        · rw [sent_append, closed_append]
          cases hp : t.pool with
          | head =>
            rw [hp] at hfree hpool
            simp only [State.free] at hfree
            simp only [List.map_cons, List.map_nil, sent, closed, List.countP_cons, List.countP_nil, hb1,
              ← hpool, decide_true] at g5 ⊢
            simp
            omega
          | final =>
            rw [hp] at hfree hpool
            simp only [List.map_cons, List.map_nil, sent, closed, List.countP_cons, List.countP_nil, hb1,
              ← hpool] at g5 ⊢
            simp
            omega
        · rw [sent_append, closed_append]
          cases hp : t.pool with
          | head =>
            rw [hp] at hfree hpool
            simp only [List.map_cons, List.map_nil, sent, closed, List.countP_cons, List.countP_nil, hb2,
              ← hpool] at g6 ⊢
            simp
            omega
          | final =>
            rw [hp] at hfree hpool
            simp only [State.free] at hfree
            simp only [List.map_cons, List.map_nil, sent, closed, List.countP_cons, List.countP_nil, hb2,
              ← hpool, decide_true] at g6 ⊢
            simp
            omega
        · cases hp : t.pool with
          | head =>
            rw [hp] at hfree g1
            simp only [State.free] at hfree
            simp only [flights, if_true] at g1 g3 ⊢
            omega
          | final =>
            rw [hp] at g1
            simp only [flights, reduceCtorEq, if_false] at g1 g3 ⊢
            omega
        · cases hp : t.pool with
          | head =>
            rw [hp] at g2
            simp only [flights, reduceCtorEq, if_false] at g2 g4 ⊢
            omega
          | final =>
            rw [hp] at hfree g2
            simp only [State.free] at hfree
            simp only [flights, if_true] at g2 g4 ⊢
            omega
        · rfl
    · cases hs

theorem Right.size {c : Call} {t : Tid} {items : List Item} (hr : Right c t items) (hs : t.series = false)
    (hc : (calls evs)[t.job]? = some c) : sizeOf items = valueSize evs t := by
  unfold Right at hr
  rw [hs] at hr
  obtain ⟨it, h1, h2⟩ := hr
  unfold valueSize
  rw [hc]
  simp only [h1, h2]
  simp [sizeOf]

theorem perm_eraseIdx {α : Type} : ∀ (l : List α) (k : Nat) (x : α), l[k]? = some x →
    (x :: l.eraseIdx k).Perm l
  | [], _, _, hx => by cases hx
  | a :: l, 0, x, hx => by
    simp only [List.getElem?_cons_zero, Option.some.injEq] at hx
    subst hx
    exact List.Perm.refl _
  | a :: l, k + 1, x, hx => by
    rw [List.eraseIdx_cons_succ]
    exact (List.Perm.swap a x _).trans ((perm_eraseIdx l k x (by simpa using hx)).cons a)

theorem Inv.finishOffer (I : Inv h f evs s log) {j i k : Nat} {r : Reply}
    (hs : finishStep s j i k r = some (s', fx)) :
    Inv h f (evs ++ [.finish j i k r]) s' (log ++ fx.map (fun x => (s.clock, x))) := by
  unfold finishStep at hs
  split at hs
  · cases hs
  · rename_i t ht
    obtain ⟨job, hj, hi⟩ := task_some ht
    split at hs
    · cases hs
    · rename_i p since hk
      split at hs
      · cases hs
      · rw [give_free, setTask_some (s := ⟨s.clock, s.headFree + (if t.pool = .head then 1 else 0),
          s.finalFree + (if t.pool = .final then 1 else 0), s.jobs⟩) hj] at hs
        simp only [Option.some.injEq, Prod.mk.injEq] at hs
        obtain ⟨rfl, rfl⟩ := hs
        obtain ⟨c, hc, hsh⟩ := I.shape j job hj
        have hpool := hsh.pool hi
        obtain ⟨hb1, hb2⟩ := isBundle_iff hc
        have hT := I.task j job i t hj hi
        have hlen : (t.flying.eraseIdx k).length + 1 = t.flying.length := by
          have := (perm_eraseIdx _ _ _ hk).length_eq
          simpa using this
        have hw : ∃ w, t.waiting = some w := by
          unfold TaskOk at hT
          split at hT
          · rw [hT.2.2.2] at hlen; simp at hlen
          · rename_i w hw; exact ⟨w, hw⟩
        obtain ⟨w, hw⟩ := hw
        simp only [TaskOk, hw] at hT
        obtain ⟨peers, gone, c1, c2, c3, c4⟩ := hT
        have hfl := fun q => flights_setTask q hj hi
          (t' := { t with flying := t.flying.eraseIdx k }) rfl
        have g1 := hfl .head
        have g2 := hfl .final
        have g3 := I.headFl
        have g4 := I.finalFl
        have g5 := I.head
        have g6 := I.final
        simp only at g1 g2
        have hsz : t.series = false → sizeOf t.items = valueSize evs ⟨j, t.series, i⟩ :=
          fun hs => Right.size (hsh.right (j := j) hi) hs hc
        generalize hl : List.map (fun x => (s.clock, x)) (Effect.ended ⟨j, t.series, i⟩ p r.trace ::
          (if t.series = true then [] else [Effect.record p (sizeOf t.items) r.trace])) = l
        have hl' : l = (s.clock, Effect.ended ⟨j, t.series, i⟩ p r.trace) ::
            (if t.series = true then [] else [(s.clock, Effect.record p (sizeOf t.items) r.trace)]) := by
          rw [← hl]; cases t.series <;> rfl
        clear hl
        have hsent : ∀ q, sent q l = 0 := by
          intro q; rw [hl']; cases t.series <;> simp [sent]
        have hclosed : ∀ q : Nat → Bool, closed q l = if q j then 1 else 0 := by
          intro q; rw [hl']; cases t.series <;> simp [closed, List.countP_cons]
        refine I.act (e := .finish j i k r)
          (t' := { t with flying := t.flying.eraseIdx k }) rfl hj hi ?_ rfl _ _ _ ?_ ?_ ?_ ?_ ?_ ?_ ?_ ?_
        · simp only [Task.isDone, Bool.and_eq_false_iff]
          right
          cases hfy : t.flying with
          | nil => rw [hfy] at hlen; simp at hlen
          | cons => rfl
        · intro x hx
          rw [hl'] at hx
          rcases List.mem_cons.mp hx with rfl | hx
          · refine ⟨rfl, ?_, by simp, by simp⟩
            intro u hu; simp only [who, Option.some.injEq] at hu; exact hu.symm
          · split at hx
            · cases hx
            · simp only [List.mem_singleton] at hx
              subst hx
              refine ⟨rfl, ?_, by simp, by simp⟩
              intro u hu; cases hu
        · simp only [TaskOk, hw]
          refine ⟨peers, gone, ?_, c2, ?_, ?_⟩
          · rw [chosen_append, c1, hl']; cases t.series <;> simp [chosen]
          · rw [offered_append, c3, hl']; cases t.series <;> simp [offered]
          · have : over ⟨j, t.series, i⟩ l = [p] := by rw [hl']; cases t.series <;> simp [over]
            rw [over_append, this, List.append_assoc]
            refine List.Perm.trans ?_ c4
            apply List.Perm.append_left
            have := (perm_eraseIdx _ _ _ hk).map (·.1)
            simpa using this
        · intro a x b h1 ⟨u, q, items, hx⟩
          rw [hl'] at h1
          cases a with
          | nil => rfl
          | cons y ys =>
            simp only [List.cons_append, List.cons.injEq] at h1
            cases hser : t.series with
            | true => rw [hser] at h1; simp at h1
            | false =>
              rw [hser] at h1
              cases ys with
              | nil =>
                simp at h1
                rw [← h1.2.1] at hx
                cases hx
              | cons z zs => simp at h1
        · rw [sent_append, closed_append, hsent, hclosed, hb1, ← hpool]
          cases t.pool <;> simp <;> omega
        · rw [sent_append, closed_append, hsent, hclosed, hb2, ← hpool]
          cases t.pool <;> simp <;> omega
        · cases hp : t.pool with
          | head =>
            rw [hp] at g1
            simp only [flights, if_true] at g1 g3 ⊢
            omega
          | final =>
            rw [hp] at g1
            simp only [flights, reduceCtorEq, if_false] at g1 g3 ⊢
            omega
        · cases hp : t.pool with
          | head =>
            rw [hp] at g2
            simp only [flights, reduceCtorEq, if_false] at g2 g4 ⊢
            omega
          | final =>
            rw [hp] at g2
            simp only [flights, if_true] at g2 g4 ⊢
            omega
        · rw [hl']
          cases hser : t.series with
          | true => simp [recorded, contentEnds]
          | false =>
            rw [hser] at hsz
            simp [recorded, contentEnds, hsz]

theorem jobFlights_done {job : Job} (hd : ∀ t ∈ job.tasks, t.isDone = true) (p : Pool) :
    jobFlights p job = 0 := by
  apply sum_zero
  intro t ht
  have := ((isDone_iff t).mp (hd t ht)).2
  simp [taskFlights, this]

theorem Inv.rest (I : Inv h f evs s log) {j : Nat} (hs : restStep s j = some (s', fx)) :
    Inv h f (evs ++ [.rest j]) s' (log ++ fx.map (fun x => (s.clock, x))) := by
  unfold restStep at hs
  split at hs
  · cases hs
  · rename_i job hj
    split at hs
    · rename_i hcond
      obtain ⟨hst, hall⟩ := hcond
      simp only [Option.some.injEq, Prod.mk.injEq] at hs
      obtain ⟨rfl, rfl⟩ := hs
      rw [List.all_eq_true] at hall
      refine I.stage rfl hj [] (by simp) (by simp) (by rw [hst]; simp) ?_ (fun i t => I.task j job i t hj)
        (by rw [hst]; simp [inSeries]) (by simp [inSeries]) ?_ (by simp [inSeries]) (fun p => rfl)
      · intro c hsh
        refine ⟨hsh.contents, ?_, fun _ => hsh.bundle (by rw [hst]; rfl), by simp, by simp, fun _ => hall⟩
        have := hsh.sigs
        rw [hst] at this
        exact this
      · intro n hn
        simp only [Stage.resting.injEq] at hn
        exact hn.symm
    · cases hs

theorem Inv.wake (I : Inv h f evs s log) {j : Nat} (hs : wakeStep s j = some (s', fx)) :
    Inv h f (evs ++ [.wake j]) s' (log ++ fx.map (fun x => (s.clock, x))) := by
  unfold wakeStep at hs
  split at hs
  · cases hs
  · rename_i job hj
    split at hs
    · rename_i since hst
      split at hs
      · rename_i hle
        simp only [Option.some.injEq, Prod.mk.injEq] at hs
        obtain ⟨rfl, rfl⟩ := hs
        obtain ⟨c0, hc0, hsh0⟩ := I.shape j job hj
        have hser0 : inSeries job.stage = true := by rw [hst]; rfl
        have hidle := hsh0.idle (.inl ⟨since, hst⟩)
        refine I.stage rfl hj [] (by simp) (by simp) (by rw [hst]; simp) ?_ ?_ (by rw [hser0]; simp)
          ?_ (by simp) ?_ ?_
        · intro c hsh
          obtain ⟨b, rfl⟩ := hsh.bundle hser0
          refine ⟨hsh.contents, ?_, by simp [inSeries], fun _ => trivial, by simp, by simp⟩
          simp only [inSeries, contentTasks, hsh.contents, List.map_map, poolOf]
          rfl
        · intro i t ht
          simp only [contentTasks, List.getElem?_map] at ht
          cases hq : job.contents[i]? with
          | none => rw [hq] at ht; cases ht
          | some it =>
            rw [hq] at ht
            simp only [Option.map_some, Option.some.injEq] at ht
            subst ht
            apply TaskOk.fresh
            intro x hx hw
            obtain ⟨job', h1, h2⟩ := I.early x hx _ hw
            simp only [Task.new] at h1 h2
            rw [hj] at h1
            cases h1
            rw [h2 trivial] at hser0
            cases hser0
        · intro _ blocks hb
          rw [hc0] at hb
          cases hb
          have hsg := hsh0.sigs
          rw [hser0] at hsg
          simp only [if_true] at hsg
          cases htk : job.tasks with
          | nil => rw [htk] at hsg; simp at hsg
          | cons t ts =>
            rw [htk] at hsg
            simp only [List.map_cons, List.cons.injEq, sig, Prod.mk.injEq] at hsg
            have h0 : job.tasks[0]? = some t := by rw [htk]; rfl
            have h1 := I.task j job 0 t hj h0
            rw [hsg.1.2.2] at h1
            have h2 := h1.delivered (hidle t (by rw [htk]; simp))
            rw [hsg.1.1] at h2
            exact h2
        · intro _ x hx u hu huj _
          have := I.rested j job since hj hst x hx u hu huj
          omega
        · intro p
          rw [jobFlights_done hidle]
          apply sum_zero
          intro t ht
          simp only [contentTasks, List.mem_map] at ht
          obtain ⟨it, _, rfl⟩ := ht
          unfold taskFlights
          split <;> rfl
      · cases hs
    · cases hs

theorem Inv.close (I : Inv h f evs s log) {j : Nat} (hs : closeStep s j = some (s', fx)) :
    Inv h f (evs ++ [.close j]) s' (log ++ fx.map (fun x => (s.clock, x))) := by
  unfold closeStep at hs
  split at hs
  · cases hs
  · rename_i job hj
    split at hs
    · rename_i hcond
      obtain ⟨hst, hall⟩ := hcond
      simp only [Option.some.injEq, Prod.mk.injEq] at hs
      obtain ⟨rfl, rfl⟩ := hs
      rw [List.all_eq_true] at hall
      have hser0 : inSeries job.stage = false := by rw [hst]; rfl
      refine I.stage rfl hj _ (by simp) (fun _ => rfl) (by rw [hst]; simp) ?_ (fun i t => I.task j job i t hj)
        (fun _ => rfl) (fun _ => I.past j job hj hser0) (by simp) (fun _ => I.slept j job hj hser0) (fun p => rfl)
      intro c hsh
      refine ⟨hsh.contents, ?_, by simp [inSeries], fun _ => hsh.whole (.inl hst), by simp, fun _ => hall⟩
      have := hsh.sigs
      rw [hst] at this
      exact this
    · cases hs

theorem Inv.step (I : Inv h f evs s log) {e : Event} (hs : step s e = some (s', fx)) :
    Inv h f (evs ++ [e]) s' (log ++ fx.map (fun x => (s.clock, x))) := by
  cases e with
  | bundle b =>
    simp only [Gossiper.step, Option.some.injEq, Prod.mk.injEq] at hs
    obtain ⟨rfl, rfl⟩ := hs
    rw [List.map_nil, List.append_nil]; exact I.bundle b
  | final b =>
    simp only [Gossiper.step, Option.some.injEq, Prod.mk.injEq] at hs
    obtain ⟨rfl, rfl⟩ := hs
    rw [List.map_nil, List.append_nil]; exact I.finalCall b
  | tick d =>
    simp only [Gossiper.step, Option.some.injEq, Prod.mk.injEq] at hs
    obtain ⟨rfl, rfl⟩ := hs
    rw [List.map_nil, List.append_nil]; exact I.tick d
  | choose j i ps => exact I.choose hs
  | send j i => exact I.sendOffer hs
  | finish j i k r => exact I.finishOffer hs
  | rest j => exact I.rest hs
  | wake j => exact I.wake hs
  | close j => exact I.close hs

theorem run_inv (hr : run (State.new h f) evs = some (s, log)) : Inv h f evs s log :=
  run_ind (P := Inv h f) (Inv.init h f) (fun _ _ _ _ _ _ _ I hs => I.step hs) evs s log hr

end Verif.Gossiper
