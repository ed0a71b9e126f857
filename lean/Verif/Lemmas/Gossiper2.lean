import Verif.Lemmas.Gossiper

/-! # The invariant of the gossiper -/

namespace Verif.Gossiper
open Verif.Props.GossiperLife
open Verif.Census (OfferTrace)

structure Inv (h f : Nat) (evs : List Event) (s : State) (log : Log) : Prop where
  len : s.jobs.length = (calls evs).length
  shape : ∀ (j : Nat) (job : Job), s.jobs[j]? = some job → ∃ c, (calls evs)[j]? = some c ∧ Shape c job
  task : ∀ (j : Nat) (job : Job) (i : Nat) (t : Task), s.jobs[j]? = some job → job.tasks[i]? = some t →
    TaskOk log ⟨j, t.series, i⟩ t
  early : ∀ x ∈ log, ∀ u, who x.2 = some u →
    ∃ job, s.jobs[u.job]? = some job ∧ (u.series = false → inSeries job.stage = false)
  past : ∀ (j : Nat) (job : Job), s.jobs[j]? = some job → inSeries job.stage = false →
    ∀ blocks, (calls evs)[j]? = some (.bundle blocks) → Delivered log ⟨j, true, 0⟩ (seriesItems blocks)
  time : ∀ x ∈ log, x.1 ≤ s.clock
  rested : ∀ (j : Nat) (job : Job) (n : Nat), s.jobs[j]? = some job → job.stage = .resting n →
    ∀ x ∈ log, ∀ u, who x.2 = some u → u.job = j → x.1 ≤ n
  slept : ∀ (j : Nat) (job : Job), s.jobs[j]? = some job → inSeries job.stage = false →
    ∀ x ∈ log, ∀ u, who x.2 = some u → u.job = j → u.series = true →
      x.1 + headerSaturationDelay ≤ s.clock
  gap : ∀ x ∈ log, ∀ y ∈ log, ∀ u v, who x.2 = some u → who y.2 = some v → u.job = v.job →
    u.series = true → v.series = false → x.1 + headerSaturationDelay ≤ y.1
  mention : ∀ x ∈ log, ∀ u, who x.2 = some u →
    ∃ c items, (calls evs)[u.job]? = some c ∧ Right c u items
  right : ∀ τ u p items, (τ, Effect.offer u p items) ∈ log →
    ∃ c, (calls evs)[u.job]? = some c ∧ Right c u items
  before : ∀ a τ j i p items b, log = a ++ (τ, Effect.offer ⟨j, false, i⟩ p items) :: b →
    ∀ blocks, (calls evs)[j]? = some (.bundle blocks) → Delivered a ⟨j, true, 0⟩ (seriesItems blocks)
  logok : ∀ u, TaskLog log u
  head : sent (isBundle evs) log + s.headFree = closed (isBundle evs) log + h
  final : sent (isFinal evs) log + s.finalFree = closed (isFinal evs) log + f
  headFl : s.headFree + flights .head s = h
  finalFl : s.finalFree + flights .final s = f
  recs : recorded log = contentEnds evs log
  fin : ∀ τ j, (τ, Effect.finished j) ∈ log → ∃ job, s.jobs[j]? = some job ∧ job.stage = .done

theorem Inv.init (h f : Nat) : Inv h f [] (State.new h f) [] where
  len := rfl
  shape := by intro j job hj; simp [State.new] at hj
  task := by intro j job i t hj; simp [State.new] at hj
  early := by intro x hx; cases hx
  past := by intro j job hj; simp [State.new] at hj
  time := by intro x hx; cases hx
  rested := by intro j job n hj; simp [State.new] at hj
  slept := by intro j job hj; simp [State.new] at hj
  gap := by intro x hx; cases hx
  mention := by intro x hx; cases hx
  right := by intro τ u p items hx; cases hx
  before := by intro a τ j i p items b hx; simp at hx
  logok := fun u => .inl ⟨rfl, rfl, rfl⟩
  head := by simp [sent, closed, State.new]
  final := by simp [sent, closed, State.new]
  headFl := by simp [State.new, flights]
  finalFl := by simp [State.new, flights]
  recs := rfl
  fin := by intro τ j hx; cases hx

/-! ## Calls -/

/-- The log only knows of calls that have been made. -/
theorem Inv.known {h f : Nat} {evs : List Event} {s : State} {log : Log} (I : Inv h f evs s log)
    {x : Nat × Effect} (hx : x ∈ log) {u : Tid} (hu : who x.2 = some u) : u.job < (calls evs).length := by
  obtain ⟨job, hj, -⟩ := I.early x hx u hu
  rw [← I.len]
  exact (List.getElem?_eq_some_iff.mp hj).1

theorem calls_get_append {a b : List Call} {j : Nat} (h : j < a.length) : (a ++ b)[j]? = a[j]? :=
  List.getElem?_append_left h

theorem sent_congr {k k' : Nat → Bool} {log : Log}
    (h : ∀ x ∈ log, ∀ u, who x.2 = some u → k u.job = k' u.job) : sent k log = sent k' log := by
  apply List.countP_congr
  intro x hx
  have := h x hx
  split
  · rename_i u p it he
    rw [this u (by rw [he]; rfl)]
  · rfl

theorem closed_congr {k k' : Nat → Bool} {log : Log}
    (h : ∀ x ∈ log, ∀ u, who x.2 = some u → k u.job = k' u.job) : closed k log = closed k' log := by
  apply List.countP_congr
  intro x hx
  have := h x hx
  split
  · rename_i u p it he
    rw [this u (by rw [he]; rfl)]
  · rfl

theorem contentEnds_congr {e e' : List Event} {log : Log}
    (h : ∀ x ∈ log, ∀ u, who x.2 = some u → valueSize e u = valueSize e' u) :
    contentEnds e log = contentEnds e' log := by
  unfold contentEnds
  induction log with
  | nil => rfl
  | cons x xs ih =>
    have h1 := h x (by simp)
    have h2 := ih (fun y hy => h y (by simp [hy]))
    rw [List.filterMap_cons, List.filterMap_cons, h2]
    obtain ⟨n, e0⟩ := x
    cases e0 with
    | ended u p r =>
      simp only
      rw [h1 u rfl]
    | _ => rfl

/-- A new call. -/
theorem Inv.call {h f : Nat} {evs : List Event} {s : State} {log : Log} (I : Inv h f evs s log)
    (e : Event) (c : Call) (job : Job) (hc : calls [e] = [c]) (hs : Shape c job)
    (ht : ∀ t ∈ job.tasks, ∃ items p b, t = Task.new items p b)
    (hst : (∃ b, c = .bundle b) → inSeries job.stage = true)
    (hrest : ∀ n, job.stage ≠ .resting n) :
    Inv h f (evs ++ [e]) { s with jobs := s.jobs ++ [job] } log := by
  have hcalls : calls (evs ++ [e]) = calls evs ++ [c] := by rw [calls_append, hc]
  have hlen := I.len
  have hsil : ∀ u : Tid, s.jobs.length ≤ u.job → Silent u log := by
    intro u hu x hx hw
    have := I.known hx hw
    omega
  have hget : ∀ (j : Nat) (job' : Job), (s.jobs ++ [job])[j]? = some job' →
      (s.jobs[j]? = some job' ∧ j < s.jobs.length) ∨ (j = s.jobs.length ∧ job' = job) := by
    intro j job' hj
    rw [List.getElem?_append] at hj
    split at hj
    · rename_i hlt
      exact .inl ⟨hj, hlt⟩
    · rename_i hlt
      right
      have : j - s.jobs.length = 0 := by
        apply Classical.byContradiction
        intro h0
        rw [List.getElem?_eq_none (by simp; omega)] at hj
        cases hj
      rw [this] at hj
      simp only [List.getElem?_cons_zero, Option.some.injEq] at hj
      exact ⟨by omega, hj.symm⟩
  have hold : ∀ j, j < s.jobs.length → (calls (evs ++ [e]))[j]? = (calls evs)[j]? := by
    intro j hj
    rw [hcalls, calls_get_append (by omega)]
  have hnew : (calls (evs ++ [e]))[s.jobs.length]? = some c := by
    rw [hcalls, hlen, List.getElem?_concat_length]
  have hk : ∀ x ∈ log, ∀ u, who x.2 = some u → (calls (evs ++ [e]))[u.job]? = (calls evs)[u.job]? := by
    intro x hx u hu
    exact hold _ (by rw [hlen]; exact I.known hx hu)
  have hfl : ∀ p, flights p { s with jobs := s.jobs ++ [job] } = flights p s := by
    intro p
    have : jobFlights p job = 0 := by
      apply sum_zero
      intro t h1
      obtain ⟨it, q, b, rfl⟩ := ht t h1
      unfold taskFlights
      split <;> rfl
    simp [flights, this]
  constructor
  · simp [hcalls, hlen]
  · intro j job' hj
    rcases hget j job' hj with ⟨h1, h2⟩ | ⟨rfl, rfl⟩
    · rw [hold j h2]; exact I.shape j job' h1
    · exact ⟨c, hnew, hs⟩
  · intro j job' i t hj hi
    rcases hget j job' hj with ⟨h1, h2⟩ | ⟨rfl, rfl⟩
    · exact I.task j job' i t h1 hi
    · obtain ⟨it, q, b, h3⟩ := ht t (List.mem_of_getElem? hi)
      have := TaskOk.fresh (hsil ⟨s.jobs.length, t.series, i⟩ (Nat.le_refl _)) it q b
      rw [h3]
      rw [h3] at this
      exact this
  · intro x hx u hu
    obtain ⟨job', h1, h2⟩ := I.early x hx u hu
    refine ⟨job', ?_, h2⟩
    exact (List.getElem?_append_left (List.getElem?_eq_some_iff.mp h1).1).trans h1
  · intro j job' hj hser blocks hb
    rcases hget j job' hj with ⟨h1, h2⟩ | ⟨rfl, rfl⟩
    · rw [hold j h2] at hb
      exact I.past j job' h1 hser blocks hb
    · rw [hnew] at hb
      cases hb
      rw [hst ⟨_, rfl⟩] at hser
      cases hser
  · exact I.time
  · intro j job' n hj hn
    rcases hget j job' hj with ⟨h1, h2⟩ | ⟨rfl, rfl⟩
    · exact I.rested j job' n h1 hn
    · exact absurd hn (hrest n)
  · intro j job' hj hser x hx u hu huj
    rcases hget j job' hj with ⟨h1, h2⟩ | ⟨rfl, rfl⟩
    · exact I.slept j job' h1 hser x hx u hu huj
    · exact absurd hu (hsil u (by omega) x hx)
  · exact I.gap
  · intro x hx u hu
    rw [hk _ hx u hu]
    exact I.mention x hx u hu
  · intro τ u p items hx
    rw [hk _ hx u rfl]
    exact I.right τ u p items hx
  · intro a τ j i p items b hx blocks hb
    rw [hk (τ, Effect.offer ⟨j, false, i⟩ p items) (by rw [hx]; simp) ⟨j, false, i⟩ rfl] at hb
    exact I.before a τ j i p items b hx blocks hb
  · exact I.logok
  · rw [sent_congr (k' := isBundle evs), closed_congr (k' := isBundle evs)]
    · exact I.head
    · intro x hx u hu; simp only [isBundle, hk x hx u hu]
    · intro x hx u hu; simp only [isBundle, hk x hx u hu]
  · rw [sent_congr (k' := isFinal evs), closed_congr (k' := isFinal evs)]
    · exact I.final
    · intro x hx u hu; simp only [isFinal, hk x hx u hu]
    · intro x hx u hu; simp only [isFinal, hk x hx u hu]
  · rw [hfl]; exact I.headFl
  · rw [hfl]; exact I.finalFl
  · rw [contentEnds_congr (e' := evs)]
    · exact I.recs
    · intro x hx u hu; simp only [valueSize, hk x hx u hu]
  · intro τ j hx
    obtain ⟨job', h1, h2⟩ := I.fin τ j hx
    exact ⟨job', (List.getElem?_append_left (List.getElem?_eq_some_iff.mp h1).1).trans h1, h2⟩

/-! ## The other events -/

theorem calls_none {evs : List Event} {e : Event} (he : calls [e] = []) :
    calls (evs ++ [e]) = calls evs := by rw [calls_append, he, List.append_nil]

theorem evs_irrelevant {evs evs' : List Event} (h : calls evs' = calls evs) :
    isBundle evs' = isBundle evs ∧ isFinal evs' = isFinal evs ∧ contentEnds evs' = contentEnds evs := by
  refine ⟨?_, ?_, ?_⟩
  · funext j; simp only [isBundle, h]
  · funext j; simp only [isFinal, h]
  · funext l; simp only [contentEnds, valueSize, h]

/-- Time passes. -/
theorem Inv.tick {h f : Nat} {evs : List Event} {s : State} {log : Log} (I : Inv h f evs s log) (d : Nat) :
    Inv h f (evs ++ [.tick d]) { s with clock := s.clock + d } log := by
  have hc : calls (evs ++ [Event.tick d]) = calls evs := calls_none rfl
  obtain ⟨h1, h2, h3⟩ := evs_irrelevant hc
  constructor
  · rw [hc]; exact I.len
  · rw [hc]; exact I.shape
  · exact I.task
  · exact I.early
  · rw [hc]; exact I.past
  · intro x hx; exact Nat.le_trans (I.time x hx) (Nat.le_add_right _ _)
  · exact I.rested
  · intro j job hj hs x hx u hu huj hus
    exact Nat.le_trans (I.slept j job hj hs x hx u hu huj hus) (Nat.le_add_right _ _)
  · exact I.gap
  · rw [hc]; exact I.mention
  · rw [hc]; exact I.right
  · rw [hc]; exact I.before
  · exact I.logok
  · rw [h1]; exact I.head
  · rw [h2]; exact I.final
  · exact I.headFl
  · exact I.finalFl
  · rw [h3]; exact I.recs
  · exact I.fin

theorem set_get {α : Type} {l : List α} {j k : Nat} {x y z : α} (hj : l[j]? = some x)
    (hk : (l.set j y)[k]? = some z) : (k = j ∧ z = y) ∨ (k ≠ j ∧ l[k]? = some z) := by
  rw [List.getElem?_set] at hk
  split at hk
  · rename_i he
    have : j < l.length := (List.getElem?_eq_some_iff.mp hj).1
    rw [if_pos this] at hk
    cases hk
    exact .inl ⟨he.symm, rfl⟩
  · rename_i he
    exact .inr ⟨fun h => he h.symm, hk⟩

theorem set_get_self {α : Type} {l : List α} {j : Nat} {x y : α} (hj : l[j]? = some x) :
    (l.set j y)[j]? = some y := by
  rw [List.getElem?_set_self (List.getElem?_eq_some_iff.mp hj).1]

theorem split_append {α : Type} {log l a b : List α} {x : α} (h : log ++ l = a ++ x :: b) :
    (∃ b', log = a ++ x :: b') ∨ (∃ a' , a = log ++ a' ∧ l = a' ++ x :: b) := by
  rw [List.append_eq_append_iff] at h
  rcases h with ⟨a', h1, h2⟩ | ⟨c', h1, h2⟩
  · exact .inr ⟨a', h1, h2⟩
  · cases c' with
    | nil =>
      right
      refine ⟨[], by simpa using h1.symm, by simpa using h2.symm⟩
    | cons y ys =>
      simp only [List.cons_append, List.cons.injEq] at h2
      exact .inl ⟨ys, by rw [h1, h2.1]⟩

/-- A task does something. -/
theorem Inv.act {h f : Nat} {evs : List Event} {s : State} {log : Log} (I : Inv h f evs s log)
    {e : Event} (he : calls [e] = []) {j i : Nat} {job : Job} {t t' : Task}
    (hj : s.jobs[j]? = some job) (ht : job.tasks[i]? = some t) (hnd : t.isDone = false)
    (hsig : sig t' = sig t) (hf ff : Nat) (l : Log)
    (hl : ∀ x ∈ l, x.1 = s.clock ∧ (∀ u, who x.2 = some u → u = ⟨j, t.series, i⟩) ∧
      (∀ k, x.2 ≠ .finished k) ∧ ∀ u p items, x.2 = .offer u p items → items = t.items)
    (hok : TaskOk (log ++ l) ⟨j, t.series, i⟩ t')
    (hofree : ∀ a x b, l = a ++ x :: b → (∃ u p items, x.2 = .offer u p items) → a = [])
    (hh : sent (isBundle evs) (log ++ l) + hf = closed (isBundle evs) (log ++ l) + h)
    (hfn : sent (isFinal evs) (log ++ l) + ff = closed (isFinal evs) (log ++ l) + f)
    (hhf : hf + flights .head ⟨s.clock, hf, ff, s.jobs.set j { job with tasks := job.tasks.set i t' }⟩ = h)
    (hff : ff + flights .final ⟨s.clock, hf, ff, s.jobs.set j { job with tasks := job.tasks.set i t' }⟩ = f)
    (hrec : recorded l = contentEnds evs l) :
    Inv h f (evs ++ [e]) ⟨s.clock, hf, ff, s.jobs.set j { job with tasks := job.tasks.set i t' }⟩
      (log ++ l) := by
  have hc : calls (evs ++ [e]) = calls evs := calls_none he
  obtain ⟨e1, e2, e3⟩ := evs_irrelevant hc
  obtain ⟨c, hcj, hsh⟩ := I.shape j job hj
  have hser := hsh.series ht
  have hser' : t'.series = t.series := by simp only [sig, Prod.mk.injEq] at hsig; exact hsig.2.2
  have hnotidle : ¬ ((∃ n, job.stage = .resting n) ∨ job.stage = .done) := by
    intro hi
    rw [hsh.idle hi t (List.mem_of_getElem? ht)] at hnd
    cases hnd
  have hsil : ∀ u, u ≠ ⟨j, t.series, i⟩ → Silent u l := by
    intro u hu x hx hw
    exact hu ((hl x hx).2.1 u hw)
  -- an entry of the new log is old, or about this task and of now
  have hmem : ∀ x ∈ log ++ l, ∀ u, who x.2 = some u →
      x ∈ log ∨ (x ∈ l ∧ u = ⟨j, t.series, i⟩ ∧ x.1 = s.clock) := by
    intro x hx u hu
    rcases List.mem_append.mp hx with h1 | h1
    · exact .inl h1
    · exact .inr ⟨h1, (hl x h1).2.1 u hu, (hl x h1).1⟩
  constructor
  · rw [hc, List.length_set]; exact I.len
  · rw [hc]
    intro k job' hk
    rcases set_get hj hk with ⟨rfl, rfl⟩ | ⟨_, hk'⟩
    · refine ⟨c, hcj, hsh.contents, ?_, hsh.bundle, hsh.whole, hsh.aborted, fun hi => absurd hi hnotidle⟩
      rw [← hsh.sigs]
      show (job.tasks.set i t').map sig = job.tasks.map sig
      rw [List.map_set, hsig]
      apply List.ext_getElem?
      intro q
      rw [List.getElem?_set]
      split
      · rename_i hq
        subst hq
        obtain ⟨hlt, hte⟩ := List.getElem?_eq_some_iff.mp ht
        simp [hlt, hte]
      · rfl
    · exact I.shape k job' hk'
  · intro k job' q t'' hk hq
    rcases set_get hj hk with ⟨rfl, rfl⟩ | ⟨hne, hk'⟩
    · rcases set_get ht hq with ⟨rfl, rfl⟩ | ⟨hne, hq'⟩
      · rw [hser']; exact hok
      · exact (I.task k job q t'' hj hq').silent (hsil _ (by simp; intro _ h; exact absurd h hne))
    · exact (I.task k job' q t'' hk' hq).silent (hsil _ (by simp; intro h; exact absurd h hne))
  · intro x hx u hu
    have hstage : ∀ job' : Job, s.jobs[u.job]? = some job' → (u.series = false → inSeries job'.stage = false) →
        ∃ job'', (s.jobs.set j { job with tasks := job.tasks.set i t' })[u.job]? = some job'' ∧
          (u.series = false → inSeries job''.stage = false) := by
      intro job' h1 h2
      by_cases hju : u.job = j
      · rw [hju] at h1 ⊢
        rw [hj] at h1
        cases h1
        exact ⟨_, set_get_self hj, h2⟩
      · refine ⟨job', ?_, h2⟩
        rw [List.getElem?_set_ne (fun h => hju h.symm)]
        exact h1
    rcases hmem x hx u hu with h1 | ⟨_, rfl, _⟩
    · obtain ⟨job', h2, h3⟩ := I.early x h1 u hu
      exact hstage job' h2 h3
    · exact hstage job hj (fun h4 => hser.symm.trans h4)
  · rw [hc]
    intro k job' hk hst blocks hb
    have : ∃ job'', s.jobs[k]? = some job'' ∧ inSeries job''.stage = false ∧
        (k = j → t.series = false) := by
      rcases set_get hj hk with ⟨rfl, rfl⟩ | ⟨hne, hk'⟩
      · exact ⟨job, hj, hst, fun _ => hser.trans hst⟩
      · exact ⟨job', hk', hst, fun h => absurd h hne⟩
    obtain ⟨job'', h1, h2, h3⟩ := this
    refine Delivered.silent (I.past k job'' h1 h2 blocks hb) (hsil _ ?_)
    intro heq
    simp only [Tid.mk.injEq] at heq
    rw [h3 heq.1] at heq
    exact absurd heq.2.1 (by simp)
  · intro x hx
    rcases List.mem_append.mp hx with h1 | h1
    · exact I.time x h1
    · exact Nat.le_of_eq (hl x h1).1
  · intro k job' n hk hn x hx u hu huk
    rcases set_get hj hk with ⟨rfl, rfl⟩ | ⟨hne, hk'⟩
    · exact absurd (Or.inl ⟨n, hn⟩) hnotidle
    · rcases hmem x hx u hu with h1 | ⟨_, rfl, _⟩
      · exact I.rested k job' n hk' hn x h1 u hu huk
      · exact absurd huk.symm hne
  · intro k job' hk hst x hx u hu huk hus
    have : ∃ job'', s.jobs[k]? = some job'' ∧ inSeries job''.stage = false := by
      rcases set_get hj hk with ⟨rfl, rfl⟩ | ⟨hne, hk'⟩
      · exact ⟨job, hj, hst⟩
      · exact ⟨job', hk', hst⟩
    obtain ⟨job'', h1, h2⟩ := this
    rcases hmem x hx u hu with h3 | ⟨_, rfl, _⟩
    · exact I.slept k job'' h1 h2 x h3 u hu huk hus
    · simp only at huk hus
      subst huk
      rw [hj] at h1
      cases h1
      rw [hser, h2] at hus
      cases hus
  · intro x hx y hy u v hu hv huv hus hvs
    rcases hmem x hx u hu with h1 | ⟨_, rfl, h1⟩ <;> rcases hmem y hy v hv with h2 | ⟨_, rfl, h2⟩
    · exact I.gap x h1 y h2 u v hu hv huv hus hvs
    · simp only at hvs huv
      rw [h2]
      exact I.slept j job hj (hser.symm.trans hvs) x h1 u hu huv hus
    · obtain ⟨job', h3, h4⟩ := I.early y h2 v hv
      simp only at hus huv
      rw [← huv, hj] at h3
      cases h3
      rw [hser, h4 hvs] at hus
      cases hus
    · simp only at hus hvs
      rw [hus] at hvs
      cases hvs
  · rw [hc]
    intro x hx u hu
    rcases hmem x hx u hu with h1 | ⟨_, rfl, _⟩
    · exact I.mention x h1 u hu
    · exact ⟨c, _, hcj, hsh.right ht⟩
  · rw [hc]
    intro τ u p items hx
    rcases List.mem_append.mp hx with h1 | h1
    · exact I.right τ u p items h1
    · have hu := (hl _ h1).2.1 u rfl
      subst hu
      rw [(hl _ h1).2.2.2 _ p items rfl]
      exact ⟨c, hcj, hsh.right ht⟩
  · rw [hc]
    intro a τ k q p items b hx blocks hb
    rcases split_append hx with ⟨b', h1⟩ | ⟨a', h1, h2⟩
    · exact I.before a τ k q p items b' h1 blocks hb
    · have ha : a' = [] := hofree a' _ b h2 ⟨_, _, _, rfl⟩
      subst ha
      rw [List.append_nil] at h1
      subst h1
      have hu := (hl (τ, Effect.offer ⟨k, false, q⟩ p items) (by rw [h2]; simp)).2.1 _ rfl
      simp only [Tid.mk.injEq] at hu
      obtain ⟨rfl, h3, _⟩ := hu
      exact I.past k job hj (by rw [← hser, ← h3]) blocks hb
  · intro u
    by_cases hu : u = ⟨j, t.series, i⟩
    · rw [hu]; exact hok.log
    · have := hsil u hu
      have h0 := I.logok u
      unfold TaskLog at h0 ⊢
      rw [chosen_append, chosen_silent this, List.append_nil, offered_append, offered_silent this,
        List.append_nil, over_append, over_silent this, List.append_nil]
      exact h0
  · rw [e1]; exact hh
  · rw [e2]; exact hfn
  · exact hhf
  · exact hff
  · rw [e3, recorded_append, contentEnds_append, I.recs, hrec]
  · intro τ k hx
    rcases List.mem_append.mp hx with h1 | h1
    · obtain ⟨job', h2, h3⟩ := I.fin τ k h1
      by_cases hk : k = j
      · subst hk
        rw [hj] at h2
        cases h2
        exact absurd (Or.inr h3) hnotidle
      · refine ⟨job', ?_, h3⟩
        rw [List.getElem?_set_ne (fun h => hk h.symm)]
        exact h2
    · exact absurd rfl ((hl _ h1).2.2.1 k)

/-- A call goes to its next stage. -/
theorem Inv.stage {h f : Nat} {evs : List Event} {s : State} {log : Log} (I : Inv h f evs s log)
    {e : Event} (he : calls [e] = []) {j : Nat} {job job' : Job} (hj : s.jobs[j]? = some job)
    (l : Log) (hl : ∀ x ∈ l, x = (s.clock, .finished j)) (hlst : l ≠ [] → job'.stage = .done)
    (hnd : job.stage ≠ .done)
    (hshape : ∀ c, Shape c job → Shape c job')
    (htask : ∀ (i : Nat) (t : Task), job'.tasks[i]? = some t → TaskOk log ⟨j, t.series, i⟩ t)
    (hser : inSeries job.stage = false → inSeries job'.stage = false)
    (hpast : inSeries job'.stage = false → ∀ blocks, (calls evs)[j]? = some (.bundle blocks) →
      Delivered log ⟨j, true, 0⟩ (seriesItems blocks))
    (hrest : ∀ n, job'.stage = .resting n → n = s.clock)
    (hslept : inSeries job'.stage = false → ∀ x ∈ log, ∀ u, who x.2 = some u → u.job = j →
      u.series = true → x.1 + headerSaturationDelay ≤ s.clock)
    (hfl : ∀ p, jobFlights p job' = jobFlights p job) :
    Inv h f (evs ++ [e]) (s.setJob j job') (log ++ l) := by
  have hc : calls (evs ++ [e]) = calls evs := calls_none he
  obtain ⟨e1, e2, e3⟩ := evs_irrelevant hc
  have hmem : ∀ x ∈ log ++ l, ∀ u, who x.2 = some u → x ∈ log := by
    intro x hx u hu
    rcases List.mem_append.mp hx with h1 | h1
    · exact h1
    · rw [hl x h1] at hu; cases hu
  have hsil : ∀ u, Silent u l := by
    intro u x hx hw
    rw [hl x hx] at hw; cases hw
  have hs0 : ∀ k, sent k l = 0 := by
    intro k
    apply List.countP_eq_zero.mpr
    intro x hx
    rw [hl x hx]; simp
  have hc0 : ∀ k, closed k l = 0 := by
    intro k
    apply List.countP_eq_zero.mpr
    intro x hx
    rw [hl x hx]; simp
  have hr0 : recorded l = [] := by
    apply List.filterMap_eq_nil_iff.mpr
    intro x hx
    rw [hl x hx]
  have hce0 : contentEnds evs l = [] := by
    apply List.filterMap_eq_nil_iff.mpr
    intro x hx
    rw [hl x hx]
  have hflights : ∀ p, flights p (s.setJob j job') = flights p s := by
    intro p
    have := sum_set (jobFlights p) s.jobs j job job' hj
    rw [hfl p] at this
    have h2 : flights p (s.setJob j job') = ((s.jobs.set j job').map (jobFlights p)).sum := rfl
    have h3 : flights p s = (s.jobs.map (jobFlights p)).sum := rfl
    omega
  constructor
  · rw [hc]
    show (s.jobs.set j job').length = _
    rw [List.length_set]; exact I.len
  · rw [hc]
    intro k job'' hk
    rcases set_get hj hk with ⟨rfl, rfl⟩ | ⟨_, hk'⟩
    · obtain ⟨c, h1, h2⟩ := I.shape k job hj
      exact ⟨c, h1, hshape c h2⟩
    · exact I.shape k job'' hk'
  · intro k job'' q t hk hq
    rcases set_get hj hk with ⟨rfl, rfl⟩ | ⟨_, hk'⟩
    · exact (htask q t hq).silent (hsil _)
    · exact (I.task k job'' q t hk' hq).silent (hsil _)
  · intro x hx u hu
    obtain ⟨job'', h1, h2⟩ := I.early x (hmem x hx u hu) u hu
    by_cases hju : u.job = j
    · rw [hju] at h1 ⊢
      rw [hj] at h1
      cases h1
      exact ⟨job', set_get_self hj, fun h => hser (h2 h)⟩
    · refine ⟨job'', ?_, h2⟩
      show (s.jobs.set j job')[u.job]? = _
      rw [List.getElem?_set_ne (fun h => hju h.symm)]
      exact h1
  · rw [hc]
    intro k job'' hk hst blocks hb
    rcases set_get hj hk with ⟨rfl, rfl⟩ | ⟨_, hk'⟩
    · exact Delivered.silent (hpast hst blocks hb) (hsil _)
    · exact Delivered.silent (I.past k job'' hk' hst blocks hb) (hsil _)
  · intro x hx
    rcases List.mem_append.mp hx with h1 | h1
    · exact I.time x h1
    · rw [hl x h1]; exact Nat.le_refl _
  · intro k job'' n hk hn x hx u hu huk
    rcases set_get hj hk with ⟨rfl, rfl⟩ | ⟨_, hk'⟩
    · rw [hrest n hn]; exact I.time x (hmem x hx u hu)
    · exact I.rested k job'' n hk' hn x (hmem x hx u hu) u hu huk
  · intro k job'' hk hst x hx u hu huk hus
    rcases set_get hj hk with ⟨rfl, rfl⟩ | ⟨_, hk'⟩
    · exact hslept hst x (hmem x hx u hu) u hu huk hus
    · exact I.slept k job'' hk' hst x (hmem x hx u hu) u hu huk hus
  · intro x hx y hy u v hu hv
    exact I.gap x (hmem x hx u hu) y (hmem y hy v hv) u v hu hv
  · rw [hc]
    intro x hx u hu
    exact I.mention x (hmem x hx u hu) u hu
  · rw [hc]
    intro τ u p items hx
    exact I.right τ u p items (hmem _ hx u rfl)
  · rw [hc]
    intro a τ k q p items b hx blocks hb
    rcases split_append hx with ⟨b', h1⟩ | ⟨a', h1, h2⟩
    · exact I.before a τ k q p items b' h1 blocks hb
    · have := hl (τ, Effect.offer ⟨k, false, q⟩ p items) (by rw [h2]; simp)
      simp at this
  · intro u
    have h0 := I.logok u
    unfold TaskLog at h0 ⊢
    rw [chosen_append, chosen_silent (hsil u), List.append_nil, offered_append, offered_silent (hsil u),
      List.append_nil, over_append, over_silent (hsil u), List.append_nil]
    exact h0
  · rw [e1, sent_append, closed_append, hs0, hc0]; exact I.head
  · rw [e2, sent_append, closed_append, hs0, hc0]; exact I.final
  · rw [hflights]; exact I.headFl
  · rw [hflights]; exact I.finalFl
  · rw [e3, recorded_append, contentEnds_append, I.recs, hr0, hce0]
  · intro τ k hx
    rcases List.mem_append.mp hx with h1 | h1
    · obtain ⟨job'', h2, h3⟩ := I.fin τ k h1
      by_cases hk : k = j
      · subst hk
        rw [hj] at h2
        cases h2
        exact absurd h3 hnd
      · refine ⟨job'', ?_, h3⟩
        show (s.jobs.set j job')[k]? = _
        rw [List.getElem?_set_ne (fun h => hk h.symm)]
        exact h2
    · have h2 := hl _ h1
      simp only [Prod.mk.injEq, Effect.finished.injEq] at h2
      obtain ⟨_, rfl⟩ := h2
      exact ⟨job', set_get_self hj, hlst (by intro h; rw [h] at h1; cases h1)⟩

end Verif.Gossiper
