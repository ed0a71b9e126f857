import Verif.Props.GossiperSpec

/-! # Lemmas on the gossiper -/

namespace Verif.Gossiper
open Verif.Props.GossiperLife
open Verif.Census (OfferTrace)

theorem run_append (s : State) (a b : List Event) :
    run s (a ++ b) = match run s a with
      | none => none
      | some r => match run r.1 b with
        | none => none
        | some t => some (t.1, r.2 ++ t.2) := by
  induction a generalizing s with
  | nil => simp only [List.nil_append, run]; cases run s b <;> simp
  | cons e es ih =>
    simp only [List.cons_append, run]
    cases hs : step s e with
    | none => simp
    | some r =>
      simp only [ih]
      cases hr : run r.1 es with
      | none => simp
      | some q =>
        simp only
        cases run q.1 b <;> simp

theorem run_snoc {s s' : State} {evs : List Event} {e : Event} {log : Log}
    (h : run s (evs ++ [e]) = some (s', log)) :
    ∃ s1 l1 fx, run s evs = some (s1, l1) ∧ step s1 e = some (s', fx) ∧
      log = l1 ++ fx.map (fun x => (s1.clock, x)) := by
  rw [run_append] at h
  cases hr : run s evs with
  | none => simp [hr] at h
  | some r =>
    simp only [hr, run] at h
    cases hs : step r.1 e with
    | none => simp [hs] at h
    | some q =>
      simp only [hs, Option.some.injEq, Prod.mk.injEq, List.append_nil] at h
      exact ⟨r.1, r.2, q.2, rfl, by rw [hs, ← h.1], h.2.symm⟩

/-- Induction along a run. -/
theorem run_ind {s0 : State} {P : List Event → State → Log → Prop} (h0 : P [] s0 [])
    (hs : ∀ evs s log e s' fx, run s0 evs = some (s, log) → P evs s log → step s e = some (s', fx) →
      P (evs ++ [e]) s' (log ++ fx.map (fun x => (s.clock, x)))) :
    ∀ evs s log, run s0 evs = some (s, log) → P evs s log := by
  have key : ∀ n evs, evs.length = n → ∀ s log, run s0 evs = some (s, log) → P evs s log := by
    intro n
    induction n with
    | zero =>
      intro evs he s log h
      cases List.length_eq_zero_iff.mp he
      simp only [run, Option.some.injEq, Prod.mk.injEq] at h
      rw [← h.1, ← h.2]; exact h0
    | succ n ih =>
      intro evs he s log h
      have hne : evs ≠ [] := by intro h; simp [h] at he
      rw [← List.dropLast_concat_getLast hne] at h ⊢
      obtain ⟨s1, l1, fx, h1, h2, rfl⟩ := run_snoc h
      exact hs _ _ _ _ _ _ h1 (ih _ (by simp [he]) _ _ h1) h2
  exact fun evs => key evs.length evs rfl

/-! ## Calls -/

theorem calls_append (a b : List Event) : calls (a ++ b) = calls a ++ calls b := by
  induction a with
  | nil => rfl
  | cons e es ih => cases e <;> simp [calls, ih]

/-- The items of the content tasks of a call. -/
def itemsOf : Call → List Item
  | .bundle blocks => bundleItems blocks
  | .final none => []
  | .final (some l) => finalItems (builtPrefix l)

def poolOf : Call → Pool
  | .bundle _ => .head
  | .final _ => .final

def seriesOf : Call → List Item
  | .bundle blocks => seriesItems blocks
  | .final _ => []

def inSeries : Stage → Bool
  | .headers => true
  | .resting _ => true
  | _ => false

/-- What does not change in a task. -/
def sig (t : Task) : List Item × Pool × Bool := (t.items, t.pool, t.series)

/-- All that the call needs could be got. -/
def Whole : Call → Prop
  | .bundle _ => True
  | .final b => ∃ l, b = some l ∧ none ∉ l

structure Shape (c : Call) (job : Job) : Prop where
  contents : job.contents = itemsOf c
  sigs : job.tasks.map sig =
    if inSeries job.stage then [(seriesOf c, .head, true)]
    else (itemsOf c).map fun i => ([i], poolOf c, false)
  bundle : inSeries job.stage = true → ∃ b, c = .bundle b
  whole : job.stage = .contents ∨ job.stage = .done → Whole c
  aborted : job.stage = .aborted → ∃ b, c = .final b
  idle : (∃ n, job.stage = .resting n) ∨ job.stage = .done → ∀ t ∈ job.tasks, t.isDone = true

theorem Shape.series {c : Call} {job : Job} (h : Shape c job) {i : Nat} {t : Task}
    (ht : job.tasks[i]? = some t) : t.series = inSeries job.stage := by
  have h1 : (job.tasks.map sig)[i]? = some (sig t) := by rw [List.getElem?_map, ht]; rfl
  rw [h.sigs] at h1
  split at h1
  · rename_i hs
    rw [hs]
    cases i with
    | zero => simp [sig] at h1; exact h1.2.2
    | succ i => simp at h1
  · rename_i hs
    rw [Bool.eq_false_iff.mpr hs]
    rw [List.getElem?_map] at h1
    cases hq : (itemsOf c)[i]? with
    | none => rw [hq] at h1; cases h1
    | some it => rw [hq] at h1; simp [sig] at h1; exact h1.2.2

theorem Shape.pool {c : Call} {job : Job} (h : Shape c job) {i : Nat} {t : Task}
    (ht : job.tasks[i]? = some t) : t.pool = poolOf c := by
  have h1 : (job.tasks.map sig)[i]? = some (sig t) := by rw [List.getElem?_map, ht]; rfl
  rw [h.sigs] at h1
  split at h1
  · rename_i hs
    obtain ⟨b, rfl⟩ := h.bundle hs
    cases i with
    | zero => simp [sig] at h1; exact h1.2.1.symm
    | succ i => simp at h1
  · rw [List.getElem?_map] at h1
    cases hq : (itemsOf c)[i]? with
    | none => rw [hq] at h1; cases h1
    | some it => rw [hq] at h1; simp [sig] at h1; exact h1.2.1.symm

theorem builtPrefix_eq (l : List (Option Built)) : builtPrefix l = upToGap l := by
  induction l with
  | nil => rfl
  | cons x xs ih => cases x <;> simp [builtPrefix, upToGap, ih]

theorem flat2 {α β : Type} (f g : α → β) (l : List α) (i : Nat) :
    (l.flatMap fun b => [f b, g b])[i]? = l[i / 2]?.map fun b => if i % 2 = 0 then f b else g b := by
  induction l generalizing i with
  | nil => simp
  | cons x xs ih =>
    match i with
    | 0 => simp
    | 1 => simp
    | i + 2 =>
      rw [List.flatMap_cons]
      have : (i + 2) / 2 = i / 2 + 1 := by omega
      rw [this]
      have h2 : (i + 2) % 2 = i % 2 := by omega
      rw [h2, List.getElem?_cons_succ, ← ih i]
      rfl

theorem itemsOf_get (c : Call) (i : Nat) : (itemsOf c)[i]? = content c i := by
  cases c with
  | bundle blocks =>
    simp only [itemsOf, bundleItems, content]
    rw [List.getElem?_append, List.length_map, List.getElem?_map, List.getElem?_map]
  | final b =>
    cases b with
    | none => rfl
    | some l =>
      simp only [itemsOf, finalItems, content, ← builtPrefix_eq]
      exact flat2 (fun b : Built => (⟨.headerByHash b.hash, b.value⟩ : Item))
        (fun b => ⟨.headerByNumber b.number, b.value⟩) (builtPrefix l) i

theorem Shape.right {c : Call} {job : Job} (h : Shape c job) {i j : Nat} {t : Task}
    (ht : job.tasks[i]? = some t) : Right c ⟨j, t.series, i⟩ t.items := by
  have hser := h.series ht
  have h1 : (job.tasks.map sig)[i]? = some (sig t) := by rw [List.getElem?_map, ht]; rfl
  rw [h.sigs] at h1
  split at h1
  · rename_i hs
    rw [hs] at hser
    obtain ⟨b, rfl⟩ := h.bundle hs
    cases i with
    | zero =>
      simp [sig] at h1
      simp only [Right, hser]
      exact ⟨trivial, b, rfl, h1.1.symm⟩
    | succ i => simp at h1
  · rename_i hs
    rw [Bool.eq_false_iff.mpr hs] at hser
    simp only [Right, hser]
    rw [List.getElem?_map, itemsOf_get] at h1
    cases hq : content c i with
    | none => rw [hq] at h1; cases h1
    | some it => rw [hq] at h1; simp [sig] at h1; exact ⟨it, rfl, h1.1.symm⟩

/-! ## Reading the log -/

def who : Effect → Option Tid
  | .chose u _ => some u
  | .offer u _ _ => some u
  | .ended u _ _ => some u
  | _ => none

theorem chosen_append (t : Tid) (a b : Log) : chosen t (a ++ b) = chosen t a ++ chosen t b :=
  List.filterMap_append
theorem offered_append (t : Tid) (a b : Log) : offered t (a ++ b) = offered t a ++ offered t b :=
  List.filterMap_append
theorem over_append (t : Tid) (a b : Log) : over t (a ++ b) = over t a ++ over t b :=
  List.filterMap_append
theorem sent_append (k : Nat → Bool) (a b : Log) : sent k (a ++ b) = sent k a + sent k b :=
  List.countP_append
theorem closed_append (k : Nat → Bool) (a b : Log) : closed k (a ++ b) = closed k a + closed k b :=
  List.countP_append
theorem recorded_append (a b : Log) : recorded (a ++ b) = recorded a ++ recorded b :=
  List.filterMap_append
theorem contentEnds_append (e : List Event) (a b : Log) :
    contentEnds e (a ++ b) = contentEnds e a ++ contentEnds e b :=
  List.filterMap_append

/-- Nothing in `l` is about `t`. -/
def Silent (t : Tid) (l : Log) : Prop := ∀ x ∈ l, who x.2 ≠ some t

theorem chosen_silent {t : Tid} {l : Log} (h : Silent t l) : chosen t l = [] := by
  rw [chosen, List.filterMap_eq_nil_iff]
  intro x hx
  have h1 := h x hx
  split
  · rename_i u ps he
    simp only [he, who, ne_eq, Option.some.injEq] at h1
    simp [h1]
  · rfl

theorem offered_silent {t : Tid} {l : Log} (h : Silent t l) : offered t l = [] := by
  rw [offered, List.filterMap_eq_nil_iff]
  intro x hx
  have h1 := h x hx
  split
  · rename_i u ps _ he
    simp only [he, who, ne_eq, Option.some.injEq] at h1
    simp [h1]
  · rfl

theorem over_silent {t : Tid} {l : Log} (h : Silent t l) : over t l = [] := by
  rw [over, List.filterMap_eq_nil_iff]
  intro x hx
  have h1 := h x hx
  split
  · rename_i u ps _ he
    simp only [he, who, ne_eq, Option.some.injEq] at h1
    simp [h1]
  · rfl

theorem Delivered.silent {log l : Log} {t : Tid} {items : List Item} (h : Delivered log t items)
    (hl : Silent t l) : Delivered (log ++ l) t items := by
  obtain ⟨ps, h1, h2, h3⟩ := h
  refine ⟨ps, ?_, ?_, ?_⟩
  · rw [chosen_append, chosen_silent hl, List.append_nil, h1]
  · rw [offered_append, offered_silent hl, List.append_nil, h2]
  · rw [over_append, over_silent hl, List.append_nil]; exact h3

/-- The log agrees with the task. -/
def TaskOk (log : Log) (u : Tid) (t : Task) : Prop :=
  match t.waiting with
  | none => chosen u log = [] ∧ offered u log = [] ∧ over u log = [] ∧ t.flying = []
  | some w => ∃ peers gone, chosen u log = [peers] ∧ peers = gone ++ w ∧
      offered u log = gone.map (fun p => (p, t.items)) ∧ (over u log ++ t.flying.map (·.1)).Perm gone

theorem TaskOk.silent {log l : Log} {u : Tid} {t : Task} (h : TaskOk log u t) (hl : Silent u l) :
    TaskOk (log ++ l) u t := by
  unfold TaskOk at h ⊢
  rw [chosen_append, chosen_silent hl, List.append_nil, offered_append, offered_silent hl,
    List.append_nil, over_append, over_silent hl, List.append_nil]
  exact h

theorem TaskOk.fresh {log : Log} {u : Tid} (h : Silent u log) (items : List Item) (p : Pool) (b : Bool) :
    TaskOk log u (Task.new items p b) :=
  ⟨chosen_silent h, offered_silent h, over_silent h, rfl⟩

theorem isDone_iff (t : Task) : t.isDone = true ↔ TaskOver t := by
  simp [Task.isDone, TaskOver]

theorem TaskOk.delivered {log : Log} {u : Tid} {t : Task} (h : TaskOk log u t) (hd : t.isDone = true) :
    Delivered log u t.items := by
  obtain ⟨hw, hf⟩ := (isDone_iff t).mp hd
  rw [TaskOk, hw] at h
  obtain ⟨ps, g, h1, h2, h3, h4⟩ := h
  rw [List.append_nil] at h2
  rw [hf, List.map_nil, List.append_nil] at h4
  exact ⟨ps, h1, by rw [h3, h2], by rw [h2]; exact h4⟩

/-- The log of one task: nothing, or one choice of peers, of whom some first ones have been asked. -/
def TaskLog (log : Log) (u : Tid) : Prop :=
  (chosen u log = [] ∧ offered u log = [] ∧ over u log = []) ∨
    ∃ asked todo flying, chosen u log = [asked ++ todo] ∧ (offered u log).map (·.1) = asked ∧
      (over u log ++ flying).Perm asked

theorem TaskOk.log {log : Log} {u : Tid} {t : Task} (h : TaskOk log u t) : TaskLog log u := by
  unfold TaskOk at h
  split at h
  · exact .inl ⟨h.1, h.2.1, h.2.2.1⟩
  · obtain ⟨ps, g, h1, h2, h3, h4⟩ := h
    refine .inr ⟨g, _, _, by rw [h1, h2], ?_, h4⟩
    rw [h3, List.map_map]
    exact List.map_id' g

/-! ## Counting -/

theorem sum_set {α : Type} (g : α → Nat) :
    ∀ (l : List α) (i : Nat) (x y : α), l[i]? = some x →
      ((l.set i y).map g).sum + g x = (l.map g).sum + g y
  | [], _, _, _, h => by cases h
  | a :: l, 0, x, y, h => by
    simp only [List.getElem?_cons_zero, Option.some.injEq] at h
    subst h
    simp only [List.set_cons_zero, List.map_cons, List.sum_cons]
    omega
  | a :: l, i + 1, x, y, h => by
    have := sum_set g l i x y (by simpa using h)
    simp only [List.set_cons_succ, List.map_cons, List.sum_cons]
    omega

def taskFlights (p : Pool) (t : Task) : Nat := if t.pool = p then t.flying.length else 0
def jobFlights (p : Pool) (j : Job) : Nat := (j.tasks.map (taskFlights p)).sum
def flights (p : Pool) (s : State) : Nat := (s.jobs.map (jobFlights p)).sum

theorem sum_zero {α : Type} (g : α → Nat) (l : List α) (h : ∀ x ∈ l, g x = 0) : (l.map g).sum = 0 := by
  induction l with
  | nil => rfl
  | cons a l ih =>
    rw [List.map_cons, List.sum_cons, h a (by simp), ih (fun x hx => h x (by simp [hx]))]

theorem sum_pos {α : Type} (g : α → Nat) (l : List α) (h : 0 < (l.map g).sum) :
    ∃ (i : Nat) (x : α), l[i]? = some x ∧ 0 < g x := by
  apply Classical.byContradiction
  intro hc
  have : (l.map g).sum = 0 := by
    apply sum_zero
    intro x hx
    obtain ⟨i, hi⟩ := List.mem_iff_getElem?.mp hx
    apply Classical.byContradiction
    intro h0
    exact hc ⟨i, x, hi, by omega⟩
  omega

theorem flights_setTask {s : State} {j i : Nat} {job : Job} {t t' : Task} (p : Pool)
    (hj : s.jobs[j]? = some job) (ht : job.tasks[i]? = some t) (hp : t'.pool = t.pool) :
    ((s.jobs.set j { job with tasks := job.tasks.set i t' }).map (jobFlights p)).sum
        + (if t.pool = p then t.flying.length else 0)
      = flights p s + (if t.pool = p then t'.flying.length else 0) := by
  have h1 := sum_set (jobFlights p) s.jobs j job { job with tasks := job.tasks.set i t' } hj
  have h2 := sum_set (taskFlights p) job.tasks i t t' ht
  have h3 : jobFlights p job = (job.tasks.map (taskFlights p)).sum := rfl
  have h4 : jobFlights p { job with tasks := job.tasks.set i t' }
      = ((job.tasks.set i t').map (taskFlights p)).sum := rfl
  have h5 : taskFlights p t = if t.pool = p then t.flying.length else 0 := rfl
  have h6 : taskFlights p t' = if t.pool = p then t'.flying.length else 0 := by
    rw [← hp]; rfl
  have h7 : flights p s = (s.jobs.map (jobFlights p)).sum := rfl
  omega

end Verif.Gossiper
