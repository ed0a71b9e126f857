import Verif.Lemmas.NodeLookup
import Verif.Props.NodeId
import Verif.Lemmas.Overlay

/-! # C85: node lookups of the overlay service, and the lookups that keep the routing table filled -/

namespace Verif.Props
open Verif.NodeLookup Verif.Props.NodeLookups
open Verif.Lookup (Enr)

/-- Without peers there is nothing to look up, and the answer is empty at once; with peers the lookup starts. -/
theorem C85_start (c : Ctx) (peers : List Enr) :
    (peers = [] → NodeLookup.start c peers = .inl []) ∧
    (peers ≠ [] → ∃ s, NodeLookup.start c peers = .inr s ∧ s.closed = false) := by
  constructor
  · rintro rfl; rfl
  · intro h
    unfold NodeLookup.start
    rw [if_neg (by simpa using h)]
    exact ⟨_, rfl, rfl⟩

/-- Whatever peers answer and however the times of the polls are, a lookup never aborts, if the node asks for at most 127
distances. -/
theorem C85_runs (c : Ctx) (peers : List Enr) (s0 : NodeLookup.State) (h0 : NodeLookup.start c peers = .inr s0)
    (hd : c.distances ≤ 127) (es : List NodeLookup.Ev) (hs : Sane es) :
    ∃ s h, NodeLookup.run c s0 es = some (s, h) ∧ h.map Prod.fst = es := by
  obtain ⟨s, h, h1, h2, _⟩ := run_reach hd es (.inl (start_open h0)) hs
  exact ⟨s, h, h1, h2⟩

/-- There is one answer at most; nothing follows it, and before it polls are the only events that others see anything of,
with one request or one skipped peer at most. -/
theorem C85_once (c : Ctx) (peers : List Enr) (s0 : NodeLookup.State) (h0 : NodeLookup.start c peers = .inr s0)
    (hd : c.distances ≤ 127) (es : List NodeLookup.Ev) (hs : Sane es) (s : NodeLookup.State) (h : History)
    (hr : NodeLookup.run c s0 es = some (s, h)) (h1 h2 : History) (x : NodeLookup.Ev × List NodeLookup.Out)
    (hh : h = h1 ++ x :: h2) (hx : x.2 ≠ []) :
    Quiet h1 ∧ (∃ now known, x.1 = .poll now known) ∧ x.2.length = 1 ∧
    (∀ l, NodeLookup.Out.answer l ∈ x.2 → ∀ y ∈ h2, y.2 = []) := by
  obtain ⟨s1, s2, k1, k2, k3, k4⟩ := open_before h0 hd hs hr hh
  have ho := k4 hx
  refine ⟨ho.quiet, ?_, ?_, ?_⟩
  · cases hx1 : x.1 with
    | poll now known => exact ⟨now, known, rfl⟩
    | nodes source enrs =>
      obtain ⟨s', g1, _⟩ := nodes_open ho source enrs
      rw [hx1] at k2
      unfold NodeLookup.step at k2
      rw [ho.closed] at k2
      simp only [Bool.false_eq_true, if_false, g1, Option.map_some, Option.some.injEq, Prod.mk.injEq] at k2
      exact absurd k2.2.symm hx
  · cases hx1 : x.1 with
    | poll now known =>
      obtain ⟨s', o, g1, g2⟩ := poll_cases ho hd now known (k3 now known (by simp [hx1]))
      rw [hx1] at k2
      unfold NodeLookup.step at k2
      rw [ho.closed] at k2
      simp only [Bool.false_eq_true, if_false, g1, Option.some.injEq, Prod.mk.injEq] at k2
      obtain ⟨rfl, k2⟩ := k2
      rw [← k2]
      rcases g2 with ⟨_, ⟨g2, _⟩ | ⟨p, _, _, _, ⟨_, g2⟩ | ⟨_, e, ds, g2, _⟩, _⟩⟩ | ⟨_, l, g2, _⟩
      · rw [g2] at k2; exact absurd k2.symm hx
      · rw [g2]; rfl
      · rw [g2]; rfl
      · rw [g2]; rfl
    | nodes source enrs =>
      obtain ⟨s', g1, _⟩ := nodes_open ho source enrs
      rw [hx1] at k2
      unfold NodeLookup.step at k2
      rw [ho.closed] at k2
      simp only [Bool.false_eq_true, if_false, g1, Option.map_some, Option.some.injEq, Prod.mk.injEq] at k2
      exact absurd k2.2.symm hx
  · intro l hl y hy
    obtain ⟨a, b, rfl⟩ := List.append_of_mem hy
    apply Classical.byContradiction
    intro hne
    obtain ⟨t1, t2, _, _, _, m4⟩ := open_before h0 hd hs hr (h1 := h1 ++ x :: a) (x := y) (h2 := b) (by simp [hh])
    exact (m4 hne).quiet x (by simp) l hl

/-- Whom a lookup asks: a node it knows and has not asked, the closest to the target of those, and never the target itself.
The request has the right distances. The record it is sent to is that of discv5 or the routing table, or else one that came
up during the lookup. -/
theorem C85_requests (c : Ctx) (peers : List Enr) (s0 : NodeLookup.State) (h0 : NodeLookup.start c peers = .inr s0)
    (hd : c.distances ≤ 127) (es : List NodeLookup.Ev) (hs : Sane es) (s : NodeLookup.State) (h : History)
    (hr : NodeLookup.run c s0 es = some (s, h)) (h1 h2 : History) (now : Nat) (known : Id → Option Enr)
    (o : List NodeLookup.Out) (hh : h = h1 ++ (.poll now known, o) :: h2) (e : Enr) (ds : List Nat)
    (hm : NodeLookup.Out.request e ds ∈ o) :
    e.id ∈ (log c peers h1).known ∧ e.id ∉ (log c peers h1).askedIds ∧ e.id ≠ c.target ∧
    (∀ j ∈ (log c peers h1).known, j ∉ (log c peers h1).askedIds → j ≠ e.id →
      xorDistance e.id c.target < xorDistance j c.target) ∧
    GoodDistances c.target e.id c.distances ds ∧
    (known e.id = some e ∨ (known e.id = none ∧ e ∈ peers ++ named h1)) := by
  obtain ⟨s1, s2, k1, k2, k3, k4⟩ := open_before h0 hd hs hr hh
  have hne : o ≠ [] := List.ne_nil_of_mem hm
  have ho := k4 hne
  obtain ⟨s', o', g1, g2⟩ := poll_cases ho hd now known (k3 now known (by simp))
  unfold NodeLookup.step at k2
  rw [ho.closed] at k2
  simp only [Bool.false_eq_true, if_false, g1, Option.some.injEq, Prod.mk.injEq] at k2
  obtain ⟨_, rfl⟩ := k2
  rcases g2 with ⟨_, ⟨g2, _⟩ | ⟨p, p1, p2, p3, ⟨_, g2⟩ | ⟨p4, e', ds', g2, p5, p6, p7⟩, _⟩⟩ | ⟨_, l, g2, _⟩
  · exact absurd g2 hne
  · rw [g2] at hm; simp at hm
  · rw [g2] at hm
    simp only [List.mem_singleton, Out.request.injEq] at hm
    obtain ⟨rfl, rfl⟩ := hm
    subst p5
    refine ⟨p1, p2, p4, ?_, p6, ?_⟩
    · intro j hj hja hjn
      rcases p3 j hj hja with h | h
      · exact absurd h hjn
      · exact h
    · rcases p7 with p7 | ⟨p7, p8⟩
      · exact .inl p7
      · refine .inr ⟨p7, ?_⟩
        rcases foldl_keep_sub _ _ p8 with h | h
        · exact List.mem_append_left _ h
        · exact List.mem_append_right _ h
  · rw [g2] at hm; simp at hm

/-- A lookup awaits at most `max parallelism numResults` answers, and at most `parallelism` before that many peers
answered; and it asks nobody twice. -/
theorem C85_pending (c : Ctx) (peers : List Enr) (s0 : NodeLookup.State) (h0 : NodeLookup.start c peers = .inr s0)
    (hd : c.distances ≤ 127) (es : List NodeLookup.Ev) (hs : Sane es) (s : NodeLookup.State) (h : History)
    (hr : NodeLookup.run c s0 es = some (s, h)) (hq : Quiet h) :
    (log c peers h).pending.length ≤ max c.cfg.parallelism c.cfg.numResults ∧
    ((log c peers h).answered.length < c.cfg.parallelism → (log c peers h).pending.length ≤ c.cfg.parallelism) ∧
    (log c peers h).askedIds.Nodup ∧ (∀ id ∈ (log c peers h).askedIds, id ∈ (log c peers h).known) := by
  obtain ⟨s', h', h1, _, h3⟩ := run_reach hd es (.inl (start_open h0)) hs
  rw [hr] at h1
  simp only [Option.some.injEq, Prod.mk.injEq] at h1
  obtain ⟨rfl, rfl⟩ := h1
  rcases h3 with ho | ⟨_, a, now, known, l, b, hab, _⟩
  · exact ⟨Nat.le_trans (Query.pending_le ho.inv) ho.inv.bound,
      fun hf => Nat.le_trans (Query.pending_le ho.inv) (ho.par.few hf).2, ho.inv.nodup, ho.inv.asked⟩
  · have := hq (.poll now known, [.answer l]) (by simp only [List.nil_append] at hab; rw [hab]; simp) l
    simp at this

/-- The answer of a lookup: at most `numResults` nodes in strictly increasing distance to the target, all of which answered;
who answered is left out only if the answer is full and everybody in it is closer. Each record came from the routing table
or from a peer; of a node other than the node itself it is the first that came up.
Missing: the target itself, see `C85_target_violated`. -/
theorem C85_answer_partial (c : Ctx) (peers : List Enr) (s0 : NodeLookup.State) (h0 : NodeLookup.start c peers = .inr s0)
    (hd : c.distances ≤ 127) (es : List NodeLookup.Ev) (hs : Sane es) (s : NodeLookup.State) (h : History)
    (hr : NodeLookup.run c s0 es = some (s, h)) (h1 h2 : History) (now : Nat) (known : Id → Option Enr)
    (o : List NodeLookup.Out) (hh : h = h1 ++ (.poll now known, o) :: h2) (l : List Enr)
    (hm : NodeLookup.Out.answer l ∈ o) (hn : (peers.map Enr.id).Nodup) :
    l.length ≤ c.cfg.numResults ∧
    l.Pairwise (fun a b => xorDistance a.id c.target < xorDistance b.id c.target) ∧
    (∀ e ∈ l, e.id ∈ (log c peers h1).answered) ∧
    (∀ id ∈ (log c peers h1).answered, (∀ e ∈ l, e.id ≠ id) → l.length = c.cfg.numResults ∧
      ∀ e ∈ l, xorDistance e.id c.target < xorDistance id c.target) ∧
    (∀ e ∈ l, e ∈ peers ++ named h1) ∧
    (∀ e ∈ l, e.id ≠ c.self → (peers ++ named h1).find? (fun x => x.id == e.id) = some e) := by
  obtain ⟨s1, s2, k1, k2, k3, k4⟩ := open_before h0 hd hs hr hh
  have hne : o ≠ [] := List.ne_nil_of_mem hm
  have ho := k4 hne
  obtain ⟨s', o', g1, g2⟩ := poll_cases ho hd now known (k3 now known (by simp))
  unfold NodeLookup.step at k2
  rw [ho.closed] at k2
  simp only [Bool.false_eq_true, if_false, g1, Option.some.injEq, Prod.mk.injEq] at k2
  obtain ⟨_, rfl⟩ := k2
  rcases g2 with ⟨_, ⟨g2, _⟩ | ⟨p, _, _, _, ⟨_, g2⟩ | ⟨_, e', ds', g2, _⟩, _⟩⟩ | ⟨_, l', g2, hf⟩
  · exact absurd g2 hne
  · rw [g2] at hm; simp at hm
  · rw [g2] at hm; simp at hm
  · rw [g2] at hm
    simp only [List.mem_singleton, Out.answer.injEq] at hm
    subst hm
    obtain ⟨ids, e1, e2, e3, e4, e5, _⟩ := hf.early
    subst e1
    simp only [List.length_map] at e2 e5
    have hfirst : First c.self ((named h1).foldl (keep c.self) peers) (peers ++ named h1) := by
      refine foldl_keep_first _ _ _ ?_ (fun e he => ⟨e, he, rfl⟩)
      intro e he _
      exact find_nodup hn he
    rw [List.pairwise_map] at e3
    refine ⟨e2, e3, fun e he => e4 _ (List.mem_map.mpr ⟨e, he, rfl⟩), ?_, ?_, ?_⟩
    · intro id hid hnot
      have := e5 id hid (by
        intro hm
        obtain ⟨e, he, h3⟩ := List.mem_map.mp hm
        exact hnot e he h3)
      exact ⟨this.1, fun e he => this.2 _ (List.mem_map.mpr ⟨e, he, rfl⟩)⟩
    · intro e he
      rcases foldl_keep_sub _ _ (hf.records e he) with h | h
      · exact List.mem_append_left _ h
      · exact List.mem_append_right _ h
    · intro e he hne'
      exact hfirst e (hf.records e he) hne'

/-- Before its time is over, a lookup does not answer too early: if it knows a node that it did not ask, or whose answer it
still awaits, then the answer is full and everybody in it is closer to the target than that node. -/
theorem C85_finish (c : Ctx) (peers : List Enr) (s0 : NodeLookup.State) (h0 : NodeLookup.start c peers = .inr s0)
    (hd : c.distances ≤ 127) (es : List NodeLookup.Ev) (hs : Sane es) (s : NodeLookup.State) (h : History)
    (hr : NodeLookup.run c s0 es = some (s, h)) (h1 h2 : History) (now : Nat) (known : Id → Option Enr)
    (o : List NodeLookup.Out) (hh : h = h1 ++ (.poll now known, o) :: h2) (l : List Enr)
    (hm : NodeLookup.Out.answer l ∈ o) (htime : now - (firstPoll h1).getD now < c.cfg.overallTimeout)
    (id : Id) (hid : id ∈ (log c peers h1).known)
    (hopen : id ∉ (log c peers h1).askedIds ∨
      ∃ deadline, (id, deadline) ∈ (log c peers (h1 ++ [(.poll now known, o)])).pending) :
    l.length = c.cfg.numResults ∧ ∀ e ∈ l, xorDistance e.id c.target < xorDistance id c.target := by
  obtain ⟨s1, s2, k1, k2, k3, k4⟩ := open_before h0 hd hs hr hh
  have hne : o ≠ [] := List.ne_nil_of_mem hm
  have ho := k4 hne
  obtain ⟨s', o', g1, g2⟩ := poll_cases ho hd now known (k3 now known (by simp))
  unfold NodeLookup.step at k2
  rw [ho.closed] at k2
  simp only [Bool.false_eq_true, if_false, g1, Option.some.injEq, Prod.mk.injEq] at k2
  obtain ⟨_, rfl⟩ := k2
  rcases g2 with ⟨_, ⟨g2, _⟩ | ⟨p, _, _, _, ⟨_, g2⟩ | ⟨_, e', ds', g2, _⟩, _⟩⟩ | ⟨_, l', g2, hf⟩
  · exact absurd g2 hne
  · rw [g2] at hm; simp at hm
  · rw [g2] at hm; simp at hm
  · rw [g2] at hm
    simp only [List.mem_singleton, Out.answer.injEq] at hm
    subst hm
    obtain ⟨ids, e1, _, _, _, _, e6⟩ := hf.early
    subst e1
    have := e6 htime id hid (by
      rcases hopen with hopen | ⟨d, hopen⟩
      · exact .inl hopen
      · rw [g2] at hopen
        exact .inr (List.mem_map.mpr ⟨_, hopen, rfl⟩))
    rw [List.length_map] at this
    exact ⟨this.1, fun e he => this.2 _ (List.mem_map.mpr ⟨e, he, rfl⟩)⟩

/-- A lookup ends: a poll after its time is over answers, unless there is one more node to ask; and so does a poll when
everybody it knows answered, failed, or let the time pass. -/
theorem C85_ends (c : Ctx) (peers : List Enr) (s0 : NodeLookup.State) (h0 : NodeLookup.start c peers = .inr s0)
    (hd : c.distances ≤ 127) (es : List NodeLookup.Ev) (hs : Sane es) (s : NodeLookup.State) (h : History)
    (hr : NodeLookup.run c s0 es = some (s, h)) (h1 h2 : History) (now : Nat) (known : Id → Option Enr)
    (o : List NodeLookup.Out) (hh : h = h1 ++ (.poll now known, o) :: h2) (hq : Quiet h1) :
    (c.cfg.overallTimeout ≤ now - (firstPoll h1).getD now →
      (∃ l, o = [.answer l]) ∨ ∃ p ∈ (log c peers h1).known, p ∉ (log c peers h1).askedIds ∧
        p ∈ (log c peers (h1 ++ [(.poll now known, o)])).askedIds) ∧
    ((∀ id ∈ (log c peers h1).known, id ∈ (log c peers h1).answered ∨ id ∈ (log c peers h1).failed ∨
        ∃ deadline, (id, deadline) ∈ (log c peers h1).asked ∧ deadline ≤ now) →
      ∃ l, o = [.answer l]) := by
  obtain ⟨s1, s2, k1, k2, k3, k4⟩ := open_before h0 hd hs hr hh
  have ho : Open c peers h1 s1 := by
    rcases k1 with ho | ⟨_, a, n, kn, l, b, hab, _⟩
    · exact ho
    · have := hq (.poll n kn, [.answer l]) (by rw [hab]; simp) l
      simp at this
  obtain ⟨s', o', g1, g2⟩ := poll_cases ho hd now known (k3 now known (by simp))
  unfold NodeLookup.step at k2
  rw [ho.closed] at k2
  simp only [Bool.false_eq_true, if_false, g1, Option.some.injEq, Prod.mk.injEq] at k2
  obtain ⟨_, rfl⟩ := k2
  rcases g2 with ⟨_, ⟨g2, g3, g4⟩ | ⟨p, p1, p2, _, g2, g4⟩⟩ | ⟨_, l', g2, _⟩
  · exact ⟨fun ht => by omega, fun ha => absurd ha g4⟩
  · refine ⟨fun _ => .inr ⟨p, p1, p2, ?_⟩, fun ha => absurd ha g4⟩
    have hov := ho.notOver
    rcases g2 with ⟨_, g2⟩ | ⟨_, e, ds, g2, g5, _⟩
    · rw [g2, log_append]
      simp only [seen, List.foldl_cons, List.foldl_nil]
      have : ∀ r : Record, (r.see c.cfg (.failure p)).askedIds = r.askedIds := by
        intro r; simp only [Record.see]; split <;> rfl
      rw [this]
      simp [Record.see, hov, Record.askedIds]
    · rw [g2, log_append]
      simp only [seen, List.foldl_cons, List.foldl_nil, g5]
      simp [Record.see, hov, Record.askedIds]
  · exact ⟨fun _ => .inl ⟨l', g2⟩, fun _ => ⟨l', g2⟩⟩

/-- VIOLATED: a lookup finds its target. It never does: the target itself is not asked, but skipped as if it had failed, so
it is in no answer, whoever names it. -/
theorem C85_target_violated (c : Ctx) (peers : List Enr) (s0 : NodeLookup.State)
    (h0 : NodeLookup.start c peers = .inr s0) (hd : c.distances ≤ 127) (es : List NodeLookup.Ev) (hs : Sane es)
    (s : NodeLookup.State) (h : History) (hr : NodeLookup.run c s0 es = some (s, h)) (x : NodeLookup.Ev × List NodeLookup.Out)
    (hx : x ∈ h) :
    (∀ l, NodeLookup.Out.answer l ∈ x.2 → ∀ e ∈ l, e.id ≠ c.target) ∧
    ∀ p, NodeLookup.Out.skipped p ∈ x.2 → p = c.target := by
  obtain ⟨h1, h2, hh⟩ := List.append_of_mem hx
  obtain ⟨s1, s2, k1, k2, k3, k4⟩ := open_before h0 hd hs hr hh
  by_cases hne : x.2 = []
  · rw [hne]; simp
  · have ho := k4 hne
    cases hx1 : x.1 with
    | nodes source enrs =>
      obtain ⟨s', g1, _⟩ := nodes_open ho source enrs
      rw [hx1] at k2
      unfold NodeLookup.step at k2
      rw [ho.closed] at k2
      simp only [Bool.false_eq_true, if_false, g1, Option.map_some, Option.some.injEq, Prod.mk.injEq] at k2
      exact absurd k2.2.symm hne
    | poll now known =>
      obtain ⟨s', o', g1, g2⟩ := poll_cases ho hd now known (k3 now known (by simp [hx1]))
      rw [hx1] at k2
      unfold NodeLookup.step at k2
      rw [ho.closed] at k2
      simp only [Bool.false_eq_true, if_false, g1, Option.some.injEq, Prod.mk.injEq] at k2
      obtain ⟨_, k2⟩ := k2
      rcases g2 with ⟨_, ⟨g2, _⟩ | ⟨p, _, _, _, ⟨g3, g2⟩ | ⟨_, e', ds', g2, _⟩, _⟩⟩ | ⟨_, l', g2, hf⟩
      · exact absurd (k2 ▸ g2) hne
      · rw [← k2, g2]; simp [g3]
      · rw [← k2, g2]; simp
      · rw [← k2, g2]
        constructor
        · intro l hl e he ht
          simp only [List.mem_singleton, Out.answer.injEq] at hl
          subst hl
          obtain ⟨ids, e1, _, _, e4, _⟩ := hf.early
          subst e1
          have := e4 e.id (List.mem_map.mpr ⟨e, he, rfl⟩)
          rw [ht] at this
          exact ho.target_answered this
        · intro p hp; simp at hp

/-- VIOLATED: `lookup_enr` of a node outside the routing table yields a record of that node. What it yields is never a record
of that node, but the record with the highest sequence number of those in the answer of the lookup: that of somebody else. -/
theorem C85_lookup_enr_violated (c : Ctx) (peers : List Enr) (s0 : NodeLookup.State)
    (h0 : NodeLookup.start c peers = .inr s0) (hd : c.distances ≤ 127) (es : List NodeLookup.Ev) (hs : Sane es)
    (s : NodeLookup.State) (h : History) (hr : NodeLookup.run c s0 es = some (s, h))
    (x : NodeLookup.Ev × List NodeLookup.Out) (hx : x ∈ h) (l : List Enr) (hl : NodeLookup.Out.answer l ∈ x.2)
    (own : Enr) (hself : own.id ≠ c.target) (known : Option Enr) (ask : Enr → Except Overlay.ReqErr (List Enr))
    (e : Enr)
    (he : Overlay.lookupEnr Enr.id (fun e => e.seq.toNat) own none known l ask c.target = .ok e) : e.id ≠ c.target := by
  have hno := (C85_target_violated c peers s0 h0 hd es hs s h hr x hx).1 l hl
  unfold Overlay.lookupEnr Overlay.getEnr Overlay.lookupNode at he
  simp only [if_neg (Ne.symm hself), Bool.false_eq_true, if_false] at he
  cases hm : Overlay.maxBySeq (fun e : Enr => e.seq.toNat) l with
  | none => rw [hm] at he; simp at he
  | some e' =>
    rw [hm] at he
    simp only at he
    split at he
    · simp only [Except.ok.injEq] at he
      subst he
      exact hno _ (Overlay.maxBySeq_newest hm).1
    · cases he

/-! ## The lookups for the routing table -/

/-- At its start the node looks up itself and then one random id in each of 17 buckets, at the log2 distances 239 to 255.
Missing: the farthest bucket, see `C85_initial_farthest_violated`. -/
theorem C85_initial_partial (self : Id) (draws : Nat → Draw)
    (hr : ∀ b, 238 ≤ b → b < 255 → RandomOk (255 - b) (draws b).pick (draws b).fill) :
    ∃ rest, initialTargets self draws = self.bytes :: rest ∧
      rest.map (fun t => distLog2 (xorDistanceBytes self.bytes t)) = (List.range' 239 17).map some ∧
      ∀ t ∈ rest, t.length = 32 := by
  have hb : ∀ b ∈ initialBuckets, 238 ≤ b ∧ b < 255 := by
    intro b hb
    simp only [initialBuckets, expectedBuckets, List.mem_range'_1] at hb
    omega
  have h1 : ∀ b ∈ initialBuckets, (generateRandomNodeId (UInt8.ofNat b) self (draws b).pick (draws b).fill).length = 32 ∧
      distLog2 (xorDistanceBytes self.bytes (generateRandomNodeId (UInt8.ofNat b) self (draws b).pick (draws b).fill)) =
        some (b + 1) := by
    intro b hbb
    have := hb b hbb
    have hu : (UInt8.ofNat b).toNat = b := by rw [UInt8.toNat_ofNat']; omega
    have h2 := C43_bucket self (UInt8.ofNat b) (draws b).pick (draws b).fill (by rw [hu]; exact hr b this.1 this.2)
    rw [hu] at h2
    exact h2
  have h2 : List.range' 239 17 = initialBuckets.map (· + 1) := by decide
  rw [h2]
  unfold initialTargets
  generalize initialBuckets = bs at h1
  refine ⟨_, rfl, ?_, ?_⟩
  · rw [List.map_map, List.map_map]
    apply List.map_congr_left
    intro b hb
    simp only [Function.comp_apply]
    exact (h1 b hb).2
  · intro t ht
    obtain ⟨b, hb, rfl⟩ := List.mem_map.mp ht
    exact (h1 b hb).1

/-- VIOLATED: the lookups at the start cover the 17 farthest buckets. The farthest one, in which half of all nodes are, is left
out, whatever is drawn. -/
theorem C85_initial_farthest_violated (self : Id) (draws : Nat → Draw)
    (hr : ∀ b, 238 ≤ b → b < 255 → RandomOk (255 - b) (draws b).pick (draws b).fill) :
    ∀ t ∈ initialTargets self draws, distLog2 (xorDistanceBytes self.bytes t) ≠ some 256 := by
  have hex := C85_initial_partial self draws hr
  generalize initialTargets self draws = ts at hex
  obtain ⟨rest, h1, h2, _⟩ := hex
  subst h1
  intro t ht
  rcases List.mem_cons.mp ht with h0 | ht
  · have h3 : xorDistanceBytes self.bytes self.bytes = 0 := xorDistance_self self
    rw [h0, h3, distLog2_eq_none.2 rfl]
    exact fun h => nomatch h
  · intro h3
    have hm := List.mem_map_of_mem (f := fun t => distLog2 (xorDistanceBytes self.bytes t)) ht
    rw [h2] at hm
    simp only [h3] at hm
    exact absurd hm (by decide)

/-- A refresh looks up a random id in one of the 17 farthest buckets: at a log2 distance of 240 to 256. -/
theorem C85_refresh (self : Id) (bucket : Nat) (hb : bucket ∈ refreshBuckets) (d : Draw)
    (hr : RandomOk (255 - bucket) d.pick d.fill) :
    ∃ t, refreshTarget self bucket d = some t ∧ t.length = 32 ∧
      distLog2 (xorDistanceBytes self.bytes t) = some (bucket + 1) ∧ 240 ≤ bucket + 1 ∧ bucket + 1 ≤ 256 := by
  simp only [refreshBuckets, expectedBuckets, List.mem_range'_1] at hb
  have hu : (UInt8.ofNat bucket).toNat = bucket := by rw [UInt8.toNat_ofNat']; omega
  have := C43_bucket self (UInt8.ofNat bucket) d.pick d.fill (by rw [hu]; exact hr)
  rw [hu] at this
  exact ⟨_, by unfold refreshTarget; rw [if_pos (by omega)], this.1, this.2, by omega, by omega⟩

/-- Every one of the 17 farthest buckets can be refreshed. -/
theorem C85_refresh_all (b : Nat) : b ∈ refreshBuckets ↔ 239 ≤ b ∧ b ≤ 255 := by
  simp only [refreshBuckets, expectedBuckets, List.mem_range'_1]
  omega

/-! ## A lookup -/

namespace NodeLookupEx

/-- The node is 100, it looks for node 1, asks for three distances, at most two nodes at once, and wants three. -/
def ctx : Ctx := ⟨100#256, 1#256, 3, ⟨2, 3, 10, 100⟩⟩
def a : Enr := ⟨8#256, 5, [1]⟩
def aNew : Enr := ⟨8#256, 6, [2]⟩
def b : Enr := ⟨9#256, 7, []⟩
def me : Enr := ⟨100#256, 3, []⟩
def wanted : Enr := ⟨1#256, 4, []⟩
def nobody : Id → Option Enr := fun _ => none

/-- The routing table has only node 8; that one names the target, node 9, the node itself, and a newer record of itself. -/
def events : List NodeLookup.Ev :=
  [.poll 0 nobody, .nodes a [wanted, b, me, aNew], .poll 1 nobody, .poll 2 nobody, .poll 3 nobody,
   .nodes b [], .poll 15 nobody, .poll 16 nobody]

def begun : NodeLookup.State := ⟨[a], none, Query.withConfig ctx.cfg ctx.target [8#256], false⟩

def outs : List (List NodeLookup.Out) :=
  [[.request a [4, 5, 3]], [], [.skipped 1#256], [.request b [4, 5, 3]], [.request me [7, 8, 6]], [], [.answer [b, a]], []]

theorem begins : NodeLookup.start ctx [a] = .inr begun := rfl

theorem sane : Sane events := by
  intro now known hm id e he
  simp only [events, List.mem_cons, Ev.poll.injEq, reduceCtorEq, false_or, List.not_mem_nil, or_false] at hm
  rcases hm with ⟨_, rfl⟩ | ⟨_, rfl⟩ | ⟨_, rfl⟩ | ⟨_, rfl⟩ | ⟨_, rfl⟩ | ⟨_, rfl⟩ <;> cases he

theorem runs : (NodeLookup.run ctx begun events).map (fun r => r.2.map Prod.snd) = some outs := by decide +kernel

end NodeLookupEx

open NodeLookupEx in
/-- The hypotheses of the theorems above are met by a lookup with requests, a skipped peer and an answer. -/
example : NodeLookup.start ctx [a] = .inr begun ∧ ctx.distances ≤ 127 ∧ Sane events ∧
    (NodeLookup.run ctx begun events).isSome = true ∧ ([a].map Enr.id).Nodup :=
  ⟨begins, by decide, sane, by decide +kernel, by decide⟩

open NodeLookupEx in
/-- VIOLATED: a node asks others. When a peer names the node itself, the lookup asks the node itself: FIND_NODES goes to its
own record. -/
theorem C85_asks_itself_violated :
    ∃ (c : Ctx) (peers : List Enr) (s0 : NodeLookup.State) (es : List NodeLookup.Ev) (e : Enr) (ds : List Nat),
      NodeLookup.start c peers = .inr s0 ∧ Sane es ∧ e.id = c.self ∧ (∀ p ∈ peers, p.id ≠ c.self) ∧
      ∃ os, (NodeLookup.run c s0 es).map (fun r => r.2.map Prod.snd) = some os ∧ [NodeLookup.Out.request e ds] ∈ os :=
  ⟨ctx, [a], begun, events, me, [7, 8, 6], begins, sane, rfl, by decide, outs, runs, by decide⟩

open NodeLookupEx in
/-- VIOLATED: the answer has the newest records that came up. Node 8 sent its own newer record, the answer has the old one. -/
theorem C85_stale_violated :
    ∃ (c : Ctx) (peers : List Enr) (s0 : NodeLookup.State) (es : List NodeLookup.Ev) (old new : Enr) (l more : List Enr),
      NodeLookup.start c peers = .inr s0 ∧ Sane es ∧ old.id = new.id ∧ old.seq < new.seq ∧ old.id ≠ c.self ∧
      .nodes old more ∈ es ∧ new ∈ more ∧ old ∈ l ∧ new ∉ l ∧
      ∃ os, (NodeLookup.run c s0 es).map (fun r => r.2.map Prod.snd) = some os ∧ [NodeLookup.Out.answer l] ∈ os :=
  ⟨ctx, [a], begun, events, a, aNew, [b, a], [wanted, b, me, aNew], begins, sane, rfl, by decide, by decide,
    by simp [events], by decide, by decide, by decide, outs, runs, by decide⟩

open NodeLookupEx in
/-- `lookup_enr` for node 1 yields the record of node 9, although node 8 sent the record of node 1. -/
example : Overlay.lookupEnr Enr.id (fun e => e.seq.toNat) me none none [b, a] (fun _ => .error .failure) 1#256 = .ok b := rfl

/-- Without an answer within its time a lookup ends with those who answered: with nobody here. -/
example : (NodeLookup.run NodeLookupEx.ctx NodeLookupEx.begun [.poll 0 NodeLookupEx.nobody, .poll 9 NodeLookupEx.nobody,
      .poll 10 NodeLookupEx.nobody]).map (fun r => r.2.map Prod.snd) =
    some [[.request NodeLookupEx.a [4, 5, 3]], [], [.answer []]] := by decide +kernel

/-- Draws as the theorems on random ids ask for. -/
example : RandomOk (255 - 238) 64 (List.replicate 29 7) ∧ RandomOk (255 - 255) 200 (List.replicate 31 7) := by
  constructor <;> (unfold RandomOk; decide)

end Verif.Props
