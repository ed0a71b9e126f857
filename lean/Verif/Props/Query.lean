import Verif.Lemmas.QueryPar

/-!
C09, C10: lookups ask every peer at most once, keep to their limits, return the closest peers that
answered, finish, and stay finished.
-/

namespace Verif.Props
open Verif Verif.Query

/-! ### C09 -/

/-- Whatever is reported to a node lookup, in whatever order and at whatever times: it never
aborts; it only asks peers it was told about and asks none of them twice; it waits for at most
`max parallelism numResults` answers at a time, and for at most `parallelism` as long as fewer than
`parallelism` peers have answered. -/
theorem C09_asks (cfg : Config) (target : Id) (known : List Id) (es : List Event) :
    ∃ q hist, run (withConfig cfg target known) es = some (q, hist) ∧ hist.map (·.1) = es ∧
      (nodeRecord cfg known hist).askedIds.Nodup ∧
      (∀ id ∈ (nodeRecord cfg known hist).askedIds, id ∈ (nodeRecord cfg known hist).known) ∧
      (nodeRecord cfg known hist).pending.length ≤ max cfg.parallelism cfg.numResults ∧
      ((nodeRecord cfg known hist).answered.length < cfg.parallelism →
        (nodeRecord cfg known hist).pending.length ≤ cfg.parallelism) := by
  obtain ⟨q, hist, h1, h2, h3, h4, h5⟩ := start_all cfg target known es
  exact ⟨q, hist, h1, h2, h3.nodup, h3.asked, Nat.le_trans (pending_le h3) h3.bound,
    fun h => Nat.le_trans (pending_le h3) (h5.few h).2⟩

/-- The same for content lookups. -/
theorem C09_content_asks (cfg : Config) (target : Id) (known : List Id) (es : List CEvent) :
    ∃ s hist, cRun ⟨cWithConfig cfg target known, []⟩ es = some (s, hist) ∧
      hist.map (·.1) = es ∧
      (contentRecord cfg known hist).askedIds.Nodup ∧
      (∀ id ∈ (contentRecord cfg known hist).askedIds,
        id ∈ (contentRecord cfg known hist).known) ∧
      (contentRecord cfg known hist).pending.length ≤ max cfg.parallelism cfg.numResults ∧
      ((contentRecord cfg known hist).answered.length < cfg.parallelism →
        (contentRecord cfg known hist).pending.length ≤ cfg.parallelism) := by
  obtain ⟨s, hist, h1, h2, h3, h5⟩ := cStart_all cfg target known es
  exact ⟨s, hist, h1, h2, h3.base.nodup, h3.base.asked,
    Nat.le_trans (pending_le h3.base) h3.base.bound,
    fun h => Nat.le_trans (pending_le h3.base) (h5.few h).2⟩

/-- The peer `poll` hands out is the closest to the target among the known peers not asked yet. -/
theorem C09_closest_first (cfg : Config) (target : Id) (known : List Id) (es : List Event)
    (q : Query) (hist : List (Event × Option QState))
    (h : run (withConfig cfg target known) es = some (q, hist)) (now : Nat) (q' : Query) (p : Id)
    (hp : poll q now = some (q', .waiting (some p))) :
    p ∈ (nodeRecord cfg known hist).known ∧ p ∉ (nodeRecord cfg known hist).askedIds ∧
    ∀ j ∈ (nodeRecord cfg known hist).known, j ∉ (nodeRecord cfg known hist).askedIds → j ≠ p →
      xorDistance p target < xorDistance j target := by
  obtain ⟨_, h1, _, _⟩ := run_unique h
  unfold poll at hp
  by_cases hq : q.progress = .finished
  · rw [if_pos hq] at hp
    simp at hp
  · rw [if_neg hq] at hp
    obtain ⟨a, b, c⟩ := (pollPeers_effect h1 hp).2.2.1 p rfl
    exact ⟨a, b, fun j hj hja hne => (c j hj hja).resolve_left hne⟩

/-- The result of a lookup, at any time: at most `numResults` peers, in strictly increasing
distance to the target, each of which answered; and a peer that answered is left out only if the
result is full and all peers in it are closer. -/
theorem C09_result (cfg : Config) (target : Id) (known : List Id) (es : List Event)
    (q : Query) (hist : List (Event × Option QState))
    (h : run (withConfig cfg target known) es = some (q, hist)) :
    (intoResult q).length ≤ cfg.numResults ∧
    (intoResult q).Pairwise (fun a b => xorDistance a target < xorDistance b target) ∧
    (∀ id ∈ intoResult q, id ∈ (nodeRecord cfg known hist).answered) ∧
    (∀ id ∈ (nodeRecord cfg known hist).answered, id ∉ intoResult q →
      (intoResult q).length = cfg.numResults ∧
      ∀ x ∈ intoResult q, xorDistance x target < xorDistance id target) := by
  obtain ⟨_, hi, _, _⟩ := run_unique h
  rw [intoResult_eq, hi.cfgEq]
  have hsort := succIds_sorted hi.sorted
  refine ⟨by rw [List.length_take]; exact Nat.min_le_left _ _, hsort.sublist (List.take_sublist _ _),
    ?_, ?_⟩
  · intro id hid
    have hm := mem_succIds.mp (List.mem_of_mem_take hid)
    exact (hi.state _ hm).2.1
  · intro id hid hnot
    obtain ⟨p, hp, rfl⟩ := (hi.known id).mpr (hi.asked id (hi.answered id hid))
    have hps : p.state = .succeeded := by
      have hs := hi.state p hp
      unfold StateOk at hs
      cases hst : p.state with
      | succeeded => rfl
      | notContacted => rw [hst] at hs; exact absurd (hi.answered _ hid) hs
      | waiting t => rw [hst] at hs; exact absurd hid hs.2.1
      | unresponsive => rw [hst] at hs; exact absurd hid hs.2.1
      | failed => rw [hst] at hs; exact absurd hid hs.2.1
    have hmem : p.id ∈ succIds q.peers := mem_succIds.mpr (by rw [← hps]; exact hp)
    have hsplit := List.take_append_drop cfg.numResults (succIds q.peers)
    rw [← hsplit] at hmem hsort
    rcases List.mem_append.mp hmem with hm | hm
    · exact absurd hm hnot
    · have hpos := List.length_pos_of_mem hm
      rw [List.length_drop] at hpos
      refine ⟨by rw [List.length_take]; omega, ?_⟩
      intro x hx
      exact (List.pairwise_append.mp hsort).2.2 x hx p.id hm

/-- A lookup does not finish too early: if a known peer was not asked, or its answer is still
awaited, then the result is full and all peers in it are closer than that peer. -/
theorem C09_finish_reason (cfg : Config) (target : Id) (known : List Id) (es : List Event)
    (q : Query) (hist : List (Event × Option QState))
    (h : run (withConfig cfg target known) es = some (q, hist))
    (hover : (nodeRecord cfg known hist).over = true)
    (id : Id) (hk : id ∈ (nodeRecord cfg known hist).known)
    (ho : id ∉ (nodeRecord cfg known hist).askedIds ∨
      ∃ d, (id, d) ∈ (nodeRecord cfg known hist).pending) :
    (intoResult q).length = cfg.numResults ∧
      ∀ x ∈ intoResult q, xorDistance x target < xorDistance id target := by
  obtain ⟨_, _, hf, _⟩ := run_unique h
  refine hf hover id hk ?_
  rcases ho with ho | ⟨d, ho⟩
  · exact .inl ho
  · exact .inr (List.mem_map.mpr ⟨_, ho, rfl⟩)

/-! ### C10 -/

/-- Once `poll` has returned `Finished`, every later event leaves the lookup, and so its result,
unchanged, and every later poll returns `Finished`. -/
theorem C10_stable (cfg : Config) (target : Id) (known : List Id) (es : List Event)
    (q : Query) (hist : List (Event × Option QState))
    (h : run (withConfig cfg target known) es = some (q, hist))
    (hover : (nodeRecord cfg known hist).over = true) (later : List Event) :
    ∃ hist', run q later = some (q, hist') ∧ hist'.map (·.1) = later ∧
      ∀ x ∈ hist', ∀ now, x.1 = .poll now → x.2 = some .finished := by
  obtain ⟨_, hi, _, _⟩ := run_unique h
  exact run_finished later (hi.over.mp hover)

/-- The same for the result of a content lookup: content reported later never changes it. -/
theorem C10_content_stable (cfg : Config) (target : Id) (known : List Id) (es : List CEvent)
    (s : Content) (hist : List (CEvent × Option QState))
    (h : cRun ⟨cWithConfig cfg target known, []⟩ es = some (s, hist))
    (hover : (contentRecord cfg known hist).over = true) (later : List CEvent) :
    ∃ s' hist', cRun s later = some (s', hist') ∧ cIntoResult s'.q = cIntoResult s.q ∧
      ∀ x ∈ hist', ∀ now, x.1 = .poll now → x.2 = some .finished := by
  obtain ⟨_, hi, _⟩ := cRun_unique h
  obtain ⟨s', hist', h1, h2, h3, h4⟩ := cRun_finished later (hi.base.over.mp hover)
  refine ⟨s', hist', h1, ?_, h4⟩
  unfold cIntoResult pendingPeers
  rw [h2, h3]

/-- If every known peer answered, failed or let its time pass, the next poll returns `Finished`. -/
theorem C10_finishes (cfg : Config) (target : Id) (known : List Id) (es : List Event)
    (q : Query) (hist : List (Event × Option QState))
    (h : run (withConfig cfg target known) es = some (q, hist)) (now : Nat)
    (hdone : ∀ id ∈ (nodeRecord cfg known hist).known,
      id ∈ (nodeRecord cfg known hist).answered ∨ id ∈ (nodeRecord cfg known hist).failed ∨
      ∃ deadline, (id, deadline) ∈ (nodeRecord cfg known hist).asked ∧ deadline ≤ now) :
    ∃ q', poll q now = some (q', .finished) := by
  obtain ⟨_, hi, _, _⟩ := run_unique h
  unfold poll
  by_cases hq : q.progress = .finished
  · rw [if_pos hq]; exact ⟨q, rfl⟩
  · rw [if_neg hq]
    obtain ⟨q', h1, _⟩ := pollPeers_allDone hi hdone (some 0)
    exact ⟨q', h1⟩

/-- A content lookup: if moreover all the content reported to it was announced for validation and
every validation task has ended, and ended with a message, the next poll returns `Finished`. -/
theorem C10_content_finishes_partial (cfg : Config) (target : Id) (known : List Id)
    (es : List CEvent) (s : Content) (hist : List (CEvent × Option QState))
    (h : cRun ⟨cWithConfig cfg target known, []⟩ es = some (s, hist)) (now : Nat)
    (hdone : ∀ id ∈ (contentRecord cfg known hist).known,
      id ∈ (contentRecord cfg known hist).answered ∨
      id ∈ (contentRecord cfg known hist).failed ∨
      ∃ deadline, (id, deadline) ∈ (contentRecord cfg known hist).asked ∧ deadline ≤ now)
    (hann : contentReports cfg (Record.start cfg known) hist = announced hist)
    (hended : s.tasks = [])
    (hmsg : ∀ n stored valid, CEvent.taskEnds n .dropped stored valid ∉ es) :
    ∃ q', cPoll s.q now = some (q', .finished) := by
  obtain ⟨_, hi, _⟩ := cRun_unique h
  unfold cPoll
  by_cases hq : s.q.base.progress = .finished
  · rw [if_pos hq]; exact ⟨s.q, rfl⟩
  · rw [if_neg hq]
    have hex := hi.exact hmsg hq
    have hone := hi.one
    have hqueue := hi.queue
    rw [hann] at hqueue
    have hpend : s.q.pendingValidations = [] := by
      have := congrArg List.length hqueue
      rw [List.length_append] at this
      exact List.eq_nil_of_length_eq_zero (by omega)
    rw [hended, List.length_nil, Nat.zero_add] at hex
    obtain ⟨b, h1, _⟩ := pollPeers_allDone hi.base hdone none
    cases hc : s.q.chan with
    | nil =>
      rw [hc] at hex
      simp only [List.length_nil] at hex
      refine ⟨{ s.q with base := b }, ?_⟩
      simp only [cPollRest, ← hex, hpend, h1, Nat.lt_irrefl, if_false, Option.map_some]
    | cons m rest =>
      rw [hc, List.length_cons] at hex
      cases m with
      | some v => exact ⟨_, rfl⟩
      | none =>
        have h0 : s.q.numValidating ≠ 0 := by omega
        have h1' : s.q.numValidating - 1 = 0 := by omega
        refine ⟨{ s.q with chan := rest, base := b, numValidating := 0 }, ?_⟩
        simp only [h0, if_false, cPollRest, hpend, h1, h1', Nat.lt_irrefl, Option.map_some]

/-- A lookup that waits for nobody makes progress at the next poll: it hands out a peer or
finishes. -/
theorem C10_never_stuck (cfg : Config) (target : Id) (known : List Id) (es : List Event)
    (q : Query) (hist : List (Event × Option QState))
    (h : run (withConfig cfg target known) es = some (q, hist))
    (hp : 0 < cfg.parallelism) (hn : 0 < cfg.numResults)
    (hfree : ∀ id ∈ (nodeRecord cfg known hist).askedIds,
      id ∈ (nodeRecord cfg known hist).answered ∨ id ∈ (nodeRecord cfg known hist).failed)
    (now : Nat) :
    ∃ q' st, poll q now = some (q', st) ∧
      (st = .finished ∨ ∃ p ∈ (nodeRecord cfg known hist).known, st = .waiting (some p)) := by
  obtain ⟨_, hi, _, _⟩ := run_unique h
  unfold poll
  by_cases hq : q.progress = .finished
  · rw [if_pos hq]; exact ⟨q, _, rfl, .inl rfl⟩
  · rw [if_neg hq]
    exact pollPeers_free hi hp hn hfree hq now (some 0)

/-- The number of peers handed out is bounded by the number of peers the lookup was told about. -/
theorem C10_handed_out (cfg : Config) (target : Id) (known : List Id) (es : List Event)
    (q : Query) (hist : List (Event × Option QState))
    (h : run (withConfig cfg target known) es = some (q, hist)) :
    (nodeRecord cfg known hist).asked.length ≤ (nodeRecord cfg known hist).known.length := by
  obtain ⟨_, hi, _, _⟩ := run_unique h
  have := nodup_subset_length hi.nodup hi.asked
  unfold Record.askedIds at this
  rwa [List.length_map] at this

theorem C10_content_handed_out (cfg : Config) (target : Id) (known : List Id) (es : List CEvent)
    (s : Content) (hist : List (CEvent × Option QState))
    (h : cRun ⟨cWithConfig cfg target known, []⟩ es = some (s, hist)) :
    (contentRecord cfg known hist).asked.length ≤ (contentRecord cfg known hist).known.length := by
  obtain ⟨_, hi, _⟩ := cRun_unique h
  have := nodup_subset_length hi.base.nodup hi.base.asked
  unfold Record.askedIds at this
  rwa [List.length_map] at this

/-! ### Examples -/

/-- A small configuration. -/
def exCfg : Config := ⟨1, 2, 10, 100⟩

/-- Peers 8 and 9 are known; 8 answers and names 1, 1 answers, 9 is never asked: the result is
full with two closer peers. -/
def exEvents : List Event :=
  [.poll 0, .success 8#256 [1#256, 12#256], .poll 1, .success 1#256 [], .poll 2, .failure 9#256,
   .poll 3]

/-- What `exEvents` leads to: target 0, the peers 8, 1 are asked, the result is [1, 8]. -/
example : (run (withConfig exCfg 0#256 [8#256, 9#256]) exEvents).map
    (fun r => (intoResult r.1, (nodeRecord exCfg [8#256, 9#256] r.2).over,
      (nodeRecord exCfg [8#256, 9#256] r.2).askedIds,
      (nodeRecord exCfg [8#256, 9#256] r.2).known)) =
    some ([1#256, 8#256], true, [8#256, 1#256], [8#256, 9#256, 1#256, 12#256]) := by
  decide +kernel

/-- A history that meets the hypotheses of `C10_finishes`: both peers failed or timed out. -/
example : (run (withConfig exCfg 0#256 [8#256, 9#256])
      [.poll 0, .failure 8#256, .poll 1, .poll 5]).map
    (fun r => ((nodeRecord exCfg [8#256, 9#256] r.2).failed,
      (nodeRecord exCfg [8#256, 9#256] r.2).asked, (nodeRecord exCfg [8#256, 9#256] r.2).over,
      (poll r.1 11).map (·.2))) =
    some ([8#256], [(8#256, 10), (9#256, 11)], false, some .finished) := by
  decide +kernel

/-- A history that meets the hypotheses of `C10_never_stuck` and `C09_closest_first`. -/
example : (run (withConfig exCfg 0#256 [9#256, 8#256]) [.poll 0, .success 8#256 [7#256]]).map
    (fun r => ((nodeRecord exCfg [9#256, 8#256] r.2).askedIds,
      (nodeRecord exCfg [9#256, 8#256] r.2).answered, (poll r.1 3).map (·.2))) =
    some ([8#256], [8#256], some (.waiting (some 7#256))) := by
  decide +kernel

/-! ### Where the code falls short -/

/-- The events of the witness: 8 is asked and times out, 9 is asked, 8's late answer names 1. -/
def lateEvents : List Event := [.poll 0, .poll 10, .poll 10, .success 8#256 [1#256]]

/-- A lookup can be stuck behind a dead peer: `poll` stops at the first peer it has no capacity to
ask and does not look at the waiting times of the peers behind it.  In the witness one request (to
9) was ever outstanding and its waiting time passes at 20, but at every time afterwards `poll`
returns `WaitingAtCapacity` and changes nothing, although 1 was never asked.  Only a failure
reported for 9, or the timeout of the whole lookup, ends this. -/
theorem C10_timeout_violated :
    ∃ q hist, run (withConfig ⟨1, 2, 10, 100⟩ 0#256 [8#256, 9#256]) lateEvents = some (q, hist) ∧
      (nodeRecord ⟨1, 2, 10, 100⟩ [8#256, 9#256] hist).asked = [(8#256, 10), (9#256, 20)] ∧
      (nodeRecord ⟨1, 2, 10, 100⟩ [8#256, 9#256] hist).answered = [8#256] ∧
      1#256 ∈ (nodeRecord ⟨1, 2, 10, 100⟩ [8#256, 9#256] hist).known ∧
      ∀ now, poll q now = some (q, .atCapacity) := by
  refine ⟨⟨⟨1, 2, 10, 100⟩, 0#256, none, .iterating 0,
    [⟨1#256, .notContacted⟩, ⟨8#256, .succeeded⟩, ⟨9#256, .waiting 20⟩], 1⟩,
    [(.poll 0, some (.waiting (some 8#256))), (.poll 10, some .atCapacity),
     (.poll 10, some (.waiting (some 9#256))), (.success 8#256 [1#256], none)], ?_, ?_, ?_, ?_, ?_⟩
  · decide +kernel
  · decide +kernel
  · decide +kernel
  · decide +kernel
  · intro now; rfl

end Verif.Props
