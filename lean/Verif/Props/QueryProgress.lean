import Verif.Lemmas.QueryPar

/-!
C52: when a lookup counts as stalled.  A stalled lookup waits for up to `numResults` answers at a
time instead of `parallelism`.
-/

namespace Verif.Props
open Verif Verif.Query

theorem addPeers_append (t : Id) (a b : Nat) (c : Id) : ∀ (ids : List Id) (l : List Peer) (f : Bool),
    (addPeers t a b (ids ++ [c]) l f).2 =
      ((match orInsert t ⟨c, .notContacted⟩ (addPeers t a b ids l f).1 with
        | [] => false
        | p :: _ => decide (xorDistance p.id t = xorDistance c t)) || decide (a < b))
  | [], l, f => rfl
  | id :: ids, l, f => by
    simp only [List.cons_append, addPeers]
    exact addPeers_append t a b c ids _ _

theorem incorporate_progress (q : Query) (ids : List Id) :
    (incorporate q ids).progress = nextProgress q.cfg q.progress
      (addPeers q.target q.peers.length q.cfg.numResults ids q.peers false).2 := rfl

/-- If the peer a response names last is closer to the target than every known peer and every
other peer it names, the lookup is not stalled afterwards.  (The documentation promises this for a
closer peer at any place of the response: see `C52_progress_violated`.) -/
theorem C52_progress_partial (cfg : Config) (target : Id) (known : List Id) (es : List Event)
    (q : Query) (hist : List (Event × Option QState))
    (h : run (withConfig cfg target known) es = some (q, hist)) (peer : Id)
    (hexp : (nodeRecord cfg known hist).expects peer = true) (hpar : 0 < cfg.parallelism)
    (named : List Id) (c : Id)
    (hclose : ∀ k, k ∈ (nodeRecord cfg known hist).known ∨ k ∈ named →
      xorDistance c target < xorDistance k target) :
    ∃ q', onSuccess q peer (named ++ [c]) = some q' ∧ q'.progress = .iterating 0 := by
  obtain ⟨_, hi, _, _⟩ := run_unique h
  rcases settle_spec hi peer .succeeded rfl with ⟨he, _⟩ | ⟨_, q1, hs, h1, h2, h3, _, h4, h5, h6, _⟩
  · rw [he] at hexp; cases hexp
  · refine ⟨incorporate q1 (named ++ [c]), by simp only [onSuccess, hs], ?_⟩
    have hi1 := success_inv hi hexp h1 h2 h3 h4 h5 h6
    have hsort : Sorted q1.target q1.peers := by rw [hi1.targetEq]; exact hi1.sorted
    have hg := addPeers_grown q1.target q1.peers.length q1.cfg.numResults named q1.peers false hsort
    rw [incorporate_progress, addPeers_append]
    have hfirst : (match orInsert q1.target ⟨c, .notContacted⟩
        (addPeers q1.target q1.peers.length q1.cfg.numResults named q1.peers false).1 with
        | [] => false
        | p :: _ => decide (xorDistance p.id q1.target = xorDistance c q1.target)) = true := by
      cases hl : (addPeers q1.target q1.peers.length q1.cfg.numResults named q1.peers false).1 with
      | nil => simp [orInsert]
      | cons x xs =>
        have hx := hg.mem x (by rw [hl]; exact List.mem_cons_self)
        have hlt : xorDistance c q1.target < xorDistance x.id q1.target := by
          rw [hi1.targetEq]
          apply hclose
          rcases hx with hx | ⟨_, _, hx⟩
          · exact .inl ((hi1.known x.id).mp ⟨x, hx, rfl⟩)
          · exact .inr hx
        simp only [orInsert, if_pos hlt, decide_true]
    rw [hfirst, Bool.true_or, hi1.cfgEq]
    have hnf : q1.progress ≠ .finished := by
      rw [h3]
      intro hh
      have := ((expects_iff _ _).mp hexp).1
      rw [hi.over.mpr hh] at this
      cases this
    unfold nextProgress
    cases hq : q1.progress with
    | finished => exact absurd hq hnf
    | stalled => rfl
    | iterating n =>
      simp only [if_true]
      rw [if_neg (by omega)]

/-- If a response names only peers that are farther from the target than some known peer, and
enough peers are known, it counts as no progress: a lookup that is not stalled counts one more
response without progress and is stalled at `parallelism` of them; a stalled lookup stays so. -/
theorem C52_no_progress (cfg : Config) (target : Id) (known : List Id) (es : List Event)
    (q : Query) (hist : List (Event × Option QState))
    (h : run (withConfig cfg target known) es = some (q, hist)) (peer : Id)
    (hexp : (nodeRecord cfg known hist).expects peer = true)
    (hmany : cfg.numResults ≤ q.peers.length) (named : List Id)
    (hfar : ∀ c ∈ named, ∃ k ∈ (nodeRecord cfg known hist).known,
      xorDistance k target < xorDistance c target) :
    ∃ q', onSuccess q peer named = some q' ∧
      (∀ n, q.progress = .iterating n →
        q'.progress = if cfg.parallelism ≤ n + 1 then .stalled else .iterating (n + 1)) ∧
      (q.progress = .stalled → q'.progress = .stalled) := by
  obtain ⟨_, hi, _, _⟩ := run_unique h
  rcases settle_spec hi peer .succeeded rfl with ⟨he, _⟩ | ⟨_, q1, hs, h1, h2, h3, _, h4, h5, h6, _⟩
  · rw [he] at hexp; cases hexp
  · refine ⟨incorporate q1 named, by simp only [onSuccess, hs], ?_⟩
    have hi1 := success_inv hi hexp h1 h2 h3 h4 h5 h6
    have hsort : Sorted q1.target q1.peers := by rw [hi1.targetEq]; exact hi1.sorted
    have hlen : q1.peers.length = q.peers.length := by rw [h4, List.length_map]
    have hflag : (addPeers q1.target q1.peers.length q1.cfg.numResults named q1.peers false).2 =
        false := by
      rcases List.eq_nil_or_concat named with rfl | ⟨init, c, rfl⟩
      · rfl
      · rw [List.concat_eq_append] at hfar ⊢
        rw [addPeers_append]
        have hdec : decide (q1.peers.length < q1.cfg.numResults) = false := by
          rw [hlen, hi1.cfgEq]; exact decide_eq_false (by omega)
        rw [hdec, Bool.or_false]
        have hg := addPeers_grown q1.target q1.peers.length q1.cfg.numResults init q1.peers false
          hsort
        obtain ⟨k, hk, hlt⟩ := hfar c (by simp)
        obtain ⟨p, hp, rfl⟩ := (hi1.known k).mpr hk
        have hp' := hg.keep p hp
        have hs' := orInsert_sorted ⟨c, .notContacted⟩ hg.sorted
        have hkeep : p ∈ orInsert q1.target ⟨c, .notContacted⟩
            (addPeers q1.target q1.peers.length q1.cfg.numResults init q1.peers false).1 := by
          rcases orInsert_cases ⟨c, .notContacted⟩ hg.sorted with ⟨_, he⟩ | ⟨_, hperm, _⟩
          · rw [he]; exact hp'
          · exact hperm.mem_iff.mpr (List.mem_cons_of_mem _ hp')
        generalize orInsert q1.target ⟨c, .notContacted⟩
          (addPeers q1.target q1.peers.length q1.cfg.numResults init q1.peers false).1 = l at hkeep hs'
        cases l with
        | nil => cases hkeep
        | cons x xs =>
          simp only
          apply decide_eq_false
          intro heq
          rw [hi1.targetEq] at heq hs'
          rcases List.mem_cons.mp hkeep with rfl | hm
          · omega
          · have := (List.pairwise_cons.mp hs').1 p hm
            omega
    rw [incorporate_progress, hflag, hi1.cfgEq, h3]
    refine ⟨?_, ?_⟩
    · intro n hn
      rw [hn]
      simp [nextProgress]
    · intro hn
      rw [hn]; rfl

/-- The order of the named peers matters: peer 8 names 1, which is closer to the target 0 than all
known peers, and 12.  If it names 12 last, the lookup counts as stalled and asks two peers at a
time, although `parallelism` is 1; if it names 1 last, it asks one at a time. -/
theorem C52_progress_violated :
    (∃ q hist, run (withConfig ⟨1, 2, 10, 100⟩ 0#256 [8#256, 9#256])
        [.poll 0, .success 8#256 [1#256, 12#256], .poll 1, .poll 1] = some (q, hist) ∧
      (nodeRecord ⟨1, 2, 10, 100⟩ [8#256, 9#256] hist).pending = [(1#256, 11), (9#256, 11)]) ∧
    (∃ q hist, run (withConfig ⟨1, 2, 10, 100⟩ 0#256 [8#256, 9#256])
        [.poll 0, .success 8#256 [12#256, 1#256], .poll 1, .poll 1] = some (q, hist) ∧
      (nodeRecord ⟨1, 2, 10, 100⟩ [8#256, 9#256] hist).pending = [(1#256, 11)]) := by
  constructor
  · refine ⟨⟨⟨1, 2, 10, 100⟩, 0#256, none, .stalled, [⟨1#256, .waiting 11⟩, ⟨8#256, .succeeded⟩,
      ⟨9#256, .waiting 11⟩, ⟨12#256, .notContacted⟩], 2⟩,
      [(.poll 0, some (.waiting (some 8#256))), (.success 8#256 [1#256, 12#256], none),
       (.poll 1, some (.waiting (some 1#256))), (.poll 1, some (.waiting (some 9#256)))], ?_, ?_⟩
    · decide +kernel
    · decide +kernel
  · refine ⟨⟨⟨1, 2, 10, 100⟩, 0#256, none, .iterating 0, [⟨1#256, .waiting 11⟩, ⟨8#256, .succeeded⟩,
      ⟨9#256, .notContacted⟩, ⟨12#256, .notContacted⟩], 1⟩,
      [(.poll 0, some (.waiting (some 8#256))), (.success 8#256 [12#256, 1#256], none),
       (.poll 1, some (.waiting (some 1#256))), (.poll 1, some .atCapacity)], ?_, ?_⟩
    · decide +kernel
    · decide +kernel

/-- A history that meets the hypotheses of `C52_progress_partial` and `C52_no_progress`. -/
example : (run (withConfig ⟨1, 2, 10, 100⟩ 0#256 [8#256, 9#256]) [.poll 0]).map
    (fun r => ((nodeRecord ⟨1, 2, 10, 100⟩ [8#256, 9#256] r.2).expects 8#256,
      (nodeRecord ⟨1, 2, 10, 100⟩ [8#256, 9#256] r.2).known, r.1.peers.length, r.1.progress)) =
    some (true, [8#256, 9#256], 2, .iterating 0) := by
  decide +kernel

end Verif.Props
