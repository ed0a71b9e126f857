import Verif.Lemmas.QueryPoolRun

/-!
C12: the pool of lookups.  The statements are about any kind of lookup (`Ops`); the last part
instantiates them for node lookups.
-/

namespace Verif.Props
open Verif Verif.Query Verif.QueryPool

variable {I Q : Type}

/-! ### C12 -/

/-- Up to 2^64 added lookups: the ids are 0, 1, 2, …, in the order of adding, so none is reused;
and each added lookup was returned by exactly one poll, under the id and with the information it
was added with, or it is still in the pool. -/
theorem C12_exactly_once (ops : Ops Q) (es : List (QueryPool.Event I Q)) (p : Pool I Q)
    (outs : List (Output I Q)) (h : QueryPool.run ops (new I Q) es = some (p, outs))
    (hn : adds es ≤ 2 ^ 64) :
    (added outs).map (·.1) = List.range (adds es) ∧
    (returned outs ++ inPool p).Perm (added outs) ∧
    ((returned outs ++ inPool p).map (·.1)).Nodup := by
  have := poolInv_run ops es poolInv_new (by omega) h
  simp only [List.nil_append, Nat.zero_add] at this
  refine ⟨this.ids, this.perm, ?_⟩
  rw [(this.perm.map _).nodup_iff, this.ids]
  exact List.nodup_range

/-- When `poll` returns a lookup as finished, that lookup was polled and reported that it is
finished; when it returns it as timed out, it had nothing to do and was started at least
`overallTimeout` ago. -/
theorem C12_returned (ops : Ops Q) (hl : Lawful ops) (es : List (QueryPool.Event I Q))
    (p : Pool I Q) (outs : List (Output I Q))
    (h : QueryPool.run ops (new I Q) es = some (p, outs)) (hn : adds es ≤ 2 ^ 64)
    (now : Nat) (prio : Nat → Nat) (p' : Pool I Q) (st : PoolState I Q)
    (hp : QueryPool.poll ops p now prio = some (p', st)) :
    (∀ e, st = .finished e → ∃ e0 ∈ p.queries, e0.id = e.id ∧ e0.info = e.info ∧
      ops.poll (ensureStarted ops e0.query now) now = some (e.query, .finished)) ∧
    (∀ e, st = .timeout e → ∃ e0 ∈ p.queries, e0.id = e.id ∧ e0.info = e.info ∧
      (ops.poll (ensureStarted ops e0.query now) now = some (e.query, .waiting none) ∨
       ops.poll (ensureStarted ops e0.query now) now = some (e.query, .atCapacity)) ∧
      ∃ s, ops.started e.query = some s ∧ ops.overallTimeout e.query ≤ now - s) ∧
    (∀ id peer, st = .waiting (some (id, peer)) → ∃ e0 ∈ p.queries, ∃ e ∈ p'.queries,
      e0.id = id ∧ e.id = id ∧
      ops.poll (ensureStarted ops e0.query now) now = some (e.query, .waiting (some peer))) ∧
    (∀ id peer, st = .validating id peer → ∃ e0 ∈ p.queries, ∃ e ∈ p'.queries,
      e0.id = id ∧ e.id = id ∧
      ops.poll (ensureStarted ops e0.query now) now = some (e.query, .validating peer)) := by
  rcases poll_spec ops p now prio (reach_nodup h hn) with ⟨_, _, _, g⟩ | ⟨qs, g, gp, _⟩ |
      ⟨qs, e0, e, s, out, g, he0, hpol, _, gg⟩
  · rw [g] at hp; cases hp
  · rw [g] at hp
    have hp := Option.some.inj hp
    injection hp with hp1 hp2
    subst hp1 hp2
    by_cases hqs : qs = [] <;> simp [hqs]
  · rw [g] at hp
    have hp := Option.some.inj hp
    injection hp with hp1 hp2
    subst hp1 hp2
    have hid : e0.id = e.id := (congrArg Prod.fst hpol.1).symm
    have hinfo : e0.info = e.info := (congrArg Prod.snd hpol.1).symm
    have hstarted : ∃ s, ops.started e.query = some s := by
      obtain ⟨x, hx, _⟩ := ensureStarted_some hl e0.query now
      exact ⟨x, by rw [hl.poll _ _ _ _ hpol.2]; exact hx⟩
    rcases gg with ⟨rfl, rfl, _⟩ | ⟨hs, rfl, hto, _⟩ | ⟨peer, rfl, rfl, hm, _⟩ | ⟨peer, rfl, rfl, hm, _⟩
    · refine ⟨?_, by simp, by simp, by simp⟩
      intro e' he'
      injection he' with he'
      subst he'
      exact ⟨e0, he0, hid, hinfo, hpol.2⟩
    · refine ⟨by simp, ?_, by simp, by simp⟩
      intro e' he'
      injection he' with he'
      subst he'
      obtain ⟨x, hx⟩ := hstarted
      rw [hx, Option.getD_some] at hto
      refine ⟨e0, he0, hid, hinfo, ?_, x, hx, hto⟩
      rcases hs with rfl | rfl
      · exact .inl hpol.2
      · exact .inr hpol.2
    · refine ⟨by simp, by simp, ?_, by simp⟩
      intro id pe hh
      simp only [PoolState.waiting.injEq, Option.some.injEq, Prod.mk.injEq] at hh
      obtain ⟨rfl, rfl⟩ := hh
      exact ⟨e0, he0, e, hm, hid, rfl, hpol.2⟩
    · refine ⟨by simp, by simp, by simp, ?_⟩
      intro id pe hh
      simp only [PoolState.validating.injEq] at hh
      obtain ⟨rfl, rfl⟩ := hh
      exact ⟨e0, he0, e, hm, hid, rfl, hpol.2⟩

/-- `poll` returns `Idle` exactly if there is no lookup in the pool.  It returns `Waiting(None)`,
nothing to do, only if it polled every lookup in the pool, each had nothing to do, and each was
started less than `overallTimeout` ago. -/
theorem C12_nothing_to_do (ops : Ops Q) (hl : Lawful ops) (es : List (QueryPool.Event I Q))
    (p : Pool I Q) (outs : List (Output I Q))
    (h : QueryPool.run ops (new I Q) es = some (p, outs)) (hn : adds es ≤ 2 ^ 64)
    (now : Nat) (prio : Nat → Nat) (p' : Pool I Q) (st : PoolState I Q)
    (hp : QueryPool.poll ops p now prio = some (p', st)) :
    (st = .idle ↔ p.queries = []) ∧
    (st = .waiting none → (inPool p').Perm (inPool p) ∧
      ∀ e ∈ p'.queries, ∃ e0 ∈ p.queries, e0.id = e.id ∧
        (ops.poll (ensureStarted ops e0.query now) now = some (e.query, .waiting none) ∨
         ops.poll (ensureStarted ops e0.query now) now = some (e.query, .atCapacity)) ∧
        ∃ s, ops.started e.query = some s ∧ now - s < ops.overallTimeout e.query) := by
  rcases poll_spec ops p now prio (reach_nodup h hn) with ⟨_, _, _, g⟩ | ⟨qs, g, gp, gq⟩ |
      ⟨qs, e0, e, s, out, g, he0, hpol, _, gg⟩
  · rw [g] at hp; cases hp
  · rw [g] at hp
    have hp := Option.some.inj hp
    injection hp with hp1 hp2
    subst hp1 hp2
    constructor
    · have hlen := gp.length_eq
      rw [List.length_map, List.length_map] at hlen
      constructor
      · intro hh
        by_cases hqs : qs = []
        · rw [hqs] at hlen
          exact List.eq_nil_of_length_eq_zero hlen.symm
        · rw [if_neg hqs] at hh; cases hh
      · intro hh
        rw [hh] at hlen
        rw [if_pos (List.eq_nil_of_length_eq_zero hlen)]
    · intro _
      refine ⟨gp, ?_⟩
      intro x hx
      obtain ⟨x0, hx0, s, hpol, hs, hlt⟩ := gq x hx
      obtain ⟨a, ha, _⟩ := ensureStarted_some hl x0.query now
      have hst : ops.started x.query = some a := by rw [hl.poll _ _ _ _ hpol.2]; exact ha
      rw [hst, Option.getD_some] at hlt
      refine ⟨x0, hx0, (congrArg Prod.fst hpol.1).symm, ?_, a, hst, hlt⟩
      rcases hs with rfl | rfl
      · exact .inl hpol.2
      · exact .inr hpol.2
  · rw [g] at hp
    have hp := Option.some.inj hp
    injection hp with hp1 hp2
    subst hp1 hp2
    have hne : p.queries ≠ [] := by intro hh; rw [hh] at he0; cases he0
    rcases gg with ⟨_, rfl, _⟩ | ⟨_, rfl, _⟩ | ⟨_, _, rfl, _⟩ | ⟨_, _, rfl, _⟩ <;>
      exact ⟨⟨fun hh => (by cases hh), fun hh => absurd hh hne⟩, fun hh => (by cases hh)⟩

/-- The start time of a lookup is the time of the first poll that reaches it. -/
theorem C12_start_time (ops : Ops Q) (hl : Lawful ops) (q : Q) (now : Nat) (q' : Q) (st : QState)
    (h : ops.poll (ensureStarted ops q now) now = some (q', st)) :
    ops.started q' = some ((ops.started q).getD now) := by
  rw [hl.poll _ _ _ _ h]
  unfold ensureStarted
  cases hs : ops.started q with
  | none => exact hl.start q now
  | some s => exact hs

/-- Lookups do not disturb each other: after a poll every lookup in the pool is as before, or was
polled itself. -/
theorem C12_independent (ops : Ops Q) (es : List (QueryPool.Event I Q)) (p : Pool I Q)
    (outs : List (Output I Q)) (h : QueryPool.run ops (new I Q) es = some (p, outs))
    (hn : adds es ≤ 2 ^ 64) (now : Nat) (prio : Nat → Nat) (p' : Pool I Q) (st : PoolState I Q)
    (hp : QueryPool.poll ops p now prio = some (p', st)) (e : Entry I Q) (he : e ∈ p'.queries) :
    e ∈ p.queries ∨ ∃ e0 ∈ p.queries, e0.id = e.id ∧ e0.info = e.info ∧
      ∃ s, ops.poll (ensureStarted ops e0.query now) now = some (e.query, s) := by
  have polled : ∀ {x0 x : Entry I Q} {s : QState}, x0 ∈ p.queries → Polled ops now x0 x s →
      x ∈ p.queries ∨ ∃ e0 ∈ p.queries, e0.id = x.id ∧ e0.info = x.info ∧
      ∃ s, ops.poll (ensureStarted ops e0.query now) now = some (x.query, s) :=
    fun {x0 x s} hx hpol => .inr ⟨x0, hx, (congrArg Prod.fst hpol.1).symm,
      (congrArg Prod.snd hpol.1).symm, s, hpol.2⟩
  rcases poll_spec ops p now prio (reach_nodup h hn) with ⟨_, _, _, g⟩ | ⟨qs, g, gp, gq⟩ |
      ⟨qs, e0, e1, s, out, g, he0, hpol, hall, gg⟩
  · rw [g] at hp; cases hp
  · rw [g] at hp
    have hp := Option.some.inj hp
    injection hp with hp1 hp2
    subst hp1
    obtain ⟨x0, hx0, s, hpol, _⟩ := gq e he
    exact polled hx0 hpol
  · rw [g] at hp
    have hp := Option.some.inj hp
    injection hp with hp1 hp2
    subst hp1
    rcases hall e he with rfl | ⟨hm, _⟩ | ⟨x0, hx0, _, s', hpol', _⟩
    · exact polled he0 hpol
    · exact .inl hm
    · exact polled hx0 hpol'

/-- Reporting to the lookup `id` changes that lookup and no other. -/
theorem C12_report (p p' : Pool I Q) (id : Nat) (f : Q → Option Q)
    (h : modify p id f = some p') :
    p'.nextId = p.nextId ∧ inPool p' = inPool p ∧
    ∀ e ∈ p'.queries, e ∈ p.queries ∧ e.id ≠ id ∨
      e.id = id ∧ ∃ e0 ∈ p.queries, e0.id = id ∧ f e0.query = some e.query := by
  refine ⟨(modify_tags h).1, (modify_tags h).2, ?_⟩
  obtain ⟨_, h1⟩ := modify_map h
  intro e he
  rcases h1 with ⟨h1, h2⟩ | ⟨e0, q', h2, h3, h4, h1⟩
  · rw [h1] at he
    exact .inl ⟨he, h2 e he⟩
  · rw [h1] at he
    obtain ⟨x, hx, rfl⟩ := List.mem_map.mp he
    by_cases hid : x.id = id
    · rw [if_pos hid]
      exact .inr ⟨hid, e0, h2, h3, h4⟩
    · rw [if_neg hid]
      exact .inl ⟨hx, hid⟩

/-- `poll` aborts only if the poll of some lookup in the pool aborts. -/
theorem C12_no_abort (ops : Ops Q) (es : List (QueryPool.Event I Q)) (p : Pool I Q)
    (outs : List (Output I Q)) (h : QueryPool.run ops (new I Q) es = some (p, outs))
    (hn : adds es ≤ 2 ^ 64) (now : Nat) (prio : Nat → Nat)
    (hp : QueryPool.poll ops p now prio = none) :
    ∃ e ∈ p.queries, ops.poll (ensureStarted ops e.query now) now = none := by
  rcases poll_spec ops p now prio (reach_nodup h hn) with ⟨e, he, h1, _⟩ | ⟨qs, g, _⟩ |
      ⟨qs, e0, e1, s, out, g, _⟩
  · exact ⟨e, he, h1⟩
  · rw [g] at hp; cases hp
  · rw [g] at hp; cases hp

/-! ### Node and content lookups are lawful -/

theorem C12_node_lawful : Lawful nodeOps where
  start := fun _ _ => rfl
  poll := fun q now q' st h => by
    simp only [nodeOps] at h ⊢
    unfold Query.poll at h
    split at h
    · injection h with h; injection h with h1 _; rw [← h1]
    · exact pollPeers_started h

theorem C12_content_lawful : Lawful contentOps where
  start := fun _ _ => rfl
  poll := fun q now q' st h => by
    simp only [contentOps] at h ⊢
    unfold cPoll at h
    split at h
    · injection h with h; injection h with h1 _; rw [← h1]
    · split at h
      · exact cPollRest_started h
      · injection h with h; injection h with h1 _; rw [← h1]
      · split at h
        · cases h
        · exact (cPollRest_started h).trans rfl

/-! ### A pool of node lookups -/

/-- A call on the pool of node lookups, as the service makes it (`service/manager.rs`,
`service/find_nodes.rs`). -/
inductive NodeCall (I : Type) where
  | add (info : I) (cfg : Config) (target : Id) (known : List Id)
  | success (id : Nat) (peer : Id) (resp : List Id)
  | failure (id : Nat) (peer : Id)
  | poll (now : Nat) (prio : Nat → Nat)

def NodeCall.event : NodeCall I → QueryPool.Event I Query
  | .add info cfg target known => .add info (withConfig cfg target known)
  | .success id peer resp => .modify id (fun q => onSuccess q peer resp)
  | .failure id peer => .modify id (fun q => onFailure q peer)
  | .poll now prio => .poll now prio

/-- A pool of node lookups never aborts. -/
theorem C12_node_pool_runs (calls : List (NodeCall I)) (hn : adds (calls.map NodeCall.event) ≤ 2 ^ 64) :
    ∃ p outs, QueryPool.run nodeOps (new I Query) (calls.map NodeCall.event) = some (p, outs) := by
  have key : ∀ (calls : List (NodeCall I)) (p : Pool I Query) (a ret : List (Nat × I)) (k : Nat),
      PoolInv p a ret k → (∀ e ∈ p.queries, Good e.query) →
      k + adds (calls.map NodeCall.event) ≤ 2 ^ 64 →
      ∃ p' outs, QueryPool.run nodeOps p (calls.map NodeCall.event) = some (p', outs) := by
    intro calls
    induction calls with
    | nil => intro p a ret k _ _ _; exact ⟨p, [], rfl⟩
    | cons c cs ih =>
      intro p a ret k hi hg hk
      have cont : ∀ p1 o, QueryPool.step nodeOps p c.event = some (p1, o) →
          (∀ e ∈ p1.queries, Good e.query) →
          ∃ p' outs, QueryPool.run nodeOps p ((c :: cs).map NodeCall.event) = some (p', outs) := by
        intro p1 o hs hg1
        have hr1 : QueryPool.run nodeOps p [c.event] = some (p1, [o]) := by
          simp [QueryPool.run, hs]
        have hk1 : adds (I := I) (Q := Query) [c.event] + adds (cs.map NodeCall.event) =
            adds ((c :: cs).map NodeCall.event) := by
          cases c <;> simp [adds, NodeCall.event, Nat.add_comm]
        have hi1 := poolInv_run nodeOps [c.event] hi (by omega) hr1
        obtain ⟨p', outs, hr⟩ := ih p1 _ _ _ hi1 hg1 (by omega)
        exact ⟨p', o :: outs, by simp [QueryPool.run, hs, hr]⟩
      have mod : ∀ (id : Nat) (f : Query → Option Query),
          (∀ q, Good q → ∃ q', f q = some q' ∧ Good q') →
          ∃ p1, modify p id f = some p1 ∧ ∀ e ∈ p1.queries, Good e.query := by
        intro id f hf
        cases hm : modify p id f with
        | none =>
          exfalso
          unfold QueryPool.modify at hm
          split at hm
          · cases hm
          · rename_i e he
            obtain ⟨q', hq, _⟩ := hf e.query (hg e (List.mem_of_find?_eq_some he))
            rw [hq] at hm; cases hm
        | some p1 =>
          refine ⟨p1, rfl, ?_⟩
          intro e he
          rcases (C12_report p p1 id f hm).2.2 e he with ⟨h1, _⟩ | ⟨_, e0, h1, _, h2⟩
          · exact hg e h1
          · obtain ⟨q', hq, hgq⟩ := hf e0.query (hg e0 h1)
            rw [hq] at h2
            have h2 := Option.some.inj h2
            rw [← h2]; exact hgq
      cases c with
      | add info cfg target known =>
        refine cont _ _ rfl ?_
        intro e he
        simp only [addQuery] at he
        rcases List.mem_append.mp he with he | he
        · exact hg e (List.mem_filter.mp he).1
        · rw [List.mem_singleton.mp he]
          exact ⟨cfg, target, _, start_inv cfg target known⟩
      | success id peer resp =>
        obtain ⟨p1, h1, h2⟩ := mod id (fun q => onSuccess q peer resp) (by
          rintro q ⟨cfg, t, r, h⟩
          obtain ⟨q', h1, h2⟩ := onSuccess_inv h peer resp
          exact ⟨q', h1, cfg, t, _, h2⟩)
        exact cont p1 .none (by simp [QueryPool.step, NodeCall.event, h1]) h2
      | failure id peer =>
        obtain ⟨p1, h1, h2⟩ := mod id (fun q => onFailure q peer) (by
          rintro q ⟨cfg, t, r, h⟩
          obtain ⟨q', h1, h2⟩ := onFailure_inv h peer
          exact ⟨q', h1, cfg, t, _, h2⟩)
        exact cont p1 .none (by simp [QueryPool.step, NodeCall.event, h1]) h2
      | poll now prio =>
        have polled : ∀ {e0 e : Entry I Query} {s : QState}, e0 ∈ p.queries →
            Polled nodeOps now e0 e s → Good e.query := by
          intro e0 e s he0 hpol
          obtain ⟨q', st, h1, h2⟩ := good_poll (hg e0 he0) now
          have h3 : Query.poll (ensureStarted nodeOps e0.query now) now = some (e.query, s) := hpol.2
          rw [h1] at h3
          have h3 := Option.some.inj h3
          injection h3 with h3 _
          rw [← h3]; exact h2
        rcases poll_spec nodeOps p now prio hi.nodup with ⟨e, he, h1, _⟩ | ⟨qs, g, _, gq⟩ |
            ⟨qs, e0, e1, s, out, g, he0, hpol, hall, _⟩
        · obtain ⟨q', st, h2, _⟩ := good_poll (hg e he) now
          have h1 : Query.poll (ensureStarted nodeOps e.query now) now = none := h1
          rw [h2] at h1; cases h1
        · refine cont _ _ (by simp only [QueryPool.step, NodeCall.event, g]; rfl) ?_
          intro e he
          obtain ⟨x0, hx0, s, hpol, _⟩ := gq e he
          exact polled hx0 hpol
        · refine cont _ _ (by simp only [QueryPool.step, NodeCall.event, g]; rfl) ?_
          intro e he
          rcases hall e he with rfl | ⟨hm, _⟩ | ⟨x0, hx0, _, s', hpol', _⟩
          · exact polled he0 hpol
          · exact hg e hm
          · exact polled hx0 hpol'
  exact key calls _ [] [] 0 poolInv_new (fun e he => by cases he) (by omega)

/-! ### Examples -/

/-- Two lookups; the second times out, the first finishes. -/
def exCalls : List (NodeCall String) :=
  [.add "a" ⟨1, 1, 10, 50⟩ 0#256 [8#256], .add "b" ⟨1, 1, 1000, 30⟩ 0#256 [9#256],
   .poll 0 (fun i => i), .poll 1 (fun i => 5 - i), .poll 2 (fun i => i),
   .success 0 8#256 [], .poll 40 (fun i => i), .poll 41 (fun i => i), .poll 42 (fun i => i)]

example : (QueryPool.run nodeOps (new String Query) (exCalls.map NodeCall.event)).map
    (fun r => (added r.2, returned r.2, inPool r.1)) =
    some ([(0, "a"), (1, "b")], [(0, "a"), (1, "b")], []) := by
  decide +kernel

/-- A poll that has nothing to do (`C12_nothing_to_do`): both lookups wait. -/
example : (QueryPool.run nodeOps (new String Query) ((exCalls.take 4).map NodeCall.event)).map
    (fun r => ((QueryPool.poll nodeOps r.1 5 (fun i => i)).map
      (fun s => (decide (s.2 = .waiting none), inPool s.1)))) =
    some (some (true, [(0, "a"), (1, "b")])) := by
  decide +kernel

/-! ### The limit of 64 bits -/

/-- The bound in `C12_exactly_once` is needed: ids are counted in 64 bits, so the lookup
added after 2^64 others gets the id 0 of the first, which is still in the pool, and takes its
place. -/
theorem C12_id_wrap (ops : Ops Q) (info : I) (q : Q) :
    ∃ es p outs, QueryPool.run ops (new I Q) es = some (p, outs) ∧
      ¬ ((added outs).map (·.1)).Nodup ∧ returned outs = [] := by
  obtain ⟨p1, o1, h1, h2, h3, h4⟩ := run_adds ops info q (2 ^ 64) 0 (new I Q) rfl
  have hp1 : p1.nextId = 0 := by rw [h2]
  have hr : QueryPool.run ops p1 [.add info q] =
      some ((addQuery p1 info q).1, [.added 0 info]) := by
    have : (addQuery p1 info q).2 = 0 := hp1
    simp only [QueryPool.run, QueryPool.step, this, Option.map_some]
  refine ⟨_, _, _, run_append ops _ _ _ _ _ _ _ h1 hr, ?_, ?_⟩
  · rw [added_append, List.map_append]
    intro hnd
    have hdis := (List.nodup_append.mp hnd).2.2
    have hhead := h4 (by omega)
    cases ha : added o1 with
    | nil => rw [ha] at hhead; cases hhead
    | cons x xs =>
      rw [ha] at hhead hdis
      have hx : x = (0, info) := by
        have := Option.some.inj hhead
        rw [this]
      exact hdis x.1 (by simp) 0 (by simp [added]) (by rw [hx])
  · have app : ∀ (a b : List (Output I Q)), returned (a ++ b) = returned a ++ returned b := by
      intro a
      induction a with
      | nil => intro b; rfl
      | cons o a ih =>
        intro b
        cases o with
        | added id info => simp [returned, ih]
        | none => simp [returned, ih]
        | polled st => cases st <;> simp [returned, ih]
    rw [app, h3]; rfl

end Verif.Props
