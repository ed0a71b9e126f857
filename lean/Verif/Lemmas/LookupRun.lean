import Verif.Lemmas.LookupInv

/-! Helper lemmas: polls, tasks and whole histories of a content lookup. -/

namespace Verif.Lookup
open Verif.Props hiding Seen
open Verif.Props.Lookups
open Verif.Query (CInv Content CEvent QState)

/-- The answer is right, given the history that ends with it. -/
def Right (c : Ctx) (isTrace : Bool) (time : Nat) (peers : List Enr) (h : History) : Answer → Prop
  | .found content utp trace => trace.isSome = isTrace ∧ ∃ sender, Confirmed h sender utp content ∧
      sender ∈ (record c peers h).answered ∧
      ∀ t, trace = some t → TraceOk c time peers h t ∧ t.receivedFrom = some sender ∧
        (∀ x ∈ (record c peers h).pending, x.1 ∈ t.cancelled) ∧
        ∀ id ∈ t.cancelled, id ∈ (record c peers h).askedIds ∧ id ∉ (record c peers h).answered
  | .noPeers => False
  | .notFound trace => trace.isSome = isTrace ∧ ∀ t, trace = some t → TraceOk c time peers h t ∧ t.receivedFrom = none

/-- A poll that is not the last. -/
theorem poll_quiet {c : Ctx} {isTrace : Bool} {time : Nat} {peers : List Enr} {h : History} {s : State}
    (ho : Open c isTrace time peers h s) (now : Nat) (known : Id → Option Enr) (o : List Out) (st : QState)
    (hst : (record c peers h).see c.cfg (.polled now st) = (record c peers h).see c.cfg (.polled now (outcome o)))
    (hf : st ≠ .finished) (q : Query.CQuery) (ts : List Task) (reports ann : List Id)
    (hc : CInv c.cfg c.target ⟨q, ts.map taskC⟩ ((record c peers h).see c.cfg (.polled now st))
      (past c.self.id h ++ [.poll now]) reports ann) :
    Open c isTrace time peers (h ++ [(.poll now known, o)])
      { s with started := some (s.started.getD now), q, tasks := ts } := by
  have hr : record c peers (h ++ [(.poll now known, o)]) = (record c peers h).see c.cfg (.polled now st) := by
    rw [record_append, hst]; rfl
  have hov := ho.notOver
  have hk : ((record c peers h).see c.cfg (.polled now st)).known = (record c peers h).known ∧
      ((record c peers h).see c.cfg (.polled now st)).over = false := by
    simp only [Record.see]
    rw [if_neg (by rw [hov]; simp)]
    cases st with
    | waiting x => cases x <;> exact ⟨rfl, hov⟩
    | finished => exact absurd rfl hf
    | _ => exact ⟨rfl, hov⟩
  have hn : named c.self.id peers (h ++ [(.poll now known, o)]) = named c.self.id peers h := by
    rw [named_append]; rfl
  refine ⟨⟨reports, ann, ?_⟩, ?_, ho.closed, ?_, ?_, ?_, ho.traced, ?_, ?_⟩
  · rw [hr, past_append]; exact hc
  · rw [hr]; exact hk.2
  · rw [hn]; exact ho.untrusted
  · rw [hr, hn, hk.1]; exact ho.known
  · rw [firstPoll_append]
    simp only [ho.started]
    cases firstPoll h <;> rfl
  · intro t ht
    exact ⟨(ho.trace t ht).1.quiet _ (by simp), (ho.trace t ht).2⟩
  · intro x hx
    rw [hn]
    exact ⟨(ho.queue x hx).1, FailedBy.mono _ (ho.queue x hx).2⟩

theorem findEnr_named {c : Ctx} {isTrace : Bool} {time : Nat} {peers : List Enr} {h : History} {s s' : State}
    (ho : Open c isTrace time peers h s) (hu : s'.untrusted = s.untrusted) (known : Id → Option Enr)
    (hk : ∀ id e, known id = some e → e.id = id) (id : Id) (hid : id ∈ (record c peers h).known) :
    ∃ e, findEnr s' known id = some e ∧ e.id = id := by
  unfold findEnr
  rw [hu]
  cases hkn : known id with
  | some e => exact ⟨e, rfl, hk id e hkn⟩
  | none =>
    have := ho.known id hid
    rw [← ho.untrusted] at this
    obtain ⟨e, he, h1⟩ := List.mem_map.mp this
    cases hf : s.untrusted.find? (fun e => e.id == id) with
    | none => exact absurd h1 (by simpa using List.find?_eq_none.mp hf e he)
    | some e' => exact ⟨e', rfl, by simpa using List.find?_some hf⟩

theorem waiting_mem_pendingPeers {q : Query.CQuery} {p : Query.Peer} (hp : p ∈ q.base.peers) {n : Nat}
    (hs : p.state = .waiting n) {source : Id} (hn : p.id ≠ source) : p.id ∈ Query.pendingPeers q source := by
  unfold Query.pendingPeers
  exact List.mem_filterMap.mpr ⟨p, hp, by simp only [hs, if_neg hn]⟩

theorem mem_pendingPeers {q : Query.CQuery} {id source : Id} (hi : id ∈ Query.pendingPeers q source) :
    ∃ p ∈ q.base.peers, p.id = id ∧ ∃ n, p.state = .waiting n := by
  unfold Query.pendingPeers at hi
  obtain ⟨p, hp, h1⟩ := List.mem_filterMap.mp hi
  cases hs : p.state with
  | waiting n =>
    simp only [hs] at h1
    split at h1
    · cases h1
    · exact ⟨p, hp, Option.some.inj h1, n, hs⟩
  | _ => simp only [hs] at h1; cases h1

theorem pollPeers_not_validating {cfg : Query.Config} {t : Id} {q : Query.Query} {r : Record} (h : Query.Inv cfg t q r)
    {now : Nat} {b : Query.Query} {st : QState} (h1 : Query.pollPeers q now none = some (b, st)) (p : Id) :
    st ≠ .validating p := by
  intro hst
  obtain ⟨ps, w, st', pre, post, post', g1, hl, g2, g3, g4, g5, g6⟩ := Query.loop_looped h now none
  unfold Query.pollPeers at h1
  rw [g1] at h1
  rcases g6 with ⟨e0, _⟩ | ⟨x, rest, e0, _⟩ | ⟨e0, _⟩ | ⟨e0, _⟩ <;> subst e0
  · simp only at h1
    split at h1 <;>
    · have := congrArg Prod.snd (Option.some.inj h1)
      rw [hst] at this; cases this
  all_goals
    have := congrArg Prod.snd (Option.some.inj h1)
    rw [hst] at this; cases this

theorem validating_pending {cfg : Query.Config} {t : Id} {s : Content} {r : Record} {pa : List CEvent} {reports ann : List Id}
    (hc : CInv cfg t s r pa reports ann) (hfin : s.q.base.progress ≠ .finished) {now : Nat} {q : Query.CQuery} {p : Id}
    (hp : Query.cPoll s.q now = some (q, .validating p)) : Query.pendingValidationResult q p ≠ none := by
  have rest : ∀ q0 : Query.CQuery, q0.base = s.q.base → Query.cPollRest q0 now = some (q, .validating p) →
      p ∈ q0.pendingValidations ∧ q.unchecked = q0.unchecked := by
    intro q0 hb0 hr
    unfold Query.cPollRest at hr
    split at hr
    · cases hr
    · cases hpv : q0.pendingValidations with
      | cons a b =>
        simp only [hpv, Option.some.injEq, Prod.mk.injEq, QState.validating.injEq] at hr
        obtain ⟨rfl, rfl⟩ := hr
        exact ⟨List.mem_cons_self, rfl⟩
      | nil =>
        simp only [hpv] at hr
        obtain ⟨b, hb, hb2⟩ := Option.map_eq_some_iff.mp hr
        simp only [Prod.mk.injEq] at hb2
        obtain ⟨_, hb3⟩ := hb2
        rw [hb0] at hb
        exact absurd hb3 (pollPeers_not_validating hc.base (b := b.1) (st := b.2) hb p)
  have this : p ∈ s.q.pendingValidations ∧ q.unchecked = s.q.unchecked := by
    unfold Query.cPoll at hp
    rw [if_neg hfin] at hp
    split at hp
    · exact rest _ rfl hp
    · cases hp
    · split at hp
      · cases hp
      · have h3 := rest { s.q with chan := _, numValidating := s.q.numValidating - 1 } rfl hp
        exact h3
  obtain ⟨u, hu⟩ := hc.pend p this.1
  unfold Query.pendingValidationResult
  rw [this.2, hu]
  simp

theorem poll_open {c : Ctx} {isTrace : Bool} {time : Nat} {peers : List Enr} {h : History} {s : State}
    (ho : Open c isTrace time peers h s) (now : Nat) (known : Id → Option Enr)
    (hk : ∀ id e, known id = some e → e.id = id) :
    ∃ s' o, poll s now known = some (s', o) ∧
      ((Open c isTrace time peers (h ++ [(.poll now known, o)]) s' ∧
          (o = [] ∨ ∃ e, o = [.request e]) ∧
          (o = [] → s'.tasks = s.tasks → now - s.started.getD now < c.cfg.overallTimeout) ∧
          (s'.tasks = s.tasks ∨ ∃ p u, s'.tasks = s.tasks ++ [⟨p, u, Query.nodesToPoke s'.q p⟩])) ∨
       (s'.closed = true ∧ ∃ a, o = [.answer a] ∧ Right c isTrace time peers (h ++ [(.poll now known, o)]) a)) := by
  obtain ⟨reports, ann, hc⟩ := ho.cinv
  obtain ⟨s1, st, h1, h2⟩ := Query.cPoll_inv hc now
  have hov := ho.notOver
  simp only [Query.cStep, proj] at h1
  cases hp : Query.cPoll s.q now with
  | none => rw [hp] at h1; cases h1
  | some r =>
    obtain ⟨q, st0⟩ := r
    rw [hp] at h1
    cases st0 with
    | finished =>
      simp only [Option.some.injEq, Prod.mk.injEq] at h1
      obtain ⟨rfl, rfl⟩ := h1
      refine ⟨_, _, by unfold poll; rw [hp], .inr ⟨rfl, _, rfl, ?_⟩⟩
      unfold finalAnswer Query.cIntoResult
      simp only
      cases hv : q.validated with
      | none =>
        simp only [Right]
        exact ⟨ho.traced, fun t ht => ⟨(ho.trace t ht).1.quiet _ (by simp), (ho.trace t ht).2⟩⟩
      | some v =>
        have hval := h2.validated v hv
        simp only [Right, Option.isSome_map]
        have hp' : past c.self.id h ++ [CEvent.poll now] = past c.self.id (h ++ [(.poll now known,
            [.answer (.found v.content v.wasUtp (s.trace.map fun (t : Trace) =>
              { t.contentValidated v.sender with cancelled := Query.pendingPeers q v.sender }))])]) := by
          rw [past_append]; rfl
        have hrec : record c peers (h ++ [(.poll now known,
            [.answer (.found v.content v.wasUtp (s.trace.map fun (t : Trace) =>
              { t.contentValidated v.sender with cancelled := Query.pendingPeers q v.sender }))])]) =
            (record c peers h).see c.cfg (.polled now .finished) := by
          rw [record_append]; rfl
        have hans : v.sender ∈ ((record c peers h).see c.cfg (.polled now .finished)).answered := h2.reps _ hval.2.1
        refine ⟨ho.traced, v.sender, ?_, ?_, ?_⟩
        · have := hval.1
          rw [hp'] at this
          exact confirmed_of this
        · rw [hrec]; exact hans
        · intro t ht
          obtain ⟨t0, h0, rfl⟩ := Option.map_eq_some_iff.mp ht
          have htr := ho.trace t0 h0
          have hcv : t0.contentValidated v.sender = { t0 with receivedFrom := some v.sender } := by
            unfold Trace.contentValidated; rw [htr.2]; rfl
          rw [hcv]
          have hk0 := htr.1.quiet (.poll now known, [.answer (.found v.content v.wasUtp (s.trace.map fun (t : Trace) =>
              { t.contentValidated v.sender with cancelled := Query.pendingPeers q v.sender }))]) (by simp)
          refine ⟨⟨hk0.origin, hk0.target, hk0.metaOk, hk0.has, hk0.responses, hk0.sources, hk0.told, hk0.failures, ?_⟩,
            rfl, ?_, ?_⟩
          · intro id hid
            have := pendingPeers_known h2.base hid
            have hkn : ((record c peers h).see c.cfg (.polled now .finished)).known = (record c peers h).known := by
              simp [Record.see, hov]
            rw [hkn] at this
            exact htr.1.has id (ho.known id this)
          · rw [hrec]
            intro x hx
            obtain ⟨p, hpm, hpi, hps⟩ := h2.base.pending x hx
            have hst := h2.base.state p hpm
            unfold Query.StateOk at hst
            rw [hps] at hst
            rw [← hpi]
            refine waiting_mem_pendingPeers hpm hps ?_
            intro he
            rw [he] at hst
            exact hst.2.1 hans
          · rw [hrec]
            intro id hid
            obtain ⟨p, hpm, rfl, n, hps⟩ := mem_pendingPeers hid
            have hst := h2.base.state p hpm
            unfold Query.StateOk at hst
            rw [hps] at hst
            exact ⟨List.mem_map.mpr ⟨_, hst.1, rfl⟩, hst.2.1⟩
    | validating p =>
      have hsame : ∀ st', (∀ x, st' ≠ .waiting (some x)) → st' ≠ .finished →
          (record c peers h).see c.cfg (.polled now st') = (record c peers h).see c.cfg (.polled now (outcome [])) := by
        intro st' h3 h4
        simp only [Record.see]
        rw [if_neg (by rw [hov]; simp), if_neg (by rw [hov]; simp)]
        cases st' with
        | waiting x => cases x with
          | some y => exact absurd rfl (h3 y)
          | none => rfl
        | finished => exact absurd rfl h4
        | _ => rfl
      simp only at h1
      cases hv : Query.pendingValidationResult q p with
      | none =>
        rw [hv] at h1
        simp only [Option.some.injEq, Prod.mk.injEq] at h1
        obtain ⟨rfl, rfl⟩ := h1
        exact absurd hv (validating_pending hc (fun hh => by
          have := hc.base.over.mpr hh; rw [hov] at this; cases this) hp)
      | some u =>
        rw [hv] at h1
        simp only [Option.some.injEq, Prod.mk.injEq] at h1
        obtain ⟨rfl, rfl⟩ := h1
        have htask : (s.tasks ++ [(⟨p, u, Query.nodesToPoke q p⟩ : Task)]).map taskC = s.tasks.map taskC ++ [(p, u)] := by
          simp [taskC]
        have hopen := poll_quiet ho now known [] (.validating p) (hsame _ (by simp) (by simp)) (by simp) q
          (s.tasks ++ [⟨p, u, Query.nodesToPoke q p⟩]) _ _ (by rw [htask]; exact h2)
        have hlen : ∀ x : Task, s.tasks ++ [x] ≠ s.tasks := fun x hh => by
          have := congrArg List.length hh; simp at this
        cases u with
        | content b =>
          refine ⟨_, _, by unfold poll; simp only [hp, hv], .inl ⟨hopen, .inl rfl, ?_, .inr ⟨p, _, rfl⟩⟩⟩
          intro _ hh; exact absurd hh (hlen _)
        | connection i =>
          have hpk : p ∈ (record c peers h).known := by
            have : p ∈ reports := by
              rw [h2.queue]; simp [announcement]
            exact reports_known hc this
          obtain ⟨e, he, _⟩ := findEnr_named (s' := { s with started := some (s.started.getD now), q }) ho rfl known hk p hpk
          refine ⟨_, _, by unfold poll; simp only [hp, hv, he], .inl ⟨hopen, .inl rfl, ?_, .inr ⟨p, _, rfl⟩⟩⟩
          intro _ hh; exact absurd hh (hlen _)
    | atCapacity =>
      simp only [Option.some.injEq, Prod.mk.injEq] at h1
      obtain ⟨rfl, rfl⟩ := h1
      have hvn : q.validated = none := by
        cases hv : q.validated with
        | none => rfl
        | some v =>
          have := (h2.base.over).mpr (h2.validated v hv).2.2
          simp [Record.see, hov] at this
      have hcfg : q.base.cfg = c.cfg := h2.base.cfgEq
      by_cases hto : c.cfg.overallTimeout ≤ now - s.started.getD now
      · refine ⟨_, _, by unfold poll; simp only [hp, hcfg]; rw [if_pos hto], .inr ⟨rfl, _, rfl, ?_⟩⟩
        simp only [finalAnswer, Query.cIntoResult, hvn, Right]
        exact ⟨ho.traced, fun t ht => ⟨(ho.trace t ht).1.quiet _ (by simp), (ho.trace t ht).2⟩⟩
      · refine ⟨{ s with started := some (s.started.getD now), q }, _, by unfold poll; simp only [hp, hcfg]; rw [if_neg hto], .inl ⟨?_, .inl rfl, fun _ _ => by omega, .inl rfl⟩⟩
        exact poll_quiet ho now known [] .atCapacity rfl (by simp) q s.tasks _ _ h2
    | waiting x =>
      cases x with
      | none =>
        simp only [Option.some.injEq, Prod.mk.injEq] at h1
        obtain ⟨rfl, rfl⟩ := h1
        have hvn : q.validated = none := by
          cases hv : q.validated with
          | none => rfl
          | some v =>
            have := (h2.base.over).mpr (h2.validated v hv).2.2
            simp [Record.see, hov] at this
        have hcfg : q.base.cfg = c.cfg := h2.base.cfgEq
        by_cases hto : c.cfg.overallTimeout ≤ now - s.started.getD now
        · refine ⟨_, _, by unfold poll; simp only [hp, hcfg]; rw [if_pos hto], .inr ⟨rfl, _, rfl, ?_⟩⟩
          simp only [finalAnswer, Query.cIntoResult, hvn, Right]
          exact ⟨ho.traced, fun t ht => ⟨(ho.trace t ht).1.quiet _ (by simp), (ho.trace t ht).2⟩⟩
        · refine ⟨{ s with started := some (s.started.getD now), q }, _, by unfold poll; simp only [hp, hcfg]; rw [if_neg hto], .inl ⟨?_, .inl rfl, fun _ _ => by omega, .inl rfl⟩⟩
          exact poll_quiet ho now known [] (.waiting none) rfl (by simp) q s.tasks _ _ h2
      | some p =>
        simp only [Option.some.injEq, Prod.mk.injEq] at h1
        obtain ⟨rfl, rfl⟩ := h1
        have hpk : p ∈ (record c peers h).known := by
          have := h2.base.asked p (by simp [Record.askedIds, Record.see, hov])
          simpa [Record.see, hov] using this
        obtain ⟨e, he, hid⟩ := findEnr_named (s' := { s with started := some (s.started.getD now), q }) ho rfl known hk p hpk
        refine ⟨{ s with started := some (s.started.getD now), q }, _, by unfold poll; simp only [hp, he], .inl ⟨?_, .inr ⟨e, rfl⟩, fun hh => (nomatch hh), .inl rfl⟩⟩
        refine poll_quiet ho now known [.request e] (.waiting (some p)) ?_ (by simp) q s.tasks _ _ h2
        simp only [outcome, hid]

/-! ### Tasks and trace events -/

theorem map_eraseIdx {α β : Type} (f : α → β) : ∀ (l : List α) (n : Nat), (l.eraseIdx n).map f = (l.map f).eraseIdx n
  | [], n => by simp
  | a :: l, 0 => rfl
  | a :: l, n + 1 => by simp only [List.eraseIdx_cons_succ, List.map_cons, map_eraseIdx f l n]

theorem endTask_open {c : Ctx} {isTrace : Bool} {time : Nat} {peers : List Enr} {h : History} {s : State}
    (ho : Open c isTrace time peers h s) (n : Nat) (fetch : Fetch) (see : Seen) :
    Open c isTrace time peers (h ++ [(.task n fetch see, (endTask c s n fetch see).2)]) (endTask c s n fetch see).1 := by
  obtain ⟨reports, ann, hc⟩ := ho.cinv
  have hn : ∀ o, named c.self.id peers (h ++ [(.task n fetch see, o)]) = named c.self.id peers h := by
    intro o; rw [named_append]; rfl
  have hr : ∀ o, record c peers (h ++ [(.task n fetch see, o)]) = record c peers h := by
    intro o; rw [record_append]; rfl
  have hfp : ∀ o, firstPoll (h ++ [(.task n fetch see, o)]) = firstPoll h := by
    intro o; rw [firstPoll_append]; cases firstPoll h <;> rfl
  obtain ⟨s1, o1, h1, h2⟩ := Query.cStep_inv hc (.taskEnds n (fetchC fetch) see.stored (validC see))
  have hctr : contentReport (record c peers h) (.taskEnds n (fetchC fetch) see.stored (validC see)) = [] := rfl
  simp only [Query.cStep, proj, List.getElem?_map] at h1
  unfold endTask
  cases ht : s.tasks[n]? with
  | none =>
    simp only [ht, Option.map_none, Option.some.injEq, Prod.mk.injEq] at h1
    obtain ⟨rfl, rfl⟩ := h1
    refine ⟨⟨_, _, by rw [hr, past_append]; exact h2⟩, by rw [hr]; exact ho.notOver, ho.closed, by rw [hn]; exact ho.untrusted,
      by rw [hr, hn]; exact ho.known, by rw [hfp]; exact ho.started, ho.traced,
      fun t ht => ⟨(ho.trace t ht).1.quiet _ (by simp), (ho.trace t ht).2⟩,
      fun x hx => by rw [hn]; exact ⟨(ho.queue x hx).1, FailedBy.mono _ (ho.queue x hx).2⟩⟩
  | some t =>
    simp only [ht, Option.map_some, taskC] at h1
    rw [← taskResult_message c see t fetch] at h1
    have htask := hc.tasks (taskC t) (List.mem_map.mpr ⟨t, List.mem_of_getElem? ht, rfl⟩)
    have hnamed : t.peer ∈ named c.self.id peers h := ho.known _ (reports_known hc htask.2)
    have base : ∀ (q' : Query.CQuery) (queue : List (Id × FailKind)) (o : List Out),
        s1 = ⟨q', (s.tasks.map taskC).eraseIdx n⟩ ∧ o1 = none →
        (∀ x ∈ queue, x ∈ s.queue ∨ (x.1 = t.peer ∧ (taskResult c see t fetch).2.1 = some x.2)) →
        Open c isTrace time peers (h ++ [(.task n fetch see, o)])
          ⟨s.untrusted, s.trace, s.started, q', s.tasks.eraseIdx n, queue, s.closed⟩ := by
      intro q' queue o he hq
      obtain ⟨rfl, rfl⟩ := he
      refine ⟨⟨_, _, by rw [hr, past_append]; simp only [proj, map_eraseIdx]; exact h2⟩, by rw [hr]; exact ho.notOver,
        ho.closed, by rw [hn]; exact ho.untrusted, by rw [hr, hn]; exact ho.known, by rw [hfp]; exact ho.started, ho.traced,
        fun t ht => ⟨(ho.trace t ht).1.quiet _ (by simp), (ho.trace t ht).2⟩, ?_⟩
      intro x hx
      rw [hn]
      rcases hq x hx with hx | ⟨hx1, hx2⟩
      · exact ⟨(ho.queue x hx).1, FailedBy.mono _ (ho.queue x hx).2⟩
      · rw [hx1]; exact ⟨hnamed, task_failed htask.1 hx2⟩
    have hque : ∀ k, (taskResult c see t fetch).2.1 = some k → ∀ x ∈ s.queue ++ [(t.peer, k)],
        x ∈ s.queue ∨ (x.1 = t.peer ∧ (taskResult c see t fetch).2.1 = some x.2) := by
      intro k hk x hx
      rcases List.mem_append.mp hx with hx | hx
      · exact .inl hx
      · rw [List.mem_singleton.mp hx]; exact .inr ⟨rfl, hk⟩
    cases hm : (taskResult c see t fetch).1 with
    | none =>
      rw [hm] at h1
      simp only [Option.some.injEq, Prod.mk.injEq] at h1
      have he := And.intro h1.1.symm h1.2.symm
      cases hk : (taskResult c see t fetch).2.1 with
      | none =>
        simp only [hm, hk]
        exact base _ s.queue _ he (fun x hx => .inl hx)
      | some k =>
        simp only [hm, hk]
        split
        · exact base _ _ _ he (hque k hk)
        · exact base _ s.queue _ he (fun x hx => .inl hx)
    | some m =>
      rw [hm] at h1
      simp only [Option.some.injEq, Prod.mk.injEq] at h1
      have he := And.intro h1.1.symm h1.2.symm
      have hcl : ¬ s.closed = true := by simp [ho.closed]
      cases hk : (taskResult c see t fetch).2.1 with
      | none =>
        simp only [hm, hk, if_neg hcl]
        exact base _ s.queue _ he (fun x hx => .inl hx)
      | some k =>
        simp only [hm, hk, if_neg hcl]
        split
        · exact base _ _ _ he (hque k hk)
        · exact base _ s.queue _ he (fun x hx => .inl hx)

theorem takeTraceEvent_open {c : Ctx} {isTrace : Bool} {time : Nat} {peers : List Enr} {h : History} {s : State}
    (ho : Open c isTrace time peers h s) (tm : Nat) :
    Open c isTrace time peers (h ++ [(.traceEvent tm, [])]) (takeTraceEvent s tm) := by
  have hn : named c.self.id peers (h ++ [(.traceEvent tm, [])]) = named c.self.id peers h := by
    rw [named_append]; rfl
  have hr : record c peers (h ++ [(.traceEvent tm, [])]) = record c peers h := by
    rw [record_append]; rfl
  have hfp : firstPoll (h ++ [(.traceEvent tm, [])]) = firstPoll h := by
    rw [firstPoll_append]; cases firstPoll h <;> rfl
  have hpa : past c.self.id (h ++ [(.traceEvent tm, [])]) = past c.self.id h := by
    rw [past_append]; simp [evC]
  have base : ∀ (queue : List (Id × FailKind)) (trace : Option Trace), (∀ x ∈ queue, x ∈ s.queue) →
      trace.isSome = isTrace → (∀ t, trace = some t → TraceOk c time peers (h ++ [(.traceEvent tm, [])]) t ∧ t.receivedFrom = none) →
      Open c isTrace time peers (h ++ [(.traceEvent tm, [])]) { s with queue, trace } := by
    intro queue trace hq ht htr
    exact ⟨by rw [hr, hpa]; exact ho.cinv, by rw [hr]; exact ho.notOver, ho.closed, by rw [hn]; exact ho.untrusted,
      by rw [hr, hn]; exact ho.known, by rw [hfp]; exact ho.started, ht, htr,
      fun x hx => by rw [hn]; exact ⟨(ho.queue x (hq x hx)).1, FailedBy.mono _ (ho.queue x (hq x hx)).2⟩⟩
  unfold takeTraceEvent
  cases hq : s.queue with
  | nil =>
    exact base s.queue s.trace (fun _ hx => hx) ho.traced
      (fun t ht => ⟨(ho.trace t ht).1.quiet _ (by simp), (ho.trace t ht).2⟩)
  | cons x queue =>
    obtain ⟨id, k⟩ := x
    simp only [if_neg (show ¬ s.closed = true by simp [ho.closed])]
    have hx := ho.queue (id, k) (by rw [hq]; exact List.mem_cons_self)
    refine base queue _ (fun x hx => by rw [hq]; exact List.mem_cons_of_mem _ hx) ?_ ?_
    · rw [Option.isSome_map]; exact ho.traced
    · intro t ht
      obtain ⟨t0, h0, rfl⟩ := Option.map_eq_some_iff.mp ht
      have hk := (ho.trace t0 h0).1.quiet (.traceEvent tm, []) (by simp)
      refine ⟨⟨hk.origin, hk.target, hk.metaOk, hk.has, hk.responses, hk.sources, hk.told, ?_, hk.cancelled⟩, (ho.trace t0 h0).2⟩
      intro i f hf
      simp only [Trace.nodeFailed, insert] at hf ⊢
      split at hf
      · rename_i hi
        have := Option.some.inj hf
        subst this hi
        exact ⟨(ho.trace t0 h0).1.has i hx.1, FailedBy.mono _ hx.2⟩
      · exact hk.failures i f hf

/-! ### Whole histories -/

theorem poke_offers (c : Ctx) (table : Id → Option (Enr × Nat)) (content : Bytes) : ∀ (ids : List Id) (permits : List Bool),
    ∀ x ∈ poke c table content ids permits, ∃ id ∈ ids, ∃ e radius, x = .offer e content ∧ table id = some (e, radius) ∧
      (c.affected = true → xorDistance id c.target ≤ radius)
  | [], _, x, hx => (nomatch hx)
  | id :: ids, permits, x, hx => by
    have ih := poke_offers c table content ids
    have lift : (∃ j ∈ ids, ∃ e radius, x = .offer e content ∧ table j = some (e, radius) ∧
        (c.affected = true → xorDistance j c.target ≤ radius)) → ∃ j ∈ id :: ids, ∃ e radius, x = .offer e content ∧
        table j = some (e, radius) ∧ (c.affected = true → xorDistance j c.target ≤ radius) :=
      fun ⟨j, hj, hh⟩ => ⟨j, List.mem_cons_of_mem _ hj, hh⟩
    unfold poke at hx
    cases ht : table id with
    | none => rw [ht] at hx; exact lift (ih _ x hx)
    | some y =>
      obtain ⟨e, radius⟩ := y
      rw [ht] at hx
      simp only at hx
      split at hx
      · rename_i hcov
        cases permits with
        | nil => exact lift (ih _ x hx)
        | cons p permits =>
          cases p with
          | true =>
            rcases List.mem_cons.mp hx with rfl | hx
            · refine ⟨id, List.mem_cons_self, e, radius, rfl, ht, fun ha => ?_⟩
              rw [ha] at hcov
              simpa using hcov
            · exact lift (ih _ x hx)
          | false => exact lift (ih _ x hx)
      · exact lift (ih _ x hx)

/-- Effects of a task: nothing is asked, and nothing is answered. -/
def Effect : Out → Prop
  | .put _ => True
  | .propagate _ => True
  | .offer _ _ => True
  | _ => False

theorem poke_effect (c : Ctx) (table : Id → Option (Enr × Nat)) (content : Bytes) (ids : List Id) (permits : List Bool) :
    ∀ x ∈ poke c table content ids permits, Effect x := by
  intro x hx
  obtain ⟨_, _, _, _, rfl, _⟩ := poke_offers c table content ids permits x hx
  trivial

theorem process_effect (c : Ctx) (see : Seen) (t : Task) (utp : Bool) (b : Bytes) :
    ∀ x ∈ (process c see t utp b).2.2, Effect x := by
  intro x hx
  unfold process at hx
  split at hx
  · simp only at hx
    split at hx
    · cases hx
    · exact poke_effect _ _ _ _ _ x hx
  · split at hx
    · cases hx
    · simp only at hx
      rcases List.mem_append.mp hx with hx | hx
      · split at hx
        · rcases List.mem_cons.mp hx with rfl | hx
          · trivial
          · split at hx
            · cases hx
            · rw [List.mem_singleton.mp hx]; trivial
        · cases hx
      · split at hx
        · cases hx
        · exact poke_effect _ _ _ _ _ x hx

theorem endTask_effect (c : Ctx) (s : State) (n : Nat) (fetch : Fetch) (see : Seen) :
    ∀ x ∈ (endTask c s n fetch see).2, Effect x := by
  intro x hx
  unfold endTask at hx
  split at hx
  · cases hx
  · simp only at hx
    unfold taskResult at hx
    split at hx
    · exact process_effect _ _ _ _ _ x hx
    · split at hx
      · exact process_effect _ _ _ _ _ x hx
      all_goals cases hx

theorem endTask_closed (c : Ctx) (s : State) (n : Nat) (fetch : Fetch) (see : Seen) :
    (endTask c s n fetch see).1.closed = s.closed := by
  unfold endTask
  cases s.tasks[n]? with
  | none => rfl
  | some t =>
    simp only
    cases (taskResult c see t fetch).1 <;> cases (taskResult c see t fetch).2.1 <;> simp only <;>
      (repeat' split) <;> rfl

/-- An event before the end of the lookup. -/
def Shape (x : Ev × List Out) : Prop :=
  (∃ now known, x.1 = .poll now known ∧ (x.2 = [] ∨ ∃ e, x.2 = [.request e])) ∨
  ((∀ now known, x.1 ≠ .poll now known) ∧ ∀ o ∈ x.2, Effect o)

theorem Shape.out {x : Ev × List Out} (h : Shape x) : ∀ o ∈ x.2, Effect o ∨ ∃ e, o = .request e := by
  intro o ho
  rcases h with ⟨_, _, _, h | ⟨e, h⟩⟩ | ⟨_, h⟩
  · rw [h] at ho; cases ho
  · rw [h] at ho; exact .inr ⟨e, List.mem_singleton.mp ho⟩
  · exact .inl (h o ho)

theorem effects_requested : ∀ (l : List Out), (∀ o ∈ l, Effect o) →
    l.filterMap askedOf = []
  | [], _ => rfl
  | o :: l, h => by
    have ih := effects_requested l fun o ho => h o (List.mem_cons_of_mem _ ho)
    have := h o List.mem_cons_self
    cases o <;> first | exact ih | exact absurd this id

theorem see_shape (cfg : Query.Config) (self : Id) (r : Record) (hr : r.over = false) (x : Ev × List Out) (h : Shape x) :
    (r.see cfg (seen self x)).over = false ∧ (r.see cfg (seen self x)).askedIds = r.askedIds ++
      x.2.filterMap askedOf := by
  obtain ⟨ev, o⟩ := x
  rcases h with ⟨now, known, h1, h2⟩ | ⟨h1, h2⟩
  · simp only at h1 h2
    subst h1
    simp only [seen, Record.see]
    rw [if_neg (by rw [hr]; simp)]
    rcases h2 with rfl | ⟨e, rfl⟩
    · exact ⟨hr, by simp [outcome, Record.askedIds, askedOf]⟩
    · exact ⟨hr, by simp [outcome, Record.askedIds, askedOf]⟩
  · simp only at h1 h2
    rw [effects_requested o h2, List.append_nil]
    cases ev with
    | poll a b => exact absurd rfl (h1 a b)
    | report t s rr =>
      cases rr <;> simp only [seen, Record.see] <;> split <;> exact ⟨hr, rfl⟩
    | task a b d => exact ⟨hr, rfl⟩
    | traceEvent a => exact ⟨hr, rfl⟩

theorem fold_shape (cfg : Query.Config) (self : Id) : ∀ (h : History) (r : Record), r.over = false → (∀ x ∈ h, Shape x) →
    ((h.map (seen self)).foldl (Record.see cfg) r).over = false ∧
    ((h.map (seen self)).foldl (Record.see cfg) r).askedIds = r.askedIds ++ requested h
  | [], r, hr, _ => ⟨hr, by simp [requested]⟩
  | x :: h, r, hr, hs => by
    obtain ⟨h1, h2⟩ := see_shape cfg self r hr x (hs x List.mem_cons_self)
    obtain ⟨h3, h4⟩ := fold_shape cfg self h _ h1 fun y hy => hs y (List.mem_cons_of_mem _ hy)
    refine ⟨h3, ?_⟩
    simp only [List.map_cons, List.foldl_cons]
    rw [h4, h2]
    simp [requested]

theorem record_asked (c : Ctx) (peers : List Enr) (h : History) (hs : ∀ x ∈ h, Shape x) :
    (record c peers h).askedIds = requested h :=
  (fold_shape c.cfg c.self.id h (Record.start c.cfg (peers.map Enr.id)) rfl hs).2

/-- The lookup has ended with an answer that was right, and nothing but effects of tasks follows. -/
def Done (c : Ctx) (isTrace : Bool) (time : Nat) (peers : List Enr) (h : History) (s : State) : Prop :=
  s.closed = true ∧ ∃ pre e a post, h = pre ++ (e, [.answer a]) :: post ∧
    Right c isTrace time peers (pre ++ [(e, [.answer a])]) a ∧
    (∃ now known, e = .poll now known) ∧ (∀ x ∈ pre, Shape x) ∧ ∀ x ∈ post, ∀ o ∈ x.2, Effect o

/-- What is true of a lookup at any time. -/
def Reach (c : Ctx) (isTrace : Bool) (time : Nat) (peers : List Enr) (h : History) (s : State) : Prop :=
  (Open c isTrace time peers h s ∧ ∀ x ∈ h, Shape x) ∨ Done c isTrace time peers h s

theorem step_reach {c : Ctx} {isTrace : Bool} {time : Nat} {peers : List Enr} {h : History} {s : State}
    (hr : Reach c isTrace time peers h s) (e : Ev) (hs : Sane [e]) :
    ∃ s' o, step c s e = some (s', o) ∧ Reach c isTrace time peers (h ++ [(e, o)]) s' := by
  rcases hr with ⟨ho, hq⟩ | ⟨hc, pre, e0, a, post, hh, hright, hpoll, hpre, hpost⟩
  · have hq' : ∀ (o : List Out), Shape (e, o) → ∀ x ∈ h ++ [(e, o)], Shape x := by
      intro o h1 x hx
      rcases List.mem_append.mp hx with hx | hx
      · exact hq x hx
      · rw [List.mem_singleton.mp hx]; exact h1
    cases e with
    | poll now known =>
      obtain ⟨s', o, h1, h2⟩ := poll_open ho now known (hs now known (List.mem_singleton.mpr rfl))
      refine ⟨s', o, by simp only [step, ho.closed, Bool.false_eq_true, if_false, h1], ?_⟩
      rcases h2 with ⟨h2, h3, _⟩ | ⟨h2, a, rfl, h3⟩
      · exact .inl ⟨h2, hq' o (.inl ⟨now, known, rfl, h3⟩)⟩
      · exact .inr ⟨h2, h, _, a, [], rfl, h3, ⟨now, known, rfl⟩, hq, fun _ h => (nomatch h)⟩
    | report tm source r =>
      obtain ⟨s', h1, h2⟩ := onReport_open ho tm source r
      exact ⟨s', [], by simp only [step, ho.closed, Bool.false_eq_true, if_false, h1, Option.map_some],
        .inl ⟨h2, hq' [] (.inr ⟨by simp, fun _ h => (nomatch h)⟩)⟩⟩
    | task n fetch see =>
      exact ⟨_, _, rfl, .inl ⟨endTask_open ho n fetch see, hq' _ (.inr ⟨by simp, endTask_effect c s n fetch see⟩)⟩⟩
    | traceEvent tm =>
      exact ⟨_, _, rfl, .inl ⟨takeTraceEvent_open ho tm, hq' [] (.inr ⟨by simp, fun _ h => (nomatch h)⟩)⟩⟩
  · have done : ∀ (s' : State) (o : List Out), s'.closed = true → (∀ x ∈ o, Effect x) →
        Reach c isTrace time peers (h ++ [(e, o)]) s' := by
      intro s' o h1 h2
      refine .inr ⟨h1, pre, e0, a, post ++ [(e, o)], by rw [hh]; simp, hright, hpoll, hpre, ?_⟩
      intro x hx
      rcases List.mem_append.mp hx with hx | hx
      · exact hpost x hx
      · rw [List.mem_singleton.mp hx]; exact h2
    cases e with
    | poll now known => exact ⟨s, [], by simp [step, hc], done s [] hc (fun _ h => (nomatch h))⟩
    | report tm source r => exact ⟨s, [], by simp [step, hc], done s [] hc (fun _ h => (nomatch h))⟩
    | task n fetch see =>
      exact ⟨_, _, rfl, done _ _ ((endTask_closed c s n fetch see).trans hc) (endTask_effect c s n fetch see)⟩
    | traceEvent tm =>
      refine ⟨_, _, rfl, done _ _ ?_ (fun _ h => (nomatch h))⟩
      unfold takeTraceEvent
      cases s.queue with
      | nil => exact hc
      | cons x q => exact hc

theorem run_reach {c : Ctx} {isTrace : Bool} {time : Nat} {peers : List Enr} : ∀ (es : List Ev) {h : History} {s : State},
    Reach c isTrace time peers h s → Sane es →
    ∃ s' h', run c s es = some (s', h') ∧ h'.map Prod.fst = es ∧ Reach c isTrace time peers (h ++ h') s'
  | [], h, s, hr, _ => ⟨s, [], rfl, rfl, by rw [List.append_nil]; exact hr⟩
  | e :: es, h, s, hr, hs => by
    obtain ⟨s1, o, h1, h2⟩ := step_reach hr e fun now known hm =>
      hs now known (by rw [List.mem_singleton.mp hm]; exact List.mem_cons_self)
    obtain ⟨s', h', h3, h4, h5⟩ := run_reach es h2 fun now known hm => hs now known (List.mem_cons_of_mem _ hm)
    refine ⟨s', (e, o) :: h', by simp only [run, h1, h3, Option.map_some], by rw [List.map_cons, h4], ?_⟩
    rw [List.append_assoc] at h5
    exact h5

theorem run_append (c : Ctx) : ∀ (a b : List Ev) (s : State), run c s (a ++ b) =
    match run c s a with
    | none => none
    | some (s', h) => (run c s' b).map fun r => (r.1, h ++ r.2)
  | [], b, s => by simp [run]
  | e :: a, b, s => by
    simp only [List.cons_append, run]
    cases step c s e with
    | none => rfl
    | some r =>
      simp only [run_append c a b r.1]
      cases run c r.1 a with
      | none => rfl
      | some x =>
        simp only [Option.map_some]
        cases run c x.1 b <;> rfl

end Verif.Lookup
