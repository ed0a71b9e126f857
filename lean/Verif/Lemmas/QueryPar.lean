import Verif.Lemmas.QueryContent

/-! Helper lemmas: how many peers are asked at a time, and which. -/

namespace Verif.Query
open Verif Verif.Props

/-- While few peers answered, the lookup is not stalled and keeps to `parallelism`. -/
structure Par (cfg : Config) (q : Query) (r : Record) : Prop where
  iter : ∀ n, q.progress = .iterating n → n ≤ r.answered.length
  few : r.answered.length < cfg.parallelism →
    q.progress ≠ .stalled ∧ q.numWaiting ≤ cfg.parallelism

theorem start_par (cfg : Config) (t : Id) (known : List Id) :
    Par cfg (withConfig cfg t known) (Record.start cfg known) :=
  ⟨fun n h => by injection h with h; omega, fun _ => ⟨by simp [withConfig], Nat.zero_le _⟩⟩

theorem Par.fewer {cfg : Config} {q q' : Query} {r r' : Record} (h : Par cfg q r)
    (hp : q'.progress = q.progress) (hw : q'.numWaiting ≤ q.numWaiting)
    (ha : r.answered.length ≤ r'.answered.length) : Par cfg q' r' := by
  constructor
  · intro n hn
    have := h.iter n (hp ▸ hn)
    omega
  · intro hlt
    have := h.few (by omega)
    exact ⟨by rw [hp]; exact this.1, Nat.le_trans hw this.2⟩

theorem Par.over {cfg : Config} {q q' : Query} {r r' : Record} (h : Par cfg q r)
    (hp : q'.progress = .finished) (hw : q'.numWaiting ≤ q.numWaiting)
    (ha : r.answered.length ≤ r'.answered.length) : Par cfg q' r' := by
  constructor
  · intro n hn; rw [hp] at hn; cases hn
  · intro hlt
    have := h.few (by omega)
    exact ⟨by rw [hp]; simp, Nat.le_trans hw this.2⟩

theorem incorporate_par {cfg : Config} {q q' : Query} {r r' : Record} (h : Par cfg q r)
    (hc : q'.cfg = cfg) (hp : q'.progress = q.progress) (hw : q'.numWaiting ≤ q.numWaiting)
    (ha : r'.answered.length = r.answered.length + 1) (ids : List Id) :
    Par cfg (incorporate q' ids) r' := by
  have e : (incorporate q' ids).progress = nextProgress cfg q.progress
      (addPeers q'.target q'.peers.length q'.cfg.numResults ids q'.peers false).2 := by
    rw [← hc, ← hp]; rfl
  have ew : (incorporate q' ids).numWaiting = q'.numWaiting := rfl
  generalize (addPeers q'.target q'.peers.length q'.cfg.numResults ids q'.peers false).2 = b at e
  constructor
  · intro n hn
    rw [e] at hn
    unfold nextProgress at hn
    cases hq : q.progress with
    | iterating m =>
      have := h.iter m hq
      rw [hq] at hn
      simp only at hn
      by_cases hcap : cfg.parallelism ≤ (if b = true then 0 else m + 1)
      · rw [if_pos hcap] at hn; cases hn
      · rw [if_neg hcap] at hn
        injection hn with hn
        rw [← hn]
        split <;> omega
    | stalled =>
      rw [hq] at hn
      cases b
      · cases hn
      · simp only [if_true] at hn
        injection hn with hn; omega
    | finished => rw [hq] at hn; cases hn
  · intro hlt
    obtain ⟨h1, h2⟩ := h.few (by omega)
    refine ⟨?_, by rw [ew]; exact Nat.le_trans hw h2⟩
    rw [e]
    unfold nextProgress
    cases hq : q.progress with
    | iterating m =>
      have := h.iter m hq
      simp only
      have hcap : ¬ cfg.parallelism ≤ (if b = true then 0 else m + 1) := by split <;> omega
      rw [if_neg hcap]; simp
    | stalled => exact absurd hq h1
    | finished => simp

/-- What the end of `poll` can do to the progress and the number of waiting peers, and which peer
it hands out. -/
theorem pollPeers_effect {cfg : Config} {t : Id} {q q' : Query} {r : Record} (h : Inv cfg t q r)
    {now : Nat} {c : Option Nat} {st : QState} (hp : pollPeers q now c = some (q', st)) :
    (q'.progress = q.progress ∨ q'.progress = .finished) ∧
    (q'.numWaiting ≤ q.numWaiting ∨ (q'.progress = q.progress ∧ atCapacity q = false ∧
      q'.numWaiting ≤ q.numWaiting + 1)) ∧
    (∀ i, st = .waiting (some i) → i ∈ r.known ∧ i ∉ r.askedIds ∧
      ∀ j ∈ r.known, j ∉ r.askedIds → j = i ∨ xorDistance i t < xorDistance j t) ∧
    (∀ i, st ≠ .validating i) := by
  obtain ⟨ps, w, st', pre, post, post', h1, hl, h2, h3, h4, h5, h6⟩ := loop_looped h now c
  unfold pollPeers at hp
  rw [h1] at hp
  rcases h6 with ⟨e0, e1, e2⟩ | ⟨x, rest, e0, ec, e1, e3, e4⟩ | ⟨e0, _⟩ | ⟨e0, _⟩
  · subst e0
    have hw := hl.other (by simp)
    simp only at hp
    by_cases h0 : 0 < w
    · rw [if_pos h0] at hp
      injection hp with hp; injection hp with g1 g2
      subst g1 g2
      exact ⟨.inl rfl, .inl hw, fun i hi => (by cases hi), fun i hi => (by cases hi)⟩
    · rw [if_neg h0] at hp
      injection hp with hp; injection hp with g1 g2
      subst g1 g2
      exact ⟨.inr rfl, .inl hw, fun i hi => (by cases hi), fun i hi => (by cases hi)⟩
  · subst e0
    have hw := (hl.handed x.id rfl).2.1
    injection hp with hp; injection hp with g1 g2
    subst g1 g2
    refine ⟨.inl rfl, .inr ⟨rfl, ec, hw⟩, ?_, fun i hi => (by cases hi)⟩
    intro i hi
    have hi : x.id = i := by injection hi with hi; exact Option.some.inj hi
    subst hi
    have hx : x ∈ q.peers := by rw [h2, e1]; simp
    have hxs := h.state x hx
    unfold StateOk at hxs
    rw [e3] at hxs
    refine ⟨(h.known _).mp ⟨x, hx, rfl⟩, hxs, ?_⟩
    intro j hj hja
    obtain ⟨p, hpm, rfl⟩ := (h.known j).mpr hj
    have hps := not_asked_state (h.state p hpm) hja
    rw [h2, e1] at hpm
    rcases List.mem_append.mp hpm with hpm | hpm
    · exact absurd hps (h4 p hpm)
    · rcases List.mem_cons.mp hpm with rfl | hpm
      · exact .inl rfl
      · right
        have hs := h.sorted
        rw [h2, e1] at hs
        exact (List.pairwise_cons.mp (List.pairwise_append.mp hs).2.1).1 p hpm
  · subst e0
    have hw := hl.other (by simp)
    injection hp with hp; injection hp with g1 g2
    subst g1 g2
    exact ⟨.inl rfl, .inl hw, fun i hi => (by cases hi), fun i hi => (by cases hi)⟩
  · subst e0
    have hw := hl.other (by simp)
    injection hp with hp; injection hp with g1 g2
    subst g1 g2
    exact ⟨.inr rfl, .inl hw, fun i hi => (by cases hi), fun i hi => (by cases hi)⟩

theorem see_polled_answered (cfg : Config) (r : Record) (now : Nat) (st : QState) :
    (r.see cfg (.polled now st)).answered = r.answered := by
  simp only [Record.see]
  split
  · rfl
  · split <;> rfl

theorem pollPeers_par {cfg : Config} {t : Id} {q q' : Query} {r : Record} (h : Inv cfg t q r)
    (hpar : Par cfg q r) (hq : q.progress ≠ .finished) {now : Nat} {c : Option Nat} {st : QState}
    (hp : pollPeers q now c = some (q', st)) : Par cfg q' (r.see cfg (.polled now st)) := by
  have ha : r.answered.length ≤ (r.see cfg (.polled now st)).answered.length := by
    rw [see_polled_answered]; exact Nat.le_refl _
  obtain ⟨h1, h2, _⟩ := pollPeers_effect h hp
  rcases h2 with h2 | ⟨h2, h3, h4⟩
  · rcases h1 with h1 | h1
    · exact hpar.fewer h1 h2 ha
    · exact hpar.over h1 h2 ha
  · constructor
    · intro n hn
      have := hpar.iter n (h2 ▸ hn)
      omega
    · intro hlt
      rw [see_polled_answered] at hlt
      obtain ⟨g1, g2⟩ := hpar.few hlt
      refine ⟨by rw [h2]; exact g1, ?_⟩
      unfold atCapacity at h3
      rw [h.cfgEq] at h3
      cases hpr : q.progress with
      | stalled => exact absurd hpr g1
      | finished => exact absurd hpr hq
      | iterating n =>
        rw [hpr] at h3
        have := of_decide_eq_false h3
        omega

theorem onFailure_par {cfg : Config} {t : Id} {q q' : Query} {r : Record} (h : Inv cfg t q r)
    (hpar : Par cfg q r) {id : Id} (hf : onFailure q id = some q') :
    Par cfg q' (r.see cfg (.failure id)) := by
  have ha : r.answered.length ≤ (r.see cfg (.failure id)).answered.length := by
    simp only [Record.see]; split <;> exact Nat.le_refl _
  unfold onFailure at hf
  rcases settle_spec h id .failed rfl with ⟨he, hs⟩ | ⟨he, q1, hs, h1, h2, h3, _, h4, h5, h6, _⟩
  · rw [hs] at hf
    have := Option.some.inj hf
    subst this
    exact hpar.fewer rfl (Nat.le_refl _) ha
  · rw [hs] at hf
    have := Option.some.inj hf
    subst this
    exact hpar.fewer h3 h6 ha

theorem settle_par {cfg : Config} {t : Id} {q q' : Query} {r : Record} (h : Inv cfg t q r)
    (hpar : Par cfg q r) {id : Id} (hs : settle q id .succeeded = .settled q') (named : List Id) :
    Par cfg q' (r.see cfg (.success id named)) ∧
      Par cfg (incorporate q' named) (r.see cfg (.success id named)) := by
  rcases settle_spec h id .succeeded rfl with ⟨he, hs'⟩ | ⟨he, q1, hs', h1, h2, h3, _, h4, h5, h6, _⟩
  · rw [hs] at hs'; cases hs'
  · rw [hs] at hs'
    injection hs' with hs'
    subst hs'
    have ha : (r.see cfg (.success id named)).answered.length = r.answered.length + 1 := by
      simp only [Record.see, he, if_true, List.length_append, List.length_singleton]
    exact ⟨hpar.fewer h3 h6 (by omega),
      incorporate_par hpar (h1.trans h.cfgEq) h3 h6 ha named⟩

theorem settle_not_ignored {q : Query} {id : Id} {s : PeerState} :
    settle q id s = .panic ∨ settle q id s = .ignored ∨ ∃ q', settle q id s = .settled q' := by
  cases settle q id s with
  | panic => exact .inl rfl
  | ignored => exact .inr (.inl rfl)
  | settled q' => exact .inr (.inr ⟨q', rfl⟩)

theorem see_success_answered (cfg : Config) (r : Record) (id : Id) (named : List Id) :
    r.answered.length ≤ (r.see cfg (.success id named)).answered.length := by
  simp only [Record.see]
  split
  · simp
  · exact Nat.le_refl _

theorem step_par {cfg : Config} {t : Id} {q q' : Query} {r : Record} (h : Inv cfg t q r)
    (hpar : Par cfg q r) {e : Event} {o : Option QState} (hs : step q e = some (q', o)) :
    Par cfg q' (r.see cfg (nodeSeen (e, o))) := by
  cases e with
  | poll now =>
    simp only [step] at hs
    cases hp : poll q now with
    | none => rw [hp] at hs; cases hs
    | some x =>
      obtain ⟨q1, st⟩ := x
      rw [hp] at hs
      simp only [Option.map_some, Option.some.injEq, Prod.mk.injEq] at hs
      obtain ⟨rfl, rfl⟩ := hs
      unfold poll at hp
      by_cases hq : q.progress = .finished
      · rw [if_pos hq] at hp
        injection hp with hp; injection hp with g1 g2
        subst g1 g2
        refine hpar.fewer rfl (Nat.le_refl _) ?_
        simp only [nodeSeen, see_polled_answered]; exact Nat.le_refl _
      · rw [if_neg hq] at hp
        exact pollPeers_par h hpar hq hp
  | success id resp =>
    simp only [step] at hs
    unfold onSuccess at hs
    rcases settle_not_ignored (q := q) (id := id) (s := .succeeded) with hx | hx | ⟨q1, hx⟩
    · rw [hx] at hs; cases hs
    · rw [hx] at hs
      simp only [Option.map_some, Option.some.injEq, Prod.mk.injEq] at hs
      obtain ⟨rfl, rfl⟩ := hs
      exact hpar.fewer rfl (Nat.le_refl _) (see_success_answered _ _ _ _)
    · have := settle_par h hpar hx resp
      rw [hx] at hs
      simp only [Option.map_some, Option.some.injEq, Prod.mk.injEq] at hs
      obtain ⟨rfl, rfl⟩ := hs
      exact this.2
  | failure id =>
    simp only [step] at hs
    cases hf : onFailure q id with
    | none => rw [hf] at hs; cases hs
    | some q1 =>
      rw [hf] at hs
      simp only [Option.map_some, Option.some.injEq, Prod.mk.injEq] at hs
      obtain ⟨rfl, rfl⟩ := hs
      exact onFailure_par h hpar hf

theorem cPollRest_par {cfg : Config} {t : Id} {q q' : CQuery} {r : Record}
    (h : Inv cfg t q.base r) (hpar : Par cfg q.base r) (hq : q.base.progress ≠ .finished)
    {now : Nat} {st : QState} (hp : cPollRest q now = some (q', st)) :
    Par cfg q'.base (r.see cfg (.polled now st)) := by
  have ha : r.answered.length ≤ (r.see cfg (.polled now st)).answered.length := by
    rw [see_polled_answered]; exact Nat.le_refl _
  unfold cPollRest at hp
  by_cases hv : 0 < q.numValidating
  · rw [if_pos hv] at hp
    injection hp with hp; injection hp with g1 g2
    subst g1
    exact hpar.fewer rfl (Nat.le_refl _) ha
  · rw [if_neg hv] at hp
    cases hpe : q.pendingValidations with
    | cons x xs =>
      rw [hpe] at hp
      injection hp with hp; injection hp with g1 g2
      subst g1
      exact hpar.fewer rfl (Nat.le_refl _) ha
    | nil =>
      rw [hpe] at hp
      simp only at hp
      cases hpp : pollPeers q.base now none with
      | none => rw [hpp] at hp; cases hp
      | some x =>
        obtain ⟨b, s⟩ := x
        rw [hpp] at hp
        simp only [Option.map_some, Option.some.injEq, Prod.mk.injEq] at hp
        obtain ⟨rfl, rfl⟩ := hp
        exact pollPeers_par h hpar hq hpp

theorem cPoll_par {cfg : Config} {t : Id} {q q' : CQuery} {r : Record}
    (h : Inv cfg t q.base r) (hpar : Par cfg q.base r)
    {now : Nat} {st : QState} (hp : cPoll q now = some (q', st)) :
    Par cfg q'.base (r.see cfg (.polled now st)) := by
  have ha : r.answered.length ≤ (r.see cfg (.polled now st)).answered.length := by
    rw [see_polled_answered]; exact Nat.le_refl _
  unfold cPoll at hp
  by_cases hq : q.base.progress = .finished
  · rw [if_pos hq] at hp
    injection hp with hp; injection hp with g1 g2
    subst g1
    exact hpar.fewer rfl (Nat.le_refl _) ha
  · rw [if_neg hq] at hp
    cases hc : q.chan with
    | nil => rw [hc] at hp; exact cPollRest_par h hpar hq hp
    | cons m rest =>
      cases m with
      | some v =>
        rw [hc] at hp
        injection hp with hp; injection hp with g1 g2
        subst g1
        exact hpar.over rfl (Nat.le_refl _) ha
      | none =>
        rw [hc] at hp
        simp only at hp
        by_cases hn : q.numValidating = 0
        · rw [if_pos hn] at hp; cases hp
        · rw [if_neg hn] at hp
          exact cPollRest_par (q := { q with chan := rest, numValidating := q.numValidating - 1 })
            h hpar hq hp

theorem cStep_poll {s s' : Content} {now : Nat} {o : Option QState}
    (h : cStep s (.poll now) = some (s', o)) :
    ∃ st, o = some st ∧ cPoll s.q now = some (s'.q, st) := by
  simp only [cStep] at h
  cases hp : cPoll s.q now with
  | none => rw [hp] at h; cases h
  | some x =>
    obtain ⟨q1, st⟩ := x
    rw [hp] at h
    cases st with
    | validating p =>
      simp only at h
      cases hv : pendingValidationResult q1 p with
      | none =>
        rw [hv] at h
        simp only [Option.some.injEq, Prod.mk.injEq] at h
        obtain ⟨rfl, rfl⟩ := h
        exact ⟨_, rfl, rfl⟩
      | some u =>
        rw [hv] at h
        simp only [Option.some.injEq, Prod.mk.injEq] at h
        obtain ⟨rfl, rfl⟩ := h
        exact ⟨_, rfl, rfl⟩
    | _ =>
      simp only [Option.some.injEq, Prod.mk.injEq] at h
      obtain ⟨rfl, rfl⟩ := h
      exact ⟨_, rfl, rfl⟩

theorem cStep_par {cfg : Config} {t : Id} {s s' : Content} {r : Record}
    (h : Inv cfg t s.q.base r) (hpar : Par cfg s.q.base r) {e : CEvent} {o : Option QState}
    (hs : cStep s e = some (s', o)) : Par cfg s'.q.base (r.see cfg (contentSeen (e, o))) := by
  cases e with
  | poll now =>
    obtain ⟨st, rfl, hp⟩ := cStep_poll hs
    exact cPoll_par h hpar hp
  | success id resp =>
    simp only [cStep] at hs
    unfold cOnSuccess at hs
    rcases settle_not_ignored (q := s.q.base) (id := id) (s := .succeeded) with hx | hx | ⟨q1, hx⟩
    · rw [hx] at hs; cases hs
    · rw [hx] at hs
      simp only [Option.map_some, Option.some.injEq, Prod.mk.injEq] at hs
      obtain ⟨rfl, rfl⟩ := hs
      cases resp <;> exact hpar.fewer rfl (Nat.le_refl _) (see_success_answered _ _ _ _)
    · rw [hx] at hs
      cases resp with
      | closestNodes ids =>
        simp only [Option.map_some, Option.some.injEq, Prod.mk.injEq] at hs
        obtain ⟨rfl, rfl⟩ := hs
        exact (settle_par h hpar hx ids).2
      | content b =>
        simp only [Option.map_some, Option.some.injEq, Prod.mk.injEq] at hs
        obtain ⟨rfl, rfl⟩ := hs
        exact (settle_par h hpar hx []).1
      | connectionId c =>
        simp only [Option.map_some, Option.some.injEq, Prod.mk.injEq] at hs
        obtain ⟨rfl, rfl⟩ := hs
        exact (settle_par h hpar hx []).1
  | failure id =>
    simp only [cStep] at hs
    unfold cOnFailure at hs
    cases hf : onFailure s.q.base id with
    | none => rw [hf] at hs; cases hs
    | some q1 =>
      rw [hf] at hs
      simp only [Option.map_some, Option.some.injEq, Prod.mk.injEq] at hs
      obtain ⟨rfl, rfl⟩ := hs
      exact onFailure_par h hpar hf
  | taskEnds n fetch stored valid =>
    simp only [cStep] at hs
    cases ht : s.tasks[n]? with
    | none =>
      rw [ht] at hs
      simp only [Option.some.injEq, Prod.mk.injEq] at hs
      obtain ⟨rfl, rfl⟩ := hs
      exact hpar
    | some x =>
      obtain ⟨p, u⟩ := x
      rw [ht] at hs
      simp only at hs
      cases hm : taskMessage p u fetch stored valid with
      | none =>
        rw [hm] at hs
        simp only [Option.some.injEq, Prod.mk.injEq] at hs
        obtain ⟨rfl, rfl⟩ := hs
        exact hpar
      | some m =>
        rw [hm] at hs
        simp only [Option.some.injEq, Prod.mk.injEq] at hs
        obtain ⟨rfl, rfl⟩ := hs
        exact hpar

/-! ### Whole histories -/

theorem run_all {cfg : Config} {t : Id} : ∀ (es : List Event) {q : Query} {r : Record},
    Inv cfg t q r → FinishOk cfg t q r → Par cfg q r → ∃ q' hist, run q es = some (q', hist) ∧
      hist.map (·.1) = es ∧
      Inv cfg t q' ((hist.map nodeSeen).foldl (Record.see cfg) r) ∧
      FinishOk cfg t q' ((hist.map nodeSeen).foldl (Record.see cfg) r) ∧
      Par cfg q' ((hist.map nodeSeen).foldl (Record.see cfg) r)
  | [], q, r, h, hf, hpar => ⟨q, [], rfl, rfl, h, hf, hpar⟩
  | e :: es, q, r, h, hf, hpar => by
    obtain ⟨q1, o, h1, h2, hf2⟩ := step_full h hf e
    have hp2 := step_par h hpar h1
    obtain ⟨q2, hist, h3, h3', h4, hf4, hp4⟩ := run_all es h2 hf2 hp2
    exact ⟨q2, (e, o) :: hist, by simp [run, h1, h3], by simp [h3'], h4, hf4, hp4⟩

theorem start_all (cfg : Config) (t : Id) (known : List Id) (es : List Event) :
    ∃ q hist, run (withConfig cfg t known) es = some (q, hist) ∧ hist.map (·.1) = es ∧
      Inv cfg t q (nodeRecord cfg known hist) ∧ FinishOk cfg t q (nodeRecord cfg known hist) ∧
      Par cfg q (nodeRecord cfg known hist) :=
  run_all es (start_inv cfg t known) (fun h => by cases h) (start_par cfg t known)

theorem run_unique {cfg : Config} {t : Id} {known : List Id} {es : List Event} {q : Query}
    {hist : List (Event × Option QState)} (h : run (withConfig cfg t known) es = some (q, hist)) :
    hist.map (·.1) = es ∧
      Inv cfg t q (nodeRecord cfg known hist) ∧ FinishOk cfg t q (nodeRecord cfg known hist) ∧
      Par cfg q (nodeRecord cfg known hist) := by
  obtain ⟨q1, h1, e, hh⟩ := start_all cfg t known es
  rw [h] at e
  have e := Option.some.inj e
  injection e with e1 e2
  subst e1 e2
  exact hh

theorem cRun_par {cfg : Config} {t : Id} : ∀ (es : List CEvent) {s s' : Content} {r : Record}
    {past : List CEvent} {reports ann : List Id} {hist : List (CEvent × Option QState)},
    CInv cfg t s r past reports ann → Par cfg s.q.base r →
    cRun s es = some (s', hist) →
      Par cfg s'.q.base ((hist.map contentSeen).foldl (Record.see cfg) r)
  | [], s, s', r, past, reports, ann, hist, h, hp, hr => by
    simp only [cRun, Option.some.injEq, Prod.mk.injEq] at hr
    obtain ⟨rfl, rfl⟩ := hr
    exact hp
  | e :: es, s, s', r, past, reports, ann, hist, h, hp, hr => by
    obtain ⟨s1, o, h1, h2⟩ := cStep_inv h e
    have hp2 := cStep_par h.base hp h1
    simp only [cRun, h1] at hr
    cases hc : cRun s1 es with
    | none => rw [hc] at hr; cases hr
    | some x =>
      obtain ⟨s2, hist2⟩ := x
      rw [hc] at hr
      simp only [Option.map_some, Option.some.injEq, Prod.mk.injEq] at hr
      obtain ⟨rfl, rfl⟩ := hr
      rw [List.map_cons, List.foldl_cons]
      exact cRun_par es h2 hp2 hc

theorem cStart_all (cfg : Config) (t : Id) (known : List Id) (es : List CEvent) :
    ∃ s hist, cRun ⟨cWithConfig cfg t known, []⟩ es = some (s, hist) ∧ hist.map (·.1) = es ∧
      CInv cfg t s (contentRecord cfg known hist) es
        (contentReports cfg (Record.start cfg known) hist) (announced hist) ∧
      Par cfg s.q.base (contentRecord cfg known hist) := by
  obtain ⟨s, hist, h1, h2, h3⟩ := cRun_inv es (cstart_inv cfg t known)
  simp only [List.nil_append] at h2
  exact ⟨s, hist, h1, h3, h2, cRun_par es (cstart_inv cfg t known) (start_par cfg t known) h1⟩

theorem cRun_unique {cfg : Config} {t : Id} {known : List Id} {es : List CEvent} {s : Content}
    {hist : List (CEvent × Option QState)}
    (h : cRun ⟨cWithConfig cfg t known, []⟩ es = some (s, hist)) :
    hist.map (·.1) = es ∧
      CInv cfg t s (contentRecord cfg known hist) es
        (contentReports cfg (Record.start cfg known) hist) (announced hist) ∧
      Par cfg s.q.base (contentRecord cfg known hist) := by
  obtain ⟨s1, h1, e, hh⟩ := cStart_all cfg t known es
  rw [h] at e
  have e := Option.some.inj e
  injection e with e1 e2
  subst e1 e2
  exact hh

theorem pending_le {cfg : Config} {t : Id} {q : Query} {r : Record} (h : Inv cfg t q r) :
    r.pending.length ≤ q.numWaiting := by
  have hsub : ∀ i ∈ r.pending.map (·.1), i ∈ (q.peers.filter isWaiting).map (·.id) := by
    intro i hi
    obtain ⟨x, hx, rfl⟩ := List.mem_map.mp hi
    obtain ⟨p, hp, he, hs⟩ := h.pending x hx
    exact List.mem_map.mpr ⟨p, List.mem_filter.mpr ⟨hp, by simp [isWaiting, hs]⟩, he⟩
  have := nodup_subset_length h.pendingNodup hsub
  rw [List.length_map, List.length_map, ← List.countP_eq_length_filter, ← h.count] at this
  exact this

end Verif.Query
