import Verif.Lemmas.QueryFinish

/-! Helper lemmas: content lookups. -/

namespace Verif.Query
open Verif Verif.Props

theorem looped_same {cfg : Config} {t : Id} {q : Query} {r : Record} (h : Inv cfg t q r)
    (now : Nat) : Looped cfg t now q q.peers q.numWaiting none :=
  ⟨fun p hp => ⟨p, hp, rfl, .inl rfl⟩, fun p hp => ⟨p, hp, rfl⟩, h.sorted, h.count,
    fun i hi => (by cases hi), fun _ => Nat.le_refl _⟩

/-- A poll that does not look at the peers. -/
theorem idle_inv {cfg : Config} {t : Id} {q : Query} {r : Record} (h : Inv cfg t q r)
    (hq : q.progress ≠ .finished) (now : Nat) {st : QState} (h1 : ∀ i, st ≠ .waiting (some i))
    (h2 : st ≠ .finished) : Inv cfg t q (r.see cfg (.polled now st)) :=
  looped_inv h (looped_same h now) q rfl rfl rfl rfl hq st
    (fun i => ⟨fun hh => absurd hh (h1 i), fun hh => by cases hh⟩)
    ⟨fun hh => absurd hh hq, fun hh => absurd hh h2⟩

/-- A poll that finishes without looking at the peers. -/
theorem finish_inv {cfg : Config} {t : Id} {q : Query} {r : Record} (h : Inv cfg t q r)
    (hq : q.progress ≠ .finished) (now : Nat) :
    Inv cfg t { q with progress := .finished } (r.see cfg (.polled now .finished)) :=
  looped_inv h (looped_same h now) { q with progress := .finished } rfl rfl rfl rfl hq .finished
    (fun i => ⟨fun hh => (by cases hh), fun hh => (by cases hh)⟩) ⟨fun _ => rfl, fun _ => rfl⟩

/-- The event that reported this content is among `past`. -/
def Reported (past : List CEvent) : Id × Unvalidated → Prop
  | (p, .content b) => CEvent.success p (.content b) ∈ past
  | (p, .connection c) => CEvent.success p (.connectionId c) ∈ past

theorem Reported.mono {a : List CEvent} (b : List CEvent) {x : Id × Unvalidated}
    (h : Reported a x) : Reported (a ++ b) x := by
  obtain ⟨p, u⟩ := x
  cases u <;> exact List.mem_append_left _ h

theorem provenance_mono {a : List CEvent} (b : List CEvent) {v : Validated}
    (h : Provenance a v) : Provenance (a ++ b) v := by
  obtain ⟨x, n, f, s, val, y, he, h⟩ := h
  exact ⟨x, n, f, s, val, y ++ b, by rw [he]; simp, h⟩

theorem task_provenance {past : List CEvent} {p : Id} {u : Unvalidated} (hr : Reported past (p, u))
    (n : Nat) {fetch : Fetch} {stored : Option Bytes} {valid : Bytes → Bool} {v : Validated}
    (hm : taskMessage p u fetch stored valid = some (some v)) :
    Provenance (past ++ [.taskEnds n fetch stored valid]) v ∧ v.sender = p := by
  unfold taskMessage at hm
  cases u with
  | content b =>
    have hm : processReceived p false stored valid b = some v := Option.some.inj hm
    unfold processReceived at hm
    cases stored with
    | some x =>
      have hm := Option.some.inj hm
      subst hm
      exact ⟨⟨past, n, fetch, some x, valid, [], rfl, .inr (.inr (.inl ⟨⟨b, hr⟩, rfl, rfl⟩))⟩, rfl⟩
    | none =>
      simp only at hm
      by_cases hv : valid b = true
      · rw [if_pos hv] at hm
        have hm := Option.some.inj hm
        subst hm
        exact ⟨⟨past, n, fetch, none, valid, [], rfl, .inl ⟨hr, rfl, rfl, hv⟩⟩, rfl⟩
      · rw [if_neg hv] at hm; cases hm
  | connection c =>
    cases fetch with
    | failed => cases hm
    | dropped => cases hm
    | data b =>
      have hm : processReceived p true stored valid b = some v := Option.some.inj hm
      unfold processReceived at hm
      cases stored with
      | some x =>
        have hm := Option.some.inj hm
        subst hm
        exact ⟨⟨past, n, .data b, some x, valid, [], rfl,
          .inr (.inr (.inr ⟨⟨c, b, hr, rfl⟩, rfl, rfl⟩))⟩, rfl⟩
      | none =>
        simp only at hm
        by_cases hv : valid b = true
        · rw [if_pos hv] at hm
          have hm := Option.some.inj hm
          subst hm
          exact ⟨⟨past, n, .data b, none, valid, [], rfl,
            .inr (.inl ⟨⟨c, hr⟩, rfl, rfl, rfl, hv⟩)⟩, rfl⟩
        · rw [if_neg hv] at hm; cases hm

/-- No validation task ends without a message. -/
def NoDrop (es : List CEvent) : Prop :=
  ∀ n stored valid, CEvent.taskEnds n .dropped stored valid ∉ es

structure CInv (cfg : Config) (t : Id) (s : Content) (r : Record) (past : List CEvent)
    (reports ann : List Id) : Prop where
  base : Inv cfg t s.q.base r
  slots : s.tasks.length + s.q.chan.length ≤ s.q.numValidating
  one : s.q.numValidating ≤ 1
  queue : reports = ann ++ s.q.pendingValidations
  pend : ∀ p ∈ s.q.pendingValidations, ∃ u, s.q.unchecked.lookup p = some u
  unchecked : ∀ x ∈ s.q.unchecked, Reported past x ∧ x.1 ∈ reports
  tasks : ∀ x ∈ s.tasks, Reported past x ∧ x.1 ∈ reports
  reps : ∀ p ∈ reports, p ∈ r.answered
  chan : ∀ v, some v ∈ s.q.chan → Provenance past v ∧ v.sender ∈ reports
  validated : ∀ v, s.q.validated = some v →
    Provenance past v ∧ v.sender ∈ reports ∧ s.q.base.progress = .finished
  exact : NoDrop past → s.q.base.progress ≠ .finished →
    s.tasks.length + s.q.chan.length = s.q.numValidating
  settled : s.q.base.progress = .finished → s.q.validated = none →
    s.q.pendingValidations = [] ∧ s.q.numValidating = 0

theorem cstart_inv (cfg : Config) (t : Id) (known : List Id) :
    CInv cfg t ⟨cWithConfig cfg t known, []⟩ (Record.start cfg known) [] [] [] where
  base := start_inv cfg t known
  slots := Nat.le_refl _
  one := Nat.zero_le _
  queue := rfl
  pend := fun p hp => by cases hp
  unchecked := fun x hx => by cases hx
  tasks := fun x hx => by cases hx
  reps := fun p hp => by cases hp
  chan := fun v hv => by cases hv
  validated := fun v hv => by cases hv
  exact := fun _ _ => rfl
  settled := fun h => by cases h

theorem lookup_mem {l : List (Id × Unvalidated)} {p : Id} {u : Unvalidated}
    (h : l.lookup p = some u) : (p, u) ∈ l := by
  induction l with
  | nil => cases h
  | cons x xs ih =>
    obtain ⟨a, b⟩ := x
    rw [List.lookup_cons] at h
    by_cases e : (p == a) = true
    · rw [e] at h
      have h := Option.some.inj h
      rw [eq_of_beq e, h]; exact List.mem_cons_self
    · rw [Bool.not_eq_true] at e
      rw [e] at h
      exact List.mem_cons_of_mem _ (ih h)

theorem noDrop_left {a b : List CEvent} (h : NoDrop (a ++ b)) : NoDrop a :=
  fun n s v hm => h n s v (List.mem_append_left _ hm)

/-- A step that only polls the peers or changes the base by reports without content. -/
theorem base_cinv {cfg : Config} {t : Id} {s : Content} {r r' : Record} {past : List CEvent}
    {reports ann : List Id} (h : CInv cfg t s r past reports ann) {b : Query}
    (hb : Inv cfg t b r') (e : CEvent) (ha : ∀ p ∈ r.answered, p ∈ r'.answered)
    (hf : b.progress = .finished ↔ s.q.base.progress = .finished ∨
      (b.progress = .finished ∧ s.q.pendingValidations = [] ∧ s.q.numValidating = 0)) :
    CInv cfg t ⟨{ s.q with base := b }, s.tasks⟩ r' (past ++ [e]) reports ann where
  base := hb
  slots := h.slots
  one := h.one
  queue := h.queue
  pend := h.pend
  unchecked := fun x hx => ⟨(h.unchecked x hx).1.mono _, (h.unchecked x hx).2⟩
  tasks := fun x hx => ⟨(h.tasks x hx).1.mono _, (h.tasks x hx).2⟩
  reps := fun p hp => ha p (h.reps p hp)
  chan := fun v hv => ⟨provenance_mono _ (h.chan v hv).1, (h.chan v hv).2⟩
  validated := fun v hv => ⟨provenance_mono _ (h.validated v hv).1, (h.validated v hv).2.1,
    hf.mpr (.inl (h.validated v hv).2.2)⟩
  exact := fun hn hq => h.exact (noDrop_left hn) (fun hh => hq (hf.mpr (.inl hh)))
  settled := fun hq hv => by
    rcases hf.mp hq with h1 | h1
    · exact h.settled h1 hv
    · exact h1.2

theorem see_answered (cfg : Config) (r : Record) (x : Seen) :
    ∀ p ∈ r.answered, p ∈ (r.see cfg x).answered := by
  intro p hp
  cases x with
  | polled now st =>
    simp only [Record.see]
    split
    · exact hp
    · split <;> exact hp
  | success i n =>
    simp only [Record.see]
    split
    · exact List.mem_append_left _ hp
    · exact hp
  | failure i =>
    simp only [Record.see]
    split <;> exact hp
  | other => exact hp

/-- The rest of `poll`, from a state in which the channel was read. -/
theorem cPollRest_inv {cfg : Config} {t : Id} {q : CQuery} {tasks : List (Id × Unvalidated)}
    {r : Record} {past : List CEvent} {reports ann : List Id}
    (h : CInv cfg t ⟨q, tasks⟩ r past reports ann) (hq : q.base.progress ≠ .finished) (now : Nat) :
    ∃ q' st, cPollRest q now = some (q', st) ∧
      ((∃ p u, st = .validating p ∧ pendingValidationResult q' p = some u ∧
        CInv cfg t ⟨q', tasks ++ [(p, u)]⟩ (r.see cfg (.polled now st)) (past ++ [.poll now])
          reports (ann ++ [p])) ∨
       ((∀ p, st ≠ .validating p) ∧
        CInv cfg t ⟨q', tasks⟩ (r.see cfg (.polled now st)) (past ++ [.poll now]) reports ann)) := by
  unfold cPollRest
  by_cases hv : 0 < q.numValidating
  · rw [if_pos hv]
    refine ⟨_, _, rfl, .inr ⟨by simp, ?_⟩⟩
    have hb := idle_inv h.base hq now (st := .atCapacity) (by simp) (by simp)
    have := base_cinv h hb (.poll now) (see_answered cfg r _) ⟨fun hh => .inl hh, fun hh => by
      rcases hh with hh | hh
      · exact hh
      · exact hh.1⟩
    exact this
  · rw [if_neg hv]
    have h0 : q.numValidating = 0 := by omega
    have hsl := h.slots
    simp only [h0] at hsl
    cases hpv : q.pendingValidations with
    | nil =>
      simp only
      obtain ⟨b, st, h1, h2⟩ := pollPeers_inv h.base hq now none
      rw [h1]
      refine ⟨_, _, rfl, .inr ⟨?_, ?_⟩⟩
      · intro p hst
        simp only at hst
        obtain ⟨ps, w, st', pre, post, post', g1, hl, g2, g3, g4, g5, g6⟩ :=
          loop_looped h.base now none
        unfold pollPeers at h1
        simp only at g1
        rw [g1] at h1
        rcases g6 with ⟨e0, _⟩ | ⟨x, rest, e0, _⟩ | ⟨e0, _⟩ | ⟨e0, _⟩ <;> subst e0
        · simp only at h1
          split at h1 <;>
          · have := congrArg Prod.snd (Option.some.inj h1)
            rw [hst] at this; cases this
        all_goals
          have := congrArg Prod.snd (Option.some.inj h1)
          rw [hst] at this; cases this
      · have hfin := base_cinv h h2 (.poll now) (see_answered cfg r _)
          ⟨fun hh => .inr ⟨hh, hpv, h0⟩, fun hh => by
            rcases hh with hh | hh
            · exact absurd hh hq
            · exact hh.1⟩
        simp only at hfin
        rw [hpv] at hfin
        exact hfin
    | cons p rest =>
      simp only
      obtain ⟨u, hu⟩ := h.pend p (by simp only; rw [hpv]; exact List.mem_cons_self)
      simp only at hu
      refine ⟨_, _, rfl, .inl ⟨p, u, rfl, hu, ?_⟩⟩
      have hmem := lookup_mem hu
      refine ⟨idle_inv h.base hq now (by simp) (by simp), ?_, ?_, ?_, ?_, ?_, ?_, ?_, ?_, ?_, ?_, ?_⟩
      · simp only [List.length_append, List.length_singleton]; omega
      · simp only; omega
      · rw [h.queue]; simp only [hpv, List.append_assoc, List.singleton_append]
      · intro x hx; exact h.pend x (by simp only [hpv]; exact List.mem_cons_of_mem _ hx)
      · intro x hx; exact ⟨(h.unchecked x hx).1.mono _, (h.unchecked x hx).2⟩
      · intro x hx
        rcases List.mem_append.mp hx with hx | hx
        · exact ⟨(h.tasks x hx).1.mono _, (h.tasks x hx).2⟩
        · rw [List.mem_singleton.mp hx]
          exact ⟨(h.unchecked _ hmem).1.mono _, (h.unchecked _ hmem).2⟩
      · intro x hx; exact see_answered cfg r _ x (h.reps x hx)
      · intro v hvv; exact ⟨provenance_mono _ (h.chan v hvv).1, (h.chan v hvv).2⟩
      · intro v hvv
        exact ⟨provenance_mono _ (h.validated v hvv).1, (h.validated v hvv).2⟩
      · intro hn hqq
        have := h.exact (noDrop_left hn) hq
        simp only at this
        simp only [List.length_append, List.length_singleton]; omega
      · intro hh; exact absurd hh hq

theorem cPoll_inv {cfg : Config} {t : Id} {s : Content} {r : Record} {past : List CEvent}
    {reports ann : List Id} (h : CInv cfg t s r past reports ann) (now : Nat) :
    ∃ s' st, cStep s (.poll now) = some (s', some st) ∧
      CInv cfg t s' (r.see cfg (.polled now st)) (past ++ [.poll now]) reports
        (ann ++ announcement (some st)) := by
  obtain ⟨q, tasks⟩ := s
  have finishing : ∀ {q' : CQuery} {r0 : Record} {past0 : List CEvent},
      CInv cfg t ⟨q', tasks⟩ r0 past0 reports ann → q'.base.progress ≠ .finished →
      cPoll q now = cPollRest q' now → r0 = r → past0 = past →
      ∃ s' st, cStep ⟨q, tasks⟩ (.poll now) = some (s', some st) ∧
      CInv cfg t s' (r.see cfg (.polled now st)) (past ++ [.poll now]) reports
        (ann ++ announcement (some st)) := by
    intro q' r0 past0 h' hq' he hr hp
    subst hr hp
    obtain ⟨q2, st, h1, h2⟩ := cPollRest_inv h' hq' now
    unfold cStep
    simp only [he, h1]
    rcases h2 with ⟨p, u, rfl, hu, h3⟩ | ⟨hn, h3⟩
    · simp only [hu]
      exact ⟨_, _, rfl, h3⟩
    · have ha : announcement (some st) = [] := by
        cases st <;> first | rfl | (exact absurd rfl (hn _))
      refine ⟨⟨q2, tasks⟩, st, ?_, by rw [ha, List.append_nil]; exact h3⟩
      cases st <;> first | rfl | (exact absurd rfl (hn _))
  by_cases hq : q.base.progress = .finished
  · refine ⟨⟨q, tasks⟩, .finished, by simp [cStep, cPoll, hq], ?_⟩
    rw [see_over cfg (h.base.over.mpr hq)]
    simp only [announcement, List.append_nil]
    exact base_cinv h h.base (.poll now) (fun p hp => hp) ⟨fun hh => .inl hh, fun hh => hq⟩
  · cases hc : q.chan with
    | nil =>
      exact finishing h hq (by simp [cPoll, hq, hc]) rfl rfl
    | cons m rest =>
      cases m with
      | none =>
        have hpos : q.numValidating ≠ 0 := by
          have := h.slots; simp only [hc, List.length_cons] at this; omega
        refine finishing (q' := { q with chan := rest, numValidating := q.numValidating - 1 })
          (r0 := r) (past0 := past) ?_ hq (by simp [cPoll, hq, hc, hpos]) rfl rfl
        have hs := h.slots
        have ho := h.one
        simp only [hc, List.length_cons] at hs
        refine ⟨h.base, by simp only; omega, by simp only at ho ⊢; omega, h.queue, h.pend,
          h.unchecked, h.tasks, h.reps, ?_, h.validated, ?_, ?_⟩
        · intro v hv
          exact h.chan v (by simp only [hc]; exact List.mem_cons_of_mem _ hv)
        · intro hn hqq
          have := h.exact hn hq
          simp only [hc, List.length_cons] at this
          simp only; omega
        · intro hh; exact absurd hh hq
      | some v =>
        refine ⟨⟨{ q with
            chan := rest
            base := { q.base with progress := .finished }
            validated := some v }, tasks⟩, .finished, by simp [cStep, cPoll, hq, hc], ?_⟩
        simp only [announcement, List.append_nil]
        have hs := h.slots
        simp only [hc, List.length_cons] at hs
        have hv := h.chan v (by simp only [hc]; exact List.mem_cons_self)
        refine ⟨finish_inv h.base hq now, by simp only; omega, h.one, h.queue, h.pend, ?_, ?_, ?_,
          ?_, ?_, ?_, ?_⟩
        · intro x hx; exact ⟨(h.unchecked x hx).1.mono _, (h.unchecked x hx).2⟩
        · intro x hx; exact ⟨(h.tasks x hx).1.mono _, (h.tasks x hx).2⟩
        · intro x hx; exact see_answered cfg r _ x (h.reps x hx)
        · intro v' hv'
          have := h.chan v' (by simp only [hc]; exact List.mem_cons_of_mem _ hv')
          exact ⟨provenance_mono _ this.1, this.2⟩
        · intro v' hv'
          have hv' := Option.some.inj hv'
          subst hv'
          exact ⟨provenance_mono _ hv.1, hv.2, rfl⟩
        · intro _ hh; exact absurd rfl hh
        · intro _ hh; cases hh

theorem cOnSuccess_inv {cfg : Config} {t : Id} {s : Content} {r : Record} {past : List CEvent}
    {reports ann : List Id} (h : CInv cfg t s r past reports ann) (id : Id) (resp : Response) :
    ∃ s', cStep s (.success id resp) = some (s', none) ∧
      CInv cfg t s' (r.see cfg (contentSeen (.success id resp, none)))
        (past ++ [.success id resp]) (reports ++ contentReport r (.success id resp)) ann := by
  obtain ⟨q, tasks⟩ := s
  rcases settle_spec h.base id .succeeded rfl with
    ⟨he, hs⟩ | ⟨he, b, hs, h1, h2, h3, _, h4, h5, h6, _⟩
  · refine ⟨⟨q, tasks⟩, by simp only [cStep, cOnSuccess, hs, Option.map_some], ?_⟩
    have e1 : r.see cfg (contentSeen (.success id resp, none)) = r := by
      cases resp <;> simp [contentSeen, Record.see, he]
    have e2 : contentReport r (.success id resp) = [] := by
      cases resp <;> simp [contentReport, he]
    rw [e1, e2, List.append_nil]
    exact base_cinv h h.base _ (fun p hp => hp) ⟨fun hh => .inl hh, fun hh => by
      rcases hh with hh | hh
      · exact hh
      · exact hh.1⟩
  · have hsi := success_inv h.base he h1 h2 h3 h4 h5 h6
    have hnf : q.base.progress ≠ .finished := by
      intro hh
      have := h.base.over.mpr hh
      have := ((expects_iff r id).mp he).1
      simp_all
    have content : ∀ (u : Unvalidated) (e : CEvent), Reported [e] (id, u) →
        CInv cfg t ⟨{ q with
              base := b
              unchecked := (id, u) :: q.unchecked
              pendingValidations := q.pendingValidations ++ [id] }, tasks⟩
          { r with answered := r.answered ++ [id]
                   pending := r.pending.filter (fun x => decide (x.1 ≠ id)) }
          (past ++ [e]) (reports ++ [id]) ann := by
      intro u e hrep
      have hrep' : Reported (past ++ [e]) (id, u) := by
        cases u <;> exact List.mem_append_right _ hrep
      refine ⟨hsi, h.slots, h.one, ?_, ?_, ?_, ?_, ?_, ?_, ?_, ?_, ?_⟩
      · rw [h.queue]; simp only [List.append_assoc]
      · intro p hp
        simp only [List.lookup_cons]
        by_cases hpe : (p == id) = true
        · rw [hpe]; exact ⟨u, rfl⟩
        · rcases List.mem_append.mp hp with hp | hp
          · rw [Bool.not_eq_true] at hpe
            rw [hpe]; exact h.pend p hp
          · rw [List.mem_singleton.mp hp] at hpe
            exact absurd (beq_self_eq_true id) hpe
      · intro x hx
        rcases List.mem_cons.mp hx with rfl | hx
        · exact ⟨hrep', List.mem_append_right _ (List.mem_singleton.mpr rfl)⟩
        · exact ⟨(h.unchecked x hx).1.mono _, List.mem_append_left _ (h.unchecked x hx).2⟩
      · intro x hx
        exact ⟨(h.tasks x hx).1.mono _, List.mem_append_left _ (h.tasks x hx).2⟩
      · intro x hx
        rcases List.mem_append.mp hx with hx | hx
        · exact List.mem_append_left _ (h.reps x hx)
        · exact List.mem_append_right _ hx
      · intro v hv
        exact ⟨provenance_mono _ (h.chan v hv).1, List.mem_append_left _ (h.chan v hv).2⟩
      · intro v hv
        exact absurd (h.validated v hv).2.2 hnf
      · intro hn hq
        exact h.exact (noDrop_left hn) hnf
      · intro hh
        simp only at hh
        rw [h3] at hh
        exact absurd hh hnf
    cases resp with
    | closestNodes ids =>
      refine ⟨⟨{ q with base := incorporate b ids }, tasks⟩,
        by simp only [cStep, cOnSuccess, hs, Option.map_some], ?_⟩
      simp only [contentSeen, Record.see, he, if_true, contentReport, List.append_nil]
      refine base_cinv h (incorporate_inv hsi ids) _ (fun p hp => List.mem_append_left _ hp) ?_
      have : (incorporate b ids).progress = .finished ↔ q.base.progress = .finished := by
        rw [← h3]; exact nextProgress_finished _ _ _
      exact ⟨fun hh => .inl (this.mp hh), fun hh => by
        rcases hh with hh | hh
        · exact this.mpr hh
        · exact hh.1⟩
    | content bytes =>
      refine ⟨_, by simp only [cStep, cOnSuccess, hs, Option.map_some]; rfl, ?_⟩
      simp only [contentSeen, Record.see, he, if_true, contentReport, List.append_nil]
      exact content (.content bytes) _ (List.mem_singleton.mpr rfl)
    | connectionId c =>
      refine ⟨_, by simp only [cStep, cOnSuccess, hs, Option.map_some]; rfl, ?_⟩
      simp only [contentSeen, Record.see, he, if_true, contentReport, List.append_nil]
      exact content (.connection c) _ (List.mem_singleton.mpr rfl)

theorem onFailure_progress {q q' : Query} {id : Id} (h : onFailure q id = some q') :
    q'.progress = q.progress := by
  unfold onFailure settle at h
  by_cases hq : q.progress = .finished
  · simp [hq] at h; rw [← h, hq]
  · simp only [if_neg hq] at h
    cases hl : lookup q id with
    | none => simp [hl] at h; rw [← h]
    | some p =>
      simp only [hl] at h
      cases hs : p.state <;> simp only [hs] at h
      case waiting d =>
        by_cases h0 : q.numWaiting = 0
        · simp [h0] at h
        · simp [h0] at h; rw [← h]
      all_goals (have := Option.some.inj h; rw [← this])

theorem cStep_inv {cfg : Config} {t : Id} {s : Content} {r : Record} {past : List CEvent}
    {reports ann : List Id} (h : CInv cfg t s r past reports ann) (e : CEvent) :
    ∃ s' o, cStep s e = some (s', o) ∧
      CInv cfg t s' (r.see cfg (contentSeen (e, o))) (past ++ [e]) (reports ++ contentReport r e)
        (ann ++ announcement o) := by
  cases e with
  | poll now =>
    obtain ⟨s', st, h1, h2⟩ := cPoll_inv h now
    exact ⟨s', some st, h1, by simp only [contentSeen, contentReport, List.append_nil]; exact h2⟩
  | success id resp =>
    obtain ⟨s', h1, h2⟩ := cOnSuccess_inv h id resp
    exact ⟨s', none, h1, by simp only [announcement, List.append_nil]; exact h2⟩
  | failure id =>
    obtain ⟨b, h1, h2⟩ := onFailure_inv h.base id
    refine ⟨_, none, by simp only [cStep, cOnFailure, h1, Option.map_some]; rfl, ?_⟩
    simp only [contentReport, announcement, List.append_nil]
    refine base_cinv h h2 _ (see_answered cfg r _) ?_
    rw [onFailure_progress h1]
    exact ⟨fun hh => .inl hh, fun hh => by
      rcases hh with hh | hh
      · exact hh
      · exact hh.1⟩
  | taskEnds n fetch stored valid =>
    obtain ⟨q, tasks⟩ := s
    have keep : CInv cfg t ⟨q, tasks⟩ r (past ++ [.taskEnds n fetch stored valid]) reports ann :=
      base_cinv h h.base _ (fun p hp => hp) ⟨fun hh => .inl hh, fun hh => by
        rcases hh with hh | hh
        · exact hh
        · exact hh.1⟩
    simp only [cStep, contentSeen, contentReport, List.append_nil]
    cases hn : tasks[n]? with
    | none => exact ⟨_, _, rfl, by simp only [announcement, List.append_nil]; exact keep⟩
    | some x =>
      obtain ⟨p, u⟩ := x
      have hmem : (p, u) ∈ tasks := List.mem_of_getElem? hn
      have hlt : n < tasks.length := by
        rw [List.getElem?_eq_some_iff] at hn; exact hn.1
      have hlen : (tasks.eraseIdx n).length = tasks.length - 1 := List.length_eraseIdx_of_lt hlt
      have hsl := h.slots
      simp only at hsl
      cases hm : taskMessage p u fetch stored valid with
      | none =>
        simp only [hm]
        refine ⟨_, _, rfl, ?_⟩
        simp only [announcement, List.append_nil]
        refine ⟨keep.base, by simp only [hlen]; omega, keep.one, keep.queue, keep.pend,
          keep.unchecked, fun x hx => keep.tasks x (List.mem_of_mem_eraseIdx hx), keep.reps,
          keep.chan, keep.validated, ?_, keep.settled⟩
        intro hnd
        exfalso
        unfold taskMessage at hm
        cases u with
        | content b => cases hm
        | connection c =>
          cases fetch with
          | data b => cases hm
          | failed => cases hm
          | dropped => exact hnd n stored valid (List.mem_append_right _ (List.mem_singleton.mpr rfl))
      | some m =>
        simp only [hm]
        refine ⟨_, _, rfl, ?_⟩
        simp only [announcement, List.append_nil]
        refine ⟨keep.base, by simp only [hlen, List.length_append, List.length_singleton]; omega,
          keep.one, keep.queue, keep.pend, keep.unchecked,
          fun x hx => keep.tasks x (List.mem_of_mem_eraseIdx hx), keep.reps, ?_,
          keep.validated, ?_, keep.settled⟩
        · intro v hv
          rcases List.mem_append.mp hv with hv | hv
          · exact keep.chan v hv
          · have hmv : m = some v := (List.mem_singleton.mp hv).symm
            rw [hmv] at hm
            have ht := h.tasks _ hmem
            have := task_provenance ht.1 n hm
            exact ⟨this.1, by rw [this.2]; exact ht.2⟩
        · intro hnd hq
          have := h.exact (noDrop_left hnd) hq
          simp only at this
          simp only [hlen, List.length_append, List.length_singleton]; omega

theorem cRun_inv {cfg : Config} {t : Id} : ∀ (es : List CEvent) {s : Content} {r : Record}
    {past : List CEvent} {reports ann : List Id}, CInv cfg t s r past reports ann →
    ∃ s' hist, cRun s es = some (s', hist) ∧
      CInv cfg t s' ((hist.map contentSeen).foldl (Record.see cfg) r) (past ++ es)
        (reports ++ contentReports cfg r hist) (ann ++ announced hist) ∧ hist.map (·.1) = es
  | [], s, r, past, reports, ann, h =>
    ⟨s, [], rfl, by simpa [contentReports, announced] using h, rfl⟩
  | e :: es, s, r, past, reports, ann, h => by
    obtain ⟨s1, o, h1, h2⟩ := cStep_inv h e
    obtain ⟨s2, hist, h3, h4, h5⟩ := cRun_inv es h2
    refine ⟨s2, (e, o) :: hist, by simp [cRun, h1, h3], ?_, by simp [h5]⟩
    simp only [List.append_assoc, List.singleton_append] at h4
    simp only [contentReports, announced, List.flatMap_cons, List.map_cons, List.foldl_cons]
    exact h4

/-- After finishing only the queue of the channel and the tasks change. -/
theorem cStep_finished {s : Content} (h : s.q.base.progress = .finished) (e : CEvent) :
    ∃ s' o, cStep s e = some (s', o) ∧ s'.q.base = s.q.base ∧ s'.q.validated = s.q.validated ∧
      ∀ now, e = .poll now → o = some .finished := by
  obtain ⟨q, tasks⟩ := s
  simp only at h
  cases e with
  | poll now =>
    exact ⟨⟨q, tasks⟩, some .finished, by simp [cStep, cPoll, h], rfl, rfl, fun _ _ => rfl⟩
  | success id resp =>
    exact ⟨⟨q, tasks⟩, none, by simp [cStep, cOnSuccess, settle_finished h], rfl, rfl,
      fun _ hh => by cases hh⟩
  | failure id =>
    exact ⟨⟨q, tasks⟩, none, by simp [cStep, cOnFailure, onFailure, settle_finished h], rfl, rfl,
      fun _ hh => by cases hh⟩
  | taskEnds n fetch stored valid =>
    simp only [cStep]
    cases hn : tasks[n]? with
    | none => exact ⟨_, _, rfl, rfl, rfl, fun _ hh => by cases hh⟩
    | some x =>
      obtain ⟨p, u⟩ := x
      cases hm : taskMessage p u fetch stored valid with
      | none =>
        simp only [hm]
        exact ⟨_, _, rfl, rfl, rfl, fun _ hh => by cases hh⟩
      | some m =>
        simp only [hm]
        exact ⟨_, _, rfl, rfl, rfl, fun _ hh => by cases hh⟩

theorem cRun_finished : ∀ (es : List CEvent) {s : Content}, s.q.base.progress = .finished →
    ∃ s' hist, cRun s es = some (s', hist) ∧ s'.q.base = s.q.base ∧
      s'.q.validated = s.q.validated ∧
      ∀ x ∈ hist, ∀ now, x.1 = .poll now → x.2 = some .finished
  | [], s, _ => ⟨s, [], rfl, rfl, rfl, fun x hx => by cases hx⟩
  | e :: es, s, h => by
    obtain ⟨s1, o, h1, h2, h3, h4⟩ := cStep_finished h e
    obtain ⟨s2, hist, h5, h6, h7, h8⟩ := cRun_finished es (by rw [h2]; exact h)
    refine ⟨s2, (e, o) :: hist, by simp [cRun, h1, h5], h6.trans h2, h7.trans h3, ?_⟩
    intro x hx now hxe
    rcases List.mem_cons.mp hx with rfl | hx
    · exact h4 now hxe
    · exact h8 x hx now hxe

end Verif.Query
