import Verif.Lemmas.QueryWon

/-! C11: content lookups return only content that was reported and confirmed. -/

namespace Verif.Props
open Verif Verif.Query

/-- The end of a validation task for the report `u` confirms `b`: bytes were received (with the
answer, or over the stream) and `b` is the local value of the key, or there is none, `b` are the
received bytes and the validator accepts them. -/
def Confirms (u : Unvalidated) (fetch : Fetch) (stored : Option Bytes) (valid : Bytes → Bool)
    (b : Bytes) : Prop :=
  ∃ got, (u = .content got ∨ ((∃ c, u = .connection c) ∧ fetch = .data got)) ∧
    (stored = some b ∨ (stored = none ∧ b = got ∧ valid got = true))

/-- A lookup has a result only if it is over, and the result was reported by a peer that was asked
and answered, during the lookup, and then confirmed. -/
theorem C11_provenance (cfg : Config) (target : Id) (known : List Id) (es : List CEvent)
    (s : Content) (hist : List (CEvent × Option QState))
    (h : cRun ⟨cWithConfig cfg target known, []⟩ es = some (s, hist))
    (v : Validated) (cancelled : List Id) (hr : cIntoResult s.q = some (v, cancelled)) :
    Provenance es v ∧ v.sender ∈ contentReports cfg (Record.start cfg known) hist ∧
    v.sender ∈ (contentRecord cfg known hist).answered ∧
    (contentRecord cfg known hist).over = true := by
  obtain ⟨_, hi, _⟩ := cRun_unique h
  unfold cIntoResult at hr
  cases hv : s.q.validated with
  | none => rw [hv] at hr; cases hr
  | some w =>
    rw [hv] at hr
    injection hr with hr; injection hr with e1 _
    subst e1
    obtain ⟨h1, h2, h3⟩ := hi.validated _ hv
    exact ⟨h1, h2, hi.reps _ h2, hi.base.over.mpr h3⟩

/-- The requests given up when a lookup ends with content: exactly peers that were asked and whose
answer is still missing, and every pending peer is among them. -/
theorem C11_cancelled (cfg : Config) (target : Id) (known : List Id) (es : List CEvent)
    (s : Content) (hist : List (CEvent × Option QState))
    (h : cRun ⟨cWithConfig cfg target known, []⟩ es = some (s, hist))
    (v : Validated) (cancelled : List Id) (hr : cIntoResult s.q = some (v, cancelled)) :
    (∀ id ∈ cancelled, id ∈ (contentRecord cfg known hist).askedIds ∧
      id ∉ (contentRecord cfg known hist).answered ∧
      id ∉ (contentRecord cfg known hist).failed) ∧
    (∀ id d, (id, d) ∈ (contentRecord cfg known hist).pending → id ∈ cancelled) ∧
    v.sender ∉ cancelled := by
  have hsender := (C11_provenance cfg target known es s hist h v cancelled hr).2.2.1
  obtain ⟨_, hi, _⟩ := cRun_unique h
  have hc : cancelled = pendingPeers s.q v.sender := by
    unfold cIntoResult at hr
    cases hv : s.q.validated with
    | none => rw [hv] at hr; cases hr
    | some w =>
      rw [hv] at hr
      injection hr with hr; injection hr with e1 e2
      rw [← e1]; exact e2.symm
  have hmem : ∀ id, id ∈ cancelled ↔
      ∃ p ∈ s.q.base.peers, p.id = id ∧ id ≠ v.sender ∧ ∃ d, p.state = .waiting d := by
    intro id
    rw [hc]
    unfold pendingPeers
    rw [List.mem_filterMap]
    constructor
    · rintro ⟨p, hp, hh⟩
      cases hs : p.state with
      | waiting d =>
        simp only [hs] at hh
        by_cases he : p.id = v.sender
        · rw [if_pos he] at hh; cases hh
        · rw [if_neg he] at hh
          have hh := Option.some.inj hh
          exact ⟨p, hp, hh, by rw [← hh]; exact he, d, hs⟩
      | _ => simp only [hs] at hh; cases hh
    · rintro ⟨p, hp, rfl, hne, d, hs⟩
      exact ⟨p, hp, by simp only [hs, if_neg hne]⟩
  refine ⟨?_, ?_, ?_⟩
  · intro id hid
    obtain ⟨p, hp, rfl, _, d, hs⟩ := (hmem id).mp hid
    have := hi.base.state p hp
    unfold StateOk at this
    rw [hs] at this
    exact ⟨List.mem_map.mpr ⟨_, this.1, rfl⟩, this.2⟩
  · intro id d hd
    obtain ⟨p, hp, he, hs⟩ := hi.base.pending _ hd
    refine (hmem id).mpr ⟨p, hp, he, ?_, d, hs⟩
    have := hi.base.state p hp
    unfold StateOk at this
    rw [hs, he] at this
    rintro rfl
    exact this.2.1 hsender
  · intro hh
    obtain ⟨_, _, _, hne, _⟩ := (hmem _).mp hh
    exact hne rfl

/-- Reported content is announced for validation in the order in which it was reported. -/
theorem C11_in_order (cfg : Config) (target : Id) (known : List Id) (es : List CEvent)
    (s : Content) (hist : List (CEvent × Option QState))
    (h : cRun ⟨cWithConfig cfg target known, []⟩ es = some (s, hist)) :
    ∃ waiting, contentReports cfg (Record.start cfg known) hist = announced hist ++ waiting := by
  obtain ⟨_, hi, _⟩ := cRun_unique h
  exact ⟨_, hi.queue⟩

/-- At most one validation task runs at a time. -/
theorem C11_one_validation (cfg : Config) (target : Id) (known : List Id) (es : List CEvent)
    (s : Content) (hist : List (CEvent × Option QState))
    (h : cRun ⟨cWithConfig cfg target known, []⟩ es = some (s, hist)) : s.tasks.length ≤ 1 := by
  obtain ⟨_, hi, _⟩ := cRun_unique h
  have := hi.slots
  have := hi.one
  omega

/-- If a lookup is over without content, all reported content was announced for validation and no
validation is running. -/
theorem C11_exhaustive (cfg : Config) (target : Id) (known : List Id) (es : List CEvent)
    (s : Content) (hist : List (CEvent × Option QState))
    (h : cRun ⟨cWithConfig cfg target known, []⟩ es = some (s, hist))
    (hover : (contentRecord cfg known hist).over = true) (hnone : cIntoResult s.q = none) :
    contentReports cfg (Record.start cfg known) hist = announced hist ∧ s.tasks = [] := by
  obtain ⟨_, hi, _⟩ := cRun_unique h
  have hv : s.q.validated = none := by
    unfold cIntoResult at hnone
    cases hv : s.q.validated with
    | none => rfl
    | some w => rw [hv] at hnone; cases hnone
  obtain ⟨h1, h2⟩ := hi.settled (hi.base.over.mp hover) hv
  refine ⟨by rw [hi.queue, h1, List.append_nil], ?_⟩
  have := hi.slots
  exact List.eq_nil_of_length_eq_zero (by omega)

/-- The first confirmed content is the result: if a running validation task ends and confirms `b`
while the lookup is not over, then, whatever happens afterwards, as soon as it is polled the lookup
is over and its result is `b`, sent by the peer that reported it. -/
theorem C11_first_confirmed (cfg : Config) (target : Id) (known : List Id) (es : List CEvent)
    (s : Content) (hist : List (CEvent × Option QState))
    (h : cRun ⟨cWithConfig cfg target known, []⟩ es = some (s, hist))
    (hover : (contentRecord cfg known hist).over = false)
    (n : Nat) (p : Id) (u : Unvalidated) (ht : s.tasks[n]? = some (p, u))
    (fetch : Fetch) (stored : Option Bytes) (valid : Bytes → Bool) (b : Bytes)
    (hconf : Confirms u fetch stored valid b)
    (later : List CEvent) (hpoll : ∃ now, CEvent.poll now ∈ later) :
    ∃ s' hist' v cancelled, cRun s (.taskEnds n fetch stored valid :: later) = some (s', hist') ∧
      cIntoResult s'.q = some (v, cancelled) ∧ v.content = b ∧ v.sender = p ∧
      (v.wasUtp = true ↔ ∃ c, u = .connection c) := by
  obtain ⟨_, hi, _⟩ := cRun_unique h
  have hq : s.q.base.progress ≠ .finished := fun hh => by
    rw [hi.base.over.mpr hh] at hover; cases hover
  obtain ⟨s', hist', h1, _⟩ := cRun_inv (.taskEnds n fetch stored valid :: later) hi
  -- the message
  obtain ⟨v, hm, hv1, hv2, hv3⟩ : ∃ v, taskMessage p u fetch stored valid = some (some v) ∧
      v.content = b ∧ v.sender = p ∧ (v.wasUtp = true ↔ ∃ c, u = .connection c) := by
    obtain ⟨got, hg, hs⟩ := hconf
    rcases hg with rfl | ⟨⟨c, rfl⟩, rfl⟩
    · rcases hs with rfl | ⟨rfl, rfl, hval⟩
      · exact ⟨_, rfl, rfl, rfl, by simp⟩
      · exact ⟨⟨b, false, p⟩, by simp [taskMessage, processReceived, hval], rfl, rfl, by simp⟩
    · rcases hs with rfl | ⟨rfl, rfl, hval⟩
      · exact ⟨_, rfl, rfl, rfl, by simp⟩
      · exact ⟨⟨b, true, p⟩, by simp [taskMessage, processReceived, hval], rfl, rfl, by simp⟩
  have hlen := hi.slots
  have hone := hi.one
  have hn : n < s.tasks.length := (List.getElem?_eq_some_iff.mp ht).1
  have hchan : s.q.chan = [] := List.eq_nil_of_length_eq_zero (by omega)
  have hstep : cStep s (.taskEnds n fetch stored valid) =
      some (⟨{ s.q with chan := s.q.chan ++ [some v] }, s.tasks.eraseIdx n⟩, none) := by
    simp only [cStep, ht, hm]
  have hwon : Won v ⟨{ s.q with chan := s.q.chan ++ [some v] }, s.tasks.eraseIdx n⟩ := by
    refine .inl ⟨by simp [hchan], ?_, hq⟩
    apply List.eq_nil_of_length_eq_zero
    rw [List.length_eraseIdx_of_lt hn]
    omega
  have h1' := h1
  simp only [cRun, hstep] at h1'
  cases hc : cRun ⟨{ s.q with chan := s.q.chan ++ [some v] }, s.tasks.eraseIdx n⟩ later with
  | none => rw [hc] at h1'; cases h1'
  | some y =>
    obtain ⟨s2, hist2⟩ := y
    rw [hc] at h1'
    simp only [Option.map_some, Option.some.injEq, Prod.mk.injEq] at h1'
    obtain ⟨rfl, rfl⟩ := h1'
    obtain ⟨c, hres⟩ := (won_run later hwon hc).2 hpoll
    exact ⟨s2, _, v, c, h1, hres, hv1, hv2, hv3⟩

/-! ### Examples -/

def exContentCfg : Config := ⟨2, 2, 10, 100⟩

/-- 8 reports content that is not valid, 9 offers a stream with valid content. -/
def exContentEvents : List CEvent :=
  [.poll 0, .poll 0, .success 8#256 (.content [1]), .success 9#256 (.connectionId 5),
   .poll 1, .taskEnds 0 .failed none (fun b => b == [2]), .poll 2,
   .taskEnds 0 (.data [2]) none (fun b => b == [2]), .poll 3,
   .success 9#256 (.content [3])]

example : (cRun ⟨cWithConfig exContentCfg 0#256 [8#256, 9#256], []⟩ exContentEvents).map
    (fun r => (cIntoResult r.1.q, (contentRecord exContentCfg [8#256, 9#256] r.2).over,
      contentReports exContentCfg (Record.start exContentCfg [8#256, 9#256]) r.2,
      announced r.2)) =
    some (some (⟨[2], true, 9#256⟩, []), true, [8#256, 9#256], [8#256, 9#256]) := by
  decide +kernel

/-- The state before the second validation ends meets the hypotheses of `C11_first_confirmed`. -/
example : (cRun ⟨cWithConfig exContentCfg 0#256 [8#256, 9#256], []⟩
      (exContentEvents.take 7)).map
    (fun r => (r.1.tasks, (contentRecord exContentCfg [8#256, 9#256] r.2).over)) =
    some ([(9#256, .connection 5)], false) := by
  decide +kernel

example : Confirms (.connection 5) (.data [2]) none (fun b => b == [2]) [2] :=
  ⟨[2], .inr ⟨⟨5, rfl⟩, rfl⟩, .inr ⟨rfl, rfl, rfl⟩⟩

/-- A lookup that ends without content: the only report is not valid (`C11_exhaustive`,
`C10_content_finishes_partial`). -/
example : (cRun ⟨cWithConfig exContentCfg 0#256 [8#256], []⟩
      [.poll 0, .success 8#256 (.content [1]), .poll 1, .taskEnds 0 .failed none (fun _ => false),
       .poll 2]).map
    (fun r => (cIntoResult r.1.q, (contentRecord exContentCfg [8#256] r.2).over, r.1.tasks)) =
    some (none, true, []) := by
  decide +kernel

/-! ### Where the code falls short -/

/-- If a validation task ends without a message (the ENR of the peer is unknown, or it has no
common protocol version), the lookup is stuck: here the only peer has answered, no validation
runs, and yet every later poll, at any time, returns `WaitingAtCapacity` and changes nothing. -/
theorem C10_dropped_task_violated :
    ∃ s hist, cRun ⟨cWithConfig exContentCfg 0#256 [8#256], []⟩
        [.poll 0, .success 8#256 (.connectionId 5), .poll 1,
         .taskEnds 0 .dropped none (fun _ => true)] = some (s, hist) ∧
      (contentRecord exContentCfg [8#256] hist).known = [8#256] ∧
      (contentRecord exContentCfg [8#256] hist).answered = [8#256] ∧
      contentReports exContentCfg (Record.start exContentCfg [8#256]) hist = announced hist ∧
      s.tasks = [] ∧
      ∀ now, cPoll s.q now = some (s.q, .atCapacity) := by
  refine ⟨_, _, rfl, ?_, ?_, ?_, ?_, ?_⟩
  · decide +kernel
  · decide +kernel
  · decide +kernel
  · rfl
  · intro now; rfl

/-- Not a violation of C11 as stated, but worth knowing: the bytes a peer sent are not checked when the node already has a value for the key: the
result is the local value, attributed to the peer, although the validator rejects what it sent. -/
theorem C11_local_value_replaces :
    ∃ s hist, cRun ⟨cWithConfig exContentCfg 0#256 [8#256], []⟩
        [.poll 0, .success 8#256 (.content [1]), .poll 1,
         .taskEnds 0 .failed (some [7]) (fun _ => false), .poll 2] = some (s, hist) ∧
      cIntoResult s.q = some (⟨[7], false, 8#256⟩, []) := by
  refine ⟨_, _, rfl, ?_⟩
  decide +kernel

end Verif.Props
