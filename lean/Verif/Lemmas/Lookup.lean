import Verif.Lemmas.LookupTrace
import Verif.Lemmas.QueryContent

/-! Helper lemmas: the invariant of a content lookup. -/

namespace Verif.Lookup
open Verif.Props hiding Seen
open Verif.Props.Lookups
open Verif.Query (CInv Content CEvent)

/-! ### The query inside -/

def fetchC : Fetch → Query.Fetch
  | .data b => .data b
  | .badPayload => .failed
  | .streamFailed => .failed
  | .noVersion => .dropped

def validC (see : Seen) (b : Bytes) : Bool := decide (see.verdict b ≠ .invalid)

def evC (self : Id) : Ev → List CEvent
  | .poll now _ => [.poll now]
  | .report _ s (.content b) => [.success s.id (.content b)]
  | .report _ s (.connectionId i) => [.success s.id (.connectionId i)]
  | .report _ s (.enrs l) => [.success s.id (.closestNodes ((l.filter fun e => e.id ≠ self).map Enr.id))]
  | .task n f see => [.taskEnds n (fetchC f) see.stored (validC see)]
  | .traceEvent _ => []

def taskC (t : Task) : Id × Query.Unvalidated := (t.peer, t.what)

def proj (s : State) : Content := ⟨s.q, s.tasks.map taskC⟩

def past (self : Id) (h : History) : List CEvent := h.flatMap fun x => evC self x.1

theorem past_append (self : Id) (h : History) (x : Ev × List Out) : past self (h ++ [x]) = past self h ++ evC self x.1 := by
  simp [past]

theorem process_message (c : Ctx) (see : Seen) (t : Task) (utp : Bool) (b : Bytes) :
    (process c see t utp b).1 = Query.processReceived t.peer utp see.stored (validC see) b := by
  unfold process Query.processReceived validC
  cases see.stored with
  | some v => rfl
  | none =>
    by_cases h : see.verdict b = .invalid <;> simp [h]

theorem taskResult_message (c : Ctx) (see : Seen) (t : Task) (f : Fetch) :
    (taskResult c see t f).1 = Query.taskMessage t.peer t.what (fetchC f) see.stored (validC see) := by
  unfold taskResult Query.taskMessage
  cases t.what with
  | content b => simp only [process_message]
  | connection i => cases f <;> simp only [fetchC, process_message]

/-! ### Histories -/

theorem record_append (c : Ctx) (peers : List Enr) (h : History) (x : Ev × List Out) :
    record c peers (h ++ [x]) = (record c peers h).see c.cfg (seen c.self.id x) := by
  simp [record, List.foldl_append]

def namedNext (self : Id) (known : List Id) (e : Ev) : List Id :=
  match e with
  | .report _ _ (.enrs l) => known ++ firstNamed self known (l.map Enr.id)
  | _ => known

theorem named_append (self : Id) (peers : List Enr) (h : History) (x : Ev × List Out) :
    named self peers (h ++ [x]) = namedNext self (named self peers h) x.1 := by
  simp only [named, List.foldl_append, List.foldl_cons, List.foldl_nil]
  rfl

def listedNext (self id : Id) (known : List Id) (r : Option (Nat × List Id)) (e : Ev) : Option (Nat × List Id) :=
  match e with
  | .report t source (.enrs l) =>
    if source.id = id then some ((r.getD (t, [])).1, (r.getD (t, [])).2 ++ firstNamed self known (l.map Enr.id)) else r
  | .report t source _ => if source.id = id then some (t, []) else r
  | _ => r

def listedStep (self id : Id) (st : List Id × Option (Nat × List Id)) (x : Ev × List Out) : List Id × Option (Nat × List Id) :=
  match x.1 with
    | .report t source (.enrs l) =>
      let new := firstNamed self st.1 (l.map Enr.id)
      (st.1 ++ new, if source.id = id then some ((st.2.getD (t, [])).1, (st.2.getD (t, [])).2 ++ new) else st.2)
    | .report t source _ => (st.1, if source.id = id then some (t, []) else st.2)
    | _ => st

theorem listed_eq (self : Id) (time : Nat) (peers : List Enr) (id : Id) (h : History) :
    listed self time peers id h = (h.foldl (listedStep self id)
      (peers.map Enr.id, if id = self then some (time, peers.map Enr.id) else none)).2 := rfl

theorem listedStep_eq (self id : Id) (st : List Id × Option (Nat × List Id)) (x : Ev × List Out) :
    listedStep self id st x = (namedNext self st.1 x.1, listedNext self id st.1 st.2 x.1) := by
  obtain ⟨e, o⟩ := x
  cases e with
  | report t s r => cases r <;> rfl
  | _ => rfl

theorem listed_fst (self id : Id) : ∀ (h : History) (st : List Id × Option (Nat × List Id)),
    (h.foldl (listedStep self id) st).1 = h.foldl (fun known x =>
      match x.1 with
      | .report _ _ (.enrs l) => known ++ firstNamed self known (l.map Enr.id)
      | _ => known) st.1
  | [], _ => rfl
  | x :: h, st => by
    simp only [List.foldl_cons]
    rw [listed_fst self id h, listedStep_eq]
    rfl

theorem listed_append (self : Id) (time : Nat) (peers : List Enr) (id : Id) (h : History) (x : Ev × List Out) :
    listed self time peers id (h ++ [x]) =
      listedNext self id (named self peers h) (listed self time peers id h) x.1 := by
  rw [listed_eq, List.foldl_append, List.foldl_cons, List.foldl_nil, listedStep_eq, listed_fst]
  rfl

theorem firstPoll_append : ∀ (h : History) (x : Ev × List Out), firstPoll (h ++ [x]) =
    match firstPoll h with
    | some n => some n
    | none => match x.1 with
      | .poll now _ => some now
      | _ => none
  | [], (e, o) => by cases e <;> rfl
  | (e, o) :: h, x => by
    cases e with
    | poll n k => rfl
    | _ => simp only [List.cons_append, firstPoll]; exact firstPoll_append h x

section Mono
variable {h : History} (x : Ev × List Out)

theorem mem_left {P : Ev × List Out → Prop} : (∃ y ∈ h, P y) → ∃ y ∈ h ++ [x], P y :=
  fun ⟨y, hy, hp⟩ => ⟨y, List.mem_append_left _ hy, hp⟩

theorem SentContent.mono {id : Id} {b : Bytes} (hs : SentContent h id b) : SentContent (h ++ [x]) id b := mem_left x hs
theorem SentConnection.mono {id : Id} (hs : SentConnection h id) : SentConnection (h ++ [x]) id := mem_left x hs

theorem Examined.mono {id : Id} {u : Bool} {b : Bytes} {see : Seen} (hs : Examined h id u b see) :
    Examined (h ++ [x]) id u b see := by
  obtain ⟨y, hy, n, f, h1, h2⟩ := hs
  refine ⟨y, List.mem_append_left _ hy, n, f, h1, ?_⟩
  rcases h2 with ⟨h2, h3⟩ | ⟨h2, h3, h4⟩
  · exact .inl ⟨h2, SentContent.mono x h3⟩
  · exact .inr ⟨h2, SentConnection.mono x h3, h4⟩

theorem FailedBy.mono {id : Id} {k : FailKind} (hs : FailedBy h id k) : FailedBy (h ++ [x]) id k := by
  cases k with
  | utpConnectionFailed => exact hs
  | utpTransferFailed => exact ⟨SentConnection.mono x hs.1, mem_left x hs.2⟩
  | invalidContent =>
    rcases hs with hs | ⟨u, b, see, h1, h2⟩
    · exact .inl ⟨SentConnection.mono x hs.1, mem_left x hs.2⟩
    · exact .inr ⟨u, b, see, Examined.mono x h1, h2⟩

theorem CameUp.mono {self : Enr} {peers : List Enr} {e : Enr} (hs : CameUp self peers h e) : CameUp self peers (h ++ [x]) e := by
  rcases hs with hs | hs | hs
  · exact .inl hs
  · exact .inr (.inl hs)
  · exact .inr (.inr (mem_left x hs))

end Mono

/-- Events of the query inside come from events of the history. -/
theorem past_content {self : Id} {h : History} {id : Id} {b : Bytes} (hm : CEvent.success id (.content b) ∈ past self h) :
    SentContent h id b := by
  unfold past at hm
  obtain ⟨x, hx, hm⟩ := List.mem_flatMap.mp hm
  obtain ⟨e, o⟩ := x
  cases e with
  | report t s r =>
    cases r <;> simp [evC] at hm
    exact ⟨_, hx, t, s, by rw [hm.2], hm.1.symm⟩
  | _ => simp [evC] at hm

theorem past_connection {self : Id} {h : History} {id : Id} {i : Nat}
    (hm : CEvent.success id (.connectionId i) ∈ past self h) : SentConnection h id := by
  unfold past at hm
  obtain ⟨x, hx, hm⟩ := List.mem_flatMap.mp hm
  obtain ⟨e, o⟩ := x
  cases e with
  | report t s r =>
    cases r <;> simp [evC] at hm
    exact ⟨_, hx, t, s, _, rfl, hm.1.symm⟩
  | _ => simp [evC] at hm

theorem past_task {self : Id} {h : History} {n : Nat} {f : Query.Fetch} {st : Option Bytes} {v : Bytes → Bool}
    (hm : CEvent.taskEnds n f st v ∈ past self h) :
    ∃ x ∈ h, ∃ fetch see, x.1 = .task n fetch see ∧ f = fetchC fetch ∧ st = see.stored ∧ v = validC see := by
  unfold past at hm
  obtain ⟨x, hx, hm⟩ := List.mem_flatMap.mp hm
  obtain ⟨e, o⟩ := x
  cases e with
  | task m g see =>
    simp [evC] at hm
    exact ⟨_, hx, g, see, by rw [hm.1], hm.2.1, hm.2.2.1, hm.2.2.2⟩
  | report t s r => cases r <;> simp [evC] at hm
  | _ => simp [evC] at hm

theorem fetchC_data {f : Fetch} {b : Bytes} (h : Query.Fetch.data b = fetchC f) : f = .data b := by
  cases f <;> simp [fetchC] at h
  rw [h]

theorem confirmed_of {self : Id} {h : History} {v : Query.Validated} (hp : Provenance (past self h) v) :
    Confirmed h v.sender v.wasUtp v.content := by
  obtain ⟨before, n, fetch, stored, valid, after, he, hc⟩ := hp
  have hin : ∀ e ∈ before, e ∈ past self h := fun e hm => by rw [he]; exact List.mem_append_left _ hm
  obtain ⟨x, hx, f, see, h1, h2, h3, h4⟩ := past_task (self := self) (h := h) (n := n) (f := fetch) (st := stored)
    (v := valid) (by rw [he]; simp)
  subst h3 h4
  rcases hc with ⟨hs, hu, hst, hv⟩ | ⟨⟨cid, hs⟩, hf, hu, hst, hv⟩ | ⟨⟨b, hs⟩, hu, hst⟩ | ⟨⟨cid, b, hs, hf⟩, hu, hst⟩
  · refine ⟨v.content, see, ⟨x, hx, n, f, h1, .inl ⟨hu, past_content (hin _ hs)⟩⟩, .inr ⟨hst, rfl, ?_⟩⟩
    simpa [validC] using hv
  · refine ⟨v.content, see, ⟨x, hx, n, f, h1, .inr ⟨hu, past_connection (hin _ hs), ?_⟩⟩, .inr ⟨hst, rfl, ?_⟩⟩
    · rw [hf] at h2; exact fetchC_data h2
    · simpa [validC] using hv
  · exact ⟨b, see, ⟨x, hx, n, f, h1, .inl ⟨hu, past_content (hin _ hs)⟩⟩, .inl hst⟩
  · refine ⟨b, see, ⟨x, hx, n, f, h1, .inr ⟨hu, past_connection (hin _ hs), ?_⟩⟩, .inl hst⟩
    rw [hf] at h2; exact fetchC_data h2

theorem process_fail {c : Ctx} {see : Seen} {t : Task} {u : Bool} {b : Bytes} {k : FailKind}
    (hk : (process c see t u b).2.1 = some k) : k = .invalidContent ∧ see.stored = none ∧ see.verdict b = .invalid := by
  unfold process at hk
  cases hs : see.stored with
  | some v => rw [hs] at hk; cases hk
  | none =>
    rw [hs] at hk
    by_cases hv : see.verdict b = .invalid
    · simp only [hv, if_true] at hk
      exact ⟨(Option.some.inj hk).symm, rfl, hv⟩
    · simp only [if_neg hv] at hk
      cases hk

theorem task_failed {self : Id} {h : History} {c : Ctx} {see : Seen} {t : Task} {f : Fetch} {k : FailKind} {n : Nat}
    {o : List Out} (hr : Query.Reported (past self h) (taskC t)) (hk : (taskResult c see t f).2.1 = some k) :
    FailedBy (h ++ [(.task n f see, o)]) t.peer k := by
  have hx : (Ev.task n f see, o) ∈ h ++ [(Ev.task n f see, o)] := by simp
  unfold taskResult at hk
  cases hw : t.what with
  | content b =>
    have hs : SentContent h t.peer b := past_content (by simpa only [taskC, hw, Query.Reported] using hr)
    simp only [hw] at hk
    obtain ⟨h1, h2, h3⟩ := process_fail hk
    subst h1
    exact .inr ⟨false, b, see, ⟨_, hx, n, f, rfl, .inl ⟨rfl, SentContent.mono _ hs⟩⟩, h2, h3⟩
  | connection i =>
    have hs : SentConnection h t.peer := past_connection (i := i) (by simpa only [taskC, hw, Query.Reported] using hr)
    simp only [hw] at hk
    have hs' := SentConnection.mono (Ev.task n f see, o) hs
    cases f with
    | data b =>
      obtain ⟨h1, h2, h3⟩ := process_fail hk
      subst h1
      exact .inr ⟨true, b, see, ⟨_, hx, n, _, rfl, .inr ⟨rfl, hs', rfl⟩⟩, h2, h3⟩
    | badPayload =>
      have := Option.some.inj hk
      subst this
      exact .inl ⟨hs', _, hx, n, see, rfl⟩
    | streamFailed =>
      have := Option.some.inj hk
      subst this
      exact ⟨hs', _, hx, n, see, rfl⟩
    | noVersion => cases hk

end Verif.Lookup
