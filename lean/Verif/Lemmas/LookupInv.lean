import Verif.Lemmas.Lookup

/-! Helper lemmas: the invariant of a content lookup is kept. -/

namespace Verif.Lookup
open Verif.Props hiding Seen
open Verif.Props.Lookups
open Verif.Query (CInv Content CEvent)

structure TraceOk (c : Ctx) (time : Nat) (peers : List Enr) (h : History) (t : Trace) : Prop where
  origin : t.origin = c.self.id
  target : t.target = c.target
  metaOk : MetaOk (CameUp c.self peers h) t
  has : ∀ id ∈ named c.self.id peers h, (t.metadata id).isSome
  responses : ∀ id, (t.responses id).map (fun r => (r.duration, r.respondedWith)) = listed c.self.id time peers id h
  sources : ∀ id, (t.responses id).isSome → (t.metadata id).isSome
  told : ∀ id r, t.responses id = some r → ∀ j ∈ r.respondedWith, j ∈ named c.self.id peers h
  failures : ∀ id f, t.failures id = some f → (t.metadata id).isSome ∧ FailedBy h id f.2
  cancelled : ∀ id ∈ t.cancelled, (t.metadata id).isSome

structure Open (c : Ctx) (isTrace : Bool) (time : Nat) (peers : List Enr) (h : History) (s : State) : Prop where
  cinv : ∃ reports ann, CInv c.cfg c.target (proj s) (record c peers h) (past c.self.id h) reports ann
  notOver : (record c peers h).over = false
  closed : s.closed = false
  untrusted : s.untrusted.map Enr.id = named c.self.id peers h
  known : ∀ id ∈ (record c peers h).known, id ∈ named c.self.id peers h
  started : s.started = firstPoll h
  traced : s.trace.isSome = isTrace
  trace : ∀ t, s.trace = some t → TraceOk c time peers h t ∧ t.receivedFrom = none
  queue : ∀ x ∈ s.queue, x.1 ∈ named c.self.id peers h ∧ FailedBy h x.1 x.2

/-- A trace stays right when something happens that it does not record. -/
theorem TraceOk.quiet {c : Ctx} {time : Nat} {peers : List Enr} {h : History} {t : Trace} (hk : TraceOk c time peers h t)
    (x : Ev × List Out) (hx : ∀ a b r, x.1 ≠ .report a b r) : TraceOk c time peers (h ++ [x]) t := by
  have hn : named c.self.id peers (h ++ [x]) = named c.self.id peers h := by
    rw [named_append]
    obtain ⟨e, o⟩ := x
    cases e with
    | report a b r => exact absurd rfl (hx a b r)
    | _ => rfl
  have hl : ∀ id, listed c.self.id time peers id (h ++ [x]) = listed c.self.id time peers id h := fun id => by
    rw [listed_append]
    obtain ⟨e, o⟩ := x
    cases e with
    | report a b r => exact absurd rfl (hx a b r)
    | _ => rfl
  exact ⟨hk.origin, hk.target, fun id i hi => ⟨(hk.metaOk id i hi).1, (hk.metaOk id i hi).2.1,
    CameUp.mono x (hk.metaOk id i hi).2.2⟩, by rw [hn]; exact hk.has, fun id => by rw [hl]; exact hk.responses id,
    hk.sources, by rw [hn]; exact hk.told, fun id f hf => ⟨(hk.failures id f hf).1, FailedBy.mono x (hk.failures id f hf).2⟩,
    hk.cancelled⟩

theorem named_mono (self : Id) (peers : List Enr) (h : History) (x : Ev × List Out) (id : Id)
    (hi : id ∈ named self peers h) : id ∈ named self peers (h ++ [x]) := by
  rw [named_append]
  obtain ⟨e, o⟩ := x
  cases e with
  | report a b r =>
    cases r with
    | enrs l => exact List.mem_append_left _ hi
    | _ => exact hi
  | _ => exact hi

theorem reports_known {cfg : Query.Config} {t : Id} {s : Content} {r : Record} {p : List CEvent} {reports ann : List Id}
    (h : CInv cfg t s r p reports ann) {id : Id} (hi : id ∈ reports) : id ∈ r.known :=
  h.base.asked id (h.base.answered id (h.reps id hi))

/-! ### Start -/

theorem start_open (c : Ctx) (isTrace : Bool) (time : Nat) (peers : List Enr) (s : State)
    (hs : start c none isTrace time peers = .inr s) : Open c isTrace time peers [] s := by
  unfold start at hs
  simp only at hs
  split at hs
  · cases hs
  · have hs := Sum.inr.inj hs
    subst hs
    refine ⟨⟨[], [], ?_⟩, rfl, rfl, rfl, ?_, rfl, ?_, ?_, fun _ h => (nomatch h)⟩
    · exact Query.cstart_inv c.cfg c.target (peers.map Enr.id)
    · intro id hid
      exact List.mem_of_mem_take hid
    · cases isTrace <;> rfl
    · intro t ht
      cases isTrace with
      | false => cases ht
      | true =>
        simp only [if_true, Option.some.injEq] at ht
        subst ht
        have hm := respondedWith_more (Trace.new c.self c.target) time c.self peers
        have hr := respondedWith_responses (Trace.new c.self c.target) time c.self peers
        have hrid : ∀ id r, ((Trace.new c.self c.target).respondedWith time c.self peers).responses id = some r →
            id = c.self.id ∧ r = ⟨time, peers.map Enr.id⟩ := by
          intro id r h
          rw [hr] at h
          simp only [insert, Trace.new, Option.getD_none, List.nil_append] at h
          split at h
          · rename_i e; exact ⟨e, (Option.some.inj h).symm⟩
          · cases h
        refine ⟨⟨hm.origin, hm.target, ?_, ?_, ?_, ?_, ?_, ?_, ?_⟩, hm.received⟩
        · refine hm.ok (fun id i hi => (nomatch hi)) ?_
          intro e he
          rcases List.mem_append.mp he with he | he
          · exact .inr (.inl he)
          · exact .inl (List.mem_singleton.mp he)
        · intro id hid
          obtain ⟨e, he, rfl⟩ := List.mem_map.mp hid
          exact hm.has e (List.mem_append_left _ he)
        · intro id
          rw [hr]
          simp only [insert, Trace.new, Option.getD_none, List.nil_append, listed, List.foldl_nil]
          split <;> rfl
        · intro id hid
          obtain ⟨r, hid⟩ := Option.isSome_iff_exists.mp hid
          rw [(hrid id r hid).1]
          exact hm.has c.self (List.mem_append_right _ (List.mem_singleton.mpr rfl))
        · intro id r h j hj
          rw [(hrid id r h).2] at hj
          exact hj
        · intro id f hf
          rw [hm.failures] at hf
          cases hf
        · intro id hid
          rw [hm.cancelled] at hid
          cases hid

/-! ### Reports -/

theorem TraceOk.content {c : Ctx} {time : Nat} {peers : List Enr} {h : History} {t : Trace} (hk : TraceOk c time peers h t)
    (tm : Nat) (source : Enr) (r : Reported) (o : List Out) (hr : ∀ l, r ≠ .enrs l) :
    TraceOk c time peers (h ++ [(.report tm source r, o)]) (t.respondedWithContent tm source) := by
  have hm := respondedWithContent_more t tm source
  have hre := respondedWithContent_responses t tm source
  have hn : named c.self.id peers (h ++ [(.report tm source r, o)]) = named c.self.id peers h := by
    rw [named_append]
    cases r with
    | enrs l => exact absurd rfl (hr l)
    | _ => rfl
  have hsrc : ((t.respondedWithContent tm source).metadata source.id).isSome := hm.has source (List.mem_singleton.mpr rfl)
  refine ⟨hm.origin.trans hk.origin, hm.target.trans hk.target, ?_, ?_, ?_, ?_, ?_, ?_, ?_⟩
  · refine hm.ok (fun id i hi => ⟨(hk.metaOk id i hi).1, (hk.metaOk id i hi).2.1, CameUp.mono _ (hk.metaOk id i hi).2.2⟩) ?_
    intro e he
    rw [List.mem_singleton.mp he]
    exact .inr (.inr ⟨_, List.mem_append_right _ (List.mem_singleton.mpr rfl), tm, source, r, rfl, .inl rfl⟩)
  · rw [hn]; intro id hid; exact hm.keep id (hk.has id hid)
  · intro id
    have hl : listed c.self.id time peers id (h ++ [(.report tm source r, o)]) =
        if source.id = id then some (tm, []) else listed c.self.id time peers id h := by
      rw [listed_append]
      cases r with
      | enrs l => exact absurd rfl (hr l)
      | _ => rfl
    rw [hl, hre, ← hk.responses id]
    simp only [insert]
    by_cases he : source.id = id
    · rw [if_pos he, if_pos he.symm]; rfl
    · rw [if_neg he, if_neg (fun hh => he hh.symm)]
  · intro id hid
    rw [hre, insert_isSome] at hid
    by_cases he : id = source.id
    · rw [he]; exact hsrc
    · exact hm.keep id (hk.sources id (by simpa [he] using hid))
  · rw [hn]
    intro id rr hrr j hj
    rw [hre] at hrr
    simp only [insert] at hrr
    split at hrr
    · have := Option.some.inj hrr
      subst this
      cases hj
    · exact hk.told id rr hrr j hj
  · intro id f hf
    rw [hm.failures] at hf
    exact ⟨hm.keep id (hk.failures id f hf).1, FailedBy.mono _ (hk.failures id f hf).2⟩
  · intro id hid
    rw [hm.cancelled] at hid
    exact hm.keep id (hk.cancelled id hid)

theorem TraceOk.enrs {c : Ctx} {time : Nat} {peers : List Enr} {h : History} {t : Trace} (hk : TraceOk c time peers h t)
    (tm : Nat) (source : Enr) (l : List Enr) (o : List Out) (u : List Enr) (hu : u.map Enr.id = named c.self.id peers h)
    (pending : List Id) (hp : ∀ id ∈ pending, id ∈ named c.self.id peers h) :
    TraceOk c time peers (h ++ [(.report tm source (.enrs l), o)])
      { t.respondedWith tm source (keepNew c.self.id u l).2 with cancelled := pending } := by
  have hkn := keepNew_spec c.self.id l u
  have hm := respondedWith_more t tm source (keepNew c.self.id u l).2
  have hre := respondedWith_responses t tm source (keepNew c.self.id u l).2
  have hn : named c.self.id peers (h ++ [(.report tm source (.enrs l), o)]) =
      named c.self.id peers h ++ (keepNew c.self.id u l).2.map Enr.id := by
    rw [named_append, hkn.2.1, hu]; rfl
  have hsrc : ((t.respondedWith tm source (keepNew c.self.id u l).2).metadata source.id).isSome :=
    hm.has source (List.mem_append_right _ (List.mem_singleton.mpr rfl))
  refine ⟨hm.origin.trans hk.origin, hm.target.trans hk.target, ?_, ?_, ?_, ?_, ?_, ?_, ?_⟩
  · refine hm.ok (S := CameUp c.self peers (h ++ [(.report tm source (.enrs l), o)])) (fun id i hi => ⟨(hk.metaOk id i hi).1, (hk.metaOk id i hi).2.1, CameUp.mono _ (hk.metaOk id i hi).2.2⟩) ?_
    intro e he
    refine .inr (.inr ⟨_, List.mem_append_right _ (List.mem_singleton.mpr rfl), tm, source, _, rfl, ?_⟩)
    rcases List.mem_append.mp he with he | he
    · exact .inr ⟨l, rfl, hkn.2.2 e he⟩
    · exact .inl (List.mem_singleton.mp he)
  · rw [hn]
    intro id hid
    rcases List.mem_append.mp hid with hid | hid
    · exact hm.keep id (hk.has id hid)
    · obtain ⟨e, he, rfl⟩ := List.mem_map.mp hid
      exact hm.has e (List.mem_append_left _ he)
  · intro id
    have hl : listed c.self.id time peers id (h ++ [(.report tm source (.enrs l), o)]) =
        if source.id = id then some (((listed c.self.id time peers id h).getD (tm, [])).1,
          ((listed c.self.id time peers id h).getD (tm, [])).2 ++ (keepNew c.self.id u l).2.map Enr.id)
        else listed c.self.id time peers id h := by
      rw [listed_append, hkn.2.1, hu]; rfl
    rw [hl, hre, ← hk.responses id]
    simp only [insert]
    by_cases he : source.id = id
    · rw [if_pos he, if_pos he.symm]
      subst he
      cases t.responses source.id <;> rfl
    · rw [if_neg he, if_neg (fun hh => he hh.symm)]
  · intro id hid
    simp only [hre, insert_isSome] at hid
    by_cases he : id = source.id
    · rw [he]; exact hsrc
    · exact hm.keep id (hk.sources id (by simpa [he] using hid))
  · rw [hn]
    intro id rr hrr j hj
    simp only [hre, insert] at hrr
    split at hrr
    · have := Option.some.inj hrr
      subst this
      rcases List.mem_append.mp hj with hj | hj
      · refine List.mem_append_left _ ?_
        cases ht : t.responses source.id with
        | none => rw [ht] at hj; cases hj
        | some r0 =>
          rw [ht] at hj
          exact hk.told _ r0 ht j hj
      · exact List.mem_append_right _ hj
    · exact List.mem_append_left _ (hk.told id rr hrr j hj)
  · intro id f hf
    have hf : t.failures id = some f := by rw [← hm.failures]; exact hf
    exact ⟨hm.keep id (hk.failures id f hf).1, FailedBy.mono _ (hk.failures id f hf).2⟩
  · intro id hid
    exact hm.keep id (hk.has id (hp id hid))

theorem pendingPeers_known {cfg : Query.Config} {t : Id} {q : Query.CQuery} {r : Record} (h : Query.Inv cfg t q.base r)
    {source id : Id} (hi : id ∈ Query.pendingPeers q source) : id ∈ r.known := by
  unfold Query.pendingPeers at hi
  obtain ⟨p, hp, h1⟩ := List.mem_filterMap.mp hi
  have : p.id = id := by
    cases hs : p.state with
    | waiting n =>
      simp only [hs] at h1
      split at h1
      · cases h1
      · exact Option.some.inj h1
    | _ => simp only [hs] at h1; cases h1
  exact (h.known id).mp ⟨p, hp, this⟩

theorem see_over_success (cfg : Query.Config) (r : Record) (p : Id) (n : List Id) : (r.see cfg (.success p n)).over = r.over := by
  simp only [Record.see]; split <;> rfl

theorem see_known_success (cfg : Query.Config) (r : Record) (p : Id) (n : List Id) (id : Id)
    (h : id ∈ (r.see cfg (.success p n)).known) : id ∈ r.known ∨ id ∈ n := by
  simp only [Record.see] at h
  split at h
  · exact List.mem_append.mp h
  · exact .inl h

theorem onReport_open {c : Ctx} {isTrace : Bool} {time : Nat} {peers : List Enr} {h : History} {s : State}
    (ho : Open c isTrace time peers h s) (tm : Nat) (source : Enr) (r : Reported) :
    ∃ s', onReport c s tm source r = some s' ∧ Open c isTrace time peers (h ++ [(.report tm source r, [])]) s' := by
  obtain ⟨reports, ann, hc⟩ := ho.cinv
  have hfp : firstPoll (h ++ [(.report tm source r, [])]) = firstPoll h := by
    rw [firstPoll_append]; cases firstPoll h <;> rfl
  have hq : ∀ x ∈ s.queue, x.1 ∈ named c.self.id peers (h ++ [(.report tm source r, [])]) ∧
      FailedBy (h ++ [(.report tm source r, [])]) x.1 x.2 := fun x hx =>
    ⟨named_mono _ _ _ _ _ (ho.queue x hx).1, FailedBy.mono _ (ho.queue x hx).2⟩
  cases r with
  | content b =>
    obtain ⟨s1, h1, h2⟩ := Query.cOnSuccess_inv hc source.id (.content b)
    simp only [Query.cStep, proj] at h1
    obtain ⟨x, hx, hx2⟩ := Option.map_eq_some_iff.mp h1
    have hx2 := (Prod.mk.inj hx2).1
    subst hx2
    refine ⟨{ s with trace := s.trace.map fun (t : Trace) => t.respondedWithContent tm source, q := x },
      by simp only [onReport, hx, Option.map_some], ?_⟩
    refine ⟨⟨_, _, by rw [record_append, past_append]; exact h2⟩, ?_, ho.closed, ?_, ?_, ?_, ?_, ?_, hq⟩
    · rw [record_append]; simp only [seen, see_over_success]; exact ho.notOver
    · rw [named_append]; exact ho.untrusted
    · intro id hid
      rw [record_append] at hid
      rcases see_known_success _ _ _ _ _ hid with hid | hid
      · exact named_mono _ _ _ _ _ (ho.known id hid)
      · cases hid
    · rw [hfp]; exact ho.started
    · simp only [Option.isSome_map]; exact ho.traced
    · intro t ht
      obtain ⟨t0, h0, rfl⟩ := Option.map_eq_some_iff.mp ht
      exact ⟨(ho.trace t0 h0).1.content tm source _ _ (by simp),
        (respondedWithContent_more t0 tm source).received.trans (ho.trace t0 h0).2⟩
  | connectionId b =>
    obtain ⟨s1, h1, h2⟩ := Query.cOnSuccess_inv hc source.id (.connectionId b)
    simp only [Query.cStep, proj] at h1
    obtain ⟨x, hx, hx2⟩ := Option.map_eq_some_iff.mp h1
    have hx2 := (Prod.mk.inj hx2).1
    subst hx2
    refine ⟨{ s with trace := s.trace.map fun (t : Trace) => t.respondedWithContent tm source, q := x },
      by simp only [onReport, hx, Option.map_some], ?_⟩
    refine ⟨⟨_, _, by rw [record_append, past_append]; exact h2⟩, ?_, ho.closed, ?_, ?_, ?_, ?_, ?_, hq⟩
    · rw [record_append]; simp only [seen, see_over_success]; exact ho.notOver
    · rw [named_append]; exact ho.untrusted
    · intro id hid
      rw [record_append] at hid
      rcases see_known_success _ _ _ _ _ hid with hid | hid
      · exact named_mono _ _ _ _ _ (ho.known id hid)
      · cases hid
    · rw [hfp]; exact ho.started
    · simp only [Option.isSome_map]; exact ho.traced
    · intro t ht
      obtain ⟨t0, h0, rfl⟩ := Option.map_eq_some_iff.mp ht
      exact ⟨(ho.trace t0 h0).1.content tm source _ _ (by simp),
        (respondedWithContent_more t0 tm source).received.trans (ho.trace t0 h0).2⟩
  | enrs l =>
    obtain ⟨s1, h1, h2⟩ := Query.cOnSuccess_inv hc source.id (.closestNodes ((l.filter fun e => e.id ≠ c.self.id).map Enr.id))
    simp only [Query.cStep, proj] at h1
    obtain ⟨x, hx, hx2⟩ := Option.map_eq_some_iff.mp h1
    have hx2 := (Prod.mk.inj hx2).1
    subst hx2
    have hkn := keepNew_spec c.self.id l s.untrusted
    refine ⟨{ s with
        untrusted := (keepNew c.self.id s.untrusted l).1
        trace := s.trace.map fun (t : Trace) =>
          { t.respondedWith tm source (keepNew c.self.id s.untrusted l).2 with cancelled := Query.pendingPeers s.q source.id }
        q := x }, by simp only [onReport, hx, Option.map_some], ?_⟩
    have hn : named c.self.id peers (h ++ [(.report tm source (.enrs l), [])]) =
        named c.self.id peers h ++ firstNamed c.self.id (named c.self.id peers h) (l.map Enr.id) := by
      rw [named_append]; rfl
    refine ⟨⟨_, _, by rw [record_append, past_append]; exact h2⟩, ?_, ho.closed, ?_, ?_, ?_, ?_, ?_, hq⟩
    · rw [record_append]; simp only [seen, see_over_success]; exact ho.notOver
    · simp only [hn, hkn.1, List.map_append, hkn.2.1, ho.untrusted]
    · intro id hid
      rw [record_append] at hid
      rcases see_known_success _ _ _ _ _ hid with hid | hid
      · exact named_mono _ _ _ _ _ (ho.known id hid)
      · rw [hn]
        obtain ⟨e, he, rfl⟩ := List.mem_map.mp hid
        obtain ⟨he, hne⟩ := List.mem_filter.mp he
        exact firstNamed_all _ _ _ _ (List.mem_map.mpr ⟨e, he, rfl⟩) (by simpa using hne)
    · rw [hfp]; exact ho.started
    · simp only [Option.isSome_map]; exact ho.traced
    · intro t ht
      obtain ⟨t0, h0, rfl⟩ := Option.map_eq_some_iff.mp ht
      refine ⟨(ho.trace t0 h0).1.enrs tm source l _ s.untrusted ho.untrusted _ ?_,
        (respondedWith_more t0 tm source _).received.trans (ho.trace t0 h0).2⟩
      intro id hid
      exact ho.known id (pendingPeers_known hc.base hid)

end Verif.Lookup
