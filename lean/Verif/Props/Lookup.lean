import Verif.Lemmas.LookupPoke

/-! # C82: content lookups, their traces and effects, and the JSON-RPC answers -/

namespace Verif.Props
open Verif.Lookup Verif.Props.Lookups
open Lookup (Enr Seen)

theorem lookup_reach {c : Ctx} {isTrace : Bool} {time : Nat} {peers : List Enr} {s0 : Lookup.State}
    (h0 : start c none isTrace time peers = .inr s0) {es : List Ev} (hs : Sane es) {s : Lookup.State} {h : History}
    (hr : run c s0 es = some (s, h)) : Reach c isTrace time peers h s ∧ h.map Prod.fst = es := by
  obtain ⟨s', h', h1, h2, h3⟩ := run_reach es (.inl ⟨start_open c isTrace time peers s0 h0, fun _ hx => (nomatch hx)⟩) hs
  rw [hr] at h1
  simp only [Option.some.injEq, Prod.mk.injEq] at h1
  obtain ⟨rfl, rfl⟩ := h1
  exact ⟨h3, h2⟩

/-- Content that the node has is the answer, and nobody is asked; without peers there is nobody to ask; and otherwise the
lookup starts. The trace of local content names only the node itself. -/
theorem C82_start (c : Ctx) (stored : Option Bytes) (isTrace : Bool) (time : Nat) (peers : List Enr) :
    (∀ v, stored = some v → ∃ t, start c stored isTrace time peers = .inl (.found v false (some t)) ∧
      t.receivedFrom = some c.self.id ∧ t.origin = c.self.id ∧ t.target = c.target ∧ Closed t ∧
      ∀ id, (t.metadata id).isSome = true ↔ id = c.self.id) ∧
    (stored = none → peers = [] → start c stored isTrace time peers = .inl .noPeers) ∧
    (stored = none → peers ≠ [] → ∃ s, start c stored isTrace time peers = .inr s) := by
  refine ⟨?_, ?_, ?_⟩
  · rintro v rfl
    refine ⟨_, rfl, ?_⟩
    have hm := respondedWithContent_more (Trace.new c.self c.target) time c.self
    have hre := respondedWithContent_responses (Trace.new c.self c.target) time c.self
    have hcv : ((Trace.new c.self c.target).respondedWithContent time c.self).contentValidated c.self.id =
        { (Trace.new c.self c.target).respondedWithContent time c.self with receivedFrom := some c.self.id } := by
      unfold Trace.contentValidated; rw [hm.received]; rfl
    rw [hcv]
    have hself := hm.has c.self (List.mem_singleton.mpr rfl)
    have hok : MetaOk (fun e => e = c.self) ((Trace.new c.self c.target).respondedWithContent time c.self) :=
      hm.ok (fun id i hi => (nomatch hi)) fun e he => List.mem_singleton.mp he
    refine ⟨rfl, hm.origin, hm.target, ⟨?_, ?_, ?_, ?_, ?_⟩, ?_⟩
    · exact fun id i hi => ⟨(hok id i hi).1, (hok id i hi).2.1⟩
    · intro id r hr
      simp only [hre, Lookup.insert] at hr
      split at hr
      · rename_i he
        have := Option.some.inj hr
        subst this
        exact ⟨by rw [he]; exact hself, fun j hj => (nomatch hj)⟩
      · cases hr
    · intro id f hf
      simp only [hm.failures, Trace.new] at hf
      cases hf
    · intro id hid
      simp only [hm.cancelled, Trace.new] at hid
      cases hid
    · intro id hid
      have := Option.some.inj hid
      rw [← this]; exact hself
    · intro id
      constructor
      · intro hi
        obtain ⟨i, hi⟩ := Option.isSome_iff_exists.mp hi
        have := hok id i hi
        rw [← this.1, this.2.2]
      · rintro rfl; exact hself
  · rintro rfl rfl; rfl
  · rintro rfl hp
    cases peers with
    | nil => exact absurd rfl hp
    | cons a l => exact ⟨_, rfl⟩

/-- A lookup never aborts, whatever happens, and whoever it decides to ask can be asked. -/
theorem C82_runs (c : Ctx) (isTrace : Bool) (time : Nat) (peers : List Enr) (s0 : Lookup.State)
    (h0 : start c none isTrace time peers = .inr s0) (es : List Ev) (hs : Sane es) :
    ∃ s h, run c s0 es = some (s, h) ∧ h.map Prod.fst = es ∧ ∀ x ∈ h, ∀ id, Out.unreachable id ∉ x.2 := by
  obtain ⟨s', h', h1, h2, h3⟩ := run_reach es (.inl ⟨start_open c isTrace time peers s0 h0, fun _ hx => (nomatch hx)⟩) hs
  refine ⟨s', h', h1, h2, ?_⟩
  rw [List.nil_append] at h3
  have shape : ∀ {x : Ev × List Out}, Shape x → ∀ id, Out.unreachable id ∉ x.2 := by
    intro x hx id hm
    rcases hx.out _ hm with h | ⟨e, h⟩
    · exact h
    · cases h
  intro x hx id hm
  rcases h3 with ⟨_, hq⟩ | ⟨_, pre, e, a, post, rfl, _, _, hpre, hpost⟩
  · exact shape (hq x hx) id hm
  · rcases List.mem_append.mp hx with hx | hx
    · exact shape (hpre x hx) id hm
    · rcases List.mem_cons.mp hx with rfl | hx
      · have := List.mem_singleton.mp hm; cases this
      · exact hpost x hx _ hm

/-- There is at most one answer; it comes from a poll, and nobody is asked after it. -/
theorem C82_once (c : Ctx) (isTrace : Bool) (time : Nat) (peers : List Enr) (s0 : Lookup.State)
    (h0 : start c none isTrace time peers = .inr s0) (es : List Ev) (hs : Sane es) (s : Lookup.State) (h : History)
    (hr : run c s0 es = some (s, h)) (pre post : History) (e : Ev) (o : List Out) (hh : h = pre ++ (e, o) :: post)
    (a : Answer) (ha : .answer a ∈ o) :
    (∃ now known, e = .poll now known) ∧ o = [.answer a] ∧ (∀ x ∈ pre, ∀ a', Out.answer a' ∉ x.2) ∧
    ∀ x ∈ post, ∀ y ∈ x.2, (∀ a', y ≠ .answer a') ∧ ∀ to, y ≠ .request to := by
  obtain ⟨h3, _⟩ := lookup_reach h0 hs hr
  have noAns : ∀ {x : Ev × List Out}, Shape x → ∀ a', Out.answer a' ∉ x.2 := by
    intro x hx a' hm
    rcases hx.out _ hm with h | ⟨e, h⟩
    · exact h
    · cases h
  rcases h3 with ⟨_, hq⟩ | ⟨_, pre', e', a', post', hh', _, hp, hpre, hpost⟩
  · exact absurd ha (noAns (hq (e, o) (by rw [hh]; simp)) a)
  · rw [hh] at hh'
    have hsplit : pre = pre' ∧ (e, o) = (e', [Out.answer a']) ∧ post = post' := by
      rcases List.append_eq_append_iff.mp hh' with ⟨l, h1, h2⟩ | ⟨l, h1, h2⟩
      · cases l with
        | nil =>
          simp only [List.nil_append, List.cons.injEq] at h2
          exact ⟨by rw [h1]; simp, h2.1, h2.2⟩
        | cons x l =>
          simp only [List.cons_append, List.cons.injEq] at h2
          exact absurd ha (noAns (x := (e, o)) (hpre (e, o) (by rw [h1, ← h2.1]; simp)) a)
      · cases l with
        | nil =>
          simp only [List.nil_append, List.cons.injEq] at h2
          exact ⟨by rw [h1]; simp, h2.1.symm, h2.2.symm⟩
        | cons x l =>
          simp only [List.cons_append, List.cons.injEq] at h2
          exact absurd (hpost (e, o) (by rw [h2.2]; simp) _ ha) id
    obtain ⟨rfl, h2, rfl⟩ := hsplit
    simp only [Prod.mk.injEq] at h2
    obtain ⟨rfl, rfl⟩ := h2
    have := List.mem_singleton.mp ha
    simp only [Out.answer.injEq] at this
    subst this
    refine ⟨hp, rfl, fun x hx => noAns (hpre x hx), fun x hx y hy => ⟨?_, ?_⟩⟩
    · rintro a' rfl; exact hpost x hx _ hy
    · rintro to rfl; exact hpost x hx _ hy

/-- What an answer comes with. -/
theorem lookup_answer {c : Ctx} {isTrace : Bool} {time : Nat} {peers : List Enr} {s0 : Lookup.State}
    (h0 : start c none isTrace time peers = .inr s0) {es : List Ev} (hs : Sane es) {s : Lookup.State} {h : History}
    (hr : run c s0 es = some (s, h)) {e : Ev} (he : Sane [e]) {s' : Lookup.State} {o : List Out}
    (hstep : Lookup.step c s e = some (s', o)) {a : Answer} (ha : .answer a ∈ o) :
    Right c isTrace time peers (h ++ [(e, o)]) a := by
  obtain ⟨h3, _⟩ := lookup_reach h0 hs hr
  obtain ⟨s1, o1, h4, h5⟩ := step_reach h3 e he
  rw [hstep] at h4
  simp only [Option.some.injEq, Prod.mk.injEq] at h4
  obtain ⟨rfl, rfl⟩ := h4
  rcases h5 with ⟨_, hq⟩ | ⟨_, pre, e', a', post, hh, hright, _, hpre, hpost⟩
  · rcases (hq (e, o) (by simp)).out _ ha with h | ⟨_, h⟩
    · exact absurd h id
    · cases h
  · rcases List.eq_nil_or_concat post with rfl | ⟨l, x, rfl⟩
    · have := List.append_inj' hh rfl
      simp only [List.cons.injEq, Prod.mk.injEq, and_true] at this
      obtain ⟨rfl, rfl, rfl⟩ := this
      have := List.mem_singleton.mp ha
      simp only [Out.answer.injEq] at this
      subst this
      exact hright
    · have hx : (e, o) = x := by
        have h6 : h ++ [(e, o)] = (pre ++ (e', [Out.answer a']) :: l) ++ [x] := by rw [hh]; simp
        exact (List.cons.inj (List.append_inj' h6 rfl).2).1
      subst hx
      exact absurd (hpost (e, o) (by simp) _ ha) id

/-- Content is only returned if the validator accepted exactly these bytes from the peer that the trace names, or if they are
the node's own value. -/
theorem C82_found (c : Ctx) (isTrace : Bool) (time : Nat) (peers : List Enr) (s0 : Lookup.State)
    (h0 : start c none isTrace time peers = .inr s0) (es : List Ev) (hs : Sane es) (s : Lookup.State) (h : History)
    (hr : run c s0 es = some (s, h)) (e : Ev) (he : Sane [e]) (s' : Lookup.State) (o : List Out)
    (hstep : Lookup.step c s e = some (s', o)) (content : Bytes) (utp : Bool) (trace : Option Trace)
    (ha : .answer (.found content utp trace) ∈ o) :
    ∃ sender, Confirmed h sender utp content ∧ sender ∈ (record c peers h).answered ∧
      ∀ t, trace = some t → t.receivedFrom = some sender := by
  have hright := lookup_answer h0 hs hr he hstep ha
  obtain ⟨_, sender, h1, h2, h3⟩ := hright
  have hpoll : ∃ now known, e = .poll now known := by
    obtain ⟨s1, h4, _⟩ : ∃ s1, run c s0 (es ++ [e]) = some (s1, h ++ [(e, o)]) ∧ True := by
      refine ⟨s', ?_, trivial⟩
      rw [run_append, hr]; simp [run, hstep]
    exact (C82_once c isTrace time peers s0 h0 (es ++ [e]) (fun now known hm => by
      rcases List.mem_append.mp hm with hm | hm
      · exact hs now known hm
      · exact he now known hm) s1 _ h4 h [] e o rfl _ ha).1
  obtain ⟨now, known, rfl⟩ := hpoll
  have drop : ∀ {P : Ev × List Out → Prop}, (∃ x ∈ h ++ [(Ev.poll now known, o)], P x) → (¬ P (.poll now known, o)) → ∃ x ∈ h, P x := by
    rintro P ⟨x, hx, hp⟩ hn
    rcases List.mem_append.mp hx with hx | hx
    · exact ⟨x, hx, hp⟩
    · rw [List.mem_singleton.mp hx] at hp; exact absurd hp hn
  refine ⟨sender, ?_, ?_, fun t ht => (h3 t ht).2.1⟩
  · obtain ⟨sent, see, h4, h5⟩ := h1
    refine ⟨sent, see, ?_, h5⟩
    obtain ⟨x, hx, n, f, h6, h7⟩ := h4
    have hx : x ∈ h := by
      rcases List.mem_append.mp hx with hx | hx
      · exact hx
      · rw [List.mem_singleton.mp hx] at h6; cases h6
    refine ⟨x, hx, n, f, h6, ?_⟩
    rcases h7 with ⟨h7, h8⟩ | ⟨h7, h8, h9⟩
    · exact .inl ⟨h7, drop h8 (by simp)⟩
    · exact .inr ⟨h7, drop h8 (by simp), h9⟩
  · rw [record_append] at h2
    simp only [seen, Record.see] at h2
    split at h2
    · exact h2
    · split at h2 <;> exact h2

/-- The trace of an answer. -/
def traceOf : Answer → Option Trace
  | .found _ _ t => t
  | .noPeers => none
  | .notFound t => t

/-- There is a trace exactly if one was asked for, with the lookup's origin and target; every node in it has an entry with
its own ENR, which came up during the lookup, and its distance; every node that was named has an entry; and a node is listed
under the first peer that named it, with the time of its answer. -/
theorem C82_trace (c : Ctx) (isTrace : Bool) (time : Nat) (peers : List Enr) (s0 : Lookup.State)
    (h0 : start c none isTrace time peers = .inr s0) (es : List Ev) (hs : Sane es) (s : Lookup.State) (h : History)
    (hr : run c s0 es = some (s, h)) (e : Ev) (he : Sane [e]) (s' : Lookup.State) (o : List Out)
    (hstep : Lookup.step c s e = some (s', o)) (a : Answer) (ha : .answer a ∈ o) :
    (traceOf a).isSome = isTrace ∧ ∀ t, traceOf a = some t →
      t.origin = c.self.id ∧ t.target = c.target ∧ Closed t ∧
      (∀ id i, t.metadata id = some i → CameUp c.self peers (h ++ [(e, o)]) i.enr) ∧
      (∀ id ∈ named c.self.id peers (h ++ [(e, o)]), (t.metadata id).isSome) ∧
      (∀ id, (t.responses id).map (fun r => (r.duration, r.respondedWith)) =
        listed c.self.id time peers id (h ++ [(e, o)])) ∧
      (∀ id f, t.failures id = some f → FailedBy (h ++ [(e, o)]) id f.2) ∧
      ((∀ content utp tr, a ≠ .found content utp tr) → t.receivedFrom = none) := by
  have hright := lookup_answer h0 hs hr he hstep ha
  have key : ∀ t, TraceOk c time peers (h ++ [(e, o)]) t → (∀ id, t.receivedFrom = some id → (t.metadata id).isSome) →
      t.origin = c.self.id ∧ t.target = c.target ∧ Closed t ∧
      (∀ id i, t.metadata id = some i → CameUp c.self peers (h ++ [(e, o)]) i.enr) ∧
      (∀ id ∈ named c.self.id peers (h ++ [(e, o)]), (t.metadata id).isSome) ∧
      (∀ id, (t.responses id).map (fun r => (r.duration, r.respondedWith)) =
        listed c.self.id time peers id (h ++ [(e, o)])) ∧
      (∀ id f, t.failures id = some f → FailedBy (h ++ [(e, o)]) id f.2) := by
    intro t hk hrec
    refine ⟨hk.origin, hk.target, ⟨fun id i hi => ⟨(hk.metaOk id i hi).1, (hk.metaOk id i hi).2.1⟩, ?_,
      fun id f hf => (hk.failures id f hf).1, hk.cancelled, hrec⟩, fun id i hi => (hk.metaOk id i hi).2.2, hk.has,
      hk.responses, fun id f hf => (hk.failures id f hf).2⟩
    intro id r hrr
    exact ⟨hk.sources id (by rw [hrr]; rfl), fun j hj => hk.has j (hk.told id r hrr j hj)⟩
  cases a with
  | noPeers => exact absurd hright id
  | notFound tr =>
    refine ⟨hright.1, fun t ht => ?_⟩
    have h1 := hright.2 t ht
    obtain ⟨a1, a2, a3, a4, a5, a6, a7⟩ := key t h1.1 (fun id hid => by rw [h1.2] at hid; cases hid)
    exact ⟨a1, a2, a3, a4, a5, a6, a7, fun _ => h1.2⟩
  | found content utp tr =>
    obtain ⟨hsome, sender, hconf, hans, htr⟩ := hright
    refine ⟨hsome, fun t ht => ?_⟩
    have h1 := htr t ht
    have hsent : (t.metadata sender).isSome := by
      obtain ⟨sent, see, ⟨x, hx, n, f, h2, h3⟩, _⟩ := hconf
      have hans' : ∃ y ∈ h ++ [(e, o)], ∃ tm src r, y.1 = Ev.report tm src r ∧ src.id = sender := by
        rcases h3 with ⟨_, y, hy, tm, src, h3, h4⟩ | ⟨_, ⟨y, hy, tm, src, cid, h3, h4⟩, _⟩
        · exact ⟨y, hy, tm, src, _, h3, h4⟩
        · exact ⟨y, hy, tm, src, _, h3, h4⟩
      have hl : (listed c.self.id time peers sender (h ++ [(e, o)])).isSome := by
        obtain ⟨y, hy, tm, src, r, h3, h4⟩ := hans'
        exact listed_isSome hy h3 h4
      rw [← h1.1.responses sender, Option.isSome_map] at hl
      exact h1.1.sources sender hl
    obtain ⟨a1, a2, a3, a4, a5, a6, a7⟩ := key t h1.1 (fun id hid => by
      rw [h1.2.1] at hid
      have := Option.some.inj hid
      rw [← this]; exact hsent)
    exact ⟨a1, a2, a3, a4, a5, a6, a7, fun hn => absurd rfl (hn content utp tr)⟩

/-- The trace of content that was found says which peers were still awaited: all from whom an answer was expected when the
lookup ended, and only peers that were asked and had not answered. -/
theorem C82_cancelled (c : Ctx) (isTrace : Bool) (time : Nat) (peers : List Enr) (s0 : Lookup.State)
    (h0 : start c none isTrace time peers = .inr s0) (es : List Ev) (hs : Sane es) (s : Lookup.State) (h : History)
    (hr : run c s0 es = some (s, h)) (e : Ev) (he : Sane [e]) (s' : Lookup.State) (o : List Out)
    (hstep : Lookup.step c s e = some (s', o)) (content : Bytes) (utp : Bool) (t : Trace)
    (ha : .answer (.found content utp (some t)) ∈ o) :
    (∀ x ∈ (record c peers (h ++ [(e, o)])).pending, x.1 ∈ t.cancelled) ∧
    ∀ id ∈ t.cancelled, id ∈ requested h ∧ id ∉ (record c peers h).answered := by
  have hright := lookup_answer h0 hs hr he hstep ha
  obtain ⟨_, sender, _, _, h3⟩ := hright
  obtain ⟨_, _, h4, h5⟩ := h3 t rfl
  refine ⟨h4, fun id hid => ?_⟩
  obtain ⟨h6, h7⟩ := h5 id hid
  have hreach := (lookup_reach h0 hs hr).1
  have hsp : ∃ s1, run c s0 (es ++ [e]) = some (s1, h ++ [(e, o)]) := by
    refine ⟨s', ?_⟩
    rw [run_append, hr]; simp [run, hstep]
  obtain ⟨s1, hrun⟩ := hsp
  obtain ⟨⟨now, known, rfl⟩, ho, hpre, _⟩ := C82_once c isTrace time peers s0 h0 (es ++ [e]) (fun now known hm => by
    rcases List.mem_append.mp hm with hm | hm
    · exact hs now known hm
    · exact he now known hm) s1 _ hrun h [] e o rfl _ ha
  rcases hreach with ⟨hopen, hq⟩ | ⟨_, pre, e', a', post, rfl, _, _, _, _⟩
  · rw [record_append] at h6 h7
    have hov := hopen.notOver
    have hfin : seen c.self.id (Ev.poll now known, o) = .polled now .finished := by rw [ho]; rfl
    rw [hfin] at h6 h7
    simp only [Record.see] at h6 h7
    rw [if_neg (by rw [hov]; simp)] at h6 h7
    rw [← record_asked c peers h hq]
    exact ⟨h6, h7⟩
  · exact absurd (List.mem_singleton.mpr rfl) (hpre (e', [.answer a']) (by simp) a')

/-- Nobody is asked twice, everybody who is asked was named before, and nobody is asked after the answer. -/
theorem C82_requests (c : Ctx) (isTrace : Bool) (time : Nat) (peers : List Enr) (s0 : Lookup.State)
    (h0 : start c none isTrace time peers = .inr s0) (es : List Ev) (hs : Sane es) (s : Lookup.State) (h : History)
    (hr : run c s0 es = some (s, h)) (e : Ev) (he : Sane [e]) (s' : Lookup.State) (o : List Out)
    (hstep : Lookup.step c s e = some (s', o)) (to : Enr) (ho : .request to ∈ o) :
    to.id ∉ requested h ∧ to.id ∈ named c.self.id peers h ∧ ∀ x ∈ h, ∀ a, Out.answer a ∉ x.2 := by
  have hreach := (lookup_reach h0 hs hr).1
  obtain ⟨s1, o1, h4, h5⟩ := step_reach hreach e he
  rw [hstep] at h4
  simp only [Option.some.injEq, Prod.mk.injEq] at h4
  obtain ⟨rfl, rfl⟩ := h4
  rcases h5 with ⟨hopen, hq⟩ | ⟨_, pre, e', a', post, hh, _, _, _, hpost⟩
  · obtain ⟨reports, ann, hc⟩ := hopen.cinv
    have h6 := record_asked c peers (h ++ [(e, o)]) hq
    have hreq : requested (h ++ [(e, o)]) = requested h ++ o.filterMap askedOf := by simp [requested]
    have hmem : to.id ∈ o.filterMap askedOf := List.mem_filterMap.mpr ⟨_, ho, rfl⟩
    have hnd := hc.base.nodup
    rw [h6, hreq] at hnd
    refine ⟨fun hin => (List.nodup_append.mp hnd).2.2 _ hin _ hmem rfl, ?_, ?_⟩
    · have := hopen.known _ (hc.base.asked to.id (by rw [h6, hreq]; exact List.mem_append_right _ hmem))
      rw [named_append] at this
      rcases hq (e, o) (by simp) with ⟨now, known, h7, _⟩ | ⟨_, h7⟩
      · simp only at h7
        subst h7
        exact this
      · exact absurd (h7 _ ho) id
    · intro x hx a hm
      rcases (hq x (List.mem_append_left _ hx)).out _ hm with h | ⟨_, h⟩
      · exact h
      · cases h
  · exfalso
    rcases List.eq_nil_or_concat post with rfl | ⟨l, x, rfl⟩
    · have := List.append_inj' hh rfl
      simp only [List.cons.injEq, Prod.mk.injEq, and_true] at this
      obtain ⟨rfl, rfl, rfl⟩ := this
      have := List.mem_singleton.mp ho
      cases this
    · have hx : (e, o) = x := by
        have h6 : h ++ [(e, o)] = (pre ++ (e', [Out.answer a']) :: l) ++ [x] := by rw [hh]; simp
        exact (List.cons.inj (List.append_inj' h6 rfl).2).1
      subst hx
      exact hpost (e, o) (by simp) _ ho

/-- A poll that neither asks anybody, nor fetches content, nor answers, happens before the time for the lookup is over. -/
theorem C82_timeout (c : Ctx) (isTrace : Bool) (time : Nat) (peers : List Enr) (s0 : Lookup.State)
    (h0 : start c none isTrace time peers = .inr s0) (es : List Ev) (hs : Sane es) (s : Lookup.State) (h : History)
    (hr : run c s0 es = some (s, h)) (hno : ∀ x ∈ h, ∀ a, Out.answer a ∉ x.2) (now : Nat) (known : Id → Option Enr)
    (he : Sane [.poll now known]) (s' : Lookup.State) (hstep : Lookup.step c s (.poll now known) = some (s', []))
    (ht : s'.tasks = s.tasks) : now < (firstPoll h).getD now + c.cfg.overallTimeout := by
  rcases (lookup_reach h0 hs hr).1 with ⟨hopen, hq⟩ | ⟨_, pre, e', a', post, rfl, _⟩
  · obtain ⟨s1, o, h1, h2⟩ := poll_open hopen now known (he now known (List.mem_singleton.mpr rfl))
    simp only [Lookup.step, hopen.closed, Bool.false_eq_true, if_false, h1, Option.some.injEq, Prod.mk.injEq] at hstep
    obtain ⟨rfl, rfl⟩ := hstep
    rcases h2 with ⟨_, _, h3, _⟩ | ⟨_, a, h3, _⟩
    · have := h3 rfl ht
      rw [hopen.started] at this
      omega
    · cases h3
  · exact absurd (List.mem_singleton.mpr rfl) (hno (e', [.answer a']) (by simp) a')

/-- Content is fetched from a peer that sent or announced it; the nodes that get it later are the closest ones that answered,
other than that peer. -/
theorem C82_poke (c : Ctx) (isTrace : Bool) (time : Nat) (peers : List Enr) (s0 : Lookup.State)
    (h0 : start c none isTrace time peers = .inr s0) (es : List Ev) (hs : Sane es) (s : Lookup.State) (h : History)
    (hr : run c s0 es = some (s, h)) (hno : ∀ x ∈ h, ∀ a, Out.answer a ∉ x.2) (now : Nat) (known : Id → Option Enr)
    (he : Sane [.poll now known]) (s' : Lookup.State) (o : List Out)
    (hstep : Lookup.step c s (.poll now known) = some (s', o)) (t : Task) (ht : s'.tasks = s.tasks ++ [t]) :
    (match t.what with
      | .content b => SentContent h t.peer b
      | .connection _ => SentConnection h t.peer) ∧
    (∀ id ∈ t.poke, id ∈ (record c peers h).answered ∧ id ≠ t.peer) ∧
    t.poke.length ≤ c.cfg.numResults ∧
    ∀ id ∈ (record c peers h).answered, id ≠ t.peer → id ∉ t.poke →
      t.poke.length = c.cfg.numResults ∧ ∀ j ∈ t.poke, xorDistance j c.target < xorDistance id c.target := by
  rcases (lookup_reach h0 hs hr).1 with ⟨hopen, hq⟩ | ⟨_, pre, e', a', post, rfl, _⟩
  · obtain ⟨s1, o1, h1, h2⟩ := poll_open hopen now known (he now known (List.mem_singleton.mpr rfl))
    simp only [Lookup.step, hopen.closed, Bool.false_eq_true, if_false, h1, Option.some.injEq, Prod.mk.injEq] at hstep
    obtain ⟨rfl, rfl⟩ := hstep
    rcases h2 with ⟨hopen', _, _, h3⟩ | ⟨_, a, rfl, _⟩
    · obtain ⟨p, u, h3⟩ : ∃ p u, s1.tasks = s.tasks ++ [⟨p, u, Query.nodesToPoke s1.q p⟩] := by
        rcases h3 with h3 | h3
        · rw [h3] at ht
          have := congrArg List.length ht
          simp at this
        · exact h3
      rw [h3] at ht
      have ht := (List.cons.inj (List.append_cancel_left ht)).1
      subst ht
      obtain ⟨reports, ann, hc⟩ := hopen'.cinv
      have hrec : (record c peers (h ++ [(.poll now known, o1)])).answered = (record c peers h).answered := by
        rw [record_append]
        simp only [seen, Record.see]
        split
        · rfl
        · split <;> rfl
      refine ⟨?_, ?_, ?_, ?_⟩
      · have htask := (hc.tasks (p, u) (List.mem_map.mpr ⟨⟨p, u, Query.nodesToPoke s1.q p⟩, by rw [h3]; simp, rfl⟩)).1
        rw [past_append] at htask
        cases u with
        | content b =>
          rcases List.mem_append.mp htask with hm | hm
          · exact past_content hm
          · simp [evC] at hm
        | connection i =>
          rcases List.mem_append.mp htask with hm | hm
          · exact past_connection hm
          · simp [evC] at hm
      · intro id hid
        rw [← hrec]
        exact nodesToPoke_mem hc.base hid
      · rw [← hc.base.cfgEq]; exact List.length_take_le _ _
      · intro id hid hne hnot
        rw [← hrec] at hid
        exact nodesToPoke_closest hc.base hid hne hnot
    · have hlen := answer_tasks h1
      rw [hlen] at ht
      have := congrArg List.length ht
      simp at this
  · exact absurd (List.mem_singleton.mpr rfl) (hno (e', [.answer a']) (by simp) a')

/-- What the end of a task does: the content is stored exactly if the node has none, it is canonically valid and wanted, and
then it is gossiped, with what was dropped if that is configured; the node's own value or valid content is offered, if that is
not switched off, to those of the chosen nodes that are in the routing table with a radius that covers it (to all of these if
no transfer slot is missing); and never more offers than slots. -/
theorem C82_effects (c : Ctx) (s : Lookup.State) (n : Nat) (t : Task) (ht : s.tasks[n]? = some t) (fetch : Fetch)
    (see : Lookup.Seen) :
    let o := (endTask c s n fetch see).2
    (∀ x, .put x ∈ o ↔ atHand t fetch = some x ∧ see.stored = none ∧ see.verdict x = .canonicallyValid ∧ see.wanted = true) ∧
    (∀ items, .propagate items ∈ o ↔ ∃ x dropped, .put x ∈ o ∧ see.dropped = some dropped ∧
      items = (c.key, x) :: if c.gossipDropped then dropped else []) ∧
    (∀ to x, .offer to x ∈ o → c.disablePoke = false ∧
      (∃ b, atHand t fetch = some b ∧ (see.stored = some x ∨ see.stored = none ∧ see.verdict b ≠ .invalid ∧ x = b)) ∧
      ∃ id ∈ t.poke, ∃ radius, see.table id = some (to, radius) ∧ (c.affected = true → xorDistance id c.target ≤ radius)) ∧
    (∀ b x, c.disablePoke = false → atHand t fetch = some b →
      (see.stored = some x ∨ see.stored = none ∧ see.verdict b ≠ .invalid ∧ x = b) →
      (∀ p ∈ see.permits, p = true) → t.poke.length ≤ see.permits.length →
      ∀ id ∈ t.poke, ∀ to radius, see.table id = some (to, radius) →
        (c.affected = true → xorDistance id c.target ≤ radius) → .offer to x ∈ o) ∧
    o.countP isOffer ≤ see.permits.count true := by
  simp only
  rw [endTask_out c s n t ht]
  cases hh : atHand t fetch with
  | none => simp
  | some b =>
    simp only [Option.some.injEq, List.mem_append]
    have hput : ∀ x, (Out.put x ∈ storing c see b ∨ Out.put x ∈ offers c see t b) ↔
        b = x ∧ see.stored = none ∧ see.verdict x = .canonicallyValid ∧ see.wanted = true := by
      intro x
      constructor
      · rintro (hx | hx)
        · obtain ⟨h1, h2 | ⟨_, _, h2⟩⟩ := mem_storing.mp hx
          · cases h2; exact ⟨rfl, h1⟩
          · cases h2
        · obtain ⟨_, _, h⟩ := mem_offers_offer hx; cases h
      · rintro ⟨rfl, hc⟩
        exact .inl (mem_storing.mpr ⟨hc, .inl rfl⟩)
    refine ⟨hput, ?_, ?_, ?_, count_offers c see t b⟩
    · intro items
      constructor
      · rintro (hx | hx)
        · obtain ⟨h1, h2 | ⟨d, h2, h3⟩⟩ := mem_storing.mp hx
          · cases h2
          · cases h3
            exact ⟨b, d, (hput b).mpr ⟨rfl, h1⟩, h2, rfl⟩
        · obtain ⟨_, _, h⟩ := mem_offers_offer hx; cases h
      · rintro ⟨x, d, hx, hd, rfl⟩
        obtain ⟨rfl, hc⟩ := (hput x).mp hx
        exact .inl (mem_storing.mpr ⟨hc, .inr ⟨d, hd, rfl⟩⟩)
    · rintro to x (hx | hx)
      · rcases (mem_storing.mp hx).2 with h | ⟨_, _, h⟩ <;> cases h
      · obtain ⟨v, h1, h2, h3⟩ := mem_offers.mp hx
        obtain ⟨id, h4, e, radius, h5, h6, h7⟩ := poke_offers c see.table v t.poke see.permits _ h3
        cases h5
        exact ⟨h2, ⟨b, rfl, (usable_iff see b x).mp h1⟩, id, h4, radius, h6, h7⟩
    · intro b' x h1 h2 h3 h4 h5 id h6 to radius h7 h8
      subst h2
      exact .inr (mem_offers.mpr ⟨x, (usable_iff see b x).mpr h3, h1,
        poke_all c see.table x t.poke see.permits h4 h5 id h6 to radius h7 h8⟩)

/-- If the node has a value by then, or the content a task gets is valid, the next poll ends the lookup with it. -/
theorem C82_valid_found (c : Ctx) (isTrace : Bool) (time : Nat) (peers : List Enr) (s0 : Lookup.State)
    (h0 : start c none isTrace time peers = .inr s0) (es : List Ev) (hs : Sane es) (s : Lookup.State) (h : History)
    (hr : run c s0 es = some (s, h)) (hno : ∀ x ∈ h, ∀ a, Out.answer a ∉ x.2) (n : Nat) (t : Task)
    (ht : s.tasks[n]? = some t) (fetch : Fetch) (see : Lookup.Seen) (b x : Bytes) (hb : atHand t fetch = some b)
    (hx : see.stored = some x ∨ see.stored = none ∧ see.verdict b ≠ .invalid ∧ x = b) (now : Nat) (known : Id → Option Enr) :
    ∃ s' o s'' utp tr, Lookup.step c s (.task n fetch see) = some (s', o) ∧
      Lookup.step c s' (.poll now known) = some (s'', [.answer (.found x utp tr)]) := by
  rcases (lookup_reach h0 hs hr).1 with ⟨hopen, hq⟩ | ⟨_, pre, e', a', post, rfl, _⟩
  · obtain ⟨reports, ann, hc⟩ := hopen.cinv
    have hchan : s.q.chan = [] := by
      have h1 := hc.slots
      have h2 := hc.one
      have h3 : 0 < s.tasks.length := by
        have := (List.getElem?_eq_some_iff.mp ht).1
        omega
      simp only [proj, List.length_map] at h1 h2
      exact List.eq_nil_of_length_eq_zero (by omega)
    have hprog : s.q.base.progress ≠ .finished := fun hh => by
      have := hc.base.over.mpr hh
      rw [hopen.notOver] at this
      cases this
    have hres : ∃ utp, (taskResult c see t fetch).1 = some (some ⟨x, utp, t.peer⟩) := by
      have hproc : ∀ utp, (process c see t utp b).1 = some ⟨x, utp, t.peer⟩ := by
        intro utp
        unfold process
        rcases hx with hx | ⟨hx, hv, rfl⟩
        · rw [hx]
        · rw [hx]; simp only [if_neg hv]
      unfold taskResult
      unfold atHand at hb
      cases hw : t.what with
      | content b' =>
        simp only [hw, Option.some.injEq] at hb
        subst hb
        exact ⟨false, by simp only [hproc]⟩
      | connection cid =>
        cases fetch <;> simp only [hw, Option.some.injEq, reduceCtorEq] at hb
        subst hb
        exact ⟨true, by simp only [hproc]⟩
    obtain ⟨utp, hres⟩ := hres
    have hend : (endTask c s n fetch see).1.q.chan = [some ⟨x, utp, t.peer⟩] ∧
        (endTask c s n fetch see).1.q.base = s.q.base ∧ (endTask c s n fetch see).1.closed = false := by
      have hcl : ¬ s.closed = true := by rw [hopen.closed]; simp
      unfold endTask
      simp only [ht, hres, if_neg hcl]
      cases (taskResult c see t fetch).2.1 with
      | none => simp [hopen.closed, hchan]
      | some k =>
        simp only
        split <;> simp [hopen.closed, hchan]
    obtain ⟨h1, h2, h3⟩ := hend
    have hpoll : ∃ s'' tr, Lookup.step c (endTask c s n fetch see).1 (.poll now known) =
        some (s'', [.answer (.found x utp tr)]) := by
      generalize (endTask c s n fetch see).1 = s1 at *
      have : Query.cPoll s1.q now = some (⟨{ s1.q.base with progress := .finished }, s1.q.unchecked,
          s1.q.pendingValidations, [], some ⟨x, utp, t.peer⟩, s1.q.numValidating⟩, .finished) := by
        unfold Query.cPoll
        rw [h2, if_neg hprog, h1]
      simp only [Lookup.step, h3, Bool.false_eq_true, if_false, Lookup.poll, this]
      exact ⟨_, _, rfl⟩
    obtain ⟨s'', tr, hpoll⟩ := hpoll
    exact ⟨_, _, s'', utp, tr, rfl, hpoll⟩
  · exact absurd (List.mem_singleton.mpr rfl) (hno (e', [.answer a']) (by simp) a')

/-- The trace shows the newest ENR of a peer that answers: the one it answered with, unless a newer one is known. -/
theorem C82_newest (c : Ctx) (s s' : Lookup.State) (time : Nat) (source : Enr) (r : Lookup.Reported) (o : List Out) (hc : s.closed = false)
    (hs : Lookup.step c s (.report time source r) = some (s', o)) (t : Trace) (ht : s'.trace = some t) (i : NodeInfo)
    (hi : t.metadata source.id = some i) : i.enr = source ∨ source.seq < i.enr.seq := by
  simp only [Lookup.step, hc, Bool.false_eq_true, if_false] at hs
  obtain ⟨s1, h1, h2⟩ := Option.map_eq_some_iff.mp hs
  simp only [Prod.mk.injEq] at h2
  obtain ⟨rfl, rfl⟩ := h2
  cases r with
  | content b =>
    obtain ⟨q, _, rfl⟩ := Option.map_eq_some_iff.mp h1
    obtain ⟨t0, _, rfl⟩ := Option.map_eq_some_iff.mp ht
    exact addMetadata_newest _ _ _ hi
  | connectionId b =>
    obtain ⟨q, _, rfl⟩ := Option.map_eq_some_iff.mp h1
    obtain ⟨t0, _, rfl⟩ := Option.map_eq_some_iff.mp ht
    exact addMetadata_newest _ _ _ hi
  | enrs l =>
    obtain ⟨q, _, rfl⟩ := Option.map_eq_some_iff.mp h1
    obtain ⟨t0, _, rfl⟩ := Option.map_eq_some_iff.mp ht
    exact addMetadata_newest _ _ _ hi

/-- What peers tell about another peer replaces the ENR that the trace shows for it only if it is newer. -/
theorem C82_told (c : Ctx) (s s' : Lookup.State) (time : Nat) (source : Enr) (r : Lookup.Reported) (o : List Out) (hc : s.closed = false)
    (hs : Lookup.step c s (.report time source r) = some (s', o)) (t t' : Trace) (ht : s.trace = some t) (ht' : s'.trace = some t')
    (id : Id) (hid : id ≠ source.id) (i : NodeInfo) (hi : t.metadata id = some i) :
    ∃ i', t'.metadata id = some i' ∧ (i' = i ∨ i.enr.seq < i'.enr.seq) := by
  simp only [Lookup.step, hc, Bool.false_eq_true, if_false] at hs
  obtain ⟨s1, h1, h2⟩ := Option.map_eq_some_iff.mp hs
  simp only [Prod.mk.injEq] at h2
  obtain ⟨rfl, rfl⟩ := h2
  cases r with
  | content b =>
    obtain ⟨q, _, rfl⟩ := Option.map_eq_some_iff.mp h1
    obtain ⟨t0, h0, rfl⟩ := Option.map_eq_some_iff.mp ht'
    cases ht.symm.trans h0
    exact ⟨i, (addMetadata_other _ _ _ id hid).trans hi, .inl rfl⟩
  | connectionId b =>
    obtain ⟨q, _, rfl⟩ := Option.map_eq_some_iff.mp h1
    obtain ⟨t0, h0, rfl⟩ := Option.map_eq_some_iff.mp ht'
    cases ht.symm.trans h0
    exact ⟨i, (addMetadata_other _ _ _ id hid).trans hi, .inl rfl⟩
  | enrs l =>
    obtain ⟨q, _, rfl⟩ := Option.map_eq_some_iff.mp h1
    obtain ⟨t0, h0, rfl⟩ := Option.map_eq_some_iff.mp ht'
    cases ht.symm.trans h0
    obtain ⟨i', h3, h4⟩ := told_all _ t id i hi
    exact ⟨i', (addMetadata_other _ _ _ id hid).trans h3, h4⟩

/-- A peer whose content cannot be fetched or is invalid is a failure in the trace, if the event is handled before the end of
the lookup. -/
theorem C82_failures_partial (c : Ctx) (s : Lookup.State) (n : Nat) (t : Task) (ht : s.tasks[n]? = some t) (fetch : Fetch)
    (see : Lookup.Seen) (hc : s.closed = false) (tr : Trace) (htr : s.trace = some tr) (hq : s.queue = []) (time : Nat)
    (k : FailKind)
    (hk : (atHand t fetch = none ∧ fetch = .streamFailed ∧ k = .utpTransferFailed) ∨
      (atHand t fetch = none ∧ fetch = .badPayload ∧ k = .invalidContent) ∨
      (∃ b, atHand t fetch = some b ∧ see.stored = none ∧ see.verdict b = .invalid ∧ k = .invalidContent)) :
    ∃ s' o s'' t', Lookup.step c s (.task n fetch see) = some (s', o) ∧
      Lookup.step c s' (.traceEvent time) = some (s'', []) ∧
      s''.trace = some t' ∧ t'.failures t.peer = some (time, k) ∧ s''.queue = [] := by
  have hres : (taskResult c see t fetch).2.1 = some k := by
    unfold taskResult
    unfold atHand at hk
    cases hw : t.what with
    | content b =>
      simp only [hw] at hk
      rcases hk with ⟨h, _⟩ | ⟨h, _⟩ | ⟨b', h1, h2, h3, h4⟩
      · cases h
      · cases h
      · have := Option.some.inj h1
        subst this
        simp only [process, h2, h3, if_true, h4]
    | connection cid =>
      simp only [hw] at hk
      rcases hk with ⟨_, h, h2⟩ | ⟨_, h, h2⟩ | ⟨b', h1, h2, h3, h4⟩
      · subst h h2; rfl
      · subst h h2; rfl
      · cases fetch <;> simp only [reduceCtorEq, Option.some.injEq] at h1
        subst h1
        simp only [process, h2, h3, if_true, h4]
  have hend : (endTask c s n fetch see).1.queue = [(t.peer, k)] ∧ (endTask c s n fetch see).1.trace = some tr ∧
      (endTask c s n fetch see).1.closed = false := by
    unfold endTask
    simp only [ht, hres]
    cases (taskResult c see t fetch).1 <;>
      simp [hc, htr, hq]
  refine ⟨(endTask c s n fetch see).1, (endTask c s n fetch see).2, takeTraceEvent (endTask c s n fetch see).1 time,
    tr.nodeFailed time t.peer k, rfl, rfl, ?_⟩
  obtain ⟨h1, h2, h3⟩ := hend
  generalize (endTask c s n fetch see).1 = s1 at *
  unfold takeTraceEvent
  simp [h1, h2, h3, Trace.nodeFailed, Lookup.insert]

/-- JSON-RPC: a lookup that finds nothing is error -39001 with the trace, content is returned with the trace that was asked for,
and a trace that was asked for is never missing. -/
theorem C82_rpc (c : Ctx) (isTrace : Bool) (time : Nat) (peers : List Enr) :
    (∀ a, start c none isTrace time peers = .inl a → getContent isTrace a = .error (.lookup noPeersText none) ∧
      rpcError (.lookup noPeersText none) = ⟨-39001, none⟩) ∧
    (∀ v a, start c (some v) isTrace time peers = .inl a → ∃ t, a = .found v false (some t) ∧ getContent isTrace a =
      .ok (if isTrace then .traced v false t else .content v false)) ∧
    ∀ s0, start c none isTrace time peers = .inr s0 → ∀ es, Sane es → ∀ s h, run c s0 es = some (s, h) →
      ∀ e, Sane [e] → ∀ s' o, Lookup.step c s e = some (s', o) → ∀ a, .answer a ∈ o →
        (∃ tr, a = .notFound tr ∧ tr.isSome = isTrace ∧ getContent isTrace a = .error (.lookup notFoundText tr) ∧
          rpcError (.lookup notFoundText tr) = ⟨-39001, tr⟩) ∨
        (∃ content utp tr, a = .found content utp tr ∧
          ((isTrace = false ∧ getContent isTrace a = .ok (.content content utp)) ∨
           ∃ t, isTrace = true ∧ tr = some t ∧ getContent isTrace a = .ok (.traced content utp t))) := by
  have htext1 : contains "Unable to locate content on the network".toList noPeersText = true := by decide +kernel
  have htext2 : contains "Unable to locate content on the network".toList notFoundText = true := by decide +kernel
  refine ⟨?_, ?_, ?_⟩
  · intro a ha
    have : a = .noPeers := by
      unfold start at ha
      simp only at ha
      split at ha
      · exact (Sum.inl.inj ha).symm
      · cases ha
    subst this
    exact ⟨rfl, by rw [rpcError, if_pos htext1]⟩
  · intro v a ha
    have := (Sum.inl.inj ha).symm
    subst this
    exact ⟨_, rfl, by cases isTrace <;> rfl⟩
  · intro s0 h0 es hs s h hr e he s' o hstep a ha
    have htr := (C82_trace c isTrace time peers s0 h0 es hs s h hr e he s' o hstep a ha).1
    have hright := lookup_answer h0 hs hr he hstep ha
    cases a with
    | noPeers => exact absurd hright id
    | notFound tr => exact .inl ⟨tr, rfl, htr, rfl, by rw [rpcError, if_pos htext2]⟩
    | found content utp tr =>
      refine .inr ⟨content, utp, tr, rfl, ?_⟩
      cases isTrace with
      | false => exact .inl ⟨rfl, rfl⟩
      | true =>
        obtain ⟨t, ht⟩ := Option.isSome_iff_exists.mp htr
        simp only [traceOf] at ht
        subst ht
        exact .inr ⟨t, rfl, rfl, rfl⟩

/-! ### What is not as one would expect -/

/-- The last thing that happened is the answer that nothing was found, with a trace such that `p`. -/
def endsWith (p : History → Trace → Bool) (h : History) : Bool :=
  match h.getLast? with
  | some (_, [.answer (.notFound (some t))]) => p h.dropLast t
  | _ => false

theorem endsWith_spec {p : History → Trace → Bool} {h : History} (hh : endsWith p h = true) :
    ∃ pre e t, h = pre ++ [(e, [.answer (.notFound (some t))])] ∧ p pre t = true := by
  unfold endsWith at hh
  split at hh
  · rename_i e t hl
    refine ⟨h.dropLast, e, t, ?_, hh⟩
    have hne : h ≠ [] := fun h0 => by rw [h0] at hl; cases hl
    rw [List.getLast?_eq_some_getLast hne] at hl
    have := List.dropLast_concat_getLast hne
    rw [Option.some.inj hl] at this
    exact this.symm
  · cases hh

theorem run_witness {c : Ctx} {s0 : Lookup.State} {es : List Ev} {f : History → Bool}
    (h : (run c s0 es).any (fun r => f r.2) = true) : ∃ s h, run c s0 es = some (s, h) ∧ f h = true := by
  cases hr : run c s0 es with
  | none => rw [hr] at h; cases h
  | some r =>
    rw [hr] at h
    exact ⟨r.1, r.2, rfl, h⟩

namespace LookupExample

def node (n : Nat) (seq : Nat := 1) : Enr := ⟨BitVec.ofNat 256 n, UInt64.ofNat seq, []⟩
def ctx : Ctx := ⟨node 99, [7], 0#256, true, ⟨2, 2, 10, 100⟩, true, false⟩
def nobody : Id → Option Enr := fun _ => none
def nothing : Lookup.Seen := ⟨none, fun _ => .invalid, false, none, fun _ => none, []⟩
/-- The state after the start with these peers. -/
def state (isTrace : Bool) (peers : List Enr) : Lookup.State :=
  ⟨peers, if isTrace then some ((Trace.new ctx.self ctx.target).respondedWith 0 ctx.self peers) else none, none,
    Query.cWithConfig ctx.cfg ctx.target (peers.map Enr.id), [], [], false⟩

theorem sane_nobody (es : List Ev) (h : ∀ now known, Ev.poll now known ∈ es → known = nobody) : Sane es := by
  intro now known hm id e he
  rw [h now known hm] at he
  cases he

/-- Two peers are asked; one names the other, which sends invalid content. -/
def bad : List Ev :=
  [.poll 1 nobody, .poll 2 nobody, .report 3 (node 1) (.enrs [node 2]), .report 4 (node 2) (.content [5]), .poll 5 nobody,
    .task 0 .noVersion nothing, .poll 6 nobody]

theorem bad_sane : Sane bad := sane_nobody bad (by simp only [bad]; intro now known h; simp at h; grind)

end LookupExample
open LookupExample

/-- The trace does not list a node under a peer that named it if it was known before. -/
theorem C82_named_violated : ∃ (c : Ctx) (peers : List Enr) (s0 : Lookup.State) (es : List Ev) (s : Lookup.State) (h : History)
    (e : Ev) (t : Trace) (id other : Id),
    start c none true 0 peers = .inr s0 ∧ Sane es ∧ run c s0 es = some (s, h ++ [(e, [.answer (.notFound (some t))])]) ∧
    Named h id other ∧ ∀ r, t.responses id = some r → other ∉ r.respondedWith := by
  obtain ⟨s, h, hr, hf⟩ := run_witness (c := ctx) (s0 := state true [node 1, node 2]) (es := bad)
    (f := endsWith fun _ t => (t.responses 1#256).all fun r => !r.respondedWith.contains 2#256) (by decide +kernel)
  obtain ⟨pre, e, t, rfl, hp⟩ := endsWith_spec hf
  obtain ⟨_, hmap⟩ := lookup_reach (c := ctx) (isTrace := true) (time := 0) (peers := [node 1, node 2]) rfl bad_sane hr
  refine ⟨ctx, [node 1, node 2], state true [node 1, node 2], _, s, pre, e, t, 1#256, 2#256, rfl, bad_sane, hr, ?_, ?_⟩
  · have hin : Ev.report 3 (node 1) (.enrs [node 2]) ∈ pre.map Prod.fst := by
      have : pre.map Prod.fst ++ [e] = bad.dropLast ++ [.poll 6 nobody] := by
        rw [List.map_append] at hmap; exact hmap
      rw [(List.append_inj' this rfl).1]
      simp [bad]
    obtain ⟨x, hx, hx2⟩ := List.mem_map.mp hin
    exact ⟨x, hx, 3, node 1, [node 2], hx2, rfl, node 2, List.mem_singleton.mpr rfl, rfl⟩
  · intro r hrr
    rw [hrr] at hp
    simpa using hp

/-- Without content, the trace may say that a peer was still awaited that had answered. -/
theorem C82_cancelled_violated : ∃ (c : Ctx) (peers : List Enr) (s0 : Lookup.State) (es : List Ev) (s : Lookup.State) (h : History)
    (e : Ev) (t : Trace) (id : Id),
    start c none true 0 peers = .inr s0 ∧ Sane es ∧ run c s0 es = some (s, h ++ [(e, [.answer (.notFound (some t))])]) ∧
    id ∈ t.cancelled ∧ id ∈ (record c peers h).answered := by
  obtain ⟨s, h, hr, hf⟩ := run_witness (c := ctx) (s0 := state true [node 1, node 2]) (es := bad)
    (f := endsWith fun pre t => t.cancelled.contains 2#256 && (record ctx [node 1, node 2] pre).answered.contains 2#256)
    (by decide +kernel)
  obtain ⟨pre, e, t, rfl, hp⟩ := endsWith_spec hf
  exact ⟨ctx, [node 1, node 2], state true [node 1, node 2], _, s, pre, e, t, 2#256, rfl, bad_sane, hr, by simpa using hp⟩

/-- A peer that sent invalid content may be missing among the failures: the lookup can end before the event is handled. -/
theorem C82_failures_violated : ∃ (c : Ctx) (peers : List Enr) (s0 : Lookup.State) (es : List Ev) (s : Lookup.State) (h : History)
    (e : Ev) (t : Trace) (id : Id),
    start c none true 0 peers = .inr s0 ∧ Sane es ∧ run c s0 es = some (s, h ++ [(e, [.answer (.notFound (some t))])]) ∧
    (∃ sent see, Examined h id false sent see ∧ see.stored = none ∧ see.verdict sent = .invalid) ∧ t.failures id = none := by
  obtain ⟨s, h, hr, hf⟩ := run_witness (c := ctx) (s0 := state true [node 1, node 2]) (es := bad)
    (f := endsWith fun _ t => (t.failures 2#256).isNone) (by decide +kernel)
  obtain ⟨pre, e, t, rfl, hp⟩ := endsWith_spec hf
  obtain ⟨_, hmap⟩ := lookup_reach (c := ctx) (isTrace := true) (time := 0) (peers := [node 1, node 2]) rfl bad_sane hr
  refine ⟨ctx, [node 1, node 2], state true [node 1, node 2], _, s, pre, e, t, 2#256, rfl, bad_sane, hr, ⟨[5], nothing, ?_, rfl, rfl⟩, by simpa using hp⟩
  have hpre : pre.map Prod.fst = bad.dropLast := by
    have : pre.map Prod.fst ++ [e] = bad.dropLast ++ [.poll 6 nobody] := by
      rw [List.map_append] at hmap; exact hmap
    exact (List.append_inj' this rfl).1
  have hin : ∀ ev ∈ bad.dropLast, ∃ x ∈ pre, x.1 = ev := by
    intro ev hev
    rw [← hpre] at hev
    exact List.mem_map.mp hev
  obtain ⟨x, hx, hx2⟩ := hin (.task 0 .noVersion nothing) (by simp [bad])
  obtain ⟨y, hy, hy2⟩ := hin (.report 4 (node 2) (.content [5])) (by simp [bad])
  exact ⟨x, hx, 0, .noVersion, hx2, .inl ⟨rfl, y, hy, 4, node 2, hy2, rfl⟩⟩

/-- If there is no common protocol version with a peer that announces the content, the lookup waits until its time is over,
and other peers that are known are not asked. -/
theorem C82_stalls_violated : ∃ (c : Ctx) (peers : List Enr) (s0 : Lookup.State) (es : List Ev) (s : Lookup.State) (h : History)
    (e : Ev) (t : Trace), start c none true 0 peers = .inr s0 ∧ Sane es ∧
    run c s0 es = some (s, h ++ [(e, [.answer (.notFound (some t))])]) ∧
    (∃ p ∈ peers, p.id ∉ requested h) ∧ ∀ x ∈ h, ∀ now known, x.1 = .poll now known → now < 1 + c.cfg.overallTimeout := by
  let es : List Ev := [.poll 1 nobody, .report 3 (node 1) (.connectionId 5), .poll 5 nobody, .task 0 .noVersion nothing,
    .poll 6 nobody, .poll 50 nobody, .poll 100 nobody, .poll 101 nobody]
  have hsane : Sane es := sane_nobody es (by simp only [es]; intro now known h; simp at h; grind)
  obtain ⟨s, h, hr, hf⟩ := run_witness (c := ctx) (s0 := state true [node 1, node 2]) (es := es)
    (f := endsWith fun pre _ => !(requested pre).contains 2#256) (by decide +kernel)
  obtain ⟨pre, e, t, rfl, hp⟩ := endsWith_spec hf
  obtain ⟨_, hmap⟩ := lookup_reach (c := ctx) (isTrace := true) (time := 0) (peers := [node 1, node 2]) rfl hsane hr
  refine ⟨ctx, [node 1, node 2], state true [node 1, node 2], _, s, pre, e, t, rfl, hsane, hr, ⟨node 2, List.mem_cons_of_mem _ List.mem_cons_self, by simpa [node] using hp⟩, ?_⟩
  have hpre : pre.map Prod.fst = es.dropLast := by
    have : pre.map Prod.fst ++ [e] = es.dropLast ++ [.poll 101 nobody] := by
      rw [List.map_append] at hmap; exact hmap
    exact (List.append_inj' this rfl).1
  intro x hx now known hx2
  have : x.1 ∈ es.dropLast := by rw [← hpre]; exact List.mem_map.mpr ⟨x, hx, rfl⟩
  rw [hx2] at this
  simp only [es, List.dropLast, List.mem_cons, Ev.poll.injEq, reduceCtorEq, false_or, or_false, List.not_mem_nil] at this
  show now < 101
  omega

/-- Content that is missing in the store is not the error of content that is not found. -/
theorem C82_local_violated (beacon : Bool) : ∃ t, localContent beacon (.ok none) = .error t ∧ rpcError t = ⟨-32099, none⟩ := by
  cases beacon
  · refine ⟨_, rfl, ?_⟩
    have : contains "Unable to locate content on the network".toList "Content not found in local storage".toList = false := by
      decide +kernel
    simp only [rpcError, this]
    rfl
  · exact ⟨_, rfl, rfl⟩

/-! ### The hypotheses are met -/
namespace LookupExample

/-- The first peer names a third, which sends valid content over uTP. -/
def good : List Ev :=
  [.poll 1 nobody, .poll 2 nobody, .report 3 (node 1 4) (.enrs [node 3, node 2]), .poll 4 nobody,
    .report 5 (node 3) (.connectionId 8), .poll 6 nobody,
    .task 0 (.data [5]) ⟨none, fun _ => .canonicallyValid, true, some [([1], [2])], fun i => some (⟨i, 1, []⟩, 2^256), [true]⟩,
    .poll 7 nobody]

def answers (h : History) : List Out := h.flatMap Prod.snd

example : start ctx none true 0 [node 1, node 2] = .inr (state true [node 1, node 2]) := rfl

/-- It is asked, found, stored, gossiped and offered, and the trace is as it should be. -/
example : (run ctx (state true [node 1, node 2]) good).any (fun r =>
    decide (requested r.2 = [1#256, 2#256, 3#256]) &&
    (match answers r.2 with
      | [.request a, .request b, .request d, .put x, .propagate items, .offer to y, .answer (.found content utp (some t))] =>
        decide (a = node 1 ∧ b = node 2 ∧ d = node 3 ∧ x = [5] ∧ items = [([7], [5]), ([1], [2])] ∧ to = ⟨1#256, 1, []⟩ ∧
          y = [5] ∧ content = [5] ∧ utp = true ∧ t.receivedFrom = some 3#256 ∧ t.cancelled = [2#256] ∧
          t.responses 1#256 = some ⟨3, [3#256]⟩ ∧ t.responses 3#256 = some ⟨5, []⟩ ∧
          t.responses 99#256 = some ⟨0, [1#256, 2#256]⟩ ∧ t.metadata 1#256 = some ⟨node 1 4, 1⟩)
      | _ => false)) = true := by decide +kernel

/-- A failure that is handled in time. -/
example : (run ctx (state true [node 1, node 2]) (bad.dropLast ++ [.traceEvent 6, .poll 7 nobody])).any
    (fun r => endsWith (fun _ t => decide (t.failures 2#256 = some (6, .invalidContent))) r.2) = true := by decide +kernel

example : getContent true (.found [1] false none) = .error (.plain "Content query trace requested but none provided.".toList) := rfl

end LookupExample

end Verif.Props
