import Verif.Props.CensusNetworkSpec

/-! # Helper lemmas for the life of the census (C86) -/

namespace Verif.CensusNet
open Verif.Census Verif.Props.CensusLife

/-! ## Maps -/

theorem find_filter_ne {α} (k : α → Id) (l : List α) (a id : Id) :
    (l.filter (fun x => !(k x == a))).find? (fun x => k x == id) =
      if a = id then none else l.find? (fun x => k x == id) := by
  induction l with
  | nil => simp
  | cons x l ih =>
    by_cases hx : k x = a
    · simp only [List.filter_cons, hx, BEq.rfl, Bool.not_true, Bool.false_eq_true, if_false, ih]
      split
      · rfl
      · rename_i h
        rw [List.find?_cons_of_neg]
        simp [hx, h]
    · have : (!(k x == a)) = true := by simp [hx]
      simp only [List.filter_cons, this, if_true]
      by_cases h2 : k x = id
      · have h3 : a ≠ id := fun h => hx (h2.trans h.symm)
        simp [List.find?_cons, h2, h3]
      · rw [List.find?_cons_of_neg (by simp [h2]), ih, List.find?_cons_of_neg (by simp [h2])]

theorem get_put (s : State) (e : Entry) (id : Id) :
    (s.put e).get id = if e.peer.nodeId = id then some e else s.get id := by
  unfold State.put State.get
  simp only [List.find?_append]
  rw [find_filter_ne (fun x : Entry => x.peer.nodeId)]
  by_cases h : e.peer.nodeId = id
  · simp [h]
  · simp [h]

theorem get_drop (s : State) (a id : Id) :
    (s.drop a).get id = if a = id then none else s.get id := by
  unfold State.drop State.get
  exact find_filter_ne (fun x : Entry => x.peer.nodeId) _ _ _

theorem deadline_schedule (s : State) (a id : Id) (now : Nat) :
    (s.schedule a now).deadline id =
      if a = id then some (now + livenessCheckDelay) else s.deadline id := by
  unfold State.schedule State.deadline
  simp only [List.find?_append]
  rw [find_filter_ne (fun x : Id × Nat => x.1)]
  by_cases h : a = id
  · simp [h]
  · simp [h]

theorem deadline_unschedule (s : State) (a id : Id) :
    (s.unschedule a).deadline id = if a = id then none else s.deadline id := by
  unfold State.unschedule State.deadline
  rw [find_filter_ne (fun x : Id × Nat => x.1)]
  split <;> simp

@[simp] theorem deadline_put (s : State) (e : Entry) (id : Id) :
    (s.put e).deadline id = s.deadline id := rfl
@[simp] theorem deadline_drop (s : State) (a id : Id) :
    (s.drop a).deadline id = s.deadline id := rfl
@[simp] theorem get_schedule (s : State) (a id : Id) (n : Nat) :
    (s.schedule a n).get id = s.get id := rfl
@[simp] theorem get_unschedule (s : State) (a id : Id) :
    (s.unschedule a).get id = s.get id := rfl

theorem get_id {s : State} {id : Id} {e : Entry} (h : s.get id = some e) : e.peer.nodeId = id := by
  have := List.find?_some h
  simpa using this

@[simp] theorem recordSuccess_id (p : Peer) (a b c d : Nat) :
    (p.recordSuccess a b c d).nodeId = p.nodeId := rfl
@[simp] theorem recordFailure_id (p : Peer) (a : Nat) : (p.recordFailure a).nodeId = p.nodeId := rfl
@[simp] theorem recordOffer_id (p : Peer) (t : OfferTrace) (a : Nat) :
    (p.recordOffer t a).nodeId = p.nodeId := rfl

/-! ## What a record does to one node -/

/-- The entry after a passed check. -/
def passEntry (old : Option Entry) (enr : Enr) (client radius now : Nat) : Entry :=
  ⟨if (old.getD ⟨enr.rest, Peer.new enr.id enr.seq⟩).peer.seq > enr.seq then
      (old.getD ⟨enr.rest, Peer.new enr.id enr.seq⟩).rest else enr.rest,
    (old.getD ⟨enr.rest, Peer.new enr.id enr.seq⟩).peer.recordSuccess enr.seq client radius now⟩

theorem passEntry_id (s : State) (enr : Enr) (client radius now : Nat) :
    (passEntry (s.get enr.id) enr client radius now).peer.nodeId = enr.id := by
  unfold passEntry
  cases h : s.get enr.id with
  | none => rfl
  | some e => exact (get_id h : e.peer.nodeId = enr.id)

theorem success_get (s : State) (enr : Enr) (client radius now : Nat) (id : Id) :
    (s.recordSuccess enr client radius now).get id =
      if enr.id = id then some (passEntry (s.get enr.id) enr client radius now) else s.get id := by
  have h := get_put s (passEntry (s.get enr.id) enr client radius now) id
  rw [passEntry_id] at h
  exact h

theorem success_deadline (s : State) (enr : Enr) (client radius now : Nat) (id : Id) :
    (s.recordSuccess enr client radius now).deadline id =
      if enr.id = id then some (now + livenessCheckDelay) else s.deadline id :=
  deadline_schedule _ _ _ _

/-- The entry after a failed check. -/
def failEntry (old : Option Entry) (now : Nat) : Option Entry :=
  match old with
  | none => none
  | some e =>
    if (e.peer.recordFailure now).isObsolete then none
    else some { e with peer := e.peer.recordFailure now }

theorem failure_get (s : State) (a : Id) (now : Nat) (id : Id) :
    (s.recordFailure a now).get id =
      if a = id then failEntry (s.get a) now else s.get id := by
  unfold State.recordFailure failEntry
  cases h : s.get a with
  | none =>
    simp only [get_unschedule]
    split
    · rename_i e; rw [← e, h]
    · rfl
  | some e =>
    have hid := get_id h
    simp only
    split
    · simp only [get_unschedule, get_drop]
    · simp only [get_schedule, get_put, recordFailure_id, hid]

theorem failure_deadline (s : State) (a : Id) (now : Nat) (id : Id) :
    (s.recordFailure a now).deadline id =
      if a = id then (failEntry (s.get a) now).map (fun _ => now + livenessCheckDelay)
      else s.deadline id := by
  unfold State.recordFailure failEntry
  cases h : s.get a with
  | none => simp only [deadline_unschedule]; split <;> simp
  | some e =>
    simp only
    split
    · simp only [deadline_unschedule, deadline_drop]; split <;> simp
    · simp only [deadline_schedule, deadline_put]; split <;> simp

theorem offer_get (s : State) (a : Id) (t : OfferTrace) (now : Nat) (id : Id) :
    (s.recordOffer a t now).get id =
      if a = id then (s.get a).map (fun e => { e with peer := e.peer.recordOffer t now })
      else s.get id := by
  unfold State.recordOffer
  cases h : s.get a with
  | none =>
    simp only
    split
    · rename_i e; rw [← e, h]; rfl
    · rfl
  | some e =>
    simp only [get_put, recordOffer_id, get_id h]
    split <;> simp

@[simp] theorem offer_deadline (s : State) (a : Id) (t : OfferTrace) (now : Nat) (id : Id) :
    (s.recordOffer a t now).deadline id = s.deadline id := by
  unfold State.recordOffer
  split <;> rfl

/-! ## Verdicts -/

theorem newerEnr_id {enr e : Enr} {p : Pong} {n : Option (List Enr)}
    (h : newerEnr enr p n = some e) : e.id = enr.id := by
  unfold newerEnr fetchEnr at h
  split at h
  · split at h
    · cases h
    · have := List.find?_some h; simpa using this
  · cases h; rfl

theorem pinged_eq (s : State) (enr : Enr) (c : Check) :
    (pinged s enr c).1 =
      match verdict ⟨enr, c⟩ with
      | .passed r client radius => s.recordSuccess r client radius c.done
      | .failed => s.recordFailure enr.id c.done
      | .odd => s := by
  unfold pinged verdict answered newerEnr fetchEnr
  simp only
  cases hp : c.reply.pong with
  | none => rfl
  | some p =>
    obtain ⟨q, caps⟩ := p
    cases caps with
    | none => rfl
    | some cr =>
      obtain ⟨client, radius⟩ := cr
      simp only
      by_cases hq : enr.seq < q
      · have hq' : ¬ q ≤ enr.seq := by omega
        simp only [hq, hq', if_true, if_false]
        cases hn : c.reply.nodes with
        | none => rfl
        | some l =>
          simp only [Option.getD_some]
          have : (fun e : Enr => e.id == enr.id) = (fun e : Enr => decide (e.id = enr.id)) := by
            funext e; rfl
          rw [this]
          cases hf : l.find? (fun e => decide (e.id = enr.id)) <;> rfl
      · have hq' : q ≤ enr.seq := by omega
        simp only [hq, hq', if_true, if_false]

theorem verdict_id {x : Exchange} {r : Enr} {client radius : Nat}
    (h : verdict x = .passed r client radius) : r.id = x.enr.id := by
  unfold verdict at h
  split at h
  · cases h
  · cases h
  · split at h
    · cases h; rfl
    · split at h
      · rename_i hf
        cases h
        have := List.find?_some hf
        simpa using this
      · cases h

theorem pinged_other (s : State) (enr : Enr) (c : Check) (id : Id) (h : enr.id ≠ id) :
    (pinged s enr c).1.get id = s.get id ∧ (pinged s enr c).1.deadline id = s.deadline id := by
  rw [pinged_eq]
  cases hv : verdict ⟨enr, c⟩ with
  | passed r cl ra =>
    have hr : r.id ≠ id := by rw [verdict_id hv]; exact h
    simp [success_get, success_deadline, hr]
  | failed => simp [failure_get, failure_deadline, h]
  | odd => simp

/-! ## The invariant -/

/-- What the view says about a node. -/
def look (e : Entry) : Enr × Nat × Nat × List Bool :=
  (e.enr, e.peer.clientType, e.peer.radius, e.peer.livenessChecks.map (·.success))

/-- What the exchanges say about a node. -/
def lookKnown (k : Known) : Enr × Nat × Nat × List Bool :=
  (k.record, k.client, k.radius, k.results.take 10)

structure Inv (s : State) (log : List Exchange) : Prop where
  view : ∀ id, (s.get id).map look = (known id log).map lookKnown
  due : ∀ id d, s.deadline id = some d →
    ∃ k, known id log = some k ∧ d = k.last + livenessCheckDelay
  scheduled : ∀ id, NoOdd id log → ∀ k, known id log = some k →
    s.deadline id = some (k.last + livenessCheckDelay)
  gap : ∀ a x b, log = a ++ x :: b → NoOdd x.enr.id a → ∀ k, known x.enr.id a = some k →
    k.last + livenessCheckDelay ≤ x.check.start

theorem inv_new : Inv State.new [] where
  view := fun _ => rfl
  due := fun _ _ h => by cases h
  scheduled := fun _ _ _ h => by cases h
  gap := fun a x b h => by simp at h

theorem known_snoc (id : Id) (log : List Exchange) (x : Exchange) :
    known id (log ++ [x]) =
      if x.enr.id = id then learn (known id log) x else known id log := by
  unfold known
  by_cases h : x.enr.id = id <;> simp [List.filter_append, List.foldl_append, h]

theorem givenUp_iff (l : List Bool) (r : Bool) :
    givenUp (r :: l) = (decide (10 ≤ (r :: l.take 10).length) && ((r :: l.take 10).take 10).all (!·)) := by
  unfold givenUp
  rw [Bool.eq_iff_iff]
  simp only [beq_iff_eq, Bool.and_eq_true, decide_eq_true_eq, List.length_cons, List.length_take]
  constructor
  · intro h
    have hl := congrArg List.length h
    simp only [List.length_take, List.length_cons, List.length_replicate] at hl
    refine ⟨by omega, ?_⟩
    have h2 : (r :: l.take 10).take 10 = (r :: l).take 10 := by
      simp [List.take_succ_cons, List.take_take]
    rw [h2, h]; rfl
  · rintro ⟨hl, ha⟩
    have h2 : (r :: l.take 10).take 10 = (r :: l).take 10 := by
      simp [List.take_succ_cons, List.take_take]
    rw [h2] at ha
    rw [List.eq_replicate_iff]
    refine ⟨by simp only [List.length_take, List.length_cons]; omega, ?_⟩
    intro b hb
    have := List.all_eq_true.mp ha b hb
    simpa using this

theorem learn_passed {k : Option Known} {x : Exchange} {r : Enr} {cl ra : Nat}
    (h : verdict x = .passed r cl ra) :
    learn k x = some ⟨newer k r, cl, ra, true :: past k, x.check.done⟩ := by
  unfold learn; rw [h]

theorem learn_failed {k : Option Known} {x : Exchange} (h : verdict x = .failed) :
    learn k x = match k with
      | none => none
      | some old =>
        if givenUp (false :: old.results) then none
        else some { old with results := false :: old.results, last := x.check.done } := by
  unfold learn; rw [h]; cases k <;> rfl

theorem learn_odd {k : Option Known} {x : Exchange} (h : verdict x = .odd) : learn k x = k := by
  unfold learn; rw [h]

theorem purge_checks (p : Peer) : p.purge.livenessChecks = p.livenessChecks.take 10 := by
  unfold Peer.purge
  simp only
  split
  · rfl
  · rename_i h
    rw [List.take_of_length_le (by simpa using h)]

theorem take_cons_take {α} (a : α) (l : List α) : (a :: l.take 10).take 10 = (a :: l).take 10 := by
  simp [List.take_succ_cons, List.take_take]

theorem look_pass {g : Option Entry} {k : Option Known} {r : Enr} {cl ra now : Nat}
    (hg : ∀ e, g = some e → e.peer.nodeId = r.id)
    (h : g.map look = k.map lookKnown) :
    look (passEntry g r cl ra now) = lookKnown ⟨newer k r, cl, ra, true :: past k, now⟩ := by
  cases g with
  | none =>
    cases k with
    | some k => simp at h
    | none =>
      simp [passEntry, look, lookKnown, newer, past, Entry.enr, Peer.recordSuccess, Peer.new, Peer.purge]
  | some e =>
    cases k with
    | none => simp at h
    | some k =>
      have hid := hg e rfl
      simp only [Option.map_some, Option.some.injEq, look, lookKnown, Prod.mk.injEq] at h
      obtain ⟨h1, h2, h3, h4⟩ := h
      have hs : k.record.seq = e.peer.seq := by rw [← h1]; rfl
      simp only [look, lookKnown, newer, past, Prod.mk.injEq]
      refine ⟨?_, rfl, rfl, ?_⟩
      · simp only [passEntry, Option.getD_some, Entry.enr, hs]
        by_cases hlt : r.seq < e.peer.seq
        · simp only [hlt, if_true]
          rw [← h1]
          simp [Entry.enr, Peer.recordSuccess, Peer.purge, hlt]
        · simp only [hlt, if_false]
          have : (e.peer.recordSuccess r.seq cl ra now).seq = r.seq := by
            simp [Peer.recordSuccess, Peer.purge, hlt]
          rw [this]
          simp only [recordSuccess_id, hid, gt_iff_lt, hlt, if_false]
      · have : (passEntry (some e) r cl ra now).peer.livenessChecks =
            ((⟨true, now⟩ : LivenessCheck) :: e.peer.livenessChecks).take 10 := by
          simp only [passEntry, Option.getD_some, Peer.recordSuccess]
          rw [purge_checks]
        rw [this, List.map_take, List.map_cons, h4, take_cons_take]

theorem look_fail {g : Option Entry} {k : Option Known} {now : Nat}
    (h : g.map look = k.map lookKnown) :
    (failEntry g now).map look = (match k with
      | none => none
      | some old =>
        if givenUp (false :: old.results) then none
        else some { old with results := false :: old.results, last := now }).map lookKnown := by
  cases g with
  | none =>
    cases k with
    | some k => simp at h
    | none => rfl
  | some e =>
    cases k with
    | none => simp at h
    | some k =>
      simp only [Option.map_some, Option.some.injEq, look, lookKnown, Prod.mk.injEq] at h
      obtain ⟨h1, h2, h3, h4⟩ := h
      have hc : (e.peer.recordFailure now).livenessChecks =
          ((⟨false, now⟩ : LivenessCheck) :: e.peer.livenessChecks).take 10 := by
        simp only [Peer.recordFailure]; rw [purge_checks]
      have hm : (e.peer.recordFailure now).livenessChecks.map (·.success) =
          (false :: k.results).take 10 := by
        rw [hc, List.map_take, List.map_cons, h4, take_cons_take]
      have hob : (e.peer.recordFailure now).isObsolete = givenUp (false :: k.results) := by
        have hlen : (e.peer.recordFailure now).livenessChecks.length =
            ((false :: k.results).take 10).length := by rw [← hm, List.length_map]
        have hall : (e.peer.recordFailure now).livenessChecks.all (fun c => !c.success) =
            ((false :: k.results).take 10).all (!·) := by
          rw [← hm, List.all_map]; rfl
        unfold Peer.isObsolete
        rw [givenUp_iff, hall, hlen, take_cons_take]
        simp only [List.length_take, List.length_cons]
        by_cases hl : 10 ≤ k.results.length + 1
        · have a1 : ¬ (min 10 (k.results.length + 1) < maxLivenessChecks) := by
            simp only [maxLivenessChecks]; omega
          have a2 : decide (10 ≤ min 10 k.results.length + 1) = true := by
            simp; omega
          simp only [a1, if_false, a2, Bool.true_and]
        · have a1 : min 10 (k.results.length + 1) < maxLivenessChecks := by
            simp only [maxLivenessChecks]; omega
          have a2 : decide (10 ≤ min 10 k.results.length + 1) = false := by
            simp; omega
          simp only [a1, if_true, a2, Bool.false_and]
      simp only [failEntry, hob]
      split
      · rfl
      · simp only [Option.map_some, Option.some.injEq, look, lookKnown, Prod.mk.injEq]
        exact ⟨h1, h2, h3, hm⟩

theorem noOdd_left {id : Id} {a b : List Exchange} (h : NoOdd id (a ++ b)) : NoOdd id a :=
  fun x hx => h x (List.mem_append_left _ hx)

theorem inv_ping {s s0 : State} {log : List Exchange} (h : Inv s log) (enr : Enr) (c : Check)
    (hg : ∀ id, s0.get id = s.get id)
    (hd : ∀ id, enr.id ≠ id → s0.deadline id = s.deadline id)
    (hd0 : s0.deadline enr.id = s.deadline enr.id ∨ s0.deadline enr.id = none)
    (hf : s.isFresh enr.id c.start = false) :
    Inv (pinged s0 enr c).1 (log ++ [⟨enr, c⟩]) := by
  have other : ∀ id, enr.id ≠ id → (pinged s0 enr c).1.get id = s.get id ∧
      (pinged s0 enr c).1.deadline id = s.deadline id ∧
      known id (log ++ [⟨enr, c⟩]) = known id log := by
    intro id hne
    obtain ⟨o1, o2⟩ := pinged_other s0 enr c id hne
    refine ⟨o1.trans (hg id), o2.trans (hd id hne), ?_⟩
    rw [known_snoc]; simp [hne]
  have hk : known enr.id (log ++ [⟨enr, c⟩]) = learn (known enr.id log) ⟨enr, c⟩ := by
    rw [known_snoc]; simp
  constructor
  · intro id
    by_cases hne : enr.id = id
    · subst hne
      rw [hk, pinged_eq]
      cases hv : verdict ⟨enr, c⟩ with
      | passed r cl ra =>
        have hr := verdict_id hv
        simp only at hr
        rw [learn_passed hv, success_get, if_pos hr, hr, hg]
        simp only [Option.map_some, Option.some.injEq]
        exact look_pass (fun e he => by rw [hr]; exact get_id he) (h.view _)
      | failed =>
        rw [learn_failed hv, failure_get, if_pos rfl, hg]
        exact look_fail (h.view _)
      | odd =>
        rw [learn_odd hv, hg]
        exact h.view _
    · obtain ⟨o1, _, o3⟩ := other id hne
      rw [o1, o3]; exact h.view id
  · intro id d hdd
    by_cases hne : enr.id = id
    · subst hne
      rw [hk]
      rw [pinged_eq] at hdd
      cases hv : verdict ⟨enr, c⟩ with
      | passed r cl ra =>
        have hr := verdict_id hv
        simp only at hr
        rw [hv] at hdd
        simp only [success_deadline, hr, if_true, Option.some.injEq] at hdd
        rw [learn_passed hv]
        exact ⟨_, rfl, hdd.symm⟩
      | failed =>
        rw [hv] at hdd
        simp only [failure_deadline, if_true, hg] at hdd
        have hl := look_fail (now := c.done) (h.view enr.id)
        rw [learn_failed hv]
        cases hfe : failEntry (s.get enr.id) c.done with
        | none => rw [hfe] at hdd; simp at hdd
        | some e =>
          rw [hfe] at hdd hl
          simp only [Option.map_some, Option.some.injEq] at hdd
          cases hkn : known enr.id log with
          | none => rw [hkn] at hl; simp at hl
          | some k =>
            rw [hkn] at hl
            simp only at hl ⊢
            split
            · rename_i hgu; rw [if_pos hgu] at hl; simp at hl
            · exact ⟨_, rfl, hdd.symm⟩
      | odd =>
        rw [hv] at hdd
        rw [learn_odd hv]
        rcases hd0 with e | e
        · exact h.due _ _ (e ▸ hdd)
        · simp only [e] at hdd; cases hdd
    · obtain ⟨_, o2, o3⟩ := other id hne
      rw [o2] at hdd
      rw [o3]
      exact h.due id d hdd
  · intro id hno k hkn
    by_cases hne : enr.id = id
    · subst hne
      rw [hk] at hkn
      rw [pinged_eq]
      cases hv : verdict ⟨enr, c⟩ with
      | passed r cl ra =>
        have hr := verdict_id hv
        simp only at hr
        rw [learn_passed hv] at hkn
        cases hkn
        simp only [success_deadline, hr, if_true]
      | failed =>
        rw [learn_failed hv] at hkn
        have hl := look_fail (now := c.done) (h.view enr.id)
        simp only [failure_deadline, if_true, hg]
        cases hkn0 : known enr.id log with
        | none => rw [hkn0] at hkn; cases hkn
        | some k0 =>
          rw [hkn0] at hkn hl
          simp only at hkn hl
          split at hkn
          · cases hkn
          · rename_i hgu
            rw [if_neg hgu] at hl
            cases hkn
            cases hfe : failEntry (s.get enr.id) c.done with
            | none => rw [hfe] at hl; simp at hl
            | some e => rfl
      | odd =>
        exact absurd hv (hno _ (by simp) rfl)
    · obtain ⟨_, o2, o3⟩ := other id hne
      rw [o2]
      rw [o3] at hkn
      exact h.scheduled id (noOdd_left hno) k hkn
  · intro a x b hab hno k hkn
    rcases List.eq_nil_or_concat b with rfl | ⟨b', y, rfl⟩
    · have e := List.append_inj' hab rfl
      obtain ⟨e1, e2⟩ := e
      subst e1
      have e3 : (⟨enr, c⟩ : Exchange) = x := by simpa using e2
      subst e3
      have hs := h.scheduled enr.id hno k hkn
      unfold State.isFresh at hf
      rw [hs] at hf
      simp only [decide_eq_false_iff_not] at hf
      simp only
      omega
    · have hab' : log ++ [⟨enr, c⟩] = (a ++ x :: b') ++ [y] := by rw [hab]; simp
      have e := List.append_inj' hab' rfl
      exact h.gap a x b' e.1 hno k hkn

theorem inv_check {s : State} {log : List Exchange} (h : Inv s log) (enr : Enr) (c : Check) :
    Inv (livenessCheck s enr c).1 (log ++ (livenessCheck s enr c).2.2) := by
  unfold livenessCheck
  split
  · simpa using h
  · rename_i hf
    exact inv_ping h enr c (fun _ => rfl) (fun _ _ => rfl) (Or.inl rfl) (by simpa using hf)

theorem inv_checkAll (probe : Enr → Check) (es : List Enr) :
    ∀ {s : State} {log : List Exchange}, Inv s log →
      Inv (checkAll s probe es).1 (log ++ (checkAll s probe es).2) := by
  induction es with
  | nil => intro s log h; simpa [checkAll] using h
  | cons e es ih =>
    intro s log h
    have := ih (inv_check h e (probe e))
    simpa [checkAll, List.append_assoc] using this

theorem inv_init (rs : List Round) :
    ∀ {s : State} {log : List Exchange}, Inv s log →
      Inv (init s rs).1 (log ++ (init s rs).2.1) := by
  induction rs with
  | nil => intro s log h; simpa [init] using h
  | cons r rs ih =>
    intro s log h
    have h1 : Inv (initRound s r).1 (log ++ (initRound s r).2) := inv_checkAll _ _ h
    unfold init
    simp only
    split
    · exact h1
    · have := ih h1
      simpa [List.append_assoc] using this

theorem inv_offer {s : State} {log : List Exchange} (h : Inv s log) (id : Id) (t : OfferTrace)
    (now : Nat) : Inv (s.recordOffer id t now) log := by
  constructor
  · intro i
    rw [← h.view i, offer_get]
    split
    · rename_i e; subst e
      cases hg : s.get id with
      | none => rfl
      | some e =>
        simp only [Option.map_some, Option.some.injEq, look, Prod.mk.injEq]
        refine ⟨rfl, rfl, rfl, ?_⟩
        simp only [Peer.recordOffer, purge_checks]
        have hl := h.view id
        rw [hg] at hl
        cases hk : known id log with
        | none => rw [hk] at hl; simp at hl
        | some k =>
          rw [hk] at hl
          simp only [Option.map_some, Option.some.injEq, look, lookKnown, Prod.mk.injEq] at hl
          rw [List.map_take, hl.2.2.2, List.take_take]
          simp
    · rfl
  · intro i d hd; exact h.due i d (by simpa using hd)
  · intro i hn k hk; simpa using h.scheduled i hn k hk
  · exact h.gap

theorem inv_step {s t : State} {log l : List Exchange} (h : Inv s log) (a : Action)
    (hs : step s a = some (t, l)) : Inv t (log ++ l) := by
  cases a with
  | reinit rounds =>
    simp only [step] at hs
    split at hs
    · cases hs; exact inv_init rounds h
    · cases hs
  | discovery found probe =>
    simp only [step, Option.some.injEq] at hs
    unfold discover at hs
    split at hs
    · cases hs; simpa using h
    · have := inv_checkAll probe (by assumption) h
      rw [hs] at this
      exact this
  | check id c =>
    simp only [step] at hs
    unfold expire at hs
    split at hs
    · cases hs
    · rename_i d hd
      split at hs
      · rename_i hle
        split at hs
        · rename_i hg
          cases hs
          obtain ⟨k, hk, _⟩ := h.due id d hd
          have := h.view id
          rw [hg, hk] at this
          simp at this
        · rename_i e hg
          have hid := get_id hg
          have henr : e.enr.id = id := hid
          have hnf : (s.unschedule id).isFresh e.enr.id c.start = false := by
            unfold State.isFresh
            rw [henr, deadline_unschedule, if_pos rfl]
          have hsf : s.isFresh e.enr.id c.start = false := by
            unfold State.isFresh
            rw [henr, hd]
            simp; omega
          simp only [livenessCheck, hnf, Bool.false_eq_true, if_false, Option.some.injEq] at hs
          cases hs
          exact inv_ping h e.enr c (fun _ => rfl)
            (fun i hi => by rw [deadline_unschedule, if_neg (by rw [← henr]; exact hi)])
            (Or.inr (by rw [henr, deadline_unschedule, if_pos rfl])) hsf
      · cases hs
  | offer id t' now =>
    simp only [step, Option.some.injEq] at hs
    cases hs
    simpa using inv_offer h id t' now

theorem inv_run (as : List Action) :
    ∀ {s t : State} {log l : List Exchange}, Inv s log → run s as = some (t, l) →
      Inv t (log ++ l) := by
  induction as with
  | nil => intro s t log l h hr; simp only [run] at hr; cases hr; simpa using h
  | cons a as ih =>
    intro s t log l h hr
    simp only [run] at hr
    split at hr
    · cases hr
    · rename_i r hs
      split at hr
      · cases hr
      · rename_i u hu
        cases hr
        have := ih (inv_step h a hs) hu
        simpa [List.append_assoc] using this

theorem inv_life {rounds : List Round} {actions : List Action} {s : State} {log : List Exchange}
    (h : life rounds actions = some (s, log)) : Inv s log := by
  unfold life at h
  simp only at h
  have h0 : Inv (init State.new rounds).1 (init State.new rounds).2.1 := by
    simpa using inv_init rounds inv_new
  split at h
  · split at h
    · cases h
    · rename_i hr
      cases h
      exact inv_run actions h0 hr
  · split at h
    · cases h; exact h0
    · cases h

end Verif.CensusNet
