import Verif.Lemmas.CensusNetwork

/-! # Helper lemmas for the life of the census (C86): rounds, order, forgotten peers -/

namespace Verif.CensusNet
open Verif.Census Verif.Props.CensusLife

/-! ## One entry per node -/

/-- The node ids of the entries. -/
def State.ids (s : State) : List Id := s.entries.map (·.peer.nodeId)

theorem ids_put_nodup {s : State} (h : s.ids.Nodup) (e : Entry) : (s.put e).ids.Nodup := by
  unfold State.put State.ids
  rw [List.map_append, List.nodup_append]
  refine ⟨?_, by simp, ?_⟩
  · exact h.sublist (List.filter_sublist.map _)
  · intro a ha b hb
    simp only [List.mem_map, List.mem_filter] at ha
    obtain ⟨x, ⟨_, hx⟩, rfl⟩ := ha
    simp only [List.map_cons, List.map_nil, List.mem_singleton] at hb
    subst hb
    simpa using hx

theorem ids_drop_nodup {s : State} (h : s.ids.Nodup) (id : Id) : (s.drop id).ids.Nodup :=
  h.sublist (List.filter_sublist.map _)

theorem mem_ids_put {s : State} {e : Entry} {i : Id} (h : i ∈ (s.put e).ids) :
    i ∈ s.ids ∨ i = e.peer.nodeId := by
  unfold State.put State.ids at h
  rw [List.map_append, List.mem_append] at h
  rcases h with h | h
  · exact Or.inl ((List.filter_sublist.map _).subset h)
  · simp only [List.map_cons, List.map_nil, List.mem_singleton] at h
    exact Or.inr h

theorem mem_ids_drop {s : State} {a i : Id} (h : i ∈ (s.drop a).ids) : i ∈ s.ids :=
  (List.filter_sublist.map _).subset h

theorem mem_ids_iff (s : State) (id : Id) : id ∈ s.ids ↔ (s.get id).isSome := by
  unfold State.ids State.get
  rw [List.find?_isSome, List.mem_map]
  constructor
  · rintro ⟨e, he, rfl⟩; exact ⟨e, he, by simp⟩
  · rintro ⟨e, he, h⟩; exact ⟨e, he, by simpa using h⟩

/-- The entries have different ids, all of them from `dom`. -/
def Within (dom : Id → Prop) (s : State) : Prop := s.ids.Nodup ∧ ∀ i ∈ s.ids, dom i

theorem within_success {dom : Id → Prop} {s : State} (h : Within dom s) (enr : Enr)
    (hd : dom enr.id) (a b c : Nat) : Within dom (s.recordSuccess enr a b c) := by
  have e : (s.recordSuccess enr a b c).ids = (s.put (passEntry (s.get enr.id) enr a b c)).ids := rfl
  constructor
  · rw [e]; exact ids_put_nodup h.1 _
  · intro i hi
    rw [e] at hi
    rcases mem_ids_put hi with hi | hi
    · exact h.2 i hi
    · rw [passEntry_id] at hi; rw [hi]; exact hd

theorem within_put {dom : Id → Prop} {s : State} (h : Within dom s) {id : Id} {e e' : Entry}
    (hg : s.get id = some e) (he : e'.peer.nodeId = id) : Within dom (s.put e') := by
  refine ⟨ids_put_nodup h.1 _, ?_⟩
  intro i hi
  rcases mem_ids_put hi with hi | hi
  · exact h.2 i hi
  · rw [hi, he]
    exact h.2 id ((mem_ids_iff s id).mpr (by rw [hg]; rfl))

theorem within_failure {dom : Id → Prop} {s : State} (h : Within dom s) (id : Id) (n : Nat) :
    Within dom (s.recordFailure id n) := by
  unfold State.recordFailure
  cases hg : s.get id with
  | none => exact h
  | some e =>
    simp only
    split
    · exact ⟨ids_drop_nodup h.1 id, fun i hi => h.2 i (mem_ids_drop hi)⟩
    · exact within_put h hg (get_id hg : e.peer.nodeId = id)

theorem within_offer {dom : Id → Prop} {s : State} (h : Within dom s) (id : Id) (t : OfferTrace)
    (n : Nat) : Within dom (s.recordOffer id t n) := by
  unfold State.recordOffer
  cases hg : s.get id with
  | none => exact h
  | some e => exact within_put h hg (get_id hg : e.peer.nodeId = id)

theorem within_pinged {dom : Id → Prop} {s : State} (h : Within dom s) (enr : Enr) (c : Check)
    (hd : dom enr.id) : Within dom (pinged s enr c).1 := by
  rw [pinged_eq]
  cases hv : verdict ⟨enr, c⟩ with
  | passed r a b => exact within_success h r (by rw [verdict_id hv]; exact hd) _ _ _
  | failed => exact within_failure h _ _
  | odd => exact h

theorem within_check {dom : Id → Prop} {s : State} (h : Within dom s) (enr : Enr) (c : Check)
    (hd : dom enr.id) : Within dom (livenessCheck s enr c).1 := by
  unfold livenessCheck
  split
  · exact h
  · exact within_pinged h enr c hd

theorem within_checkAll {dom : Id → Prop} (probe : Enr → Check) (es : List Enr) :
    ∀ {s : State}, Within dom s → (∀ e ∈ es, dom e.id) → Within dom (checkAll s probe es).1 := by
  induction es with
  | nil => intro s h _; exact h
  | cons e es ih =>
    intro s h hd
    exact ih (within_check h e _ (hd e (by simp))) (fun x hx => hd x (by simp [hx]))

theorem within_new (dom : Id → Prop) : Within dom State.new := ⟨by simp [State.ids, State.new], by simp [State.ids, State.new]⟩

/-! ## One record per node -/

/-- The groups: different ids, each the newest of the records so far. -/
structure Groups (seen g : List Enr) : Prop where
  nodup : (g.map (·.id)).Nodup
  sub : ∀ e ∈ g, e ∈ seen
  cover : ∀ e ∈ seen, ∃ x ∈ g, x.id = e.id ∧ e.seq ≤ x.seq

theorem nodup_id_inj {g : List Enr} (h : (g.map (·.id)).Nodup) {a b : Enr} (ha : a ∈ g) (hb : b ∈ g)
    (hab : a.id = b.id) : a = b := by
  induction g with
  | nil => cases ha
  | cons x g ih =>
    simp only [List.map_cons, List.nodup_cons] at h
    rcases List.mem_cons.mp ha with rfl | ha' <;> rcases List.mem_cons.mp hb with rfl | hb'
    · rfl
    · exact absurd (List.mem_map.mpr ⟨b, hb', hab.symm⟩) h.1
    · exact absurd (List.mem_map.mpr ⟨a, ha', hab⟩) h.1
    · exact ih h.2 ha' hb'

theorem groups_add {seen g : List Enr} (h : Groups seen g) (e : Enr) :
    Groups (seen ++ [e]) (groupAdd g e) := by
  unfold groupAdd
  cases hf : g.find? (fun x => x.id == e.id) with
  | none =>
    simp only
    rw [List.find?_eq_none] at hf
    refine ⟨?_, ?_, ?_⟩
    · rw [List.map_append, List.nodup_append]
      refine ⟨h.nodup, by simp, ?_⟩
      intro a ha b hb
      simp only [List.mem_map] at ha
      obtain ⟨x, hx, rfl⟩ := ha
      simp only [List.map_cons, List.map_nil, List.mem_singleton] at hb
      subst hb
      have := hf x hx
      simpa using this
    · intro x hx
      rw [List.mem_append] at hx ⊢
      exact hx.imp (h.sub x) id
    · intro x hx
      rw [List.mem_append] at hx
      rcases hx with hx | hx
      · obtain ⟨y, hy, h1, h2⟩ := h.cover x hx
        exact ⟨y, by simp [hy], h1, h2⟩
      · simp only [List.mem_singleton] at hx
        subst hx
        exact ⟨x, by simp, rfl, Nat.le_refl _⟩
  | some y =>
    have hy := List.mem_of_find?_eq_some hf
    have hyid : y.id = e.id := by have := List.find?_some hf; simpa using this
    simp only
    split
    · rename_i hlt
      refine ⟨h.nodup, fun x hx => List.mem_append_left _ (h.sub x hx), ?_⟩
      intro x hx
      rw [List.mem_append] at hx
      rcases hx with hx | hx
      · exact h.cover x hx
      · simp only [List.mem_singleton] at hx
        subst hx
        exact ⟨y, hy, hyid, Nat.le_of_lt hlt⟩
    · rename_i hnl
      refine ⟨?_, ?_, ?_⟩
      · rw [List.map_append, List.nodup_append]
        refine ⟨h.nodup.sublist (List.filter_sublist.map _), by simp, ?_⟩
        intro a ha b hb
        simp only [List.mem_map, List.mem_filter] at ha
        obtain ⟨x, ⟨_, hx⟩, rfl⟩ := ha
        simp only [List.map_cons, List.map_nil, List.mem_singleton] at hb
        subst hb
        simpa using hx
      · intro x hx
        rw [List.mem_append] at hx ⊢
        exact hx.imp (fun hx => h.sub x (List.mem_filter.mp hx).1) id
      · intro x hx
        have last : ∀ x : Enr, x.id = e.id → x.seq ≤ e.seq →
            ∃ z ∈ g.filter (fun g => !(g.id == e.id)) ++ [e], z.id = x.id ∧ x.seq ≤ z.seq :=
          fun x h1 h2 => ⟨e, by simp, h1.symm, h2⟩
        rw [List.mem_append] at hx
        rcases hx with hx | hx
        · obtain ⟨z, hz, h1, h2⟩ := h.cover x hx
          by_cases hze : z.id = e.id
          · have hzy : z = y := nodup_id_inj h.nodup hz hy (hze.trans hyid.symm)
            subst hzy
            exact last x (h1.symm.trans hze) (by omega)
          · exact ⟨z, by simp [hz, hze], h1, h2⟩
        · simp only [List.mem_singleton] at hx
          subst hx
          exact last x rfl (Nat.le_refl _)

theorem groups_foldl (l : List Enr) : ∀ {seen g : List Enr}, Groups seen g →
    Groups (seen ++ l) (l.foldl groupAdd g) := by
  induction l with
  | nil => intro seen g h; simpa using h
  | cons e l ih =>
    intro seen g h
    have := ih (groups_add h e)
    simpa using this

theorem newest_groups (found : List (Option (List Enr))) :
    Groups ((found.filterMap id).flatten) (newest found) := by
  have h0 : Groups [] [] := ⟨by simp, by simp, by simp⟩
  have := groups_foldl ((found.filterMap id).flatten) h0
  simpa [newest] using this

theorem mem_found {found : List (Option (List Enr))} {e : Enr} :
    e ∈ (found.filterMap id).flatten ↔ ∃ l, some l ∈ found ∧ e ∈ l := by
  simp only [List.mem_flatten, List.mem_filterMap, id]
  constructor
  · rintro ⟨l, ⟨a, ha, rfl⟩, he⟩; exact ⟨l, ha, he⟩
  · rintro ⟨l, hl, he⟩; exact ⟨l, ⟨_, hl, rfl⟩, he⟩

/-! ## Order does not matter -/

theorem check_other (s : State) (enr : Enr) (c : Check) (id : Id) (h : enr.id ≠ id) :
    (livenessCheck s enr c).1.get id = s.get id ∧
      (livenessCheck s enr c).1.deadline id = s.deadline id := by
  unfold livenessCheck
  split
  · exact ⟨rfl, rfl⟩
  · exact pinged_other s enr c id h

theorem check_congr {s t : State} (enr : Enr) (c : Check)
    (hg : s.get enr.id = t.get enr.id) (hd : s.deadline enr.id = t.deadline enr.id) :
    (livenessCheck s enr c).1.get enr.id = (livenessCheck t enr c).1.get enr.id ∧
      (livenessCheck s enr c).1.deadline enr.id = (livenessCheck t enr c).1.deadline enr.id := by
  unfold livenessCheck
  have hf : s.isFresh enr.id c.start = t.isFresh enr.id c.start := by
    unfold State.isFresh; rw [hd]
  rw [hf]
  split
  · exact ⟨hg, hd⟩
  · simp only [pinged_eq]
    cases hv : verdict ⟨enr, c⟩ with
    | passed r cl ra =>
      have hr := verdict_id hv
      simp only at hr
      simp only [success_get, success_deadline, hr, if_true, hg, and_self]
    | failed => simp only [failure_get, failure_deadline, if_true, hg, and_self]
    | odd => exact ⟨hg, hd⟩

theorem checkAll_at (probe : Enr → Check) (id : Id) (es : List Enr) :
    ∀ s : State, (es.map (·.id)).Nodup →
      ((checkAll s probe es).1.get id, (checkAll s probe es).1.deadline id) =
        match es.find? (fun e => e.id == id) with
        | none => (s.get id, s.deadline id)
        | some e => ((livenessCheck s e (probe e)).1.get id,
            (livenessCheck s e (probe e)).1.deadline id) := by
  induction es with
  | nil => intro s _; rfl
  | cons e es ih =>
    intro s hn
    simp only [List.map_cons, List.nodup_cons] at hn
    simp only [checkAll]
    rw [ih _ hn.2]
    by_cases he : e.id = id
    · have hnone : es.find? (fun e => e.id == id) = none := by
        rw [List.find?_eq_none]
        intro x hx hxi
        exact hn.1 (List.mem_map.mpr ⟨x, hx, by rw [he]; simpa using hxi⟩)
      rw [hnone, List.find?_cons_of_pos (by simp [he])]
    · rw [List.find?_cons_of_neg (by simp [he])]
      obtain ⟨o1, o2⟩ := check_other s e (probe e) id he
      cases hf : es.find? (fun e => e.id == id) with
      | none => simp only [o1, o2]
      | some x =>
        have hx : x.id = id := by have := List.find?_some hf; simpa using this
        subst hx
        obtain ⟨c1, c2⟩ := check_congr x (probe x) o1 o2
        simp only [c1, c2]

theorem find_perm {es fs : List Enr} (h : es.Perm fs) (hn : (es.map (·.id)).Nodup) (id : Id) :
    es.find? (fun e => e.id == id) = fs.find? (fun e => e.id == id) := by
  induction h with
  | nil => rfl
  | cons x _ ih =>
    simp only [List.map_cons, List.nodup_cons] at hn
    simp only [List.find?_cons, ih hn.2]
  | swap x y l =>
    simp only [List.map_cons, List.nodup_cons, List.mem_cons, not_or] at hn
    by_cases h1 : x.id = id
    · have : y.id ≠ id := fun h2 => hn.1.1 (h2.trans h1.symm)
      simp [h1, this]
    · simp [List.find?_cons, h1]
  | trans p q ih1 ih2 =>
    rw [ih1 hn]
    exact ih2 ((p.map _).nodup_iff.mp hn)

/-! ## Forgotten peers -/

/-- The peer is there, with the same record, client type, radius and checks, and nothing is
scheduled for it. -/
def Lost (id : Id) (v : Enr × Nat × Nat × List LivenessCheck) (s : State) : Prop :=
  (∃ e, s.get id = some e ∧ (e.enr, e.peer.clientType, e.peer.radius, e.peer.livenessChecks) = v) ∧
    s.deadline id = none ∧ v.2.2.2.length ≤ 10

theorem lost_same {id : Id} {v : Enr × Nat × Nat × List LivenessCheck} {s t : State}
    (h : Lost id v s) (hg : t.get id = s.get id) (hd : t.deadline id = s.deadline id) :
    Lost id v t := by
  unfold Lost; rw [hg, hd]; exact h

theorem lost_checkAll {id : Id} {v : Enr × Nat × Nat × List LivenessCheck} (probe : Enr → Check)
    (es : List Enr) : ∀ {s : State}, Lost id v s → (∀ e ∈ es, e.id ≠ id) →
      Lost id v (checkAll s probe es).1 ∧ ∀ x ∈ (checkAll s probe es).2, x.enr.id ≠ id := by
  induction es with
  | nil => intro s h _; exact ⟨h, by simp [checkAll]⟩
  | cons e es ih =>
    intro s h hne
    have he := hne e (by simp)
    obtain ⟨o1, o2⟩ := check_other s e (probe e) id he
    obtain ⟨i1, i2⟩ := ih (lost_same h o1 o2) (fun x hx => hne x (by simp [hx]))
    refine ⟨i1, ?_⟩
    intro x hx
    simp only [checkAll, List.mem_append] at hx
    rcases hx with hx | hx
    · unfold livenessCheck at hx
      split at hx
      · simp at hx
      · simp only [List.mem_singleton] at hx; subst hx; exact he
    · exact i2 x hx

theorem lost_init {id : Id} {v : Enr × Nat × Nat × List LivenessCheck} (rs : List Round) :
    ∀ {s : State}, Lost id v s →
      (∀ r ∈ rs, ∀ l, some l ∈ r.found → ∀ e ∈ l, e.id ≠ id) →
      Lost id v (init s rs).1 ∧ ∀ x ∈ (init s rs).2.1, x.enr.id ≠ id := by
  induction rs with
  | nil => intro s h _; exact ⟨h, by simp [init]⟩
  | cons r rs ih =>
    intro s h hne
    have h1 := lost_checkAll (id := id) r.probe (newest r.found) h (by
      intro e he
      obtain ⟨l, hl, hel⟩ := mem_found.mp ((newest_groups r.found).sub e he)
      exact hne r (by simp) l hl e hel)
    have h1' : Lost id v (initRound s r).1 ∧ ∀ x ∈ (initRound s r).2, x.enr.id ≠ id := h1
    unfold init
    simp only
    split
    · exact h1'
    · obtain ⟨i1, i2⟩ := ih h1'.1 (fun r' hr' => hne r' (by simp [hr']))
      refine ⟨i1, ?_⟩
      intro x hx
      simp only [List.mem_append] at hx
      exact hx.elim (h1'.2 x) (i2 x)

theorem lost_step {id : Id} {v : Enr × Nat × Nat × List LivenessCheck} {s t : State}
    {l : List Exchange} (h : Lost id v s) (a : Action) (hu : Unmentioned id a)
    (hs : step s a = some (t, l)) : Lost id v t ∧ ∀ x ∈ l, x.enr.id ≠ id := by
  cases a with
  | reinit rounds =>
    simp only [step] at hs
    split at hs
    · cases hs; exact lost_init rounds h hu
    · cases hs
  | discovery found probe =>
    simp only [step, Option.some.injEq] at hs
    unfold discover at hs
    cases found with
    | none => cases hs; exact ⟨h, by simp⟩
    | some es =>
      have := lost_checkAll (id := id) probe es h (hu es rfl)
      simp only at hs
      rw [hs] at this
      exact this
  | check i c =>
    simp only [step] at hs
    unfold expire at hs
    split at hs
    · cases hs
    · rename_i d hd
      have hii : i ≠ id := by
        intro e; rw [e, h.2.1] at hd; cases hd
      split at hs
      · split at hs
        · cases hs
          exact ⟨lost_same h rfl (by rw [deadline_unschedule, if_neg hii]), by simp⟩
        · rename_i e hg
          have henr : e.enr.id = i := get_id hg
          have hnf : (s.unschedule i).isFresh e.enr.id c.start = false := by
            unfold State.isFresh
            rw [henr, deadline_unschedule, if_pos rfl]
          simp only [livenessCheck, hnf, Bool.false_eq_true, if_false, Option.some.injEq] at hs
          cases hs
          obtain ⟨o1, o2⟩ := pinged_other (s.unschedule i) e.enr c id (by rw [henr]; exact hii)
          refine ⟨lost_same h o1 (o2.trans (by rw [deadline_unschedule, if_neg hii])), ?_⟩
          intro x hx
          simp only [List.mem_singleton] at hx
          subst hx
          simp only [henr]
          exact hii
      · cases hs
  | offer i tr now =>
    simp only [step, Option.some.injEq] at hs
    cases hs
    refine ⟨?_, by simp⟩
    obtain ⟨⟨e, he, hv⟩, hd, hl⟩ := h
    refine ⟨?_, by simpa using hd, hl⟩
    rw [offer_get]
    split
    · rename_i hi
      subst hi
      rw [he]
      refine ⟨_, rfl, ?_⟩
      rw [← hv]
      have hc : (e.peer.recordOffer tr now).livenessChecks = e.peer.livenessChecks := by
        simp only [Peer.recordOffer]
        rw [purge_checks]
        exact List.take_of_length_le (by rw [← hv] at hl; exact hl)
      simp only [hc]
      rfl
    · exact ⟨e, he, hv⟩

theorem lost_run {id : Id} {v : Enr × Nat × Nat × List LivenessCheck} (as : List Action) :
    ∀ {s t : State} {l : List Exchange}, Lost id v s → (∀ a ∈ as, Unmentioned id a) →
      run s as = some (t, l) → Lost id v t ∧ ∀ x ∈ l, x.enr.id ≠ id := by
  induction as with
  | nil => intro s t l h _ hr; simp only [run] at hr; cases hr; exact ⟨h, by simp⟩
  | cons a as ih =>
    intro s t l h hu hr
    simp only [run] at hr
    split at hr
    · cases hr
    · rename_i r hs
      split at hr
      · cases hr
      · rename_i u hrun
        cases hr
        obtain ⟨s1, s2⟩ := lost_step h a (hu a (by simp)) hs
        obtain ⟨i1, i2⟩ := ih s1 (fun b hb => hu b (by simp [hb])) hrun
        refine ⟨i1, ?_⟩
        intro x hx
        rw [List.mem_append] at hx
        exact hx.elim (s2 x) (i2 x)

/-! ## The rounds of `init` -/

theorem initStops_iff (s t : State) :
    initStops s.entries.length t.entries.length = true ↔ FewNew s t := by
  unfold initStops FewNew
  simp only [decide_eq_true_eq]
  omega

end Verif.CensusNet
