import Verif.Lemmas.CensusNetwork2

/-! # Helper lemmas for the life of the census (C86): what is known, and who is in the view -/

namespace Verif.CensusNet
open Verif.Census Verif.Props.CensusLife

/-- What `known` rests on: a last exchange in which the node passed, and fewer than ten failed ones
since. -/
theorem known_last (id : Id) (log : List Exchange) (k : Known) (h : known id log = some k) :
    ∃ a x b r n, log = a ++ x :: b ∧ x.enr.id = id ∧ verdict x = .passed r k.client k.radius ∧
      (∀ y ∈ b, y.enr.id = id → ∀ r' c' d', verdict y ≠ .passed r' c' d') ∧
      n < 10 ∧ k.results = List.replicate n false ++ true :: past (known id a) ∧
      k.record = newer (known id a) r ∧
      (b.filter (fun y => decide (y.enr.id = id) &&
        isFailed y)).length = n := by
  generalize hn : log.length = n
  induction n generalizing log k with
  | zero =>
    have : log = [] := List.length_eq_zero_iff.mp hn
    subst this
    cases h
  | succ n ih =>
    rcases List.eq_nil_or_concat log with e | ⟨l, x, e⟩
    · subst e; simp at hn
    · have hll : l.length = n := by rw [e] at hn; simp at hn; exact hn
      rw [List.concat_eq_append] at e
      subst e
      rw [known_snoc] at h
      by_cases hx : x.enr.id = id
      · rw [if_pos hx] at h
        cases hv : verdict x with
        | passed r c d =>
          rw [learn_passed hv] at h
          cases h
          exact ⟨l, x, [], r, 0, rfl, hx, hv, by simp, by omega, by simp, rfl, by simp⟩
        | failed =>
          rw [learn_failed hv] at h
          cases hk : known id l with
          | none => rw [hk] at h; cases h
          | some old =>
            rw [hk] at h
            simp only at h
            split at h
            · cases h
            · rename_i hgu
              cases h
              obtain ⟨a, y, b, r, m, e1, e2, e3, e4, e5, e6, e7, e8⟩ := ih l old hk hll
              refine ⟨a, y, b ++ [x], r, m + 1, by simp [e1], e2, e3, ?_, ?_, ?_, e7, ?_⟩
              · intro z hz hzi r' c' d'
                rw [List.mem_append, List.mem_singleton] at hz
                rcases hz with hz | hz
                · exact e4 z hz hzi r' c' d'
                · subst hz; rw [hv]; intro hc; cases hc
              · by_cases hm : m + 1 < 10
                · exact hm
                · exfalso
                  apply hgu
                  have : m = 9 := by omega
                  subst this
                  simp [e6, givenUp, List.replicate]
              · simp [e6, List.replicate_succ]
              · rw [List.filter_append, List.length_append, e8]
                simp [hx, isFailed, hv]
        | odd =>
          rw [learn_odd hv] at h
          obtain ⟨a, y, b, r, m, e1, e2, e3, e4, e5, e6, e7, e8⟩ := ih l k h hll
          refine ⟨a, y, b ++ [x], r, m, by simp [e1], e2, e3, ?_, e5, e6, e7, ?_⟩
          · intro z hz hzi r' c' d'
            rw [List.mem_append, List.mem_singleton] at hz
            rcases hz with hz | hz
            · exact e4 z hz hzi r' c' d'
            · subst hz; rw [hv]; intro hc; cases hc
          · rw [List.filter_append, List.length_append, e8]
            simp [isFailed, hv]
      · rw [if_neg hx] at h
        obtain ⟨a, y, b, r, m, e1, e2, e3, e4, e5, e6, e7, e8⟩ := ih l k h hll
        refine ⟨a, y, b ++ [x], r, m, by simp [e1], e2, e3, ?_, e5, e6, e7, ?_⟩
        · intro z hz hzi r' c' d'
          rw [List.mem_append, List.mem_singleton] at hz
          rcases hz with hz | hz
          · exact e4 z hz hzi r' c' d'
          · subst hz; exact absurd hzi hx
        · rw [List.filter_append, List.length_append, e8]
          simp [hx]

theorem within_init (rs : List Round) {dom : Id → Prop} :
    ∀ {s : State}, Within dom s → (∀ r ∈ rs, ∀ l, some l ∈ r.found → ∀ e ∈ l, dom e.id) →
      Within dom (init s rs).1 := by
  induction rs with
  | nil => intro s h _; exact h
  | cons r rs ih =>
    intro s h hd
    have h1 : Within dom (initRound s r).1 := within_checkAll r.probe _ h (by
      intro e he
      obtain ⟨l, hl, hel⟩ := mem_found.mp ((newest_groups r.found).sub e he)
      exact hd r (by simp) l hl e hel)
    unfold init
    simp only
    split
    · exact h1
    · exact ih h1 (fun r' hr' => hd r' (by simp [hr']))

theorem within_run (as : List Action) :
    ∀ {s t : State} {l : List Exchange}, Within (fun _ => True) s → run s as = some (t, l) →
      Within (fun _ => True) t := by
  induction as with
  | nil => intro s t l h hr; simp only [run] at hr; cases hr; exact h
  | cons a as ih =>
    intro s t l h hr
    simp only [run] at hr
    split at hr
    · cases hr
    · rename_i r hs
      split at hr
      · cases hr
      · rename_i u hu
        cases hr
        refine ih ?_ hu
        cases a with
        | reinit rounds =>
          simp only [step] at hs
          split at hs
          · cases hs; exact within_init rounds h (fun _ _ _ _ _ _ => trivial)
          · cases hs
        | discovery found probe =>
          simp only [step, Option.some.injEq] at hs
          unfold discover at hs
          cases found with
          | none => cases hs; exact h
          | some es =>
            cases hs
            exact within_checkAll probe es h (fun _ _ => trivial)
        | check i c =>
          simp only [step] at hs
          unfold expire at hs
          split at hs
          · cases hs
          · split at hs
            · split at hs
              · cases hs; exact h
              · cases hs
                exact within_check (s := s.unschedule i) h _ _ trivial
            · cases hs
        | offer i tr now =>
          simp only [step, Option.some.injEq] at hs
          cases hs
          exact within_offer h _ _ _

theorem within_life {rounds : List Round} {actions : List Action} {s : State} {log : List Exchange}
    (h : life rounds actions = some (s, log)) : s.ids.Nodup := by
  unfold life at h
  simp only at h
  have h0 : Within (fun _ => True) (init State.new rounds).1 :=
    within_init rounds (within_new _) (fun _ _ _ _ _ _ => trivial)
  split at h
  · split at h
    · cases h
    · rename_i hr
      cases h
      exact (within_run actions h0 hr).1
  · split at h
    · cases h; exact h0.1
    · cases h

theorem get_of_mem {l : List Entry} (hn : (l.map (·.peer.nodeId)).Nodup) {e : Entry} (he : e ∈ l) :
    l.find? (fun x => x.peer.nodeId == e.peer.nodeId) = some e := by
  induction l with
  | nil => cases he
  | cons x l ih =>
    simp only [List.map_cons, List.nodup_cons] at hn
    rcases List.mem_cons.mp he with rfl | he'
    · simp
    · have : x.peer.nodeId ≠ e.peer.nodeId := fun hc =>
        hn.1 (List.mem_map.mpr ⟨e, he', hc.symm⟩)
      rw [List.find?_cons_of_neg (by simpa using this)]
      exact ih hn.2 he'

theorem explored_within (rs : List Round) {dom : Id → Prop} :
    ∀ {s : State}, Within dom s → (∀ r ∈ rs, ∀ l, some l ∈ r.found → ∀ e ∈ l, dom e.id) →
      Within dom (explored s rs) := by
  induction rs with
  | nil => intro s h _; exact h
  | cons r rs ih =>
    intro s h hd
    have h1 : Within dom (initRound s r).1 := within_checkAll r.probe _ h (by
      intro e he
      obtain ⟨l, hl, hel⟩ := mem_found.mp ((newest_groups r.found).sub e he)
      exact hd r (by simp) l hl e hel)
    exact ih h1 (fun r' hr' => hd r' (by simp [hr']))

theorem explored_nobody (rounds : List Round)
    (h : ∀ r ∈ rounds, ∀ e, (r.probe e).reply.pong = none) :
    explored State.new rounds = State.new := by
  induction rounds with
  | nil => rfl
  | cons r rs ih =>
    have hr : (initRound State.new r).1 = State.new := by
      unfold initRound
      generalize newest r.found = es
      have h0 : ∀ es : List Enr, (checkAll State.new r.probe es).1 = State.new := by
        intro es
        induction es with
        | nil => rfl
        | cons e es ihe =>
          have h1 : (livenessCheck State.new e (r.probe e)).1 = State.new := by
            unfold livenessCheck State.isFresh pinged
            rw [h r (by simp) e]
            rfl
          simp only [checkAll, h1, ihe]
      exact h0 es
    simp only [explored, hr]
    exact ih (fun r' hr' => h r' (by simp [hr']))

theorem firstUnsupported_none {l : List Subnetwork} :
    firstUnsupported l = none ↔ ∀ n, Subnetwork.other n ∉ l := by
  induction l with
  | nil => simp [firstUnsupported]
  | cons x l ih =>
    cases x
    case other m =>
      simp only [firstUnsupported, reduceCtorEq, false_iff]
      intro hc
      exact hc m (by simp)
    all_goals simp [firstUnsupported, ih]

theorem firstUnsupported_some {l : List Subnetwork} {n : Nat} (h : firstUnsupported l = some n) :
    Subnetwork.other n ∈ l := by
  induction l with
  | nil => cases h
  | cons x l ih =>
    cases x <;> simp only [firstUnsupported] at h
    case other m => cases h; simp
    all_goals exact List.mem_cons_of_mem _ (ih h)

end Verif.CensusNet
