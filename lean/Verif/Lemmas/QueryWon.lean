import Verif.Lemmas.QueryPar

/-! Helper lemmas: confirmed content becomes the result. -/

namespace Verif.Props
open Verif Verif.Query

/-- The channel holds the confirmed content, or it is the result. -/
def Won (v : Validated) (s : Content) : Prop :=
  (s.q.chan = [some v] ∧ s.tasks = [] ∧ s.q.base.progress ≠ .finished) ∨
  (s.q.validated = some v ∧ s.q.base.progress = .finished)

theorem won_poll {v : Validated} {s s' : Content} {now : Nat} {o : Option QState} (h : Won v s)
    (hs : cStep s (.poll now) = some (s', o)) :
    o = some .finished ∧ s'.q.validated = some v ∧ s'.q.base.progress = .finished := by
  rcases h with ⟨h1, h2, h3⟩ | ⟨h1, h2⟩
  · have e : cPoll s.q now = some ({ s.q with
        chan := []
        base := { s.q.base with progress := .finished }
        validated := some v }, .finished) := by
      unfold cPoll
      rw [if_neg h3, h1]
    simp only [cStep, e, Option.some.injEq, Prod.mk.injEq] at hs
    obtain ⟨rfl, rfl⟩ := hs
    exact ⟨rfl, rfl, rfl⟩
  · have e : cPoll s.q now = some (s.q, .finished) := by
      unfold cPoll
      rw [if_pos h2]
    simp only [cStep, e, Option.some.injEq, Prod.mk.injEq] at hs
    obtain ⟨rfl, rfl⟩ := hs
    exact ⟨rfl, h1, h2⟩

theorem won_step {v : Validated} {s s' : Content} {e : CEvent} {o : Option QState} (h : Won v s)
    (hs : cStep s e = some (s', o)) : Won v s' := by
  rcases h with ⟨h1, h2, h3⟩ | ⟨h1, h2⟩
  · cases e with
    | poll now =>
      have := won_poll (.inl ⟨h1, h2, h3⟩) hs
      exact .inr ⟨this.2.1, this.2.2⟩
    | success id resp =>
      simp only [cStep] at hs
      unfold cOnSuccess at hs
      rcases settle_not_ignored (q := s.q.base) (id := id) (s := .succeeded) with hx | hx | ⟨b, hx⟩
      · rw [hx] at hs; cases hs
      · rw [hx] at hs
        simp only [Option.map_some, Option.some.injEq, Prod.mk.injEq] at hs
        obtain ⟨rfl, rfl⟩ := hs
        exact .inl ⟨h1, h2, h3⟩
      · have hb : b.progress ≠ .finished := by
          unfold settle at hx
          rw [if_neg h3] at hx
          split at hx
          · cases hx
          · split at hx
            · split at hx
              · cases hx
              · injection hx with hx; rw [← hx]; exact h3
            · injection hx with hx; rw [← hx]; exact h3
            · cases hx
        rw [hx] at hs
        cases resp with
        | closestNodes ids =>
          simp only [Option.map_some, Option.some.injEq, Prod.mk.injEq] at hs
          obtain ⟨rfl, rfl⟩ := hs
          exact .inl ⟨h1, h2, fun hh => hb ((nextProgress_finished _ _ _).mp hh)⟩
        | content c =>
          simp only [Option.map_some, Option.some.injEq, Prod.mk.injEq] at hs
          obtain ⟨rfl, rfl⟩ := hs
          exact .inl ⟨h1, h2, hb⟩
        | connectionId c =>
          simp only [Option.map_some, Option.some.injEq, Prod.mk.injEq] at hs
          obtain ⟨rfl, rfl⟩ := hs
          exact .inl ⟨h1, h2, hb⟩
    | failure id =>
      simp only [cStep, cOnFailure] at hs
      cases hf : onFailure s.q.base id with
      | none => rw [hf] at hs; cases hs
      | some b =>
        rw [hf] at hs
        simp only [Option.map_some, Option.some.injEq, Prod.mk.injEq] at hs
        obtain ⟨rfl, rfl⟩ := hs
        exact .inl ⟨h1, h2, by rw [onFailure_progress hf]; exact h3⟩
    | taskEnds n fetch stored valid =>
      simp only [cStep, h2, List.getElem?_nil, Option.some.injEq, Prod.mk.injEq] at hs
      obtain ⟨rfl, rfl⟩ := hs
      exact .inl ⟨h1, h2, h3⟩
  · obtain ⟨s1, o1, e1, e2, e3, _⟩ := cStep_finished h2 e
    rw [e1] at hs
    have hs := Option.some.inj hs
    injection hs with g1 _
    subst g1
    exact .inr ⟨e3.trans h1, by rw [e2]; exact h2⟩

theorem won_run {v : Validated} : ∀ (es : List CEvent) {s s' : Content}
    {hist : List (CEvent × Option QState)}, Won v s → cRun s es = some (s', hist) →
    Won v s' ∧ ((∃ now, CEvent.poll now ∈ es) → ∃ c, cIntoResult s'.q = some (v, c)) := by
  intro es
  induction es with
  | nil =>
    intro s s' hist h hr
    simp only [cRun, Option.some.injEq, Prod.mk.injEq] at hr
    obtain ⟨rfl, rfl⟩ := hr
    exact ⟨h, by rintro ⟨_, hm⟩; cases hm⟩
  | cons e es ih =>
    intro s s' hist h hr
    simp only [cRun] at hr
    cases hs : cStep s e with
    | none => rw [hs] at hr; cases hr
    | some x =>
      obtain ⟨s1, o⟩ := x
      rw [hs] at hr
      simp only at hr
      cases hc : cRun s1 es with
      | none => rw [hc] at hr; cases hr
      | some y =>
        obtain ⟨s2, hist2⟩ := y
        rw [hc] at hr
        simp only [Option.map_some, Option.some.injEq, Prod.mk.injEq] at hr
        obtain ⟨rfl, rfl⟩ := hr
        obtain ⟨w1, w2⟩ := ih (won_step h hs) hc
        refine ⟨w1, ?_⟩
        rintro ⟨now, hm⟩
        rcases List.mem_cons.mp hm with rfl | hm
        · have hp := won_poll h hs
          obtain ⟨s3, hist3, g1, g2, g3, _⟩ := cRun_finished es hp.2.2
          rw [g1] at hc
          have hc := Option.some.inj hc
          injection hc with g4 _
          subst g4
          exact ⟨pendingPeers s3.q v.sender, by simp only [cIntoResult, g3, hp.2.1]⟩
        · exact w2 ⟨now, hm⟩

end Verif.Props
