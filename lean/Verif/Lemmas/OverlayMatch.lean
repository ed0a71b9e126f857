import Verif.Props.OverlaySpec

/-! # Lemmas about matching responses to requests -/

namespace Verif.Overlay
open Verif.Wire Verif.OverlaySpec

variable {E : Type}

theorem snoc_split {α : Type} (l before after : List α) (e x : α) :
    l ++ [e] = before ++ x :: after ↔
      (after = [] ∧ l = before ∧ e = x) ∨ ∃ after', after = after' ++ [e] ∧ l = before ++ x :: after' := by
  constructor
  · intro h
    rcases List.eq_nil_or_concat after with rfl | ⟨after', y, rfl⟩
    · obtain ⟨h1, h2⟩ := List.append_inj' h rfl
      simp at h2
      exact .inl ⟨rfl, h1, h2⟩
    · right
      have h' : l ++ [e] = (before ++ x :: after') ++ [y] := by simpa using h
      obtain ⟨h1, h2⟩ := List.append_inj' h' rfl
      simp at h2
      exact ⟨after', by rw [h2]; simp, h1⟩
  · rintro (⟨rfl, rfl, rfl⟩ | ⟨after', rfl, rfl⟩)
    · rfl
    · simp

theorem answered_append (l m : List (MgrEvent E)) : answered (l ++ m) = answered l ++ answered m := by
  induction l with
  | nil => rfl
  | cons e l ih => cases e <;> simp [answered, ih]

theorem submitted_append (l m : List (MgrEvent E)) : submitted (l ++ m) = submitted l ++ submitted m := by
  induction l with
  | nil => rfl
  | cons e l ih => cases e <;> simp [submitted, ih]

theorem callers_append (l m : List (MgrEvent E)) : callers (l ++ m) = callers l ++ callers m := by
  induction l with
  | nil => rfl
  | cons e l ih => cases e <;> simp [callers, ih]

theorem mgrRun_snoc (l : List (MgrEvent E)) (e : MgrEvent E) : mgrRun (l ++ [e]) = mgrStep (mgrRun l) e := by
  simp [mgrRun, List.foldl_append]

theorem findActive_filter_ne {id j : Nat} (l : List (Nat × Active E)) (h : id ≠ j) :
    findActive id (l.filter fun x => x.1 ≠ j) = findActive id l := by
  induction l with
  | nil => rfl
  | cons x l ih =>
    obtain ⟨i, a⟩ := x
    by_cases hi : i = j
    · rw [List.filter_cons_of_neg (by simp [hi]), ih, findActive, if_neg (by omega)]
    · rw [List.filter_cons_of_pos (by simp [hi]), findActive, findActive, ih]

theorem findActive_filter_self {id : Nat} (l : List (Nat × Active E)) :
    findActive id (l.filter fun x => x.1 ≠ id) = none := by
  induction l with
  | nil => rfl
  | cons x l ih =>
    obtain ⟨i, a⟩ := x
    by_cases hi : i = id
    · rw [List.filter_cons_of_neg (by simp [hi]), ih]
    · rw [List.filter_cons_of_pos (by simp [hi]), findActive, if_neg hi, ih]

theorem findActive_mem {id : Nat} {l : List (Nat × Active E)} {a : Active E} (h : findActive id l = some a) :
    (id, a) ∈ l := by
  induction l with
  | nil => cases h
  | cons x l ih =>
    obtain ⟨i, b⟩ := x
    unfold findActive at h
    split at h
    · next hi => cases h; subst hi; exact List.mem_cons_self
    · exact List.mem_cons_of_mem _ (ih h)

/-- Waiting, with one more event. -/
theorem waiting_submit (l : List (MgrEvent E)) (j id : Nat) (b a : Active E)
    (hn : (submitted (l ++ [.submit j b])).Nodup) :
    Waiting (l ++ [.submit j b]) id a ↔ (j = id ∧ b = a) ∨ (j ≠ id ∧ Waiting l id a) := by
  rw [submitted_append, List.nodup_append] at hn
  unfold Waiting
  constructor
  · rintro ⟨before, after, h, hna⟩
    rcases (snoc_split ..).1 h with ⟨rfl, rfl, he⟩ | ⟨after', rfl, rfl⟩
    · cases he; exact .inl ⟨rfl, rfl⟩
    · right
      refine ⟨?_, before, after', rfl, ?_⟩
      · rintro rfl
        exact hn.2.2 j (by rw [submitted_append]; simp [submitted]) j (by simp [submitted]) rfl
      · intro h'; apply hna; rw [answered_append]; exact List.mem_append_left _ h'
  · rintro (⟨rfl, rfl⟩ | ⟨_, before, after, rfl, hna⟩)
    · exact ⟨l, [], rfl, by simp [answered]⟩
    · exact ⟨before, after ++ [.submit j b], by simp, by simpa [answered_append, answered] using hna⟩

theorem waiting_answer (l : List (MgrEvent E)) (j id : Nat) (r : Except ReqErr (Response E)) (a : Active E) :
    Waiting (l ++ [.answer j r]) id a ↔ j ≠ id ∧ Waiting l id a := by
  unfold Waiting
  constructor
  · rintro ⟨before, after, h, hna⟩
    rcases (snoc_split ..).1 h with ⟨rfl, rfl, he⟩ | ⟨after', rfl, rfl⟩
    · cases he
    · rw [answered_append, List.mem_append, not_or] at hna
      refine ⟨?_, before, after', rfl, hna.1⟩
      rintro rfl
      exact hna.2 (by simp [answered])
  · rintro ⟨hne, before, after, rfl, hna⟩
    refine ⟨before, after ++ [.answer j r], by simp, ?_⟩
    rw [answered_append, List.mem_append, not_or]
    exact ⟨hna, by simp [answered]; omega⟩

theorem firstAnswer_submit (l : List (MgrEvent E)) (j : Nat) (b a : Active E) (r : Except ReqErr (Response E)) :
    FirstAnswer (l ++ [.submit j b]) a r ↔ FirstAnswer l a r := by
  unfold FirstAnswer
  constructor
  · rintro ⟨before, between, after, id, h, hna⟩
    rcases (snoc_split ..).1 h with ⟨rfl, rfl, he⟩ | ⟨after', rfl, rfl⟩
    · cases he
    · exact ⟨before, between, after', id, by simp, hna⟩
  · rintro ⟨before, between, after, id, rfl, hna⟩
    exact ⟨before, between, after ++ [.submit j b], id, by simp, hna⟩

theorem firstAnswer_answer (l : List (MgrEvent E)) (j : Nat) (r' : Except ReqErr (Response E)) (a : Active E)
    (r : Except ReqErr (Response E)) :
    FirstAnswer (l ++ [.answer j r']) a r ↔ FirstAnswer l a r ∨ (r = r' ∧ Waiting l j a) := by
  unfold FirstAnswer Waiting
  constructor
  · rintro ⟨before, between, after, id, h, hna⟩
    rcases (snoc_split ..).1 h with ⟨rfl, rfl, he⟩ | ⟨after', rfl, rfl⟩
    · cases he
      exact .inr ⟨rfl, before, between, by simp, hna⟩
    · exact .inl ⟨before, between, after', id, by simp, hna⟩
  · rintro (⟨before, between, after, id, rfl, hna⟩ | ⟨rfl, before, after, rfl, hna⟩)
    · exact ⟨before, between, after ++ [.answer j r'], id, by simp, hna⟩
    · exact ⟨before, after, [], j, by simp, hna⟩

/-- Induction over a history from its beginning. -/
theorem snoc_induction {α : Type} {P : List α → Prop} (nil : P []) (snoc : ∀ l e, P l → P (l ++ [e])) (l : List α) :
    P l := by
  have key : ∀ l : List α, P l.reverse := by
    intro l
    induction l with
    | nil => exact nil
    | cons e l ih => rw [List.reverse_cons]; exact snoc _ _ ih
  simpa using key l.reverse

theorem submitted_prefix {l : List (MgrEvent E)} {e : MgrEvent E} (h : (submitted (l ++ [e])).Nodup) :
    (submitted l).Nodup := by
  rw [submitted_append, List.nodup_append] at h; exact h.1

theorem active_iff (events : List (MgrEvent E)) (hn : (submitted events).Nodup) (id : Nat) (a : Active E) :
    findActive id (mgrRun events).active = some a ↔ Waiting events id a := by
  induction events using snoc_induction generalizing id a with
  | nil =>
    constructor
    · intro h; cases h
    · rintro ⟨before, after, h, _⟩; simp at h
  | snoc l e ih =>
    have ih := ih (submitted_prefix hn)
    rw [mgrRun_snoc]
    cases e with
    | submit j b =>
      rw [waiting_submit l j id b a hn]
      simp only [mgrStep, findActive]
      by_cases hj : j = id
      · rw [if_pos hj]; simp [hj]
      · rw [if_neg hj, findActive_filter_ne _ (fun h => hj h.symm), ih]
        simp [hj]
    | answer j r =>
      rw [waiting_answer]
      simp only [mgrStep]
      cases hf : findActive j (mgrRun l).active with
      | none =>
        simp only
        rw [ih]
        constructor
        · intro h
          refine ⟨?_, h⟩
          rintro rfl
          rw [(ih j a).2 h] at hf; cases hf
        · exact fun h => h.2
      | some b =>
        simp only
        by_cases hj : j = id
        · subst hj; rw [findActive_filter_self]; simp
        · rw [findActive_filter_ne _ (fun h => hj h.symm), ih]; simp [hj]

theorem delivered_iff (events : List (MgrEvent E)) (hn : (submitted events).Nodup) (w : Nat)
    (r : Except ReqErr (Response E)) :
    (w, r) ∈ (mgrRun events).delivered ↔ ∃ a, a.caller = some w ∧ FirstAnswer events a r := by
  induction events using snoc_induction with
  | nil =>
    constructor
    · intro h; cases h
    · rintro ⟨a, _, before, between, after, id, h, _⟩; simp at h
  | snoc l e ih =>
    have hn' := submitted_prefix hn
    have ih := ih hn'
    rw [mgrRun_snoc]
    cases e with
    | submit j b =>
      simp only [firstAnswer_submit, mgrStep]
      exact ih
    | answer j r' =>
      simp only [firstAnswer_answer, mgrStep]
      have hw := active_iff l hn' j
      cases hf : findActive j (mgrRun l).active with
      | none =>
        simp only
        rw [ih]
        constructor
        · rintro ⟨a, h1, h2⟩; exact ⟨a, h1, .inl h2⟩
        · rintro ⟨a, h1, h2 | ⟨_, h2⟩⟩
          · exact ⟨a, h1, h2⟩
          · rw [(hw a).2 h2] at hf; cases hf
      | some b =>
        have hb := (hw b).1 hf
        have hu : ∀ a, Waiting l j a → a = b := by
          intro a ha
          have := (hw a).2 ha
          rw [hf] at this
          exact (Option.some.inj this).symm
        simp only
        cases hc : b.caller with
        | none =>
          simp only
          rw [ih]
          constructor
          · rintro ⟨a, h1, h2⟩; exact ⟨a, h1, .inl h2⟩
          · rintro ⟨a, h1, h2 | ⟨_, h2⟩⟩
            · exact ⟨a, h1, h2⟩
            · rw [hu a h2, hc] at h1; cases h1
        | some w' =>
          simp only [List.mem_append, List.mem_singleton, Prod.mk.injEq]
          rw [ih]
          constructor
          · rintro (⟨a, h1, h2⟩ | ⟨rfl, rfl⟩)
            · exact ⟨a, h1, .inl h2⟩
            · exact ⟨b, hc, .inr ⟨rfl, hb⟩⟩
          · rintro ⟨a, h1, h2 | ⟨rfl, h2⟩⟩
            · exact .inl ⟨a, h1, h2⟩
            · rw [hu a h2, hc] at h1
              exact .inr ⟨(Option.some.inj h1).symm, rfl⟩

theorem processed_iff (events : List (MgrEvent E)) (hn : (submitted events).Nodup) (e : E) (q : Request)
    (r : Except ReqErr (Response E)) :
    (e, q, r) ∈ (mgrRun events).processed ↔ ∃ a, a.destination = e ∧ a.request = q ∧ FirstAnswer events a r := by
  induction events using snoc_induction with
  | nil =>
    constructor
    · intro h; cases h
    · rintro ⟨a, _, _, before, between, after, id, h, _⟩; simp at h
  | snoc l ev ih =>
    have hn' := submitted_prefix hn
    have ih := ih hn'
    rw [mgrRun_snoc]
    cases ev with
    | submit j b =>
      simp only [firstAnswer_submit, mgrStep]
      exact ih
    | answer j r' =>
      simp only [firstAnswer_answer, mgrStep]
      have hw := active_iff l hn' j
      cases hf : findActive j (mgrRun l).active with
      | none =>
        simp only
        rw [ih]
        constructor
        · rintro ⟨a, h1, h1', h2⟩; exact ⟨a, h1, h1', .inl h2⟩
        · rintro ⟨a, h1, h1', h2 | ⟨_, h2⟩⟩
          · exact ⟨a, h1, h1', h2⟩
          · rw [(hw a).2 h2] at hf; cases hf
      | some b =>
        have hb := (hw b).1 hf
        have hu : ∀ a, Waiting l j a → a = b := by
          intro a ha
          have := (hw a).2 ha
          rw [hf] at this
          exact (Option.some.inj this).symm
        simp only [List.mem_append, List.mem_singleton, Prod.mk.injEq]
        rw [ih]
        constructor
        · rintro (⟨a, h1, h1', h2⟩ | ⟨rfl, rfl, rfl⟩)
          · exact ⟨a, h1, h1', .inl h2⟩
          · exact ⟨b, rfl, rfl, .inr ⟨rfl, hb⟩⟩
        · rintro ⟨a, h1, h1', h2 | ⟨rfl, h2⟩⟩
          · exact .inl ⟨a, h1, h1', h2⟩
          · rw [hu a h2] at h1 h1'
            exact .inr ⟨h1.symm, h1'.symm, rfl⟩

/-- The callers of a list of active requests. -/
def waitingCallers (l : List (Nat × Active E)) : List Nat := l.filterMap fun x => x.2.caller

theorem perm_remove {l : List (Nat × Active E)} (hn : (l.map (·.1)).Nodup) {id : Nat} {a : Active E}
    (h : findActive id l = some a) : l.Perm ((id, a) :: l.filter fun x => x.1 ≠ id) := by
  induction l with
  | nil => cases h
  | cons x l ih =>
    obtain ⟨i, b⟩ := x
    rw [List.map_cons, List.nodup_cons] at hn
    unfold findActive at h
    split at h
    · next hi =>
      cases h; subst hi
      rw [List.filter_cons_of_neg (by simp)]
      have : l.filter (fun x => x.1 ≠ i) = l := by
        rw [List.filter_eq_self]
        intro x hx
        simp only [decide_eq_true_eq]
        intro he
        exact hn.1 (by simp only; rw [← he]; exact List.mem_map_of_mem hx)
      rw [this]
    · next hi =>
      rw [List.filter_cons_of_pos (by simp [hi])]
      exact ((ih hn.2 h).cons _).trans (List.Perm.swap ..)

theorem run_once (events : List (MgrEvent E)) (hc : (callers events).Nodup) :
    ((mgrRun events).active.map (·.1)).Nodup ∧
    ((mgrRun events).delivered.map (·.1) ++ waitingCallers (mgrRun events).active).Nodup ∧
    ∀ w ∈ (mgrRun events).delivered.map (·.1) ++ waitingCallers (mgrRun events).active, w ∈ callers events := by
  induction events using snoc_induction with
  | nil => simp [mgrRun, waitingCallers]
  | snoc l e ih =>
    rw [callers_append, List.nodup_append] at hc
    obtain ⟨h1, h2, h3⟩ := ih hc.1
    rw [mgrRun_snoc]
    cases e with
    | submit j b =>
      have hsub : (waitingCallers ((mgrRun l).active.filter fun x => x.1 ≠ j)).Sublist
          (waitingCallers (mgrRun l).active) := List.filter_sublist.filterMap _
      have hsub2 := List.Sublist.append (List.Sublist.refl ((mgrRun l).delivered.map (·.1))) hsub
      refine ⟨?_, ?_, ?_⟩
      · simp only [mgrStep, List.map_cons, List.nodup_cons]
        exact ⟨by simp, (List.filter_sublist.map _).nodup h1⟩
      · simp only [mgrStep]
        cases hb : b.caller with
        | none => simp only [waitingCallers, List.filterMap_cons, hb]; exact hsub2.nodup h2
        | some w =>
          have hw : w ∉ (mgrRun l).delivered.map (·.1) ++ waitingCallers (mgrRun l).active := by
            intro hm
            exact hc.2.2 w (h3 w hm) w (by simp [callers, hb]) rfl
          have he : waitingCallers ((j, b) :: (mgrRun l).active.filter fun x => x.1 ≠ j) =
              w :: waitingCallers ((mgrRun l).active.filter fun x => x.1 ≠ j) := by
            simp [waitingCallers, hb]
          rw [he]
          refine (List.perm_middle.nodup_iff).2 (List.nodup_cons.2 ⟨fun hm => hw (hsub2.subset hm), hsub2.nodup h2⟩)
      · intro w hw
        rw [callers_append, List.mem_append]
        simp only [mgrStep] at hw
        rw [List.mem_append] at hw
        rcases hw with hw | hw
        · exact .inl (h3 w (List.mem_append_left _ hw))
        · cases hb : b.caller with
          | none =>
            simp only [waitingCallers, List.filterMap_cons, hb] at hw
            exact .inl (h3 w (List.mem_append_right _ (hsub.subset hw)))
          | some w' =>
            simp only [waitingCallers, List.filterMap_cons, hb, List.mem_cons] at hw
            rcases hw with rfl | hw
            · right; simp [callers, hb]
            · exact .inl (h3 w (List.mem_append_right _ (hsub.subset hw)))
    | answer j r =>
      simp only [mgrStep]
      have hcall : callers (l ++ [MgrEvent.answer j r]) = callers l := by simp [callers_append, callers]
      rw [hcall]
      cases hf : findActive j (mgrRun l).active with
      | none => exact ⟨h1, h2, h3⟩
      | some b =>
        have hp := perm_remove h1 hf
        have hpw : (waitingCallers (mgrRun l).active).Perm
            (b.caller.toList ++ waitingCallers ((mgrRun l).active.filter fun x => x.1 ≠ j)) := by
          refine (hp.filterMap _).trans ?_
          cases hb : b.caller <;> simp [waitingCallers, hb]
        have hpd := List.Perm.append_left ((mgrRun l).delivered.map (·.1)) hpw
        refine ⟨(List.filter_sublist.map _).nodup h1, ?_⟩
        simp only
        have key := And.intro (hpd.nodup_iff.1 h2) fun w hw => h3 w (hpd.mem_iff.2 hw)
        cases hb : b.caller with
        | none => rw [hb] at key; simpa using key
        | some w => rw [hb] at key; simpa using key

theorem answered_split {l : List (MgrEvent E)} {id : Nat} (h : id ∈ answered l) :
    ∃ between result after, l = between ++ .answer id result :: after ∧ id ∉ answered between := by
  induction l with
  | nil => cases h
  | cons e l ih =>
    cases e with
    | submit j b =>
      obtain ⟨between, r, after, rfl, hn⟩ := ih (by simpa [answered] using h)
      exact ⟨.submit j b :: between, r, after, rfl, by simpa [answered] using hn⟩
    | answer j r =>
      by_cases hj : j = id
      · subst hj; exact ⟨[], r, l, rfl, by simp [answered]⟩
      · obtain ⟨between, r', after, rfl, hn⟩ := ih (by
          simp only [answered, List.mem_cons] at h
          rcases h with rfl | h
          · exact absurd rfl hj
          · exact h)
        exact ⟨.answer j r :: between, r', after, rfl, by
          simp only [answered, List.mem_cons, not_or]; exact ⟨fun he => hj he.symm, hn⟩⟩

theorem mem_unique {l : List (Nat × Except ReqErr (Response E))} (h : (l.map (·.1)).Nodup) {w : Nat}
    {r r' : Except ReqErr (Response E)} (h1 : (w, r) ∈ l) (h2 : (w, r') ∈ l) : r = r' := by
  induction l with
  | nil => cases h1
  | cons x l ih =>
    rw [List.map_cons, List.nodup_cons] at h
    rcases List.mem_cons.1 h1 with rfl | h1'
    · rcases List.mem_cons.1 h2 with h2' | h2'
      · exact (Prod.mk.inj h2').2.symm
      · exact absurd (List.mem_map.2 ⟨_, h2', rfl⟩) h.1
    · rcases List.mem_cons.1 h2 with rfl | h2'
      · exact absurd (List.mem_map.2 ⟨_, h1', rfl⟩) h.1
      · exact ih h.2 h1' h2'

theorem mem_waitingCallers {l : List (Nat × Active E)} {id w : Nat} {a : Active E} (h : (id, a) ∈ l)
    (hw : a.caller = some w) : w ∈ waitingCallers l := by
  unfold waitingCallers
  simp only [List.mem_flatMap, List.mem_filterMap]
  exact ⟨(id, a), h, by simp [hw]⟩

end Verif.Overlay
