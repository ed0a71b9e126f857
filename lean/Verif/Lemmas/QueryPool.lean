import Verif.Model.QueryPool
import Verif.Lemmas.Sort

/-! Helper lemmas for the query pool. -/

namespace Verif.QueryPool
open Verif Verif.Query

variable {I Q : Type}

/-- The id and the information given when the query was added. -/
def Entry.tag (e : Entry I Q) : Nat × I := (e.id, e.info)

/-- What the pool relies on: starting sets the start time and polling keeps it. -/
structure Lawful (ops : Ops Q) : Prop where
  start : ∀ q now, ops.started (ops.start q now) = some now
  poll : ∀ q now q' st, ops.poll q now = some (q', st) → ops.started q' = ops.started q

theorem ensureStarted_some {ops : Ops Q} (h : Lawful ops) (q : Q) (now : Nat) :
    ∃ s, ops.started (ensureStarted ops q now) = some s ∧ (ops.started q = some s ∨
      ops.started q = none ∧ s = now) := by
  unfold ensureStarted
  cases hs : ops.started q with
  | none => exact ⟨now, h.start q now, .inr ⟨rfl, rfl⟩⟩
  | some s => exact ⟨s, hs, .inl rfl⟩

/-- What one entry went through in a poll. -/
def Polled (ops : Ops Q) (now : Nat) (e0 e : Entry I Q) (st : QState) : Prop :=
  e.tag = e0.tag ∧ ops.poll (ensureStarted ops e0.query now) now = some (e.query, st)

/-- The loop stops with `found` at the entry `e`, polled with `st`. -/
def Hit (ops : Ops Q) (now : Nat) (found : Found) (e : Entry I Q) (st : QState) : Prop :=
  (found = .finished e.id ∧ st = .finished) ∨
  (∃ p, found = .validating e.id p ∧ st = .validating p) ∨
  (∃ p, found = .waiting e.id p ∧ st = .waiting (some p)) ∨
  (found = .timeout e.id ∧ (st = .waiting none ∨ st = .atCapacity) ∧
    ops.overallTimeout e.query ≤ now - (ops.started e.query).getD now)

/-- The loop passes an entry. -/
def Passed (ops : Ops Q) (now : Nat) (e0 e : Entry I Q) : Prop :=
  ∃ st, Polled ops now e0 e st ∧ (st = .waiting none ∨ st = .atCapacity) ∧
    now - (ops.started e.query).getD now < ops.overallTimeout e.query

/-- The three ways the loop can end. -/
def LoopOutcome (ops : Ops Q) (now : Nat) (l : List (Entry I Q)) : Prop :=
    (∃ e ∈ l, ops.poll (ensureStarted ops e.query now) now = none ∧ pollLoop ops now l = none) ∨
    (∃ l', pollLoop ops now l = some (l', .nothing) ∧ l'.map Entry.tag = l.map Entry.tag ∧
      ∀ e ∈ l', ∃ e0 ∈ l, Passed ops now e0 e) ∨
    (∃ pre e0 e post pre' found st, pollLoop ops now l = some (pre' ++ e :: post, found) ∧
      l = pre ++ e0 :: post ∧ pre'.map Entry.tag = pre.map Entry.tag ∧
      (∀ e ∈ pre', ∃ e0 ∈ pre, Passed ops now e0 e) ∧
      Polled ops now e0 e st ∧ Hit ops now found e st)

theorem pollLoop_spec (ops : Ops Q) (now : Nat) : ∀ (l : List (Entry I Q)), LoopOutcome ops now l
  | [] => .inr (.inl ⟨[], rfl, rfl, fun e he => by cases he⟩)
  | e0 :: es => by
    cases hp : ops.poll (ensureStarted ops e0.query now) now with
    | none =>
      exact .inl ⟨e0, List.mem_cons_self, hp, by unfold pollLoop; rw [hp]⟩
    | some x =>
      obtain ⟨q', st⟩ := x
      have hpol : Polled ops now e0 { e0 with query := q' } st := ⟨rfl, hp⟩
      have stops : ∀ found, pollLoop ops now (e0 :: es) =
          some ({ e0 with query := q' } :: es, found) →
          Hit ops now found { e0 with query := q' } st → LoopOutcome ops now (e0 :: es) := fun found h1 h2 =>
        Or.inr (Or.inr ⟨[], e0, { e0 with query := q' }, es, [], found, st, h1, rfl, rfl,
          fun e he => (by cases he), hpol, h2⟩)
      have idle : (st = .waiting none ∨ st = .atCapacity) →
          pollLoop ops now (e0 :: es) =
            (if ops.overallTimeout q' ≤ now - (ops.started q').getD now then
              some ({ e0 with query := q' } :: es, .timeout e0.id)
            else (pollLoop ops now es).map (fun r => ({ e0 with query := q' } :: r.1, r.2))) := by
        intro h
        conv => lhs; unfold pollLoop
        rw [hp]
        rcases h with rfl | rfl <;> rfl
      have rest : (st = .waiting none ∨ st = .atCapacity) → LoopOutcome ops now (e0 :: es) := fun hst => by
        have hl := idle hst
        by_cases ht : ops.overallTimeout q' ≤ now - (ops.started q').getD now
        · rw [if_pos ht] at hl
          exact stops _ hl (.inr (.inr (.inr ⟨rfl, hst, ht⟩)))
        · rw [if_neg ht] at hl
          have hpass : Passed ops now e0 { e0 with query := q' } :=
            ⟨st, hpol, hst, Nat.lt_of_not_le ht⟩
          rcases pollLoop_spec ops now es with ⟨e, he, h1, h2⟩ | ⟨l', h1, h2, h3⟩ |
              ⟨pre, f0, f, post, pre', found, st', h1, h2, h3, h4, h5, h6⟩
          · exact .inl ⟨e, List.mem_cons_of_mem _ he, h1, by rw [hl, h2]; rfl⟩
          · refine .inr (.inl ⟨{ e0 with query := q' } :: l', by rw [hl, h1]; rfl, ?_, ?_⟩)
            · rw [List.map_cons, List.map_cons, h2]; rfl
            · intro e he
              rcases List.mem_cons.mp he with rfl | he
              · exact ⟨e0, List.mem_cons_self, hpass⟩
              · obtain ⟨x, hx, hh⟩ := h3 e he
                exact ⟨x, List.mem_cons_of_mem _ hx, hh⟩
          · refine .inr (.inr ⟨e0 :: pre, f0, f, post, { e0 with query := q' } :: pre', found, st',
              by rw [hl, h1]; rfl, by rw [h2]; rfl, ?_, ?_, h5, h6⟩)
            · rw [List.map_cons, List.map_cons, h3]; rfl
            · intro e he
              rcases List.mem_cons.mp he with rfl | he
              · exact ⟨e0, List.mem_cons_self, hpass⟩
              · obtain ⟨x, hx, hh⟩ := h4 e he
                exact ⟨x, List.mem_cons_of_mem _ hx, hh⟩
      cases st with
      | finished =>
        exact stops (.finished e0.id) (by unfold pollLoop; rw [hp]) (.inl ⟨rfl, rfl⟩)
      | validating p =>
        exact stops (.validating e0.id p) (by unfold pollLoop; rw [hp]) (.inr (.inl ⟨p, rfl, rfl⟩))
      | atCapacity => exact rest (.inr rfl)
      | waiting x =>
        cases x with
        | none => exact rest (.inl rfl)
        | some p =>
          exact stops (.waiting e0.id p) (by unfold pollLoop; rw [hp])
            (.inr (.inr (.inl ⟨p, rfl, rfl⟩)))

theorem remove_spec {l : List (Entry I Q)} (h : (l.map (·.id)).Nodup) {e : Entry I Q} (he : e ∈ l) :
    ∃ rest, remove l e.id = some (e, rest) ∧ (e :: rest).Perm l := by
  unfold remove
  induction l with
  | nil => cases he
  | cons x xs ih =>
    rw [List.map_cons, List.nodup_cons] at h
    by_cases hx : x.id = e.id
    · have hxe : x = e := by
        rcases List.mem_cons.mp he with rfl | he
        · rfl
        · exact absurd (List.mem_map.mpr ⟨e, he, hx.symm⟩) h.1
      subst hxe
      rw [List.find?_cons_of_pos (by simp)]
      refine ⟨_, rfl, ?_⟩
      rw [List.filter_cons_of_neg (by simp)]
      have : xs.filter (fun y => decide (y.id ≠ x.id)) = xs := by
        rw [List.filter_eq_self]
        intro y hy
        apply decide_eq_true
        intro hyx
        exact h.1 (List.mem_map.mpr ⟨y, hy, hyx⟩)
      rw [this]
    · have he' : e ∈ xs := by
        rcases List.mem_cons.mp he with rfl | he
        · exact absurd rfl hx
        · exact he
      obtain ⟨rest, h1, h2⟩ := ih h.2 he'
      rw [List.find?_cons_of_neg (by simpa using hx), List.filter_cons_of_pos (by simpa using hx)]
      cases hf : xs.find? (fun e' => decide (e'.id = e.id)) with
      | none => rw [hf] at h1; cases h1
      | some y =>
        rw [hf] at h1
        simp only [Option.map_some, Option.some.injEq, Prod.mk.injEq] at h1 ⊢
        refine ⟨_, ⟨h1.1, rfl⟩, ?_⟩
        rw [h1.2]
        exact (List.Perm.swap x e rest).trans (List.Perm.cons x h2)

/-- Everything `poll` does. -/
theorem poll_spec (ops : Ops Q) (p : Pool I Q) (now : Nat) (prio : Nat → Nat)
    (hnd : (p.queries.map (·.id)).Nodup) :
    (∃ e ∈ p.queries, ops.poll (ensureStarted ops e.query now) now = none ∧
      poll ops p now prio = none) ∨
    (∃ qs, poll ops p now prio = some ({ p with queries := qs },
        if qs = [] then .idle else .waiting none) ∧
      (qs.map Entry.tag).Perm (p.queries.map Entry.tag) ∧
      ∀ e ∈ qs, ∃ e0 ∈ p.queries, Passed ops now e0 e) ∨
    (∃ qs e0 e st out, poll ops p now prio = some ({ p with queries := qs }, out) ∧
      e0 ∈ p.queries ∧ Polled ops now e0 e st ∧
      (∀ x ∈ qs, x = e ∨ (x ∈ p.queries ∧ x.id ≠ e.id) ∨
        ∃ x0 ∈ p.queries, x0.id ≠ e.id ∧ Passed ops now x0 x) ∧
      ((st = .finished ∧ out = .finished e ∧ (qs.map Entry.tag ++ [e.tag]).Perm (p.queries.map Entry.tag)) ∨
       ((st = .waiting none ∨ st = .atCapacity) ∧ out = .timeout e ∧
          ops.overallTimeout e.query ≤ now - (ops.started e.query).getD now ∧
          (qs.map Entry.tag ++ [e.tag]).Perm (p.queries.map Entry.tag)) ∨
       (∃ peer, st = .waiting (some peer) ∧ out = .waiting (some (e.id, peer)) ∧ e ∈ qs ∧
          (qs.map Entry.tag).Perm (p.queries.map Entry.tag)) ∨
       (∃ peer, st = .validating peer ∧ out = .validating e.id peer ∧ e ∈ qs ∧
          (qs.map Entry.tag).Perm (p.queries.map Entry.tag)))) := by
  have hperm := sortBy_perm (le := fun a b : Entry I Q => decide (prio a.id ≤ prio b.id)) p.queries
  unfold poll
  generalize sortBy (fun a b : Entry I Q => decide (prio a.id ≤ prio b.id)) p.queries = l at hperm ⊢
  rcases pollLoop_spec ops now l with ⟨e, he, h1, h2⟩ | ⟨l', h1, h2, h3⟩ |
      ⟨pre, e0, e, post, pre', found, st, h1, h2, h3, h4, h5, h6⟩
  · exact .inl ⟨e, hperm.mem_iff.mp he, h1, by rw [h2]⟩
  · refine .inr (.inl ⟨l', ?_, ?_, ?_⟩)
    · rw [h1]
      cases l' with
      | nil => rfl
      | cons x xs => simp
    · rw [h2]; exact hperm.map _
    · intro e he
      obtain ⟨x, hx, hh⟩ := h3 e he
      exact ⟨x, hperm.mem_iff.mp hx, hh⟩
  · have htag : (pre' ++ e :: post).map Entry.tag = l.map Entry.tag := by
      rw [h2]; simp only [List.map_append, List.map_cons, h3, h5.1]
    have hids : (pre' ++ e :: post).map (·.id) = l.map (·.id) := by
      have : ∀ x : List (Entry I Q), x.map (·.id) = (x.map Entry.tag).map (·.1) := by
        intro x; rw [List.map_map]; rfl
      rw [this, this, htag]
    have hnd' : ((pre' ++ e :: post).map (·.id)).Nodup := by
      rw [hids]; exact (hperm.map _).nodup_iff.mpr hnd
    have hsplit := hnd'
    rw [List.map_append, List.map_cons, List.nodup_append] at hsplit
    have hpost : ∀ x ∈ post, x.id ≠ e.id := by
      intro x hx hh
      exact (List.nodup_cons.mp hsplit.2.1).1 (List.mem_map.mpr ⟨x, hx, hh⟩)
    have hpre : ∀ x ∈ pre', x.id ≠ e.id := by
      intro x hx
      exact hsplit.2.2 _ (List.mem_map.mpr ⟨x, hx, rfl⟩) _ List.mem_cons_self
    have he0 : e0 ∈ p.queries := hperm.mem_iff.mp (by rw [h2]; simp)
    have hmem : ∀ x ∈ pre' ++ e :: post, x = e ∨ (x ∈ p.queries ∧ x.id ≠ e.id) ∨
        ∃ x0 ∈ p.queries, x0.id ≠ e.id ∧ Passed ops now x0 x := by
      intro x hx
      rcases List.mem_append.mp hx with hx | hx
      · obtain ⟨y, hy, hh⟩ := h4 x hx
        refine .inr (.inr ⟨y, hperm.mem_iff.mp (by rw [h2]; simp [hy]), ?_, hh⟩)
        obtain ⟨s, hh, _⟩ := hh
        have : x.id = y.id := congrArg Prod.fst hh.1
        rw [← this]; exact hpre x hx
      · rcases List.mem_cons.mp hx with rfl | hx
        · exact .inl rfl
        · exact .inr (.inl ⟨hperm.mem_iff.mp (by rw [h2]; simp [hx]), hpost x hx⟩)
    obtain ⟨rest, hr1, hr2⟩ := remove_spec hnd' (e := e) (by simp)
    have hrest : ∀ x ∈ rest, x ∈ pre' ++ e :: post :=
      fun x hx => hr2.mem_iff.mp (List.mem_cons_of_mem _ hx)
    have hrperm : (rest.map Entry.tag ++ [e.tag]).Perm (p.queries.map Entry.tag) := by
      have a := hr2.map Entry.tag
      rw [htag, List.map_cons] at a
      exact (List.perm_append_singleton _ _).trans (a.trans (hperm.map _))
    have hfull : ((pre' ++ e :: post).map Entry.tag).Perm (p.queries.map Entry.tag) := by
      rw [htag]; exact hperm.map _
    rw [h1]
    rcases h6 with ⟨f1, f2⟩ | ⟨peer, f1, f2⟩ | ⟨peer, f1, f2⟩ | ⟨f1, f2, f3⟩
    · subst f1
      refine .inr (.inr ⟨rest, e0, e, st, .finished e, ?_, he0, h5,
        fun x hx => hmem x (hrest x hx), .inl ⟨f2, rfl, hrperm⟩⟩)
      simp only [hr1, Option.map_some]
    · subst f1
      exact .inr (.inr ⟨_, e0, e, st, _, rfl, he0, h5, hmem,
        .inr (.inr (.inr ⟨peer, f2, rfl, by simp, hfull⟩))⟩)
    · subst f1
      exact .inr (.inr ⟨_, e0, e, st, _, rfl, he0, h5, hmem,
        .inr (.inr (.inl ⟨peer, f2, rfl, by simp, hfull⟩))⟩)
    · subst f1
      refine .inr (.inr ⟨rest, e0, e, st, .timeout e, ?_, he0, h5,
        fun x hx => hmem x (hrest x hx), .inr (.inl ⟨f2, rfl, f3, hrperm⟩)⟩)
      simp only [hr1, Option.map_some]

end Verif.QueryPool
