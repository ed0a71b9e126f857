import Verif.Props.QueryPoolSpec
import Verif.Lemmas.QueryPool
import Verif.Lemmas.QueryPar

/-! Helper lemmas: histories of the pool of lookups. -/

namespace Verif.Props
open Verif Verif.Query Verif.QueryPool

variable {I Q : Type}

structure PoolInv (p : Pool I Q) (a ret : List (Nat × I)) (k : Nat) : Prop where
  next : p.nextId = k % 2 ^ 64
  nodup : (p.queries.map (·.id)).Nodup
  small : ∀ e ∈ p.queries, e.id < k
  perm : (ret ++ inPool p).Perm a
  ids : a.map (·.1) = List.range k

theorem PoolInv.add {p : Pool I Q} {a ret : List (Nat × I)} {k : Nat} (h : PoolInv p a ret k)
    (hk : k < 2 ^ 64) (info : I) (q : Q) :
    (addQuery p info q).2 = k ∧ PoolInv (addQuery p info q).1 (a ++ [(k, info)]) ret (k + 1) := by
  have hnext : p.nextId = k := by rw [h.next, Nat.mod_eq_of_lt hk]
  have hfil : p.queries.filter (fun e => decide (e.id ≠ p.nextId)) = p.queries := by
    rw [List.filter_eq_self]
    intro e he
    have := h.small e he
    apply decide_eq_true
    omega
  refine ⟨hnext, ?_⟩
  unfold addQuery
  constructor
  · simp only [hnext]
  · simp only [hfil, List.map_append, List.map_cons, List.map_nil]
    rw [List.nodup_append]
    refine ⟨h.nodup, by simp, ?_⟩
    intro x hx y hy
    obtain ⟨e, he, rfl⟩ := List.mem_map.mp hx
    rw [List.mem_singleton.mp hy, hnext]
    exact Nat.ne_of_lt (h.small e he)
  · intro e he
    simp only [hfil] at he
    rcases List.mem_append.mp he with he | he
    · have := h.small e he; omega
    · rw [List.mem_singleton.mp he]; simp only [hnext]; omega
  · simp only [inPool, hfil, List.map_append, List.map_cons, List.map_nil]
    rw [← List.append_assoc, hnext]
    exact h.perm.append_right _
  · rw [List.map_append, h.ids, List.range_succ]; rfl

theorem modify_map {p p' : Pool I Q} {id : Nat} {f : Q → Option Q}
    (h : modify p id f = some p') : p'.nextId = p.nextId ∧
      (p'.queries = p.queries ∧ (∀ e ∈ p.queries, e.id ≠ id) ∨
      ∃ e q', e ∈ p.queries ∧ e.id = id ∧ f e.query = some q' ∧
        p'.queries = p.queries.map (fun x => if x.id = id then { x with query := q' } else x)) := by
  unfold QueryPool.modify at h
  cases hf : p.queries.find? (fun e => decide (e.id = id)) with
  | none =>
    rw [hf] at h
    have h := Option.some.inj h
    subst h
    refine ⟨rfl, .inl ⟨rfl, ?_⟩⟩
    intro e he hh
    have := List.find?_eq_none.mp hf e he
    simp [hh] at this
  | some e =>
    rw [hf] at h
    simp only at h
    have h1 := List.mem_of_find?_eq_some hf
    have h2 : e.id = id := by simpa using List.find?_some hf
    cases hq : f e.query with
    | none => rw [hq] at h; cases h
    | some q' =>
      rw [hq] at h
      have h := Option.some.inj h
      subst h
      exact ⟨rfl, .inr ⟨e, q', h1, h2, hq, rfl⟩⟩

theorem modify_tags {p p' : Pool I Q} {id : Nat} {f : Q → Option Q}
    (h : modify p id f = some p') :
    p'.nextId = p.nextId ∧ p'.queries.map Entry.tag = p.queries.map Entry.tag := by
  obtain ⟨h0, h1⟩ := modify_map h
  refine ⟨h0, ?_⟩
  rcases h1 with ⟨h1, _⟩ | ⟨e, q', _, _, _, h1⟩
  · rw [h1]
  · rw [h1, List.map_map]
    apply List.map_congr_left
    intro x _
    simp only [Function.comp]
    split <;> rfl

theorem tag_ids (l : List (Entry I Q)) : l.map (·.id) = (l.map Entry.tag).map (·.1) := by
  rw [List.map_map]; rfl

theorem PoolInv.same {p p' : Pool I Q} {a ret ret' : List (Nat × I)} {k : Nat}
    (h : PoolInv p a ret k) (hn : p'.nextId = p.nextId)
    (hp : (ret' ++ p'.queries.map Entry.tag).Perm (ret ++ p.queries.map Entry.tag))
    (hs : ∃ extra, (p'.queries.map Entry.tag ++ extra).Perm (p.queries.map Entry.tag)) :
    PoolInv p' a ret' k := by
  obtain ⟨extra, hs⟩ := hs
  refine ⟨by rw [hn]; exact h.next, ?_, ?_, ?_, h.ids⟩
  · have := (hs.map (·.1)).nodup_iff.mpr (by rw [← tag_ids]; exact h.nodup)
    rw [List.map_append, ← tag_ids] at this
    exact (List.nodup_append.mp this).1
  · intro e he
    have : e.tag ∈ p.queries.map Entry.tag :=
      hs.mem_iff.mp (List.mem_append_left _ (List.mem_map.mpr ⟨e, he, rfl⟩))
    obtain ⟨x, hx, hxe⟩ := List.mem_map.mp this
    have h1 : x.id = e.id := congrArg Prod.fst hxe
    rw [← h1]; exact h.small x hx
  · exact hp.trans h.perm

theorem poolInv_run (ops : Ops Q) : ∀ (es : List (QueryPool.Event I Q)) {p p' : Pool I Q}
    {outs : List (Output I Q)} {a ret : List (Nat × I)} {k : Nat}, PoolInv p a ret k →
    k + adds es ≤ 2 ^ 64 → QueryPool.run ops p es = some (p', outs) →
    PoolInv p' (a ++ added outs) (ret ++ returned outs) (k + adds es) := by
  intro es
  induction es with
  | nil =>
    intro p p' outs a ret k h hk hr
    simp only [QueryPool.run, Option.some.injEq, Prod.mk.injEq] at hr
    obtain ⟨rfl, rfl⟩ := hr
    simpa [added, returned, adds] using h
  | cons e es ih =>
    intro p p' outs a ret k h hk hr
    simp only [QueryPool.run] at hr
    cases hs : QueryPool.step ops p e with
    | none => rw [hs] at hr; cases hr
    | some x =>
      obtain ⟨p1, o⟩ := x
      rw [hs] at hr
      simp only at hr
      cases hc : QueryPool.run ops p1 es with
      | none => rw [hc] at hr; cases hr
      | some y =>
        obtain ⟨p2, outs2⟩ := y
        rw [hc] at hr
        simp only [Option.map_some, Option.some.injEq, Prod.mk.injEq] at hr
        obtain ⟨rfl, rfl⟩ := hr
        cases e with
        | add info q =>
          simp only [adds] at hk
          obtain ⟨g1, g2⟩ := h.add (by omega) info q
          simp only [QueryPool.step, Option.some.injEq, Prod.mk.injEq] at hs
          obtain ⟨rfl, rfl⟩ := hs
          have := ih g2 (by omega) hc
          simp only [added, returned, adds, g1]
          rw [List.append_assoc, List.singleton_append] at this
          rw [Nat.add_comm (adds es) 1, ← Nat.add_assoc]
          exact this
        | modify id f =>
          simp only [QueryPool.step] at hs
          cases hm : modify p id f with
          | none => rw [hm] at hs; cases hs
          | some pm =>
            rw [hm] at hs
            simp only [Option.map_some, Option.some.injEq, Prod.mk.injEq] at hs
            obtain ⟨rfl, rfl⟩ := hs
            obtain ⟨m1, m2⟩ := modify_tags hm
            have h' : PoolInv pm a ret k :=
              h.same m1 (by rw [m2]) ⟨[], by rw [m2, List.append_nil]⟩
            have := ih h' hk hc
            exact this
        | poll now prio =>
          simp only [QueryPool.step] at hs
          rcases poll_spec ops p now prio h.nodup with ⟨_, _, _, g⟩ | ⟨qs, g, gp, _⟩ |
              ⟨qs, e0, e, st, out, g, _, _, _, gg⟩
          · rw [g] at hs; cases hs
          · rw [g] at hs
            simp only [Option.map_some, Option.some.injEq, Prod.mk.injEq] at hs
            obtain ⟨rfl, rfl⟩ := hs
            have h' : PoolInv { p with queries := qs } a ret k :=
              h.same rfl (gp.append_left _) ⟨[], by rw [List.append_nil]; exact gp⟩
            have := ih h' hk hc
            by_cases hqs : qs = []
            · rw [if_pos hqs]; exact this
            · rw [if_neg hqs]; exact this
          · rw [g] at hs
            simp only [Option.map_some, Option.some.injEq, Prod.mk.injEq] at hs
            obtain ⟨rfl, rfl⟩ := hs
            have keep : (qs.map Entry.tag).Perm (p.queries.map Entry.tag) →
                PoolInv { p with queries := qs } a ret k := fun gp =>
              h.same rfl (gp.append_left _) ⟨[], by rw [List.append_nil]; exact gp⟩
            have drop : (qs.map Entry.tag ++ [e.tag]).Perm (p.queries.map Entry.tag) →
                PoolInv { p with queries := qs } a (ret ++ [e.tag]) k := fun gp => by
              refine h.same rfl ?_ ⟨_, gp⟩
              rw [List.append_assoc]
              exact (List.perm_append_comm.trans gp).append_left ret
            rcases gg with ⟨_, ho, gp⟩ | ⟨_, ho, _, gp⟩ | ⟨_, _, ho, _, gp⟩ | ⟨_, _, ho, _, gp⟩
            · subst ho
              have := ih (drop gp) hk hc
              rw [List.append_assoc, List.singleton_append] at this
              exact this
            · subst ho
              have := ih (drop gp) hk hc
              rw [List.append_assoc, List.singleton_append] at this
              exact this
            · subst ho
              have := ih (keep gp) hk hc
              exact this
            · subst ho
              have := ih (keep gp) hk hc
              exact this

theorem poolInv_new : PoolInv (QueryPool.new I Q) [] [] 0 :=
  ⟨rfl, List.nodup_nil, fun e he => (by cases he), List.Perm.refl _, rfl⟩

theorem reach_nodup {ops : Ops Q} {es : List (QueryPool.Event I Q)} {p : Pool I Q}
    {outs : List (Output I Q)} (h : QueryPool.run ops (new I Q) es = some (p, outs))
    (hn : adds es ≤ 2 ^ 64) : (p.queries.map (·.id)).Nodup :=
  (poolInv_run ops es poolInv_new (by omega) h).nodup

theorem pollPeers_started {q q' : Query} {now : Nat} {c : Option Nat} {st : QState}
    (h : pollPeers q now c = some (q', st)) : q'.started = q.started := by
  unfold pollPeers at h
  split at h
  · cases h
  · injection h with h; injection h with h1 _; rw [← h1]
  · injection h with h; injection h with h1 _; rw [← h1]
  · split at h
    · injection h with h; injection h with h1 _; rw [← h1]
    · injection h with h; injection h with h1 _; rw [← h1]

theorem cPollRest_started {q q' : CQuery} {now : Nat} {st : QState}
    (h : cPollRest q now = some (q', st)) : q'.base.started = q.base.started := by
  unfold cPollRest at h
  split at h
  · injection h with h; injection h with h1 _; rw [← h1]
  · split at h
    · injection h with h; injection h with h1 _; rw [← h1]
    · cases hp : pollPeers q.base now none with
      | none => rw [hp] at h; cases h
      | some x =>
        rw [hp] at h
        simp only [Option.map_some, Option.some.injEq, Prod.mk.injEq] at h
        rw [← h.1]
        exact pollPeers_started (st := x.2) (by rw [hp])

/-- A lookup as it occurs in a history. -/
def Good (q : Query) : Prop := ∃ cfg t r, Inv cfg t q r

theorem good_start {q : Query} (h : Good q) (s : Option Nat) : Good { q with started := s } := by
  obtain ⟨cfg, t, r, h⟩ := h
  exact ⟨cfg, t, r, h.cfgEq, h.targetEq, h.sorted, h.known, h.state, h.asked, h.nodup, h.answered,
    h.answeredNodup, h.failed, h.count, h.pending, h.pendingNodup, h.over, h.bound⟩

theorem good_poll {q : Query} (h : Good q) (now : Nat) :
    ∃ q' st, Query.poll (ensureStarted nodeOps q now) now = some (q', st) ∧ Good q' := by
  have hg : Good (ensureStarted nodeOps q now) := by
    unfold ensureStarted
    split
    · exact good_start h _
    · exact h
  obtain ⟨cfg, t, r, h⟩ := hg
  obtain ⟨q', st, h1, h2⟩ := poll_inv h now
  exact ⟨q', st, h1, cfg, t, _, h2⟩

theorem run_adds (ops : Ops Q) (info : I) (q : Q) : ∀ (n k : Nat) (p : Pool I Q),
    p.nextId = k % 2 ^ 64 → ∃ p' outs,
      QueryPool.run ops p (List.replicate n (.add info q)) = some (p', outs) ∧
      p'.nextId = (k + n) % 2 ^ 64 ∧ returned outs = [] ∧
      (0 < n → (added outs).head? = some (k % 2 ^ 64, info))
  | 0, k, p, h => ⟨p, [], rfl, h, rfl, fun hh => absurd hh (by omega)⟩
  | n + 1, k, p, h => by
    have hnext : (addQuery p info q).1.nextId = (k + 1) % 2 ^ 64 := by
      simp only [addQuery, h]; omega
    obtain ⟨p', outs, h1, h2, h3, _⟩ := run_adds ops info q n (k + 1) _ hnext
    refine ⟨p', .added p.nextId info :: outs, ?_, by rw [h2, Nat.add_assoc, Nat.add_comm 1 n], h3, ?_⟩
    · simp only [List.replicate_succ, QueryPool.run, QueryPool.step, h1, Option.map_some]
      rfl
    · intro _
      simp [added, h]

theorem run_append (ops : Ops Q) : ∀ (a b : List (QueryPool.Event I Q)) (p p1 p2 : Pool I Q)
    (o1 o2 : List (Output I Q)), QueryPool.run ops p a = some (p1, o1) →
    QueryPool.run ops p1 b = some (p2, o2) → QueryPool.run ops p (a ++ b) = some (p2, o1 ++ o2)
  | [], b, p, p1, p2, o1, o2, h1, h2 => by
    simp only [QueryPool.run, Option.some.injEq, Prod.mk.injEq] at h1
    obtain ⟨rfl, rfl⟩ := h1
    exact h2
  | e :: a, b, p, p1, p2, o1, o2, h1, h2 => by
    simp only [QueryPool.run, List.cons_append] at h1 ⊢
    cases hs : QueryPool.step ops p e with
    | none => rw [hs] at h1; cases h1
    | some x =>
      rw [hs] at h1
      simp only at h1 ⊢
      cases hc : QueryPool.run ops x.1 a with
      | none => rw [hc] at h1; cases h1
      | some y =>
        obtain ⟨y1, y2⟩ := y
        rw [hc] at h1
        simp only [Option.map_some, Option.some.injEq, Prod.mk.injEq] at h1
        obtain ⟨rfl, rfl⟩ := h1
        rw [run_append ops a b x.1 y1 p2 y2 o2 hc h2]; rfl

theorem added_append : ∀ (a b : List (Output I Q)), added (a ++ b) = added a ++ added b
  | [], b => rfl
  | o :: a, b => by
    have ih := added_append a b
    cases o with
    | added id info => simp [added, ih]
    | none => simp [added, ih]
    | polled st => simp [added, ih]

end Verif.Props
