import Verif.Props.OwnRecordSpec

/-! # Lemmas for C89 -/

namespace Verif.OwnRecord
open Verif.Props.OwnRecordSpec

theorem found_iff (w : World) (port : Nat) (s : Sock) : (upnpForExternal w port).2 = some s ↔ s.port = port ∧ Found w s.ip := by
  unfold upnpForExternal Found
  cases hg : w.gateway with
  | none => simp
  | some g =>
    cases h1 : g.reachedFrom with
    | none =>
      simp only [h1]
      constructor
      · intro h; simp at h
      · rintro ⟨_, g', f, h, h2, _⟩; cases h; rw [h1] at h2; simp at h2
    | some ip =>
      cases h2 : g.external with
      | none =>
        simp only [h1, h2]
        constructor
        · intro h; simp at h
        · rintro ⟨_, g', f, h, _, h3, _⟩; cases h; rw [h2] at h3; simp at h3
      | some ext =>
        cases h3 : g.maps with
        | false =>
          simp only [h1, h2, h3]
          constructor
          · intro h; simp at h
          · rintro ⟨_, g', f, h, _, _, h4⟩; cases h; rw [h3] at h4; simp at h4
        | true =>
          simp only [h1, h2, h3, if_true, Option.some.injEq]
          constructor
          · rintro rfl; exact ⟨rfl, g, ip, rfl, h1, h2, h3⟩
          · rintro ⟨hp, g', f, h, _, h4, _⟩
            cases h; rw [h2] at h4; cases h4
            cases s; simp_all

theorem addEnr_spec {own : Id} {table table' : List Peer} {p : Peer} (h : addEnr own table p = some table')
    (hn : (table.map (·.id)).Nodup) :
    (table'.map (·.id)).Nodup ∧ p.udp4.isSome ∧
    ∀ q, q ∈ table' ↔ q = p ∨ (q ∈ table ∧ q.id ≠ p.id) := by
  unfold addEnr at h
  split at h
  · simp at h
  · next hu =>
    have hu' : p.udp4.isSome := by cases hq : p.udp4 <;> simp_all
    split at h
    · next ha =>
      cases h
      have hm : (table.map fun q => if q.id = p.id then p else q).map (·.id) = table.map (·.id) := by
        rw [List.map_map]
        apply List.map_congr_left
        intro q _
        simp only [Function.comp]
        split
        · next h => exact h.symm
        · rfl
      refine ⟨by rw [hm]; exact hn, hu', ?_⟩
      intro q
      rw [List.mem_map]
      constructor
      · rintro ⟨r, hr, e⟩
        split at e
        · exact .inl e.symm
        · next hne => subst e; exact .inr ⟨hr, hne⟩
      · rintro (rfl | ⟨hq, hne⟩)
        · rw [List.any_eq_true] at ha
          obtain ⟨r, hr, e⟩ := ha
          exact ⟨r, hr, by rw [if_pos (by simpa using e)]⟩
        · exact ⟨q, hq, by rw [if_neg hne]⟩
    · next ha =>
      split at h
      · simp at h
      · cases h
        have hfresh : ∀ q ∈ table, q.id ≠ p.id := by
          intro q hq e
          exact ha (List.any_eq_true.mpr ⟨q, hq, by simpa using e⟩)
        refine ⟨?_, hu', ?_⟩
        · rw [List.map_append, List.nodup_append]
          refine ⟨hn, by simp, ?_⟩
          intro a ha' b hb e
          obtain ⟨q, hq, rfl⟩ := List.mem_map.mp ha'
          simp only [List.map_cons, List.map_nil, List.mem_singleton] at hb
          exact hfresh q hq (e.trans hb)
        · intro q
          rw [List.mem_append, List.mem_singleton]
          constructor
          · rintro (h | h)
            · exact .inr ⟨h, hfresh q h⟩
            · exact .inl h
          · rintro (h | h)
            · exact .inr h
            · exact .inl h.1

/-- The last record of an id in a list, if there is one. -/
def lastOf (ps : List Peer) (i : Id) : Option Peer := ps.reverse.find? fun p => p.id == i

theorem addBootnodes_spec (own : Id) : ∀ (ps table table' : List Peer), addBootnodes own table ps = some table' →
    (table.map (·.id)).Nodup → (∀ q ∈ table, q.id ≠ own) →
    (table'.map (·.id)).Nodup ∧ (∀ p ∈ ps, p.id ≠ own → p.udp4.isSome) ∧
    ∀ q, q ∈ table' ↔ q.id ≠ own ∧ (lastOf ps q.id = some q ∨ (lastOf ps q.id = none ∧ q ∈ table))
  | [], table, table', h, hn, ho => by
    simp only [addBootnodes, Option.some.injEq] at h
    subst h
    refine ⟨hn, by simp, ?_⟩
    intro q
    simp only [lastOf, List.reverse_nil, List.find?_nil]
    exact ⟨fun h => ⟨ho q h, .inr ⟨trivial, h⟩⟩, fun h => by simpa using h.2⟩
  | p :: ps, table, table', h, hn, ho => by
    have hlast : ∀ i, lastOf (p :: ps) i = (lastOf ps i).or (if p.id = i then some p else none) := by
      intro i
      unfold lastOf
      rw [List.reverse_cons, List.find?_append]
      congr 1
      by_cases e : p.id = i <;> simp [e]
    rw [addBootnodes] at h
    split at h
    · next he =>
      obtain ⟨h1, h2, h3⟩ := addBootnodes_spec own ps table table' h hn ho
      refine ⟨h1, ?_, ?_⟩
      · intro q hq hne
        rcases List.mem_cons.mp hq with rfl | hq
        · exact absurd he hne
        · exact h2 q hq hne
      · intro q
        rw [h3 q, hlast]
        constructor
        · rintro ⟨a, b⟩
          refine ⟨a, ?_⟩
          have : p.id ≠ q.id := fun e => a (e.symm.trans he)
          simpa [this] using b
        · rintro ⟨a, b⟩
          refine ⟨a, ?_⟩
          have : p.id ≠ q.id := fun e => a (e.symm.trans he)
          simpa [this] using b
    · next hne =>
      cases ha : addEnr own table p with
      | none => rw [ha] at h; simp at h
      | some t1 =>
        rw [ha] at h
        simp only [] at h
        obtain ⟨a1, a2, a3⟩ := addEnr_spec ha hn
        obtain ⟨h1, h2, h3⟩ := addBootnodes_spec own ps t1 table' h a1 (by
          intro q hq
          rcases (a3 q).mp hq with rfl | hq
          · exact hne
          · exact ho q hq.1)
        refine ⟨h1, ?_, ?_⟩
        · intro q hq hqne
          rcases List.mem_cons.mp hq with rfl | hq
          · exact a2
          · exact h2 q hq hqne
        · intro q
          rw [h3 q, hlast, a3 q]
          cases hl : lastOf ps q.id with
          | some r => simp
          | none =>
            by_cases e : p.id = q.id
            · simp only [e, Option.none_or, if_true]
              constructor
              · rintro ⟨x, y | y⟩
                · exact absurd y (by simp)
                · rcases y.2 with rfl | y
                  · exact ⟨x, .inl rfl⟩
                  · exact absurd rfl y.2
              · rintro ⟨x, y | y⟩
                · exact ⟨x, .inr ⟨trivial, .inl (Option.some.inj y).symm⟩⟩
                · exact absurd y.1 (by simp)
            · simp only [e, Option.none_or, if_false]
              constructor
              · rintro ⟨x, y | y⟩
                · exact absurd y (by simp)
                · rcases y.2 with rfl | y
                  · exact absurd rfl e
                  · exact ⟨x, .inr ⟨trivial, y.1⟩⟩
              · rintro ⟨x, y | y⟩
                · exact absurd y (by simp)
                · exact ⟨x, .inr ⟨trivial, .inr ⟨y.2, fun h => e h.symm⟩⟩⟩

theorem addBootnodes_total (own : Id) (all : List Peer) (hf : Fits own all) (hu : ∀ p ∈ all, p.id ≠ own → p.udp4.isSome) :
    ∀ (ps table : List Peer), (∀ p ∈ ps, p ∈ all) → (∀ q ∈ table, q ∈ all ∧ q.id ≠ own) → (table.map (·.id)).Nodup →
    ∃ table', addBootnodes own table ps = some table'
  | [], table, _, _, _ => ⟨table, rfl⟩
  | p :: ps, table, hps, ht, hn => by
    rw [addBootnodes]
    have hrest : ∀ q ∈ ps, q ∈ all := fun q hq => hps q (List.mem_cons_of_mem _ hq)
    split
    · exact addBootnodes_total own all hf hu ps table hrest ht hn
    · next hne =>
      have hp := hps p (List.mem_cons_self ..)
      have hex : ∃ t1, addEnr own table p = some t1 := by
        unfold addEnr
        have h1 : p.udp4.isNone = false := by
          have := hu p hp hne
          cases hq : p.udp4 <;> simp_all
        rw [h1]
        simp only [Bool.false_eq_true, if_false]
        split
        · exact ⟨_, rfl⟩
        · next ha =>
          split
          · next hfull =>
            exfalso
            let same := table.filter fun q => bucketOf own q.id == bucketOf own p.id
            have hnd : (p.id :: same.map (·.id)).Nodup := by
              rw [List.nodup_cons]
              refine ⟨?_, ?_⟩
              · intro hm
                obtain ⟨q, hq, e⟩ := List.mem_map.mp hm
                exact ha (List.any_eq_true.mpr ⟨q, (List.mem_filter.mp hq).1, by simpa using e⟩)
              · exact List.Sublist.nodup ((List.filter_sublist).map _) hn
            have hb : ∀ i ∈ p.id :: same.map (·.id), bucketOf own i = bucketOf own p.id := by
              intro i hi
              rcases List.mem_cons.mp hi with rfl | hi
              · rfl
              · obtain ⟨q, hq, rfl⟩ := List.mem_map.mp hi
                simpa using (List.mem_filter.mp hq).2
            have := hf (p.id :: same.map (·.id)) hnd (by
              intro i hi
              rcases List.mem_cons.mp hi with rfl | hi
              · exact ⟨hne, p, hp, rfl⟩
              · obtain ⟨q, hq, rfl⟩ := List.mem_map.mp hi
                obtain ⟨x, y⟩ := ht q (List.mem_filter.mp hq).1
                exact ⟨y, q, x, rfl⟩) (by
              intro i hi j hj
              exact (hb i hi).trans (hb j hj).symm)
            rw [List.length_cons, List.length_map] at this
            have hl : same.length ≥ 16 := hfull
            omega
          · exact ⟨_, rfl⟩
      obtain ⟨t1, e⟩ := hex
      rw [e]
      obtain ⟨a1, _, a3⟩ := addEnr_spec e hn
      exact addBootnodes_total own all hf hu ps t1 hrest (by
        intro q hq
        rcases (a3 q).mp hq with rfl | hq
        · exact ⟨hp, hne⟩
        · exact ht q hq.1) a1

end Verif.OwnRecord
